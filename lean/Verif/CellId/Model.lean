import Verif.RaId.Props
/-!
Model of the cell identifiers of `src/gsm/gsm0808_utils.c` (3GPP TS 48.008
3.2.2.17 and 3.2.2.27).

A cell identifier, the discriminator together with the union
`gsm0808_cell_id_u` (gsm0808_utils.h:43-58), is a value of the inductive type
`CellId`; in a list all entries have the kind of the list's discriminator
(`CList.Wf`).  Simplifications: the message buffer is the list of octets
appended, room is assumed; NULL arguments are left out; a failing assertion is
`none`.
-/
namespace Verif.CellId
open Verif.Gsm23003 Verif.RaId

/-- `-EINVAL` of gsm0808_utils.c:1198, 1314, 1350, 1466, 1559, 1562. -/
def EINVAL : Int := -22
/-- `-ENOSPC` of gsm0808_utils.c:1173, 1481. -/
def ENOSPC : Int := -28

/-- gsm0808_utils.h:43-58 with gsm_08_08.h:17-34, `enum CELL_IDENT`; `utran k`
stands for the three kinds 8, 9 and 10 that are not implemented. -/
inductive CellId where
  | cgi (c : Cgi)
  | lacCi (lac ci : BitVec 16)
  | ci (ci : BitVec 16)
  | noCell
  | lai (l : Lai)
  | lac (lac : BitVec 16)
  | bss
  | utran (k : Fin 3)
  | sai (l : Lai) (sac : BitVec 16)
  | cgiPs (c : CgiPs)
deriving DecidableEq, Repr

/-- gsm_08_08.h:17-32, the discriminators. -/
def discr : CellId → Nat
  | .cgi _ => 0
  | .lacCi _ _ => 1
  | .ci _ => 2
  | .noCell => 3
  | .lai _ => 4
  | .lac _ => 5
  | .bss => 6
  | .utran k => 8 + k.val
  | .sai _ _ => 11
  | .cgiPs _ => 128

/-- gsm0808_utils.h:61-65, `struct gsm0808_cell_id_list2`. -/
structure CList where
  discr : Nat
  ids : List CellId
deriving DecidableEq, Repr

/-- gsm0808_utils.c:1023-1081, `gsm0808_msgb_put_cell_id_u`: the octets
appended; `none` = assertion. -/
def put : CellId → Option (List Byte)
  | .cgi c => some (generateLai2 c.lai ++ be16 c.ci)
  | .lacCi lac ci => some (be16 lac ++ be16 ci)
  | .ci ci => some (be16 ci)
  | .lai l => some (generateLai2 l)
  | .lac lac => some (be16 lac)
  | .bss => some []
  | .noCell => some []
  | .sai l sac => some (generateLai2 l ++ be16 sac)
  | .cgiPs c => some (generateLai2 c.rai.lai ++ [c.rai.rac] ++ be16 c.ci)
  | .utran _ => none

/-- gsm0808_utils.c:893-935, `cell_id_to_cgi`: writes what the identifier has. -/
def toCgi (dst : Cgi) : CellId → Cgi
  | .cgi c => c
  | .cgiPs c => { dst with lai := c.rai.lai, ci := c.ci }
  | .lacCi lac ci => { lai := { dst.lai with lac := lac }, ci := ci }
  | .ci ci => { dst with ci := ci }
  | .lai l => { dst with lai := l }
  | .lac lac => { dst with lai := { dst.lai with lac := lac } }
  | .sai l _ => { dst with lai := l }
  | _ => dst

/-- gsm0808_utils.c:1110-1116, one entry of the list; the CGI of a CGI-PS is
written completely (lines 902-903), so that what `u` held does not matter. -/
def putEntry : CellId → Option (List Byte)
  | .cgiPs c => put (.cgi (toCgi ⟨⟨⟨0, 0, false⟩, 0⟩, 0⟩ (.cgiPs c)))
  | c => put c

/-- gsm0808_utils.c:1109-1117, the loop over the entries. -/
def putAll : List CellId → Option (List Byte)
  | [] => some []
  | c :: cs => do
    let b ← putEntry c
    let r ← putAll cs
    some (b ++ r)

/-- gsm0808_utils.c:1101-1104, the discriminator sent. -/
def sentDiscr (d : Nat) : Nat := if d = 128 then 0 else d % 16

/-- gsm0808_utils.c:1087-1121, `gsm0808_enc_cell_id_list2`: the octets appended
and the return value, both lengths in a `uint8_t`; `none` = assertion. -/
def encList (l : CList) : Option (List Byte × Nat) :=
  if l.ids.length > 127 then none
  else do
    let b ← putAll l.ids
    let n := (1 + b.length) % 256
    some (26#8 :: BitVec.ofNat 8 n :: BitVec.ofNat 8 (sentDiscr l.discr) :: b, (n + 2) % 256)

/-- gsm0808_utils.c:968-1021, `gsm0808_decode_cell_id_u`; `none` = -EINVAL.  The
lengths are checked first, so nothing beyond the buffer is read. -/
def decodeU (d : Nat) (buf : List Byte) : Option CellId :=
  match d with
  | 0 => match decodeLai2 buf, buf.drop 5 with
    | some l, a :: b :: _ => some (.cgi ⟨l, ld16 a b⟩)
    | _, _ => none
  | 1 => match buf with
    | a :: b :: c :: e :: _ => some (.lacCi (ld16 a b) (ld16 c e))
    | _ => none
  | 2 => match buf with
    | a :: b :: _ => some (.ci (ld16 a b))
    | _ => none
  | 4 => (decodeLai2 buf).map .lai
  | 5 => match buf with
    | a :: b :: _ => some (.lac (ld16 a b))
    | _ => none
  | 6 => some .bss
  | 3 => some .noCell
  | 11 => match decodeLai2 buf, buf.drop 5 with
    | some l, a :: b :: _ => some (.sai l (ld16 a b))
    | _, _ => none
  | 128 => match decodeLai2 buf, buf.drop 5 with
    | some l, r :: a :: b :: _ => some (.cgiPs ⟨⟨l, r⟩, ld16 a b⟩)
    | _, _ => none
  | _ => none

/-- gsm0808_utils.c:1161-1297, the loops of the `parse_cell_id_*` functions with
elements of `size` octets and room for `n` more: every one reads its elements
as `gsm0808_decode_cell_id_u` does. -/
def parse (d size : Nat) : Nat → List Byte → Except Int (List CellId × Nat)
  | n, l =>
    if l.length < size then .ok ([], 0)
    else match n with
      | 0 => .error ENOSPC
      | n + 1 =>
        match decodeU d l with
        | none => .error EINVAL
        | some c =>
          match parse d size n (l.drop size) with
          | .error e => .error e
          | .ok (cs, k) => .ok (c :: cs, size + k)

/-- gsm0808_utils.c:1322-1351: the parser of each discriminator; only the one of
LAC and CI refuses an empty list (1197). -/
def parseList (d : Nat) (l : List Byte) : Except Int (List CellId × Nat) :=
  match d with
  | 0 => parse 0 7 127 l
  | 1 => if l.length < 4 then .error EINVAL else parse 1 4 127 l
  | 2 => parse 2 2 127 l
  | 4 => parse 4 5 127 l
  | 5 => parse 5 2 127 l
  | 6 => .ok ([], 0)
  | 3 => .ok ([], 0)
  | 11 => parse 11 7 127 l
  | _ => .error EINVAL

/-- gsm0808_utils.c:1304-1362, `gsm0808_dec_cell_id_list2`: list and octets
parsed. -/
def decList : List Byte → Except Int (CList × Nat)
  | [] => .error EINVAL
  | h :: l =>
    match parseList (h &&& 0x0f#8).toNat l with
    | .error e => .error e
    | .ok (ids, k) => .ok (⟨(h &&& 0x0f#8).toNat, ids⟩, 1 + k)

/-- gsm0808_utils.c:1525-1543, `gsm0808_enc_cell_id`: a list of one, with its own
tag. -/
def encId (c : CellId) : Option (List Byte × Nat) := do
  let (b, rc) ← encList ⟨discr c, [c]⟩
  if rc = 0 then some (b, rc) else some (5#8 :: b.drop 1, rc)

/-- gsm0808_utils.c:1550-1567, `gsm0808_dec_cell_id`.  Without entries the
union is all zero, of which the kinds 6 and 3 use nothing. -/
def decId (l : List Byte) : Except Int (CellId × Nat) :=
  match decList l with
  | .error e => .error e
  | .ok (cl, k) =>
    if cl.discr = 6 then (if cl.ids.length ≠ 0 then .error EINVAL else .ok (.bss, k))
    else if cl.discr = 3 then (if cl.ids.length ≠ 0 then .error EINVAL else .ok (.noCell, k))
    else match cl.ids with
      | [c] => .ok (c, k)
      | _ => .error EINVAL

/-- gsm0808_utils.c:1411-1446, `same_cell_id_list_entries` for entries of lists
with discriminators `da` and `db`: compares the octets of lists of one. -/
def sameEntry (da : Nat) (a : CellId) (db : Nat) (b : CellId) : Option Bool :=
  if da ≠ db then some false
  else do
    let x ← encList ⟨da, [a]⟩
    let y ← encList ⟨da, [b]⟩
    some (decide (x.1 = y.1))

/-- gsm0808_utils.c:1471-1476, the search for a duplicate. -/
def present (dd : Nat) (ds : Nat) (c : CellId) : List CellId → Option Bool
  | [] => some false
  | x :: xs => do
    if (← sameEntry dd x ds c) then some true else present dd ds c xs

/-- gsm0808_utils.c:1468-1487, the loop over the source with `added` so far. -/
def addLoop (dd ds : Nat) : List CellId → List CellId → Nat → Option (List CellId × Int)
  | dst, [], added => some (dst, added)
  | dst, c :: cs, added => do
    if (← present dd ds c dst) then addLoop dd ds dst cs added
    else if dst.length ≥ 127 then some (dst, ENOSPC)
    else addLoop dd ds (dst ++ [c]) cs (added + 1)

/-- gsm0808_utils.c:1457-1488, `gsm0808_cell_id_list_add`: the destination and
the return value. -/
def add (dst src : CList) : Option (CList × Int) :=
  if dst.ids.length = 0 ∧ dst.discr ≠ 6 then
    (addLoop src.discr src.discr dst.ids src.ids 0).map fun r => (⟨src.discr, r.1⟩, r.2)
  else if dst.discr ≠ src.discr then some (dst, EINVAL)
  else (addLoop dst.discr src.discr dst.ids src.ids 0).map fun r => (⟨dst.discr, r.1⟩, r.2)

/-- gsm0808_utils.c:1862-1863: all zero. -/
def zeroCgi : Cgi := ⟨⟨⟨0, 0, false⟩, 0⟩, 0⟩

/-- gsm0808_utils.c:1858-1907, `gsm0808_cell_id_u_match`; also
`gsm0808_cell_ids_match` (1919-1922). -/
def idsMatch (id1 id2 : CellId) (exact : Bool) : Bool :=
  if exact = true ∧ discr id1 ≠ discr id2 then false
  else if discr id1 = 3 ∨ discr id1 = 6 then decide (discr id1 = discr id2)
  else if discr id1 = 8 ∨ discr id1 = 9 ∨ discr id1 = 10 then false
  else if discr id2 = 3 ∨ discr id2 = 8 ∨ discr id2 = 9 ∨ discr id2 = 10 ∨ discr id2 = 6 then false
  else
    let a := toCgi (toCgi zeroCgi id2) id1
    let b := toCgi (toCgi zeroCgi id1) id2
    decide (cgiCmp a b = 0)

/-- gsm0808_utils.c:1940-1948, the loop of `gsm0808_cell_id_matches_list` from
index `i` on. -/
def matchLoop (id : CellId) (exact : Bool) : List CellId → Nat → Nat → Int
  | [], _, _ => -1
  | c :: cs, i, nr =>
    if idsMatch id c exact then
      match nr with
      | 0 => i
      | nr + 1 => matchLoop id exact cs (i + 1) nr
    else matchLoop id exact cs (i + 1) nr

/-- gsm0808_utils.c:1936-1949, `gsm0808_cell_id_matches_list`. -/
def matchesList (id : CellId) (l : CList) (nr : Nat) (exact : Bool) : Int :=
  matchLoop id exact l.ids 0 nr

/-- gsm0808_utils.c:1956-2009, `gsm0808_cell_id_from_cgi`; kinds that do not
exist are left out (`none`). -/
def fromCgi (d : Nat) (c : Cgi) : Option CellId :=
  match d with
  | 0 => some (.cgi c)
  | 128 => some (.cgiPs ⟨⟨c.lai, 0⟩, c.ci⟩)
  | 1 => some (.lacCi c.lai.lac c.ci)
  | 2 => some (.ci c.ci)
  | 4 => some (.lai c.lai)
  | 5 => some (.lac c.lai.lac)
  | 11 => some (.sai c.lai 0)
  | 3 => some .noCell
  | 6 => some .bss
  | 8 => some (.utran 0)
  | 9 => some (.utran 1)
  | 10 => some (.utran 2)
  | _ => none

/-- gsm0808_utils.c:2018-2059, `gsm0808_cell_id_to_cgi`: the CGI and the parts
set: PLMN, LAC, CI (a bit mask in C, gsm0808_utils.h). -/
def idToCgi (cgi : Cgi) (c : CellId) : Cgi × (Bool × Bool × Bool) :=
  match c with
  | .cgi x => (x, (true, true, true))
  | .cgiPs x => ({ cgi with lai := x.rai.lai, ci := x.ci }, (true, true, true))
  | .lacCi lac ci => ({ lai := { cgi.lai with lac := lac }, ci := ci }, (false, true, true))
  | .ci ci => ({ cgi with ci := ci }, (false, false, true))
  | .lai l => ({ cgi with lai := l }, (true, true, false))
  | .lac lac => ({ cgi with lai := { cgi.lai with lac := lac } }, (false, true, false))
  | .sai l _ => ({ cgi with lai := l }, (true, true, false))
  | _ => (cgi, (false, false, false))

end Verif.CellId
