import Verif.Common
import Verif.Utils.NumModel
import Verif.Utils.ArithModel
/-!
Model of src/gsm/gsm23003.c: validation of digit strings, names, BCD coding,
comparison and 3GPP domain names of network identities.  C strings are byte
lists without NUL inside; a NULL pointer is `none`.
-/
namespace Verif.Gsm23003
open Verif.Utils

/-! ## Types, include/osmocom/gsm/gsm23003.h -/

/-- include/osmocom/gsm/gsm23003.h:10-14 `osmo_plmn_id` -/
structure Plmn where
  mcc : BitVec 16
  mnc : BitVec 16
  mnc3 : Bool
  deriving DecidableEq, Repr

/-- include/osmocom/gsm/gsm23003.h:17-20 `osmo_location_area_id` -/
structure Lai where
  plmn : Plmn
  lac : BitVec 16
  deriving DecidableEq, Repr

/-- include/osmocom/gsm/gsm23003.h:23-26 `osmo_routing_area_id` -/
structure Rai where
  lai : Lai
  rac : BitVec 8
  deriving DecidableEq, Repr

/-- include/osmocom/gsm/gsm23003.h:29-32 `osmo_cell_global_id` -/
structure Cgi where
  lai : Lai
  ci : BitVec 16
  deriving DecidableEq, Repr

/-- include/osmocom/gsm/gsm23003.h:37-40 `osmo_cell_global_id_ps` -/
structure CgiPs where
  rai : Rai
  ci : BitVec 16
  deriving DecidableEq, Repr

/-- include/osmocom/gsm/gsm23003.h:60-63 `osmo_rnc_id` -/
structure RncId where
  plmn : Plmn
  rncId : BitVec 16
  deriving DecidableEq, Repr

/-- include/osmocom/gsm/gsm23003.h:102-105 `osmo_mme_id` -/
structure MmeId where
  groupId : BitVec 16
  code : BitVec 8
  deriving DecidableEq, Repr

/-- include/osmocom/gsm/gsm23003.h:108-111 `osmo_gummei` -/
structure Gummei where
  plmn : Plmn
  mme : MmeId
  deriving DecidableEq, Repr

/-! ## Digit strings -/

/-- src/gsm/gsm23003.c:40-42: the loop; `k` = `max_digits - len`; `none` = a
character that is no digit, otherwise the final `len` and what `pos` points to -/
def digitLoop (k len : Nat) (s : List Byte) : Option (Nat × List Byte) :=
  match k, s with
  | 0, s => some (len, s)
  | _, [] => some (len, [])
  | k + 1, c :: s => if isDigit c then digitLoop k (len + 1) s else none

/-- src/gsm/gsm23003.c:32-49 `is_n_digits` -/
def isNDigits (str : Option (List Byte)) (mn mx : Nat) : Bool :=
  match str with
  | none => mn < 1
  | some s =>
    match digitLoop mx 0 s with
    | none => false
    | some (len, rest) => if len < mn then false else if rest ≠ [] then false else true

/-- src/gsm/gsm23003.c:56-59 `osmo_imsi_str_valid` -/
def imsiStrValid (s : Option (List Byte)) : Bool := isNDigits s 6 15

/-- src/gsm/gsm23003.c:66-69 `osmo_msisdn_str_valid` -/
def msisdnStrValid (s : Option (List Byte)) : Bool := isNDigits s 1 15

/-- src/gsm/gsm23003.c:80-86 `osmo_imei_str_valid`.  `imei[14]` is read as the
NUL behind a 14 character string would be; it is only reached with 15 digits. -/
def imeiStrValid (s : Option (List Byte)) (with15 : Bool) : Bool :=
  if with15 then
    isNDigits s 15 15 && luhn ((s.getD []).take 14) = .digit ((s.getD []).getD 14 0#8)
  else isNDigits s 14 14

/-! ## Names.  The intermediate buffers (8, 16, 32 bytes) hold the longest
possible text of 16 bit values, see `names_fit`. -/

/-- src/gsm/gsm23003.c:94-98 `osmo_mcc_name_buf`: the text printed -/
def mccName (mcc : BitVec 16) : List Byte := decNatW 3 mcc.toNat

/-- src/gsm/gsm23003.c:130-134 `osmo_mnc_name_buf` -/
def mncName (mnc : BitVec 16) (mnc3 : Bool) : List Byte := decNatW (if mnc3 then 3 else 2) mnc.toNat

/-- src/gsm/gsm23003.c:167-173 `osmo_plmn_name_buf` -/
def plmnName (p : Plmn) : List Byte := mccName p.mcc ++ 0x2d#8 :: mncName p.mnc p.mnc3

/-- src/gsm/gsm23003.c:216-221 `osmo_lai_name_buf` -/
def laiName (l : Lai) : List Byte := plmnName l.plmn ++ 0x2d#8 :: decNat l.lac.toNat

/-- src/gsm/gsm23003.c:252-258 `osmo_rai_name2_buf` -/
def raiName (r : Rai) : List Byte :=
  plmnName r.lai.plmn ++ 0x2d#8 :: (decNat r.lai.lac.toNat ++ 0x2d#8 :: decNat r.rac.toNat)

/-- src/gsm/gsm23003.c:289-293 `osmo_cgi_name_buf` -/
def cgiName (c : Cgi) : List Byte := laiName c.lai ++ 0x2d#8 :: decNat c.ci.toNat

/-- src/gsm/gsm23003.c:333-337 `osmo_cgi_ps_name_buf` -/
def cgiPsName (c : CgiPs) : List Byte := raiName c.rai ++ 0x2d#8 :: decNat c.ci.toNat

/-- one lower case hexadecimal digit -/
def hexChar (n : Nat) : Byte := if n < 10 then BitVec.ofNat 8 (0x30 + n) else BitVec.ofNat 8 (0x57 + n)

/-- `"%0wx"` of a value below 16^w -/
def hexFixed : Nat → Nat → List Byte
  | 0, _ => []
  | w + 1, n => hexFixed w (n / 16) ++ [hexChar (n % 16)]

/-- src/gsm/gsm23003.c:469-475 `osmo_gummei_name_buf` -/
def gummeiName (g : Gummei) : List Byte :=
  plmnName g.plmn ++ 0x2d#8 :: (hexFixed 4 g.mme.groupId.toNat ++ 0x2d#8 :: hexFixed 2 g.mme.code.toNat)

/-! ## BCD -/

/-- src/gsm/gsm23003.c:454-461 `to_bcd`: bcd[0], bcd[1], bcd[2] -/
def toBcd (v : BitVec 16) : BitVec 8 × BitVec 8 × BitVec 8 :=
  let b2 := v % 10#16
  let v := v / 10#16
  let b1 := v % 10#16
  let v := v / 10#16
  (BitVec.setWidth 8 (v % 10#16), BitVec.setWidth 8 b1, BitVec.setWidth 8 b2)

/-- src/gsm/gsm23003.c:513-529 `osmo_plmn_to_bcd`: the three octets written -/
def plmnToBcd (p : Plmn) : BitVec 8 × BitVec 8 × BitVec 8 :=
  let c := toBcd p.mcc
  let n := toBcd p.mnc
  let d0 := c.1 ||| (c.2.1 <<< 4)
  let d1 := c.2.2
  if p.mnc > 99#16 ∨ p.mnc3 = true then (d0, d1 ||| (n.2.2 <<< 4), n.1 ||| (n.2.1 <<< 4))
  else (d0, d1 ||| 0xf0#8, n.2.1 ||| (n.2.2 <<< 4))

/-- an octet in an `int` expression assigned to `uint16_t` -/
def u16 (b : BitVec 8) : BitVec 16 := b.setWidth 16

/-- src/gsm/gsm23003.c:538-554 `osmo_plmn_from_bcd` -/
def plmnFromBcd (b : BitVec 8 × BitVec 8 × BitVec 8) : Plmn :=
  let mcc := u16 (b.1 &&& 0x0f#8) * 100#16 + u16 (b.1 >>> 4) * 10#16 + u16 (b.2.1 &&& 0x0f#8)
  if b.2.1 &&& 0xf0#8 = 0xf0#8 then
    { mcc := mcc, mnc := u16 (b.2.2 &&& 0x0f#8) * 10#16 + u16 (b.2.2 >>> 4), mnc3 := false }
  else
    { mcc := mcc, mnc := u16 (b.2.2 &&& 0x0f#8) * 100#16 + u16 (b.2.2 >>> 4) * 10#16 + u16 (b.2.1 >>> 4),
      mnc3 := true }

/-! ## MNC from text -/

/-- src/gsm/gsm23003.c:565-591 `osmo_mnc_from_str`: return code and, on success,
the values of the out-arguments (they are not touched otherwise).
`osmo_str_to_int` returns no positive code, so lines 579-580 never apply. -/
def mncFromStr (s : Option (List Byte)) : Errno × Option (BitVec 16 × Bool) :=
  match s with
  | none => (.EINVAL, none)
  | some s =>
    if isDigit (s.getD 0 0#8) = false ∨ s.length > 3 then (.EINVAL, none)
    else
      let r := strToInt s 10 0 999
      if r.2 = .E2BIG then (.EINVAL, none)
      else if r.2 ≠ .ok then (r.2, none)
      else (.ok, some (BitVec.ofInt 16 r.1, s.length > 2))

/-! ## Comparison.  The shortcut for equal pointers (line 620) is not modelled:
it returns what the comparison of equal values returns. -/

/-- src/gsm/gsm23003.c:602-612 `osmo_mnc_cmp` -/
def mncCmp (a : BitVec 16) (a3 : Bool) (b : BitVec 16) (b3 : Bool) : Int :=
  if a < b then -1
  else if a > b then 1
  else if a < 100#16 ∧ a3 ≠ b3 then (if a3 then 1 else -1)
  else 0

/-- src/gsm/gsm23003.c:618-627 `osmo_plmn_cmp` -/
def plmnCmp (a b : Plmn) : Int :=
  if a.mcc < b.mcc then -1
  else if a.mcc > b.mcc then 1
  else mncCmp a.mnc a.mnc3 b.mnc b.mnc3

/-- the pattern `if (rc) return rc; if (a < b) return -1; if (a > b) return 1; return 0;`
of src/gsm/gsm23003.c:636-643 and the functions below it -/
def thenCmp {w : Nat} (rc : Int) (x y : BitVec w) : Int :=
  if rc ≠ 0 then rc
  else if x < y then -1
  else if x > y then 1
  else 0

/-- src/gsm/gsm23003.c:634-644 `osmo_lai_cmp` -/
def laiCmp (a b : Lai) : Int := thenCmp (plmnCmp a.plmn b.plmn) a.lac b.lac

/-- src/gsm/gsm23003.c:651-661 `osmo_rai_cmp` -/
def raiCmp (a b : Rai) : Int := thenCmp (laiCmp a.lai b.lai) a.rac b.rac

/-- src/gsm/gsm23003.c:668-678 `osmo_cgi_cmp` -/
def cgiCmp (a b : Cgi) : Int := thenCmp (laiCmp a.lai b.lai) a.ci b.ci

/-- src/gsm/gsm23003.c:685-695 `osmo_cgi_ps_cmp` -/
def cgiPsCmp (a b : CgiPs) : Int := thenCmp (raiCmp a.rai b.rai) a.ci b.ci

/-- src/gsm/gsm23003.c:702-713 `osmo_rnc_id_cmp` -/
def rncIdCmp (a b : RncId) : Int := thenCmp (plmnCmp a.plmn b.plmn) a.rncId b.rncId

/-- src/gsm/gsm23003.c:720-733 `osmo_mme_id_cmp` -/
def mmeIdCmp (a b : MmeId) : Int :=
  if a.groupId < b.groupId then -1
  else if a.groupId > b.groupId then 1
  else if a.code < b.code then -1
  else if a.code > b.code then 1
  else 0

/-- src/gsm/gsm23003.c:740-747 `osmo_gummei_cmp` -/
def gummeiCmp (a b : Gummei) : Int :=
  let rc := plmnCmp a.plmn b.plmn
  if rc ≠ 0 then rc else mmeIdCmp a.mme b.mme

/-! ## Domain names -/

/-- "epc.mnc" -/
def tEpcMnc : List Byte := [0x65, 0x70, 0x63, 0x2e, 0x6d, 0x6e, 0x63]
/-- ".mcc" -/
def tMcc : List Byte := [0x2e, 0x6d, 0x63, 0x63]
/-- ".3gppnetwork.org" -/
def tNet : List Byte :=
  [0x2e, 0x33, 0x67, 0x70, 0x70, 0x6e, 0x65, 0x74, 0x77, 0x6f, 0x72, 0x6b, 0x2e, 0x6f, 0x72, 0x67]
/-- "mmec" -/
def tMmec : List Byte := [0x6d, 0x6d, 0x65, 0x63]
/-- ".mmegi" -/
def tMmegi : List Byte := [0x2e, 0x6d, 0x6d, 0x65, 0x67, 0x69]
/-- ".mme." -/
def tMme : List Byte := [0x2e, 0x6d, 0x6d, 0x65, 0x2e]

/-- `sprintf(out, ...)` of a text into a memory block; `none` = written past its end -/
def sprintfText (t mem : List Byte) : Option (List Byte) := writeAt mem 0 (t ++ [0#8])

/-- outcome of a generator: error, buffer overflow, or the buffer and the return code -/
inductive GenOut where
  | einval
  | ub
  | ok (mem : List Byte) (n : Nat)
  deriving DecidableEq, Repr

def GenOut.of (t : List Byte) : Option (List Byte) → GenOut
  | none => .ub
  | some m => .ok m t.length

/-- the text of src/gsm/gsm23003.c:759 -/
def homeDomain (p : Plmn) : List Byte :=
  tEpcMnc ++ (decNatW 3 p.mnc.toNat ++ (tMcc ++ (decNatW 3 p.mcc.toNat ++ tNet)))

/-- src/gsm/gsm23003.c:753-760 `osmo_gen_home_network_domain` -/
def genHomeDomain (mem : List Byte) (p : Plmn) : GenOut :=
  if p.mcc > 999#16 then .einval
  else if p.mnc > 999#16 then .einval
  else .of (homeDomain p) (sprintfText (homeDomain p) mem)

/-- the text of src/gsm/gsm23003.c:790 -/
def mmeDomain (g : Gummei) : List Byte :=
  tMmec ++ (hexFixed 2 g.mme.code.toNat ++ (tMmegi ++ (hexFixed 4 g.mme.groupId.toNat ++ (tMme ++ homeDomain g.plmn))))

/-- src/gsm/gsm23003.c:783-791 `osmo_gen_mme_domain`.  The local `domain` has
34 bytes, initialised here with 0. -/
def genMmeDomain (mem : List Byte) (g : Gummei) : GenOut :=
  match genHomeDomain (List.replicate 34 0#8) g.plmn with
  | .einval => .einval
  | .ub => .ub
  | .ok _ _ => .of (mmeDomain g) (sprintfText (mmeDomain g) mem)

/-- the text of src/gsm/gsm23003.c:824 -/
def mmeGroupDomain (gi : BitVec 16) (p : Plmn) : List Byte :=
  tMmegi.drop 1 ++ (hexFixed 4 gi.toNat ++ (tMme ++ homeDomain p))

/-- src/gsm/gsm23003.c:817-825 `osmo_gen_mme_group_domain` -/
def genMmeGroupDomain (mem : List Byte) (gi : BitVec 16) (p : Plmn) : GenOut :=
  match genHomeDomain (List.replicate 34 0#8) p with
  | .einval => .einval
  | .ub => .ub
  | .ok _ _ => .of (mmeGroupDomain gi p) (sprintfText (mmeGroupDomain gi p) mem)

/-- an item of the format strings of src/gsm/gsm23003.c:771 and 802: literal
text or a `%0<width>hu`, `%0<width>hx` conversion -/
inductive Item where
  | lit (t : List Byte)
  | num (base width : Nat)

/-- result of matching one item: end of input, mismatch, or the rest of the
input and the value converted -/
inductive Scan (α : Type) where
  | eof
  | fail
  | ok (rest : List Byte) (v : α)

/-- literal text in a `scanf` format (no white space in it) -/
def scanLit : List Byte → List Byte → Scan Unit
  | [], s => .ok s ()
  | _ :: _, [] => .eof
  | f :: fs, c :: s => if f = c then scanLit fs s else .fail

/-- the digits of one number of at most `w` characters: C11 7.21.6.2, `u` and
`x` take what `strtoul` would; value (`neg` = with minus sign) and characters
taken.  `none` = matching failure. -/
def scanDigits (base : Nat) (win : List Byte) : Option (Int × Nat) :=
  let neg := win.head? = some 0x2d#8
  let sgn := if win.head? = some 0x2d#8 ∨ win.head? = some 0x2b#8 then 1 else 0
  let s2 := win.drop sgn
  let pre := if base = 16 ∧ hexPrefix s2 then 2 else 0
  let ds := (s2.drop pre).takeWhile fun c => digit36 c < base
  if ds = [] then none
  else some ((if neg then -(horner base ds : Int) else horner base ds), sgn + pre + ds.length)

/-- one numeric conversion of `sscanf`: white space is skipped first -/
def scanNum (base w : Nat) (s : List Byte) : Scan Int :=
  let s1 := s.dropWhile isSpace
  if s1 = [] then .eof
  else
    match scanDigits base (s1.take w) with
    | none => .fail
    | some (v, n) => .ok (s1.drop n) v

/-- `sscanf(s, items...)`: the return code (number of conversions, or -1 = EOF
when the input ends before the first one) and the values converted -/
def scanf : List Item → List Byte → List Int → Int × List Int
  | [], _, acc => (acc.length, acc)
  | .lit t :: is, s, acc =>
    match scanLit t s with
    | .eof => (if acc = [] then -1 else acc.length, acc)
    | .fail => (acc.length, acc)
    | .ok rest _ => scanf is rest acc
  | .num b w :: is, s, acc =>
    match scanNum b w s with
    | .eof => (if acc = [] then -1 else acc.length, acc)
    | .fail => (acc.length, acc)
    | .ok rest v => scanf is rest (acc ++ [v])

/-- src/gsm/gsm23003.c:771: the format string, "epc.mnc%03hu.mcc%03hu.3gppnetwork.org" -/
def homeFmt : List Item := [.lit tEpcMnc, .num 10 3, .lit tMcc, .num 10 3, .lit tNet]

/-- src/gsm/gsm23003.c:766-777 `osmo_parse_home_network_domain`; the values are
stored in `uint16_t` (modulo 2^16).  Return code (-22 is -EINVAL) and structure. -/
def parseHomeDomain (s : List Byte) : Int × Plmn :=
  let r := scanf homeFmt s []
  let out : Plmn := { mcc := BitVec.ofInt 16 (r.2.getD 1 0), mnc := BitVec.ofInt 16 (r.2.getD 0 0), mnc3 := false }
  (if r.1 < 0 then r.1 else if r.1 ≠ 2 then -22 else 0, out)

/-- src/gsm/gsm23003.c:802: "mmec%02hhx.mmegi%04hx.mme.epc.mnc%03hu.mcc%03hu.3gppnetwork.org" -/
def mmeFmt : List Item :=
  [.lit tMmec, .num 16 2, .lit tMmegi, .num 16 4, .lit (tMme ++ tEpcMnc), .num 10 3, .lit tMcc, .num 10 3, .lit tNet]

/-- src/gsm/gsm23003.c:797-810 `osmo_parse_mme_domain` -/
def parseMmeDomain (s : List Byte) : Int × Gummei :=
  let r := scanf mmeFmt s []
  let out : Gummei :=
    { plmn := { mcc := BitVec.ofInt 16 (r.2.getD 3 0), mnc := BitVec.ofInt 16 (r.2.getD 2 0), mnc3 := false },
      mme := { groupId := BitVec.ofInt 16 (r.2.getD 1 0), code := BitVec.ofInt 8 (r.2.getD 0 0) } }
  (if r.1 < 0 then r.1 else if r.1 ≠ 4 then -22 else 0, out)

end Verif.Gsm23003
