import Verif.Endian.Props
/-!
Model of `src/gsm/gsm29205.c`: the global call reference of 3GPP TS 29.205.

Simplifications: `msgb_lv_put` (tlv.h:96-102, 358-362) appends to a list of
octets, room in the message buffer is assumed; the NULL argument of the encoder
is left out.
-/
namespace Verif.Gcr

/-- gsm29205.h:29-34, `struct osmo_gcr_parsed`: `net` and `cr` are arrays of 5
octets (`Wf`). -/
structure Gcr where
  net : List Byte
  netLen : Byte
  node : BitVec 16
  cr : List Byte
deriving DecidableEq, Repr

/-- gsm29205.h:30, 33: the sizes of the arrays. -/
def Wf (g : Gcr) : Prop := g.net.length = 5 ∧ g.cr.length = 5

/-- tlv.h:96-102, `lv_put`, as used by `msgb_lv_put` (358-362). -/
def lv (len : Byte) (val : List Byte) : List Byte := len :: val.take len.toNat

/-- gsm29205.c:40-59, `osmo_enc_gcr`: the message and the return value. -/
def enc (msg : List Byte) (g : Gcr) : Option (List Byte × Byte) :=
  if g.netLen < 3#8 ∨ g.netLen > 5#8 then some (msg, 0#8)
  else do
    let buf ← Endian.storeBe g.node
    let msg := msg ++ lv g.netLen g.net
    let msg := msg ++ lv 2#8 buf
    let msg := msg ++ lv 5#8 g.cr
    some (msg, BitVec.ofNat 8 ((g.netLen.toNat + 1) + (2 + 1) + (5 + 1)))

/-- `EBADMSG`, `EINVAL`, `ENOENT` of gsm29205.c:71, 75, 85. -/
def EBADMSG : Int := -74
/-- gsm29205.c:75. -/
def EINVAL : Int := -22
/-- gsm29205.c:85. -/
def ENOENT : Int := -2

/-- gsm29205.c:66-92, `osmo_dec_gcr` of the octets `elem` (`len = elem.length`,
below 256) into the structure `g`; yields the structure, of which only what was
written has changed, and the return value.  `none` = reads beyond `elem`. -/
def dec (g : Gcr) (elem : List Byte) : Option (Gcr × Int) := do
  if elem.length < 13 then some (g, EBADMSG)
  else
    let n ← elem[0]?
    let g := { g with netLen := n }
    if n < 3#8 ∨ n > 5#8 then some (g, EINVAL)
    else
      let net ← readAt elem 1 n.toNat
      let g := { g with net := net ++ g.net.drop n.toNat }
      let parsed := 1 + (n.toNat + 1)
      let q ← readAt elem parsed 2
      let node ← Endian.loadBe 16 q
      let g := { g with node := node }
      let parsed := parsed + 2
      let l ← elem[parsed]?
      if l ≠ 5#8 then some (g, ENOENT)
      else
        let parsed := parsed + 1
        let cr ← readAt elem parsed 5
        some ({ g with cr := cr }, (parsed + 5 : Nat))

/-- gsm29205.c:98-113, `osmo_gcr_eq`.  `memcmp` compares the first `net_len`
octets of `net`; `none` = reads beyond the array of 5. -/
def eq (a b : Gcr) : Option Bool :=
  if a.netLen ≠ b.netLen then some false
  else if a.node ≠ b.node then some false
  else if a.cr.take 5 ≠ b.cr.take 5 then some false
  else if b.netLen.toNat > 5 then none
  else some (decide (a.net.take b.netLen.toNat = b.net.take b.netLen.toNat))

end Verif.Gcr
