import Verif.Common
/-!
Model of `include/osmocom/core/bitXXgen.h.tpl` (instantiated by the build for
XX = 16, 32, 64): unaligned little/big endian loads and stores.

`w` is the width XX of `uintXX_t`.  The byte array `p` is the list `q`;
reading `q[i]` beyond the list is out of bounds, so the loads are only used with
`n ≤ q.length` (loads return `none` otherwise).  `OSMO_ASSERT(n <= sizeof(r))`
failing is also `none`.
-/
namespace Verif.Endian

/-- bitXXgen.h.tpl, `osmo_loadXXle_ext`: loop `r |= (uintXX_t)q[i] << (8*i)`. -/
def loadLeLoop (w : Nat) (q : List Byte) : Nat → BitVec w
  | 0 => 0#w
  | i+1 => loadLeLoop w q i ||| ((q.getD i 0#8).setWidth w <<< (8*i))

/-- bitXXgen.h.tpl, `osmo_loadXXle_ext(p, n)`. -/
def loadLeExt (w : Nat) (q : List Byte) (n : Nat) : Option (BitVec w) :=
  if 8*n ≤ w ∧ n ≤ q.length then some (loadLeLoop w q n) else none

/-- bitXXgen.h.tpl, `osmo_loadXXbe_ext`: loop `r |= q[i] << (XX - 8*(1+i))`
(value in the most significant octets). -/
def loadBeLoop (w : Nat) (q : List Byte) : Nat → BitVec w
  | 0 => 0#w
  | i+1 => loadBeLoop w q i ||| ((q.getD i 0#8).setWidth w <<< (w - 8*(1+i)))

/-- bitXXgen.h.tpl, `osmo_loadXXbe_ext(p, n)`. -/
def loadBeExt (w : Nat) (q : List Byte) (n : Nat) : Option (BitVec w) :=
  if 8*n ≤ w ∧ n ≤ q.length then some (loadBeLoop w q n) else none

/-- bitXXgen.h.tpl, `osmo_loadXXbe_ext_2`: shift `XX - 8*(1 + i + (sizeof(r) - n))`
(value in the least significant octets). -/
def loadBe2Loop (w n : Nat) (q : List Byte) : Nat → BitVec w
  | 0 => 0#w
  | i+1 => loadBe2Loop w n q i ||| ((q.getD i 0#8).setWidth w <<< (w - 8*(1 + i + (w/8 - n))))

/-- bitXXgen.h.tpl, `osmo_loadXXbe_ext_2(p, n)`. -/
def loadBeExt2 (w : Nat) (q : List Byte) (n : Nat) : Option (BitVec w) :=
  if 8*n ≤ w ∧ n ≤ q.length then some (loadBe2Loop w n q n) else none

/-- bitXXgen.h.tpl, `osmo_storeXXle_ext`: `q[i] = (x >> i*8) & 0xFF` for `i < n`.
The result is the list of the `n` bytes stored. -/
def storeLeExt {w : Nat} (x : BitVec w) (n : Nat) : Option (List Byte) :=
  if 8*n ≤ w then some ((List.range n).map fun i => ((x >>> (i*8)) &&& 0xFF#w).setWidth 8) else none

/-- bitXXgen.h.tpl, `osmo_storeXXbe_ext`: `q[i] = (x >> ((n-1-i)*8)) & 0xFF`. -/
def storeBeExt {w : Nat} (x : BitVec w) (n : Nat) : Option (List Byte) :=
  if 8*n ≤ w then
    some ((List.range n).map fun i => ((x >>> ((n-1-i)*8)) &&& 0xFF#w).setWidth 8)
  else none

/-- bitXXgen.h.tpl, `osmo_loadXXle(p)`. -/
def loadLe (w : Nat) (q : List Byte) : Option (BitVec w) := loadLeExt w q (w/8)
/-- bitXXgen.h.tpl, `osmo_loadXXbe(p)`. -/
def loadBe (w : Nat) (q : List Byte) : Option (BitVec w) := loadBeExt w q (w/8)
/-- bitXXgen.h.tpl, `osmo_storeXXle(x, p)`. -/
def storeLe {w : Nat} (x : BitVec w) : Option (List Byte) := storeLeExt x (w/8)
/-- bitXXgen.h.tpl, `osmo_storeXXbe(x, p)`. -/
def storeBe {w : Nat} (x : BitVec w) : Option (List Byte) := storeBeExt x (w/8)

end Verif.Endian
