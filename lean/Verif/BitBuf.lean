import Verif.Common
/-!
Shared specification vocabulary: a byte string read as a string of bits.
`bitAt false` counts bits MSB first (bit 0 is 0x80 of byte 0, the order
documented for `pbit_t` in include/osmocom/core/bits.h:26-30), `bitAt true`
counts LSB first.
-/
namespace Verif

/-- bit number inside the byte for absolute bit index `i` -/
def bitNum (lsb : Bool) (i : Nat) : Nat := if lsb then i % 8 else 7 - i % 8

/-- bit `i` of a byte string (false beyond the end) -/
def bitAt (lsb : Bool) (buf : List Byte) (i : Nat) : Bool :=
  (buf.getD (i / 8) 0#8).getLsbD (bitNum lsb i)

/-- MSB-first bit `i` of a byte string -/
abbrev msb (buf : List Byte) (i : Nat) : Bool := bitAt false buf i

theorem bitNum_lt (lsb : Bool) (i : Nat) : bitNum lsb i < 8 := by
  unfold bitNum; split <;> omega

theorem bitNum_inj {lsb : Bool} {i j : Nat} (h : i / 8 = j / 8)
    (hb : bitNum lsb i = bitNum lsb j) : i = j := by
  unfold bitNum at hb
  split at hb <;> omega

theorem bitAt_beyond {lsb : Bool} {buf : List Byte} {i : Nat} (h : 8 * buf.length ≤ i) :
    bitAt lsb buf i = false := by
  unfold bitAt
  have : buf.length ≤ i / 8 := by omega
  simp [List.getD, List.getElem?_eq_none this]

/-- two byte strings of equal length with equal bits are equal -/
theorem ext_bitAt {lsb : Bool} {a b : List Byte} (hl : a.length = b.length)
    (h : ∀ i, i < 8 * a.length → bitAt lsb a i = bitAt lsb b i) : a = b := by
  apply List.ext_getElem hl
  intro n h1 h2
  apply BitVec.eq_of_getLsbD_eq
  intro k hk
  have hk' : k < 8 := hk
  have := h (8 * n + bitNum lsb k) (by have := bitNum_lt lsb k; omega)
  unfold bitAt at this
  have hlt := bitNum_lt lsb k
  have e1 : (8 * n + bitNum lsb k) / 8 = n := by omega
  have e2 : bitNum lsb (8 * n + bitNum lsb k) = k := by
    unfold bitNum; split <;> omega
  rw [e1, e2] at this
  simpa [List.getD, List.getElem?_eq_getElem h1, List.getElem?_eq_getElem h2] using this

theorem getLsbD_or_bit (b : Byte) {n k : Nat} (hk : k < 8) :
    (b ||| (1#8 <<< n)).getLsbD k = (b.getLsbD k || decide (k = n)) := by
  simp only [BitVec.getLsbD_or, BitVec.getLsbD_shiftLeft, BitVec.getLsbD_one]
  by_cases h : k = n
  · subst h; simp [hk]
  · simp [h, hk]; omega

theorem getLsbD_andnot_bit (b : Byte) {n k : Nat} (hk : k < 8) :
    (b &&& ~~~(1#8 <<< n)).getLsbD k = (b.getLsbD k && !decide (k = n)) := by
  simp only [BitVec.getLsbD_and, BitVec.getLsbD_not, BitVec.getLsbD_shiftLeft, BitVec.getLsbD_one]
  by_cases h : k = n
  · subst h; simp [hk]
  · simp [h, hk]; omega

/-- replacing byte `i/8` by one that differs only in bit `i` -/
theorem bitAt_set {lsb : Bool} {buf : List Byte} {i : Nat} {b' : Byte} {v : Bool}
    (hi : i / 8 < buf.length)
    (hb : ∀ k, k < 8 → b'.getLsbD k =
      if k = bitNum lsb i then v else (buf.getD (i / 8) 0#8).getLsbD k) (j : Nat) :
    bitAt lsb (buf.set (i / 8) b') j = if j = i then v else bitAt lsb buf j := by
  unfold bitAt
  by_cases hj : j / 8 = i / 8
  · rw [hj]
    have : (buf.set (i / 8) b').getD (i / 8) 0#8 = b' := by
      simp [List.getD, hi]
    rw [this, hb _ (bitNum_lt _ _)]
    by_cases hji : j = i
    · subst hji; simp
    · rw [if_neg, if_neg hji]
      intro hc; exact hji (bitNum_inj hj hc)
  · have hne : i / 8 ≠ j / 8 := fun h => hj h.symm
    have hji : j ≠ i := by intro h; subst h; exact hj rfl
    rw [if_neg hji]
    simp [List.getD, List.getElem?_set_ne hne]

end Verif
