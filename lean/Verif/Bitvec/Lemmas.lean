import Verif.Bitvec.Model
/-! Helper lemmas for the bit vector properties. -/
namespace Verif.Bitvec

theorem getD_of_lt {l : List Byte} {i : Nat} (h : i < l.length) : l.getD i 0#8 = l[i] := by
  simp [List.getD, h]

/-- value (0/1) that symbol `v` denotes at absolute position `i`: L is the bit of
the 0x2b padding octet, H its complement -/
def symBit (v : BitVal) (i : Nat) : Bool :=
  match v with
  | .zero => false
  | .one => true
  | .L => (0x2b#8).getLsbD (7 - i % 8)
  | .H => !(0x2b#8).getLsbD (7 - i % 8)

theorem mask_getLsbD (v : BitVal) (i : Nat) {k : Nat} (hk : k < 8) :
    (bitval2mask v (7 - i % 8)).getLsbD k = (decide (k = 7 - i % 8) && symBit v i) := by
  have h : ∀ m : Fin 8, ∀ k : Fin 8, ∀ v ∈ [BitVal.zero, .one, .L, .H],
      (bitval2mask v (7 - m.val)).getLsbD k.val = (decide (k.val = 7 - m.val) && symBit v m.val) := by
    decide
  have h1 := h ⟨i % 8, by omega⟩ ⟨k, hk⟩ v (by cases v <;> simp)
  simp only at h1
  rw [h1]
  congr 1
  unfold symBit
  rw [Nat.mod_mod]

theorem setBitPos_ok {bv : BV} {i : Nat} (v : BitVal) (h : i < 8 * bv.data.length) :
    ∃ d, setBitPos bv i v = (0, { bv with data := d }) ∧ d.length = bv.data.length ∧
      ∀ j, msb d j = if j = i then symBit v i else msb bv.data j := by
  have hi : i / 8 < bv.data.length := by omega
  refine ⟨bv.data.set (i / 8) ((bv.data[i / 8] &&& ~~~ bitval2mask .one (7 - i % 8)) |||
    bitval2mask v (7 - i % 8)), ?_, by simp, ?_⟩
  · unfold setBitPos
    simp only [List.getElem?_eq_getElem hi]
  · apply bitAt_set hi
    intro k hk
    rw [getD_of_lt hi]
    simp only [BitVec.getLsbD_or, BitVec.getLsbD_and, BitVec.getLsbD_not, mask_getLsbD _ _ hk]
    have : bitNum false i = 7 - i % 8 := rfl
    rw [this]
    by_cases hc : k = 7 - i % 8
    · simp only [hc, symBit]; simp
    · simp only [hc, symBit]; simp [hk]

theorem setBitPos_end {bv : BV} {i : Nat} (v : BitVal) (h : 8 * bv.data.length ≤ i) :
    setBitPos bv i v = (-EINVAL, bv) := by
  unfold setBitPos
  simp only [List.getElem?_eq_none (show bv.data.length ≤ i / 8 by omega)]

theorem setBit_ok {bv : BV} (v : BitVal) (h : bv.cur < 8 * bv.data.length) :
    ∃ d, setBit bv v = (0, { cur := bv.cur + 1, data := d }) ∧ d.length = bv.data.length ∧
      ∀ j, msb d j = if j = bv.cur then symBit v bv.cur else msb bv.data j := by
  obtain ⟨d, h1, h2, h3⟩ := setBitPos_ok v h
  refine ⟨d, ?_, h2, h3⟩
  unfold setBit
  rw [h1]
  simp

theorem setBit_end {bv : BV} (v : BitVal) (h : 8 * bv.data.length ≤ bv.cur) :
    setBit bv v = (-EINVAL, bv) := by
  unfold setBit
  rw [setBitPos_end v h]
  simp [EINVAL]

theorem and_bit_ne_zero' (b : Byte) {k : Nat} (hk : k < 8) :
    (b &&& (1#8 <<< k) ≠ 0#8) ↔ b.getLsbD k = true := by
  constructor
  · intro h
    apply Classical.byContradiction
    intro hc
    apply h
    apply BitVec.eq_of_getLsbD_eq
    intro i hi
    simp only [BitVec.getLsbD_and, BitVec.getLsbD_shiftLeft, BitVec.getLsbD_one, BitVec.getLsbD_zero]
    by_cases hik : i = k
    · subst hik; simp at hc; simp [hc]
    · simp; intro _ _ h3; omega
  · intro h h0
    have := congrArg (fun z => z.getLsbD k) h0
    simp only [BitVec.getLsbD_and, BitVec.getLsbD_shiftLeft, BitVec.getLsbD_one, h,
      BitVec.getLsbD_zero] at this
    simp [hk] at this

theorem and_bit64_ne_zero (v : BitVec 64) {k : Nat} (hk : k < 64) :
    (v &&& (1#64 <<< k) ≠ 0#64) ↔ v.getLsbD k = true := by
  constructor
  · intro h
    apply Classical.byContradiction
    intro hc
    apply h
    apply BitVec.eq_of_getLsbD_eq
    intro i hi
    simp only [BitVec.getLsbD_and, BitVec.getLsbD_shiftLeft, BitVec.getLsbD_one, BitVec.getLsbD_zero]
    by_cases hik : i = k
    · subst hik; simp at hc; simp [hc]
    · simp; intro _ _ h3; omega
  · intro h h0
    have := congrArg (fun z => z.getLsbD k) h0
    simp only [BitVec.getLsbD_and, BitVec.getLsbD_shiftLeft, BitVec.getLsbD_one, h,
      BitVec.getLsbD_zero] at this
    simp [hk] at this

theorem getBitPos_ok {bv : BV} {i : Nat} (h : i < 8 * bv.data.length) :
    getBitPos bv i = some (if msb bv.data i then .one else .zero) := by
  have hi : i / 8 < bv.data.length := by omega
  unfold getBitPos
  simp only [List.getElem?_eq_getElem hi]
  congr 1
  have : bitval2mask .one (7 - i % 8) = 1#8 <<< (7 - i % 8) := rfl
  simp only [this, and_bit_ne_zero' _ (show 7 - i % 8 < 8 by omega)]
  unfold msb bitAt
  rw [getD_of_lt hi]; rfl

theorem getBitPos_end {bv : BV} {i : Nat} (h : 8 * bv.data.length ≤ i) :
    getBitPos bv i = none := by
  unfold getBitPos
  simp only [List.getElem?_eq_none (show bv.data.length ≤ i / 8 by omega)]

/-- symbol written for bit `k` of `v` -/
theorem setU64Loop_ok (v : BitVec 64) (lh : Bool) (k : Nat) (hk : k ≤ 64) (bv : BV)
    (h : bv.cur + k ≤ 8 * bv.data.length) :
    ∃ d, setU64Loop v lh k bv = (0, { cur := bv.cur + k, data := d }) ∧
      d.length = bv.data.length ∧
      ∀ j, msb d j = if bv.cur ≤ j ∧ j < bv.cur + k then
          (let b := v.getLsbD (k - 1 - (j - bv.cur))
           symBit (if b then (if lh then .H else .one) else (if lh then .L else .zero)) j)
        else msb bv.data j := by
  induction k generalizing bv with
  | zero =>
    refine ⟨bv.data, rfl, rfl, ?_⟩
    intro j; rw [if_neg (by omega)]
  | succ k ih =>
    unfold setU64Loop
    simp only [and_bit64_ne_zero v (show k < 64 by omega)]
    obtain ⟨d1, e1, l1, m1⟩ := setBit_ok (bv := bv)
      (if v.getLsbD k = true then (if lh = true then BitVal.H else BitVal.one)
        else if lh = true then BitVal.L else BitVal.zero) (by omega)
    rw [e1]
    simp only [ne_eq, not_true, if_false]
    obtain ⟨d2, e2, l2, m2⟩ := ih (by omega) { cur := bv.cur + 1, data := d1 } (by simp only; omega)
    refine ⟨d2, ?_, by simp only at l2; omega, ?_⟩
    · rw [e2]; simp only; congr 2; omega
    · intro j
      rw [m2 j]
      simp only
      by_cases hj : j = bv.cur
      · subst hj
        rw [if_neg (by omega), if_pos (by omega), m1, if_pos rfl]
        have : k + 1 - 1 - (bv.cur - bv.cur) = k := by omega
        rw [this]
      · by_cases hr : bv.cur + 1 ≤ j ∧ j < bv.cur + 1 + k
        · rw [if_pos hr, if_pos (show bv.cur ≤ j ∧ j < bv.cur + (k + 1) by omega)]
          have : k + 1 - 1 - (j - bv.cur) = k - 1 - (j - (bv.cur + 1)) := by omega
          rw [this]
        · rw [if_neg hr, if_neg (by omega), m1, if_neg hj]

theorem setU64Loop_end (v : BitVec 64) (lh : Bool) (k : Nat) (hk : k ≤ 64) (bv : BV)
    (hc : bv.cur ≤ 8 * bv.data.length) (h : 8 * bv.data.length < bv.cur + k) :
    ∃ d, setU64Loop v lh k bv = (-EINVAL, { cur := 8 * bv.data.length, data := d }) ∧
      d.length = bv.data.length ∧ ∀ j, j < bv.cur → msb d j = msb bv.data j := by
  induction k generalizing bv with
  | zero => omega
  | succ k ih =>
    unfold setU64Loop
    simp only []
    by_cases he : bv.cur = 8 * bv.data.length
    · rw [setBit_end _ (by omega)]
      refine ⟨bv.data, ?_, rfl, fun _ _ => rfl⟩
      simp only [EINVAL, ← he]; rfl
    · obtain ⟨d1, e1, l1, m1⟩ := setBit_ok (bv := bv)
        (if v &&& (1#64 <<< k) ≠ 0#64 then (if lh = true then BitVal.H else BitVal.one)
          else if lh = true then BitVal.L else BitVal.zero) (by omega)
      rw [e1]
      simp only [ne_eq, not_true, if_false]
      obtain ⟨d2, e2, l2, m2⟩ := ih (by omega) { cur := bv.cur + 1, data := d1 }
        (by simp only; omega) (by simp only; omega)
      refine ⟨d2, ?_, by simp only at l2; omega, ?_⟩
      · rw [e2]; simp only; rw [l1]
      · intro j hj
        rw [m2 j (by simp only; omega)]
        simp only
        rw [m1, if_neg (by omega)]

theorem getLsbD_or_one64 (u : BitVec 64) {k : Nat} (hk : k < 64) (i : Nat) :
    (u ||| (1#64 <<< k)).getLsbD i = (u.getLsbD i || decide (i = k)) := by
  simp only [BitVec.getLsbD_or, BitVec.getLsbD_shiftLeft, BitVec.getLsbD_one]
  by_cases h : i = k
  · subst h; simp [hk]
  · simp [h]; intro _ _; omega

theorem getLsbD_or_one32 (u : BitVec 32) {k : Nat} (hk : k < 32) (i : Nat) :
    (u ||| (1#32 <<< k)).getLsbD i = (u.getLsbD i || decide (i = k)) := by
  simp only [BitVec.getLsbD_or, BitVec.getLsbD_shiftLeft, BitVec.getLsbD_one]
  by_cases h : i = k
  · subst h; simp [hk]
  · simp [h]; intro _ _; omega

theorem readFieldLoop_ok (data : List Byte) (k cur : Nat) (u : BitVec 64) (hk : k ≤ 64)
    (h : cur + k ≤ 8 * data.length) :
    ∃ r, readFieldLoop data k cur u = some r ∧
      ∀ i, r.getLsbD i = (u.getLsbD i || (decide (i < k) && msb data (cur + (k - 1 - i)))) := by
  induction k generalizing cur u with
  | zero => exact ⟨u, rfl, fun i => by simp⟩
  | succ k ih =>
    have hi : cur / 8 < data.length := by omega
    unfold readFieldLoop
    simp only [List.getElem?_eq_getElem hi]
    have hm : (data[cur / 8] &&& (1#8 <<< (7 - cur % 8)) ≠ 0#8) ↔ msb data cur = true := by
      rw [and_bit_ne_zero' _ (by omega)]
      unfold msb bitAt
      rw [getD_of_lt hi]; rfl
    simp only [hm]
    by_cases hb : msb data cur = true
    · rw [if_pos hb, if_neg (by omega)]
      obtain ⟨r, e, hr⟩ := ih (cur + 1) (u ||| (1#64 <<< k)) (by omega) (by omega)
      refine ⟨r, e, fun i => ?_⟩
      rw [hr, getLsbD_or_one64 _ (by omega)]
      by_cases hik : i = k
      · subst hik
        have : cur + (i + 1 - 1 - i) = cur := by omega
        rw [this, hb]; simp
      · have e1 : (i < k + 1) ↔ i < k := by omega
        by_cases hlt : i < k
        · have e2 : cur + 1 + (k - 1 - i) = cur + (k + 1 - 1 - i) := by omega
          rw [e2]; simp [hik, hlt, e1]
        · simp [hik, hlt, e1]
    · rw [if_neg hb]
      obtain ⟨r, e, hr⟩ := ih (cur + 1) u (by omega) (by omega)
      refine ⟨r, e, fun i => ?_⟩
      rw [hr]
      by_cases hik : i = k
      · subst hik
        have : cur + (i + 1 - 1 - i) = cur := by omega
        simp only [Bool.not_eq_true] at hb
        rw [this, hb]; simp
      · have e1 : (i < k + 1) ↔ i < k := by omega
        by_cases hlt : i < k
        · have e2 : cur + 1 + (k - 1 - i) = cur + (k + 1 - 1 - i) := by omega
          rw [e2]; simp [hlt, e1]
        · simp [hlt, e1]

theorem readField_ok (bv : BV) (idx len : Nat) (hk : len ≤ 64) (h : idx + len ≤ 8 * bv.data.length) :
    ∃ r, readField bv idx len = some ⟨r, false, idx + len, { bv with cur := idx + len }⟩ ∧
      ∀ i, r.getLsbD i = (decide (i < len) && msb bv.data (idx + (len - 1 - i))) := by
  obtain ⟨r, e, hr⟩ := readFieldLoop_ok bv.data len idx 0#64 hk h
  refine ⟨r, ?_, fun i => by rw [hr]; simp⟩
  unfold readField
  rw [if_neg (by omega), e]
  rfl

theorem getUintLoop_ok (k : Nat) (u : BitVec 32) (bv : BV) (hk : k ≤ 32)
    (h : bv.cur + k ≤ 8 * bv.data.length) :
    ∃ r : BitVec 32, getUintLoop k u bv = (.val r.toInt, { bv with cur := bv.cur + k }) ∧
      ∀ i, r.getLsbD i = (u.getLsbD i || (decide (i < k) && msb bv.data (bv.cur + (k - 1 - i)))) := by
  induction k generalizing u bv with
  | zero => exact ⟨u, rfl, fun i => by simp⟩
  | succ k ih =>
    unfold getUintLoop
    rw [getBitPos_ok (by omega)]
    simp only []
    obtain ⟨r, e, hr⟩ := ih (if msb bv.data bv.cur = true then u ||| (1#32 <<< k) else u)
      { bv with cur := bv.cur + 1 } (by omega) (by simp only; omega)
    refine ⟨r, ?_, fun i => ?_⟩
    · rw [if_neg (by omega)]
      have : (if (if msb bv.data bv.cur = true then BitVal.one else BitVal.zero) ≠ BitVal.zero then
          u ||| (1#32 <<< k) else u) = (if msb bv.data bv.cur = true then u ||| (1#32 <<< k) else u) := by
        by_cases hb : msb bv.data bv.cur = true
        · simp only [hb, if_true]; rfl
        · simp only [hb]; rfl
      rw [this, e]
      simp only; congr 2; omega
    · rw [hr]
      simp only
      by_cases hik : i = k
      · subst hik
        have : bv.cur + (i + 1 - 1 - i) = bv.cur := by omega
        rw [this]
        by_cases hb : msb bv.data bv.cur = true
        · rw [if_pos hb, getLsbD_or_one32 _ (by omega), hb]; simp
        · rw [if_neg hb]; simp only [Bool.not_eq_true] at hb; rw [hb]; simp
      · have e0 : (if msb bv.data bv.cur = true then u ||| (1#32 <<< k) else u).getLsbD i = u.getLsbD i := by
          split
          · rw [getLsbD_or_one32 _ (by omega)]; simp [hik]
          · rfl
        rw [e0]
        have e1 : (i < k + 1) ↔ i < k := by omega
        by_cases hlt : i < k
        · have e2 : bv.cur + 1 + (k - 1 - i) = bv.cur + (k + 1 - 1 - i) := by omega
          rw [e2]; simp [hlt, e1]
        · simp [hlt, e1]

end Verif.Bitvec
