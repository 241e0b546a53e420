import Verif.Bitvec.Lemmas
/-!
Properties C08 (integer fields), C09 (L/H symbols), C10 (fields and byte arrays
at any alignment), C11 (runs and searches), C53 (shift), C54 (arrays).
The specification vocabulary is `msb data i`, the i-th bit of the vector MSB
first (Verif/BitBuf.lean).
-/
namespace Verif.Bitvec

/-! ### C08 -/

theorem toNat_eq_mod {r v : BitVec 64} {n : Nat}
    (h : ∀ i, r.getLsbD i = (decide (i < n) && v.getLsbD i)) : r.toNat = v.toNat % 2 ^ n := by
  apply Nat.eq_of_testBit_eq
  intro i
  rw [Nat.testBit_mod_two_pow]
  have := h i
  simp only [BitVec.getLsbD] at this
  exact this

/-- C08: writing an `n`-bit value (n ≤ 64) at the cursor succeeds when it fits,
advances the cursor by `n`, touches only the `n` bits of the field, and reading
the field back (`bitvec_read_field`) gives the value modulo 2^n. -/
theorem set_u64_spec (bv : BV) (v : BitVec 64) (n : Nat) (hn : n ≤ 64)
    (hfit : bv.cur + n ≤ 8 * bv.data.length) :
    ∃ bv' r, setU64 bv v n false = (0, bv') ∧ bv'.cur = bv.cur + n ∧
      bv'.data.length = bv.data.length ∧
      (∀ j, ¬ (bv.cur ≤ j ∧ j < bv.cur + n) → msb bv'.data j = msb bv.data j) ∧
      (∀ i, i < n → msb bv'.data (bv.cur + i) = v.getLsbD (n - 1 - i)) ∧
      readField bv' bv.cur n = some r ∧ r.overflow = false ∧ r.val.toNat = v.toNat % 2 ^ n := by
  obtain ⟨d, e, l, m⟩ := setU64Loop_ok v false n hn bv hfit
  have hm : ∀ i, i < n → msb d (bv.cur + i) = v.getLsbD (n - 1 - i) := by
    intro i hi
    rw [m, if_pos (show bv.cur ≤ bv.cur + i ∧ bv.cur + i < bv.cur + n by omega)]
    have : bv.cur + i - bv.cur = i := by omega
    simp only [this]
    cases v.getLsbD (n - 1 - i) <;> simp [symBit]
  obtain ⟨r, er, hr⟩ := readField_ok { cur := bv.cur + n, data := d } bv.cur n hn
    (by simp only; omega)
  refine ⟨{ cur := bv.cur + n, data := d }, _, ?_, rfl, l, ?_, hm, er, rfl, ?_⟩
  · unfold setU64
    rw [show n % 256 = n by omega, if_neg (by omega), e]
  · intro j hj; simp only; rw [m, if_neg hj]
  · simp only
    apply toNat_eq_mod
    intro i
    rw [hr]
    by_cases hi : i < n
    · simp only [hi, decide_true, Bool.true_and]
      rw [hm _ (by omega)]
      congr 1; omega
    · simp [hi]

example : setU64 ⟨3, [0xff, 0xff]⟩ 0x1a5#64 9 false = (0, ⟨12, [0xfa, 0x5f]⟩) ∧
    (readField ⟨12, [0xfa, 0x5f]⟩ 3 9).map (·.val) = some 0x1a5#64 := by decide

/-- C08: the same for `bitvec_set_uint` / `bitvec_get_uint` up to 31 bits (the
result type is a signed `int`). -/
theorem set_get_uint (bv : BV) (u : BitVec 32) (n : Nat) (hn : n ≤ 31)
    (hfit : bv.cur + n ≤ 8 * bv.data.length) :
    ∃ bv', setUint bv u n = (0, bv') ∧ bv'.cur = bv.cur + n ∧
      getUint { bv' with cur := bv.cur } n = (.val ((u.toNat % 2 ^ n : Nat) : Int), bv') := by
  obtain ⟨bv', _, e, hc, hl, _, hm, _⟩ := set_u64_spec bv (u.setWidth 64) n (by omega) hfit
  refine ⟨bv', e, hc, ?_⟩
  obtain ⟨r, er, hr⟩ := getUintLoop_ok n 0#32 { bv' with cur := bv.cur } (by omega)
    (by simp only; omega)
  have hv : r.toNat = u.toNat % 2 ^ n := by
    apply Nat.eq_of_testBit_eq
    intro i
    rw [Nat.testBit_mod_two_pow]
    have h1 := hr i
    have h2 : r.getLsbD i = (decide (i < n) && u.getLsbD i) := by
      rw [h1]
      by_cases hi : i < n
      · simp only [hi, decide_true, Bool.true_and, BitVec.getLsbD_zero, Bool.false_or]
        rw [hm _ (by omega), show n - 1 - (n - 1 - i) = i by omega]
        simp only [BitVec.getLsbD_setWidth]
        simp [show i < 64 by omega]
      · simp [hi]
    simpa only [BitVec.getLsbD] using h2
  have hp : 2 ^ n ≤ 2 ^ 31 := Nat.pow_le_pow_right (by omega) hn
  have hlt : r.toNat < 2 ^ 31 := by
    rw [hv]
    exact Nat.lt_of_lt_of_le (Nat.mod_lt _ (Nat.two_pow_pos n)) hp
  unfold getUint
  rw [er]
  simp only [← hc]
  congr 2
  rw [BitVec.toInt_eq_toNat_of_lt (by omega), hv]

example : (setUint ⟨5, [0, 0]⟩ 0x3f5#32 7).2 = ⟨12, [0x07, 0x50]⟩ ∧
    (getUint ⟨5, [0x07, 0x50]⟩ 7).1 = .val 0x75 := by decide

/-- C08: a write that does not fit reports an error, leaves the cursor at the
end of the vector and never changes bits before the cursor nor the size. -/
theorem set_u64_beyond (bv : BV) (v : BitVec 64) (n : Nat) (hn : n ≤ 64)
    (hc : bv.cur ≤ 8 * bv.data.length) (hfit : 8 * bv.data.length < bv.cur + n) :
    ∃ bv', setU64 bv v n false = (-EINVAL, bv') ∧ bv'.cur = 8 * bv.data.length ∧
      bv'.data.length = bv.data.length ∧ ∀ j, j < bv.cur → msb bv'.data j = msb bv.data j := by
  obtain ⟨d, e, l, m⟩ := setU64Loop_end v false n hn bv hc hfit
  refine ⟨{ cur := 8 * bv.data.length, data := d }, ?_, rfl, l, m⟩
  unfold setU64
  rw [show n % 256 = n by omega, if_neg (by omega), e]

example : (setU64 ⟨6, [0xff]⟩ 0#64 3 false) = (-22, ⟨8, [0xfc]⟩) := by decide

/-- C08: widths 65..255 are refused without side effect. -/
theorem set_u64_too_wide (bv : BV) (v : BitVec 64) (n : Nat) (lh : Bool) (h1 : 64 < n) (h2 : n < 256) :
    setU64 bv v n lh = (-E2BIG, bv) := by
  unfold setU64; rw [if_pos (by omega)]

example : setU64 ⟨0, [0]⟩ 5#64 65 false = (-7, ⟨0, [0]⟩) := by decide

/-- C08: reading past the end reports an error. -/
theorem get_uint_beyond (bv : BV) (n : Nat) (hn : n ≤ 32) (hc : bv.cur ≤ 8 * bv.data.length)
    (hfit : 8 * bv.data.length < bv.cur + n) :
    (getUint bv n).1 = .err (-EINVAL) ∧ (getUint bv n).2.data = bv.data := by
  have : ∀ k u (bv : BV), k ≤ 32 → bv.cur ≤ 8 * bv.data.length → 8 * bv.data.length < bv.cur + k →
      (getUintLoop k u bv).1 = .err (-EINVAL) ∧ (getUintLoop k u bv).2.data = bv.data := by
    intro k
    induction k with
    | zero => intro u bv _ h1 h2; omega
    | succ k ih =>
      intro u bv hk h1 h2
      unfold getUintLoop
      by_cases he : bv.cur = 8 * bv.data.length
      · rw [getBitPos_end (by omega)]; simp
      · rw [getBitPos_ok (by omega)]
        simp only []
        rw [if_neg (by omega)]
        exact ih _ { bv with cur := bv.cur + 1 } (by omega) (by simp only; omega) (by simp only; omega)
  exact this n 0#32 bv hn hc hfit

example : (getUint ⟨6, [0xff]⟩ 3).1 = .err (-22) := by decide

/-- C08 (finding): `bitvec_set_uint` takes an `unsigned` width but passes it on
as `uint8_t`; a width of 256 is neither refused nor written. -/
theorem set_uint_width_counterexample (bv : BV) (u : BitVec 32) : setUint bv u 256 = (0, bv) := rfl

/-! ### C09 -/

/-- C09: setting a position to any symbol and reading it in high/low mode, or in
0/1 mode, returns the symbol; no other bit changes. -/
theorem set_get_symbol (bv : BV) (i : Nat) (h : i < 8 * bv.data.length) (v : BitVal) :
    ∃ bv', setBitPos bv i v = (0, bv') ∧ bv'.cur = bv.cur ∧
      bv'.data.length = bv.data.length ∧
      (∀ j, j ≠ i → msb bv'.data j = msb bv.data j) ∧
      (v = .L ∨ v = .H → getBitPosHigh bv' i = some v) ∧
      (v = .zero ∨ v = .one → getBitPos bv' i = some v) := by
  obtain ⟨d, e, l, m⟩ := setBitPos_ok v h
  refine ⟨_, e, rfl, l, ?_, ?_, ?_⟩
  · intro j hj; simp only; rw [m, if_neg hj]
  · intro hv
    have hi : i / 8 < d.length := by omega
    unfold getBitPosHigh
    simp only [List.getElem?_eq_getElem hi]
    congr 1
    have hmi := m i
    rw [if_pos rfl] at hmi
    unfold msb bitAt at hmi
    rw [getD_of_lt hi] at hmi
    simp only [bitNum, Bool.false_eq_true, if_false] at hmi
    generalize d[i / 8] = b at hmi
    have hiff : (b &&& 1#8 <<< (7 - i % 8) = bitval2mask BitVal.H (7 - i % 8)) ↔
        b.getLsbD (7 - i % 8) = symBit .H i := by
      constructor
      · intro hh
        have := congrArg (fun z => z.getLsbD (7 - i % 8)) hh
        simp only [mask_getLsbD _ _ (show 7 - i % 8 < 8 by omega)] at this
        simp only [BitVec.getLsbD_and, BitVec.getLsbD_shiftLeft, BitVec.getLsbD_one] at this
        rw [BitVec.getLsbD_eq_getElem (show 7 - i % 8 < 8 by omega)]
        simp [show 7 - i % 8 < 8 by omega] at this
        simpa using this
      · intro hh
        apply BitVec.eq_of_getLsbD_eq
        intro k hk
        rw [mask_getLsbD _ _ hk, BitVec.getLsbD_and, BitVec.getLsbD_shiftLeft, BitVec.getLsbD_one]
        by_cases hkk : k = 7 - i % 8
        · rw [hkk, hh]; simp [show 7 - i % 8 < 8 by omega]
        · simp [hkk, hk]; intro _ _; omega
    simp only [hiff, hmi]
    rcases hv with hv | hv <;> subst hv <;> simp [symBit]
  · intro hv
    rw [getBitPos_ok (by simp only; omega)]
    simp only
    rw [m, if_pos rfl]
    rcases hv with hv | hv <;> subst hv <;> simp [symBit]

example : (setBitPos ⟨0, [0x2b, 0x2b]⟩ 10 .H).2.data = [0x2b, 0x0b] ∧
    getBitPosHigh ⟨0, [0x2b, 0x0b]⟩ 10 = some .H ∧ getBitPosHigh ⟨0, [0x2b, 0x0b]⟩ 11 = some .L := by decide

theorem fill_ok (n : Nat) (bv : BV) (v : BitVal) (h : bv.cur + n ≤ 8 * bv.data.length) :
    ∃ d, fill n bv v = (0, { cur := bv.cur + n, data := d }) ∧ d.length = bv.data.length ∧
      ∀ j, msb d j = if bv.cur ≤ j ∧ j < bv.cur + n then symBit v j else msb bv.data j := by
  induction n generalizing bv with
  | zero => exact ⟨bv.data, rfl, rfl, fun j => by rw [if_neg (by omega)]⟩
  | succ n ih =>
    unfold fill
    obtain ⟨d1, e1, l1, m1⟩ := setBit_ok (bv := bv) v (by omega)
    rw [e1]
    simp only []
    rw [if_neg (by omega)]
    obtain ⟨d2, e2, l2, m2⟩ := ih { cur := bv.cur + 1, data := d1 } (by simp only; omega)
    refine ⟨d2, ?_, by simp only at l2; omega, ?_⟩
    · rw [e2]; simp only; congr 2; omega
    · intro j
      rw [m2 j]; simp only
      by_cases hj : j = bv.cur
      · subst hj; rw [if_neg (by omega), if_pos (by omega), m1, if_pos rfl]
      · by_cases hr : bv.cur + 1 ≤ j ∧ j < bv.cur + 1 + n
        · rw [if_pos hr, if_pos (by omega)]
        · rw [if_neg hr, if_neg (by omega), m1, if_neg hj]

/-- C09: `bitvec_spare_padding` up to the last bit of the vector leaves the bits
before the cursor alone and makes every later bit L, i.e. equal to the bit of
the octet 0x2b at the same position of the octet. -/
theorem spare_padding_spec (bv : BV) (upTo : Nat) (hc : bv.cur ≤ upTo + 1)
    (h : upTo + 1 ≤ 8 * bv.data.length) :
    ∃ bv', sparePadding bv upTo = (0, bv') ∧ bv'.cur = upTo + 1 ∧
      bv'.data.length = bv.data.length ∧
      (∀ j, bv.cur ≤ j → j ≤ upTo → msb bv'.data j = (0x2b#8).getLsbD (7 - j % 8)) ∧
      (∀ j, j < bv.cur ∨ upTo < j → msb bv'.data j = msb bv.data j) := by
  obtain ⟨d, e, l, m⟩ := fill_ok (upTo + 1 - bv.cur) bv .L (by omega)
  refine ⟨{ cur := upTo + 1, data := d }, ?_, rfl, l, ?_, ?_⟩
  · unfold sparePadding
    simp only []
    split
    · have : upTo + 1 - bv.cur = 0 := by omega
      rw [this] at e
      simp only [fill] at e
      have e' := congrArg (fun x => x.2) e
      simp only at e'
      rw [e']
      congr 2; omega
    · have : ((upTo : Int) - bv.cur + 1).toNat = upTo + 1 - bv.cur := by omega
      rw [this, e]
      congr 2; omega
  · intro j h1 h2; simp only; rw [m, if_pos (by omega)]; rfl
  · intro j h1; simp only; rw [m, if_neg (by omega)]

example : sparePadding ⟨4, [0xa0, 0, 0]⟩ 23 = (0, ⟨24, [0xab, 0x2b, 0x2b]⟩) := by decide

/-! ### C10 -/

/-- C10: `bitvec_write_field` then `bitvec_read_field` at the same index returns
the value modulo 2^len, both advance the index by `len`, the rest of the vector
is unchanged. -/
theorem write_read_field (bv : BV) (idx : Nat) (v : BitVec 64) (len : Nat) (hn : len ≤ 64)
    (hfit : idx + len ≤ 8 * bv.data.length) :
    ∃ bv' r, writeField bv idx v len = (0, idx + len, bv') ∧
      (∀ j, ¬ (idx ≤ j ∧ j < idx + len) → msb bv'.data j = msb bv.data j) ∧
      readField bv' idx len = some r ∧ r.overflow = false ∧ r.idx = idx + len ∧
      r.val.toNat = v.toNat % 2 ^ len := by
  obtain ⟨bv', r, e, hc, hl, hfr, _, er, eo, hv⟩ := set_u64_spec { bv with cur := idx } v len hn hfit
  refine ⟨bv', r, ?_, hfr, er, eo, ?_, hv⟩
  · unfold writeField; rw [e]; simp
  · obtain ⟨r2, er2, _⟩ := readField_ok bv' idx len hn (by simp only at hl; omega)
    simp only at er
    rw [er2] at er
    cases er; rfl

example : writeField ⟨0, [0xff, 0xff, 0xff]⟩ 6 0x2a#64 6 = (0, 12, ⟨12, [0xfe, 0xaf, 0xff]⟩) ∧
    readField ⟨12, [0xfe, 0xaf, 0xff]⟩ 6 6 = some ⟨0x2a#64, false, 12, ⟨12, [0xfe, 0xaf, 0xff]⟩⟩ := by decide

theorem shift_pair_bit (a c : Byte) {bo k : Nat} (hk : k < 8) (hb : bo < 8) (hb0 : 0 < bo) :
    ((a <<< bo) ||| (c >>> (8 - bo))).getLsbD (7 - k) =
      if k + bo < 8 then a.getLsbD (7 - (k + bo)) else c.getLsbD (7 - (k + bo - 8)) := by
  simp only [BitVec.getLsbD_or, BitVec.getLsbD_shiftLeft, BitVec.getLsbD_ushiftRight]
  by_cases h : k + bo < 8
  · rw [if_pos h]
    have : c.getLsbD (8 - bo + (7 - k)) = false := BitVec.getLsbD_of_ge _ _ (by omega)
    rw [this]
    have e : 7 - k - bo = 7 - (k + bo) := by omega
    rw [e]
    simp [show 7 - k < 8 by omega, show ¬ (7 - k < bo) by omega]
  · rw [if_neg h]
    have e : 8 - bo + (7 - k) = 7 - (k + bo - 8) := by omega
    rw [e]
    simp [show 7 - k < bo by omega]

theorem getBytesLoop_val (data : List Byte) (bo n s : Nat) (hs : s + n < data.length) :
    getBytesLoop data bo n (s + 1) (data.getD s 0#8) =
      some ((List.range n).map fun i =>
        (data.getD (s + i) 0#8 <<< bo) ||| (data.getD (s + i + 1) 0#8 >>> (8 - bo))) := by
  induction n generalizing s with
  | zero => rfl
  | succ n ih =>
    unfold getBytesLoop
    have h : s + 1 < data.length := by omega
    rw [List.getElem?_eq_getElem h]
    simp only []
    rw [← getD_of_lt h, ih (s + 1) (by omega)]
    simp only [Option.map_some]
    rw [List.range_succ_eq_map]
    simp only [List.map_cons, List.map_map, Nat.add_zero]
    congr 2
    apply List.map_congr_left
    intro i _
    simp only [Function.comp]
    rw [show s + 1 + i = s + i.succ by omega]

/-- C10: `bitvec_get_bytes` succeeds exactly when the bytes lie inside the
vector, and returns the bits starting at the cursor. -/
theorem get_bytes_spec (bv : BV) (count : Nat) :
    if bv.cur + 8 * count ≤ 8 * bv.data.length then
      ∃ out, getBytes bv count = some (0, out, { bv with cur := bv.cur + 8 * count }) ∧
        out.length = count ∧ ∀ j, j < 8 * count → msb out j = msb bv.data (bv.cur + j)
    else getBytes bv count = some (-EINVAL, [], bv) := by
  split
  · rename_i hfit
    unfold getBytes
    simp only []
    rw [if_neg (by split <;> omega)]
    by_cases hb : bv.cur % 8 = 0
    · rw [if_pos hb, readAt_eq_some (by omega)]
      refine ⟨(bv.data.drop (bv.cur / 8)).take count, ?_, by simp; omega, ?_⟩
      · simp only [Option.map_some]; rw [Nat.mul_comm]
      · intro j hj
        unfold msb bitAt bitNum
        have e1 : (bv.cur + j) / 8 = bv.cur / 8 + j / 8 := by omega
        have e2 : (bv.cur + j) % 8 = j % 8 := by omega
        rw [e1, e2]
        simp [List.getD, List.getElem?_take, show j / 8 < count by omega]
    · rw [if_neg hb]
      have h0 : bv.cur / 8 < bv.data.length := by omega
      rw [List.getElem?_eq_getElem h0]
      simp only []
      rw [← getD_of_lt h0, getBytesLoop_val _ _ _ _ (by omega)]
      refine ⟨_, by simp only [Option.map_some]; rw [Nat.mul_comm], by simp, ?_⟩
      intro j hj
      unfold msb bitAt bitNum
      simp only [Bool.false_eq_true, if_false]
      rw [show ((List.range count).map fun i =>
        (bv.data.getD (bv.cur / 8 + i) 0#8 <<< (bv.cur % 8)) |||
          (bv.data.getD (bv.cur / 8 + i + 1) 0#8 >>> (8 - bv.cur % 8))).getD (j / 8) 0#8 =
        (bv.data.getD (bv.cur / 8 + j / 8) 0#8 <<< (bv.cur % 8)) |||
          (bv.data.getD (bv.cur / 8 + j / 8 + 1) 0#8 >>> (8 - bv.cur % 8)) by
        simp [List.getD, List.getElem?_range (show j / 8 < count by omega)]]
      rw [shift_pair_bit _ _ (by omega) (by omega) (by omega)]
      split
      · rw [show (bv.cur + j) / 8 = bv.cur / 8 + j / 8 by omega,
          show (bv.cur + j) % 8 = j % 8 + bv.cur % 8 by omega]
      · rw [show (bv.cur + j) / 8 = bv.cur / 8 + j / 8 + 1 by omega,
          show (bv.cur + j) % 8 = j % 8 + bv.cur % 8 - 8 by omega]
  · unfold getBytes
    simp only []
    rw [if_pos (by split <;> omega)]

example : getBytes ⟨3, [0x15, 0x75, 0xff]⟩ 1 = some (0, [0xab], ⟨11, [0x15, 0x75, 0xff]⟩) := by decide

theorem setBytesLoop_val (bo : Nat) (bytes : List Byte) (dst : Nat) (last : Byte) (data : List Byte)
    (h : dst + bytes.length < data.length) :
    ∃ d', setBytesLoop bo bytes dst last data = some d' ∧ d'.length = data.length ∧
      ∀ j, d'.getD j 0#8 =
        if dst ≤ j ∧ j < dst + bytes.length then
          ((last :: bytes).getD (j - dst) 0#8 <<< (8 - bo)) ||| (bytes.getD (j - dst) 0#8 >>> bo)
        else if j = dst + bytes.length then
          (data.getD j 0#8 &&& ((1#8 <<< (8 - bo)) - 1#8)) |||
            ((last :: bytes).getD (j - dst) 0#8 <<< (8 - bo))
        else data.getD j 0#8 := by
  induction bytes generalizing dst last data with
  | nil =>
    have h' : dst < data.length := by simpa using h
    unfold setBytesLoop
    simp only [List.getElem?_eq_getElem h']
    refine ⟨_, rfl, by simp, ?_⟩
    intro j
    simp only [List.length_nil, Nat.add_zero]
    rw [if_neg (by omega)]
    by_cases hj : j = dst
    · subst hj; simp [List.getD, h']
    · rw [if_neg hj]
      simp [List.getD, List.getElem?_set_ne (fun e => hj e.symm)]
  | cons c cs ih =>
    simp only [List.length_cons] at h
    unfold setBytesLoop
    rw [if_pos (by omega)]
    obtain ⟨d', e, l, m⟩ := ih (dst + 1) c (data.set dst ((last <<< (8 - bo)) ||| (c >>> bo)))
      (by simp; omega)
    refine ⟨d', e, by simpa using l, ?_⟩
    intro j
    rw [m j]
    simp only [List.length_cons]
    by_cases hj : j = dst
    · subst hj
      rw [if_neg (by omega), if_neg (by omega), if_pos (by omega)]
      simp [List.getD, show j < data.length by omega]
    · have hg : (data.set dst ((last <<< (8 - bo)) ||| (c >>> bo))).getD j 0#8 = data.getD j 0#8 := by
        simp [List.getD, List.getElem?_set_ne (fun e => hj e.symm)]
      rw [hg]
      by_cases hr : dst + 1 ≤ j ∧ j < dst + 1 + cs.length
      · rw [if_pos hr, if_pos (by omega), show j - dst = (j - (dst + 1)) + 1 by omega]
        simp only [List.getD_cons_succ]
      · rw [if_neg hr]
        have hr' : ¬ (dst ≤ j ∧ j < dst + (cs.length + 1)) := by omega
        rw [if_neg hr']
        by_cases hj2 : j = dst + 1 + cs.length
        · rw [if_pos hj2, if_pos (show j = dst + (cs.length + 1) by omega),
            show j - dst = (j - (dst + 1)) + 1 by omega]
          simp only [List.getD_cons_succ]
        · rw [if_neg hj2, if_neg (show ¬ j = dst + (cs.length + 1) by omega)]

theorem lowmask_bit {m k : Nat} (hk : k < 8) (hm : m ≤ 8) :
    ((1#8 <<< m) - 1#8).getLsbD k = decide (k < m) := by
  have h : ∀ m : Fin 9, ∀ k : Fin 8, ((1#8 <<< m.val) - 1#8).getLsbD k.val = decide (k.val < m.val) := by
    decide
  exact h ⟨m, by omega⟩ ⟨k, hk⟩

/-- C10: `bitvec_set_bytes` succeeds exactly when the bytes fit, stores them at
the cursor whatever its alignment and leaves every other bit alone. -/
theorem set_bytes_spec (bv : BV) (bytes : List Byte) :
    if bv.cur + 8 * bytes.length ≤ 8 * bv.data.length then
      ∃ d, setBytes bv bytes = some (0, { cur := bv.cur + 8 * bytes.length, data := d }) ∧
        d.length = bv.data.length ∧
        ∀ j, msb d j = if bv.cur ≤ j ∧ j < bv.cur + 8 * bytes.length then msb bytes (j - bv.cur)
          else msb bv.data j
    else setBytes bv bytes = some (-EINVAL, bv) := by
  split
  · rename_i hfit
    unfold setBytes
    simp only []
    rw [if_neg (by split <;> omega)]
    by_cases hb : bv.cur % 8 = 0
    · rw [if_pos hb, writeAt_eq_some (by omega)]
      refine ⟨_, by simp only [Option.map_some]; rw [Nat.mul_comm], by simp; omega, ?_⟩
      intro j
      unfold msb bitAt bitNum
      simp only [Bool.false_eq_true, if_false, List.append_assoc]
      have hlen : (bv.data.take (bv.cur / 8)).length = bv.cur / 8 := by simp; omega
      by_cases hr : bv.cur ≤ j ∧ j < bv.cur + 8 * bytes.length
      · rw [if_pos hr]
        have e1 : (j - bv.cur) / 8 = j / 8 - bv.cur / 8 := by omega
        have e2 : (j - bv.cur) % 8 = j % 8 := by omega
        rw [e1, e2]
        congr 1
        simp only [List.getD]
        rw [List.getElem?_append_right (by omega), hlen,
          List.getElem?_append_left (by omega)]
      · rw [if_neg hr]
        congr 1
        simp only [List.getD]
        by_cases hlt : j / 8 < bv.cur / 8
        · rw [List.getElem?_append_left (by omega), List.getElem?_take, if_pos hlt]
        · rw [List.getElem?_append_right (by omega), hlen,
            List.getElem?_append_right (by omega), List.getElem?_drop]
          congr 2; omega
    · rw [if_neg hb]
      by_cases hnil : bytes = []
      · subst hnil
        refine ⟨bv.data, by simp, rfl, ?_⟩
        intro j; simp; intro _ _; omega
      · rw [if_neg hnil]
        have hpos : 0 < bytes.length := List.length_pos_iff.mpr hnil
        have h0 : bv.cur / 8 < bv.data.length := by omega
        rw [List.getElem?_eq_getElem h0]
        simp only []
        obtain ⟨d', e, l, m⟩ := setBytesLoop_val (bv.cur % 8) bytes (bv.cur / 8)
          (bv.data[bv.cur / 8] >>> (8 - bv.cur % 8)) bv.data (by omega)
        rw [e]
        refine ⟨d', by simp only [Option.map_some]; rw [Nat.mul_comm], l, ?_⟩
        intro j
        have hbo : bv.cur % 8 < 8 := by omega
        have hbo0 : 0 < bv.cur % 8 := by omega
        have hcur : bv.cur = 8 * (bv.cur / 8) + bv.cur % 8 := by omega
        generalize hB : bv.cur / 8 = B at *
        generalize hO : bv.cur % 8 = O at *
        rw [hcur]
        unfold msb bitAt bitNum
        simp only [Bool.false_eq_true, if_false]
        rw [m (j / 8)]
        have hk8 : j % 8 < 8 := by omega
        by_cases hmid : B ≤ j / 8 ∧ j / 8 < B + bytes.length
        · rw [if_pos hmid]
          have hsp := shift_pair_bit
            ((bv.data[B] >>> (8 - O) :: bytes).getD (j / 8 - B) 0#8) (bytes.getD (j / 8 - B) 0#8)
            (bo := 8 - O) hk8 (by omega) (by omega)
          rw [show 8 - (8 - O) = O by omega] at hsp
          rw [hsp]
          by_cases hlow : j % 8 + (8 - O) < 8
          · rw [if_pos hlow]
            by_cases hfirst : j / 8 = B
            · rw [show j / 8 - B = 0 by omega, List.getD_cons_zero, if_neg (by omega), hfirst,
                getD_of_lt h0]
              simp only [BitVec.getLsbD_ushiftRight]
              congr 1; omega
            · rw [show j / 8 - B = (j / 8 - B - 1) + 1 by omega, List.getD_cons_succ,
                if_pos (by omega)]
              rw [show (j - (8 * B + O)) / 8 = j / 8 - B - 1 by omega]
              congr 1; omega
          · rw [if_neg hlow, if_pos (by omega)]
            rw [show (j - (8 * B + O)) / 8 = j / 8 - B by omega]
            congr 1; omega
        · rw [if_neg hmid]
          by_cases hend : j / 8 = B + bytes.length
          · rw [if_pos hend]
            simp only [BitVec.getLsbD_or, BitVec.getLsbD_and, BitVec.getLsbD_shiftLeft,
              lowmask_bit (show 7 - j % 8 < 8 by omega) (show 8 - O ≤ 8 by omega)]
            rw [show j / 8 - B = (j / 8 - B - 1) + 1 by omega, List.getD_cons_succ]
            by_cases hin : j % 8 < O
            · rw [if_pos (by omega)]
              rw [show (j - (8 * B + O)) / 8 = j / 8 - B - 1 by omega]
              rw [show 7 - (j - (8 * B + O)) % 8 = 7 - j % 8 - (8 - O) by omega]
              simp [show ¬ (7 - j % 8 < 8 - O) by omega, show 7 - j % 8 < 8 by omega]
            · rw [if_neg (by omega)]
              simp [show 7 - j % 8 < 8 - O by omega]
          · rw [if_neg hend, if_neg (by omega)]
  · unfold setBytes
    simp only []
    rw [if_pos (by split <;> omega)]

example : setBytes ⟨3, [0xff, 0xff, 0xff]⟩ [0x00, 0xab] = some (0, ⟨19, [0xe0, 0x15, 0x7f]⟩) := by decide

/-- C10: bytes written with `bitvec_set_bytes` are read back by
`bitvec_get_bytes` from the same, possibly unaligned, position. -/
theorem set_get_bytes (bv : BV) (bytes : List Byte)
    (hfit : bv.cur + 8 * bytes.length ≤ 8 * bv.data.length) :
    ∃ bv', setBytes bv bytes = some (0, bv') ∧
      getBytes { bv' with cur := bv.cur } bytes.length = some (0, bytes, bv') := by
  have hs := set_bytes_spec bv bytes
  rw [if_pos hfit] at hs
  obtain ⟨d, e, l, m⟩ := hs
  refine ⟨_, e, ?_⟩
  have hg := get_bytes_spec { cur := bv.cur, data := d } bytes.length
  rw [if_pos (by simp only; omega)] at hg
  obtain ⟨out, eo, lo, mo⟩ := hg
  have : out = bytes := by
    apply ext_bitAt (lsb := false) lo
    intro j hj
    have h1 := mo j (by omega)
    simp only [msb] at h1 m
    rw [h1, m, if_pos (by omega)]
    congr 1; omega
  simp only at eo ⊢
  rw [eo, this]

example : getBytes ⟨3, [0xe0, 0x15, 0x7f]⟩ 2 = some (0, [0x00, 0xab], ⟨19, [0xe0, 0x15, 0x7f]⟩) := by decide

/-! ### C11 -/

/-- `L` is the length of the longest run of `b` in `f s, f (s+1), ...` limited
to `m` positions -/
def IsRun (f : Nat → Bool) (b : Bool) (s m L : Nat) : Prop :=
  L ≤ m ∧ (∀ k, k < L → f (s + k) = b) ∧ (L = m ∨ f (s + L) ≠ b)

theorem leadingBits_spec (d : Byte) (b : Bool) (h : fullByte b ≠ d) :
    leadingBits d b ≤ 7 ∧ (∀ k, k < leadingBits d b → d.getLsbD (7 - k) = b) ∧
      d.getLsbD (7 - leadingBits d b) ≠ b := by
  have hall : ∀ x : Fin 256, ∀ b : Bool, fullByte b ≠ BitVec.ofFin (w := 8) x →
      leadingBits (BitVec.ofFin (w := 8) x) b ≤ 7 ∧
      (∀ k, k < leadingBits (BitVec.ofFin (w := 8) x) b →
        (BitVec.ofFin (w := 8) x).getLsbD (7 - k) = b) ∧
      (BitVec.ofFin (w := 8) x).getLsbD (7 - leadingBits (BitVec.ofFin (w := 8) x) b) ≠ b := by
    decide +kernel
  exact hall d.toFin b h

theorem fullByte_bit (b : Bool) {k : Nat} (hk : k < 8) : (fullByte b).getLsbD k = b := by
  have h : ∀ b : Bool, ∀ k : Fin 8, (fullByte b).getLsbD k.val = b := by decide
  exact h b ⟨k, hk⟩

theorem msb_byte (data : List Byte) (i k : Nat) (hi : i < data.length) (hk : k < 8) :
    msb data (8 * i + k) = data[i].getLsbD (7 - k) := by
  unfold msb bitAt bitNum
  rw [show (8 * i + k) / 8 = i by omega, show (8 * i + k) % 8 = k by omega, getD_of_lt hi]
  rfl

/-- what one mismatching byte tells about the run -/
theorem run_mismatch (data : List Byte) (b : Bool) (i : Nat) (hi : i < data.length)
    (h : fullByte b ≠ data[i]) :
    (∀ k, k < leadingBits data[i] b → msb data (8 * i + k) = b) ∧
      msb data (8 * i + leadingBits data[i] b) ≠ b := by
  obtain ⟨h7, hk, he⟩ := leadingBits_spec _ _ h
  constructor
  · intro k hlt; rw [msb_byte _ _ _ hi (by omega)]; exact hk k hlt
  · rw [msb_byte _ _ _ hi (by omega)]; exact he

theorem run_match (data : List Byte) (b : Bool) (i : Nat) (hi : i < data.length)
    (h : ¬ fullByte b ≠ data[i]) (k : Nat) (hk : k < 8) : msb data (8 * i + k) = b := by
  have : data[i] = fullByte b := by
    apply Classical.byContradiction; intro hc; exact h (fun e => hc e.symm)
  rw [msb_byte _ _ _ hi hk, this]
  exact fullByte_bit b (by omega)

theorem rlLoop_spec (bv : BV) (b : Bool) (n i : Nat) (hn : 8 * (i + n) < bv.cur + 8)
    (hcur : bv.cur ≤ 8 * (i + n)) (hlen : bv.cur ≤ 8 * bv.data.length)
    (hpre : ∀ k, k < 8 * i → msb bv.data k = b) :
    ∃ r, rlLoop bv b n i = some r ∧ IsRun (msb bv.data) b 0 bv.cur (min r bv.cur) ∧
      (bv.cur % 8 = 0 → r ≤ bv.cur) := by
  induction n generalizing i with
  | zero =>
    refine ⟨bv.cur, rfl, ⟨by omega, ?_, by omega⟩, fun _ => Nat.le_refl _⟩
    intro k hk; rw [Nat.zero_add]; exact hpre k (by omega)
  | succ n ih =>
    have hi : i < bv.data.length := by omega
    unfold rlLoop
    rw [List.getElem?_eq_getElem hi]
    simp only []
    by_cases hm : fullByte b ≠ bv.data[i]
    · rw [if_pos hm]
      obtain ⟨h1, h2⟩ := run_mismatch _ _ _ hi hm
      have h7 := (leadingBits_spec _ _ hm).1
      refine ⟨_, rfl, ⟨by omega, ?_, ?_⟩, by omega⟩
      · intro k hk
        rw [Nat.zero_add]
        by_cases hk8 : k < 8 * i
        · exact hpre k hk8
        · have := h1 (k - 8 * i) (by omega)
          rwa [show 8 * i + (k - 8 * i) = k by omega] at this
      · by_cases hle : i * 8 + leadingBits bv.data[i] b ≤ bv.cur
        · right
          rw [Nat.min_eq_left hle, Nat.zero_add, Nat.mul_comm]; exact h2
        · left; omega
    · rw [if_neg hm]
      apply ih (i + 1) (by omega) (by omega)
      intro k hk
      by_cases hk8 : k < 8 * i
      · exact hpre k hk8
      · have := run_match _ _ _ hi hm (k - 8 * i) (by omega)
        rwa [show 8 * i + (k - 8 * i) = k by omega] at this

/-- C11: up to the cursor, `bitvec_rl` measures the initial run; its result is
exact when the cursor is at an octet boundary.  Missing for the full claim: with
the cursor inside an octet the result can exceed the cursor (next theorem). -/
theorem bitvec_rl_partial (bv : BV) (b : Bool) (hlen : bv.cur ≤ 8 * bv.data.length) :
    ∃ r, rl bv b = some r ∧ IsRun (msb bv.data) b 0 bv.cur (min r bv.cur) ∧
      (bv.cur % 8 = 0 → IsRun (msb bv.data) b 0 bv.cur r) := by
  unfold rl
  obtain ⟨r, e, h1, h2⟩ := rlLoop_spec bv b
    (if bv.cur % 8 ≠ 0 then bv.cur / 8 + 1 else bv.cur / 8) 0
    (by split <;> omega) (by split <;> omega) hlen (by intro k hk; omega)
  refine ⟨r, e, h1, fun h0 => ?_⟩
  have := h2 h0
  rwa [Nat.min_eq_left this] at h1

example : rl ⟨16, [0xff, 0xe0]⟩ true = some 11 := by decide

/-- C11 (finding): with the cursor inside an octet `bitvec_rl` counts bits
beyond the cursor: three valid zero bits are reported as a run of seven. -/
theorem bitvec_rl_counterexample : rl ⟨3, [0x01]⟩ false = some 7 := by decide

theorem readField1 (bv : BV) (idx : Nat) (h : idx < 8 * bv.data.length) :
    readField bv idx 1 = some ⟨if msb bv.data idx then 1#64 else 0#64, false, idx + 1,
      { bv with cur := idx + 1 }⟩ := by
  obtain ⟨r, e, hr⟩ := readField_ok bv idx 1 (by omega) (by omega)
  rw [e]
  have : r = if msb bv.data idx then 1#64 else 0#64 := by
    apply BitVec.eq_of_getLsbD_eq
    intro i hi
    rw [hr]
    by_cases h0 : i = 0
    · subst h0; simp only [Nat.sub_self, Nat.add_zero]
      cases msb bv.data idx <;> simp
    · have : ¬ i < 1 := by omega
      simp only [this, decide_false, Bool.false_and]
      cases msb bv.data idx <;> simp [h0]
  rw [this]

theorem rlCurHead_spec (b : Bool) (maxBits : Nat) (j idx res start : Nat) (bv : BV)
    (hcur : bv.cur = idx) (hidx : idx = start + res) (hmax : idx + j ≤ maxBits)
    (hlen : maxBits ≤ 8 * bv.data.length)
    (hpre : ∀ k, k < res → msb bv.data (start + k) = b) :
    (∃ bv', rlCurHead b maxBits j idx res bv = some (.inr (idx + j, res + j, bv')) ∧
        bv'.cur = idx + j ∧ bv'.data = bv.data ∧ ∀ k, k < res + j → msb bv.data (start + k) = b) ∨
    (∃ r bv', rlCurHead b maxBits j idx res bv = some (.inl (r, bv')) ∧ bv'.data = bv.data ∧
        bv'.cur = start + r ∧ start + r < maxBits ∧ (∀ k, k < r → msb bv.data (start + k) = b) ∧
        msb bv.data (start + r) ≠ b) := by
  induction j generalizing idx res bv with
  | zero => left; exact ⟨bv, rfl, hcur, rfl, hpre⟩
  | succ j ih =>
    unfold rlCurHead
    rw [if_pos (by omega), readField1 _ _ (by omega)]
    simp only []
    by_cases hb : msb bv.data idx = b
    · have : (if msb bv.data idx = true then 1#64 else 0#64) = (if b = true then 1#64 else 0#64) := by
        rw [hb]
      rw [if_pos this]
      have := ih (idx + 1) (res + 1) { bv with cur := idx + 1 } rfl (by omega) (by omega) hlen (by
        intro k hk
        by_cases hk2 : k < res
        · exact hpre k hk2
        · have : start + k = idx := by omega
          simp only; rw [this]; exact hb)
      rw [show idx + (j + 1) = idx + 1 + j by omega, show res + (j + 1) = res + 1 + j by omega]
      exact this
    · right
      have : ¬ (if msb bv.data idx = true then 1#64 else 0#64) = (if b = true then 1#64 else 0#64) := by
        intro h
        apply hb
        cases h1 : msb bv.data idx <;> cases b <;> simp [h1] at h ⊢
      rw [if_neg this]
      refine ⟨res, _, rfl, rfl, ?_, by omega, hpre, ?_⟩
      · simp only; omega
      · rw [← hidx]; exact hb

theorem rlCurBytes_spec (b : Bool) (maxBits idx res start n i count : Nat) (bv : BV)
    (hidx : idx = start + res) (hi : 8 * i = idx + 8 * count) (hn : 8 * (i + n) = maxBits)
    (hlen : maxBits ≤ 8 * bv.data.length)
    (hpre : ∀ k, start + k < 8 * i → msb bv.data (start + k) = b) :
    ∃ r bv', rlCurBytes b maxBits idx res n i count bv = some (r, bv') ∧
      IsRun (msb bv.data) b start (maxBits - start) r ∧ bv'.cur = start + r ∧ bv'.data = bv.data := by
  induction n generalizing i count with
  | zero =>
    unfold rlCurBytes
    simp only []
    refine ⟨_, _, rfl, ?_, ?_, rfl⟩
    · have : (if res + count * 8 + idx > maxBits then maxBits else res + count * 8 + idx) - idx + res =
          maxBits - start := by split <;> omega
      rw [this]
      exact ⟨Nat.le_refl _, fun k hk => hpre k (by omega), Or.inl rfl⟩
    · simp only; split <;> omega
  | succ n ih =>
    have hil : i < bv.data.length := by omega
    unfold rlCurBytes
    rw [List.getElem?_eq_getElem hil]
    simp only []
    by_cases hm : fullByte b ≠ bv.data[i]
    · rw [if_pos hm]
      obtain ⟨h1, h2⟩ := run_mismatch _ _ _ hil hm
      have h7 := (leadingBits_spec _ _ hm).1
      refine ⟨_, _, rfl, ⟨by omega, ?_, Or.inr ?_⟩, by simp only; omega, rfl⟩
      · intro k hk
        by_cases hk8 : start + k < 8 * i
        · exact hpre k hk8
        · have := h1 (start + k - 8 * i) (by omega)
          rwa [show 8 * i + (start + k - 8 * i) = start + k by omega] at this
      · rw [show start + (count * 8 + leadingBits bv.data[i] b + res) =
          8 * i + leadingBits bv.data[i] b by omega]
        exact h2
    · rw [if_neg hm]
      apply ih (i + 1) (count + 1) (by omega) (by omega)
      intro k hk
      by_cases hk8 : start + k < 8 * i
      · exact hpre k hk8
      · have := run_match _ _ _ hil hm (start + k - 8 * i) (by omega)
        rwa [show 8 * i + (start + k - 8 * i) = start + k by omega] at this

/-- C11: when the total number of bits is a multiple of 8, `bitvec_rl_curbit`
returns the length of the run starting at the cursor and moves the cursor to its
end.  Missing: a total that is not a multiple of 8 (next theorem). -/
theorem bitvec_rl_curbit_partial (bv : BV) (b : Bool) (maxBits : Nat) (h8 : maxBits % 8 = 0)
    (hc : bv.cur ≤ maxBits) (hlen : maxBits ≤ 8 * bv.data.length) :
    ∃ r bv', rlCurbit bv b maxBits = some (r, bv') ∧
      IsRun (msb bv.data) b bv.cur (maxBits - bv.cur) r ∧ bv'.cur = bv.cur + r ∧
      bv'.data = bv.data := by
  unfold rlCurbit
  simp only []
  rw [if_neg (show ¬ maxBits % 8 ≠ 0 by omega)]
  by_cases hal : bv.cur % 8 = 0
  · rw [if_neg (by omega)]
    simp only []
    exact rlCurBytes_spec b maxBits bv.cur 0 bv.cur (maxBits / 8 - bv.cur / 8) (bv.cur / 8) 0 bv
      (by omega) (by omega) (by omega) hlen (by intro k hk; omega)
  · rw [if_pos (by omega)]
    rcases rlCurHead_spec b maxBits (8 - bv.cur % 8) bv.cur 0 bv.cur bv rfl (by omega) (by omega)
      hlen (by intro k hk; omega) with ⟨bv', e, _, hd, hp⟩ | ⟨r, bv', e, hd, hcu, hlt, hp, hne⟩
    · rw [e]
      simp only []
      obtain ⟨r, bv'', e2, h1, h2, h3⟩ := rlCurBytes_spec b maxBits (bv.cur + (8 - bv.cur % 8))
        (0 + (8 - bv.cur % 8)) bv.cur
        (maxBits / 8 - (bv.cur + (8 - bv.cur % 8)) / 8) ((bv.cur + (8 - bv.cur % 8)) / 8) 0 bv'
        (by omega) (by omega) (by omega) (by rw [hd]; exact hlen)
        (by intro k hk; rw [hd]; exact hp k (by omega))
      rw [hd] at h1 h3
      exact ⟨r, bv'', e2, h1, h2, h3⟩
    · rw [e]
      exact ⟨r, bv', rfl, ⟨by omega, hp, Or.inr hne⟩, hcu, hd⟩

example : rlCurbit ⟨5, [0x07, 0xff, 0x80]⟩ true 24 = some (12, ⟨17, [0x07, 0xff, 0x80]⟩) := by decide

/-- C11 (finding): with a total that is not a multiple of 8 the run overshoots
the total (6 of 3 bits), and the cursor ends one position early when the total
is reached inside the first octet. -/
theorem bitvec_rl_curbit_counterexample :
    rlCurbit ⟨0, [0xfd]⟩ true 3 = some (6, ⟨6, [0xfd]⟩) ∧
    rlCurbit ⟨1, [0xff]⟩ true 3 = some (2, ⟨2, [0xff]⟩) := by decide

/-- C11: `bitvec_find_bit_pos` returns the first position ≥ n holding the value
(0 or 1), or -1 when there is none. -/
theorem find_bit_pos_spec (bv : BV) (n : Nat) (b : Bool) :
    let r := findBitPos bv n (if b then .one else .zero)
    (∃ p : Nat, r = p ∧ n ≤ p ∧ p < 8 * bv.data.length ∧ msb bv.data p = b ∧
      ∀ q, n ≤ q → q < p → msb bv.data q ≠ b) ∨
    (r = -1 ∧ ∀ q, n ≤ q → q < 8 * bv.data.length → msb bv.data q ≠ b) := by
  have : ∀ m i, (m = 0 → 8 * bv.data.length ≤ i) → (m ≠ 0 → i + m = 8 * bv.data.length) →
    (∃ p : Nat, findLoop bv (if b then .one else .zero) m i = p ∧ i ≤ p ∧
      p < 8 * bv.data.length ∧ msb bv.data p = b ∧ ∀ q, i ≤ q → q < p → msb bv.data q ≠ b) ∨
    (findLoop bv (if b then .one else .zero) m i = -1 ∧
      ∀ q, i ≤ q → q < 8 * bv.data.length → msb bv.data q ≠ b) := by
    intro m
    induction m with
    | zero => intro i h1 _; right; refine ⟨rfl, ?_⟩; intro q h3 h4; have := h1 rfl; omega
    | succ m ih =>
      intro i h1 h2
      have hb := h2 (by omega)
      unfold findLoop
      rw [getBitPos_ok (by omega)]
      by_cases hm : msb bv.data i = b
      · left
        refine ⟨i, ?_, Nat.le_refl _, by omega, hm, by intros; omega⟩
        rw [hm]; simp
      · have : ¬ (some (if msb bv.data i = true then BitVal.one else BitVal.zero) =
            some (if b = true then BitVal.one else BitVal.zero)) := by
          cases h1 : msb bv.data i <;> cases b <;> simp [h1] at hm ⊢
        rw [if_neg this]
        rcases ih (i + 1) (by omega) (by omega) with ⟨p, e, h3, h4, h5, h6⟩ | ⟨e, h3⟩
        · left
          refine ⟨p, e, by omega, h4, h5, ?_⟩
          intro q h7 h8
          by_cases hq : q = i
          · subst hq; exact hm
          · exact h6 q (by omega) h8
        · right
          refine ⟨e, ?_⟩
          intro q h7 h8
          by_cases hq : q = i
          · subst hq; exact hm
          · exact h3 q (by omega) h8
  simp only []
  unfold findBitPos
  exact this _ n (by omega) (by omega)

example : findBitPos ⟨0, [0x00, 0x21]⟩ 11 .one = 15 ∧ findBitPos ⟨0, [0x00, 0x20]⟩ 11 .one = -1 := by decide

/-- number of ones among the first `i` bits -/
def ones (f : Nat → Bool) (i : Nat) : Nat := ((List.range i).filter f).length

theorem ones_succ (f : Nat → Bool) (i : Nat) : ones f (i + 1) = ones f i + (if f i then 1 else 0) := by
  unfold ones
  rw [List.range_succ, List.filter_append]
  rw [List.length_append]
  cases h : f i <;> simp [h]

/-- C11: `bitvec_get_nth_set_bit` (n ≥ 1) returns the position of the n-th set
bit; when there are fewer it returns 0. -/
theorem nth_set_bit_spec (bv : BV) (n : Nat) (hn : 1 ≤ n) :
    (∃ p, getNthSetBit bv n = p ∧ p < 8 * bv.data.length ∧ msb bv.data p = true ∧
      ones (msb bv.data) p = n - 1) ∨
    (getNthSetBit bv n = 0 ∧ ones (msb bv.data) (8 * bv.data.length) < n) := by
  have : ∀ m i k, i + m = 8 * bv.data.length → k = ones (msb bv.data) i → k < n →
      (∃ p, nthLoop bv n m i k = p ∧ p < 8 * bv.data.length ∧ msb bv.data p = true ∧
        ones (msb bv.data) p = n - 1) ∨
      (nthLoop bv n m i k = 0 ∧ ones (msb bv.data) (8 * bv.data.length) < n) := by
    intro m
    induction m with
    | zero => intro i k h1 h2 h3; right; exact ⟨rfl, by rw [← h1, Nat.add_zero, ← h2]; exact h3⟩
    | succ m ih =>
      intro i k h1 h2 h3
      unfold nthLoop
      rw [getBitPos_ok (by omega)]
      have hs := ones_succ (msb bv.data) i
      by_cases hb : msb bv.data i = true
      · rw [hb] at hs ⊢
        simp only [if_true] at hs ⊢
        by_cases hk : k + 1 = n
        · left; rw [if_pos hk]; exact ⟨i, rfl, by omega, hb, by omega⟩
        · rw [if_neg hk]; exact ih (i + 1) (k + 1) (by omega) (by omega) (by omega)
      · simp only [Bool.not_eq_true] at hb
        rw [hb] at hs ⊢
        simp only [Bool.false_eq_true, if_false, Nat.add_zero] at hs ⊢
        simp only [Option.some.injEq, reduceCtorEq, if_false]
        exact ih (i + 1) k (by omega) (by omega) h3
  unfold getNthSetBit
  exact this _ 0 0 (by omega) (by simp [ones]) (by omega)

example : getNthSetBit ⟨0, [0x21, 0x80]⟩ 3 = 8 := by decide

/-! ### C53: shift left -/

/-- C53 (finding): the second to last octet is not shifted: bit 15 of a three
octet vector should move to bit 14. -/
theorem shiftl_counterexample :
    shiftl ⟨24, [0x00, 0x01, 0x00]⟩ 1 = some ⟨23, [0x00, 0x01, 0x00]⟩ ∧
    msb [0x00, 0x01, 0x00] (14 + 1) = true ∧ msb [0x00, 0x01, 0x00] 14 = false := by decide +kernel

theorem shiftl_one (x : Byte) (n : Nat) (bv : BV) (hd : bv.data = [x]) (h0 : n ≠ 0) (hn : n < bv.cur)
    (h8 : n < 8) : shiftl bv n = none := by
  have hl : ∀ s c, shiftlLoop s (c + 1) 0 [x] = none := by intro s c; simp [shiftlLoop]
  have hc : ∃ c, shiftlCount 1 = c + 1 := ⟨4294967294, by unfold shiftlCount; decide⟩
  unfold shiftl
  rw [if_neg h0, if_neg (by omega), hd]
  obtain ⟨c, hc⟩ := hc
  have h3 : readAt [x] ((0 : Nat) : Int) 1 = some [x] := by simp [readAt]
  have h4 : writeAt [x] 0 [x] = some [x] := by simp [writeAt]
  dsimp only
  rw [show n / 8 = 0 by omega, List.length_singleton, Nat.sub_zero, h3, Option.bind_some, h4,
    Option.bind_some, hc, hl, Option.bind_none]

/-- C53 (finding): on a one octet vector the loop bound wraps around and the
code reads past the vector at the first iteration. -/
theorem shiftl_oob_counterexample : shiftl ⟨8, [0x55]⟩ 1 = none :=
  shiftl_one 0x55 1 _ rfl (by decide) (by decide) (by decide)

theorem shiftlLoop_val (s : Nat) (n i : Nat) (data : List Byte) (h : i + n < data.length) :
    ∃ d, shiftlLoop s n i data = some d ∧ d.length = data.length ∧
      ∀ j, d.getD j 0#8 = if i ≤ j ∧ j < i + n then
        ((((data.getD j 0#8).setWidth 16 <<< 8 ||| (data.getD (j + 1) 0#8).setWidth 16) <<< s) >>> 8).setWidth 8
        else data.getD j 0#8 := by
  induction n generalizing i data with
  | zero => exact ⟨data, rfl, rfl, fun j => by rw [if_neg (by omega)]⟩
  | succ n ih =>
    have h1 : i < data.length := by omega
    have h2 : i + 1 < data.length := by omega
    unfold shiftlLoop
    simp only [List.getElem?_eq_getElem h1, List.getElem?_eq_getElem h2]
    generalize hw : (((data[i].setWidth 16 <<< 8 ||| data[i + 1].setWidth 16) <<< s) >>> 8).setWidth 8 = w
    obtain ⟨d, e, l, m⟩ := ih (i + 1) (data.set i w) (by simp; omega)
    refine ⟨d, e, by simpa using l, ?_⟩
    intro j
    rw [m j]
    have hne : ∀ q, q ≠ i → (data.set i w).getD q 0#8 = data.getD q 0#8 := by
      intro q hq; simp [List.getD, List.getElem?_set_ne (fun e => hq e.symm)]
    by_cases hj : j = i
    · subst hj
      rw [if_neg (by omega), if_pos (by omega), getD_of_lt h1, getD_of_lt h2, hw]
      simp [List.getD, h1]
    · by_cases hr : i + 1 ≤ j ∧ j < i + 1 + n
      · rw [if_pos hr, if_pos (by omega), hne j hj, hne (j + 1) (by omega)]
      · rw [if_neg hr, if_neg (by omega), hne j hj]

theorem shift16_bit (a c : Byte) {s k : Nat} (hs : s < 8) (hk : k < 8) :
    ((((a.setWidth 16 <<< 8 ||| c.setWidth 16) <<< s) >>> 8).setWidth 8).getLsbD (7 - k) =
      if k + s < 8 then a.getLsbD (7 - (k + s)) else c.getLsbD (7 - (k + s - 8)) := by
  simp only [BitVec.getLsbD_setWidth, BitVec.getLsbD_or, BitVec.getLsbD_shiftLeft,
    BitVec.getLsbD_ushiftRight]
  by_cases h : k + s < 8
  · rw [if_pos h]
    have e : 8 + (7 - k) - s - 8 = 7 - (k + s) := by omega
    have hc : c.getLsbD (8 + (7 - k) - s) = false := BitVec.getLsbD_of_ge _ _ (by omega)
    rw [e, hc]
    simp [show 7 - k < 8 by omega, show 8 + (7 - k) < 16 by omega, show ¬ (8 + (7 - k) < s) by omega,
      show 8 + (7 - k) - s < 16 by omega, show ¬ (8 + (7 - k) - s < 8) by omega,
      show 7 - (k + s) < 16 by omega]
  · rw [if_neg h]
    have e : 8 + (7 - k) - s = 7 - (k + s - 8) := by omega
    rw [e]
    simp [show 7 - k < 8 by omega, show 8 + (7 - k) < 16 by omega, show ¬ (8 + (7 - k) < s) by omega,
      show 7 - (k + s - 8) < 16 by omega, show 7 - (k + s - 8) < 8 by omega]

/-- C53: after `bitvec_shiftl` by `n` bit `i` is the former bit `i + n`, for
every bit of every octet but the second to last, and for all bits when `n` is a
multiple of 8.  Missing: the second to last octet, where the code is wrong. -/
theorem shiftl_partial (bv : BV) (n : Nat) (h0 : 0 < n) (hc : n < bv.cur)
    (hlen : bv.cur ≤ 8 * bv.data.length) (h2 : 2 ≤ bv.data.length) (h32 : bv.data.length < 2 ^ 32) :
    ∃ bv', shiftl bv n = some bv' ∧ bv'.cur = bv.cur - n ∧ bv'.data.length = bv.data.length ∧
      ∀ i, i + n < 8 * bv.data.length → (n % 8 = 0 ∨ i / 8 ≠ bv.data.length - 2) →
        msb bv'.data i = msb bv.data (i + n) := by
  unfold shiftl
  rw [if_neg (by omega), if_neg (by omega)]
  simp only []
  rw [readAt_eq_some (by omega), Option.bind_some]
  have hwl : ((bv.data.drop (n / 8)).take (bv.data.length - n / 8)).length = bv.data.length - n / 8 := by
    simp
  have hw := writeAt_eq_some (mem := bv.data)
    (bs := (bv.data.drop (n / 8)).take (bv.data.length - n / 8)) (o := 0) (by omega)
  rw [show ((0 : Nat) : Int) = 0 by rfl] at hw
  rw [hw, Option.bind_some, List.take_zero, List.nil_append, Nat.zero_add]
  generalize hD : (bv.data.drop (n / 8)).take (bv.data.length - n / 8) ++
    bv.data.drop ((bv.data.drop (n / 8)).take (bv.data.length - n / 8)).length = D
  have hDl : D.length = bv.data.length := by
    rw [← hD, List.length_append, hwl, List.length_drop]; omega
  have hDv : ∀ i, i + n / 8 < bv.data.length → D.getD i 0#8 = bv.data.getD (i + n / 8) 0#8 := by
    intro i hi
    rw [← hD]
    simp only [List.getD]
    rw [List.getElem?_append_left (by omega), List.getElem?_take, if_pos (by omega),
      List.getElem?_drop, Nat.add_comm]
  have hcnt : shiftlCount bv.data.length = bv.data.length - 2 := by unfold shiftlCount; omega
  rw [hcnt]
  obtain ⟨d, e, l, m⟩ := shiftlLoop_val (n % 8) (bv.data.length - 2) 0 D (by omega)
  rw [e, Option.bind_some]
  have hlast : bv.data.length - 1 < d.length := by omega
  rw [List.getElem?_eq_getElem hlast, Option.map_some]
  refine ⟨_, rfl, rfl, by simp; omega, ?_⟩
  intro i hi hcond
  have hne : ∀ q w, q ≠ bv.data.length - 1 →
      (d.set (bv.data.length - 1) w).getD q 0#8 = d.getD q 0#8 := by
    intro q w hq; simp [List.getD, List.getElem?_set_ne (fun e => hq e.symm)]
  unfold msb bitAt bitNum
  simp only [Bool.false_eq_true, if_false]
  by_cases hl : i / 8 = bv.data.length - 1
  · -- last octet
    have hs : n / 8 = 0 := by omega
    have hdv : d[bv.data.length - 1] = bv.data.getD (bv.data.length - 1) 0#8 := by
      rw [← getD_of_lt hlast, m, if_neg (by omega), hDv _ (by omega), hs, Nat.add_zero]
    rw [hl]
    have : (d.set (bv.data.length - 1) (d[bv.data.length - 1] <<< (n % 8))).getD
        (bv.data.length - 1) 0#8 = d[bv.data.length - 1] <<< (n % 8) := by
      simp [List.getD, hlast]
    rw [this, hdv]
    rw [show (i + n) / 8 = bv.data.length - 1 by omega,
      show 7 - (i + n) % 8 = 7 - i % 8 - n % 8 by omega]
    simp only [BitVec.getLsbD_shiftLeft]
    simp [show 7 - i % 8 < 8 by omega, show ¬ (7 - i % 8 < n % 8) by omega]
  · rw [hne _ _ hl, m]
    by_cases hr : i / 8 < bv.data.length - 2
    · rw [if_pos (by omega), shift16_bit _ _ (by omega) (by omega)]
      split
      · rw [hDv _ (by omega), show (i + n) / 8 = i / 8 + n / 8 by omega,
          show (i + n) % 8 = i % 8 + n % 8 by omega]
      · rw [hDv _ (by omega), show (i + n) / 8 = i / 8 + 1 + n / 8 by omega,
          show (i + n) % 8 = i % 8 + n % 8 - 8 by omega]
    · rw [if_neg (by omega), hDv _ (by omega), show (i + n) / 8 = i / 8 + n / 8 by omega,
        show (i + n) % 8 = i % 8 by omega]

example : shiftl ⟨32, [0x01, 0x80, 0xff, 0x0f]⟩ 9 = some ⟨23, [0x01, 0xfe, 0x0f, 0x1e]⟩ := by decide +kernel

/-- C53: shifting by the number of valid bits or more empties the vector. -/
theorem shiftl_all (bv : BV) (n : Nat) (h0 : 0 < n) (h : bv.cur ≤ n) :
    shiftl bv n = some { cur := 0, data := List.replicate bv.data.length 0#8 } := by
  unfold shiftl
  rw [if_neg (by omega), if_pos h]

/-! ### C54: arrays -/

/-- the CSN.1 encoding of an array: each element preceded by 1, then a final 0 -/
def encElem (nb : Nat) (a : BitVec 32) : List Bool :=
  true :: (List.range nb).map fun i => a.toNat.testBit (nb - 1 - i)

def encArray (nb : Nat) (arr : List (BitVec 32)) : List Bool :=
  arr.flatMap (encElem nb) ++ [false]

/-- `bv'` is `bv` with `bits` appended at the cursor and nothing else changed -/
def Wrote (bv bv' : BV) (bits : List Bool) : Prop :=
  bv'.cur = bv.cur + bits.length ∧ bv'.data.length = bv.data.length ∧
    ∀ j, msb bv'.data j = if bv.cur ≤ j ∧ j < bv.cur + bits.length then bits.getD (j - bv.cur) false
      else msb bv.data j

theorem Wrote.trans {a b c : BV} {x y : List Bool} (h1 : Wrote a b x) (h2 : Wrote b c y) :
    Wrote a c (x ++ y) := by
  obtain ⟨c1, l1, m1⟩ := h1
  obtain ⟨c2, l2, m2⟩ := h2
  refine ⟨by rw [c2, c1, List.length_append]; omega, by omega, ?_⟩
  intro j
  rw [m2, m1, List.length_append, c1]
  by_cases hx : a.cur ≤ j ∧ j < a.cur + x.length
  · rw [if_neg (by omega), if_pos hx, if_pos (by omega)]
    simp only [List.getD]; rw [List.getElem?_append_left (by omega)]
  · by_cases hy : a.cur + x.length ≤ j ∧ j < a.cur + x.length + y.length
    · rw [if_pos hy, if_pos (by omega)]
      simp only [List.getD]; rw [List.getElem?_append_right (by omega)]
      congr 2; omega
    · rw [if_neg hy, if_neg hx, if_neg (by omega)]

theorem wrote_setBit (bv : BV) (b : Bool) (h : bv.cur < 8 * bv.data.length) :
    Wrote bv (setBit bv (if b then .one else .zero)).2 [b] := by
  obtain ⟨d, e, l, m⟩ := setBit_ok (bv := bv) (if b then .one else .zero) h
  rw [e]
  refine ⟨rfl, l, ?_⟩
  intro j
  simp only [List.length_singleton]
  rw [m]
  by_cases hj : j = bv.cur
  · subst hj
    rw [if_pos rfl, if_pos (show bv.cur ≤ bv.cur ∧ bv.cur < bv.cur + 1 by omega)]
    cases b <;> simp [symBit]
  · rw [if_neg hj, if_neg (show ¬ (bv.cur ≤ j ∧ j < bv.cur + 1) by omega)]

theorem wrote_setUint (bv : BV) (a : BitVec 32) (nb : Nat) (hn : nb ≤ 64)
    (h : bv.cur + nb ≤ 8 * bv.data.length) :
    Wrote bv (setUint bv a nb).2 ((List.range nb).map fun i => a.toNat.testBit (nb - 1 - i)) := by
  obtain ⟨bv', _, e, hc, hl, hfr, hm, _⟩ := set_u64_spec bv (a.setWidth 64) nb hn h
  have : (setUint bv a nb).2 = bv' := by unfold setUint; rw [e]
  rw [this]
  refine ⟨by simpa using hc, hl, ?_⟩
  intro j
  simp only [List.length_map, List.length_range]
  by_cases hj : bv.cur ≤ j ∧ j < bv.cur + nb
  · rw [if_pos hj]
    have := hm (j - bv.cur) (by omega)
    rw [show bv.cur + (j - bv.cur) = j by omega] at this
    rw [this]
    simp only [List.getD, List.getElem?_map, List.getElem?_range (show j - bv.cur < nb by omega),
      Option.map_some, Option.getD_some]
    simp only [BitVec.getLsbD_setWidth, show nb - 1 - (j - bv.cur) < 64 by omega, decide_true,
      Bool.true_and]
    rfl
  · rw [if_neg hj]; exact hfr j hj

theorem wrote_loop (nb : Nat) (hn : nb ≤ 64) (arr : List (BitVec 32)) (bv : BV)
    (h : bv.cur + arr.length * (1 + nb) ≤ 8 * bv.data.length) :
    Wrote bv (addArrayLoop nb arr bv) (arr.flatMap (encElem nb)) := by
  induction arr generalizing bv with
  | nil =>
    refine ⟨rfl, rfl, ?_⟩
    intro j; rw [if_neg (by simp)]; rfl
  | cons a as ih =>
    simp only [List.length_cons, Nat.add_mul, Nat.one_mul] at h
    unfold addArrayLoop
    have h1 := wrote_setBit bv true (by omega)
    simp only [if_true] at h1
    have hc1 := h1.1
    have hl1 := h1.2.1
    simp only [List.length_singleton] at hc1
    have h2 := wrote_setUint (setBit bv .one).2 a nb hn (by omega)
    have h12 := h1.trans h2
    have hc2 := h12.1
    have hl2 := h12.2.1
    simp only [List.length_append, List.length_singleton, List.length_map, List.length_range] at hc2
    have h3 := ih (setUint (setBit bv .one).2 a nb).2 (by rw [hc2, hl2]; omega)
    exact h12.trans h3

theorem addArrayDry_val (arr : List (BitVec 32)) (nb : Nat) :
    addArrayDry arr nb = arr.length * (1 + nb) + 1 := by
  unfold addArrayDry
  have : ∀ (l : List (BitVec 32)) (x : Nat), l.foldl (fun bits _ => bits + (1 + nb)) x =
      l.length * (1 + nb) + x := by
    intro l
    induction l with
    | nil => intro x; simp
    | cons a l ih => intro x; rw [List.foldl_cons, ih, List.length_cons, Nat.add_mul, Nat.one_mul]; omega
  exact this arr 1

/-- C54: `bitvec_add_array` appends exactly the CSN.1 repetition `{1 <elem>} ** 0`
and its dry run announces exactly the number of bits appended. -/
theorem add_array_spec (bv : BV) (arr : List (BitVec 32)) (nb : Nat) (hn : nb ≤ 64)
    (h : bv.cur + addArrayDry arr nb ≤ 8 * bv.data.length) :
    Wrote bv (addArray bv arr nb) (encArray nb arr) ∧
      (addArray bv arr nb).cur = bv.cur + addArrayDry arr nb := by
  rw [addArrayDry_val] at h ⊢
  have h1 := wrote_loop nb hn arr bv (by omega)
  have hlen : (arr.flatMap (encElem nb)).length = arr.length * (1 + nb) := by
    clear h h1
    induction arr with
    | nil => simp
    | cons a as ih =>
      rw [List.flatMap_cons, List.length_append, ih]
      simp [encElem, Nat.add_mul]; omega
  have hc1 := h1.1
  have hl1 := h1.2.1
  have h2 := wrote_setBit (addArrayLoop nb arr bv) false (by omega)
  have h12 := h1.trans h2
  refine ⟨h12, ?_⟩
  have := h12.1
  rw [List.length_append, hlen] at this
  exact this

example : (addArray ⟨0, [0xff, 0xff]⟩ [5#32, 2#32] 3) = ⟨9, [0xda, 0x7f]⟩ ∧
    addArrayDry [5#32, 2#32] 3 = 9 := by decide

/-- C54: different arrays of `nb`-bit values (nb ≤ 32) have different, prefix-free
encodings, so a reader recovers the array. -/
theorem enc_array_prefix_free (nb : Nat) (x y : List (BitVec 32)) (tx ty : List Bool)
    (hx : ∀ a ∈ x, a.toNat < 2 ^ nb) (hy : ∀ a ∈ y, a.toNat < 2 ^ nb)
    (h : encArray nb x ++ tx = encArray nb y ++ ty) : x = y ∧ tx = ty := by
  induction x generalizing y with
  | nil =>
    cases y with
    | nil => simpa [encArray] using h
    | cons b bs => simp [encArray, encElem] at h
  | cons a as ih =>
    cases y with
    | nil => simp [encArray, encElem] at h
    | cons b bs =>
      have h' : encElem nb a ++ (encArray nb as ++ tx) = encElem nb b ++ (encArray nb bs ++ ty) := by
        simpa [encArray, List.append_assoc] using h
      have hl : (encElem nb a).length = (encElem nb b).length := by simp [encElem]
      obtain ⟨h1, h2⟩ := List.append_inj h' hl
      obtain ⟨i1, i2⟩ := ih bs (fun c hc => hx c (by simp [hc])) (fun c hc => hy c (by simp [hc])) h2
      refine ⟨?_, i2⟩
      rw [i1]
      congr 1
      apply BitVec.eq_of_toNat_eq
      apply Nat.eq_of_testBit_eq
      intro k
      simp only [encElem, List.cons.injEq, true_and] at h1
      by_cases hk : k < nb
      · have := congrArg (fun l => l[nb - 1 - k]?) h1
        simp only [List.getElem?_map, List.getElem?_range (show nb - 1 - k < nb by omega),
          Option.map_some, Option.some.injEq] at this
        rwa [show nb - 1 - (nb - 1 - k) = k by omega] at this
      · have ha := hx a (by simp)
        have hb := hy b (by simp)
        have hp : 2 ^ nb ≤ 2 ^ k := Nat.pow_le_pow_right (by omega) (by omega)
        rw [Nat.testBit_lt_two_pow (by omega), Nat.testBit_lt_two_pow (by omega)]

example : encArray 3 [5#32, 2#32] = [true, true, false, true, true, false, true, false, false] := by decide

end Verif.Bitvec
