import Verif.Bits.Model
/-!
Properties C05 (packing), C06 (offset copies), C07 (bit reversal),
C52 (soft bits, nibble shifts, rotation).
-/
namespace Verif.Bits

/-! ### C05 -/

/-- a `ubit_t` buffer holds only 0 and 1 -/
def IsUbits (u : List Byte) : Prop := ∀ b ∈ u, b = 0#8 ∨ b = 1#8

theorem length_ubit2pbitLoop (u : List Byte) (i : Nat) (cur : Byte) :
    (ubit2pbitLoop u i cur).length = (i % 8 + u.length + 7) / 8 := by
  induction u generalizing i cur with
  | nil => unfold ubit2pbitLoop; split <;> simp <;> omega
  | cons b rest ih =>
    unfold ubit2pbitLoop
    simp only []
    split
    · simp [ih]; omega
    · rw [ih]; simp; omega

theorem getLsbD_pack (cur b : Byte) (hb : b = 0#8 ∨ b = 1#8) {n k : Nat} (hk : k < 8) :
    (cur ||| (b <<< n)).getLsbD k = (cur.getLsbD k || (decide (k = n) && b.getLsbD 0)) := by
  rcases hb with h | h
  · subst h; simp
  · subst h; rw [getLsbD_or_bit _ hk]; simp

/-- bit `j` of the output of the loop started with `i % 8` bits in `cur` -/
theorem msb_ubit2pbitLoop (u : List Byte) (hu : IsUbits u) (i : Nat) (cur : Byte)
    (hcur : ∀ k, k < 8 → i % 8 ≤ 7 - k → cur.getLsbD k = false) (j : Nat) :
    msb (ubit2pbitLoop u i cur) j =
      if j < i % 8 then cur.getLsbD (7 - j)
      else (u.getD (j - i % 8) 0#8).getLsbD 0 := by
  induction u generalizing i cur j with
  | nil =>
    unfold ubit2pbitLoop
    split
    · by_cases hj : j < 8
      · have : j / 8 = 0 := by omega
        simp only [msb, bitAt, this, bitNum]
        have e : j % 8 = j := by omega
        simp only [e, List.getD_cons_zero, Bool.false_eq_true, if_false]
        by_cases hlt : j < i % 8
        · rw [if_pos hlt]
        · rw [if_neg hlt, hcur (7 - j) (by omega) (by omega)]; simp
      · rw [msb, bitAt_beyond (by simp; omega)]
        rw [if_neg (by omega)]; simp
    · rw [msb, bitAt_beyond (by simp)]
      rw [if_neg (by omega)]; simp
  | cons b rest ih =>
    have hb : b = 0#8 ∨ b = 1#8 := hu b (by simp)
    have hr : IsUbits rest := fun x hx => hu x (by simp [hx])
    unfold ubit2pbitLoop
    simp only []
    split
    · rename_i h7
      by_cases hj : j < 8
      · have : j / 8 = 0 := by omega
        have e : j % 8 = j := by omega
        simp only [msb, bitAt, this, bitNum, e]
        simp only [List.getD_cons_zero, Bool.false_eq_true, if_false]
        rw [getLsbD_pack _ _ hb (by omega)]
        by_cases hj7 : j < 7
        · rw [if_pos (by omega)]; simp; omega
        · have : j = 7 := by omega
          subst this
          rw [if_neg (by omega)]
          rw [hcur _ (by omega) (by omega), h7]; simp
      · have hm : msb ((cur ||| b <<< (7 - i % 8)) :: ubit2pbitLoop rest (i + 1) 0#8) j =
            msb (ubit2pbitLoop rest (i + 1) 0#8) (j - 8) := by
          simp only [msb, bitAt, bitNum]
          have e1 : j / 8 = (j - 8) / 8 + 1 := by omega
          have e2 : (j - 8) % 8 = j % 8 := by omega
          rw [e1, e2]; simp
        rw [hm, ih hr (i + 1) 0#8 (by intro k _ _; simp)]
        have e3 : (i + 1) % 8 = 0 := by omega
        rw [e3, if_neg (by omega), if_neg (by omega)]
        have e4 : j - i % 8 = (j - 8 - 0) + 1 := by omega
        rw [e4]; simp
    · rename_i h7
      rw [ih hr (i + 1)]
      · have e3 : (i + 1) % 8 = i % 8 + 1 := by omega
        rw [e3]
        by_cases hj : j < i % 8
        · rw [if_pos (by omega), if_pos hj, getLsbD_pack _ _ hb (by omega)]
          simp; omega
        · by_cases hj2 : j = i % 8
          · subst hj2
            rw [if_pos (by omega), if_neg (by omega), getLsbD_pack _ _ hb (by omega)]
            rw [hcur _ (by omega) (by omega)]; simp
          · rw [if_neg (by omega), if_neg (by omega)]
            have e4 : j - i % 8 = (j - (i % 8 + 1)) + 1 := by omega
            rw [e4]; simp
      · intro k hk hle
        rw [getLsbD_pack _ _ hb hk, hcur k hk (by omega)]
        have : k ≠ 7 - i % 8 := by omega
        simp [this]

/-- C05: `osmo_ubit2pbit` on `n` unpacked bits uses `osmo_pbit_bytesize n` =
ceil(n/8) bytes, the packed bit string (MSB first) is the unpacked one, and the
remaining bits of the last byte are zero. -/
theorem ubit2pbit_spec (u : List Byte) (hu : IsUbits u) :
    (ubit2pbit u).length = pbitBytesize u.length ∧
    (ubit2pbit u).length = (u.length + 7) / 8 ∧
    (∀ j, (h : j < u.length) → msb (ubit2pbit u) j = u[j].getLsbD 0) ∧
    (∀ j, u.length ≤ j → msb (ubit2pbit u) j = false) := by
  have hl : (ubit2pbit u).length = (u.length + 7) / 8 := by
    unfold ubit2pbit; rw [length_ubit2pbitLoop]; simp
  have hm : ∀ j, msb (ubit2pbit u) j = (u.getD j 0#8).getLsbD 0 := by
    intro j
    unfold ubit2pbit
    rw [msb_ubit2pbitLoop u hu 0 0#8 (by intro k _ _; simp)]
    simp
  refine ⟨?_, hl, ?_, ?_⟩
  · rw [hl]; unfold pbitBytesize; split <;> omega
  · intro j h; rw [hm]; simp [List.getD, h]
  · intro j h; rw [hm]; simp [List.getD, List.getElem?_eq_none h]

example : IsUbits [1, 0, 1, 1, 0, 0, 1, 0, 1, 1] ∧
    ubit2pbit [1, 0, 1, 1, 0, 0, 1, 0, 1, 1] = [0xb2, 0xc0] := by
  constructor
  · unfold IsUbits; decide
  · decide

/-- the byte representing an unpacked bit -/
def ubitOf (b : Bool) : Byte := if b then 1#8 else 0#8

theorem shiftmask_eq (b : Byte) (k : Nat) : (b >>> k) &&& 1#8 = ubitOf (b.getLsbD k) := by
  apply BitVec.eq_of_getLsbD_eq
  intro i hi
  simp only [BitVec.getLsbD_and, BitVec.getLsbD_ushiftRight, BitVec.getLsbD_one]
  unfold ubitOf
  by_cases h : i = 0
  · subst h; cases hb : b.getLsbD k <;> simp [hb]
  · cases hb : b.getLsbD k <;> simp [h, Ne.symm h]

theorem unpackByte_spec (byte : Byte) (limit : Nat) (n : Nat) (hn : n ≤ 8) (w : List Byte) :
    unpackByte byte limit (List.range n).reverse w =
      if n = 0 then (w, false)
      else if limit ≤ w.length + n then
        (w ++ ((List.range n).reverse.take (max 1 (limit - w.length))).map
            (fun k => ubitOf (byte.getLsbD k)), true)
      else (w ++ (List.range n).reverse.map (fun k => ubitOf (byte.getLsbD k)), false) := by
  induction n generalizing w with
  | zero => simp [unpackByte]
  | succ n ih =>
    rw [List.range_succ, List.reverse_append]
    simp only [List.reverse_cons, List.reverse_nil, List.nil_append, List.singleton_append]
    rw [unpackByte]
    simp only [shiftmask_eq]
    rw [ih (by omega)]
    simp only [List.length_append, List.length_singleton]
    by_cases h1 : limit ≤ w.length + 1
    · rw [if_pos h1, if_neg (by omega), if_pos (by omega)]
      have : max 1 (limit - w.length) = 1 := by omega
      rw [this]; simp
    · rw [if_neg h1, if_neg (by omega : ¬ n + 1 = 0)]
      by_cases hn0 : n = 0
      · subst hn0
        rw [if_pos rfl, if_neg (by omega)]; simp
      · rw [if_neg hn0]
        by_cases h2 : limit ≤ w.length + (n + 1)
        · rw [if_pos h2, if_pos (by omega)]
          have : max 1 (limit - w.length) = max 1 (limit - (w.length + 1)) + 1 := by omega
          rw [this]; simp
        · rw [if_neg h2, if_neg (by omega)]; simp

theorem take_map_byte (inp : List Byte) (i : Nat) (byte : Byte) (hb : inp[i]? = some byte) (m : Nat) (hm : m ≤ 8) :
    ((List.range 8).reverse.take m).map (fun k => ubitOf (byte.getLsbD k)) =
      (List.range m).map fun j => ubitOf (msb inp (8 * i + j)) := by
  apply List.ext_getElem
  · simp; omega
  · intro n h1 h2
    simp only [List.length_map, List.length_range] at h2
    simp only [List.getElem_map, List.getElem_take, List.getElem_reverse, List.getElem_range,
      List.length_range]
    unfold msb bitAt bitNum
    have e1 : (8 * i + n) / 8 = i := by omega
    have e2 : (8 * i + n) % 8 = n := by omega
    rw [e1, e2]
    simp [List.getD, hb]

theorem pbit2ubitLoop_spec (inp : List Byte) (limit : Nat) (hpos : 0 < limit)
    (hin : limit ≤ 8 * inp.length) (n i : Nat) (hn : limit ≤ 8 * (i + n)) (hi : 8 * i < limit) :
    pbit2ubitLoop inp limit n i ((List.range (8 * i)).map fun j => ubitOf (msb inp j)) =
      some ((List.range limit).map fun j => ubitOf (msb inp j)) := by
  induction n generalizing i with
  | zero => omega
  | succ n ih =>
    have hlt : i < inp.length := by omega
    unfold pbit2ubitLoop
    rw [List.getElem?_eq_getElem hlt]
    simp only []
    have h8 : [7, 6, 5, 4, 3, 2, 1, 0] = (List.range 8).reverse := by decide
    rw [h8, unpackByte_spec _ _ _ (by omega)]
    simp only [List.length_map, List.length_range]
    rw [if_neg (by omega)]
    by_cases hl : limit ≤ 8 * i + 8
    · rw [if_pos hl]
      simp only []
      rw [take_map_byte inp i _ (List.getElem?_eq_getElem hlt) _ (by omega)]
      congr 1
      have : limit = 8 * i + max 1 (limit - 8 * i) := by omega
      conv => rhs; rw [this]
      rw [List.range_add]; simp [Function.comp_def]
    · rw [if_neg hl]
      simp only []
      have e : (List.range 8).reverse.map (fun k => ubitOf (inp[i].getLsbD k)) =
          ((List.range 8).reverse.take 8).map (fun k => ubitOf (inp[i].getLsbD k)) := by
        rw [List.take_of_length_le]; simp
      rw [e, take_map_byte inp i _ (List.getElem?_eq_getElem hlt) _ (by omega)]
      have := ih (i + 1) (by omega) (by omega)
      rw [← this]
      congr 1
      have : 8 * (i + 1) = 8 * i + 8 := by omega
      rw [this, List.range_add]; simp [Function.comp_def]

/-- C05: `osmo_pbit2ubit` of `n ≥ 1` bits reads only the first ceil(n/8) bytes
(no out-of-bounds read for any input that holds `n` bits) and writes exactly
the `n` bits, MSB first, one per byte. -/
theorem pbit2ubit_spec_partial (inp : List Byte) (n : Nat) (h0 : 0 < n) (hin : n ≤ 8 * inp.length) :
    pbit2ubit inp n = some ((List.range n).map fun j => ubitOf (msb inp j)) := by
  have := pbit2ubitLoop_spec inp n h0 hin (n / 8 + 1) 0 (by omega) (by omega)
  simpa [pbit2ubit] using this

example : pbit2ubit [0xb2, 0xc0] 10 = some [1, 0, 1, 1, 0, 0, 1, 0, 1, 1] := by decide

/-- C05, the statement read for `n = 0` is false of the code: asked for zero
bits, `osmo_pbit2ubit` still reads a byte, writes one and returns 1. -/
theorem pbit2ubit_zero_counterexample :
    pbit2ubit [0x80] 0 = some [1] ∧ pbit2ubit [] 0 = none := by decide

theorem isUbits_map (f : Nat → Bool) (n : Nat) : IsUbits ((List.range n).map fun j => ubitOf (f j)) := by
  intro b hb
  simp only [List.mem_map] at hb
  obtain ⟨j, _, rfl⟩ := hb
  unfold ubitOf
  split <;> simp

theorem ubitOf_getLsbD {b : Byte} (hb : b = 0#8 ∨ b = 1#8) : ubitOf (b.getLsbD 0) = b := by
  rcases hb with h | h <;> subst h <;> decide

/-- C05: packing `n ≥ 1` bits and unpacking them again is the identity. -/
theorem pack_unpack_partial (u : List Byte) (hu : IsUbits u) (h0 : u ≠ []) :
    pbit2ubit (ubit2pbit u) u.length = some u := by
  obtain ⟨_, hl, hb, _⟩ := ubit2pbit_spec u hu
  have hpos : 0 < u.length := List.length_pos_iff.mpr h0
  rw [pbit2ubit_spec_partial _ _ hpos (by omega)]
  congr 1
  apply List.ext_getElem (by simp)
  intro n h1 h2
  simp only [List.getElem_map, List.getElem_range]
  rw [hb n h2]
  exact ubitOf_getLsbD (hu _ (List.getElem_mem h2))

example : ([1, 0, 1] : List Byte) ≠ [] ∧ pbit2ubit (ubit2pbit [1, 0, 1]) 3 = some [1, 0, 1] := by decide

/-- C05: unpacking whole bytes and packing them again is the identity. -/
theorem unpack_pack_partial (p : List Byte) (h0 : p ≠ []) :
    (pbit2ubit p (8 * p.length)).map ubit2pbit = some p := by
  have hpos : 0 < p.length := List.length_pos_iff.mpr h0
  rw [pbit2ubit_spec_partial _ _ (by omega) (by omega)]
  simp only [Option.map_some]
  congr 1
  obtain ⟨_, hl, hb, _⟩ := ubit2pbit_spec _ (isUbits_map (msb p) (8 * p.length))
  simp only [List.length_map, List.length_range] at hl hb
  apply ext_bitAt (lsb := false) (by omega)
  intro i hi
  have hi' : i < 8 * p.length := by omega
  have := hb i hi'
  simp only [msb] at this
  rw [this]
  simp only [List.getElem_map, List.getElem_range]
  unfold ubitOf
  cases bitAt false p i <;> decide

example : (pbit2ubit [0xa5, 0x01] 16).map ubit2pbit = some [0xa5, 0x01] := by decide

/-! ### C06 -/

theorem ubit2pbitExtLoop_spec (inp : List Byte) (oo io : Nat) (lsb : Bool) (n i : Nat)
    (out : List Byte) (hin : io + i + n ≤ inp.length) (hout : oo + i + n ≤ 8 * out.length) :
    ∃ out', ubit2pbitExtLoop inp oo io lsb n i out = some out' ∧ out'.length = out.length ∧
      ∀ j, bitAt lsb out' j =
        if oo + i ≤ j ∧ j < oo + i + n then decide (inp.getD (io + (j - oo)) 0#8 ≠ 0#8)
        else bitAt lsb out j := by
  induction n generalizing i out with
  | zero =>
    refine ⟨out, rfl, rfl, ?_⟩
    intro j; rw [if_neg (by omega)]
  | succ n ih =>
    have h1 : io + i < inp.length := by omega
    have h2 : (oo + i) / 8 < out.length := by omega
    unfold ubit2pbitExtLoop
    simp only [List.getElem?_eq_getElem h1, List.getElem?_eq_getElem h2]
    generalize hbv : (if inp[io + i] ≠ 0#8 then out[(oo + i) / 8] ||| 1#8 <<<
          (if lsb = true then (oo + i) % 8 else 7 - (oo + i) % 8)
        else out[(oo + i) / 8] &&& ~~~(1#8 <<<
          (if lsb = true then (oo + i) % 8 else 7 - (oo + i) % 8))) = b'
    have hset := bitAt_set (lsb := lsb) (buf := out) (i := oo + i) (b' := b')
      (v := decide (inp[io + i] ≠ 0#8)) h2 (by
        intro k hk
        rw [← hbv]
        have hg : out.getD ((oo + i) / 8) 0#8 = out[(oo + i) / 8] := by simp [List.getD, h2]
        rw [hg]
        unfold bitNum
        split
        · rename_i hne
          rw [getLsbD_or_bit _ hk]
          by_cases hc : k = (if lsb = true then (oo + i) % 8 else 7 - (oo + i) % 8)
          · simp [hc, hne]
          · simp [hc]
        · rename_i hne
          rw [getLsbD_andnot_bit _ hk]
          by_cases hc : k = (if lsb = true then (oo + i) % 8 else 7 - (oo + i) % 8)
          · simp only [hc, if_true]; simp at hne; simp [hne]
          · simp [hc])
    obtain ⟨out', he, hl, hj⟩ := ih (i + 1) (out.set ((oo + i) / 8) b') (by omega)
      (by simp; omega)
    refine ⟨out', he, by simpa using hl, ?_⟩
    intro j
    rw [hj j, hset j]
    by_cases hji : j = oo + i
    · subst hji
      rw [if_neg (by omega), if_pos rfl, if_pos (by omega)]
      have : io + (oo + i - oo) = io + i := by omega
      rw [this]; simp [List.getD, h1]
    · by_cases hr : oo + i ≤ j ∧ j < oo + i + (n + 1)
      · rw [if_pos hr, if_pos (by omega)]
      · rw [if_neg hr, if_neg (by omega), if_neg hji]

/-- C06: `osmo_ubit2pbit_ext` stores exactly the addressed bits and leaves all
others alone; for a non-empty transfer the return value is the index of the
last byte touched plus one. -/
theorem ubit2pbit_ext_partial (out inp : List Byte) (oo io n : Nat) (lsb : Bool)
    (hin : io + n ≤ inp.length) (hout : oo + n ≤ 8 * out.length) :
    ∃ out' r, ubit2pbitExt out oo inp io n lsb = some (out', r) ∧ out'.length = out.length ∧
      (∀ j, (h : j < n) → bitAt lsb out' (oo + j) = decide (inp[io + j] ≠ 0#8)) ∧
      (∀ j, ¬ (oo ≤ j ∧ j < oo + n) → bitAt lsb out' j = bitAt lsb out j) ∧
      (0 < n → oo + n < 2 ^ 32 → r = (oo + n - 1) / 8 + 1) := by
  obtain ⟨out', he, hl, hj⟩ := ubit2pbitExtLoop_spec inp oo io lsb n 0 out (by omega) (by omega)
  refine ⟨out', (oo + n + (2 ^ 32 - 1)) % 2 ^ 32 / 8 + 1,
    by simp only [ubit2pbitExt, he, Option.map_some], hl, ?_, ?_, ?_⟩
  · intro j h
    rw [hj, if_pos (by omega)]
    have : io + (oo + j - oo) = io + j := by omega
    rw [this]; simp [List.getD, show io + j < inp.length by omega]
  · intro j h
    rw [hj, if_neg (by omega)]
  · intro h0 h32; omega

example : ubit2pbitExt [0xff, 0x00, 0xff] 5 [9, 0, 1, 0, 1, 1, 1] 1 6 false =
    some ([0xfa, 0xe0, 0xff], 2) := by decide

/-- C06 (finding): for an empty transfer at offset 0 the return value is not
"max written offset + 1" but 2^29, by unsigned wrap-around. -/
theorem ubit2pbit_ext_empty_counterexample (out inp : List Byte) (lsb : Bool) :
    ubit2pbitExt out 0 inp 0 0 lsb = some (out, 536870912) := by
  simp [ubit2pbitExt, ubit2pbitExtLoop]

theorem and_bit_ne_zero (b : Byte) {k : Nat} (hk : k < 8) :
    (b &&& (1#8 <<< k) ≠ 0#8) ↔ b.getLsbD k = true := by
  constructor
  · intro h
    apply Classical.byContradiction
    intro hc
    apply h
    apply BitVec.eq_of_getLsbD_eq
    intro i hi
    simp only [BitVec.getLsbD_and, BitVec.getLsbD_shiftLeft, BitVec.getLsbD_one, BitVec.getLsbD_zero]
    by_cases hik : i = k
    · subst hik; simp at hc; simp [hc]
    · simp; intro _ _ h3; omega
  · intro h h0
    have := congrArg (fun z => z.getLsbD k) h0
    simp only [BitVec.getLsbD_and, BitVec.getLsbD_shiftLeft, BitVec.getLsbD_one, h,
      BitVec.getLsbD_zero] at this
    simp [hk] at this

theorem pbit2ubitExtLoop_spec (inp : List Byte) (oo io : Nat) (lsb : Bool) (n i : Nat)
    (out : List Byte) (hin : io + i + n ≤ 8 * inp.length) (hout : oo + i + n ≤ out.length) :
    ∃ out', pbit2ubitExtLoop inp oo io lsb n i out = some out' ∧ out'.length = out.length ∧
      ∀ j, out'.getD j 0#8 =
        if oo + i ≤ j ∧ j < oo + i + n then ubitOf (bitAt lsb inp (io + (j - oo)))
        else out.getD j 0#8 := by
  induction n generalizing i out with
  | zero => exact ⟨out, rfl, rfl, fun j => by rw [if_neg (by omega)]⟩
  | succ n ih =>
    have h1 : (io + i) / 8 < inp.length := by omega
    have h2 : oo + i < out.length := by omega
    unfold pbit2ubitExtLoop
    simp only [List.getElem?_eq_getElem h1, if_pos h2]
    have hv : (if inp[(io + i) / 8] &&& 1#8 <<< (if lsb = true then (io + i) % 8 else 7 - (io + i) % 8) ≠ 0#8
        then 1#8 else 0#8) = ubitOf (bitAt lsb inp (io + i)) := by
      unfold ubitOf bitAt
      simp only [and_bit_ne_zero _ (bitNum_lt lsb (io + i)), ← bitNum.eq_1]
      simp [List.getD, h1]
    rw [hv]
    obtain ⟨out', he, hl, hj⟩ := ih (i + 1) (out.set (oo + i) (ubitOf (bitAt lsb inp (io + i))))
      (by omega) (by simp; omega)
    refine ⟨out', he, by simpa using hl, ?_⟩
    intro j
    rw [hj j]
    by_cases hji : j = oo + i
    · subst hji
      rw [if_neg (by omega), if_pos (by omega)]
      have : io + (oo + i - oo) = io + i := by omega
      simp [List.getD, h2, this]
    · by_cases hr : oo + i ≤ j ∧ j < oo + i + (n + 1)
      · rw [if_pos hr, if_pos (by omega)]
      · rw [if_neg hr, if_neg (by omega)]
        simp [List.getD, List.getElem?_set_ne (fun h => hji h.symm)]

/-- C06: `osmo_pbit2ubit_ext` writes exactly the addressed bits, one per byte,
leaves the other bytes alone and returns `out_ofs + num_bits`. -/
theorem pbit2ubit_ext_spec (out inp : List Byte) (oo io n : Nat) (lsb : Bool)
    (hin : io + n ≤ 8 * inp.length) (hout : oo + n ≤ out.length) (h32 : oo + n < 2 ^ 32) :
    ∃ out', pbit2ubitExt out oo inp io n lsb = some (out', oo + n) ∧ out'.length = out.length ∧
      (∀ j, j < n → out'.getD (oo + j) 0#8 = ubitOf (bitAt lsb inp (io + j))) ∧
      (∀ j, ¬ (oo ≤ j ∧ j < oo + n) → out'.getD j 0#8 = out.getD j 0#8) := by
  obtain ⟨out', he, hl, hj⟩ := pbit2ubitExtLoop_spec inp oo io lsb n 0 out (by omega) (by omega)
  refine ⟨out', ?_, hl, ?_, ?_⟩
  · simp only [pbit2ubitExt, he, Option.map_some, Nat.mod_eq_of_lt h32]
  · intro j h
    rw [hj, if_pos (by omega)]
    have : io + (oo + j - oo) = io + j := by omega
    rw [this]
  · intro j h; rw [hj, if_neg (by omega)]

example : pbit2ubitExt [7, 7, 7, 7] 1 [0x00, 0x05] 8 2 true = some ([7, 1, 0, 7], 3) := by decide

/-- C06: writing bits at an offset and reading them back at the same offset in
the same order returns the bits written. -/
theorem ext_write_read (out u scratch : List Byte) (oo : Nat) (lsb : Bool) (hu : IsUbits u)
    (hout : oo + u.length ≤ 8 * out.length) (hs : scratch.length = u.length)
    (h32 : u.length < 2 ^ 32) :
    ∃ out' r, ubit2pbitExt out oo u 0 u.length lsb = some (out', r) ∧
      pbit2ubitExt scratch 0 out' oo u.length lsb = some (u, u.length) := by
  obtain ⟨out', r, he, hl, hw, _, _⟩ := ubit2pbit_ext_partial out u oo 0 u.length lsb (by omega) hout
  refine ⟨out', r, he, ?_⟩
  obtain ⟨s', he', hl', hr, _⟩ := pbit2ubit_ext_spec scratch out' 0 oo u.length lsb
    (by omega) (by omega) (by omega)
  rw [he']
  have : s' = u := by
    apply List.ext_getElem (by omega)
    intro n h1 h2
    have := hr n h2
    rw [hw n h2] at this
    simp only [Nat.zero_add] at this
    have hg : s'.getD n 0#8 = s'[n] := by simp [List.getD, h1]
    rw [hg] at this
    rw [this]
    rcases hu _ (List.getElem_mem h2) with h | h <;> rw [h] <;> decide
  rw [this]; simp

example : ubit2pbitExt [0xff, 0xff] 3 [0, 1, 0, 0, 1, 0] 0 6 false = some ([0xe9, 0x7f], 2) ∧
    pbit2ubitExt [0, 0, 0, 0, 0, 0] 0 [0xe9, 0x7f] 3 6 false = some ([0, 1, 0, 0, 1, 0], 6) := by decide

/-! ### C07 -/

theorem getLsbD_ite (c : Prop) [Decidable c] {w : Nat} (a b : BitVec w) (i : Nat) :
    (if c then a else b).getLsbD i = if c then a.getLsbD i else b.getLsbD i := by
  split <;> rfl

/-- shape of one swap step -/
theorem swap_step (x M M' : BitVec 32) (s : Nat)
    (hM : ∀ i : Fin 32, (M.getLsbD i.val = decide (i.val ^^^ s = i.val + s)) ∧
      (M'.getLsbD i.val = decide (i.val ^^^ s ≠ i.val + s)) ∧
      (i.val ^^^ s < 32) ∧ (i.val ^^^ s ≠ i.val + s → s ≤ i.val ∧ i.val ^^^ s = i.val - s) ∧
      ((i.val ^^^ s) ^^^ s = i.val) ∧ 0 < s)
    {i : Nat} (hi : i < 32) :
    ((x &&& M) <<< s ||| (x &&& M') >>> s).getLsbD i = x.getLsbD (i ^^^ s) := by
  obtain ⟨h1, h2, h3, h4, h5, h6⟩ := hM ⟨i, hi⟩
  simp only at h1 h2 h3 h4 h5
  simp only [BitVec.getLsbD_or, BitVec.getLsbD_shiftLeft, BitVec.getLsbD_ushiftRight,
    BitVec.getLsbD_and, hi]
  obtain ⟨g1, g2, _, g4, g5, _⟩ := hM ⟨i ^^^ s, h3⟩
  simp only at g1 g2 g4 g5
  by_cases hc : i ^^^ s = i + s
  · -- partner is i + s
    have hs : s + i = i ^^^ s := by omega
    rw [hs, g2]
    have hne : (i ^^^ s) ^^^ s ≠ (i ^^^ s) + s := by rw [h5, hc]; omega
    have hlow : (decide (i < s) = true ∨ M.getLsbD (i - s) = false) := by
      by_cases his : i < s
      · left; simp [his]
      · right
        obtain ⟨k1, _, _, _, k5, _⟩ := hM ⟨i - s, by omega⟩
        simp only at k1 k5
        rw [k1]
        simp only [decide_eq_false_iff_not]
        intro hk
        have : (i - s) ^^^ s = i := by omega
        rw [this] at k5
        omega
    rcases hlow with h | h
    · simp [h, hne]
    · simp [h, hne]
  · obtain ⟨hle, he⟩ := h4 hc
    have hs : i - s = i ^^^ s := by omega
    rw [hs, g1]
    have hq : (i ^^^ s) ^^^ s = (i ^^^ s) + s := by rw [h5]; omega
    have hm : (x.getLsbD (s + i) && M'.getLsbD (s + i)) = false := by
      by_cases hb : s + i < 32
      · obtain ⟨_, k2, _, k4, k5, _⟩ := hM ⟨s + i, hb⟩
        simp only at k2 k4 k5
        rw [k2]
        by_cases hk : (s + i) ^^^ s = (s + i) + s
        · simp [hk]
        · obtain ⟨_, ke⟩ := k4 hk
          have : (s + i) ^^^ s = i := by omega
          rw [this] at k5
          omega
      · rw [BitVec.getLsbD_of_ge x _ (by omega)]; simp
    rw [hm]
    simp [hq]
    intro _; omega

theorem sw1 (x : BitVec 32) {i : Nat} (hi : i < 32) :
    ((x &&& 0x55555555#32) <<< 1 ||| (x &&& 0xAAAAAAAA#32) >>> 1).getLsbD i = x.getLsbD (i ^^^ 1) :=
  swap_step x _ _ 1 (by decide) hi
theorem sw2 (x : BitVec 32) {i : Nat} (hi : i < 32) :
    ((x &&& 0x33333333#32) <<< 2 ||| (x &&& 0xCCCCCCCC#32) >>> 2).getLsbD i = x.getLsbD (i ^^^ 2) :=
  swap_step x _ _ 2 (by decide) hi
theorem sw4 (x : BitVec 32) {i : Nat} (hi : i < 32) :
    ((x &&& 0x0F0F0F0F#32) <<< 4 ||| (x &&& 0xF0F0F0F0#32) >>> 4).getLsbD i = x.getLsbD (i ^^^ 4) :=
  swap_step x _ _ 4 (by decide) hi
theorem sw8 (x : BitVec 32) {i : Nat} (hi : i < 32) :
    ((x &&& 0x00FF00FF#32) <<< 8 ||| (x &&& 0xFF00FF00#32) >>> 8).getLsbD i = x.getLsbD (i ^^^ 8) :=
  swap_step x _ _ 8 (by decide) hi
theorem sw16 (x : BitVec 32) {i : Nat} (hi : i < 32) :
    ((x &&& 0x0000FFFF#32) <<< 16 ||| (x &&& 0xFFFF0000#32) >>> 16).getLsbD i = x.getLsbD (i ^^^ 16) :=
  swap_step x _ _ 16 (by decide) hi

/-- C07: `osmo_bit_reversal` with mode mask `k < 32` moves input bit `i xor k`
to output bit `i`. -/
theorem bit_reversal_spec (x : BitVec 32) (k : Nat) (hk : k < 32) {i : Nat} (hi : i < 32) :
    (bitReversal x (BitVec.ofNat 32 k)).getLsbD i = x.getLsbD (i ^^^ k) := by
  have hx : ∀ j : Nat, j < 32 → ∀ s : Nat, s < 32 → j ^^^ s < 32 := by
    intro j hj s hs
    exact Nat.xor_lt_two_pow (n := 5) hj hs
  have hdec : ∀ k : Fin 32, ∀ i : Fin 32,
      ((if BitVec.ofNat 32 k.val &&& 16#32 ≠ 0#32 then i.val ^^^ 16 else i.val) |> fun i =>
       (if BitVec.ofNat 32 k.val &&& 8#32 ≠ 0#32 then i ^^^ 8 else i) |> fun i =>
       (if BitVec.ofNat 32 k.val &&& 4#32 ≠ 0#32 then i ^^^ 4 else i) |> fun i =>
       (if BitVec.ofNat 32 k.val &&& 2#32 ≠ 0#32 then i ^^^ 2 else i) |> fun i =>
       (if BitVec.ofNat 32 k.val &&& 1#32 ≠ 0#32 then i ^^^ 1 else i)) = i.val ^^^ k.val := by
    decide +kernel
  have hd := hdec ⟨k, hk⟩ ⟨i, hi⟩
  simp only at hd
  rw [← hd]
  unfold bitReversal
  simp only []
  generalize BitVec.ofNat 32 k = K
  have step : ∀ (c : Prop) [Decidable c] (f : BitVec 32) (x : BitVec 32) (s : Nat), s < 32 →
      (∀ i, i < 32 → f.getLsbD i = x.getLsbD (i ^^^ s)) → ∀ i, i < 32 →
      (if c then f else x).getLsbD i = x.getLsbD (if c then i ^^^ s else i) := by
    intro c _ f x s _ h i hi
    by_cases hc : c
    · simp [hc, h i hi]
    · simp [hc]
  have lt : ∀ (c : Prop) [Decidable c] (s i : Nat), s < 32 → i < 32 →
      (if c then i ^^^ s else i) < 32 := by
    intro c _ s i hs hi
    split
    · exact hx i hi s hs
    · exact hi
  rw [step _ _ _ 16 (by omega) (fun i hi => sw16 _ hi) _ hi]
  rw [step _ _ _ 8 (by omega) (fun i hi => sw8 _ hi) _ (lt _ _ _ (by omega) hi)]
  rw [step _ _ _ 4 (by omega) (fun i hi => sw4 _ hi) _ (lt _ _ _ (by omega) (lt _ _ _ (by omega) hi))]
  rw [step _ _ _ 2 (by omega) (fun i hi => sw2 _ hi) _
    (lt _ _ _ (by omega) (lt _ _ _ (by omega) (lt _ _ _ (by omega) hi)))]
  rw [step _ _ _ 1 (by omega) (fun i hi => sw1 _ hi) _
    (lt _ _ _ (by omega) (lt _ _ _ (by omega) (lt _ _ _ (by omega) (lt _ _ _ (by omega) hi))))]

/-- C07: the four documented modes (include/osmocom/core/bits.h:93-102) in
positional terms: 31 reverses all bits, 24 the byte order, 7 the bits of each
byte, 16 swaps the halves. -/
theorem bit_reversal_modes (x : BitVec 32) {i : Nat} (hi : i < 32) :
    (bitReversal x 31#32).getLsbD i = x.getLsbD (31 - i) ∧
    (bitReversal x 24#32).getLsbD i = x.getLsbD (8 * (3 - i / 8) + i % 8) ∧
    (bitReversal x 7#32).getLsbD i = x.getLsbD (8 * (i / 8) + (7 - i % 8)) ∧
    (bitReversal x 16#32).getLsbD i = x.getLsbD ((i + 16) % 32) := by
  have h : ∀ i : Fin 32, i.val ^^^ 31 = 31 - i.val ∧ i.val ^^^ 24 = 8 * (3 - i.val / 8) + i.val % 8 ∧
      i.val ^^^ 7 = 8 * (i.val / 8) + (7 - i.val % 8) ∧ i.val ^^^ 16 = (i.val + 16) % 32 := by decide
  obtain ⟨a, b, c, d⟩ := h ⟨i, hi⟩
  simp only at a b c d
  refine ⟨?_, ?_, ?_, ?_⟩
  · rw [← a]; exact bit_reversal_spec x 31 (by omega) hi
  · rw [← b]; exact bit_reversal_spec x 24 (by omega) hi
  · rw [← c]; exact bit_reversal_spec x 7 (by omega) hi
  · rw [← d]; exact bit_reversal_spec x 16 (by omega) hi

/-- C07: `osmo_bit_reversal` is an involution for every mode mask. -/
theorem bit_reversal_involutive (x : BitVec 32) (k : Nat) (hk : k < 32) :
    bitReversal (bitReversal x (BitVec.ofNat 32 k)) (BitVec.ofNat 32 k) = x := by
  apply BitVec.eq_of_getLsbD_eq
  intro i hi
  rw [bit_reversal_spec _ k hk hi, bit_reversal_spec _ k hk (Nat.xor_lt_two_pow (n := 5) hi hk)]
  rw [Nat.xor_assoc, Nat.xor_self, Nat.xor_zero]

example : bitReversal 0x12345678#32 (BitVec.ofNat 32 31) = 0x1E6A2C48#32 ∧
    bitReversal 0x12345678#32 (BitVec.ofNat 32 24) = 0x78563412#32 := by decide

/-- C07: `osmo_revbytebits_32` reverses the bits of each byte. -/
theorem revbytebits_32_spec (x : BitVec 32) {i : Nat} (hi : i < 32) :
    (revbytebits32 x).getLsbD i = x.getLsbD (8 * (i / 8) + (7 - i % 8)) := by
  have h : ∀ i : Fin 32, ((i.val ^^^ 4) ^^^ 2) ^^^ 1 = 8 * (i.val / 8) + (7 - i.val % 8) := by decide
  have := h ⟨i, hi⟩
  simp only at this
  rw [← this]
  unfold revbytebits32
  have h4 : i ^^^ 4 < 32 := Nat.xor_lt_two_pow (n := 5) hi (by omega)
  have h2 : (i ^^^ 4) ^^^ 2 < 32 := Nat.xor_lt_two_pow (n := 5) h4 (by omega)
  rw [sw4 _ hi, sw2 _ h4, sw1 _ h2]

theorem revbytebits_32_involutive (x : BitVec 32) : revbytebits32 (revbytebits32 x) = x := by
  apply BitVec.eq_of_getLsbD_eq
  intro i hi
  rw [revbytebits_32_spec _ hi, revbytebits_32_spec _ (by omega)]
  congr 1; omega

example : revbytebits32 0x01020304#32 = 0x8040c020#32 := by decide

/-- C07: `osmo_revbytebits_8` places input bit `7-i` at output bit `i`. -/
theorem revbytebits_8_spec (x : Byte) {i : Nat} (hi : i < 8) :
    (revbytebits8 x).getLsbD i = x.getLsbD (7 - i) := by
  have h : ∀ x : Fin 256, ∀ i : Fin 8,
      (revbytebits8 (BitVec.ofFin (w := 8) x)).getLsbD i.val =
        (BitVec.ofFin (w := 8) x).getLsbD (7 - i.val) := by decide +kernel
  exact h x.toFin ⟨i, hi⟩

theorem revbytebits_8_involutive (x : Byte) : revbytebits8 (revbytebits8 x) = x := by
  apply BitVec.eq_of_getLsbD_eq
  intro i hi
  rw [revbytebits_8_spec _ hi, revbytebits_8_spec _ (by omega)]
  congr 1; omega

theorem revbytebitsLoop_spec (n i : Nat) (buf : List Byte) (h : i + n ≤ buf.length) :
    revbytebitsLoop n i buf =
      some (buf.take i ++ ((buf.drop i).take n).map revbytebits8 ++ buf.drop (i + n)) := by
  induction n generalizing i buf with
  | zero => simp [revbytebitsLoop]
  | succ n ih =>
    have hi : i < buf.length := by omega
    unfold revbytebitsLoop
    rw [List.getElem?_eq_getElem hi]
    simp only []
    rw [ih (i + 1) _ (by simp; omega)]
    congr 1
    rw [List.take_set, List.drop_set_of_lt (by omega), List.drop_set_of_lt (by omega)]
    rw [List.drop_eq_getElem_cons hi]
    simp only [List.take_succ_cons, List.map_cons]
    have e : (buf.take (i + 1)).set i (revbytebits8 buf[i]) = buf.take i ++ [revbytebits8 buf[i]] := by
      rw [List.take_succ_eq_append_getElem hi, List.set_append_right _ _ (by simp; omega)]
      simp [Nat.min_eq_left (Nat.le_of_lt hi)]
    rw [e]
    simp only [List.append_assoc, List.singleton_append, List.cons_append, List.nil_append]
    congr 4
    omega

/-- C07: `osmo_revbytebits_buf` replaces each of the first `len` bytes by its
bit reversal and leaves the rest alone. -/
theorem revbytebits_buf_spec (buf : List Byte) (len : Nat) (h : len ≤ buf.length) :
    revbytebitsBuf buf len = some ((buf.take len).map revbytebits8 ++ buf.drop len) := by
  unfold revbytebitsBuf
  rw [revbytebitsLoop_spec _ _ _ (by omega)]
  simp

/-- C07: applied twice, `osmo_revbytebits_buf` is the identity. -/
theorem revbytebits_buf_involutive (buf : List Byte) (len : Nat) (h : len ≤ buf.length) :
    (revbytebitsBuf buf len).bind (revbytebitsBuf · len) = some buf := by
  rw [revbytebits_buf_spec _ _ h]
  simp only [Option.bind_some]
  rw [revbytebits_buf_spec _ _ (by simp; omega)]
  congr 1
  rw [List.take_append_of_le_length (by simp; omega), List.drop_append_of_le_length (by simp; omega)]
  rw [List.take_of_length_le (by simp; omega), List.drop_of_length_le (by simp; omega)]
  simp only [List.map_map, List.nil_append]
  have : (revbytebits8 ∘ revbytebits8) = id := by
    funext x; exact revbytebits_8_involutive x
  rw [this]; simp

example : revbytebitsBuf [0x01, 0x0f, 0x10] 2 = some [0x80, 0xf0, 0x10] := by decide

/-! ### C52: soft bits, nibble shifts, rotation -/

/-- C52: hard bits survive the conversion to soft bits and back. -/
theorem ubit_sbit_roundtrip (u : List Byte) (hu : IsUbits u) : sbit2ubit (ubit2sbit u) = u := by
  unfold sbit2ubit ubit2sbit
  rw [List.map_map]
  conv => rhs; rw [← List.map_id u]
  apply List.map_congr_left
  intro b hb
  rcases hu b hb with h | h <;> subst h <;> decide

example : ubit2sbit [0, 1, 1] = [127, -127, -127] ∧ sbit2ubit [127, -127, -127] = [0, 1, 1] := by decide

/-- C52: `osmo_rol16` rotates: output bit `i` is input bit `(i - s) mod 16`. -/
theorem rol16_spec (x : BitVec 16) (s : Nat) (hs : s ≤ 16) {i : Nat} (hi : i < 16) :
    (rol16 x s).getLsbD i = x.getLsbD ((i + 16 - s) % 16) := by
  unfold rol16
  simp only [BitVec.getLsbD_setWidth, BitVec.getLsbD_or, BitVec.getLsbD_shiftLeft,
    BitVec.getLsbD_ushiftRight, hi]
  by_cases h : i < s
  · have e1 : (i + 16 - s) % 16 = 16 - s + i := by omega
    simp [h, e1]; intro _; omega
  · have hx : x.getLsbD (16 - s + i) = false := BitVec.getLsbD_of_ge x _ (by omega)
    have e1 : (i + 16 - s) % 16 = i - s := by omega
    have e2 : i < 32 := by omega
    have e3 : i - s < 32 := by omega
    simp [h, hx, e1, e2, e3]

example : rol16 0x8001#16 4 = 0x0018#16 := by decide

/-- nibble `j` of a byte string, high nibble first (spec vocabulary) -/
def nib (buf : List Byte) (j : Nat) : Byte :=
  if j % 2 = 0 then buf.getD (j / 2) 0#8 >>> 4 else buf.getD (j / 2) 0#8 &&& 0xF#8

theorem nib_hi (a b : Byte) : ((a &&& 0xF#8) <<< 4 ||| b >>> 4) >>> 4 = a &&& 0xF#8 := by
  apply BitVec.eq_of_getLsbD_eq
  intro i hi
  have h : ∀ i : Fin 8, (0xF#8).getLsbD i.val = decide (i.val < 4) := by decide
  have hh := h ⟨i, hi⟩
  simp only at hh
  simp only [BitVec.getLsbD_or, BitVec.getLsbD_shiftLeft, BitVec.getLsbD_ushiftRight, BitVec.getLsbD_and, hh]
  have e : 4 + i - 4 = i := by omega
  rw [e, hh]
  by_cases h4 : i < 4
  · have : b.getLsbD (4 + (4 + i)) = false := BitVec.getLsbD_of_ge b _ (by omega)
    simp [h4, this]; omega
  · have : b.getLsbD (4 + (4 + i)) = false := BitVec.getLsbD_of_ge b _ (by omega)
    simp [h4, this]

theorem nib_lo (a b : Byte) : ((a &&& 0xF#8) <<< 4 ||| b >>> 4) &&& 0xF#8 = b >>> 4 := by
  apply BitVec.eq_of_getLsbD_eq
  intro i hi
  have h : ∀ i : Fin 8, (0xF#8).getLsbD i.val = decide (i.val < 4) := by decide
  have hh := h ⟨i, hi⟩
  simp only at hh
  simp only [BitVec.getLsbD_or, BitVec.getLsbD_shiftLeft, BitVec.getLsbD_ushiftRight, BitVec.getLsbD_and, hh]
  by_cases h4 : i < 4
  · simp [h4]
  · have : b.getLsbD (4 + i) = false := BitVec.getLsbD_of_ge b _ (by omega)
    simp [h4, this]

theorem nib_hi0 (a : Byte) : ((a &&& 0xF#8) <<< 4) >>> 4 = a &&& 0xF#8 := by
  have := nib_hi a 0#8; simpa using this

theorem mapM_range_some {α} (f : Nat → Option α) (g : Nat → α) (n : Nat)
    (h : ∀ i, i < n → f i = some (g i)) : (List.range n).mapM f = some ((List.range n).map g) := by
  have : ∀ l : List Nat, (∀ i ∈ l, f i = some (g i)) → l.mapM f = some (l.map g) := by
    intro l
    induction l with
    | nil => intro _; rfl
    | cons a l ih =>
      intro h
      rw [List.mapM_cons, h a (by simp), ih (fun i hi => h i (by simp [hi]))]; rfl
  exact this _ (fun i hi => h i (List.mem_range.mp hi))

theorem nib_even (buf : List Byte) (i : Nat) : nib buf (2 * i) = buf.getD i 0#8 >>> 4 := by
  unfold nib
  have e1 : 2 * i % 2 = 0 := by omega
  have e2 : 2 * i / 2 = i := by omega
  rw [if_pos e1, e2]

theorem nib_odd (buf : List Byte) (i : Nat) : nib buf (2 * i + 1) = buf.getD i 0#8 &&& 0xF#8 := by
  unfold nib
  have e1 : ¬ (2 * i + 1) % 2 = 0 := by omega
  have e2 : (2 * i + 1) / 2 = i := by omega
  rw [if_neg e1, e2]

theorem nibbleShiftRight_val (inp : List Byte) (N : Nat) (h2 : 2 ≤ N) (hin : N ≤ 2 * inp.length) :
    nibbleShiftRight inp N = some ((inp.getD 0 0#8 >>> 4) ::
      ((List.range (N / 2 - 1)).map fun i =>
        (inp.getD i 0#8 &&& 0xF#8) <<< 4 ||| inp.getD (i + 1) 0#8 >>> 4) ++
      [(inp.getD (N / 2 - 1) 0#8 &&& 0xF#8) <<< 4 |||
        (if N % 2 = 1 then inp.getD (N / 2) 0#8 >>> 4 else 0#8)]) := by
  have g : ∀ i, i < inp.length → inp[i]? = some (inp.getD i 0#8) := by
    intro i hi; simp [List.getD, hi]
  unfold nibbleShiftRight
  simp only []
  rw [if_neg (by omega), g 0 (by omega)]
  have hm : ((List.range (N / 2 - 1)).map (· + 1)).mapM (fun i => do
      let a ← inp[i - 1]?
      let b ← inp[i]?
      return ((a &&& 0xF#8) <<< 4 ||| b >>> 4)) =
      some ((List.range (N / 2 - 1)).map fun i =>
        (inp.getD i 0#8 &&& 0xF#8) <<< 4 ||| inp.getD (i + 1) 0#8 >>> 4) := by
    rw [List.mapM_map]
    apply mapM_range_some
    intro i hi
    simp only [Function.comp, Nat.add_sub_cancel]
    rw [g i (by omega), g (i + 1) (by omega)]
    rfl
  rw [hm, g (N / 2 - 1) (by omega)]
  by_cases ho : N % 2 = 1
  · simp only [ho, if_true]
    rw [g (N / 2) (by omega)]
    rfl
  · simp only [ho, if_false]
    simp

theorem nibbleShiftLeft_val (inp : List Byte) (N : Nat) (h2 : 2 ≤ N) (hin : N + 1 ≤ 2 * inp.length) :
    nibbleShiftLeftUnal inp N = some (((List.range (N / 2)).map fun i =>
        (inp.getD i 0#8 &&& 0xF#8) <<< 4 ||| inp.getD (i + 1) 0#8 >>> 4) ++
      (if N % 2 = 1 then [(inp.getD (N / 2) 0#8 &&& 0xF#8) <<< 4] else [])) := by
  have g : ∀ i, i < inp.length → inp[i]? = some (inp.getD i 0#8) := by
    intro i hi; simp [List.getD, hi]
  unfold nibbleShiftLeftUnal
  simp only []
  rw [if_neg (by omega)]
  have hm := mapM_range_some (fun i => do
      let a ← inp[i]?
      let b ← inp[i + 1]?
      return ((a &&& 0xF#8) <<< 4 ||| b >>> 4))
      (fun i => (inp.getD i 0#8 &&& 0xF#8) <<< 4 ||| inp.getD (i + 1) 0#8 >>> 4) (N / 2) (by
    intro i hi
    rw [g i (by omega), g (i + 1) (by omega)]
    rfl)
  rw [hm]
  by_cases ho : N % 2 = 1
  · simp only [ho, if_true]
    rw [g (N / 2) (by omega)]
    rfl
  · simp only [ho, if_false]
    simp

/-- C52: for at least two nibbles `osmo_nibble_shift_right` writes the input
preceded by one zero nibble; nothing is read beyond the input. -/
theorem nibble_shift_right_partial (inp : List Byte) (N : Nat) (h2 : 2 ≤ N)
    (hin : N ≤ 2 * inp.length) :
    ∃ out, nibbleShiftRight inp N = some out ∧ out.length = N / 2 + 1 ∧ nib out 0 = 0#8 ∧
      ∀ j, j < N → nib out (j + 1) = nib inp j := by
  refine ⟨_, nibbleShiftRight_val inp N h2 hin, ?_, ?_, ?_⟩
  · simp; omega
  · refine (nib_even _ 0).trans ?_
    simp only [List.cons_append, List.getD_cons_zero]
    apply BitVec.eq_of_getLsbD_eq
    intro i hi
    simp only [BitVec.getLsbD_ushiftRight, BitVec.getLsbD_zero]
    exact BitVec.getLsbD_of_ge _ _ (by omega)
  · intro j hj
    rcases Nat.mod_two_eq_zero_or_one j with he | ho
    · -- even source nibble goes to low nibble of byte j/2
      obtain ⟨i, rfl⟩ : ∃ i, j = 2 * i := ⟨j / 2, by omega⟩
      rw [nib_odd, nib_even]
      by_cases h0 : i = 0
      · subst h0
        simp only [List.cons_append, List.getD_cons_zero]
        have := nib_lo 0#8 (inp.getD 0 0#8)
        simpa using this
      · obtain ⟨k, rfl⟩ : ∃ k, i = k + 1 := ⟨i - 1, by omega⟩
        simp only [List.cons_append, List.getD_cons_succ]
        by_cases hk : k < N / 2 - 1
        · simp only [List.getD, List.getElem?_append_left
            (show k < ((List.range (N / 2 - 1)).map _).length by simpa using hk)]
          simp only [List.getElem?_map, List.getElem?_range hk, Option.map_some, Option.getD_some]
          exact nib_lo _ _
        · have hk' : k = N / 2 - 1 := by omega
          have hN : N % 2 = 1 := by omega
          subst hk'
          simp only [List.getD, List.getElem?_append_right
            (show ((List.range (N / 2 - 1)).map _).length ≤ N / 2 - 1 by simp)]
          simp only [List.length_map, List.length_range, Nat.sub_self, List.getElem?_cons_zero,
            Option.getD_some, hN, if_true]
          have : N / 2 - 1 + 1 = N / 2 := by omega
          rw [this]
          exact nib_lo _ _
    · obtain ⟨i, rfl⟩ : ∃ i, j = 2 * i + 1 := ⟨j / 2, by omega⟩
      rw [nib_odd, show 2 * i + 1 + 1 = 2 * (i + 1) by omega, nib_even]
      simp only [List.cons_append, List.getD_cons_succ]
      by_cases hk : i < N / 2 - 1
      · simp only [List.getD, List.getElem?_append_left
          (show i < ((List.range (N / 2 - 1)).map _).length by simpa using hk)]
        simp only [List.getElem?_map, List.getElem?_range hk, Option.map_some, Option.getD_some]
        exact nib_hi _ _
      · have hk' : i = N / 2 - 1 := by omega
        subst hk'
        simp only [List.getD, List.getElem?_append_right
          (show ((List.range (N / 2 - 1)).map _).length ≤ N / 2 - 1 by simp)]
        simp only [List.length_map, List.length_range, Nat.sub_self, List.getElem?_cons_zero,
          Option.getD_some]
        split
        · exact nib_hi _ _
        · have := nib_hi0 ((inp[N / 2 - 1]?).getD 0#8)
          simpa using this

/-- C52: for at least two nibbles `osmo_nibble_shift_left_unal` drops the first
nibble of an input holding `N + 1` nibbles. -/
theorem nibble_shift_left_partial (inp : List Byte) (N : Nat) (h2 : 2 ≤ N)
    (hin : N + 1 ≤ 2 * inp.length) :
    ∃ out, nibbleShiftLeftUnal inp N = some out ∧ out.length = (N + 1) / 2 ∧
      ∀ j, j < N → nib out j = nib inp (j + 1) := by
  refine ⟨_, nibbleShiftLeft_val inp N h2 hin, ?_, ?_⟩
  · split <;> simp <;> omega
  · intro j hj
    rcases Nat.mod_two_eq_zero_or_one j with he | ho
    · obtain ⟨i, rfl⟩ : ∃ i, j = 2 * i := ⟨j / 2, by omega⟩
      rw [nib_odd, nib_even]
      by_cases hk : i < N / 2
      · simp only [List.getD, List.getElem?_append_left
          (show i < ((List.range (N / 2)).map _).length by simpa using hk)]
        simp only [List.getElem?_map, List.getElem?_range hk, Option.map_some, Option.getD_some]
        exact nib_hi _ _
      · have hk' : i = N / 2 := by omega
        have hN : N % 2 = 1 := by omega
        subst hk'
        simp only [List.getD, List.getElem?_append_right
          (show ((List.range (N / 2)).map _).length ≤ N / 2 by simp)]
        simp only [List.length_map, List.length_range, Nat.sub_self, hN, if_true,
          List.getElem?_cons_zero, Option.getD_some]
        exact nib_hi0 _
    · obtain ⟨i, rfl⟩ : ∃ i, j = 2 * i + 1 := ⟨j / 2, by omega⟩
      rw [nib_odd, show 2 * i + 1 + 1 = 2 * (i + 1) by omega, nib_even]
      have hk : i < N / 2 := by omega
      simp only [List.getD, List.getElem?_append_left
        (show i < ((List.range (N / 2)).map _).length by simpa using hk)]
      simp only [List.getElem?_map, List.getElem?_range hk, Option.map_some, Option.getD_some]
      exact nib_lo _ _

/-- C52: the two nibble shifts are inverse for two or more nibbles. -/
theorem nibble_shift_roundtrip_partial (inp : List Byte) (N : Nat) (h2 : 2 ≤ N)
    (hin : N ≤ 2 * inp.length) :
    ∃ mid out, nibbleShiftRight inp N = some mid ∧ nibbleShiftLeftUnal mid N = some out ∧
      ∀ j, j < N → nib out j = nib inp j := by
  obtain ⟨mid, h1, hl, _, hr⟩ := nibble_shift_right_partial inp N h2 hin
  obtain ⟨out, h3, _, hs⟩ := nibble_shift_left_partial mid N h2 (by omega)
  exact ⟨mid, out, h1, h3, fun j hj => by rw [hs j hj, hr j hj]⟩

example : nibbleShiftRight [0x12, 0x34, 0x50] 5 = some [0x01, 0x23, 0x45] ∧
    nibbleShiftLeftUnal [0x01, 0x23, 0x45] 5 = some [0x12, 0x34, 0x50] := by decide

/-- C52 (finding): a single nibble is not shifted at all; nothing is written. -/
theorem nibble_shift_one_counterexample (inp : List Byte) :
    nibbleShiftRight inp 1 = some [] ∧ nibbleShiftLeftUnal inp 1 = some [] := by
  constructor <;> rfl

end Verif.Bits
