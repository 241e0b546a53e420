import Verif.Gad.Model
/-!
Properties of the coordinates and uncertainties of geographical areas
(C151, C152).
-/
namespace Verif.Gad

theorem wrap32_eq {x : Int} (h : -2147483648 ≤ x) (h' : x < 2147483648) : wrap32 x = x := by
  unfold wrap32
  rw [BitVec.toInt_ofInt, Int.bmod_def]
  omega

theorem testBit23 {c : Nat} (h : c < 2 ^ 24) : c.testBit 23 = decide (2 ^ 23 ≤ c) := by
  rw [Nat.testBit_eq_decide_div_mod_eq]
  congr 1
  apply propext
  omega

/-- The latitude of a 24 bit code: the lower 23 bits are the multiple of
90°/2^23 (rounded down to a millionth of a degree), bit 24 says south. -/
theorem decLat_spec (n : Nat) (h : n < 2 ^ 23) :
    decLat n = ((n * 90000000 / 2 ^ 23 : Nat) : Int) ∧
    decLat (2 ^ 23 + n) = -((n * 90000000 / 2 ^ 23 : Nat) : Int) := by
  unfold decLat
  rw [testBit23 (by omega), testBit23 (by omega)]
  rw [if_neg (by simp; omega), if_pos (by simp)]
  constructor
  · exact wrap32_eq (by omega) (by omega)
  · rw [show (2 ^ 23 + n) % 2 ^ 23 = n by omega]
    exact wrap32_eq (by omega) (by omega)

example : decLat 0x400000 = 45000000 ∧ decLat 0xc00000 = -45000000 := by decide

/-- The longitude of a 24 bit code: the two's complement multiple of 360°/2^24,
rounded towards zero. -/
theorem decLon_spec (n : Nat) (h : n ≤ 2 ^ 23) :
    (n < 2 ^ 23 → decLon n = ((n * 360000000 / 2 ^ 24 : Nat) : Int)) ∧
    (0 < n → decLon (2 ^ 24 - n) = -((n * 360000000 / 2 ^ 24 : Nat) : Int)) := by
  constructor
  · intro h
    unfold decLon
    rw [testBit23 (by omega)]
    simp only []
    rw [if_neg (by simp; omega), wrap32_eq (x := (n : Int)) (by omega) (by omega),
      show ((n : Int) * 360000000).tdiv (2 ^ 24) = ((n * 360000000 / 2 ^ 24 : Nat) : Int) by
        rw [Int.tdiv_eq_ediv_of_nonneg (by omega)]; omega]
    exact wrap32_eq (by omega) (by omega)
  · intro h0
    unfold decLon
    rw [testBit23 (by omega)]
    simp only []
    rw [if_pos (by simp; omega),
      show (((2 ^ 24 - n) % 2 ^ 24 : Nat) : Int) - 2 ^ 24 = -(n : Int) by omega,
      show (-(n : Int) * 360000000).tdiv (2 ^ 24) = -((n * 360000000 / 2 ^ 24 : Nat) : Int) by
        rw [Int.neg_mul, Int.neg_tdiv, Int.tdiv_eq_ediv_of_nonneg (by omega)]; omega]
    exact wrap32_eq (by omega) (by omega)

example : decLon 0x400000 = 90000000 ∧ decLon 0xc00000 = -90000000 ∧ decLon 0x800000 = -180000000 := by
  decide

/-- The code of a magnitude of latitude. -/
theorem encLat_mag (a : Nat) (h : a < 90000000) :
    encLat a = (a * 2 ^ 23 + (2 ^ 23 - 1)) / 90000000 ∧ encLat a < 2 ^ 23 ∧
    (0 < a → encLat (-(a : Int)) = 2 ^ 23 + encLat a) := by
  have e : encLat a = (a * 2 ^ 23 + (2 ^ 23 - 1)) / 90000000 := by
    unfold encLat clamp
    simp only []
    rw [show max (-90000000 : Int) (min 90000000 (a : Int)) = a by omega, if_neg (by omega)]
    simp only [Int.natAbs_natCast]
    omega
  refine ⟨e, by rw [e]; omega, fun h0 => ?_⟩
  rw [e]
  unfold encLat clamp
  simp only []
  rw [show max (-90000000 : Int) (min 90000000 (-(a : Int))) = -(a : Int) by omega,
    if_pos (by omega)]
  simp only [Int.natAbs_neg, Int.natAbs_natCast]
  omega

/-- The code of a magnitude of longitude. -/
theorem encLon_mag (a : Nat) (h : a ≤ 180000000) :
    encLon a = (a * 2 ^ 24 + (2 ^ 24 - 1)) / 360000000 ∧ encLon a ≤ 2 ^ 23 ∧
    (0 < encLon a → encLon (-(a : Int)) = 2 ^ 24 - encLon a) ∧
    (encLon a = 0 → encLon (-(a : Int)) = 0) := by
  have e : encLon a = (a * 2 ^ 24 + (2 ^ 24 - 1)) / 360000000 := by
    unfold encLon clamp
    simp only []
    rw [show max (-180000000 : Int) (min 180000000 (a : Int)) = a by omega, if_pos (by omega),
      show (a : Int) * 2 ^ 24 + (2 ^ 24 - 1) = ((a * 2 ^ 24 + (2 ^ 24 - 1) : Nat) : Int) by omega,
      Int.tdiv_eq_ediv_of_nonneg (by omega)]
    omega
  have e' : encLon (-(a : Int)) =
      ((-(((a * 2 ^ 24 + (2 ^ 24 - 1)) / 360000000 : Nat) : Int)) % 2 ^ 24).toNat := by
    unfold encLon clamp
    simp only []
    rw [show max (-180000000 : Int) (min 180000000 (-(a : Int))) = -(a : Int) by omega]
    by_cases h0 : a = 0
    · subst h0
      decide
    · rw [if_neg (by omega),
        show -(a : Int) * 2 ^ 24 - (2 ^ 24 - 1) = -((a * 2 ^ 24 + (2 ^ 24 - 1) : Nat) : Int) by omega,
        Int.neg_tdiv, Int.tdiv_eq_ediv_of_nonneg (by omega)]
      omega
  refine ⟨e, by rw [e]; omega, ?_, ?_⟩
  · intro h0
    rw [e', e]
    rw [e] at h0
    omega
  · intro h0
    rw [e']
    rw [e] at h0
    rw [h0]
    rfl

/-- Decoding loses nothing: every latitude code but the negative zero is the
code of the latitude it stands for. -/
theorem encLat_decLat (c : Nat) (h : c < 2 ^ 24) (h0 : c ≠ 2 ^ 23) : encLat (decLat c) = c := by
  by_cases hs : c < 2 ^ 23
  · rw [(decLat_spec c hs).1, (encLat_mag _ (by omega)).1]
    omega
  · obtain ⟨n, rfl⟩ : ∃ n, c = 2 ^ 23 + n := ⟨c - 2 ^ 23, by omega⟩
    have hn : n < 2 ^ 23 := by omega
    rw [(decLat_spec n hn).2, (encLat_mag _ (by omega)).2.2 (by omega), (encLat_mag _ (by omega)).1]
    omega

/-- Every longitude code is the code of the longitude it stands for. -/
theorem encLon_decLon (c : Nat) (h : c < 2 ^ 24) : encLon (decLon c) = c := by
  by_cases hs : c < 2 ^ 23
  · rw [(decLon_spec c (by omega)).1 hs, (encLon_mag _ (by omega)).1]
    omega
  · obtain ⟨n, rfl, hn, hn0⟩ : ∃ n, c = 2 ^ 24 - n ∧ n ≤ 2 ^ 23 ∧ 0 < n :=
      ⟨2 ^ 24 - c, by omega, by omega, by omega⟩
    have e := (encLon_mag (n * 360000000 / 2 ^ 24) (by omega)).1
    have e2 : encLon ((n * 360000000 / 2 ^ 24 : Nat) : Int) = n := by rw [e]; omega
    rw [(decLon_spec n hn).2 hn0, (encLon_mag _ (by omega)).2.2.1 (by omega), e2]

example : encLat (decLat 0x923456) = 0x923456 ∧ encLon (decLon 0xfedcba) = 0xfedcba := by decide

/-- Codes fit 24 bits. -/
theorem enc_lt (x : Int) : encLat x < 2 ^ 24 ∧ encLon x < 2 ^ 24 := by
  constructor
  · unfold encLat
    simp only []
    split <;> omega
  · unfold encLon
    simp only []
    omega

/-- A latitude short of the poles comes back with its sign, at most ten
millionths of a degree nearer to the equator. -/
theorem lat_clamp_partial (x : Int) (h : -90000000 < x) (h' : x < 90000000) :
    (0 ≤ x → 0 ≤ decLat (encLat x) ∧ decLat (encLat x) ≤ x ∧ x ≤ decLat (encLat x) + 10) ∧
    (x ≤ 0 → decLat (encLat x) ≤ 0 ∧ x ≤ decLat (encLat x) ∧ decLat (encLat x) ≤ x + 10) := by
  obtain ⟨a, rfl | rfl⟩ := Int.eq_nat_or_neg x
  · have ⟨e, l, _⟩ := encLat_mag a (by omega)
    rw [(decLat_spec _ l).1, e]
    omega
  · by_cases h0 : a = 0
    · subst h0
      decide
    · have ⟨e, l, s⟩ := encLat_mag a (by omega)
      rw [s (by omega), (decLat_spec _ l).2, e]
      omega

/-- A longitude from -180° to short of +180° comes back with its sign, at most
21 millionths of a degree nearer to the zero meridian. -/
theorem lon_clamp (x : Int) (h : -180000000 ≤ x) (h' : x < 180000000) :
    (0 ≤ x → 0 ≤ decLon (encLon x) ∧ decLon (encLon x) ≤ x ∧ x ≤ decLon (encLon x) + 21) ∧
    (x ≤ 0 → decLon (encLon x) ≤ 0 ∧ x ≤ decLon (encLon x) ∧ decLon (encLon x) ≤ x + 21) := by
  obtain ⟨a, rfl | rfl⟩ := Int.eq_nat_or_neg x
  · have ⟨e, l, _⟩ := encLon_mag a (by omega)
    rw [(decLon_spec _ l).1 (by rw [e]; omega), e]
    omega
  · have ⟨e, l, s, z⟩ := encLon_mag a (by omega)
    by_cases h0 : encLon a = 0
    · rw [z h0, (decLon_spec 0 (by omega)).1 (by omega)]
      rw [e] at h0
      omega
    · rw [s (by omega), (decLon_spec _ l).2 (by omega), e]
      omega

example : decLat (encLat 52520008) ≤ 52520008 ∧ decLon (encLon (-13404954)) < 0 := by decide

/-- Values out of range count as the end of the range. -/
theorem enc_clamps (x : Int) :
    (90000000 ≤ x → encLat x = encLat 90000000) ∧
    (x ≤ -90000000 → encLat x = encLat (-90000000)) ∧
    (180000000 ≤ x → encLon x = encLon 180000000) ∧
    (x ≤ -180000000 → encLon x = encLon (-180000000)) := by
  have c : ∀ m y : Int, 0 ≤ m → (m ≤ y → clamp m y = clamp m m) ∧
      (y ≤ -m → clamp m y = clamp m (-m)) := by
    intro m y h
    unfold clamp
    constructor <;> intro h' <;> omega
  refine ⟨fun h => ?_, fun h => ?_, fun h => ?_, fun h => ?_⟩ <;>
    simp only [encLat, encLon]
  · rw [(c 90000000 x (by decide)).1 h]
  · rw [(c 90000000 x (by decide)).2 h]
  · rw [(c 180000000 x (by decide)).1 h]
  · rw [(c 180000000 x (by decide)).2 h]

/-- +180° comes back as -180°, the same meridian. -/
theorem antimeridian (x : Int) (h : 180000000 ≤ x) : decLon (encLon x) = -180000000 := by
  rw [(enc_clamps x).2.2.1 h]
  decide

/-- The poles come back as the equator: the carry into bit 24 is masked off. -/
theorem pole_counterexample (x : Int) (h : 90000000 ≤ x ∨ x ≤ -90000000) :
    decLat (encLat x) = 0 := by
  rcases h with h | h
  · rw [(enc_clamps x).1 h]
    decide
  · rw [(enc_clamps x).2.1 h]
    decide

example : encLat 90000000 = 0 ∧ encLat (-90000000) = 0x800000 := by decide

/-- Clamping twice is clamping once, everywhere. -/
theorem clamp_idempotent (x : Int) :
    decLat (encLat (decLat (encLat x))) = decLat (encLat x) ∧
    decLon (encLon (decLon (encLon x))) = decLon (encLon x) := by
  constructor
  · by_cases h0 : encLat x = 2 ^ 23
    · rw [h0]
      decide
    · rw [encLat_decLat _ (enc_lt x).1 h0]
  · rw [encLon_decLon _ (enc_lt x).2]

/-- Clamping keeps the order. -/
theorem clamp_mono (x y : Int) (hxy : x ≤ y) :
    (-90000000 < x → y < 90000000 → decLat (encLat x) ≤ decLat (encLat y)) ∧
    (y < 180000000 → decLon (encLon x) ≤ decLon (encLon y)) := by
  constructor
  · intro h h'
    by_cases hx : x ≤ 0
    · by_cases hy : 0 ≤ y
      · have := (lat_clamp_partial x h (by omega)).2 hx
        have := (lat_clamp_partial y (by omega) h').1 hy
        omega
      · obtain ⟨a, rfl⟩ : ∃ a : Nat, x = -(a : Int) := ⟨x.natAbs, by omega⟩
        obtain ⟨b, rfl⟩ : ∃ b : Nat, y = -(b : Int) := ⟨y.natAbs, by omega⟩
        have ⟨e, l, s⟩ := encLat_mag a (by omega)
        have ⟨e', l', s'⟩ := encLat_mag b (by omega)
        rw [s (by omega), s' (by omega), (decLat_spec _ l).2, (decLat_spec _ l').2, e, e']
        omega
    · obtain ⟨a, rfl⟩ : ∃ a : Nat, x = (a : Int) := ⟨x.natAbs, by omega⟩
      obtain ⟨b, rfl⟩ : ∃ b : Nat, y = (b : Int) := ⟨y.natAbs, by omega⟩
      have ⟨e, l, _⟩ := encLat_mag a (by omega)
      have ⟨e', l', _⟩ := encLat_mag b (by omega)
      rw [(decLat_spec _ l).1, (decLat_spec _ l').1, e, e']
      omega
  · intro h'
    have low : ∀ z : Int, z < 180000000 → -180000000 ≤ decLon (encLon z) := by
      intro z hz
      by_cases hz' : z ≤ -180000000
      · rw [(enc_clamps z).2.2.2 hz']
        decide
      · have := lon_clamp z (by omega) hz
        omega
    by_cases hl : x ≤ -180000000
    · rw [(enc_clamps x).2.2.2 hl, show decLon (encLon (-180000000)) = -180000000 by decide]
      exact low y h'
    by_cases hx : x ≤ 0
    · by_cases hy : 0 ≤ y
      · have := (lon_clamp x (by omega) (by omega)).2 hx
        have := (lon_clamp y (by omega) h').1 hy
        omega
      · obtain ⟨a, rfl⟩ : ∃ a : Nat, x = -(a : Int) := ⟨x.natAbs, by omega⟩
        obtain ⟨b, rfl⟩ : ∃ b : Nat, y = -(b : Int) := ⟨y.natAbs, by omega⟩
        have ⟨e, l, s, z⟩ := encLon_mag a (by omega)
        have ⟨e', l', s', z'⟩ := encLon_mag b (by omega)
        by_cases hb : encLon b = 0
        · rw [z' hb, (decLon_spec 0 (by omega)).1 (by omega)]
          have := (lon_clamp (-(a : Int)) (by omega) (by omega)).2 (by omega)
          omega
        · have ha : encLon a ≠ 0 := by
            have hab : b ≤ a := by omega
            have := Nat.div_le_div_right (c := 360000000)
              (Nat.add_le_add_right (Nat.mul_le_mul_right (2 ^ 24) hab) (2 ^ 24 - 1))
            rw [← e, ← e'] at this
            exact fun h => hb (Nat.le_zero.mp (h ▸ this))
          rw [s (by omega), s' (by omega), (decLon_spec _ l).2 (by omega),
            (decLon_spec _ l').2 (by omega), e, e']
          omega
    · obtain ⟨a, rfl⟩ : ∃ a : Nat, x = (a : Int) := ⟨x.natAbs, by omega⟩
      obtain ⟨b, rfl⟩ : ∃ b : Nat, y = (b : Int) := ⟨y.natAbs, by omega⟩
      have ⟨e, l, _⟩ := encLon_mag a (by omega)
      have ⟨e', l', _⟩ := encLon_mag b (by omega)
      rw [(decLon_spec _ l).1 (by rw [e]; omega), (decLon_spec _ l').1 (by rw [e']; omega), e, e']
      omega

/-- TS 23.032 (comment at gad.c:57) asks for the code `N ≤ (2^23/90) X < N + 1`.
The code is that of some latitude less than a millionth of a degree above. -/
theorem lat_code_partial (x : Nat) (h : x < 90000000) :
    encLat x * 90000000 < (x + 1) * 2 ^ 23 ∧ x * 2 ^ 23 < (encLat x + 1) * 90000000 := by
  rw [(encLat_mag x h).1]
  omega

/-- The inequality itself fails: 10 millionths of a degree are less than the
unit of the code, yet get the code 1. -/
theorem lat_code_counterexample : ¬ encLat 10 * 90000000 ≤ 10 * 2 ^ 23 := by
  rw [show encLat 10 = 1 from (encLat_mag 10 (by omega)).1]
  omega

/-- The radius in millimetres of an uncertainty code `k` is 10 m (1.1^k - 1),
rounded down, and its eighth bit is ignored. -/
theorem decUnc_spec (u : Byte) :
    decUnc u = 10000 * (11 ^ (u.toNat % 128) - 10 ^ (u.toNat % 128)) / 10 ^ (u.toNat % 128) := by
  revert u
  decide +kernel

theorem encUncLoop_spec (mm : Nat) (ts : List Nat) (k : Nat) (hs : ts.Pairwise (· < ·))
    (hk : k + ts.length ≤ 128) (h0 : k = 0 → ∀ t, ts.head? = some t → t ≤ mm) :
    (∃ j, j < ts.length ∧ mm < ts.getD j 0 ∧ (∀ i, i < j → ts.getD i 0 ≤ mm) ∧ 0 < k + j ∧
      (encUncLoop mm k ts).toNat = k + j - 1) ∨
    ((∀ t ∈ ts, t ≤ mm) ∧ encUncLoop mm k ts = 127#8) := by
  induction ts generalizing k with
  | nil => exact Or.inr ⟨by simp, rfl⟩
  | cons t ts ih =>
    unfold encUncLoop
    by_cases h : t > mm
    · rw [if_pos h]
      have hk0 : k ≠ 0 := by
        intro hk0
        have := h0 hk0 t rfl
        omega
      refine Or.inl ⟨0, by simp, by simpa using h, by simp, by omega, ?_⟩
      rw [show ((k : Int) - 1) = ((k - 1 : Nat) : Int) by omega, BitVec.ofInt_natCast]
      simp only [List.length_cons] at hk
      simp only [BitVec.toNat_ofNat]
      omega
    · rw [if_neg h]
      rcases ih (k + 1) (List.pairwise_cons.mp hs).2 (by simp only [List.length_cons] at hk; omega)
        (by omega) with ⟨j, h1, h2, h3, h4, h5⟩ | ⟨h1, h2⟩
      · refine Or.inl ⟨j + 1, by simpa using h1, by simpa using h2, ?_, by omega, by rw [h5]; omega⟩
        intro i hi
        cases i with
        | zero => simpa using h
        | succ i => simpa using h3 i (by omega)
      · refine Or.inr ⟨?_, h2⟩
        intro t' ht'
        rcases List.mem_cons.mp ht' with e | e
        · omega
        · exact h1 t' e

theorem uncTable_sorted : uncTable.Pairwise (· < ·) := by decide +kernel

theorem uncTable_length : uncTable.length = 128 := by decide +kernel

theorem unc_mono (i j : Nat) (hij : i < j) (hj : j < 128) :
    uncTable.getD i 0 < uncTable.getD j 0 := by
  have hl := uncTable_length
  simp only [List.getD_eq_getElem?_getD]
  rw [List.getElem?_eq_getElem (by omega), List.getElem?_eq_getElem (by omega)]
  exact List.pairwise_iff_getElem.mp uncTable_sorted i j (by omega) (by omega) hij

theorem decUnc_getD (k : Nat) (h : k < 128) : decUnc (BitVec.ofNat 8 k) = uncTable.getD k 0 := by
  unfold decUnc
  congr 1
  rw [BitVec.toNat_and, show (0x7f#8).toNat = 2 ^ 7 - 1 from rfl, Nat.and_two_pow_sub_one_eq_mod,
    BitVec.toNat_ofNat]
  omega

/-- The code of a radius is the largest one that does not stand for more: the
radius lies between that of its code and that of the next one. -/
theorem encUnc_spec (mm : Nat) :
    (encUnc mm).toNat < 128 ∧ decUnc (encUnc mm) ≤ mm ∧
    ∀ k, k < 128 → (encUnc mm).toNat < k → mm < decUnc (BitVec.ofNat 8 k) := by
  have hs := encUncLoop_spec mm uncTable 0 uncTable_sorted (by rw [uncTable_length]; omega) (by
    intro _ t ht
    have : t = 0 := by
      have : uncTable.head? = some 0 := rfl
      rw [this] at ht
      cases ht
      rfl
    omega)
  have mono := unc_mono
  rcases hs with ⟨j, h1, h2, h3, h4, h5⟩ | ⟨h1, h2⟩
  · have hl : uncTable.length = 128 := uncTable_length
    rw [hl] at h1
    have e : encUnc mm = BitVec.ofNat 8 (j - 1) := by
      apply BitVec.eq_of_toNat_eq
      rw [show encUnc mm = encUncLoop mm 0 uncTable from rfl, h5, BitVec.toNat_ofNat]
      omega
    have e' : (encUnc mm).toNat = j - 1 := by
      rw [show encUnc mm = encUncLoop mm 0 uncTable from rfl, h5]
      omega
    refine ⟨by omega, ?_, ?_⟩
    · rw [e, decUnc_getD _ (by omega)]
      exact h3 _ (by omega)
    · intro k hk hlt
      rw [decUnc_getD _ hk]
      by_cases hj : k = j
      · rw [hj]
        exact h2
      · have := mono j k (by omega) hk
        omega
  · have e : encUnc mm = 127#8 := h2
    rw [e]
    refine ⟨by decide, ?_, ?_⟩
    · rw [decUnc_getD 127 (by omega)]
      exact h1 _ (by decide +kernel)
    · intro k hk hlt
      have : (127#8).toNat = 127 := rfl
      omega

example : encUnc 0 = 0#8 ∧ encUnc 999 = 0#8 ∧ encUnc 1000 = 1#8 ∧ encUnc 18000000 = 78#8 ∧
    decUnc 78#8 = 16918927 := by decide +kernel

/-- Every uncertainty code is the code of the radius it stands for. -/
theorem encUnc_decUnc (k : Nat) (h : k < 128) : (encUnc (decUnc (BitVec.ofNat 8 k))).toNat = k := by
  have ⟨h1, h2, h3⟩ := encUnc_spec (decUnc (BitVec.ofNat 8 k))
  have mono := unc_mono
  rcases Nat.lt_trichotomy (encUnc (decUnc (BitVec.ofNat 8 k))).toNat k with hl | he | hg
  · have := h3 k h hl
    omega
  · exact he
  · have := mono k _ hg h1
    rw [show encUnc (decUnc (BitVec.ofNat 8 k)) =
      BitVec.ofNat 8 (encUnc (decUnc (BitVec.ofNat 8 k))).toNat by simp, decUnc_getD _ h1,
      decUnc_getD _ h] at h2
    rw [decUnc_getD _ h] at this
    omega

end Verif.Gad
