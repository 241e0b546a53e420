import Verif.Utils.NumProps
/-!
C16: fixed-point decimal text.
-/
namespace Verif.Utils

/-! ## Specification -/

/-- a text of decimal digits (possibly empty) -/
def DecDigits (ds : List Byte) : Prop := ∀ c ∈ ds, 0x30 ≤ c.toNat ∧ c.toNat ≤ 0x39

/-- its value -/
def decValue (ds : List Byte) : Nat := posValue 10 (ds.map fun c => c.toNat - 0x30)

/-- `s` is the decimal number with sign `sgn`, integer digits `I` and fraction
digits `F`: `[+-]I`, or `[+-]I.F`; not empty behind the sign -/
def FloatText (s : List Byte) (neg : Bool) (I F : List Byte) : Prop :=
  ∃ sgn dot, s = sgn ++ I ++ dot ∧ ((neg = true ∧ sgn = [0x2d#8]) ∨ (neg = false ∧ (sgn = [] ∨ sgn = [0x2b#8]))) ∧
    DecDigits I ∧ DecDigits F ∧ ((dot = [] ∧ F = [] ∧ I ≠ []) ∨ dot = 0x2e#8 :: F)

/-- `I.F` times `10 ^ p`, cut to an integer -/
def scaled (I F : List Byte) (p : Nat) : Nat := decValue (I ++ F) * 10 ^ p / 10 ^ F.length

/-! ## Lemmas -/

theorem digit36_dec : ∀ c : Byte, (0x30 ≤ c.toNat ∧ c.toNat ≤ 0x39 ↔ digit36 c < 10) ∧
    (digit36 c < 10 → digit36 c = c.toNat - 0x30) ∧ (isDig c = true ↔ digit36 c < 10) := by decide +kernel

theorem decDigits_iff {ds : List Byte} : DecDigits ds ↔ ∀ c ∈ ds, digit36 c < 10 :=
  ⟨fun h c hc => (digit36_dec c).1.1 (h c hc), fun h c hc => (digit36_dec c).1.2 (h c hc)⟩

theorem horner_dec {ds : List Byte} (h : DecDigits ds) : horner 10 ds = decValue ds := by
  rw [horner_posValue, decValue]
  congr 1
  apply List.map_congr_left
  intro c hc
  exact (digit36_dec c).2.1 (decDigits_iff.1 h c hc)

theorem posValue_append (b : Nat) (x y : List Nat) :
    posValue b (x ++ y) = posValue b x * b ^ y.length + posValue b y := by
  induction x with
  | nil => simp [posValue]
  | cons k ks ih => simp only [List.cons_append, posValue, ih, List.length_append]; ring

theorem decValue_append (x y : List Byte) : decValue (x ++ y) = decValue x * 10 ^ y.length + decValue y := by
  simp [decValue, posValue_append]

theorem decValue_zeros (n : Nat) : decValue (List.replicate n 0x30#8) = 0 := by
  induction n with
  | zero => rfl
  | succ n ih =>
    rw [List.replicate_succ]
    simp only [decValue, List.map_cons, posValue] at ih ⊢
    rw [ih]; simp

theorem posValue_lt (ks : List Nat) (h : ∀ k ∈ ks, k < 10) : posValue 10 ks < 10 ^ ks.length := by
  induction ks with
  | nil => simp [posValue]
  | cons k ks ih =>
    have h1 := ih fun k hk => h k (by simp [hk])
    have h2 := h k (by simp)
    simp only [posValue, List.length_cons]
    calc k * 10 ^ ks.length + posValue 10 ks < k * 10 ^ ks.length + 10 ^ ks.length := by omega
      _ = (k + 1) * 10 ^ ks.length := by ring
      _ ≤ 10 * 10 ^ ks.length := Nat.mul_le_mul_right _ (by omega)
      _ = 10 ^ (ks.length + 1) := by ring

theorem decValue_lt {ds : List Byte} (h : DecDigits ds) : decValue ds < 10 ^ ds.length := by
  have := posValue_lt (ds.map fun c => c.toNat - 0x30) (by
    intro k hk
    obtain ⟨c, hc, rfl⟩ := List.mem_map.1 hk
    have := h c hc
    omega)
  simpa [decValue] using this

theorem DecDigits.take {ds : List Byte} (h : DecDigits ds) (n : Nat) : DecDigits (ds.take n) :=
  fun c hc => h c (List.mem_of_mem_take hc)
theorem DecDigits.drop {ds : List Byte} (h : DecDigits ds) (n : Nat) : DecDigits (ds.drop n) :=
  fun c hc => h c (List.mem_of_mem_drop hc)
theorem DecDigits.append {x y : List Byte} (h : DecDigits x) (h' : DecDigits y) : DecDigits (x ++ y) := by
  intro c hc
  rcases List.mem_append.1 hc with hc | hc
  · exact h c hc
  · exact h' c hc
theorem decDigits_zeros (n : Nat) : DecDigits (List.replicate n 0x30#8) := by
  intro c hc
  obtain ⟨-, rfl⟩ := List.mem_replicate.1 hc
  decide

/-- `strtoll` on digits followed by something else -/
theorem strtoll_digits {ds rest : List Byte} (hne : ds ≠ []) (hd : DecDigits ds)
    (hr : ∀ c ∈ rest.head?, ¬ digit36 c < 10) :
    strtoll (ds ++ rest) 10 =
      if (decValue ds : Int) > I64MAX then { val := I64MAX, rest := rest, errno := .ERANGE }
      else { val := decValue ds, rest := rest, errno := .ok } := by
  obtain ⟨d, ds', rfl⟩ : ∃ d ds', ds = d :: ds' := by
    cases ds with
    | nil => exact absurd rfl hne
    | cons d ds' => exact ⟨d, ds', rfl⟩
  have hd' := decDigits_iff.1 hd
  have hd0 := digit36_ne_sign d (by have := hd' d (by simp); omega)
  have e1 : ((d :: ds') ++ rest).dropWhile isSpace = (d :: ds') ++ rest := by
    simp [hd0.2.2]
  have e2 : afterSign ((d :: ds') ++ rest) = (d :: ds') ++ rest := by
    unfold afterSign
    simp only [e1]
    simp [hd0.1, hd0.2.1]
  have e3 : digitsPart 10 ((d :: ds') ++ rest) = (d :: ds') ++ rest := by
    unfold digitsPart; rw [if_neg (by omega), e2]
  have e4 : digitRun 10 ((d :: ds') ++ rest) = d :: ds' := by
    unfold digitRun
    rw [e3, List.takeWhile_append_of_pos (by intro c hc; simpa using hd' c hc)]
    cases rest with
    | nil => simp
    | cons r rest => simp [hr r (by simp)]
  have e5 : signedVal 10 ((d :: ds') ++ rest) = decValue (d :: ds') := by
    unfold signedVal
    rw [e1, e4, horner_dec hd]
    simp [hd0.1]
  have := strtoll_eq ((d :: ds') ++ rest) 10 (by omega) (by omega)
  rw [show ((10 : Nat) : Int) = 10 from rfl] at this
  rw [this, e4, if_neg (by simp), e5, e3, List.drop_left]
  split
  · rfl
  · rw [if_neg]
    have : I64MIN = -9223372036854775808 := rfl
    omega

theorem floatValid_iff (s : List Byte) (seen : Bool) :
    floatValid seen s = true ↔
      (DecDigits s ∨ (seen = false ∧ ∃ I F, s = I ++ 0x2e#8 :: F ∧ DecDigits I ∧ DecDigits F)) := by
  have hdot : ¬ (0x30 ≤ (0x2e#8 : Byte).toNat ∧ (0x2e#8 : Byte).toNat ≤ 0x39) := by decide
  induction s generalizing seen with
  | nil => simp [floatValid, DecDigits]
  | cons c cs ih =>
    unfold floatValid
    by_cases hc : c = 0x2e#8
    · subst hc
      rw [if_pos rfl]
      cases seen with
      | true =>
        simp only [if_true, Bool.false_eq_true, false_iff, Bool.true_eq_false, false_and, or_false]
        intro h; exact hdot (h _ (by simp))
      | false =>
        rw [if_neg (by simp)]
        refine (ih true).trans ?_
        constructor
        · rintro (h | ⟨h, -⟩)
          · exact .inr ⟨rfl, [], cs, rfl, by intro c hc; simp at hc, h⟩
          · simp at h
        · rintro (h | ⟨-, I, F, he, hI, hF⟩)
          · exact absurd (h 0x2e#8 (by simp)) hdot
          · cases I with
            | nil => simp at he; subst he; exact .inl hF
            | cons i I =>
              simp at he
              exact absurd (he.1 ▸ hI i (by simp)) hdot
    · rw [if_neg hc]
      by_cases hd : isDig c = true
      · rw [if_pos hd]
        refine (ih seen).trans ?_
        have hd' : 0x30 ≤ c.toNat ∧ c.toNat ≤ 0x39 := (digit36_dec c).1.2 ((digit36_dec c).2.2.1 hd)
        constructor
        · rintro (h | ⟨hs, I, F, rfl, hI, hF⟩)
          · left; intro x hx
            rcases List.mem_cons.1 hx with rfl | hx
            · exact hd'
            · exact h x hx
          · refine .inr ⟨hs, c :: I, F, rfl, ?_, hF⟩
            intro x hx
            rcases List.mem_cons.1 hx with rfl | hx
            · exact hd'
            · exact hI x hx
        · rintro (h | ⟨hs, I, F, he, hI, hF⟩)
          · exact .inl fun x hx => h x (by simp [hx])
          · cases I with
            | nil => simp at he; exact absurd he.1 hc
            | cons i I =>
              simp at he
              exact .inr ⟨hs, I, F, he.2, fun x hx => hI x (by simp [hx]), hF⟩
      · rw [if_neg hd]
        simp only [Bool.false_eq_true, false_iff]
        have hd' : ¬ (0x30 ≤ c.toNat ∧ c.toNat ≤ 0x39) := fun h => hd ((digit36_dec c).2.2.2 ((digit36_dec c).1.1 h))
        rintro (h | ⟨-, I, F, he, hI, -⟩)
        · exact hd' (h c (by simp))
        · cases I with
          | nil => simp at he; exact hc he.1
          | cons i I =>
            simp at he
            exact hd' (he.1 ▸ hI i (by simp))

/-- fraction digits as an integer of `p` digits -/
def fracScaled (F : List Byte) (p : Nat) : Nat := decValue F * 10 ^ p / 10 ^ F.length

theorem scaled_eq (I F : List Byte) (p : Nat) : scaled I F p = decValue I * 10 ^ p + fracScaled F p := by
  unfold scaled fracScaled
  rw [decValue_append, Nat.add_mul, show decValue I * 10 ^ F.length * 10 ^ p = 10 ^ F.length * (decValue I * 10 ^ p) by ring,
    Nat.mul_add_div (by positivity)]

theorem fracScaled_lt {F : List Byte} (hF : DecDigits F) (p : Nat) : fracScaled F p < 10 ^ p := by
  unfold fracScaled
  rw [Nat.div_lt_iff_lt_mul (by positivity), Nat.mul_comm (10 ^ p)]
  exact Nat.mul_lt_mul_of_pos_right (decValue_lt hF) (by positivity)

theorem decStr_length (F : List Byte) (p : Nat) : (decStr F p).length = p := by
  simp [decStr]

theorem decStr_dec {F : List Byte} (hF : DecDigits F) (p : Nat) : DecDigits (decStr F p) :=
  (hF.take p).append (decDigits_zeros _)

theorem decStr_value {F : List Byte} (hF : DecDigits F) (p : Nat) : decValue (decStr F p) = fracScaled F p := by
  unfold decStr fracScaled
  rw [decValue_append, decValue_zeros, List.length_replicate, Nat.add_zero]
  by_cases h : p ≤ F.length
  · have e : (F.take p).length = p := by simp [h]
    rw [e, Nat.sub_self, pow_zero, Nat.mul_one]
    have h1 : decValue F = decValue (F.take p) * 10 ^ (F.length - p) + decValue (F.drop p) := by
      conv_lhs => rw [← List.take_append_drop p F]
      rw [decValue_append, List.length_drop]
    have h2 : decValue (F.drop p) < 10 ^ (F.length - p) := by
      have := decValue_lt (hF.drop p)
      rwa [List.length_drop] at this
    have h3 : 10 ^ F.length = 10 ^ (F.length - p) * 10 ^ p := by rw [← pow_add]; congr 1; omega
    rw [h3, Nat.mul_div_mul_right _ _ (by positivity), h1, Nat.mul_comm (decValue (F.take p)),
      Nat.mul_add_div (by positivity), Nat.div_eq_of_lt h2, Nat.add_zero]
  · have e : F.take p = F := List.take_of_length_le (by omega)
    rw [e, show p = (p - F.length) + F.length by omega, pow_add, ← Nat.mul_assoc,
      Nat.mul_div_cancel _ (by positivity)]
    congr 2; omega

theorem decValue_all_zero {ds : List Byte} (hd : DecDigits ds) : decValue ds = 0 ↔ ∀ c ∈ ds, c = 0x30#8 := by
  induction ds with
  | nil => simp [decValue, posValue]
  | cons d ds ih =>
    have ih := ih fun c hc => hd c (by simp [hc])
    have h1 := hd d (by simp)
    have e : decValue (d :: ds) = (d.toNat - 0x30) * 10 ^ ds.length + decValue ds := by
      simp [decValue, posValue]
    have hpos : 0 < 10 ^ ds.length := by positivity
    rw [e]
    constructor
    · intro h
      have hz : (d.toNat - 0x30) * 10 ^ ds.length = 0 := by omega
      have hz2 : d.toNat - 0x30 = 0 := by
        rcases Nat.mul_eq_zero.1 hz with h | h
        · exact h
        · omega
      intro c hc
      rcases List.mem_cons.1 hc with rfl | hc
      · apply BitVec.eq_of_toNat_eq; simp; omega
      · exact ih.1 (by omega) c hc
    · intro h
      have hd0 := h d (by simp)
      have := ih.2 fun c hc => h c (by simp [hc])
      rw [this, hd0]; simp

theorem decPart_spec {F : List Byte} (hF : DecDigits F) (hp : Bool) (p : Nat) (h : hp = false → F = []) :
    decPart F hp p = if (fracScaled F p : Int) > I64MAX then (0, .ERANGE) else ((fracScaled F p : Int), .ok) := by
  have hM : I64MAX = 9223372036854775807 := rfl
  unfold decPart
  by_cases hc : p ≠ 0 ∧ hp = true ∧ F ≠ []
  · rw [if_pos hc]
    simp only
    generalize hsk : (if p < 20 then 0 else p - 20) = skip
    have hskl : skip < p := by have := hc.1; split at hsk <;> omega
    have hval : fracScaled F p = decValue ((decStr F p).take skip) * 10 ^ (p - skip) + decValue ((decStr F p).drop skip) := by
      rw [← decStr_value hF]
      conv_lhs => rw [← List.take_append_drop skip (decStr F p)]
      rw [decValue_append, List.length_drop, decStr_length]
    have hdd := decStr_dec hF p
    have hne : (decStr F p).drop skip ≠ [] := by
      intro h0
      have := congrArg List.length h0
      rw [List.length_drop, decStr_length] at this
      simp at this; omega
    by_cases hz : ((decStr F p).take skip).any (· ≠ 0x30#8) = true
    · rw [if_pos hz, if_pos]
      have hnz : decValue ((decStr F p).take skip) ≠ 0 := by
        intro h0
        rw [decValue_all_zero (hdd.take _)] at h0
        obtain ⟨c, hc1, hc2⟩ := List.any_eq_true.1 hz
        simp at hc2
        exact hc2 (h0 c hc1)
      have hs20 : p - skip = 20 := by
        by_cases h20 : p < 20
        · rw [if_pos h20] at hsk; subst hsk; simp [decValue, posValue] at hnz
        · rw [if_neg h20] at hsk; omega
      rw [hs20] at hval
      have : 10 ^ 20 ≤ fracScaled F p := by
        rw [hval]
        exact le_trans (Nat.le_mul_of_pos_left _ (by omega)) (Nat.le_add_right _ _)
      have h10 : (10 : Nat) ^ 20 = 100000000000000000000 := by norm_num
      omega
    · rw [if_neg hz]
      have hz0 : decValue ((decStr F p).take skip) = 0 := by
        rw [decValue_all_zero (hdd.take _)]
        intro c hc
        by_contra hcn
        exact hz (List.any_eq_true.2 ⟨c, hc, by simpa using hcn⟩)
      rw [hz0, Nat.zero_mul, Nat.zero_add] at hval
      have hst := strtoll_digits (rest := []) hne (hdd.drop skip) (by simp)
      rw [List.append_nil] at hst
      rw [hst, ← hval]
      by_cases hov : (fracScaled F p : Int) > I64MAX
      · rw [if_pos hov, if_pos hov, if_pos (by decide)]
      · rw [if_neg hov, if_neg hov]
        simp [rangeErr]
  · rw [if_neg hc]
    have h0 : fracScaled F p = 0 := by
      by_cases hp0 : p = 0
      · subst hp0; have := fracScaled_lt hF 0; simp at this; exact this
      · have : F = [] := by
          by_contra hne
          cases hp with
          | true => exact hc ⟨hp0, rfl, hne⟩
          | false => exact hne (h rfl)
        subst this
        simp [fracScaled, decValue, posValue]
    rw [h0, if_neg (by omega)]; rfl

theorem combine_spec (i D p : Nat) (neg : Bool) (hD : D < 10 ^ p) (hDm : ¬ ((D : Int) > I64MAX)) :
    combine i D neg p =
      if ((i * 10 ^ p + D : Nat) : Int) > I64MAX then (0, .ERANGE)
      else ((if neg then -1 else 1) * ((i * 10 ^ p + D : Nat) : Int), .ok) := by
  have hM : I64MAX = ((9223372036854775807 : Nat) : Int) := rfl
  unfold combine
  generalize (if neg = true then (-1 : Int) else 1) = sg
  by_cases hp : p > 18
  · simp only [if_pos hp]
    by_cases hi : i = 0
    · subst hi
      rw [if_neg (by omega), if_neg hDm, if_neg (by simpa using hDm)]
      simp
    · rw [if_pos (by omega), if_pos]
      have h19 : (10 : Nat) ^ 19 ≤ 10 ^ p := Nat.pow_le_pow_right (by omega) (by omega)
      have h10 : (10 : Nat) ^ 19 = 10000000000000000000 := by norm_num
      have : 10 ^ p ≤ i * 10 ^ p := Nat.le_mul_of_pos_left _ (by omega)
      rw [hM]; omega
  · simp only [if_neg hp]
    generalize hf : 10 ^ p = f at *
    have hfp : 0 < f := by rw [← hf]; positivity
    have hfi : (10 : Int) ^ p = (f : Int) := by rw [← hf]; push_cast; rfl
    rw [hfi, hM]
    generalize hMM : 9223372036854775807 = M at *
    rw [← Int.natCast_ediv, ← Int.natCast_emod]
    have hdm := Nat.div_add_mod M f
    have hml := Nat.mod_lt M hfp
    have hDM : D ≤ M := by rw [hM] at hDm; omega
    by_cases h1 : M / f < i
    · have hle : (M / f + 1) * f ≤ i * f := Nat.mul_le_mul_right f h1
      have he : (M / f + 1) * f = f * (M / f) + f := by ring
      rw [if_pos (by omega), if_pos (by omega)]
    · rw [if_neg (by omega)]
      by_cases h2 : i = M / f
      · have he : i * f = f * (M / f) := by rw [h2]; ring
        have h2' : (i : Int) = ((M / f : Nat) : Int) := by omega
        rw [if_pos h2']
        by_cases h3 : D > M % f
        · rw [if_pos (by omega), if_pos (by omega)]
        · rw [if_neg (by omega), if_neg (by omega)]; push_cast; rfl
      · have hle : (i + 1) * f ≤ M / f * f := Nat.mul_le_mul_right f (by omega)
        have he : (i + 1) * f = i * f + f := by ring
        have he2 : M / f * f = f * (M / f) := by ring
        have h2' : ¬ (i : Int) = ((M / f : Nat) : Int) := by omega
        rw [if_neg h2', if_neg (by omega), if_neg (by omega)]; push_cast; rfl

theorem dot_not_digit {ds : List Byte} (h : DecDigits ds) : 0x2e#8 ∉ ds := by
  intro hm
  have := h _ hm
  simp at this

theorem takeWhile_dot {I : List Byte} (hI : DecDigits I) (F : List Byte) :
    (I ++ 0x2e#8 :: F).takeWhile (· ≠ 0x2e#8) = I ∧ I.takeWhile (· ≠ 0x2e#8) = I := by
  have h : ∀ c ∈ I, (decide (c ≠ 0x2e#8)) = true := by
    intro c hc
    simp only [decide_eq_true_eq]
    rintro rfl
    exact dot_not_digit hI hc
  refine ⟨?_, takeWhile_all h⟩
  rw [List.takeWhile_append_of_pos h]
  simp

theorem decDigit_not_sign {ds : List Byte} (h : DecDigits ds) :
    ds.head? ≠ some 0x2d#8 ∧ ds.head? ≠ some 0x2b#8 := by
  cases ds with
  | nil => simp
  | cons d ds =>
    have := h d (by simp)
    constructor <;> (intro he; simp at he; subst he; simp at this)

/-- C16, parsing: a decimal number text yields the number times 10^precision,
surplus digits cut towards zero, or a range error; never a wrapped value. -/
theorem floatStrToInt_number (s : List Byte) (neg : Bool) (I F : List Byte) (p : Nat)
    (h : FloatText s neg I F) :
    floatStrToInt s p =
      if (scaled I F p : Int) > I64MAX then (0, .ERANGE)
      else ((if neg then -1 else 1) * (scaled I F p : Int), .ok) := by
  obtain ⟨sgn, dot, rfl, hsgn, hI, hF, hdot⟩ := h
  have hM : I64MAX = 9223372036854775807 := rfl
  -- the text behind the sign
  generalize hb : I ++ dot = body
  have hbne : body ≠ [] := by
    rw [← hb]
    rcases hdot with ⟨rfl, rfl, hne⟩ | rfl
    · simpa using hne
    · simp
  have hbs : body.head? ≠ some 0x2d#8 ∧ body.head? ≠ some 0x2b#8 := by
    rw [← hb]
    cases I with
    | nil => rcases hdot with ⟨rfl, -, -⟩ | rfl <;> simp
    | cons i I => exact decDigit_not_sign (ds := i :: I) hI
  have hbody : (if (sgn ++ I ++ dot).head? = some 0x2d#8 ∨ (sgn ++ I ++ dot).head? = some 0x2b#8
      then (sgn ++ I ++ dot).drop 1 else sgn ++ I ++ dot) = body := by
    rw [List.append_assoc, hb]
    rcases hsgn with ⟨-, rfl⟩ | ⟨-, rfl | rfl⟩
    · simp
    · simp [hbs.1, hbs.2]
    · simp
  have hneg : (decide ((sgn ++ I ++ dot).head? = some 0x2d#8)) = neg := by
    rw [List.append_assoc, hb]
    rcases hsgn with ⟨rfl, rfl⟩ | ⟨rfl, rfl | rfl⟩
    · simp
    · simp [hbs.1]
    · simp
  have hvalid : floatValid false body = true := by
    rw [floatValid_iff, ← hb]
    rcases hdot with ⟨rfl, rfl, -⟩ | rfl
    · left; simpa using hI
    · exact .inr ⟨rfl, I, F, rfl, hI, hF⟩
  generalize hP : body.contains 0x2e#8 = hasP
  have hPF : hasP = false → F = [] ∧ I ≠ [] := by
    intro hf
    rw [← hP, ← hb] at hf
    rcases hdot with ⟨rfl, rfl, hne⟩ | rfl
    · exact ⟨rfl, hne⟩
    · simp at hf
  have hbefore : body.takeWhile (· ≠ 0x2e#8) = I := by
    rw [← hb]
    rcases hdot with ⟨rfl, rfl, -⟩ | rfl
    · simpa using (takeWhile_dot hI []).2
    · exact (takeWhile_dot hI F).1
  have hafter : body.drop (I.length + 1) = F := by
    rw [← hb]
    rcases hdot with ⟨rfl, rfl, -⟩ | rfl
    · simp
    · simp [List.drop_append]
  have huse : (!hasP || !I.isEmpty) = !I.isEmpty := by
    cases hasP with
    | true => simp
    | false => have := (hPF rfl).2; simp [this]
  have hlen : body.length - I.length = dot.length := by rw [← hb]; simp
  have hst : I ≠ [] → strtoll body 10 =
      if (decValue I : Int) > I64MAX then { val := I64MAX, rest := dot, errno := .ERANGE }
      else { val := decValue I, rest := dot, errno := .ok } := by
    intro hne
    rw [← hb]
    apply strtoll_digits hne hI
    rcases hdot with ⟨rfl, -, -⟩ | rfl
    · simp
    · intro c hc; simp at hc; subst hc; decide
  have hpart := decPart_spec hF hasP p fun h => (hPF h).1
  have hsc := scaled_eq I F p
  have hflt := fracScaled_lt hF p
  unfold floatStrToInt
  rw [hbody, hneg]
  unfold floatBody
  rw [if_neg hbne, if_neg (by simp [hvalid])]
  simp only [hP, hbefore, hafter, huse, hlen]
  rw [hpart, hsc]
  -- the integer part
  by_cases hI0 : I = []
  · subst hI0
    have e : decValue [] = 0 := rfl
    simp only [List.isEmpty_nil, Bool.not_true, Bool.false_and, Bool.false_eq_true, if_false, e, Nat.zero_mul, Nat.zero_add]
    by_cases hov : (fracScaled F p : Int) > I64MAX
    · simp only [if_pos hov]; simp
    · simp only [if_neg hov]
      have := combine_spec 0 (fracScaled F p) p neg hflt hov
      simp only [Nat.zero_mul, Nat.zero_add, if_neg hov] at this
      simpa using this
  · have hne : I.isEmpty = false := by simpa using hI0
    simp only [hne, Bool.not_false, Bool.true_and, if_true]
    rw [hst hI0]
    by_cases hio : (decValue I : Int) > I64MAX
    · rw [if_pos hio, if_pos (by simp [rangeErr]), if_pos]
      have : decValue I ≤ decValue I * 10 ^ p := Nat.le_mul_of_pos_right _ (by positivity)
      omega
    · rw [if_neg hio, if_neg (by simp [rangeErr]), if_neg (by simp)]
      by_cases hov : (fracScaled F p : Int) > I64MAX
      · have hN : ((decValue I * 10 ^ p + fracScaled F p : Nat) : Int) > I64MAX := by omega
        simp only [if_pos hov, if_pos hN]; simp
      · simp only [if_neg hov]
        rw [if_neg (by simp)]
        exact combine_spec (decValue I) (fracScaled F p) p neg hflt hov

/-- C16: anything else is rejected -/
theorem floatStrToInt_malformed (s : List Byte) (p : Nat) (h : ¬ ∃ neg I F, FloatText s neg I F) :
    floatStrToInt s p = (0, .EINVAL) := by
  unfold floatStrToInt
  generalize (decide (s.head? = some 0x2d#8)) = ng
  generalize hb : (if s.head? = some 0x2d#8 ∨ s.head? = some 0x2b#8 then s.drop 1 else s) = body
  unfold floatBody
  by_cases h0 : body = []
  · rw [if_pos h0]
  rw [if_neg h0, if_pos]
  by_contra hv
  simp only [Bool.not_eq_false] at hv
  apply h
  obtain ⟨neg, sgn, hs, hsgn⟩ : ∃ neg sgn, s = sgn ++ body ∧
      ((neg = true ∧ sgn = [0x2d#8]) ∨ (neg = false ∧ (sgn = [] ∨ sgn = [0x2b#8]))) := by
    cases s with
    | nil => simp at hb; exact absurd hb.symm (by simpa using h0)
    | cons c cs =>
      by_cases h1 : c = 0x2d#8
      · simp [h1] at hb; exact ⟨true, [0x2d#8], by simp [h1, hb], by simp⟩
      · by_cases h2 : c = 0x2b#8
        · simp [h2] at hb; exact ⟨false, [0x2b#8], by simp [h2, hb], by simp⟩
        · simp [h1, h2] at hb; exact ⟨false, [], by simp [hb], by simp⟩
  rcases (floatValid_iff body false).1 hv with hd | ⟨-, I, F, rfl, hI, hF⟩
  · exact ⟨neg, body, [], sgn, [], by simp [hs], hsgn, hd, by intro c hc; simp at hc, .inl ⟨rfl, rfl, h0⟩⟩
  · exact ⟨neg, I, F, sgn, 0x2e#8 :: F, by simp [hs], hsgn, hI, hF, .inr rfl⟩

/-! ## Rendering -/

theorem printAll_inv (ts : List (List Byte)) (sb : Sb) (T : List Byte) (h : SbInv sb T) :
    ∃ sb', printAll sb ts = some sb' ∧ SbInv sb' (T ++ ts.flatten) ∧ sb'.buf.length = sb.buf.length ∧
      (ts ≠ [] ∨ sb.pos ≠ none → sb'.pos ≠ none) := by
  induction ts generalizing sb T with
  | nil => exact ⟨sb, rfl, by simpa using h, rfl, by simp⟩
  | cons t ts ih =>
    obtain ⟨sb1, a1, a2, a3, a4⟩ := appendWith_inv (snprintfText_like t) h
    obtain ⟨sb2, b1, b2, b3, b4⟩ := ih sb1 _ a2
    refine ⟨sb2, ?_, ?_, by omega, fun _ => b4 (.inr a4)⟩
    · unfold printAll
      rw [a1, Option.bind_some, b1]
    · simpa using b2

theorem intToFloatStrBuf_like {val : Int} {p : Nat} {ts : List (List Byte)} (h : floatPieces val p = some ts)
    (hne : ts ≠ []) : SnprintfLike (intToFloatStrBuf val p) ts.flatten := by
  intro win
  unfold intToFloatStrBuf
  rw [h, Option.bind_some]
  obtain ⟨sb, a1, a2, a3, a4⟩ := printAll_inv ts (sbInit win) [] (SbInv.init win)
  rw [a1, Option.map_some]
  rw [List.nil_append] at a2
  refine ⟨sb.buf, by rw [a2.needed], a3, ?_⟩
  intro hw
  exact a2.content (a4 (.inl hne)) (by
    have := List.length_pos_iff.2 hw
    rw [a3]; exact this)

theorem digitChar_byte : ∀ d, d < 10 → BitVec.ofNat 8 (Nat.digitChar d).toNat = BitVec.ofNat 8 (0x30 + d) := by decide

theorem decNat_small {n : Nat} (h : n < 10) : decNat n = [BitVec.ofNat 8 (0x30 + n)] := by
  unfold decNat
  rw [Nat.toDigits_of_lt_base h]
  simp only [List.map_cons, List.map_nil, digitChar_byte n h]

theorem decNat_step {n : Nat} (h : 10 ≤ n) : decNat n = decNat (n / 10) ++ [BitVec.ofNat 8 (0x30 + n % 10)] := by
  unfold decNat
  rw [Nat.toDigits_of_base_le (by omega) h, List.map_append]
  simp only [List.map_cons, List.map_nil, digitChar_byte _ (Nat.mod_lt n (by omega : 0 < 10))]

theorem decDigits_one {d : Nat} (h : d < 10) : DecDigits [BitVec.ofNat 8 (0x30 + d)] ∧
    decValue [BitVec.ofNat 8 (0x30 + d)] = d := by
  have e : (BitVec.ofNat 8 (0x30 + d)).toNat = 0x30 + d := by simp; omega
  constructor
  · intro c hc
    rw [List.mem_singleton] at hc
    subst hc; rw [e]; omega
  · simp only [decValue, List.map_cons, List.map_nil, posValue, e]; simp

theorem decNat_spec (n : Nat) : DecDigits (decNat n) ∧ decValue (decNat n) = n ∧ decNat n ≠ [] := by
  induction n using Nat.strongRecOn with
  | ind n ih =>
    by_cases h : n < 10
    · rw [decNat_small h]
      exact ⟨(decDigits_one h).1, (decDigits_one h).2, by simp⟩
    · rw [decNat_step (by omega)]
      obtain ⟨h1, h2, -⟩ := ih (n / 10) (by omega)
      have h3 := decDigits_one (Nat.mod_lt n (by omega : 0 < 10))
      refine ⟨h1.append h3.1, ?_, by simp⟩
      rw [decValue_append, h2, h3.2]
      simp; omega

theorem decNat_length {n w : Nat} (hw : 1 ≤ w) (h : n < 10 ^ w) : (decNat n).length ≤ w := by
  induction w generalizing n with
  | zero => omega
  | succ w ih =>
    by_cases h10 : n < 10
    · rw [decNat_small h10]; simp
    · rw [decNat_step (by omega)]
      have hw1 : 1 ≤ w := by
        by_contra hc
        have : w = 0 := by omega
        subst this; simp at h; omega
      have := ih hw1 (n := n / 10) (by rw [Nat.div_lt_iff_lt_mul (by omega)]; rw [pow_succ] at h; exact h)
      simp; omega

theorem decNatW_spec {w n : Nat} (hw : 1 ≤ w) (h : n < 10 ^ w) :
    DecDigits (decNatW w n) ∧ decValue (decNatW w n) = n ∧ (decNatW w n).length = w := by
  have h1 := decNat_spec n
  have h2 := decNat_length hw h
  refine ⟨(decDigits_zeros _).append h1.1, ?_, ?_⟩
  · unfold decNatW; rw [decValue_append, decValue_zeros, h1.2.1]; simp
  · unfold decNatW; simp; omega

theorem stripZeros_spec (w v : Nat) (h0 : v ≠ 0) (h : v < 10 ^ w) :
    ∃ v' w', stripZeros w v = some (v', w') ∧ 1 ≤ w' ∧ w' ≤ w ∧ v' < 10 ^ w' ∧ v' % 10 ≠ 0 ∧
      v = v' * 10 ^ (w - w') := by
  induction w generalizing v with
  | zero => simp at h; omega
  | succ w ih =>
    unfold stripZeros
    by_cases hm : v % 10 ≠ 0
    · rw [if_pos hm]
      exact ⟨v, w + 1, rfl, by omega, le_refl _, h, hm, by simp⟩
    · rw [if_neg hm]
      have hlt : v / 10 < 10 ^ w := by
        rw [Nat.div_lt_iff_lt_mul (by omega)]; rw [pow_succ] at h; exact h
      obtain ⟨v', w', e, a1, a2, a3, a4, a5⟩ := ih (v / 10) (by omega) hlt
      refine ⟨v', w', e, a1, by omega, a3, a4, ?_⟩
      have : v = v / 10 * 10 := by omega
      rw [this, a5, show w + 1 - w' = (w - w') + 1 by omega, pow_succ]; ring

/-- the digit text has no trailing zero when its value is not a multiple of 10 -/
theorem no_trailing_zero {F : List Byte} (h : decValue F % 10 ≠ 0) : F.getLast? ≠ some 0x30#8 := by
  intro hl
  obtain ⟨ys, rfl⟩ := List.getLast?_eq_some_iff.1 hl
  rw [decValue_append] at h
  apply h
  have : decValue [0x30#8] = 0 := by decide
  rw [this]
  simp

/-- C16, rendering: for every value but INT64_MIN and every precision the
function prints, like snprintf, a decimal number text with sign, integer digits
`I` and fraction digits `F` that is exactly `val / 10^p`; there is no trailing
zero in the fraction and a point only in front of a fraction. -/
theorem intToFloat_text (val : Int) (p : Nat) (hlo : -I64MAX ≤ val) (hhi : val ≤ I64MAX) :
    ∃ I F, let t := (if val < 0 then [0x2d#8] else []) ++ I ++ (if F = [] then [] else 0x2e#8 :: F)
      SnprintfLike (intToFloatStrBuf val p) t ∧ I ≠ [] ∧ DecDigits I ∧ DecDigits F ∧
      F.length ≤ p ∧ F.getLast? ≠ some 0x30#8 ∧
      decValue (I ++ F) * 10 ^ (p - F.length) = val.natAbs := by
  have hM : I64MAX = 9223372036854775807 := rfl
  have hm : I64MIN = -9223372036854775808 := rfl
  have hmin : ¬ val = I64MIN := by omega
  have hnil : DecDigits [] := by intro c hc; simp at hc
  have h0 : DecDigits [0x30#8] ∧ decValue [0x30#8] = 0 := by
    refine ⟨?_, by decide⟩
    intro c hc; simp at hc; subst hc; decide
  have hsgn : ∀ ts : List (List Byte), ((if val < 0 then [[0x2d#8]] else []) ++ ts : List (List Byte)).flatten =
      (if val < 0 then [0x2d#8] else []) ++ ts.flatten := by
    intro ts; split <;> simp
  by_cases hp : p > 18
  · by_cases hv : val.natAbs = 0
    · refine ⟨[0x30#8], [], ?_, by simp, h0.1, hnil, by simp, by simp, ?_⟩
      · have hpc : floatPieces val p = some ((if val < 0 then [[0x2d#8]] else []) ++ [[0x30#8]]) := by
          unfold floatPieces; simp only [if_neg hmin, if_pos hp, if_pos hv]
        have := intToFloatStrBuf_like hpc (by simp)
        rw [hsgn] at this
        simpa using this
      · rw [List.append_nil, h0.2, hv]; simp
    · have hlt : val.natAbs < 10 ^ 19 := by
        have : (10 : Nat) ^ 19 = 10000000000000000000 := by norm_num
        omega
      obtain ⟨v', w', e, a1, a2, a3, a4, a5⟩ := stripZeros_spec 19 val.natAbs hv hlt
      obtain ⟨b1, b2, b3⟩ := decNatW_spec a1 a3
      have hFl : (List.replicate (p - 19) 0x30#8 ++ decNatW w' v').length = p - 19 + w' := by
        rw [List.length_append, List.length_replicate, b3]
      have hFv : decValue (List.replicate (p - 19) 0x30#8 ++ decNatW w' v') = v' := by
        rw [decValue_append, decValue_zeros, b2]; simp
      refine ⟨[0x30#8], List.replicate (p - 19) 0x30#8 ++ decNatW w' v', ?_, by simp, h0.1,
        (decDigits_zeros _).append b1, by omega, no_trailing_zero (by rw [hFv]; exact a4), ?_⟩
      · have hpc : floatPieces val p = some ((if val < 0 then [[0x2d#8]] else []) ++
            ([[0x30#8, 0x2e#8]] ++ List.replicate (p - 19) [0x30#8] ++ [decNatW w' v'])) := by
          unfold floatPieces fracText
          simp only [if_neg hmin, if_pos hp, if_neg hv, e, Option.map_some, List.append_assoc]
        have := intToFloatStrBuf_like hpc (by simp)
        rw [hsgn] at this
        have hFne : ¬ (List.replicate (p - 19) 0x30#8 ++ decNatW w' v' = []) := by
          intro hc; rw [hc] at hFl; simp at hFl; omega
        simp only [if_neg hFne]
        have hfl : ([[0x30#8, 0x2e#8]] ++ List.replicate (p - 19) [0x30#8] ++ [decNatW w' v'] : List (List Byte)).flatten =
            [0x30#8] ++ 0x2e#8 :: (List.replicate (p - 19) 0x30#8 ++ decNatW w' v') := by
          have : ∀ n, (List.replicate n ([0x30#8] : List Byte)).flatten = List.replicate n 0x30#8 := by
            intro n; induction n with
            | zero => rfl
            | succ n ih => rw [List.replicate_succ, List.flatten_cons, ih]; rfl
          simp [this]
        rw [hfl] at this
        simpa using this
      · rw [decValue_append, h0.2, Nat.zero_mul, Nat.zero_add, hFv, hFl, a5]
        congr 2; omega
  · generalize hf : val.natAbs / 10 ^ p = i
    generalize hr : val.natAbs % 10 ^ p = r
    have hpos : 0 < 10 ^ p := by positivity
    have hdm : 10 ^ p * i + r = val.natAbs := by rw [← hf, ← hr]; exact Nat.div_add_mod _ _
    obtain ⟨d1, d2, d3⟩ := decNat_spec i
    by_cases hv : r = 0
    · refine ⟨decNat i, [], ?_, d3, d1, hnil, by simp, by simp, ?_⟩
      · have hpc : floatPieces val p = some ((if val < 0 then [[0x2d#8]] else []) ++ [decNat i]) := by
          unfold floatPieces; simp only [if_neg hmin, if_neg hp, hr, hf, if_pos hv]
        have := intToFloatStrBuf_like hpc (by simp)
        rw [hsgn] at this
        simpa using this
      · rw [List.append_nil, d2, ← hdm, hv]; simp [Nat.mul_comm]
    · have hlt : r < 10 ^ p := by rw [← hr]; exact Nat.mod_lt _ hpos
      obtain ⟨v', w', e, a1, a2, a3, a4, a5⟩ := stripZeros_spec p r hv hlt
      obtain ⟨b1, b2, b3⟩ := decNatW_spec a1 a3
      refine ⟨decNat i, decNatW w' v', ?_, d3, d1, b1, by omega, no_trailing_zero (by rw [b2]; exact a4), ?_⟩
      · have hpc : floatPieces val p = some ((if val < 0 then [[0x2d#8]] else []) ++
            [decNat i, [0x2e#8], decNatW w' v']) := by
          unfold floatPieces fracText
          simp only [if_neg hmin, if_neg hp, hr, hf, if_neg hv, e, Option.map_some]
        have := intToFloatStrBuf_like hpc (by simp)
        rw [hsgn] at this
        have hFne : ¬ (decNatW w' v' = []) := by
          intro hc; rw [hc] at b3; simp at b3; omega
        simp only [if_neg hFne]
        simpa using this
      · rw [decValue_append, d2, b2, b3, Nat.add_mul, ← a5, Nat.mul_assoc, ← pow_add,
          show w' + (p - w') = p by omega, ← hdm]
        ring

/-- C16, round trip: parsing the rendered text with the same precision gives
the value back, for every precision and every value but INT64_MIN. -/
theorem float_roundtrip (val : Int) (p : Nat) (hlo : -I64MAX ≤ val) (hhi : val ≤ I64MAX) :
    ∃ t, SnprintfLike (intToFloatStrBuf val p) t ∧ floatStrToInt t p = (val, .ok) := by
  obtain ⟨I, F, h1, h2, h3, h4, h5, -, h7⟩ := intToFloat_text val p hlo hhi
  refine ⟨_, h1, ?_⟩
  have hft : FloatText ((if val < 0 then [0x2d#8] else []) ++ I ++ (if F = [] then [] else 0x2e#8 :: F))
      (decide (val < 0)) I F := by
    refine ⟨_, _, rfl, ?_, h3, h4, ?_⟩
    · by_cases hn : val < 0 <;> simp [hn]
    · by_cases hF : F = [] <;> simp [hF, h2]
  rw [floatStrToInt_number _ _ _ _ p hft]
  have hs : scaled I F p = val.natAbs := by
    unfold scaled
    rw [show (10 : Nat) ^ p = 10 ^ (p - F.length) * 10 ^ F.length by rw [← pow_add]; congr 1; omega,
      ← Nat.mul_assoc, Nat.mul_div_cancel _ (by positivity), h7]
  rw [hs, if_neg (by omega)]
  by_cases hn : val < 0
  · simp only [hn, decide_true, if_true]
    congr 1; omega
  · simp only [hn, decide_false, Bool.false_eq_true, if_false]
    congr 1; omega

/-- C16: INT64_MIN prints "-ERR", as documented out of range, and that text is rejected -/
theorem intToFloat_min (p : Nat) :
    SnprintfLike (intToFloatStrBuf I64MIN p) [0x2d#8, 0x45#8, 0x52#8, 0x52#8] ∧
      floatStrToInt [0x2d#8, 0x45#8, 0x52#8, 0x52#8] p = (0, .EINVAL) := by
  have hpc : floatPieces I64MIN p = some [[0x2d#8], [0x45#8, 0x52#8, 0x52#8]] := by
    unfold floatPieces
    rw [if_pos rfl]; rfl
  exact ⟨by simpa using intToFloatStrBuf_like hpc (by simp), rfl⟩

-- "-1.23" at precision 3 and 1, "-1230" back; 2^63 is out of range
example : floatStrToInt [0x2d, 0x31, 0x2e, 0x32, 0x33] 3 = (-1230, .ok) ∧
    floatStrToInt [0x2d, 0x31, 0x2e, 0x32, 0x33] 1 = (-12, .ok) ∧
    floatStrToInt [0x39, 0x32, 0x32, 0x33, 0x33, 0x37, 0x32, 0x30, 0x33, 0x36, 0x38, 0x35, 0x34, 0x37, 0x37, 0x35, 0x38,
      0x30, 0x38] 0 = (0, .ERANGE) ∧
    intToFloatStrBuf (-1230) 3 (List.replicate 7 0xee) =
      some ([0x2d, 0x31, 0x2e, 0x32, 0x33, 0, 0xee], 5) := by decide +kernel

end Verif.Utils
