import Verif.Gsm23003.Props
import Mathlib.Data.List.TakeWhile
/-!
Properties C29 (identities and their names and codes), C60 (digit strings), C61
(MNC text), C62 (domain names).
-/
namespace Verif.Gsm23003
open Verif.Utils

/-! ## C29: what comparing equal means -/

theorem decNatW_all (w n : Nat) : DecDigits (decNatW w n) ∧ decValue (decNatW w n) = n ∧ decNatW w n ≠ [] := by
  have h1 := decNat_spec n
  refine ⟨(decDigits_zeros _).append h1.1, ?_, ?_⟩
  · unfold decNatW; rw [decValue_append, decValue_zeros, h1.2.1]; simp
  · unfold decNatW; simp [h1.2.2]

/-- '-' does not occur in a text -/
def NoDash (t : List Byte) : Prop := 0x2d#8 ∉ t

theorem noDash_dec {t : List Byte} (h : DecDigits t) : NoDash t := by
  intro hc; have := h _ hc; revert this; decide

theorem dash_inj {a b x y : List Byte} (ha : NoDash a) (hb : NoDash b) (h : a ++ 0x2d#8 :: x = b ++ 0x2d#8 :: y) :
    a = b ∧ x = y := by
  induction a generalizing b with
  | nil =>
    cases b with
    | nil => simpa using h
    | cons c b =>
      simp only [List.nil_append, List.cons_append, List.cons.injEq] at h
      exact absurd (by rw [h.1]; simp) hb
  | cons d a ih =>
    cases b with
    | nil =>
      simp only [List.nil_append, List.cons_append, List.cons.injEq] at h
      exact absurd (by rw [← h.1]; simp) ha
    | cons c b =>
      simp only [List.cons_append, List.cons.injEq] at h
      have := ih (fun hc => ha (by simp [hc])) (fun hc => hb (by simp [hc])) h.2
      exact ⟨by rw [h.1, this.1], this.2⟩

theorem decNatW_inj {w v n m : Nat} (h : decNatW w n = decNatW v m) : n = m := by
  have := congrArg decValue h
  rwa [(decNatW_all w n).2.1, (decNatW_all v m).2.1] at this

theorem decNat_inj {n m : Nat} (h : decNat n = decNat m) : n = m := by
  have := congrArg decValue h
  rwa [(decNat_spec n).2.1, (decNat_spec m).2.1] at this

theorem decNatW_length_ge (w n : Nat) : w ≤ (decNatW w n).length := by
  unfold decNatW; simp only [List.length_append, List.length_replicate]; omega

theorem decNatW_length {w n : Nat} (hw : 1 ≤ w) (h : n < 10 ^ w) : (decNatW w n).length = w := (decNatW_spec hw h).2.2

theorem toDigits_ge100 {n : Nat} (h : 99 < n) : 3 ≤ (decNat n).length := by
  rw [decNat_step (by omega), decNat_step (by omega)]
  have := List.length_pos_iff.2 (decNat_spec (n / 10 / 10)).2.2
  simp only [List.length_append, List.length_cons, List.length_nil]; omega

/-- printed MNCs are equal iff value and number of digits are -/
theorem mncName_iff (a b : BitVec 16) (a3 b3 : Bool) : mncName a a3 = mncName b b3 ↔ mncKey (a, a3) = mncKey (b, b3) := by
  unfold mncName mncKey
  simp only [List.cons.injEq, and_true]
  constructor
  · intro h
    have e := decNatW_inj h
    refine ⟨e, ?_⟩
    rw [← e] at h ⊢
    by_cases c : 99 < a.toNat
    · simp [c]
    · have hl := congrArg List.length h
      have l3 : (decNatW 3 a.toNat).length = 3 := decNatW_length (by omega) (by omega)
      have l2 : (decNatW 2 a.toNat).length = 2 := decNatW_length (by omega) (by omega)
      cases a3 <;> cases b3 <;> simp [l3, l2] at hl ⊢
  · rintro ⟨e, h⟩
    rw [← e] at h ⊢
    by_cases c : 99 < a.toNat
    · have : decNatW 3 a.toNat = decNatW 2 a.toNat := by
        have := toDigits_ge100 c
        unfold decNatW
        rw [show 3 - (decNat a.toNat).length = 0 by omega, show 2 - (decNat a.toNat).length = 0 by omega]
      cases a3 <;> cases b3 <;> simp [this]
    · cases a3 <;> cases b3 <;> simp [c] at h ⊢

theorem mccName_iff (a b : BitVec 16) : mccName a = mccName b ↔ a.toNat = b.toNat :=
  ⟨decNatW_inj, fun h => by unfold mccName; rw [h]⟩

theorem noDash_mcc (a : BitVec 16) : NoDash (mccName a) := noDash_dec (decNatW_all _ _).1
theorem noDash_mnc (a : BitVec 16) (f : Bool) : NoDash (mncName a f) := noDash_dec (decNatW_all _ _).1

/-- C29: `osmo_plmn_cmp` is 0 exactly for PLMNs with the same name -/
theorem plmnCmp_name (a b : Plmn) : plmnCmp a b = 0 ↔ plmnName a = plmnName b := by
  rw [plmnCmp_lex.eq]
  unfold Plmn.key plmnName
  rw [List.cons.injEq, ← mncName_iff, ← mccName_iff]
  constructor
  · rintro ⟨h1, h2⟩; rw [h1, h2]
  · intro h
    exact dash_inj (noDash_mcc _) (noDash_mcc _) h

/-- a text is composed of a part without dash, a dash and the rest; equal texts
have equal parts.  `plmnName` has one dash in it. -/
theorem plmnName_inj {a b : Plmn} {x y : List Byte} (h : plmnName a ++ 0x2d#8 :: x = plmnName b ++ 0x2d#8 :: y) :
    plmnName a = plmnName b ∧ x = y := by
  unfold plmnName at *
  simp only [List.append_assoc, List.cons_append] at h
  obtain ⟨h1, h2⟩ := dash_inj (noDash_mcc _) (noDash_mcc _) h
  obtain ⟨h3, h4⟩ := dash_inj (noDash_mnc _ _) (noDash_mnc _ _) h2
  exact ⟨by rw [h1, h3], h4⟩

theorem noDash_decNat (n : Nat) : NoDash (decNat n) := noDash_dec (decNat_spec n).1

theorem decNat_iff (a b : Nat) : decNat a = decNat b ↔ a = b := ⟨decNat_inj, fun h => by rw [h]⟩

theorem laiName_inj {a b : Lai} {x y : List Byte} (h : laiName a ++ 0x2d#8 :: x = laiName b ++ 0x2d#8 :: y) :
    laiName a = laiName b ∧ x = y := by
  unfold laiName at *
  simp only [List.append_assoc, List.cons_append] at h
  obtain ⟨h1, h2⟩ := plmnName_inj h
  obtain ⟨h3, h4⟩ := dash_inj (noDash_decNat _) (noDash_decNat _) h2
  exact ⟨by rw [h1, h3], h4⟩

theorem plmnKey_iff (a b : Plmn) : a.key = b.key ↔ plmnName a = plmnName b := by
  rw [← plmnCmp_lex.eq, plmnCmp_name]

/-- C29: `osmo_lai_cmp` is 0 exactly for LAIs with the same name -/
theorem laiCmp_name (a b : Lai) : laiCmp a b = 0 ↔ laiName a = laiName b := by
  rw [laiCmp_lex.eq]
  unfold Lai.key
  rw [snoc_eq (k := a.plmn.key) (l := b.plmn.key) rfl, plmnKey_iff, ← decNat_iff a.lac.toNat]
  exact ⟨fun ⟨h1, h2⟩ => by unfold laiName; rw [h1, h2], fun h => plmnName_inj h⟩

theorem laiKey_iff (a b : Lai) : a.key = b.key ↔ laiName a = laiName b := by
  rw [← laiCmp_lex.eq, laiCmp_name]

theorem raiName_eq (r : Rai) : raiName r = laiName r.lai ++ 0x2d#8 :: decNat r.rac.toNat := by
  unfold raiName laiName
  simp only [List.append_assoc, List.cons_append]

/-- C29: `osmo_rai_cmp` is 0 exactly for RAIs with the same name -/
theorem raiCmp_name (a b : Rai) : raiCmp a b = 0 ↔ raiName a = raiName b := by
  rw [raiCmp_lex.eq, raiName_eq, raiName_eq]
  unfold Rai.key
  rw [snoc_eq (k := a.lai.key) (l := b.lai.key) rfl, laiKey_iff, ← decNat_iff a.rac.toNat]
  exact ⟨fun ⟨h1, h2⟩ => by rw [h1, h2], fun h => laiName_inj h⟩

/-- C29: `osmo_cgi_cmp` is 0 exactly for cells with the same name -/
theorem cgiCmp_name (a b : Cgi) : cgiCmp a b = 0 ↔ cgiName a = cgiName b := by
  rw [cgiCmp_lex.eq]
  unfold Cgi.key
  rw [snoc_eq (k := a.lai.key) (l := b.lai.key) rfl, laiKey_iff, ← decNat_iff a.ci.toNat]
  exact ⟨fun ⟨h1, h2⟩ => by unfold cgiName; rw [h1, h2], fun h => laiName_inj h⟩

/-- C29: `osmo_cgi_ps_cmp` is 0 exactly for cells with the same name -/
theorem cgiPsCmp_name (a b : CgiPs) : cgiPsCmp a b = 0 ↔ cgiPsName a = cgiPsName b := by
  rw [cgiPsCmp_lex.eq]
  unfold CgiPs.key
  rw [snoc_eq (k := a.rai.key) (l := b.rai.key) rfl, ← decNat_iff a.ci.toNat, ← raiCmp_lex.eq, raiCmp_name]
  constructor
  · rintro ⟨h1, h2⟩; unfold cgiPsName; rw [h1, h2]
  · intro h
    unfold cgiPsName at h
    rw [raiName_eq, raiName_eq] at h ⊢
    simp only [List.append_assoc, List.cons_append] at h
    obtain ⟨h1, h2⟩ := laiName_inj h
    obtain ⟨h3, h4⟩ := dash_inj (noDash_decNat _) (noDash_decNat _) h2
    exact ⟨by rw [h1, h3], h4⟩

/-- C29: `osmo_plmn_cmp` is 0 exactly for PLMNs with the same code on the air -/
theorem plmnCmp_bcd (a b : Plmn) (h1 : a.mcc.toNat < 1000) (h2 : a.mnc.toNat < 1000)
    (g1 : b.mcc.toNat < 1000) (g2 : b.mnc.toNat < 1000) :
    plmnCmp a b = 0 ↔ plmnToBcd a = plmnToBcd b := by
  rw [plmnCmp_lex.eq, plmnToBcd_inj a b h1 h2 g1 g2]
  obtain ⟨am, an, a3⟩ := a
  obtain ⟨bm, bn, b3⟩ := b
  simp only [Plmn.key, mncKey, Plmn.norm, List.cons.injEq, and_true, Plmn.mk.injEq, BitVec.toNat_inj]
  constructor
  · rintro ⟨h, h', h''⟩
    refine ⟨h, h', ?_⟩
    subst h'
    by_cases c : 99 < an.toNat
    · simp [c]
    · cases a3 <;> cases b3 <;> simp [c] at h'' ⊢
  · rintro ⟨h, h', h''⟩
    refine ⟨h, h', ?_⟩
    subst h'
    by_cases c : 99 < an.toNat
    · simp [c]
    · cases a3 <;> cases b3 <;> simp [c] at h'' ⊢

theorem hexChar_dash : ∀ d, d < 16 → hexChar d ≠ 0x2d#8 ∧ digit36 (hexChar d) = d := by decide +kernel

theorem hexFixed_spec (w n : Nat) :
    NoDash (hexFixed w n) ∧ (hexFixed w n).length = w ∧ (∀ c ∈ hexFixed w n, digit36 c < 16) ∧
      horner 16 (hexFixed w n) = n % 16 ^ w := by
  induction w generalizing n with
  | zero => exact ⟨by simp [NoDash, hexFixed], rfl, by simp [hexFixed], by simp [hexFixed, horner, Nat.mod_one]⟩
  | succ w ih =>
    obtain ⟨h1, h2, h3, h4⟩ := ih (n / 16)
    have hc := hexChar_dash (n % 16) (Nat.mod_lt _ (by omega))
    refine ⟨?_, by simp [hexFixed, h2], ?_, ?_⟩
    · unfold NoDash hexFixed
      simp only [List.mem_append, List.mem_singleton, not_or]
      exact ⟨h1, fun h => hc.1 h.symm⟩
    · intro c h
      simp only [hexFixed, List.mem_append, List.mem_singleton] at h
      rcases h with h | h
      · exact h3 c h
      · rw [h, hc.2]; exact Nat.mod_lt _ (by omega)
    · unfold hexFixed
      rw [horner_append, h4, hc.2, pow_succ, Nat.mul_comm (16 ^ w) 16, Nat.mod_mul]
      omega

theorem hexFixed_inj {w n m : Nat} (hn : n < 16 ^ w) (hm : m < 16 ^ w) (h : hexFixed w n = hexFixed w m) : n = m := by
  have := congrArg (horner 16) h
  rwa [(hexFixed_spec w n).2.2.2, (hexFixed_spec w m).2.2.2, Nat.mod_eq_of_lt hn, Nat.mod_eq_of_lt hm] at this

/-- C29: `osmo_gummei_cmp` is 0 exactly for GUMMEIs with the same name -/
theorem gummeiCmp_name (a b : Gummei) : gummeiCmp a b = 0 ↔ gummeiName a = gummeiName b := by
  rw [gummeiCmp_lex.eq]
  unfold Gummei.key MmeId.key gummeiName
  constructor
  · intro h
    obtain ⟨h1, h2⟩ := List.append_inj h rfl
    simp only [List.cons.injEq, and_true] at h2
    rw [(plmnKey_iff _ _).1 h1, h2.1, h2.2]
  · intro h
    obtain ⟨h1, h2⟩ := plmnName_inj h
    obtain ⟨h3, h4⟩ := dash_inj (hexFixed_spec _ _).1 (hexFixed_spec _ _).1 h2
    rw [(plmnKey_iff _ _).2 h1, hexFixed_inj a.mme.groupId.isLt b.mme.groupId.isLt h3,
      hexFixed_inj a.mme.code.isLt b.mme.code.isLt h4]

/-- the intermediate buffers of the name functions are large enough: MCC and MNC
need at most 6 of 8 bytes with the NUL, a PLMN 12 of 16, a LAI 18 and a RAI 22 of 32 -/
theorem names_fit (p : Plmn) (l : Lai) (r : Rai) :
    (mccName p.mcc).length + 1 ≤ 8 ∧ (mncName p.mnc p.mnc3).length + 1 ≤ 8 ∧ (plmnName p).length + 1 ≤ 16 ∧
      (laiName l).length + 1 ≤ 32 ∧ (raiName r).length + 1 ≤ 32 := by
  have d5 : ∀ v : BitVec 16, (decNat v.toNat).length ≤ 5 := fun v => decNat_length (by omega) (by have := v.isLt; omega)
  have d3 : ∀ v : BitVec 8, (decNat v.toNat).length ≤ 3 := fun v => decNat_length (by omega) (by have := v.isLt; omega)
  have w5 : ∀ (w : Nat) (v : BitVec 16), w ≤ 3 → (decNatW w v.toNat).length ≤ 5 := by
    intro w v hw
    have := d5 v
    unfold decNatW; simp only [List.length_append, List.length_replicate]; omega
  have m1 : ∀ p : Plmn, (mccName p.mcc).length ≤ 5 := fun p => w5 3 _ (by omega)
  have m2 : ∀ p : Plmn, (mncName p.mnc p.mnc3).length ≤ 5 := fun p => w5 _ _ (by split <;> omega)
  have m3 : ∀ p : Plmn, (plmnName p).length ≤ 11 := by
    intro p
    have := m1 p; have := m2 p
    unfold plmnName; simp only [List.length_append, List.length_cons]; omega
  have m4 : ∀ l : Lai, (laiName l).length ≤ 17 := by
    intro l
    have := m3 l.plmn; have := d5 l.lac
    unfold laiName; simp only [List.length_append, List.length_cons]; omega
  have m5 : (raiName r).length ≤ 21 := by
    have := m4 r.lai; have := d3 r.rac
    rw [raiName_eq]; simp only [List.length_append, List.length_cons]; omega
  have := m1 p; have := m2 p; have := m3 p; have := m4 l
  omega

example : plmnName ⟨1#16, 1#16, false⟩ = [0x30, 0x30, 0x31, 0x2d, 0x30, 0x31] := by decide +kernel
example : plmnName ⟨901#16, 7#16, true⟩ = [0x39, 0x30, 0x31, 0x2d, 0x30, 0x30, 0x37] := by decide +kernel
example : plmnName ⟨901#16, 170#16, true⟩ = plmnName ⟨901#16, 170#16, false⟩ := by decide +kernel

/-! ## C60 -/

theorem digitLoop_spec (k len : Nat) (s : List Byte) :
    digitLoop k len s =
      if (s.take k).all isDigit = true then some (len + min k s.length, s.drop k) else none := by
  induction k generalizing len s with
  | zero => simp [digitLoop]
  | succ k ih =>
    cases s with
    | nil => simp [digitLoop]
    | cons c s =>
      unfold digitLoop
      rw [ih]
      by_cases hc : isDigit c = true
      · rw [if_pos hc]
        simp only [List.take_succ_cons, List.all_cons, hc, Bool.true_and, List.length_cons, List.drop_succ_cons]
        split
        · simp only [Option.some.injEq, Prod.mk.injEq, and_true]; omega
        · rfl
      · rw [if_neg hc, if_neg]
        simp [hc]

/-- the string consists of `mn` to `mx` decimal digits and nothing else -/
def DigitString (mn mx : Nat) (s : List Byte) : Prop := mn ≤ s.length ∧ s.length ≤ mx ∧ AllDigits s

theorem isNDigits_iff (s : List Byte) (mn mx : Nat) : isNDigits (some s) mn mx = true ↔ DigitString mn mx s := by
  unfold isNDigits DigitString
  simp only [digitLoop_spec]
  by_cases hl : s.length ≤ mx
  · rw [List.take_of_length_le hl, List.drop_eq_nil_of_le hl]
    by_cases hd : AllDigits s
    · rw [if_pos (all_isDigit.2 hd)]
      simp only [Nat.zero_add, Nat.min_eq_right hl]
      by_cases hm : s.length < mn
      · rw [if_pos hm]; simp; omega
      · rw [if_neg hm]; simp [hl, hd]; omega
    · rw [if_neg (fun h => hd (all_isDigit.1 h))]; simp [hd]
  · constructor
    · intro h
      exfalso
      revert h
      by_cases hd : AllDigits (s.take mx)
      · rw [if_pos (all_isDigit.2 hd)]
        simp only []
        split
        · simp
        · rw [if_pos]
          · simp
          · intro hc
            have := congrArg List.length hc
            simp at this; omega
      · rw [if_neg (fun h => hd (all_isDigit.1 h))]; simp
    · intro h; omega

/-- C60: an IMSI is accepted iff it has 6 to 15 characters, all of them digits -/
theorem imsi_valid_iff (s : Option (List Byte)) : imsiStrValid s = true ↔ ∃ t, s = some t ∧ DigitString 6 15 t := by
  cases s with
  | none => simp [imsiStrValid, isNDigits]
  | some t => simp only [imsiStrValid, isNDigits_iff, Option.some.injEq, exists_eq_left']

/-- C60: an MSISDN is accepted iff it has 1 to 15 characters, all of them digits -/
theorem msisdn_valid_iff (s : Option (List Byte)) : msisdnStrValid s = true ↔ ∃ t, s = some t ∧ DigitString 1 15 t := by
  cases s with
  | none => simp [msisdnStrValid, isNDigits]
  | some t => simp only [msisdnStrValid, isNDigits_iff, Option.some.injEq, exists_eq_left']

/-- C60: an IMEI without check digit is accepted iff it has 14 digits -/
theorem imei14_valid_iff (s : Option (List Byte)) :
    imeiStrValid s false = true ↔ ∃ t, s = some t ∧ DigitString 14 14 t := by
  cases s with
  | none => simp [imeiStrValid, isNDigits]
  | some t => simp only [imeiStrValid, isNDigits_iff, Option.some.injEq, exists_eq_left', Bool.false_eq_true, if_false]

/-- C60: an IMEI with check digit is accepted iff it has 15 digits that pass the Luhn test -/
theorem imei15_valid_iff (s : Option (List Byte)) :
    imeiStrValid s true = true ↔ ∃ t, s = some t ∧ DigitString 15 15 t ∧ LuhnValid (digitsOf t) := by
  cases s with
  | none => simp [imeiStrValid, isNDigits]
  | some t =>
    simp only [imeiStrValid, if_true, Bool.and_eq_true, isNDigits_iff, Option.some.injEq, exists_eq_left',
      Option.getD_some, decide_eq_true_eq]
    refine and_congr_right fun hD => ?_
    obtain ⟨h1, h2, h3⟩ := hD
    have hsplit : t = t.take 14 ++ [t.getD 14 0#8] := by
      conv_lhs => rw [← List.take_append_drop 14 t]
      congr 1
      apply List.ext_getElem
      · simp; omega
      · intro i hi hi'
        simp at hi hi'
        have : i = 0 := by omega
        subst this
        simp [List.getD, List.getElem?_eq_getElem (show 14 < t.length by omega)]
    have had : AllDigits (t.take 14) := fun c hc => h3 c (List.mem_of_mem_take hc)
    have hl14 : 81 * (t.take 14).length < 2 ^ 31 := by simp; omega
    generalize t.take 14 = u at *
    generalize t.getD 14 0#8 = d at *
    obtain ⟨c, hc, c1, c2, c3, c4⟩ := luhn_completes u had hl14
    have hdl := h3 d (by rw [hsplit]; simp)
    rw [hc, LuhnRes.digit.injEq]
    constructor
    · intro e
      rw [hsplit, ← e]; exact c3
    · intro hv
      rw [hsplit] at hv
      exact (c4 _ hdl.1 hdl.2 hv).symm

example : imsiStrValid (some [0x30, 0x30, 0x31, 0x30, 0x31, 0x31]) = true := by decide
example : imsiStrValid (some [0x30, 0x30, 0x31, 0x30, 0x31, 0x61]) = false := by decide
-- 490154203237518 is the usual example of an IMEI
example : imeiStrValid (some [0x34, 0x39, 0x30, 0x31, 0x35, 0x34, 0x32, 0x30, 0x33, 0x32, 0x33, 0x37, 0x35, 0x31, 0x38]) true
    = true := by decide
example : imeiStrValid (some [0x34, 0x39, 0x30, 0x31, 0x35, 0x34, 0x32, 0x30, 0x33, 0x32, 0x33, 0x37, 0x35, 0x31, 0x37]) true
    = false := by decide

/-! ## C61 -/

theorem takeWhile_split (t : List Byte) :
    DecDigits (t.takeWhile isDigit) ∧ t = t.takeWhile isDigit ++ t.dropWhile isDigit ∧
      ∀ c ∈ (t.dropWhile isDigit).head?, ¬ digit36 c < 10 := by
  have hd36 : ∀ c : Byte, isDigit c = false → ¬ digit36 c < 10 := by decide +kernel
  refine ⟨?_, (List.takeWhile_append_dropWhile).symm, ?_⟩
  · intro c hc
    have := List.mem_takeWhile_imp hc
    simpa [isDigit] using this
  · intro c hc
    have := List.head?_dropWhile_not isDigit t
    revert this hc
    cases h : (t.dropWhile isDigit).head? with
    | none => simp
    | some x =>
      intro hc
      simp only [Option.mem_def, Option.some.injEq] at hc
      subst hc
      intro hx
      exact hd36 x hx

/-- the number of up to three digits a text starts with -/
theorem strToInt_short {ds rest : List Byte} (hne : ds ≠ []) (hd : DecDigits ds)
    (hr : ∀ c ∈ rest.head?, ¬ digit36 c < 10) (hl : (ds ++ rest).length ≤ 3) :
    strToInt (ds ++ rest) 10 0 999 = ((decValue ds : Int), if rest = [] then .ok else .E2BIG) := by
  have hv := decValue_lt hd
  have hp : 10 ^ ds.length ≤ 10 ^ 3 := Nat.pow_le_pow_right (by omega) (by simp at hl; omega)
  have hpos := List.length_pos_iff.2 hne
  have e1 : strtoll (ds ++ rest) 10 = { val := decValue ds, rest := rest, errno := .ok } := by
    rw [strtoll_digits hne hd hr, if_neg (by unfold I64MAX; omega)]
  have e2 : strToInt64 (ds ++ rest) 10 0 999 = ((decValue ds : Int), if rest = [] then .ok else .E2BIG) := by
    unfold strToInt64
    rw [if_neg (by simp [hne])]
    simp only [e1]
    by_cases h0 : rest = []
    · subst h0
      simp only [ne_eq, not_true_eq_false, if_false, if_true]
      rw [if_neg (show ¬((decValue ds : Int) < 0 ∨ (decValue ds : Int) > 999) by omega)]
    · have : ¬ rest.length = (ds ++ rest).length := by simp [hne]
      simp only [ne_eq, h0, not_false_eq_true, if_true, if_neg this, if_false]
  unfold strToInt
  simp only [e2, IMIN, IMAX]
  rw [if_neg (by omega), if_neg (by omega)]

theorem mncFromStr_split (t : List Byte) (h0 : isDigit (t.getD 0 0#8) = true) (hl : t.length ≤ 3) :
    mncFromStr (some t) =
      if t.dropWhile isDigit = [] then (.ok, some (BitVec.ofNat 16 (decValue t), decide (t.length = 3)))
      else (.EINVAL, none) := by
  obtain ⟨h1, h2, h3⟩ := takeWhile_split t
  have hne : t.takeWhile isDigit ≠ [] := by
    cases t with
    | nil => simp [isDigit] at h0
    | cons c t =>
      simp only [List.getD_cons_zero] at h0
      simp [h0]
  unfold mncFromStr
  simp only []
  rw [if_neg (by rw [h0]; simp; omega)]
  have hs := strToInt_short hne h1 h3 (by rw [← h2]; exact hl)
  rw [← h2] at hs
  rw [hs]
  by_cases hr : t.dropWhile isDigit = []
  · rw [if_pos hr, if_pos hr, if_neg (by simp), if_neg (by simp)]
    have : t.takeWhile isDigit = t := by
      conv_rhs => rw [h2, hr]
      simp
    rw [this]
    have e : decide (t.length > 2) = decide (t.length = 3) := by
      apply decide_eq_decide.2; omega
    simp only [e, BitVec.ofInt_natCast]
  · rw [if_neg hr, if_neg hr, if_pos rfl]

/-- C61: one to three digits are accepted; the value is the MNC and the flag
tells whether there are three digits. -/
theorem mncFromStr_ok (t : List Byte) (h : DigitString 1 3 t) :
    mncFromStr (some t) = (.ok, some (BitVec.ofNat 16 (decValue t), decide (t.length = 3))) := by
  obtain ⟨h1, h2, h3⟩ := h
  have hall : ∀ c ∈ t, isDigit c = true := fun c hc => by simpa [isDigit] using h3 c hc
  rw [mncFromStr_split t ?_ h2, if_pos]
  · rw [List.dropWhile_eq_nil_iff]; exact hall
  · cases t with
    | nil => simp at h1
    | cons c t => exact hall c (by simp)

/-- C61: everything else, and NULL, gives -EINVAL and stores nothing. -/
theorem mncFromStr_reject (s : Option (List Byte)) (h : ¬ ∃ t, s = some t ∧ DigitString 1 3 t) :
    mncFromStr s = (.EINVAL, none) := by
  cases s with
  | none => rfl
  | some t =>
    have h' : ¬ DigitString 1 3 t := fun hd => h ⟨t, rfl, hd⟩
    by_cases h0 : isDigit (t.getD 0 0#8) = true
    · by_cases hl : t.length ≤ 3
      · rw [mncFromStr_split t h0 hl, if_neg]
        intro hn
        apply h'
        rw [List.dropWhile_eq_nil_iff] at hn
        refine ⟨?_, hl, fun c hc => by simpa [isDigit] using hn c hc⟩
        cases t with
        | nil => simp [isDigit] at h0
        | cons c t => simp
      · unfold mncFromStr
        simp only []
        rw [if_pos (.inr (by omega))]
    · unfold mncFromStr
      simp only []
      rw [if_pos (.inl (by simpa using h0))]

/-- C61: the printed MNC is read back, with its number of digits. -/
theorem mnc_text_roundtrip (mnc : BitVec 16) (m3 : Bool) (h : mnc.toNat < 1000) :
    mncFromStr (some (mncName mnc m3)) = (.ok, some (mnc, m3 || decide (99 < mnc.toNat))) := by
  have hs := decNatW_all (if m3 then 3 else 2) mnc.toNat
  have hlen : (mncName mnc m3).length = if m3 = true ∨ 99 < mnc.toNat then 3 else 2 := by
    unfold mncName
    by_cases c : 99 < mnc.toNat
    · cases m3
      · simp only [c, or_true, if_true, Bool.false_eq_true, if_false]
        rw [dec2_eq_dec3 _ h c]
        exact decNatW_length (by omega) (by omega)
      · simp only [true_or, if_true]
        exact decNatW_length (by omega) (by omega)
    · cases m3
      · simp only [c, Bool.false_eq_true, or_self, if_false]
        exact decNatW_length (by omega) (by omega)
      · simp only [true_or, if_true]
        exact decNatW_length (by omega) (by omega)
  rw [mncFromStr_ok]
  · have e1 : decValue (mncName mnc m3) = mnc.toNat := hs.2.1
    have e2 : decide ((mncName mnc m3).length = 3) = (m3 || decide (99 < mnc.toNat)) := by
      rw [hlen]
      by_cases c : 99 < mnc.toNat
      · simp [c]
      · cases m3 <;> simp [c]
    rw [e1, e2, BitVec.ofNat_toNat]; simp
  · refine ⟨?_, ?_, hs.1⟩ <;> rw [hlen] <;> split <;> omega

example : mncFromStr (some [0x30, 0x31]) = (.ok, some (1#16, false)) := by decide
example : mncFromStr (some [0x30, 0x30, 0x31]) = (.ok, some (1#16, true)) := by decide
example : mncFromStr (some [0x31, 0x20]) = (.EINVAL, none) := by decide
example : mncFromStr (some [0x2b, 0x31]) = (.EINVAL, none) := by decide

/-! ## C62 -/

theorem scanLit_append (f s : List Byte) : scanLit f (f ++ s) = .ok s () := by
  induction f with
  | nil => rfl
  | cons c f ih => simp only [List.cons_append, scanLit, if_true]; exact ih

/-- a number of exactly `w` digits is read whatever follows -/
theorem scanNum_digits {base w : Nat} (hb : base ≤ 16) (ds rest : List Byte) (hl : ds.length = w) (hw : 1 ≤ w)
    (hd : ∀ c ∈ ds, digit36 c < base) (hx : base = 16 → hexPrefix ds = false) :
    scanNum base w (ds ++ rest) = .ok rest (horner base ds) := by
  obtain ⟨d, ds', rfl⟩ : ∃ d ds', ds = d :: ds' := by
    cases ds with
    | nil => simp at hl; omega
    | cons d ds' => exact ⟨d, ds', rfl⟩
  have hd0 := digit36_ne_sign d (by have := hd d (by simp); omega)
  have htw : (d :: ds').takeWhile (fun c => decide (digit36 c < base)) = d :: ds' := by
    rw [List.takeWhile_eq_self_iff]
    intro c hc
    simpa using hd c hc
  unfold scanNum
  have e1 : ((d :: ds') ++ rest).dropWhile isSpace = (d :: ds') ++ rest := by simp [hd0.2.2]
  simp only [e1]
  rw [if_neg (by simp), show ((d :: ds') ++ rest).take w = d :: ds' by rw [← hl]; simp]
  have e2 : scanDigits base (d :: ds') = some ((horner base (d :: ds') : Int), w) := by
    unfold scanDigits
    have n1 : ¬ ((d :: ds').head? = some 0x2d#8) := by simp [hd0.1]
    have n2 : ¬ ((d :: ds').head? = some 0x2d#8 ∨ (d :: ds').head? = some 0x2b#8) := by simp [hd0.1, hd0.2.1]
    have n3 : ¬ (base = 16 ∧ hexPrefix (d :: ds') = true) := by
      rintro ⟨h1, h2⟩
      rw [hx h1] at h2; cases h2
    simp only [if_neg n2, List.drop_zero, if_neg n3, htw]
    rw [if_neg (by simp)]
    simp only [n1, decide_false, Bool.false_eq_true, if_false, Nat.zero_add, hl]
  rw [e2]
  simp only []
  rw [← hl]; simp

theorem scanNum_dec3 {n : Nat} (h : n < 1000) (rest : List Byte) : scanNum 10 3 (decNatW 3 n ++ rest) = .ok rest n := by
  obtain ⟨h1, h2, h3⟩ := decNatW_spec (w := 3) (by omega) (show n < 10 ^ 3 by omega)
  rw [scanNum_digits (by omega) _ rest h3 (by omega) (decDigits_iff.1 h1) (by omega), horner_dec h1, h2]

theorem not_x_of_hex : ∀ c : Byte, digit36 c < 16 → (c = 0x78#8 || c = 0x58#8) = false := by decide +kernel

theorem scanNum_hex {w n : Nat} (hw : 1 ≤ w) (h : n < 16 ^ w) (rest : List Byte) :
    scanNum 16 w (hexFixed w n ++ rest) = .ok rest n := by
  obtain ⟨-, h2, h3, h4⟩ := hexFixed_spec w n
  rw [scanNum_digits (by omega) _ rest h2 hw h3, h4, Nat.mod_eq_of_lt h]
  intro _
  generalize hexFixed w n = t at h3
  unfold hexPrefix
  split
  · rename_i z x d t'
    have := not_x_of_hex x (h3 x (by simp))
    rw [this]; simp
  · rfl

theorem gt999 (v : BitVec 16) : v > 999#16 ↔ 999 < v.toNat := BitVec.lt_def

theorem homeDomain_length (p : Plmn) (h1 : p.mcc.toNat < 1000) (h2 : p.mnc.toNat < 1000) : (homeDomain p).length = 33 := by
  unfold homeDomain
  have a := decNatW_length (w := 3) (by omega) (show p.mcc.toNat < 10 ^ 3 by omega)
  have b := decNatW_length (w := 3) (by omega) (show p.mnc.toNat < 10 ^ 3 by omega)
  simp only [List.length_append, a, b]
  rfl

theorem sprintf_fits (t mem : List Byte) (h : t.length + 1 ≤ mem.length) :
    GenOut.of t (sprintfText t mem) = .ok (t ++ 0#8 :: mem.drop (t.length + 1)) t.length := by
  unfold sprintfText
  have := writeAt_eq_some (mem := mem) (bs := t ++ [0#8]) (o := 0) (by simp; omega)
  rw [Int.ofNat_zero] at this
  rw [this]
  simp [GenOut.of]

/-- C62: with a buffer of 34 bytes or more the home network domain is written as
C string of 33 characters for every PLMN up to 999-999. -/
theorem genHome_ok (p : Plmn) (mem : List Byte) (h1 : p.mcc.toNat < 1000) (h2 : p.mnc.toNat < 1000)
    (hm : 34 ≤ mem.length) :
    genHomeDomain mem p = .ok (homeDomain p ++ 0#8 :: mem.drop 34) 33 := by
  have hl := homeDomain_length p h1 h2
  unfold genHomeDomain
  rw [if_neg (by rw [gt999]; omega), if_neg (by rw [gt999]; omega), sprintf_fits _ _ (by omega), hl]

/-- C62: other PLMNs are refused -/
theorem genHome_reject (p : Plmn) (mem : List Byte) (h : 1000 ≤ p.mcc.toNat ∨ 1000 ≤ p.mnc.toNat) :
    genHomeDomain mem p = .einval := by
  unfold genHomeDomain
  simp only [gt999]
  split
  · rfl
  · rw [if_pos (by omega)]

/-- the documentation (line 750) asks for 33 bytes only: the NUL is then written
behind the buffer -/
theorem genHome_doc_counterexample :
    genHomeDomain (List.replicate 33 0xff#8) ⟨262#16, 42#16, false⟩ = .ub := by decide +kernel

/-- C62: the generated domain is read back as the same MCC and MNC; the number of
MNC digits is lost (always "two"). -/
theorem home_roundtrip_partial (p : Plmn) (h1 : p.mcc.toNat < 1000) (h2 : p.mnc.toNat < 1000) :
    parseHomeDomain (homeDomain p) = (0, { p with mnc3 := false }) := by
  have e : scanf homeFmt (homeDomain p) [] = (2, [(p.mnc.toNat : Int), (p.mcc.toNat : Int)]) := by
    unfold homeFmt homeDomain
    simp only [scanf, scanLit_append, scanNum_dec3 h1, scanNum_dec3 h2]
    rw [show scanLit tNet tNet = .ok [] () from rfl]
    rfl
  unfold parseHomeDomain
  rw [e]
  simp

/-- ... so a three digit MNC below 100 does not come back -/
theorem home_roundtrip_counterexample :
    parseHomeDomain (homeDomain ⟨310#16, 12#16, true⟩) ≠ (0, ⟨310#16, 12#16, true⟩) ∧
      plmnCmp (parseHomeDomain (homeDomain ⟨310#16, 12#16, true⟩)).2 ⟨310#16, 12#16, true⟩ ≠ 0 := by
  decide +kernel

/-- C62: text not of the documented form is accepted: signs (`epc.mnc-1.mcc+2`
is MNC 65535, MCC 2), and anything behind the MCC -/
theorem parseHome_lax_counterexample :
    parseHomeDomain (tEpcMnc ++ [0x2d, 0x31] ++ tMcc ++ [0x2b, 0x32, 0x21]) = (0, ⟨2#16, 65535#16, false⟩) := by
  decide +kernel

theorem mmeDomain_length (g : Gummei) (h1 : g.plmn.mcc.toNat < 1000) (h2 : g.plmn.mnc.toNat < 1000) :
    (mmeDomain g).length = 54 := by
  unfold mmeDomain
  simp only [List.length_append, (hexFixed_spec _ _).2.1, homeDomain_length _ h1 h2]
  rfl

/-- C62: the MME domain is 54 characters and fits the documented 56 byte buffer -/
theorem genMme_ok (g : Gummei) (mem : List Byte) (h1 : g.plmn.mcc.toNat < 1000) (h2 : g.plmn.mnc.toNat < 1000)
    (hm : 55 ≤ mem.length) :
    genMmeDomain mem g = .ok (mmeDomain g ++ 0#8 :: mem.drop 55) 54 := by
  have hl := mmeDomain_length g h1 h2
  unfold genMmeDomain
  rw [genHome_ok _ _ h1 h2 (by simp)]
  simp only []
  rw [sprintf_fits _ _ (by omega), hl]

theorem mmeGroupDomain_length (gi : BitVec 16) (p : Plmn) (h1 : p.mcc.toNat < 1000) (h2 : p.mnc.toNat < 1000) :
    (mmeGroupDomain gi p).length = 47 := by
  unfold mmeGroupDomain
  simp only [List.length_append, (hexFixed_spec _ _).2.1, homeDomain_length _ h1 h2]
  rfl

/-- C62: the MME group domain is 47 characters -/
theorem genMmeGroup_ok (gi : BitVec 16) (p : Plmn) (mem : List Byte) (h1 : p.mcc.toNat < 1000)
    (h2 : p.mnc.toNat < 1000) (hm : 48 ≤ mem.length) :
    genMmeGroupDomain mem gi p = .ok (mmeGroupDomain gi p ++ 0#8 :: mem.drop 48) 47 := by
  have hl := mmeGroupDomain_length gi p h1 h2
  unfold genMmeGroupDomain
  rw [genHome_ok _ _ h1 h2 (by simp)]
  simp only []
  rw [sprintf_fits _ _ (by omega), hl]

/-- C62: the MME domain is read back as the same MME code, group, MCC and MNC -/
theorem mme_roundtrip_partial (g : Gummei) (h1 : g.plmn.mcc.toNat < 1000) (h2 : g.plmn.mnc.toNat < 1000) :
    parseMmeDomain (mmeDomain g) = (0, { g with plmn := { g.plmn with mnc3 := false } }) := by
  have e : scanf mmeFmt (mmeDomain g) [] =
      (4, [(g.mme.code.toNat : Int), (g.mme.groupId.toNat : Int), (g.plmn.mnc.toNat : Int), (g.plmn.mcc.toNat : Int)]) := by
    unfold mmeFmt mmeDomain homeDomain
    have hc := g.mme.code.isLt
    have hg := g.mme.groupId.isLt
    rw [← List.append_assoc tMme]
    simp only [scanf, scanLit_append, scanNum_hex (w := 2) (by omega) (show g.mme.code.toNat < 16 ^ 2 by omega),
      scanNum_hex (w := 4) (by omega) (show g.mme.groupId.toNat < 16 ^ 4 by omega), scanNum_dec3 h1, scanNum_dec3 h2]
    rw [show scanLit tNet tNet = .ok [] () from rfl]
    rfl
  unfold parseMmeDomain
  rw [e]
  simp

example : parseMmeDomain (mmeDomain ⟨⟨901#16, 70#16, false⟩, ⟨0x1234#16, 0xab#8⟩⟩) =
    (0, ⟨⟨901#16, 70#16, false⟩, ⟨0x1234#16, 0xab#8⟩⟩) := by decide +kernel
example : (parseHomeDomain tEpcMnc).1 = -1 := by decide +kernel
example : (parseHomeDomain (0x61 :: tEpcMnc)).1 = -22 := by decide +kernel

end Verif.Gsm23003
