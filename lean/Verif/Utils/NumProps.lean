import Verif.Utils.NumModel
import Verif.Utils.StrbufProps
import Mathlib.Tactic.Linarith
import Mathlib.Tactic.Ring
/-!
C17: string to integer conversion.
-/
namespace Verif.Utils

/-! ## Specification: what a number text is -/

/-- "0123456789abcdefghijklmnopqrstuvwxyz" -/
def alphabetLo : List Byte :=
  (List.range 10).map (fun i => BitVec.ofNat 8 (0x30 + i)) ++ (List.range 26).map fun i => BitVec.ofNat 8 (0x61 + i)
/-- the same with capital letters -/
def alphabetUp : List Byte :=
  (List.range 10).map (fun i => BitVec.ofNat 8 (0x30 + i)) ++ (List.range 26).map fun i => BitVec.ofNat 8 (0x41 + i)

/-- `c` is the digit of value `k` -/
def IsDigitOf (c : Byte) (k : Nat) : Prop := alphabetLo[k]? = some c ∨ alphabetUp[k]? = some c

instance (c : Byte) (k : Nat) : Decidable (IsDigitOf c k) := by unfold IsDigitOf; infer_instance

/-- positional value of a list of digit values, most significant first -/
def posValue (b : Nat) : List Nat → Nat
  | [] => 0
  | k :: ks => k * b ^ ks.length + posValue b ks

/-- `ds` is a non-empty text of base `b` digits with value `n` -/
def DigitsText (b : Nat) (ds : List Byte) (n : Nat) : Prop :=
  ds ≠ [] ∧ ∃ ks : List Nat, List.Forall₂ IsDigitOf ds ks ∧ (∀ k ∈ ks, k < b) ∧ n = posValue b ks

/-- white space of the C locale: blank, \t \n \v \f \r -/
def WhiteSpace (ws : List Byte) : Prop := ∀ c ∈ ws, c ∈ ([0x20, 0x09, 0x0a, 0x0b, 0x0c, 0x0d] : List Byte)

/-- the whole of `s` is a number of base `b` with value `v`: white space, sign,
for base 16 an optional 0x, digits -/
def NumberText (b : Nat) (s : List Byte) (v : Int) : Prop :=
  ∃ ws sgn pre ds n, s = ws ++ sgn ++ pre ++ ds ∧ WhiteSpace ws ∧
    (pre = [] ∨ (b = 16 ∧ (pre = [0x30#8, 0x78#8] ∨ pre = [0x30#8, 0x58#8]))) ∧
    DigitsText b ds n ∧
    ((sgn = [0x2d#8] ∧ v = -(n : Int)) ∨ ((sgn = [] ∨ sgn = [0x2b#8]) ∧ v = n))

/-! ## Lemmas -/

theorem isSpace_iff : ∀ c : Byte, isSpace c = true ↔ c ∈ ([0x20, 0x09, 0x0a, 0x0b, 0x0c, 0x0d] : List Byte) := by
  decide +kernel

theorem digit36_of : ∀ c : Byte, ∀ k, k < 36 → (IsDigitOf c k ↔ digit36 c = k) := by decide +kernel

theorem digit36_ne_sign : ∀ c : Byte, digit36 c < 36 → c ≠ 0x2d#8 ∧ c ≠ 0x2b#8 ∧ isSpace c = false := by
  decide +kernel

theorem horner_append (b : Nat) (ds : List Byte) (d : Byte) :
    horner b (ds ++ [d]) = horner b ds * b + digit36 d := by simp [horner]

theorem foldl_horner (b a : Nat) (ds : List Byte) :
    ds.foldl (fun v d => v * b + digit36 d) a = a * b ^ ds.length + horner b ds := by
  induction ds generalizing a with
  | nil => simp [horner]
  | cons d ds ih =>
    have h0 := ih (0 * b + digit36 d)
    simp only [horner, List.foldl_cons] at *
    rw [ih, h0]; simp only [List.length_cons]; ring

theorem horner_posValue (b : Nat) (ds : List Byte) : horner b ds = posValue b (ds.map digit36) := by
  induction ds with
  | nil => rfl
  | cons d ds ih =>
    have : horner b (d :: ds) = ds.foldl (fun v d => v * b + digit36 d) (0 * b + digit36 d) := rfl
    rw [this, foldl_horner, ih]; simp [posValue]

theorem digitsText_iff {b : Nat} (hb : b ≤ 36) (ds : List Byte) (n : Nat) :
    DigitsText b ds n ↔ ds ≠ [] ∧ (∀ c ∈ ds, digit36 c < b) ∧ n = horner b ds := by
  have key : ∀ (ds : List Byte) (ks : List Nat), (∀ k ∈ ks, k < b) → List.Forall₂ IsDigitOf ds ks →
      ks = ds.map digit36 := by
    intro ds ks hk h
    induction h with
    | nil => rfl
    | @cons c k ds ks h _ ih =>
      have hk0 := hk k (by simp)
      rw [List.map_cons, ← ih (fun k' h' => hk k' (by simp [h'])), ((digit36_of c k (by omega)).1 h)]
  constructor
  · rintro ⟨hne, ks, hf, hk, hn⟩
    have := key ds ks hk hf
    subst this
    refine ⟨hne, fun c hc => hk _ (List.mem_map_of_mem hc), by rw [hn, horner_posValue]⟩
  · rintro ⟨hne, hd, hn⟩
    refine ⟨hne, ds.map digit36, ?_, ?_, by rw [hn, horner_posValue]⟩
    · clear hne hn
      induction ds with
      | nil => exact .nil
      | cons c ds ih =>
        refine .cons ?_ (ih fun c' h => hd c' (by simp [h]))
        exact (digit36_of c _ (by have := hd c (by simp); omega)).2 rfl
    · intro k hk
      obtain ⟨c, hc, rfl⟩ := List.mem_map.1 hk
      exact hd c hc

/-- the number starting at `s`: the longest initial part of `s` that is a
number text (C11 7.22.1.4: "the longest initial subsequence of the input string
that is of the expected form"), its value and what follows it -/
def NumberPrefix (b : Nat) (s : List Byte) (v : Int) (rest : List Byte) : Prop :=
  ∃ t, s = t ++ rest ∧ NumberText b t v ∧
    ∀ t' rest' v', s = t' ++ rest' → NumberText b t' v' → t'.length ≤ t.length

theorem dropWhile_stop {p : Byte → Bool} (ws X : List Byte) (hw : ∀ c ∈ ws, p c = true)
    (hX : ∀ c ∈ X.head?, p c = false) : (ws ++ X).dropWhile p = X := by
  induction ws with
  | nil =>
    cases X with
    | nil => rfl
    | cons x X => simp [hX x (by simp)]
  | cons w ws ih =>
    simp only [List.cons_append, List.dropWhile_cons, hw w (by simp), if_true]
    exact ih fun c hc => hw c (by simp [hc])

theorem takeWhile_ge {p : Byte → Bool} (ds X : List Byte) (hd : ∀ c ∈ ds, p c = true) :
    ds.length ≤ ((ds ++ X).takeWhile p).length := by
  induction ds with
  | nil => simp
  | cons d ds ih =>
    simp only [List.cons_append, List.takeWhile_cons, hd d (by simp), if_true, List.length_cons]
    have := ih fun c hc => hd c (by simp [hc])
    omega

theorem takeWhile_all {p : Byte → Bool} {l : List Byte} (h : ∀ c ∈ l, p c = true) : l.takeWhile p = l := by
  induction l with
  | nil => rfl
  | cons a l ih => simp [h a (by simp), ih fun c hc => h c (by simp [hc])]

/-- body after the sign as `strtoll` sees it -/
def afterSign (s : List Byte) : List Byte :=
  let s1 := s.dropWhile isSpace
  if s1.head? = some 0x2d#8 ∨ s1.head? = some 0x2b#8 then s1.drop 1 else s1

/-- digits part as `strtoll` sees it -/
def digitsPart (b : Nat) (s : List Byte) : List Byte :=
  if b = 16 ∧ hexPrefix (afterSign s) = true then (afterSign s).drop 2 else afterSign s

def digitRun (b : Nat) (s : List Byte) : List Byte :=
  (digitsPart b s).takeWhile fun c => digit36 c < b

def signedVal (b : Nat) (s : List Byte) : Int :=
  if (s.dropWhile isSpace).head? = some 0x2d#8 then -(horner b (digitRun b s) : Int) else horner b (digitRun b s)

theorem strtoll_eq (s : List Byte) (b : Nat) (h2 : 2 ≤ b) (h36 : b ≤ 36) :
    strtoll s b =
      if digitRun b s = [] then { val := 0, rest := s, errno := .ok }
      else if signedVal b s > I64MAX then
        { val := I64MAX, rest := (digitsPart b s).drop (digitRun b s).length, errno := .ERANGE }
      else if signedVal b s < I64MIN then
        { val := I64MIN, rest := (digitsPart b s).drop (digitRun b s).length, errno := .ERANGE }
      else { val := signedVal b s, rest := (digitsPart b s).drop (digitRun b s).length, errno := .ok } := by
  have e1 : ¬ ((b : Int) < 0 ∨ (b : Int) = 1 ∨ (b : Int) > 36) := by omega
  have e0 : ¬ ((b : Int) = 0) := by omega
  have e16 : ((b : Int) = 16) = (b = 16) := by simp only [eq_iff_iff]; omega
  have et : (b : Int).toNat = b := by omega
  unfold strtoll
  rw [if_neg e1]
  simp only [e0, false_or, e16, et, if_false]
  by_cases hp : b = 16 ∧ hexPrefix (afterSign s) = true
  · have hb := hp.1
    subst hb
    simp only [afterSign] at hp
    simp only [digitRun, digitsPart, signedVal, afterSign, hp, if_true, and_self]
  · have hp' := hp
    simp only [afterSign] at hp'
    simp only [digitRun, digitsPart, signedVal, afterSign, hp', if_false]

theorem hexPrefix_true {s : List Byte} (h : hexPrefix s = true) :
    ∃ x d r, s = 0x30#8 :: x :: d :: r ∧ (x = 0x78#8 ∨ x = 0x58#8) ∧ digit36 d < 16 := by
  match s with
  | [] => simp [hexPrefix] at h
  | [_] => simp [hexPrefix] at h
  | [_, _] => simp [hexPrefix] at h
  | z :: x :: d :: r =>
    simp only [hexPrefix, Bool.and_eq_true, decide_eq_true_eq, Bool.or_eq_true] at h
    obtain ⟨⟨rfl, hx⟩, hd⟩ := h
    exact ⟨x, d, r, rfl, hx, hd⟩

theorem digit36_x : digit36 0x78#8 = 33 ∧ digit36 0x58#8 = 33 := by decide

/-- a number text at the start of `s` is found by the scan, which reaches at
least as far -/
theorem scan_ge {b : Nat} (h36 : b ≤ 36) {s t r : List Byte} {v : Int} (hs : s = t ++ r)
    (ht : NumberText b t v) :
    digitRun b s ≠ [] ∧ ((digitsPart b s).drop (digitRun b s).length).length + t.length ≤ s.length ∧
      (r = [] → v = signedVal b s) := by
  obtain ⟨ws, sgn, pre, ds, n, rfl, hw, hpre, hds, hsgn⟩ := ht
  rw [digitsText_iff h36] at hds
  obtain ⟨hne, hdig, hn⟩ := hds
  have hw' : ∀ c ∈ ws, isSpace c = true := fun c hc => (isSpace_iff c).2 (hw c hc)
  obtain ⟨d, ds', rfl⟩ : ∃ d ds', ds = d :: ds' := by
    cases ds with
    | nil => exact absurd rfl hne
    | cons d ds' => exact ⟨d, ds', rfl⟩
  have hd36 : digit36 d < 36 := by have := hdig d (by simp); omega
  -- first character after the sign
  have hbody : ∀ c ∈ (pre ++ (d :: ds') ++ r).head?, c ≠ 0x2d#8 ∧ c ≠ 0x2b#8 ∧ isSpace c = false := by
    intro c hc
    rcases hpre with rfl | ⟨-, rfl | rfl⟩
    · simp at hc; subst hc; exact digit36_ne_sign d hd36
    · simp at hc; subst hc; decide
    · simp at hc; subst hc; decide
  have h1 : s.dropWhile isSpace = sgn ++ (pre ++ (d :: ds') ++ r) := by
    rw [hs, show ws ++ sgn ++ pre ++ (d :: ds') ++ r = ws ++ (sgn ++ (pre ++ (d :: ds') ++ r)) by simp]
    apply dropWhile_stop _ _ hw'
    intro c hc
    rcases hsgn with ⟨rfl, -⟩ | ⟨rfl | rfl, -⟩
    · simp at hc; subst hc; decide
    · exact (hbody c (by simpa using hc)).2.2
    · simp at hc; subst hc; decide
  have h2 : afterSign s = pre ++ (d :: ds') ++ r := by
    unfold afterSign
    simp only [h1]
    rcases hsgn with ⟨rfl, -⟩ | ⟨rfl | rfl, -⟩
    · simp
    · simp only [List.nil_append]
      rw [if_neg]
      rintro (h | h)
      · exact (hbody _ h).1 rfl
      · exact (hbody _ h).2.1 rfl
    · simp
  have hlen : s.length = ws.length + sgn.length + (pre.length + (ds'.length + 1) + r.length) := by
    rw [hs]; simp; omega
  have htl : (ws ++ sgn ++ pre ++ d :: ds').length = ws.length + sgn.length + pre.length + ds'.length + 1 := by
    simp; omega
  rw [List.length_drop, htl]
  have hrun_le : (digitRun b s).length ≤ (digitsPart b s).length :=
    (List.takeWhile_sublist _).length_le
  have hdigb : ∀ c ∈ d :: ds', (decide (digit36 c < b)) = true := fun c hc => by simpa using hdig c hc
  have hval : digitsPart b s = (d :: ds') ++ r → r = [] → v = signedVal b s := by
    intro hD hr
    have hrun : digitRun b s = d :: ds' := by
      unfold digitRun
      rw [hD, hr, List.append_nil]
      exact takeWhile_all hdigb
    unfold signedVal
    rw [hrun, ← hn, h1]
    rcases hsgn with ⟨rfl, hv⟩ | ⟨rfl | rfl, hv⟩
    · simp [hv]
    · rw [if_neg]
      · exact hv
      · intro h; exact (hbody _ (by simpa using h)).1 rfl
    · simp [hv]
  by_cases hp : b = 16 ∧ hexPrefix (afterSign s) = true
  · have h3 : digitsPart b s = (afterSign s).drop 2 := by simp only [digitsPart, if_pos hp]
    rcases hpre with rfl | ⟨-, hpre⟩
    · -- the text stops at the 0 of a 0x prefix
      obtain ⟨x, d2, r2, he, hx, hd2⟩ := hexPrefix_true hp.2
      rw [h2] at he
      simp only [List.nil_append, List.cons_append, List.cons.injEq] at he
      have hds' : ds' = [] := by
        cases ds' with
        | nil => rfl
        | cons y ys =>
          have hy := hdig y (by simp)
          simp only [List.cons_append, List.cons.injEq] at he
          obtain ⟨-, rfl, -⟩ := he
          rcases hx with rfl | rfl <;> simp [digit36_x] at hy <;> omega
      subst hds'
      have hr : r = x :: d2 :: r2 := by simpa using he.2
      have h3' : digitsPart b s = d2 :: r2 := by rw [h3, h2, hr]; simp
      have hd2b : digit36 d2 < b := by omega
      have : digitRun b s = d2 :: r2.takeWhile fun c => digit36 c < b := by
        simp only [digitRun, h3', List.takeWhile_cons, hd2b, decide_true, if_true]
      rw [this] at *
      refine ⟨by simp, ?_, by rw [hr]; simp⟩
      rw [h3'] at *
      subst hr
      simp only [List.length_cons, List.length_nil] at *
      omega
    · have hlp : pre.length = 2 := by rcases hpre with rfl | rfl <;> rfl
      have h3' : digitsPart b s = (d :: ds') ++ r := by
        rw [h3, h2]; rcases hpre with rfl | rfl <;> simp
      have hg := takeWhile_ge (p := fun c => decide (digit36 c < b)) (d :: ds') r hdigb
      rw [← h3'] at hg
      change (d :: ds').length ≤ (digitRun b s).length at hg
      have hlD : (digitsPart b s).length = ds'.length + 1 + r.length := by rw [h3']; simp; omega
      simp only [List.length_cons] at hg
      refine ⟨fun h => by rw [h] at hg; simp at hg, by omega, hval h3'⟩
  · have h3 : digitsPart b s = afterSign s := by simp only [digitsPart, if_neg hp]
    rcases hpre with rfl | ⟨hb, hpre⟩
    · have h3' : digitsPart b s = (d :: ds') ++ r := by rw [h3, h2]; simp
      have hg := takeWhile_ge (p := fun c => decide (digit36 c < b)) (d :: ds') r hdigb
      rw [← h3'] at hg
      change (d :: ds').length ≤ (digitRun b s).length at hg
      have hlD : (digitsPart b s).length = ds'.length + 1 + r.length := by rw [h3']; simp; omega
      simp only [List.length_cons, List.length_nil] at *
      refine ⟨fun h => by rw [h] at hg; simp at hg, by omega, hval h3'⟩
    · exfalso
      apply hp
      refine ⟨hb, ?_⟩
      have hdd := hdig d (by simp)
      subst hb
      rw [h2]
      rcases hpre with rfl | rfl <;> simp [hexPrefix, hdd]

/-- what the scan finds is a number text -/
theorem scan_text {b : Nat} (h36 : b ≤ 36) {s : List Byte} (hne : digitRun b s ≠ []) :
    ∃ t, s = t ++ (digitsPart b s).drop (digitRun b s).length ∧ NumberText b t (signedVal b s) := by
  have hD : digitsPart b s = digitRun b s ++ (digitsPart b s).drop (digitRun b s).length := by
    conv_lhs => rw [← List.takeWhile_append_dropWhile (p := fun c => decide (digit36 c < b)) (l := digitsPart b s)]
    have : (digitsPart b s).drop (digitRun b s).length = (digitsPart b s).dropWhile fun c => decide (digit36 c < b) := by
      conv_lhs => rw [← List.takeWhile_append_dropWhile (p := fun c => decide (digit36 c < b)) (l := digitsPart b s)]
      exact List.drop_left
    rw [this]; rfl
  have hS : s = s.takeWhile isSpace ++ s.dropWhile isSpace := List.takeWhile_append_dropWhile.symm
  have hWs : WhiteSpace (s.takeWhile isSpace) := fun c hc =>
    (isSpace_iff c).1 (List.all_eq_true.1 List.all_takeWhile c hc)
  have hdt : DigitsText b (digitRun b s) (horner b (digitRun b s)) := by
    rw [digitsText_iff h36]
    refine ⟨hne, fun c hc => ?_, rfl⟩
    have := List.all_eq_true.1 (List.all_takeWhile (p := fun c => decide (digit36 c < b)) (l := digitsPart b s)) c hc
    simpa using this
  obtain ⟨sgn, hsg, hv⟩ : ∃ sgn, s.dropWhile isSpace = sgn ++ afterSign s ∧
      ((sgn = [0x2d#8] ∧ signedVal b s = -(horner b (digitRun b s) : Int)) ∨
        ((sgn = [] ∨ sgn = [0x2b#8]) ∧ signedVal b s = horner b (digitRun b s))) := by
    unfold afterSign signedVal
    cases hx : s.dropWhile isSpace with
    | nil => exact ⟨[], by simp, by simp⟩
    | cons c cs =>
      by_cases h1 : c = 0x2d#8
      · exact ⟨[0x2d#8], by simp [h1], by simp [h1]⟩
      · by_cases h2 : c = 0x2b#8
        · exact ⟨[0x2b#8], by simp [h2], by simp [h2]⟩
        · exact ⟨[], by simp [h1, h2], by simp [h1]⟩
  obtain ⟨pre, hpe, hpre⟩ : ∃ pre, afterSign s = pre ++ digitsPart b s ∧
      (pre = [] ∨ (b = 16 ∧ (pre = [0x30#8, 0x78#8] ∨ pre = [0x30#8, 0x58#8]))) := by
    by_cases hp : b = 16 ∧ hexPrefix (afterSign s) = true
    · obtain ⟨x, d2, r2, he, hx, -⟩ := hexPrefix_true hp.2
      refine ⟨[0x30#8, x], ?_, .inr ⟨hp.1, ?_⟩⟩
      · simp only [digitsPart, if_pos hp]; rw [he]; simp
      · rcases hx with rfl | rfl <;> simp
    · exact ⟨[], by simp only [digitsPart, if_neg hp]; simp, .inl rfl⟩
  refine ⟨s.takeWhile isSpace ++ sgn ++ pre ++ digitRun b s, ?_,
    ⟨_, sgn, pre, digitRun b s, _, rfl, hWs, hpre, hdt, hv⟩⟩
  conv_lhs => rw [hS, hsg, hpe, hD]
  simp

/-- a number text is found exactly -/
theorem numberPrefix_iff {b : Nat} (h36 : b ≤ 36) {s rest : List Byte} {v : Int} :
    NumberPrefix b s v rest ↔
      digitRun b s ≠ [] ∧ v = signedVal b s ∧ rest = (digitsPart b s).drop (digitRun b s).length := by
  constructor
  · rintro ⟨t, hs, ht, hmax⟩
    obtain ⟨hne, hge, -⟩ := scan_ge h36 hs ht
    obtain ⟨T, hT, hTt⟩ := scan_text h36 hne
    have h1 := hmax T _ _ hT hTt
    have hl : s.length = T.length + ((digitsPart b s).drop (digitRun b s).length).length := by
      conv_lhs => rw [hT]
      simp only [List.length_append]
    have hTl : t.length = T.length := by omega
    have hh : t ++ rest = T ++ (digitsPart b s).drop (digitRun b s).length := hs.symm.trans hT
    obtain ⟨rfl, hr⟩ := List.append_inj hh hTl
    refine ⟨hne, ?_, hr⟩
    rw [(scan_ge h36 (List.append_nil t).symm ht).2.2 rfl, (scan_ge h36 (List.append_nil t).symm hTt).2.2 rfl]
  · rintro ⟨hne, rfl, rfl⟩
    obtain ⟨T, hT, hTt⟩ := scan_text h36 hne
    refine ⟨T, hT, hTt, ?_⟩
    intro t' rest' v' hs' ht'
    have := (scan_ge h36 hs' ht').2.1
    have hl : s.length = T.length + ((digitsPart b s).drop (digitRun b s).length).length := by
      conv_lhs => rw [hT]
      simp only [List.length_append]
    omega

theorem numberPrefix_nil {b : Nat} {s : List Byte} {v : Int} :
    NumberText b s v ↔ NumberPrefix b s v [] := by
  constructor
  · intro h
    exact ⟨s, by simp, h, fun t' r' v' hs _ => by rw [hs]; simp⟩
  · rintro ⟨t, hs, ht, -⟩
    simp at hs; rw [hs]; exact ht

/-! ## C17 -/

/-- C17: the result for every string and base 2..36, by the number the string
starts with: the value is exact whenever it fits, clamped otherwise. -/
theorem strToInt64_number (s : List Byte) (b : Nat) (h2 : 2 ≤ b) (h36 : b ≤ 36) (mn mx v : Int)
    (rest : List Byte) (h : NumberPrefix b s v rest) :
    strToInt64 s b mn mx =
      if v > I64MAX then (I64MAX, .EOVERFLOW)
      else if v < I64MIN then (I64MIN, .EOVERFLOW)
      else if rest ≠ [] then (v, .E2BIG)
      else if v < mn ∨ v > mx then (v, .ERANGE)
      else (v, .ok) := by
  have h' := (numberPrefix_iff h36).1 h
  obtain ⟨hne, rfl, rfl⟩ := h'
  obtain ⟨T, hT, hTt⟩ := scan_text h36 hne
  have hs0 : s ≠ [] := by
    rintro rfl
    apply hne
    by_cases hb : b = 16 <;> simp [digitRun, digitsPart, afterSign, hexPrefix]
  have hTpos : 0 < T.length := by
    obtain ⟨ws, sgn, pre, ds, n, rfl, -, -, hd, -⟩ := hTt
    have := List.length_pos_iff.2 hd.1
    simp; omega
  have hlen : ((digitsPart b s).drop (digitRun b s).length).length ≠ s.length := by
    have : s.length = T.length + ((digitsPart b s).drop (digitRun b s).length).length := by
      conv_lhs => rw [hT]
      simp only [List.length_append]
    omega
  unfold strToInt64
  rw [if_neg hs0, strtoll_eq s b h2 h36, if_neg hne]
  by_cases c1 : signedVal b s > I64MAX
  · simp only [if_pos c1]
  · by_cases c2 : signedVal b s < I64MIN
    · simp only [if_neg c1, if_pos c2]
    · simp only [if_neg c1, if_neg c2, if_neg hlen]

/-- C17: a string that does not start with a number is an error, result 0 -/
theorem strToInt64_no_number (s : List Byte) (b : Nat) (h2 : 2 ≤ b) (h36 : b ≤ 36) (mn mx : Int)
    (h : ¬ ∃ v rest, NumberPrefix b s v rest) : strToInt64 s b mn mx = (0, .EINVAL) := by
  have hr : digitRun b s = [] := by
    by_contra hne
    exact h ⟨_, _, (numberPrefix_iff h36).2 ⟨hne, rfl, rfl⟩⟩
  unfold strToInt64
  by_cases hs : s = []
  · rw [if_pos hs]
  · rw [if_neg hs, strtoll_eq s b h2 h36, if_pos hr]
    simp [hs]

/-- C17: success exactly for a number text within the limits -/
theorem strToInt64_ok_iff (s : List Byte) (b : Nat) (h2 : 2 ≤ b) (h36 : b ≤ 36) (mn mx v : Int) :
    strToInt64 s b mn mx = (v, .ok) ↔
      NumberText b s v ∧ mn ≤ v ∧ v ≤ mx ∧ I64MIN ≤ v ∧ v ≤ I64MAX := by
  rw [numberPrefix_nil]
  by_cases h : ∃ w rest, NumberPrefix b s w rest
  · obtain ⟨w, rest, hw⟩ := h
    rw [strToInt64_number s b h2 h36 mn mx w rest hw]
    have huniq : ∀ v', NumberPrefix b s v' [] ↔ v' = w ∧ rest = [] := by
      intro v'
      rw [numberPrefix_iff h36] at hw ⊢
      constructor
      · rintro ⟨-, h1, h2⟩
        exact ⟨h1.trans hw.2.1.symm, hw.2.2.trans h2.symm⟩
      · rintro ⟨rfl, rfl⟩
        exact hw
    rw [huniq]
    split
    · constructor
      · intro h; simp at h
      · rintro ⟨⟨rfl, -⟩, h⟩; omega
    split
    · constructor
      · intro h; simp at h
      · rintro ⟨⟨rfl, -⟩, h⟩; omega
    split
    · rename_i hr
      simp [hr]
    split
    · constructor
      · intro h; simp at h
      · rintro ⟨⟨rfl, -⟩, h⟩; omega
    · rename_i hr hm
      constructor
      · intro h
        obtain rfl : w = v := by simpa using h
        exact ⟨⟨rfl, by simpa using hr⟩, by omega⟩
      · rintro ⟨⟨rfl, -⟩, -⟩; rfl
  · rw [strToInt64_no_number s b h2 h36 mn mx h]
    constructor
    · intro h; simp at h
    · intro hh; exact absurd ⟨v, [], hh.1⟩ h

/-- C17: an unsupported base is reported for any non-empty string -/
theorem strToInt64_bad_base (s : List Byte) (base mn mx : Int) (hs : s ≠ [])
    (hb : base < 0 ∨ base = 1 ∨ base > 36) : strToInt64 s base mn mx = (0, .ENOTSUP) := by
  unfold strToInt64 strtoll
  rw [if_neg hs, if_pos hb]

/-- C17 for `int`: by the number the string starts with.  Clamping to `int`
takes precedence over the other errors. -/
theorem strToInt_number (s : List Byte) (b : Nat) (h2 : 2 ≤ b) (h36 : b ≤ 36) (mn mx v : Int)
    (rest : List Byte) (h : NumberPrefix b s v rest) :
    strToInt s b mn mx =
      if v > IMAX then (IMAX, .EOVERFLOW)
      else if v < IMIN then (IMIN, .EOVERFLOW)
      else if rest ≠ [] then (v, .E2BIG)
      else if v < mn ∨ v > mx then (v, .ERANGE)
      else (v, .ok) := by
  have hc : IMAX = 2147483647 ∧ IMIN = -2147483648 ∧ I64MAX = 9223372036854775807 ∧
    I64MIN = -9223372036854775808 := ⟨rfl, rfl, rfl, rfl⟩
  obtain ⟨c1, c2, c3, c4⟩ := hc
  unfold strToInt
  simp only [strToInt64_number s b h2 h36 mn mx v rest h]
  by_cases a1 : v > I64MAX
  · simp only [if_pos a1]
    rw [if_neg (by omega), if_pos (by omega), if_pos (by omega)]
  by_cases a2 : v < I64MIN
  · simp only [if_neg a1, if_pos a2]
    rw [if_pos (by omega), if_neg (by omega), if_pos (by omega)]
  simp only [if_neg a1, if_neg a2]
  have hfst : (if rest ≠ [] then (v, Errno.E2BIG) else if v < mn ∨ v > mx then (v, .ERANGE) else (v, .ok)).1 = v := by
    split
    · rfl
    · split <;> rfl
  rw [hfst]
  by_cases b1 : v < IMIN
  · rw [if_pos b1, if_neg (by omega), if_pos b1]
  by_cases b2 : v > IMAX
  · rw [if_neg b1, if_pos b2, if_pos b2]
  · rw [if_neg b1, if_neg b2, if_neg b2, if_neg b1]

/-- C17 for `int`: no number, no value -/
theorem strToInt_no_number (s : List Byte) (b : Nat) (h2 : 2 ≤ b) (h36 : b ≤ 36) (mn mx : Int)
    (h : ¬ ∃ v rest, NumberPrefix b s v rest) : strToInt s b mn mx = (0, .EINVAL) := by
  unfold strToInt
  rw [strToInt64_no_number s b h2 h36 mn mx h]
  rfl

theorem strtoll_unfold (s : List Byte) (base : Int) (hb : ¬ (base < 0 ∨ base = 1 ∨ base > 36)) :
    strtoll s base =
      (let b := if (base = 0 ∨ base = 16) ∧ hexPrefix (afterSign s) = true then 16
          else if base = 0 then (if (afterSign s).head? = some 0x30#8 then 8 else 10) else base.toNat
       let s3 := if (base = 0 ∨ base = 16) ∧ hexPrefix (afterSign s) = true then (afterSign s).drop 2
          else afterSign s
       let ds := s3.takeWhile fun c => digit36 c < b
       if ds = [] then { val := 0, rest := s, errno := .ok }
       else
         let v : Int := if (s.dropWhile isSpace).head? = some 0x2d#8 then -(horner b ds : Int) else horner b ds
         let rest := s3.drop ds.length
         if v > I64MAX then { val := I64MAX, rest := rest, errno := .ERANGE }
         else if v < I64MIN then { val := I64MIN, rest := rest, errno := .ERANGE }
         else { val := v, rest := rest, errno := .ok }) := by
  unfold strtoll
  rw [if_neg hb]
  rfl

/-- C17, base 0: the text after white space and sign selects base 16 (0x and a
hex digit), 8 (leading 0) or 10; the theorems above then apply. -/
theorem strToInt64_base0 (s : List Byte) (mn mx : Int) :
    strToInt64 s 0 mn mx =
      strToInt64 s (if hexPrefix (afterSign s) = true then 16
        else if (afterSign s).head? = some 0x30#8 then 8 else 10) mn mx := by
  have key : strtoll s 0 = strtoll s (if hexPrefix (afterSign s) = true then 16
        else if (afterSign s).head? = some 0x30#8 then 8 else 10) := by
    by_cases h1 : hexPrefix (afterSign s) = true
    · rw [if_pos h1, strtoll_unfold s 0 (by omega), strtoll_unfold s 16 (by omega)]
      simp only [h1, true_or, or_true, and_true, if_true]
    · rw [if_neg h1]
      by_cases h2 : (afterSign s).head? = some 0x30#8
      · rw [if_pos h2, strtoll_unfold s 0 (by omega), strtoll_unfold s 8 (by omega)]
        simp only [h1, h2, and_false, if_false, if_true, show ¬ ((8 : Int) = 0) by omega,
          show (8 : Int).toNat = 8 from rfl]
        rfl
      · rw [if_neg h2, strtoll_unfold s 0 (by omega), strtoll_unfold s 10 (by omega)]
        simp only [h1, h2, and_false, if_false, if_true, show ¬ ((10 : Int) = 0) by omega,
          show (10 : Int).toNat = 10 from rfl]
        rfl
  unfold strToInt64
  rw [key]

-- " -0x1F" in base 16, "12a" in base 10, 2^63 in base 10, 2^31 as int
example : strToInt64 [0x20, 0x2d, 0x30, 0x78, 0x31, 0x46] 16 (-100) 100 = (-31, .ok) ∧
    strToInt64 [0x31, 0x32, 0x61] 10 0 100 = (12, .E2BIG) ∧
    strToInt64 [0x30, 0x78] 16 0 100 = (0, .E2BIG) ∧
    strToInt [0x32, 0x31, 0x34, 0x37, 0x34, 0x38, 0x33, 0x36, 0x34, 0x38] 10 0 100 = (IMAX, .EOVERFLOW) ∧
    strToInt64 [0x2d] 10 0 100 = (0, .EINVAL) := by decide +kernel

end Verif.Utils
