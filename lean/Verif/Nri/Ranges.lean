import Verif.Common
import Mathlib.Tactic.ByContra
/-!
Model of the lists of NRI ranges of src/gsm/gsm23236.c, and its properties.

`int16_t` values are integers; a range that has passed `osmo_nri_range_validate` has values from 0 to 32767, and the
theorems show that those of a list stay there, so that no sum leaves the type.
-/
namespace Verif.Nri

/-! ### Model -/

/-- include/osmocom/gsm/gsm23236.h:19-26 `struct osmo_nri_range` -/
structure Range where
  first : Int
  last : Int
deriving Repr, DecidableEq

/-- src/gsm/gsm23236.c:34-43 `osmo_nri_v_validate`; the bit lengths are those of include/osmocom/gsm/gsm23236.h:12-13 -/
def vValidate (v : Int) (bitlen : Nat) : Int :=
  if v < 0 then -1
  else if bitlen < 1 then 1
  else if bitlen < 15 ∧ v / 2 ^ bitlen ≠ 0 then 1
  else 0

/-- src/gsm/gsm23236.c:46-49 `nri_v_matches_range` -/
def vMatchesRange (r : Range) (v : Int) : Bool := v ≥ r.first ∧ v ≤ r.last

/-- src/gsm/gsm23236.c:52-56 `nri_range_overlaps_range` -/
def overlaps (a b : Range) : Bool :=
  vMatchesRange b a.first || vMatchesRange b a.last || vMatchesRange a b.first || vMatchesRange a b.last

/-- src/gsm/gsm23236.c:59-65 `nri_range_touches` -/
def touches (a b : Range) : Bool :=
  overlaps a b || (a.first > b.last && a.first == b.last + 1) || (b.first > a.last && b.first == a.last + 1)

/-- src/gsm/gsm23236.c:69-73 `nri_range_extend` -/
def extend (target add : Range) : Range := ⟨min target.first add.first, max target.last add.last⟩

/-- src/gsm/gsm23236.c:80-90 `osmo_nri_v_matches_ranges` -/
def vMatchesRanges (v : Int) (l : List Range) : Bool := l.any (fun r => vMatchesRange r v)

/-- src/gsm/gsm23236.c:220-232 `osmo_nri_range_validate` -/
def rangeValidate (r : Range) (bitlen : Nat) : Int :=
  let rc := vValidate r.first bitlen
  if rc ≠ 0 then rc
  else
    let rc := vValidate r.last bitlen
    if rc ≠ 0 then 2 * rc
    else if r.first > r.last then -3 else 0

/-- src/gsm/gsm23236.c:239-249 `osmo_nri_range_overlaps_ranges` -/
def rangeOverlapsRanges (r : Range) (l : List Range) : Bool := l.any (fun i => overlaps i r)

/-- src/gsm/gsm23236.c:274-287 `nri_ranges_add_entry_sorted` -/
def addEntrySorted : List Range → Range → List Range
  | [], add => [add]
  | r :: l, add => if r.first ≤ add.first then r :: addEntrySorted l add else add :: r :: l

/-- src/gsm/gsm23236.c:308-312: the entries before the last one that touches, that one, and the ones after it -/
def lastTouching (add : Range) : List Range → Option (List Range × Range × List Range)
  | [] => none
  | r :: l =>
    match lastTouching add l with
    | some (pre, t, post) => some (r :: pre, t, post)
    | none => if touches r add then some ([], r, l) else none

/-- src/gsm/gsm23236.c:327-335: entries that touch the target are joined with it; what is left and the target -/
def removeRedundant : List Range → Range → List Range × Range
  | [], target => ([], target)
  | r :: l, target =>
    if touches target r then removeRedundant l (extend target r)
    else
      let x := removeRedundant l target
      (r :: x.1, x.2)

/-- src/gsm/gsm23236.c:296-337 `osmo_nri_ranges_add` -/
def add (l : List Range) (a : Range) : List Range × Int :=
  if rangeValidate a 255 ≠ 0 then (l, -1)
  else
    match lastTouching a l with
    | none => (addEntrySorted l a, 0)
    | some (pre, t, post) =>
      let x := removeRedundant pre (extend t a)
      let y := removeRedundant post x.2
      (x.1 ++ y.2 :: y.1, 0)

/-- src/gsm/gsm23236.c:358-391: what becomes of one entry -/
def delOne (d r : Range) : List Range :=
  if !overlaps r d then [r]
  else
    let head := vMatchesRange r d.first && d.first > r.first
    let tail := vMatchesRange r d.last && d.last < r.last
    if head && tail then [⟨r.first, d.first - 1⟩, ⟨d.last + 1, r.last⟩]
    else if head then [⟨r.first, d.first - 1⟩]
    else if tail then [⟨d.last + 1, r.last⟩]
    else []

/-- src/gsm/gsm23236.c:347-394 `osmo_nri_ranges_del` -/
def del (l : List Range) (d : Range) : List Range × Int :=
  if rangeValidate d 255 ≠ 0 then (l, -1) else (l.flatMap (delOne d), 0)

/-! ### What is wanted -/

/-- A value is among those of a list. -/
def Mem (v : Int) (l : List Range) : Prop := ∃ r ∈ l, r.first ≤ v ∧ v ≤ r.last

/-- A range of NRI values. -/
def Valid (r : Range) : Prop := 0 ≤ r.first ∧ r.first ≤ r.last ∧ r.last ≤ 32767

/-- Sorted, without overlaps, and with a gap between neighbours. -/
def Canon (l : List Range) : Prop := (∀ r ∈ l, Valid r) ∧ l.Pairwise (fun a b => a.last + 1 < b.first)

theorem valid_iff (r : Range) (h1 : r.first ≤ 32767) (h2 : r.last ≤ 32767) : rangeValidate r 255 = 0 ↔ Valid r := by
  unfold rangeValidate vValidate Valid
  simp only [show ¬ (255 : Nat) < 1 by decide, show ¬ (255 : Nat) < 15 by decide, if_false, false_and]
  constructor
  · intro h
    by_cases c1 : r.first < 0
    · simp [c1] at h
    · by_cases c2 : r.last < 0
      · simp [c1, c2] at h
      · by_cases c3 : r.first > r.last
        · simp [c1, c2, c3] at h
        · omega
  · rintro ⟨a, b, c⟩
    simp [show ¬ r.first < 0 by omega, show ¬ r.last < 0 by omega, show ¬ r.last < r.first by omega]

theorem overlaps_iff (a b : Range) (ha : a.first ≤ a.last) (hb : b.first ≤ b.last) :
    overlaps a b = true ↔ a.first ≤ b.last ∧ b.first ≤ a.last := by
  unfold overlaps vMatchesRange
  simp only [Bool.or_eq_true, decide_eq_true_eq]
  omega

theorem touches_iff (a b : Range) (ha : a.first ≤ a.last) (hb : b.first ≤ b.last) :
    touches a b = true ↔ a.first ≤ b.last + 1 ∧ b.first ≤ a.last + 1 := by
  unfold touches
  simp only [Bool.or_eq_true, Bool.and_eq_true, decide_eq_true_eq, beq_iff_eq, overlaps_iff a b ha hb]
  omega

/-- C78: a value is valid exactly if it has no more bits than the length. -/
theorem vValidate_iff (v : Int) (bitlen : Nat) (h1 : 1 ≤ bitlen) (h2 : bitlen ≤ 15) (hv : v ≤ 32767) :
    vValidate v bitlen = 0 ↔ 0 ≤ v ∧ v < 2 ^ bitlen := by
  have hp : (0 : Int) < 2 ^ bitlen := by
    have : 0 < (2 : Nat) ^ bitlen := Nat.pow_pos (by omega)
    exact_mod_cast this
  unfold vValidate
  by_cases c1 : v < 0
  · rw [if_pos c1]; omega
  · rw [if_neg c1, if_neg (by omega)]
    by_cases c2 : bitlen < 15
    · by_cases c3 : v < 2 ^ bitlen
      · rw [if_neg (fun h => h.2 (Int.ediv_eq_zero_of_lt (by omega) c3))]
        omega
      · have : v / 2 ^ bitlen ≠ 0 := by
          have := (Int.le_ediv_iff_mul_le hp (a := 1) (b := v)).mpr (by omega)
          omega
        rw [if_pos ⟨c2, this⟩]
        omega
    · rw [if_neg (by omega)]
      have : bitlen = 15 := by omega
      subst this
      omega

/-- C78: the look-up finds exactly the values of the list. -/
theorem vMatchesRanges_iff (v : Int) (l : List Range) : vMatchesRanges v l = true ↔ Mem v l := by
  unfold vMatchesRanges Mem vMatchesRange
  simp [and_comm]

/-- C78: a range is said to overlap a list exactly if it has a value of the list. -/
theorem rangeOverlapsRanges_iff (r : Range) (l : List Range) (hr : Valid r) (hl : ∀ x ∈ l, Valid x) :
    rangeOverlapsRanges r l = true ↔ ∃ v, Mem v l ∧ r.first ≤ v ∧ v ≤ r.last := by
  unfold rangeOverlapsRanges Mem
  rw [List.any_eq_true]
  constructor
  · rintro ⟨x, hx, h⟩
    have hv := hl x hx
    rw [overlaps_iff x r hv.2.1 hr.2.1] at h
    by_cases c : x.first ≤ r.first
    · exact ⟨r.first, ⟨x, hx, by omega, h.2⟩, by omega, hr.2.1⟩
    · exact ⟨x.first, ⟨x, hx, by omega, hv.2.1⟩, by omega, h.1⟩
  · rintro ⟨v, ⟨x, hx, h1, h2⟩, h3, h4⟩
    have hv := hl x hx
    refine ⟨x, hx, ?_⟩
    rw [overlaps_iff x r hv.2.1 hr.2.1]
    omega

theorem mem_cons (v : Int) (r : Range) (l : List Range) : Mem v (r :: l) ↔ (r.first ≤ v ∧ v ≤ r.last) ∨ Mem v l := by
  simp [Mem]

theorem mem_append (v : Int) (l m : List Range) : Mem v (l ++ m) ↔ Mem v l ∨ Mem v m := by
  unfold Mem
  simp only [List.mem_append, or_and_right, exists_or]

theorem mem_nil (v : Int) : ¬ Mem v [] := by simp [Mem]

/-! ### Adding -/

theorem lastTouching_spec (a : Range) (l : List Range) :
    match lastTouching a l with
    | none => ∀ r ∈ l, touches r a = false
    | some (pre, t, post) => l = pre ++ t :: post ∧ touches t a = true ∧ ∀ r ∈ post, touches r a = false := by
  induction l with
  | nil => simp [lastTouching]
  | cons r l ih =>
    unfold lastTouching
    cases hl : lastTouching a l with
    | some x =>
      obtain ⟨pre, t, post⟩ := x
      rw [hl] at ih
      obtain ⟨h1, h2, h3⟩ := ih
      exact ⟨by rw [h1]; rfl, h2, h3⟩
    | none =>
      rw [hl] at ih
      dsimp only at ih ⊢
      by_cases ht : touches r a = true
      · rw [if_pos ht]
        exact ⟨rfl, ht, ih⟩
      · rw [if_neg ht]
        intro x hx
        rcases List.mem_cons.mp hx with rfl | hx
        · simpa using ht
        · exact ih x hx

/-- Joining the entries before the target. -/
theorem removeRedundant_pre (pre : List Range) : ∀ (t : Range), Canon pre → Valid t →
    (∀ r ∈ pre, r.last < t.last) →
    Canon (removeRedundant pre t).1 ∧ Valid (removeRedundant pre t).2 ∧ (removeRedundant pre t).2.last = t.last ∧
    (∀ r ∈ (removeRedundant pre t).1, r ∈ pre ∧ r.last + 1 < (removeRedundant pre t).2.first) ∧
    (removeRedundant pre t).2.first ≤ t.first ∧
    (∀ m, m ≤ t.first → (∀ r ∈ pre, m ≤ r.first) → m ≤ (removeRedundant pre t).2.first) ∧
    (∀ v, Mem v (removeRedundant pre t).1 ∨ ((removeRedundant pre t).2.first ≤ v ∧ v ≤ (removeRedundant pre t).2.last) ↔
      Mem v pre ∨ (t.first ≤ v ∧ v ≤ t.last)) := by
  induction pre with
  | nil =>
    intro t hc ht _
    exact ⟨hc, ht, rfl, by simp [removeRedundant], Int.le_refl _, fun m h _ => h, fun v => Iff.rfl⟩
  | cons r pre ih =>
    intro t hc ht hlast
    have hr := hc.1 r (by simp)
    have hrl := hlast r (by simp)
    obtain ⟨hp1, hp2⟩ := List.pairwise_cons.mp hc.2
    have hc' : Canon pre := ⟨fun x hx => hc.1 x (by simp [hx]), hp2⟩
    unfold removeRedundant
    by_cases hto : touches t r = true
    · rw [if_pos hto]
      rw [touches_iff t r ht.2.1 hr.2.1] at hto
      have he : (extend t r).last = t.last := by unfold extend; dsimp only; omega
      have he1 : (extend t r).first = min t.first r.first := rfl
      have hv : Valid (extend t r) := by
        unfold Valid at *
        rw [he, he1]
        omega
      obtain ⟨i1, i2, i3, i4, i5, i6, i7⟩ := ih (extend t r) hc' hv (fun x hx => by rw [he]; exact hlast x (by simp [hx]))
      refine ⟨i1, i2, i3.trans he, fun x hx => ⟨by simp [(i4 x hx).1], (i4 x hx).2⟩, by omega, ?_, ?_⟩
      · intro m h1 h2
        exact i6 m (by have := h2 r (by simp); omega) (fun x hx => h2 x (by simp [hx]))
      · intro v
        rw [i7, mem_cons, he, he1]
        have := hr.2.1
        constructor
        · rintro (h | h)
          · exact Or.inl (Or.inr h)
          · by_cases c : r.first ≤ v ∧ v ≤ r.last
            · exact Or.inl (Or.inl c)
            · right; omega
        · rintro ((h | h) | h)
          · right; omega
          · exact Or.inl h
          · right; omega
    · rw [if_neg hto]
      rw [touches_iff t r ht.2.1 hr.2.1] at hto
      obtain ⟨i1, i2, i3, i4, i5, i6, i7⟩ := ih t hc' ht (fun x hx => hlast x (by simp [hx]))
      dsimp only
      have hgap : r.last + 1 < (removeRedundant pre t).2.first := by
        have h2 := hr.2.1
        have h3 := ht.2.1
        have := i6 (r.last + 2) (by omega) (fun x hx => by have := hp1 x hx; omega)
        omega
      refine ⟨⟨?_, ?_⟩, i2, i3, ?_, i5, ?_, ?_⟩
      · intro x hx
        rcases List.mem_cons.mp hx with rfl | hx
        · exact hr
        · exact i1.1 x hx
      · exact List.pairwise_cons.mpr ⟨fun x hx => hp1 x (i4 x hx).1, i1.2⟩
      · intro x hx
        rcases List.mem_cons.mp hx with rfl | hx
        · exact ⟨by simp, hgap⟩
        · exact ⟨by simp [(i4 x hx).1], (i4 x hx).2⟩
      · intro m h1 h2
        exact i6 m h1 (fun x hx => h2 x (by simp [hx]))
      · intro v
        rw [mem_cons, mem_cons, or_assoc, i7, or_assoc]

/-- No entry after the target touches it. -/
theorem removeRedundant_post (post : List Range) (t : Range) (h : ∀ r ∈ post, touches t r = false) :
    removeRedundant post t = (post, t) := by
  induction post with
  | nil => rfl
  | cons r post ih =>
    unfold removeRedundant
    rw [if_neg (by rw [h r (by simp)]; simp), ih (fun x hx => h x (by simp [hx]))]

theorem addEntrySorted_spec (l : List Range) (a : Range) (hc : Canon l) (ha : Valid a)
    (hn : ∀ r ∈ l, touches r a = false) :
    Canon (addEntrySorted l a) ∧ (∀ r ∈ addEntrySorted l a, r = a ∨ r ∈ l) ∧
    ∀ v, Mem v (addEntrySorted l a) ↔ Mem v l ∨ (a.first ≤ v ∧ v ≤ a.last) := by
  induction l with
  | nil =>
    exact ⟨⟨by simp [addEntrySorted, ha], by simp [addEntrySorted]⟩, by simp [addEntrySorted], fun v => by
      simp only [addEntrySorted, mem_cons, mem_nil, or_false, false_or]⟩
  | cons r l ih =>
    have hr := hc.1 r (by simp)
    obtain ⟨hp1, hp2⟩ := List.pairwise_cons.mp hc.2
    have hc' : Canon l := ⟨fun x hx => hc.1 x (by simp [hx]), hp2⟩
    have hnr := hn r (by simp)
    have hnt : ¬ (r.first ≤ a.last + 1 ∧ a.first ≤ r.last + 1) := by
      rw [← touches_iff r a hr.2.1 ha.2.1, hnr]; simp
    obtain ⟨i1, i2, i3⟩ := ih hc' (fun x hx => hn x (by simp [hx]))
    have ha1 := ha.2.1
    have hr1 := hr.2.1
    unfold addEntrySorted
    by_cases h : r.first ≤ a.first
    · rw [if_pos h]
      refine ⟨⟨?_, List.pairwise_cons.mpr ⟨?_, i1.2⟩⟩, ?_, ?_⟩
      · intro x hx
        rcases List.mem_cons.mp hx with rfl | hx
        · exact hr
        · exact i1.1 x hx
      · intro x hx
        rcases i2 x hx with rfl | hx
        · omega
        · exact hp1 x hx
      · intro x hx
        rcases List.mem_cons.mp hx with rfl | hx
        · simp
        · rcases i2 x hx with rfl | hx
          · simp
          · simp [hx]
      · intro v
        rw [mem_cons, mem_cons, i3, or_assoc]
    · rw [if_neg h]
      refine ⟨⟨?_, List.pairwise_cons.mpr ⟨?_, hc.2⟩⟩, ?_, ?_⟩
      · intro x hx
        rcases List.mem_cons.mp hx with rfl | hx
        · exact ha
        · exact hc.1 x hx
      · intro x hx
        rcases List.mem_cons.mp hx with rfl | hx
        · omega
        · have := hp1 x hx
          omega
      · intro x hx
        rcases List.mem_cons.mp hx with rfl | hx
        · simp
        · exact Or.inr hx
      · intro v
        rw [mem_cons v a]
        exact or_comm

/-- C78: adding a range adds its values and no others, and keeps the list sorted, without overlaps and joined up. -/
theorem add_spec (l : List Range) (a : Range) (hc : Canon l) (ha : Valid a) :
    (add l a).2 = 0 ∧ Canon (add l a).1 ∧ ∀ v, Mem v (add l a).1 ↔ Mem v l ∨ (a.first ≤ v ∧ v ≤ a.last) := by
  have hv : rangeValidate a 255 = 0 := (valid_iff a (by have := ha.2; omega) ha.2.2).mpr ha
  unfold add
  rw [if_neg (by simp [hv])]
  have hs := lastTouching_spec a l
  cases hl : lastTouching a l with
  | none =>
    rw [hl] at hs
    obtain ⟨h1, -, h3⟩ := addEntrySorted_spec l a hc ha hs
    exact ⟨rfl, h1, h3⟩
  | some x =>
    obtain ⟨pre, t, post⟩ := x
    rw [hl] at hs
    obtain ⟨rfl, hta, hpost⟩ := hs
    dsimp only
    have ht := hc.1 t (by simp)
    obtain ⟨hp1, hp2, hp3⟩ := List.pairwise_append.mp hc.2
    obtain ⟨hp4, hp5⟩ := List.pairwise_cons.mp hp2
    have hcpre : Canon pre := ⟨fun x hx => hc.1 x (by simp [hx]), hp1⟩
    rw [touches_iff t a ht.2.1 ha.2.1] at hta
    have ht1 := ht.2.1
    have ha1 := ha.2.1
    have e1 : (extend t a).first = min t.first a.first := rfl
    have e2 : (extend t a).last = max t.last a.last := rfl
    have hve : Valid (extend t a) := by
      unfold Valid at *
      rw [e1, e2]
      omega
    obtain ⟨i1, i2, i3, i4, i5, i6, i7⟩ := removeRedundant_pre pre (extend t a) hcpre hve (fun r hr => by
      have := hp3 r hr t (by simp)
      omega)
    -- what follows is further off than the target and the new range
    have hfar : ∀ r ∈ post, (removeRedundant pre (extend t a)).2.last + 1 < r.first := by
      intro r hr
      have h1 := hp4 r hr
      have hvr := hc.1 r (by simp [hr])
      have h2 : ¬ (r.first ≤ a.last + 1 ∧ a.first ≤ r.last + 1) := by
        rw [← touches_iff r a hvr.2.1 ha1, hpost r hr]; simp
      have := hvr.2.1
      omega
    have hnot : ∀ r ∈ post, touches (removeRedundant pre (extend t a)).2 r = false := by
      intro r hr
      have hvr := hc.1 r (by simp [hr])
      have := hfar r hr
      cases hh : touches (removeRedundant pre (extend t a)).2 r with
      | false => rfl
      | true =>
        rw [touches_iff _ r i2.2.1 hvr.2.1] at hh
        omega
    rw [removeRedundant_post post _ hnot]
    dsimp only
    refine ⟨rfl, ⟨?_, ?_⟩, ?_⟩
    · intro x hx
      rcases List.mem_append.mp hx with hx | hx
      · exact i1.1 x hx
      · rcases List.mem_cons.mp hx with rfl | hx
        · exact i2
        · exact hc.1 x (by simp [hx])
    · refine List.pairwise_append.mpr ⟨i1.2, List.pairwise_cons.mpr ⟨hfar, hp5⟩, ?_⟩
      intro x hx y hy
      have h1 := (i4 x hx).2
      rcases List.mem_cons.mp hy with rfl | hy
      · exact h1
      · have := hfar y hy
        have := i2.2.1
        omega
    · intro v
      rw [mem_append, mem_cons, mem_append, mem_cons, ← or_assoc, i7, e1, e2]
      constructor
      · rintro ((h | h) | h)
        · exact Or.inl (Or.inl h)
        · by_cases c : a.first ≤ v ∧ v ≤ a.last
          · exact Or.inr c
          · left; right; left; omega
        · exact Or.inl (Or.inr (Or.inr h))
      · rintro ((h | h | h) | h)
        · exact Or.inl (Or.inl h)
        · left; right; omega
        · exact Or.inr h
        · left; right; omega

/-! ### Deleting -/

theorem delOne_spec (d r : Range) (hd : Valid d) (hr : Valid r) :
    Canon (delOne d r) ∧ (∀ x ∈ delOne d r, r.first ≤ x.first ∧ x.last ≤ r.last) ∧
    ∀ v, Mem v (delOne d r) ↔ (r.first ≤ v ∧ v ≤ r.last) ∧ ¬ (d.first ≤ v ∧ v ≤ d.last) := by
  obtain ⟨d1, d2, d3⟩ := hd
  obtain ⟨r1, r2, r3⟩ := hr
  unfold delOne
  cases ho : overlaps r d with
  | false =>
    have hno : ¬ (r.first ≤ d.last ∧ d.first ≤ r.last) := by
      rw [← overlaps_iff r d r2 d2, ho]; simp
    simp only [Bool.not_false, if_true]
    refine ⟨⟨by simp [Valid, r1, r2, r3], by simp⟩, by simp, fun v => ?_⟩
    simp only [mem_cons, mem_nil, or_false]
    omega
  | true =>
    rw [overlaps_iff r d r2 d2] at ho
    simp only [Bool.not_true, Bool.false_eq_true, if_false, vMatchesRange, Bool.and_eq_true, decide_eq_true_eq]
    split
    · refine ⟨⟨?_, ?_⟩, ?_, fun v => ?_⟩
      · intro x hx
        simp only [List.mem_cons, List.not_mem_nil, or_false] at hx
        rcases hx with rfl | rfl <;> (unfold Valid; dsimp only; omega)
      · simp; omega
      · intro x hx
        simp only [List.mem_cons, List.not_mem_nil, or_false] at hx
        rcases hx with rfl | rfl <;> (dsimp only; omega)
      · simp only [mem_cons, mem_nil, or_false]
        omega
    · split
      · refine ⟨⟨?_, by simp⟩, ?_, fun v => ?_⟩
        · intro x hx
          simp only [List.mem_cons, List.not_mem_nil, or_false] at hx
          subst hx; unfold Valid; dsimp only; omega
        · intro x hx
          simp only [List.mem_cons, List.not_mem_nil, or_false] at hx
          subst hx; dsimp only; omega
        · simp only [mem_cons, mem_nil, or_false]
          omega
      · split
        · refine ⟨⟨?_, by simp⟩, ?_, fun v => ?_⟩
          · intro x hx
            simp only [List.mem_cons, List.not_mem_nil, or_false] at hx
            subst hx; unfold Valid; dsimp only; omega
          · intro x hx
            simp only [List.mem_cons, List.not_mem_nil, or_false] at hx
            subst hx; dsimp only; omega
          · simp only [mem_cons, mem_nil, or_false]
            omega
        · refine ⟨⟨by simp, by simp⟩, by simp, fun v => ?_⟩
          simp only [mem_nil, false_iff]
          omega

/-- C78: deleting a range takes its values away and no others, and keeps the list in order. -/
theorem del_spec (l : List Range) (d : Range) (hc : Canon l) (hd : Valid d) :
    (del l d).2 = 0 ∧ Canon (del l d).1 ∧ ∀ v, Mem v (del l d).1 ↔ Mem v l ∧ ¬ (d.first ≤ v ∧ v ≤ d.last) := by
  have hv : rangeValidate d 255 = 0 := (valid_iff d (by have := hd.2; omega) hd.2.2).mpr hd
  unfold del
  rw [if_neg (by simp [hv])]
  refine ⟨rfl, ?_⟩
  dsimp only
  have key : ∀ l : List Range, Canon l → Canon (l.flatMap (delOne d)) ∧
      (∀ x ∈ l.flatMap (delOne d), ∃ r ∈ l, r.first ≤ x.first ∧ x.last ≤ r.last) ∧
      ∀ v, Mem v (l.flatMap (delOne d)) ↔ Mem v l ∧ ¬ (d.first ≤ v ∧ v ≤ d.last) := by
    intro l
    induction l with
    | nil => intro _; exact ⟨⟨by simp, by simp⟩, by simp, fun v => by simp [mem_nil]⟩
    | cons r l ih =>
      intro hc
      obtain ⟨hp1, hp2⟩ := List.pairwise_cons.mp hc.2
      obtain ⟨i1, i2, i3⟩ := ih ⟨fun x hx => hc.1 x (by simp [hx]), hp2⟩
      obtain ⟨j1, j2, j3⟩ := delOne_spec d r hd (hc.1 r (by simp))
      rw [List.flatMap_cons]
      refine ⟨⟨?_, ?_⟩, ?_, ?_⟩
      · intro x hx
        rcases List.mem_append.mp hx with hx | hx
        · exact j1.1 x hx
        · exact i1.1 x hx
      · refine List.pairwise_append.mpr ⟨j1.2, i1.2, ?_⟩
        intro x hx y hy
        obtain ⟨s, hs, h1, h2⟩ := i2 y hy
        have := hp1 s hs
        have := (j2 x hx).2
        omega
      · intro x hx
        rcases List.mem_append.mp hx with hx | hx
        · exact ⟨r, by simp, j2 x hx⟩
        · obtain ⟨s, hs, h⟩ := i2 x hx
          exact ⟨s, by simp [hs], h⟩
      · intro v
        rw [mem_append, mem_cons, i3, j3]
        exact or_and_right.symm
  obtain ⟨k1, -, k3⟩ := key l hc
  exact ⟨k1, k3⟩

/-! ### Histories -/

inductive Op where
  | add (r : Range) | del (r : Range)

/-- Any calls, also with ranges that are not valid. -/
def run : List Range → List Op → List Range
  | l, [] => l
  | l, .add r :: ops => run (add l r).1 ops
  | l, .del r :: ops => run (del l r).1 ops

/-- The set of values after the calls, each being one on sets. -/
def runSet : (Int → Prop) → List Op → (Int → Prop)
  | s, [] => s
  | s, .add r :: ops => runSet (fun v => s v ∨ (Valid r ∧ r.first ≤ v ∧ v ≤ r.last)) ops
  | s, .del r :: ops => runSet (fun v => s v ∧ ¬ (Valid r ∧ r.first ≤ v ∧ v ≤ r.last)) ops

def Op.range : Op → Range
  | .add r => r
  | .del r => r

/-- C78: after any calls on an empty list it holds exactly the values that adding and removing sets of values gives,
sorted, without overlaps and joined up; calls with a range that is not valid change nothing. -/
theorem run_spec (ops : List Op) (h16 : ∀ o ∈ ops, o.range.first ≤ 32767 ∧ o.range.last ≤ 32767) :
    Canon (run [] ops) ∧ ∀ v, Mem v (run [] ops) ↔ runSet (fun _ => False) ops v := by
  have key : ∀ (ops : List Op), (∀ o ∈ ops, o.range.first ≤ 32767 ∧ o.range.last ≤ 32767) →
      ∀ (l : List Range) (s : Int → Prop), Canon l → (∀ v, Mem v l ↔ s v) →
      Canon (run l ops) ∧ ∀ v, Mem v (run l ops) ↔ runSet s ops v := by
    intro ops
    induction ops with
    | nil => intro _ l s hc hs; exact ⟨hc, hs⟩
    | cons o ops ih =>
      intro h l s hc hs
      have ih := ih (fun o ho => h o (by simp [ho]))
      have ho := h o (by simp)
      cases o with
      | add r =>
        simp only [run, runSet]
        by_cases hv : Valid r
        · obtain ⟨-, h2, h3⟩ := add_spec l r hc hv
          refine ih _ _ h2 (fun v => ?_)
          rw [h3, hs]
          simp [hv]
        · have : (add l r).1 = l := by
            unfold add
            rw [if_pos (fun h => hv ((valid_iff r ho.1 ho.2).mp h))]
          rw [this]
          refine ih _ _ hc (fun v => ?_)
          rw [hs]
          simp [hv]
      | del r =>
        simp only [run, runSet]
        by_cases hv : Valid r
        · obtain ⟨-, h2, h3⟩ := del_spec l r hc hv
          refine ih _ _ h2 (fun v => ?_)
          rw [h3, hs]
          simp [hv]
        · have : (del l r).1 = l := by
            unfold del
            rw [if_pos (fun h => hv ((valid_iff r ho.1 ho.2).mp h))]
          rw [this]
          refine ih _ _ hc (fun v => ?_)
          rw [hs]
          simp [hv]
  exact key ops h16 [] _ ⟨by simp, by simp⟩ (fun v => by simp [mem_nil])

/-- C78: such a list is the only one with its values, so that it does not depend on how they were added. -/
theorem canon_unique (l : List Range) : ∀ m, Canon l → Canon m → (∀ v, Mem v l ↔ Mem v m) → l = m := by
  induction l with
  | nil =>
    intro m _ hm h
    cases m with
    | nil => rfl
    | cons s m =>
      have := (h s.first).mpr ⟨s, by simp, Int.le_refl _, (hm.1 s (by simp)).2.1⟩
      exact absurd this (mem_nil _)
  | cons r l ih =>
    intro m hl hm h
    cases m with
    | nil =>
      have := (h r.first).mp ⟨r, by simp, Int.le_refl _, (hl.1 r (by simp)).2.1⟩
      exact absurd this (mem_nil _)
    | cons s m =>
      have hr := (hl.1 r (by simp)).2.1
      have hs := (hm.1 s (by simp)).2.1
      obtain ⟨hl1, hl2⟩ := List.pairwise_cons.mp hl.2
      obtain ⟨hm1, hm2⟩ := List.pairwise_cons.mp hm.2
      have lowl : ∀ v, Mem v l → r.last + 1 < v := by
        rintro v ⟨x, hx, h1, _⟩
        have := hl1 x hx
        omega
      have lowm : ∀ v, Mem v m → s.last + 1 < v := by
        rintro v ⟨x, hx, h1, _⟩
        have := hm1 x hx
        omega
      have e1 : r.first = s.first := by
        have a := (h r.first).mp ((mem_cons _ _ _).mpr (Or.inl ⟨Int.le_refl _, hr⟩))
        have b := (h s.first).mpr ((mem_cons _ _ _).mpr (Or.inl ⟨Int.le_refl _, hs⟩))
        rw [mem_cons] at a b
        rcases a with a | a
        · rcases b with b | b
          · omega
          · have := lowl _ b; omega
        · have := lowm _ a
          rcases b with b | b
          · omega
          · have := lowl _ b; omega
      have e2 : r.last = s.last := by
        by_cases c : r.last < s.last
        · have a := (h (r.last + 1)).mpr ((mem_cons _ _ _).mpr (Or.inl ⟨by omega, by omega⟩))
          rw [mem_cons] at a
          rcases a with a | a
          · omega
          · have := lowl _ a; omega
        · by_cases c2 : s.last < r.last
          · have a := (h (s.last + 1)).mp ((mem_cons _ _ _).mpr (Or.inl ⟨by omega, by omega⟩))
            rw [mem_cons] at a
            rcases a with a | a
            · omega
            · have := lowm _ a; omega
          · omega
      have e : r = s := by
        cases r; cases s; simp_all
      subst e
      congr 1
      refine ih m ⟨fun x hx => hl.1 x (by simp [hx]), hl2⟩ ⟨fun x hx => hm.1 x (by simp [hx]), hm2⟩ (fun v => ?_)
      constructor
      · intro hv
        have := (h v).mp ((mem_cons _ _ _).mpr (Or.inr hv))
        rw [mem_cons] at this
        rcases this with a | a
        · have := lowl _ hv; omega
        · exact a
      · intro hv
        have := (h v).mpr ((mem_cons _ _ _).mpr (Or.inr hv))
        rw [mem_cons] at this
        rcases this with a | a
        · have := lowm _ hv; omega
        · exact a

example : run [] [.add ⟨5, 6⟩, .add ⟨0, 1⟩, .add ⟨9, 9⟩, .add ⟨2, 4⟩, .del ⟨3, 3⟩, .add ⟨8, 7⟩] =
    [⟨0, 2⟩, ⟨4, 6⟩, ⟨9, 9⟩] := by decide

example : run [] [.add ⟨0, 32767⟩, .del ⟨0, 0⟩, .del ⟨32767, 32767⟩, .del ⟨100, 199⟩] = [⟨1, 99⟩, ⟨200, 32766⟩] := by decide

end Verif.Nri
