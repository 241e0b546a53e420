import Verif.UseCount.Model
import Verif.Utils.FloatProps
import Mathlib.Tactic.Linarith
/-! C21: use counts equal the sum of gets minus puts; C56: their listing. -/
namespace Verif.UseCount
open Verif.Utils

def InRange (v : Int) : Prop := INT32_MIN ≤ v ∧ v ≤ INT32_MAX

instance (v : Int) : Decidable (InRange v) := by unfold InRange; infer_instance

theorem countSafe_spec {v a : Int} (hv : InRange v) (ha : InRange a) (hm : a ≠ INT32_MIN) :
    (InRange (v + a) ∧ countSafe v a = some (v + a, true)) ∨
      (¬ InRange (v + a) ∧ ∃ c, countSafe v a = some (c, false) ∧ InRange c ∧ (c = INT32_MAX ∨ c = INT32_MIN)) := by
  unfold countSafe InRange INT32_MIN INT32_MAX at *
  split
  · omega
  · split
    · right; exact ⟨by omega, _, rfl, by omega, .inr rfl⟩
    · split
      · right; exact ⟨by omega, _, rfl, by omega, .inl rfl⟩
      · left; exact ⟨by omega, rfl⟩

theorem splitFirst_some {p : Entry → Bool} {s a b : List Entry} {e : Entry} (h : splitFirst p s = some (a, e, b)) :
    s = a ++ e :: b ∧ p e = true ∧ ∀ x ∈ a, p x = false := by
  induction s generalizing a with
  | nil => cases h
  | cons x s ih =>
    unfold splitFirst at h
    by_cases hx : p x = true
    · rw [if_pos hx] at h
      simp only [Option.some.injEq, Prod.mk.injEq] at h
      obtain ⟨rfl, rfl, rfl⟩ := h
      exact ⟨rfl, hx, by simp⟩
    · rw [if_neg hx] at h
      cases h' : splitFirst p s with
      | none => rw [h'] at h; cases h
      | some r =>
        rw [h', Option.map_some] at h
        simp only [Option.some.injEq, Prod.mk.injEq] at h
        obtain ⟨rfl, rfl, rfl⟩ := h
        obtain ⟨h1, h2, h3⟩ := ih h'
        refine ⟨by rw [List.cons_append, ← h1], h2, ?_⟩
        intro y hy
        rcases List.mem_cons.1 hy with rfl | hy
        · simpa using hx
        · exact h3 y hy

theorem splitFirst_none {p : Entry → Bool} {s : List Entry} (h : splitFirst p s = none) : ∀ x ∈ s, p x = false := by
  induction s with
  | nil => simp
  | cons x s ih =>
    unfold splitFirst at h
    by_cases hx : p x = true
    · rw [if_pos hx] at h; cases h
    · rw [if_neg hx] at h
      intro y hy
      rcases List.mem_cons.1 hy with rfl | hy
      · simpa using hx
      · exact ih (by simpa using h) y hy

theorem splitFirst_of {p : Entry → Bool} {a b : List Entry} {e : Entry} (he : p e = true) (ha : ∀ x ∈ a, p x = false) :
    splitFirst p (a ++ e :: b) = some (a, e, b) := by
  induction a with
  | nil => simp [splitFirst, he]
  | cons x a ih =>
    have hx := ha x (by simp)
    simp [splitFirst, hx, ih fun y hy => ha y (by simp [hy])]

theorem splitFirst_of_none {p : Entry → Bool} {s : List Entry} (h : ∀ x ∈ s, p x = false) : splitFirst p s = none := by
  cases h' : splitFirst p s with
  | none => rfl
  | some r =>
    obtain ⟨a, e, b⟩ := r
    obtain ⟨h1, h2, -⟩ := splitFirst_some h'
    rw [h e (by rw [h1]; simp)] at h2; cases h2

/-- distinct tokens in distinct entries (NULL may repeat), counts in range -/
structure Inv (s : List Entry) : Prop where
  nodup : (s.filterMap (·.use)).Nodup
  range : ∀ e ∈ s, InRange e.count

theorem countBy_absent {s : List Entry} {t : Tok} (h : t ∉ s.filterMap (·.use)) : countBy s (some t) = 0 := by
  unfold countBy find
  rw [splitFirst_of_none]
  intro x hx
  by_contra hc
  have : x.use = some t := by simpa using hc
  exact h (List.mem_filterMap.2 ⟨x, hx, this⟩)

theorem absent_of_find {s : List Entry} {t : Tok} (h : find s (some t) = none) : t ∉ s.filterMap (·.use) := by
  intro hm
  obtain ⟨x, hx, hu⟩ := List.mem_filterMap.1 hm
  have := splitFirst_none h x hx
  simp [hu] at this

theorem filterMap_mid {a b : List Entry} {e : Entry} :
    (a ++ e :: b).filterMap (·.use) = a.filterMap (·.use) ++ (e.use.toList ++ b.filterMap (·.use)) := by
  rw [List.filterMap_append, List.filterMap_cons]
  cases e.use <;> rfl

theorem Inv.rest {a b : List Entry} {e : Entry} (h : Inv (a ++ e :: b)) : Inv (a ++ b) := by
  refine ⟨?_, fun x hx => h.range x (by simp at hx ⊢; tauto)⟩
  have := h.nodup
  rw [filterMap_mid] at this
  rw [List.filterMap_append]
  exact this.sublist (List.Sublist.append_left (List.sublist_append_right _ _) _)

theorem Inv.tok {a b : List Entry} {e : Entry} {t : Tok} (h : Inv (a ++ e :: b)) (he : e.use = some t) :
    t ∉ (a ++ b).filterMap (·.use) := by
  have := h.nodup
  rw [filterMap_mid, he] at this
  rw [List.filterMap_append]
  simp only [Option.toList_some, List.cons_append, List.nil_append] at this
  have h2 := List.nodup_append.1 this
  simp only [List.mem_append, not_or]
  refine ⟨fun hm => h2.2.2 t hm t (by simp) rfl, (List.nodup_cons.1 h2.2.1).1⟩

theorem Inv.mk' {a b : List Entry} {e : Entry} (h : Inv (a ++ b)) (he : InRange e.count)
    (ht : ∀ t, e.use = some t → t ∉ (a ++ b).filterMap (·.use)) : Inv (a ++ e :: b) := by
  refine ⟨?_, ?_⟩
  · rw [filterMap_mid]
    have h1 := h.nodup
    rw [List.filterMap_append] at h1
    cases hu : e.use with
    | none => simpa using h1
    | some t =>
      have h2 := ht t hu
      rw [List.filterMap_append] at h2
      simp only [List.mem_append, not_or] at h2
      have h3 := List.nodup_append.1 h1
      simp only [Option.toList_some, List.cons_append, List.nil_append]
      rw [List.nodup_append]
      refine ⟨h3.1, List.nodup_cons.2 ⟨h2.2, h3.2.1⟩, ?_⟩
      intro x hx y hy
      rcases List.mem_cons.1 hy with rfl | hy
      · rintro rfl; exact h2.1 hx
      · exact h3.2.2 x hx y hy
  · intro x hx
    simp only [List.mem_append, List.mem_cons] at hx
    rcases hx with hx | rfl | hx
    · exact h.range x (by simp [hx])
    · exact he
    · exact h.range x (by simp [hx])

theorem countBy_mid {a b : List Entry} {e : Entry} (h : Inv (a ++ e :: b)) (t : Tok) :
    countBy (a ++ e :: b) (some t) = if e.use = some t then e.count else countBy (a ++ b) (some t) := by
  by_cases he : e.use = some t
  · rw [if_pos he]
    have hn := h.tok he
    unfold countBy find
    rw [splitFirst_of (by simp [he])]
    intro x hx
    by_contra hc
    have : x.use = some t := by simpa using hc
    exact hn (List.mem_filterMap.2 ⟨x, by simp [hx], this⟩)
  · rw [if_neg he]
    clear h
    unfold countBy find
    induction a with
    | nil =>
      simp only [List.nil_append, splitFirst, beq_iff_eq, he, if_false]
      cases splitFirst (fun e => e.use == some t) b <;> rfl
    | cons x a ih =>
      by_cases hx : x.use = some t
      · simp [splitFirst, hx]
      · simp only [List.cons_append, splitFirst, beq_iff_eq, hx, if_false]
        cases h1 : splitFirst (fun e => e.use == some t) (a ++ e :: b) <;>
          cases h2 : splitFirst (fun e => e.use == some t) (a ++ b) <;> rw [h1, h2] at ih <;> simpa using ih

/-- sum of all counts -/
def sumCounts (s : List Entry) : Int := (s.map (·.count)).sum

theorem sum_mid {a b : List Entry} {e : Entry} : sumCounts (a ++ e :: b) = e.count + sumCounts (a ++ b) := by
  simp [sumCounts]; omega

/-- what `obtain` gives: an entry with the token, and the others -/
theorem obtain_spec {s : List Entry} {use : Option Tok} {alloc : Bool} (h : Inv s) :
    (obtain s use alloc = none ∧ alloc = false) ∨
      ∃ a e b, obtain s use alloc = some (a, e, b) ∧ e.use = use ∧ Inv (a ++ e :: b) ∧
        (∀ t, countBy (a ++ e :: b) (some t) = countBy s (some t)) ∧ sumCounts (a ++ e :: b) = sumCounts s := by
  unfold obtain
  cases h1 : find s use with
  | some r =>
    obtain ⟨a, e, b⟩ := r
    obtain ⟨h2, h3, -⟩ := splitFirst_some h1
    refine .inr ⟨a, e, b, rfl, by simpa using h3, h2 ▸ h, fun t => by rw [h2], by rw [h2]⟩
  | none =>
    have hno : ∀ t, use = some t → t ∉ s.filterMap (·.use) := by
      rintro t rfl; exact absent_of_find h1
    simp only [repurpose]
    cases h2 : splitFirst (fun e => e.count == 0) s with
    | some r =>
      obtain ⟨a, e, b⟩ := r
      obtain ⟨h3, h4, -⟩ := splitFirst_some h2
      have h4' : e.count = 0 := by simpa using h4
      have hs : Inv (a ++ e :: b) := h3 ▸ h
      have hn : Inv (a ++ ({ e with use := use } : Entry) :: b) := by
        refine hs.rest.mk' (hs.range e (by simp)) ?_
        intro t ht hm
        apply hno t ht
        rw [h3, filterMap_mid]
        rw [List.filterMap_append] at hm
        simp only [List.mem_append] at hm ⊢
        tauto
      refine .inr ⟨a, { e with use := use }, b, rfl, rfl, hn, ?_, ?_⟩
      · intro t
        rw [countBy_mid hn t, h3, countBy_mid hs t]
        simp only [h4']
        split
        · rename_i hu
          split
          · rfl
          · have := hno t hu
            rw [h3, filterMap_mid] at this
            rw [countBy_absent]
            rw [List.filterMap_append]
            simp only [List.mem_append] at this ⊢
            tauto
        · split
          · rename_i hu
            exact countBy_absent (hs.tok hu)
          · rfl
      · rw [sum_mid, h3, sum_mid]
    | none =>
      simp only [Option.map_none, create]
      cases alloc with
      | false => exact .inl ⟨rfl, rfl⟩
      | true =>
        have hn : Inv (s ++ [({ use := use, count := 0 } : Entry)]) := by
          refine Inv.mk' (by simpa using h) (show InRange 0 by decide) ?_
          intro t ht
          simpa using hno t ht
        refine .inr ⟨s, { use := use, count := 0 }, [], rfl, rfl, hn, ?_, by simp [sumCounts]⟩
        intro t
        rw [countBy_mid hn t]
        simp only [List.append_nil]
        split
        · rename_i hu; rw [countBy_absent (hno t hu)]
        · rfl

/-- C21: one change.  It either is added to the count of the token, or it is
refused because the count would leave the range of an int32 (or no memory was
available for a new entry) and then changes nothing; counts of other tokens
never change; the sum of all counts changes by the amount accepted. -/
theorem getPut_step {s : List Entry} {t : Tok} {c : Int} {alloc : Bool} {cb : Int} (h : Inv s) (hc : InRange c)
    (hm : c ≠ INT32_MIN) :
    ∃ s' rc, getPut s (some t) c alloc cb = some (s', rc) ∧ Inv s' ∧
      (∀ u, u ≠ t → countBy s' (some u) = countBy s (some u)) ∧
      ((countBy s' (some t) = countBy s (some t) + c ∧ InRange (countBy s (some t) + c) ∧
          sumCounts s' = sumCounts s + c ∧ (c ≠ 0 → rc = cb) ∧ (c = 0 → rc = 0)) ∨
        (countBy s' (some t) = countBy s (some t) ∧ sumCounts s' = sumCounts s ∧
          ((rc = -ERANGE ∧ ¬ InRange (countBy s (some t) + c)) ∨ (rc = -ENOMEM ∧ alloc = false)))) := by
  unfold getPut
  by_cases h0 : c = 0
  · rw [if_pos h0]
    subst h0
    refine ⟨s, 0, rfl, h, fun _ _ => rfl, .inl ⟨by simp, ?_, by simp, by simp, by simp⟩⟩
    rw [Int.add_zero]
    unfold countBy
    cases h1 : find s (some t) with
    | none => decide
    | some r =>
      obtain ⟨a, e, b⟩ := r
      exact h.range e (by rw [(splitFirst_some h1).1]; simp)
  · rw [if_neg h0]
    rcases obtain_spec (use := some t) (alloc := alloc) h with ⟨h1, h2⟩ | ⟨a, e, b, h1, h2, h3, h4, h5⟩
    · rw [h1]
      exact ⟨s, _, rfl, h, fun _ _ => rfl, .inr ⟨rfl, rfl, .inr ⟨rfl, h2⟩⟩⟩
    · rw [h1]
      simp only
      obtain ⟨p, q, hpq, hab⟩ : ∃ p q, (if e.count = 0 then (a ++ b, ([] : List Entry)) else (a, b)) = (p, q) ∧ p ++ q = a ++ b := by
        split
        · exact ⟨_, _, rfl, by simp⟩
        · exact ⟨_, _, rfl, rfl⟩
      rw [hpq]
      simp only
      have he : countBy s (some t) = e.count := by rw [← h4, countBy_mid h3, if_pos h2]
      have hr : InRange e.count := h3.range e (by simp)
      have hne : ∀ u, u ≠ t → e.use ≠ some u := by
        intro u hu; rw [h2]; simpa using Ne.symm hu
      have key : ∀ x, InRange x → Inv (p ++ ({ e with count := x } : Entry) :: q) := by
        intro x hx
        refine Inv.mk' (hab ▸ h3.rest) hx ?_
        intro u hu
        rw [hab]; exact h3.tok hu
      have keep : ∀ x, InRange x → ∀ u, u ≠ t →
          countBy (p ++ ({ e with count := x } : Entry) :: q) (some u) = countBy s (some u) := by
        intro x hx u hu
        rw [countBy_mid (key x hx), if_neg (hne u hu), hab, ← h4, countBy_mid h3, if_neg (hne u hu)]
      rcases countSafe_spec hr hc hm with ⟨h6, h7⟩ | ⟨h6, x, h7, -, -⟩
      · rw [h7, Option.map_some]
        refine ⟨_, _, rfl, key _ h6, keep _ h6, .inl ⟨?_, by rw [he]; exact h6, ?_, fun _ => rfl, fun hz => absurd hz h0⟩⟩
        · rw [countBy_mid (key _ h6), if_pos h2, he]
        · rw [sum_mid, hab, ← h5, sum_mid]; simp only; omega
      · rw [h7, Option.map_some]
        have ke := key _ hr
        refine ⟨_, _, rfl, ke, keep _ hr, .inr ⟨?_, ?_, .inl ⟨rfl, by rw [he]; exact h6⟩⟩⟩
        · rw [countBy_mid ke, if_pos h2, he]
        · rw [sum_mid, hab, ← h5, sum_mid]

/-! ## Histories -/

inductive UOp where
  /-- get or put, with the return value of the callback -/
  | change (t : Tok) (c : Int) (cb : Int)
  | makeStatic (n : Nat)
  | free (t : Tok)

def runU (s : List Entry) : List UOp → Option (List Entry)
  | [] => some s
  | .change t c cb :: ops => (getPut s (some t) c true cb).bind fun (r : List Entry × Int) => runU r.1 ops
  | .makeStatic n :: ops => runU (makeStatic s n) ops
  | .free t :: ops => runU (useFree s (some t)) ops

/-- the books an outsider keeps: per token, and in total; a change that would
leave the range of an int32 is refused -/
def ledger : (Tok → Int) × Int → UOp → (Tok → Int) × Int
  | (f, n), .change t c _ =>
    if InRange (f t + c) then (fun u => if u = t then f t + c else f u, n + c) else (f, n)
  | (f, n), .makeStatic _ => (f, n)
  | (f, n), .free t => (fun u => if u = t then 0 else f u, n - f t)

theorem makeStatic_spec {s : List Entry} (h : Inv s) (n : Nat) :
    Inv (makeStatic s n) ∧ (∀ t, countBy (makeStatic s n) (some t) = countBy s (some t)) ∧
      sumCounts (makeStatic s n) = sumCounts s := by
  induction n with
  | zero => simpa [makeStatic] using h
  | succ n ih =>
    have e : makeStatic s (n + 1) = makeStatic s n ++ [{ use := none, count := 0 }] := by
      simp [makeStatic, List.replicate_succ', List.append_assoc]
    have hn : Inv (makeStatic s n ++ [({ use := none, count := 0 } : Entry)]) :=
      Inv.mk' (by simpa using ih.1) (by decide) (by simp)
    rw [e]
    refine ⟨hn, ?_, ?_⟩
    · intro t
      rw [countBy_mid hn]
      simpa using ih.2.1 t
    · rw [sum_mid]
      simpa using ih.2.2

theorem useFree_spec {s : List Entry} (h : Inv s) (t : Tok) :
    Inv (useFree s (some t)) ∧
      (∀ u, countBy (useFree s (some t)) (some u) = if u = t then 0 else countBy s (some u)) ∧
      sumCounts (useFree s (some t)) = sumCounts s - countBy s (some t) := by
  unfold useFree
  cases h1 : find s (some t) with
  | none =>
    have h2 : countBy s (some t) = 0 := countBy_absent (absent_of_find h1)
    refine ⟨h, ?_, by simp only; omega⟩
    intro u
    by_cases hu : u = t
    · rw [if_pos hu, hu, h2]
    · rw [if_neg hu]
  | some r =>
    obtain ⟨a, e, b⟩ := r
    obtain ⟨h2, h3, -⟩ := splitFirst_some h1
    have h3' : e.use = some t := by simpa using h3
    have h4 : Inv (a ++ e :: b) := h2 ▸ h
    simp only
    refine ⟨h4.rest, ?_, ?_⟩
    · intro u
      by_cases hu : u = t
      · rw [if_pos hu, hu]; exact countBy_absent (h4.tok h3')
      · rw [if_neg hu, h2, countBy_mid h4, if_neg]
        rw [h3']; simpa using Ne.symm hu
    · rw [h2, sum_mid, countBy_mid h4, if_pos h3']; omega

theorem run_ledger {s : List Entry} {f : Tok → Int} {n : Int} (h : Inv s) (hf : ∀ t, countBy s (some t) = f t)
    (hn : sumCounts s = n) (ops : List UOp)
    (hops : ∀ t c cb, UOp.change t c cb ∈ ops → InRange c ∧ c ≠ INT32_MIN) :
    ∃ s', runU s ops = some s' ∧ Inv s' ∧ (∀ t, countBy s' (some t) = (ops.foldl ledger (f, n)).1 t) ∧
      sumCounts s' = (ops.foldl ledger (f, n)).2 := by
  induction ops generalizing s f n with
  | nil => exact ⟨s, rfl, h, hf, hn⟩
  | cons o ops ih =>
    have hops' : ∀ t c cb, UOp.change t c cb ∈ ops → InRange c ∧ c ≠ INT32_MIN :=
      fun t c cb hm => hops t c cb (by simp [hm])
    cases o with
    | change t c cb =>
      obtain ⟨hc, hm⟩ := hops t c cb (by simp)
      obtain ⟨s1, rc, h1, h2, h3, h4⟩ := getPut_step (t := t) (alloc := true) (cb := cb) h hc hm
      have hrun : runU s (.change t c cb :: ops) = runU s1 ops := by
        conv_lhs => unfold runU
        rw [h1, Option.bind_some]
      rw [hrun, List.foldl_cons]
      rcases h4 with ⟨h5, h6, h7, -⟩ | ⟨h5, h6, h7⟩
      · rw [hf] at h6
        have hl : ledger (f, n) (.change t c cb) = (fun u => if u = t then f t + c else f u, n + c) := by
          simp only [ledger, if_pos h6]
        rw [hl]
        refine ih h2 ?_ (by rw [h7, hn]) hops'
        intro u
        by_cases hu : u = t
        · subst hu; simp [h5, hf]
        · simp [hu, h3 u hu, hf]
      · have h6' : ¬ InRange (f t + c) := by
          rcases h7 with ⟨-, h8⟩ | ⟨-, h8⟩
          · rwa [hf] at h8
          · cases h8
        have hl : ledger (f, n) (.change t c cb) = (f, n) := by
          simp only [ledger, if_neg h6']
        rw [hl]
        refine ih h2 ?_ (by rw [h6, hn]) hops'
        intro u
        by_cases hu : u = t
        · subst hu; rw [h5, hf]
        · rw [h3 u hu, hf]
    | makeStatic k =>
      obtain ⟨h1, h2, h3⟩ := makeStatic_spec h k
      exact ih (s := makeStatic s k) h1 (fun t => by rw [h2, hf]) (by rw [h3, hn]) hops'
    | free t =>
      obtain ⟨h1, h2, h3⟩ := useFree_spec h t
      refine ih (s := useFree s (some t)) h1 ?_ ?_ hops'
      · intro u; rw [h2, hf]
      · rw [h3, hn, hf]

/-- C21: after any history the count of every token is the one in the books,
and the sum over all entries is the total of the books. -/
theorem use_count_ledger (ops : List UOp)
    (hops : ∀ t c cb, UOp.change t c cb ∈ ops → InRange c ∧ c ≠ INT32_MIN) :
    ∃ s, runU [] ops = some s ∧ (∀ t, countBy s (some t) = (ops.foldl ledger (fun _ => 0, 0)).1 t) ∧
      sumCounts s = (ops.foldl ledger (fun _ => 0, 0)).2 := by
  obtain ⟨s, h1, -, h2, h3⟩ := run_ledger (s := []) (f := fun _ => 0) (n := 0) ⟨by simp, by simp⟩
    (fun t => by simp [countBy, find, splitFirst]) (by simp [sumCounts]) ops hops
  exact ⟨s, h1, h2, h3⟩

/-- C21: gets minus puts.  If the running sum of the changes of a token never
leaves the int32 range, its count is the plain sum of its changes. -/
theorem use_count_sum (ops : List (Tok × Int)) (t : Tok)
    (hops : ∀ u c, (u, c) ∈ ops → InRange c ∧ c ≠ INT32_MIN)
    (hpre : ∀ l1 l2, ops = l1 ++ l2 → InRange ((l1.filter fun o => o.1 = t).map (·.2)).sum) :
    ∃ s, runU [] (ops.map fun o => .change o.1 o.2 0) = some s ∧
      countBy s (some t) = ((ops.filter fun o => o.1 = t).map (·.2)).sum := by
  obtain ⟨s, h1, h2, -⟩ := use_count_ledger (ops.map fun o => .change o.1 o.2 0) (by
    intro u c cb hm
    obtain ⟨⟨a, b⟩, hab, he⟩ := List.mem_map.1 hm
    simp only [UOp.change.injEq] at he
    obtain ⟨rfl, rfl, -⟩ := he
    exact hops _ _ hab)
  refine ⟨s, h1, ?_⟩
  rw [h2]
  have key : ∀ (l pre : List (Tok × Int)) (p : (Tok → Int) × Int), ops = pre ++ l →
      p.1 t = ((pre.filter fun o => o.1 = t).map (·.2)).sum →
      ((l.map fun o => UOp.change o.1 o.2 0).foldl ledger p).1 t = ((ops.filter fun o => o.1 = t).map (·.2)).sum := by
    intro l
    induction l with
    | nil =>
      intro pre p he hp
      simp only [List.append_nil] at he
      rw [he]; exact hp
    | cons o l ih =>
      intro pre p he hp
      obtain ⟨u, c⟩ := o
      obtain ⟨f, n⟩ := p
      simp only at hp
      rw [List.map_cons, List.foldl_cons]
      have he' : ops = (pre ++ [(u, c)]) ++ l := by rw [he]; simp
      refine ih (pre ++ [(u, c)]) _ he' ?_
      by_cases hu : u = t
      · subst hu
        have hr := hpre _ _ he'
        have hs : (((pre ++ [(u, c)]).filter fun o => o.1 = u).map (·.2)).sum = f u + c := by
          rw [hp]; simp
        rw [hs] at hr ⊢
        simp only [ledger, if_pos hr, if_true]
      · have hs : (((pre ++ [(u, c)]).filter fun o => o.1 = t).map (·.2)).sum = f t := by
          rw [hp]; simp [hu]
        rw [hs]
        simp only [ledger]
        split
        · simp [Ne.symm hu]
        · rfl
  exact key ops [] _ (by simp) (by simp)

/-! ## Total -/

theorem sum_nonneg' {l : List Int} (h : ∀ x ∈ l, 0 ≤ x) : 0 ≤ l.sum := by
  induction l with
  | nil => simp
  | cons a l ih =>
    have := ih fun x hx => h x (by simp [hx])
    have := h a (by simp)
    rw [List.sum_cons]; omega

theorem totalLoop_small (s : List Entry) (total : Int)
    (h : |total| + (s.map fun e => |e.count|).sum ≤ INT32_MAX) :
    totalLoop total s = some (total + sumCounts s) := by
  induction s generalizing total with
  | nil => simp [totalLoop, sumCounts]
  | cons e s ih =>
    simp only [List.map_cons, List.sum_cons] at h
    have hpos : 0 ≤ (s.map fun e => |e.count|).sum := sum_nonneg' (by
      intro x hx
      obtain ⟨y, -, rfl⟩ := List.mem_map.1 hx
      exact abs_nonneg _)
    have h1 := abs_nonneg total
    have h2 := abs_nonneg e.count
    have h3 := neg_abs_le total
    have h4 := le_abs_self total
    have h5 := neg_abs_le e.count
    have h6 := le_abs_self e.count
    have htri := abs_add_le total e.count
    unfold totalLoop
    have : countSafe total e.count = some (total + e.count, true) := by
      rcases countSafe_spec (v := total) (a := e.count)
        (by unfold InRange INT32_MIN INT32_MAX at *; omega)
        (by unfold InRange INT32_MIN INT32_MAX at *; omega)
        (by unfold INT32_MIN INT32_MAX at *; omega) with ⟨-, h⟩ | ⟨h, -⟩
      · exact h
      · exact absurd (by unfold InRange INT32_MIN INT32_MAX at *; omega) h
    rw [this, Option.bind_some, ih _ (by simp only; omega)]
    simp only [sumCounts, List.map_cons, List.sum_cons]
    congr 1; omega

theorem totalLoop_nonneg (s : List Entry) (total : Int) (h0 : 0 ≤ total) (hm : total ≤ INT32_MAX)
    (h : ∀ e ∈ s, 0 ≤ e.count ∧ e.count ≤ INT32_MAX) :
    totalLoop total s = some (min INT32_MAX (total + sumCounts s)) := by
  induction s generalizing total with
  | nil => simp [totalLoop, sumCounts]; omega
  | cons e s ih =>
    have he := h e (by simp)
    have hs : ∀ e ∈ s, 0 ≤ e.count ∧ e.count ≤ INT32_MAX := fun e he => h e (by simp [he])
    have hpos : 0 ≤ sumCounts s := sum_nonneg' (by
      intro x hx
      obtain ⟨y, hy, rfl⟩ := List.mem_map.1 hx
      exact (hs y hy).1)
    unfold totalLoop
    have hsum : sumCounts (e :: s) = e.count + sumCounts s := by simp [sumCounts]
    have hc : countSafe total e.count = some (min INT32_MAX (total + e.count), decide (total + e.count ≤ INT32_MAX)) := by
      unfold countSafe INT32_MIN INT32_MAX at *
      rw [if_neg (by omega), if_neg (by omega)]
      split
      · have h1 : min 2147483647 (total + e.count) = 2147483647 := by omega
        rw [h1, decide_eq_false (by omega)]
      · have h1 : min 2147483647 (total + e.count) = total + e.count := by omega
        rw [h1, decide_eq_true (by omega)]
    rw [hc, Option.bind_some, ih _ (by unfold INT32_MAX at *; simp only; omega) (by simp only; omega) hs, hsum]
    simp only
    congr 1; omega

/-- C21: the total is the sum of the counts, clamped at INT32_MAX, when no count
is negative. -/
theorem total_nonneg (s : List Entry) (h : ∀ e ∈ s, 0 ≤ e.count ∧ e.count ≤ INT32_MAX) :
    useCountTotal s = some (min INT32_MAX (sumCounts s)) := by
  have := totalLoop_nonneg s 0 (le_refl _) (by decide) h
  simpa [useCountTotal] using this

/-- C21 (partial: sum of magnitudes in range): the total is the sum of all
accepted changes of the history. -/
theorem total_ledger_partial (ops : List UOp)
    (hops : ∀ t c cb, UOp.change t c cb ∈ ops → InRange c ∧ c ≠ INT32_MIN) :
    ∃ s, runU [] ops = some s ∧ ((s.map fun e => |e.count|).sum ≤ INT32_MAX →
      useCountTotal s = some (ops.foldl ledger (fun _ => 0, 0)).2) := by
  obtain ⟨s, h1, -, h3⟩ := use_count_ledger ops hops
  refine ⟨s, h1, fun hs => ?_⟩
  unfold useCountTotal
  rw [totalLoop_small s 0 (by simpa using hs), h3, Int.zero_add]

/-- C21: with counts of both signs the clamping of an intermediate sum is
visible: the counts sum up to INT32_MAX but the total is one less. -/
theorem total_counterexample :
    let s := [⟨some [1#8], INT32_MAX⟩, ⟨some [2#8], 1⟩, ⟨some [3#8], -1⟩]
    Inv s ∧ sumCounts s = INT32_MAX ∧ useCountTotal s = some (INT32_MAX - 1) := by
  refine ⟨⟨by decide, by decide⟩, by decide, by decide⟩

/-- C21: the NULL token is not counted correctly when there are two static
entries: after get(NULL) the count of NULL reads 0, and a put goes to another
entry. -/
theorem null_token_counterexample :
    (getPut (makeStatic [] 2) none 1 true 0).map (fun r => (r.2, countBy r.1 none, sumCounts r.1)) =
      some (0, 0, 1) := by decide

/-- C21: changing by INT32_MIN is undefined when the count is negative -/
theorem int_min_counterexample : getPut [⟨some [1#8], -1⟩] (some [1#8]) INT32_MIN true 0 = none := by decide

/-- C21: an error of the callback does not undo the change (as documented) -/
theorem callback_error_keeps {s : List Entry} {t : Tok} {c cb : Int} (h : Inv s) (hc : InRange c)
    (hm : c ≠ INT32_MIN) (h0 : c ≠ 0) (hr : InRange (countBy s (some t) + c)) :
    ∃ s', getPut s (some t) c true cb = some (s', cb) ∧ countBy s' (some t) = countBy s (some t) + c := by
  obtain ⟨s', rc, h1, -, -, h4⟩ := getPut_step (t := t) (alloc := true) (cb := cb) h hc hm
  rcases h4 with ⟨h5, -, -, h6, -⟩ | ⟨-, -, ⟨-, h5⟩ | ⟨-, h5⟩⟩
  · exact ⟨s', by rw [h1, h6 h0], h5⟩
  · exact absurd hr h5
  · cases h5

example : (runU [] [.makeStatic 1, .change [1#8] 3 0, .change [2#8] 1 0, .change [1#8] (-2) 5, .change [2#8] (-1) 0,
    .change [3#8] 2147483647 0, .change [3#8] 1 0]) =
    some [⟨some [1#8], 1⟩, ⟨some [3#8], 2147483647⟩] := by decide

/-! ## C56: listing -/

/-- text of one entry in the listing -/
def itemText (e : Entry) : List Byte :=
  (if e.count = 1 then [] else decInt e.count ++ [0x2a#8]) ++ e.use.getD [0x4e#8, 0x55#8, 0x4c#8, 0x4c#8]

/-- the listing: total, and the entries in use separated by commas, or a dash -/
def listText (total : Int) (s : List Entry) : List Byte :=
  let items := (s.filter fun e => e.count ≠ 0).map itemText
  decInt total ++ [0x20#8, 0x28#8] ++
    (if items = [] then [0x2d#8] else [0x2c#8].intercalate items) ++ [0x29#8]

theorem strEntries_false (s : List Entry) :
    (strEntries false s).1.flatten = ((s.filter fun e => e.count ≠ 0).map fun e => 0x2c#8 :: itemText e).flatten ∧
      (strEntries false s).2 = false := by
  induction s with
  | nil => simp [strEntries]
  | cons e s ih =>
    unfold strEntries
    by_cases h : e.count = 0
    · rw [if_pos h]
      simpa [h] using ih
    · rw [if_neg h]
      by_cases h1 : e.count = 1
      · have hq : ({ use := e.use, count := e.count } : Entry).count ≠ 0 := h
        simp [h, h1, itemText, ih.1, ih.2]
      · simp [h, h1, itemText, ih.1, ih.2]

theorem intercalate_cons {x : List Byte} {xs : List (List Byte)} {c : Byte} :
    [c].intercalate (x :: xs) = x ++ (xs.map fun y => c :: y).flatten := by
  induction xs generalizing x with
  | nil => simp [List.intercalate]
  | cons y ys ih =>
    have : [c].intercalate (x :: y :: ys) = x ++ c :: [c].intercalate (y :: ys) := by
      simp [List.intercalate, List.intersperse]
    rw [this, ih]
    simp

theorem strEntries_true (s : List Entry) :
    (strEntries true s).1.flatten ++ (if (strEntries true s).2 then [0x2d#8] else []) =
      (if (s.filter fun e => e.count ≠ 0).map itemText = [] then [0x2d#8]
        else [0x2c#8].intercalate ((s.filter fun e => e.count ≠ 0).map itemText)) := by
  induction s with
  | nil => simp [strEntries]
  | cons e s ih =>
    unfold strEntries
    by_cases h : e.count = 0
    · rw [if_pos h, ih]
      simp [h]
    · rw [if_neg h]
      obtain ⟨h1, h2⟩ := strEntries_false s
      have hf : (e :: s).filter (fun e => decide (e.count ≠ 0)) = e :: s.filter (fun e => decide (e.count ≠ 0)) := by
        simp [h]
      have hne : ¬ (itemText e :: (s.filter fun e => decide (e.count ≠ 0)).map itemText = []) := by simp
      rw [hf, List.map_cons, if_neg hne, intercalate_cons]
      simp only [h2, List.flatten_append, h1, List.map_map, Function.comp_def]
      by_cases h3 : e.count = 1
      · simp [h3, itemText]
      · simp [h3, itemText]

/-- C56: `osmo_use_count_to_str_buf` writes the listing like snprintf would:
the return value is its full length and the buffer holds as much of it as fits,
always terminated. -/
theorem toStrBuf_spec (s : List Entry) (win : List Byte) {total : Int} (h : useCountTotal s = some total) :
    ∃ buf, toStrBuf s win = some (buf, ((listText total s).length : Int)) ∧ buf.length = win.length ∧
      (win ≠ [] → HoldsPrefix buf (listText total s)) := by
  unfold toStrBuf
  rw [h, Option.bind_some]
  set ts := [decInt total ++ [0x20#8, 0x28#8]] ++ (strEntries true s).1 ++
    (if (strEntries true s).2 then [[0x2d#8]] else []) ++ [[0x29#8]] with hts
  have hflat : ts.flatten = listText total s := by
    rw [hts, listText]
    rw [← strEntries_true s]
    cases (strEntries true s).2 <;> simp
  obtain ⟨sb, a1, a2, a3, a4⟩ := printAll_inv ts (sbInit win) [] (SbInv.init win)
  simp only [← hts]
  rw [a1, Option.map_some]
  rw [List.nil_append, hflat] at a2
  refine ⟨sb.buf, by rw [a2.needed], a3, ?_⟩
  intro hw
  exact a2.content (a4 (.inl (by rw [hts]; simp))) (by
    have := List.length_pos_iff.2 hw
    rw [a3]; exact this)

/-- "3 (2*a,b)" -/
example : listText 3 [⟨some [0x61#8], 2⟩, ⟨none, 0⟩, ⟨some [0x62#8], 1⟩] =
    [0x33#8, 0x20#8, 0x28#8, 0x32#8, 0x2a#8, 0x61#8, 0x2c#8, 0x62#8, 0x29#8] := by decide +kernel

end Verif.UseCount
