import Verif.Timer.Model
import Mathlib.Tactic.Linarith
/-!
C20: timers fire exactly once, only when due, never after deletion.
C55: the poll timeout in milliseconds.
-/
namespace Verif.Timer

/-! ## Time -/

/-- a timeval with its microseconds in range -/
def TV.Norm (a : TV) : Prop := 0 ≤ a.usec ∧ a.usec < 1000000
/-- microseconds since the epoch -/
def TV.us (a : TV) : Int := a.sec * 1000000 + a.usec

theorem lt_us {a b : TV} (ha : a.Norm) (hb : b.Norm) : a.lt b = true ↔ a.us < b.us := by
  unfold TV.lt TV.us TV.Norm at *
  split <;> simp <;> omega

theorem add_us {a b : TV} (ha : a.Norm) (hb : b.Norm) : (a.add b).Norm ∧ (a.add b).us = a.us + b.us := by
  unfold TV.add TV.us TV.Norm at *
  split <;> simp <;> omega

theorem sub_us {a b : TV} (ha : a.Norm) (hb : b.Norm) : (a.sub b).Norm ∧ (a.sub b).us = a.us - b.us := by
  unfold TV.sub TV.us TV.Norm at *
  split <;> simp <;> omega

/-- `a` not after `b` -/
def TV.le (a b : TV) : Prop := b.lt a = false

theorem lt_irrefl (a : TV) : a.lt a = false := by simp [TV.lt]
theorem le_trans' {a b c : TV} (h1 : a.le b) (h2 : b.le c) : a.le c := by
  unfold TV.le TV.lt at *
  split at h1 <;> split at h2 <;> split <;> simp at * <;> omega
theorem le_total' (a b : TV) : a.le b ∨ b.le a := by
  unfold TV.le TV.lt
  by_cases h : a.sec = b.sec
  · simp [h]; omega
  · simp [h, Ne.symm h]; omega
theorem le_of_lt {a b : TV} (h : a.lt b = true) : a.le b := by
  unfold TV.le TV.lt at *
  split at h <;> split <;> simp at * <;> omega

/-! ## Invariant of every reachable state -/

structure Inv (s : TS) : Prop where
  nodup : s.tree.Nodup
  act : ∀ t, s.active t = true ↔ t ∈ s.tree
  sorted : s.tree.Pairwise fun a b => (s.timeout a).le (s.timeout b)
  evsub : ∀ t ∈ s.evict, t ∈ s.tree
  evnodup : s.evict.Nodup

theorem timerDel_eq {s : TS} (h : Inv s) (t : Nat) :
    (timerDel s t).tree = s.tree.erase t ∧ (timerDel s t).evict = s.evict.erase t ∧
      (∀ x, (timerDel s t).active x = (decide (x ≠ t) && s.active x)) ∧
      (timerDel s t).timeout = s.timeout ∧ (timerDel s t).log = s.log := by
  unfold timerDel
  by_cases ha : s.active t = true
  · rw [if_pos ha]
    refine ⟨rfl, rfl, ?_, rfl, rfl⟩
    intro x
    by_cases hx : x = t <;> simp [upd, hx]
  · rw [if_neg ha]
    have hn : t ∉ s.tree := fun hm => ha ((h.act t).2 hm)
    refine ⟨(List.erase_of_not_mem hn).symm, (List.erase_of_not_mem fun hm => hn (h.evsub t hm)).symm, ?_, rfl, rfl⟩
    intro x
    by_cases hx : x = t
    · subst hx; simpa using ha
    · simp [hx]

theorem timerDel_inv {s : TS} (h : Inv s) (t : Nat) : Inv (timerDel s t) := by
  obtain ⟨e1, e2, e3, e4, -⟩ := timerDel_eq h t
  refine ⟨?_, ?_, ?_, ?_, ?_⟩
  · rw [e1]; exact h.nodup.erase t
  · intro x
    rw [e1, e3, h.nodup.mem_erase_iff]
    simp [h.act]
  · rw [e1, e4]; exact h.sorted.sublist List.erase_sublist
  · intro x hx
    rw [e1, h.nodup.mem_erase_iff]
    rw [e2, h.evnodup.mem_erase_iff] at hx
    exact ⟨hx.1, h.evsub x hx.2⟩
  · rw [e2]; exact h.evnodup.erase t

theorem mem_insertT {timeout : Nat → TV} {t x : Nat} {tree : List Nat} :
    x ∈ insertT timeout t tree ↔ x = t ∨ x ∈ tree := by
  unfold insertT
  conv_rhs => rw [← List.takeWhile_append_dropWhile (p := fun x => !(timeout t).lt (timeout x)) (l := tree)]
  simp only [List.mem_append, List.mem_cons]
  tauto

theorem insertT_sorted {timeout : Nat → TV} {t : Nat} {tree : List Nat}
    (h : tree.Pairwise fun a b => (timeout a).le (timeout b)) :
    (insertT timeout t tree).Pairwise fun a b => (timeout a).le (timeout b) := by
  unfold insertT
  induction tree with
  | nil => simp
  | cons a l ih =>
    rw [List.pairwise_cons] at h
    by_cases hc : (timeout t).lt (timeout a) = true
    · simp only [List.takeWhile_cons, List.dropWhile_cons, hc, Bool.not_true, Bool.false_eq_true, if_false,
        List.nil_append]
      rw [List.pairwise_cons]
      refine ⟨?_, List.pairwise_cons.2 h⟩
      intro b hb
      rcases List.mem_cons.1 hb with rfl | hb
      · exact le_of_lt hc
      · exact le_trans' (le_of_lt hc) (h.1 b hb)
    · have hc' : (timeout t).lt (timeout a) = false := by simpa using hc
      simp only [List.takeWhile_cons, List.dropWhile_cons, hc', Bool.not_false, if_true, List.cons_append]
      rw [List.pairwise_cons]
      refine ⟨?_, ih h.2⟩
      intro b hb
      have := (mem_insertT (timeout := timeout) (t := t) (tree := l) (x := b)).1 hb
      rcases this with rfl | hb
      · exact hc'
      · exact h.1 b hb

theorem insertT_nodup {timeout : Nat → TV} {t : Nat} {tree : List Nat} (h : tree.Nodup) (ht : t ∉ tree) :
    (insertT timeout t tree).Nodup := by
  unfold insertT
  rw [← List.takeWhile_append_dropWhile (p := fun x => !(timeout t).lt (timeout x)) (l := tree)] at h ht
  rw [List.nodup_append] at h ⊢
  simp only [List.mem_append, not_or] at ht
  refine ⟨h.1, List.nodup_cons.2 ⟨ht.2, h.2.1⟩, ?_⟩
  intro a ha b hb
  rcases List.mem_cons.1 hb with rfl | hb
  · rintro rfl; exact ht.1 ha
  · exact h.2.2 a ha b hb

/-- state after "set timeout, osmo_timer_add" -/
def addAt (s : TS) (t : Nat) (tv : TV) : TS := timerAdd { s with timeout := upd s.timeout t tv } t

theorem addAt_eq {s : TS} (h : Inv s) (t : Nat) (tv : TV) :
    (addAt s t tv).tree = insertT (upd s.timeout t tv) t (s.tree.erase t) ∧
      (addAt s t tv).evict = s.evict.erase t ∧
      (∀ x, (addAt s t tv).active x = (decide (x = t) || s.active x)) ∧
      (addAt s t tv).timeout = upd s.timeout t tv ∧ (addAt s t tv).log = s.log := by
  have hd := timerDel_eq h t
  have hcomm : timerDel { s with timeout := upd s.timeout t tv } t =
      { timerDel s t with timeout := upd s.timeout t tv } := by
    unfold timerDel; split <;> rfl
  unfold addAt timerAdd
  simp only [hcomm]
  refine ⟨by rw [hd.1], hd.2.1, ?_, trivial, hd.2.2.2.2⟩
  intro x
  by_cases hx : x = t
  · simp [upd, hx]
  · simp [upd, hx, hd.2.2.1]

theorem addAt_inv {s : TS} (h : Inv s) (t : Nat) (tv : TV) : Inv (addAt s t tv) := by
  obtain ⟨e1, e2, e3, e4, -⟩ := addAt_eq h t tv
  have hnt : t ∉ s.tree.erase t := fun hm => (h.nodup.mem_erase_iff.1 hm).1 rfl
  refine ⟨?_, ?_, ?_, ?_, ?_⟩
  · rw [e1]; exact insertT_nodup (h.nodup.erase t) hnt
  · intro x
    rw [e1, e3, mem_insertT, h.nodup.mem_erase_iff]
    by_cases hx : x = t <;> simp [hx, h.act]
  · rw [e1, e4]
    apply insertT_sorted
    refine (h.sorted.sublist List.erase_sublist).imp_of_mem ?_
    intro a b ha hb hab
    have h1 : a ≠ t := (h.nodup.mem_erase_iff.1 ha).1
    have h2 : b ≠ t := (h.nodup.mem_erase_iff.1 hb).1
    simpa [upd, h1, h2] using hab
  · intro x hx
    rw [e2, h.evnodup.mem_erase_iff] at hx
    rw [e1, mem_insertT, h.nodup.mem_erase_iff]
    exact .inr ⟨hx.1, h.evsub x hx.2⟩
  · rw [e2]; exact h.evnodup.erase t

theorem Inv.log {s : TS} (h : Inv s) (l : List Ev) : Inv { s with log := l } :=
  ⟨h.nodup, h.act, h.sorted, h.evsub, h.evnodup⟩

theorem runOp_inv {s : TS} (h : Inv s) (o : TOp) : Inv (runOp s o) := by
  cases o with
  | add t tv => exact (addAt_inv h t tv).log _
  | del t => exact (timerDel_inv h t).log _

/-! ## A pass -/

/-- event concerning timer `t` -/
def Ev.about : Ev → Nat → Prop
  | .fire t, x => t = x
  | .add t _, x => t = x
  | .del t, x => t = x

/-- invariant of a pass: `D` are the timers due at the start -/
structure Pass (D : List Nat) (now : TV) (s : TS) : Prop where
  inv : Inv s
  ev : ∀ x, x ∈ s.evict ↔ x ∈ D ∧ ∀ e ∈ s.log, ¬ e.about x
  fires : ∀ A B t, s.log = A ++ .fire t :: B → t ∈ D ∧ ∀ e ∈ A, ¬ e.about t
  late : ∀ x ∈ s.tree, (s.timeout x).le now → x ∈ s.evict ∨ ∃ tv, Ev.add x tv ∈ s.log

theorem snoc_eq {α} {L A B : List α} {e f : α} (h : L ++ [e] = A ++ f :: B) :
    (B = [] ∧ A = L ∧ f = e) ∨ ∃ B', B = B' ++ [e] ∧ L = A ++ f :: B' := by
  rcases List.eq_nil_or_concat B with rfl | ⟨B', b, hB⟩
  · left
    have := List.append_inj' h rfl
    simp at this
    exact ⟨rfl, this.1.symm, this.2.symm⟩
  · right
    rw [List.concat_eq_append] at hB
    subst hB
    rw [show A ++ f :: (B' ++ [b]) = (A ++ f :: B') ++ [b] by simp] at h
    have := List.append_inj' h rfl
    simp at this
    exact ⟨B', by rw [this.2], this.1⟩

theorem Pass.step {D : List Nat} {now : TV} {s s' : TS} (h : Pass D now s) (e : Ev) (t : Nat)
    (habout : ∀ x, e.about x ↔ x = t) (hinv : Inv s') (hev : s'.evict = s.evict.erase t)
    (hlog : s'.log = s.log ++ [e])
    (hfire : ∀ u, e = .fire u → t ∈ s.evict)
    (htree : ∀ x ∈ s'.tree, x ≠ t → x ∈ s.tree ∧ s'.timeout x = s.timeout x)
    (ht : t ∈ s'.tree → ∃ tv, e = .add t tv) : Pass D now s' := by
  refine ⟨hinv, ?_, ?_, ?_⟩
  · intro x
    rw [hev, h.inv.evnodup.mem_erase_iff, h.ev, hlog]
    constructor
    · rintro ⟨hx, h1, h2⟩
      refine ⟨h1, ?_⟩
      intro f hf
      rcases List.mem_append.1 hf with hf | hf
      · exact h2 f hf
      · simp at hf; subst hf; rw [habout]; exact hx
    · rintro ⟨h1, h2⟩
      refine ⟨?_, h1, fun f hf => h2 f (by simp [hf])⟩
      intro hx
      exact h2 e (by simp) ((habout x).2 hx)
  · intro A B u hAB
    rw [hlog] at hAB
    rcases snoc_eq hAB with ⟨rfl, rfl, he⟩ | ⟨B', rfl, hL⟩
    · have hut : u = t := (habout u).1 (by rw [← he]; rfl)
      have := (h.ev t).1 (hfire u he.symm)
      rw [hut]; exact this
    · exact h.fires A B' u hL
  · intro x hx hle
    by_cases hxt : x = t
    · subst hxt
      obtain ⟨tv, rfl⟩ := ht hx
      exact .inr ⟨tv, by rw [hlog]; simp⟩
    · obtain ⟨h1, h2⟩ := htree x hx hxt
      rw [h2] at hle
      rcases h.late x h1 hle with h3 | ⟨tv, h3⟩
      · left; rw [hev, h.inv.evnodup.mem_erase_iff]; exact ⟨hxt, h3⟩
      · right; exact ⟨tv, by rw [hlog]; simp [h3]⟩

theorem Pass.runOp {D : List Nat} {now : TV} {s : TS} (h : Pass D now s) (o : TOp) : Pass D now (runOp s o) := by
  cases o with
  | add t tv =>
    obtain ⟨e1, e2, e3, e4, e5⟩ := addAt_eq h.inv t tv
    refine h.step (.add t tv) t (fun x => eq_comm) (runOp_inv h.inv _) e2 ?_ (by simp) ?_ (fun _ => ⟨tv, rfl⟩)
    · change (addAt s t tv).log ++ _ = _
      rw [e5]
    · intro x hx hxt
      change x ∈ (addAt s t tv).tree at hx
      rw [e1, mem_insertT, h.inv.nodup.mem_erase_iff] at hx
      refine ⟨?_, ?_⟩
      · rcases hx with hx | hx
        · exact absurd hx hxt
        · exact hx.2
      · change (addAt s t tv).timeout x = _
        rw [e4]; simp [upd, hxt]
  | del t =>
    obtain ⟨e1, e2, e3, e4, e5⟩ := timerDel_eq h.inv t
    refine h.step (.del t) t (fun x => eq_comm) (runOp_inv h.inv _) e2 ?_ (by simp) ?_ ?_
    · change (timerDel s t).log ++ _ = _
      rw [e5]
    · intro x hx hxt
      change x ∈ (timerDel s t).tree at hx
      rw [e1, h.inv.nodup.mem_erase_iff] at hx
      exact ⟨hx.2, by change (timerDel s t).timeout x = _; rw [e4]⟩
    · intro hx
      change t ∈ (timerDel s t).tree at hx
      rw [e1, h.inv.nodup.mem_erase_iff] at hx
      exact absurd rfl hx.1

theorem Pass.fire {D : List Nat} {now : TV} {s : TS} {t : Nat} (h : Pass D now s) (ht : t ∈ s.evict) :
    Pass D now { timerDel s t with log := (timerDel s t).log ++ [.fire t] } := by
  obtain ⟨e1, e2, e3, e4, e5⟩ := timerDel_eq h.inv t
  refine h.step (.fire t) t (fun x => eq_comm) ((timerDel_inv h.inv t).log _) e2 ?_ (fun _ _ => ht) ?_ ?_
  · simp only [e5]
  · intro x hx hxt
    simp only [e1] at hx
    rw [h.inv.nodup.mem_erase_iff] at hx
    exact ⟨hx.2, by simp only [e4]⟩
  · intro hx
    simp only [e1] at hx
    rw [h.inv.nodup.mem_erase_iff] at hx
    exact absurd rfl hx.1

theorem runOp_evict_len {s : TS} (h : Inv s) (o : TOp) : (runOp s o).evict.length ≤ s.evict.length := by
  cases o with
  | add t tv =>
    change (addAt s t tv).evict.length ≤ _
    rw [(addAt_eq h t tv).2.1]; exact List.length_erase_le
  | del t =>
    change (timerDel s t).evict.length ≤ _
    rw [(timerDel_eq h t).2.1]; exact List.length_erase_le

theorem Pass.runOps {D : List Nat} {now : TV} (ops : List TOp) {s : TS} (h : Pass D now s) :
    Pass D now (runOps s ops) ∧ (runOps s ops).evict.length ≤ s.evict.length := by
  induction ops generalizing s with
  | nil => exact ⟨h, le_refl _⟩
  | cons o ops ih =>
    have := ih (h.runOp o)
    have hl := runOp_evict_len h.inv o
    exact ⟨this.1, le_trans this.2 hl⟩

theorem fireLoop_pass {D : List Nat} {now : TV} (cb : Nat → TS → List TOp) (fuel : Nat) {s : TS} (h : Pass D now s)
    (hf : s.evict.length ≤ fuel) : ∃ r, fireLoop cb fuel s = some r ∧ Pass D now r ∧ r.evict = [] := by
  induction fuel generalizing s with
  | zero =>
    have he : s.evict = [] := List.eq_nil_of_length_eq_zero (by omega)
    exact ⟨s, by unfold fireLoop; rw [he], h, he⟩
  | succ n ih =>
    unfold fireLoop
    cases he : s.evict with
    | nil => exact ⟨s, rfl, h, he⟩
    | cons t l =>
      have hp := h.fire (t := t) (by rw [he]; simp)
      have hl : (timerDel s t).evict.length ≤ n := by
        rw [(timerDel_eq h.inv t).2.1, he]
        simp
        rw [he] at hf; simpa using hf
      have hr := hp.runOps (cb t { timerDel s t with log := (timerDel s t).log ++ [.fire t] })
      exact ih hr.1 (le_trans hr.2 hl)

/-- with a sorted tree the collecting loop finds exactly the due timers -/
theorem mem_collect {s : TS} (h : Inv s) (now : TV) (x : Nat) :
    x ∈ s.tree.takeWhile (fun x => !now.lt (s.timeout x)) ↔ x ∈ s.tree ∧ (s.timeout x).le now := by
  have hs := h.sorted
  generalize s.tree = l0 at hs ⊢
  induction l0 with
  | nil => simp
  | cons a l ih =>
    rw [List.pairwise_cons] at hs
    by_cases hc : now.lt (s.timeout a) = true
    · simp only [List.takeWhile_cons, hc, Bool.not_true, Bool.false_eq_true, if_false, List.not_mem_nil, false_iff]
      rintro ⟨hx, hle⟩
      have : (s.timeout a).le now := by
        rcases List.mem_cons.1 hx with rfl | hx
        · exact hle
        · exact le_trans' (hs.1 x hx) hle
      unfold TV.le at this
      rw [hc] at this; cases this
    · have hc' : now.lt (s.timeout a) = false := by simpa using hc
      simp only [List.takeWhile_cons, hc', Bool.not_false, if_true, List.mem_cons, ih hs.2]
      constructor
      · rintro (rfl | ⟨h1, h2⟩)
        · exact ⟨.inl rfl, hc'⟩
        · exact ⟨.inr h1, h2⟩
      · rintro ⟨rfl | h1, h2⟩
        · exact .inl rfl
        · exact .inr ⟨h1, h2⟩

theorem collect_pass {s : TS} (h : Inv s) (now : TV) :
    Pass (s.tree.takeWhile fun x => !now.lt (s.timeout x)) now (collect { s with log := [] } now) := by
  have hm := mem_collect h now
  refine ⟨⟨h.nodup, h.act, h.sorted, ?_, ?_⟩, ?_, ?_, ?_⟩
  · intro t ht
    simp only [collect, List.mem_reverse] at ht
    exact ((hm t).1 ht).1
  · simp only [collect]
    rw [List.Nodup, List.pairwise_reverse]
    exact List.Pairwise.imp (fun h => Ne.symm h) (h.nodup.sublist (List.takeWhile_sublist _))
  · intro x; simp [collect]
  · intro A B t hAB; simp [collect] at hAB
  · intro x hx hle
    left
    simp only [collect, List.mem_reverse]
    exact (hm x).2 ⟨hx, hle⟩

/-! ## C20 -/

/-- states the application can reach: any timers added and deleted -/
def start : TS := { tree := [], timeout := fun _ => ⟨0, 0⟩, active := fun _ => false, evict := [], log := [] }

/-- C20: pending means being in the tree, the tree is ordered by expiry, after
any operations. -/
theorem timers_consistent (ops : List TOp) : Inv (runOps start ops) := by
  have : ∀ s, Inv s → Inv (runOps s ops) := by
    induction ops with
    | nil => exact fun s h => h
    | cons o ops ih => exact fun s h => ih _ (runOp_inv h o)
  exact this start ⟨by simp [start], by simp [start], by simp [start], by simp [start], by simp [start]⟩

/-- C20: one pass of the timer loop in any consistent state, with any callbacks.
With `E` the events of the pass in order:
it ends; a timer fires only if it was pending and due at the start and nothing
happened to it earlier in the pass (so also at most once); a timer that was due
fires unless a callback deletes or re-adds it; a timer pending and due at the
end was added by a callback; the state is consistent again. -/
theorem timers_pass (cb : Nat → TS → List TOp) (s : TS) (now : TV) (h : Inv s) :
    ∃ r w, timersUpdate cb s.tree.length s now = some (r, w) ∧ Inv r ∧ r.evict = [] ∧
      (∀ A B t, r.log = A ++ .fire t :: B →
        timerPending s t = true ∧ (s.timeout t).le now ∧ ∀ e ∈ A, ¬ e.about t) ∧
      (∀ t, timerPending s t = true → (s.timeout t).le now → ∃ e ∈ r.log, e.about t) ∧
      (∀ t, timerPending r t = true → (r.timeout t).le now → ∃ tv, Ev.add t tv ∈ r.log) ∧
      (w = 1 ↔ ∃ t, timerPending s t = true ∧ (s.timeout t).le now) := by
  have hp := collect_pass h now
  have hm := mem_collect h now
  obtain ⟨r, h1, h2, h3⟩ := fireLoop_pass cb s.tree.length hp (by
    simp only [collect, List.length_reverse]
    exact (List.takeWhile_sublist _).length_le)
  refine ⟨r, if (collect { s with log := [] } now).evict = [] then 0 else 1,
    by unfold timersUpdate; simp only [h1, Option.map_some], h2.inv, h3, ?_, ?_, ?_, ?_⟩
  · intro A B t hAB
    obtain ⟨a, b⟩ := h2.fires A B t hAB
    have := (hm t).1 a
    exact ⟨(h.act t).2 this.1, this.2, b⟩
  · intro t ht hle
    by_contra hno
    have : t ∈ r.evict := (h2.ev t).2 ⟨(hm t).2 ⟨(h.act t).1 ht, hle⟩, fun e he hab => hno ⟨e, he, hab⟩⟩
    rw [h3] at this; cases this
  · intro t ht hle
    rcases h2.late t ((h2.inv.act t).1 ht) hle with h4 | h4
    · rw [h3] at h4; cases h4
    · exact h4
  · have hmem : (collect { s with log := [] } now).evict = [] ↔ ¬ ∃ t, timerPending s t = true ∧ (s.timeout t).le now := by
      rw [List.eq_nil_iff_forall_not_mem]
      constructor
      · rintro hn ⟨t, ht, hle⟩
        apply hn t
        simp only [collect, List.mem_reverse]
        exact (hm t).2 ⟨(h.act t).1 ht, hle⟩
      · intro hn t ht
        simp only [collect, List.mem_reverse] at ht
        obtain ⟨a, b⟩ := (hm t).1 ht
        exact hn ⟨t, (h.act t).2 a, b⟩
    by_cases he : (collect { s with log := [] } now).evict = []
    · rw [if_pos he]
      simp only [Nat.zero_ne_one, false_iff]
      exact hmem.1 he
    · rw [if_neg he]
      simp only [true_iff]
      by_contra hn
      exact he (hmem.2 hn)

/-- C20: each timer fires at most once in a pass -/
theorem timers_once (cb : Nat → TS → List TOp) (s : TS) (now : TV) (h : Inv s) :
    ∃ r w, timersUpdate cb s.tree.length s now = some (r, w) ∧
      ∀ t A B C, r.log ≠ A ++ .fire t :: B ++ .fire t :: C := by
  obtain ⟨r, w, h1, -, -, h2, -⟩ := timers_pass cb s now h
  refine ⟨r, w, h1, ?_⟩
  intro t A B C he
  exact (h2 (A ++ .fire t :: B) C t he).2.2 (.fire t) (by simp) rfl

/-- C20: with a timer deleted it is not pending, after scheduling it is pending
at now + delay -/
theorem timer_del_schedule (s : TS) (h : Inv s) (t : Nat) (sec us : Int) (now : TV) :
    timerPending (timerDel s t) t = false ∧
      timerPending (timerSchedule s t sec us now) t = true ∧
      Inv (timerDel s t) ∧ Inv (timerSchedule s t sec us now) ∧
      (now.Norm → 0 ≤ us → us < 1000000 →
        ((timerSchedule s t sec us now).timeout t).us = now.us + (sec * 1000000 + us)) := by
  have h1 := timerDel_eq h t
  have h2 := addAt_eq h t (TV.add { sec := sec, usec := us } now)
  refine ⟨by simp [timerPending, h1.2.2.1], ?_, timerDel_inv h t, addAt_inv h t _, ?_⟩
  · change (addAt s t _).active t = true
    simp [h2.2.2.1]
  · intro hn hu0 hu1
    change ((addAt s t _).timeout t).us = _
    rw [h2.2.2.2.1]
    simp only [upd, if_true]
    rw [(add_us ⟨hu0, hu1⟩ hn).2]
    simp only [TV.us]; omega

/-- C20: `osmo_timers_prepare` computes the least remaining time over the
pending timers, not below zero; nothing if none is pending. -/
theorem nearest_minimum (s : TS) (h : Inv s) (now : TV) (hn : now.Norm)
    (hT : ∀ t, timerPending s t = true → (s.timeout t).Norm ∧ (s.timeout t).sec ≠ LONG_MAX) :
    (timersPrepare s now = none ↔ ∀ t, timerPending s t = false) ∧
      ∀ n, timersPrepare s now = some n → n.Norm ∧
        (∀ t, timerPending s t = true → n.us ≤ max 0 ((s.timeout t).us - now.us)) ∧
        ∃ t, timerPending s t = true ∧ n.us = max 0 ((s.timeout t).us - now.us) := by
  unfold timersPrepare
  cases ht : s.tree with
  | nil =>
    simp only [true_iff, reduceCtorEq, false_implies, implies_true, and_true]
    intro t
    by_contra hc
    have := (h.act t).1 (by simpa [timerPending] using hc)
    rw [ht] at this; cases this
  | cons a l =>
    have ha : timerPending s a = true := (h.act a).2 (by rw [ht]; simp)
    obtain ⟨hna, hla⟩ := hT a ha
    have hs := h.sorted
    rw [ht, List.pairwise_cons] at hs
    have hmin : ∀ t, timerPending s t = true → (s.timeout a).us ≤ (s.timeout t).us := by
      intro t htp
      have hm := (h.act t).1 htp
      rw [ht] at hm
      have hle : (s.timeout a).le (s.timeout t) := by
        rcases List.mem_cons.1 hm with rfl | hm
        · exact lt_irrefl _
        · exact hs.1 t hm
      by_contra hc
      have := (lt_us (hT t htp).1 hna).2 (by omega)
      unfold TV.le at hle
      rw [this] at hle; cases hle
    simp only [updateNearest, ne_eq, hla, not_false_eq_true, if_true]
    by_cases hc : now.lt (s.timeout a) = true
    · have hlt := (lt_us hn hna).1 hc
      obtain ⟨hsn, hsu⟩ := sub_us hna hn
      rw [if_pos hc]
      refine ⟨?_, ?_⟩
      · simp only [reduceCtorEq, false_iff, not_forall]
        exact ⟨a, by simp [ha]⟩
      · intro n he
        simp only [Option.some.injEq] at he
        subst he
        refine ⟨hsn, ?_, a, ha, by omega⟩
        intro t htp
        have := hmin t htp
        omega
    · have hge : ¬ now.us < (s.timeout a).us := fun hlt => hc ((lt_us hn hna).2 hlt)
      rw [if_neg hc]
      refine ⟨?_, ?_⟩
      · simp only [reduceCtorEq, false_iff, not_forall]
        exact ⟨a, by simp [ha]⟩
      · intro n he
        simp only [Option.some.injEq] at he
        subst he
        refine ⟨by simp [TV.Norm], ?_, a, ha, by simp only [TV.us]; simp only [TV.us] at hge; omega⟩
        intro t htp
        simp only [TV.us]; omega

/-- C20: `osmo_timer_remaining` is the difference; -1 exactly when expired -/
theorem remaining_spec (s : TS) (t : Nat) (now : TV) (hn : now.Norm) (ht : (s.timeout t).Norm) :
    (timerRemaining s t now).1.us = (s.timeout t).us - now.us ∧
      ((timerRemaining s t now).2 = -1 ↔ (s.timeout t).us < now.us) := by
  obtain ⟨h1, h2⟩ := sub_us ht hn
  refine ⟨h2, ?_⟩
  unfold timerRemaining
  simp only [TV.us, TV.Norm] at *
  split
  · simp only [true_iff]; omega
  · constructor
    · intro h; omega
    · intro h; omega

/-- C20: number of registered timers -/
theorem timers_check (s : TS) (h : Inv s) :
    ∃ l : List Nat, l.Nodup ∧ (∀ t, t ∈ l ↔ timerPending s t = true) ∧ timersCheck s = l.length :=
  ⟨s.tree, h.nodup, fun t => (h.act t).symm, rfl⟩

/-! ## C55: poll timeout -/

/-- C55 fails for delays of more than 2^31 ms: the result wraps, here to a
negative number for 2147484 s and to 1 ms for 4294967.297 s -/
theorem nearestMs_counterexample :
    nearestMs (some ⟨2147484, 0⟩) = -2147483296 ∧ nearestMs (some ⟨4294967, 297000⟩) = 1 := by decide

/-- C55 (partial: delays below 2147483 s only): the number of milliseconds is
the remaining time rounded up, so the caller never waits too short, and it is
0 only when the time is up. -/
theorem nearestMs_partial (n : TV) (hn : n.Norm) (h0 : 0 ≤ n.sec) (h1 : n.sec < 2147483) :
    n.us ≤ nearestMs (some n) * 1000 ∧ nearestMs (some n) * 1000 < n.us + 1000 := by
  unfold nearestMs toInt32
  simp only [TV.us, TV.Norm] at *
  have e : (n.usec + 999).tdiv 1000 = (n.usec + 999) / 1000 := Int.tdiv_eq_ediv_of_nonneg (by omega)
  rw [e]
  omega

theorem nearestMs_none : nearestMs none = -1 := rfl

/-- two timers due at the same time: the callback of timer 2 (fired first, it
was added last) deletes timer 1, which then does not fire -/
example :
    let s := runOps start [.add 1 ⟨5, 0⟩, .add 2 ⟨5, 0⟩, .add 3 ⟨9, 0⟩]
    ((timersUpdate (fun t _ => if t = 2 then [.del 1, .add 2 ⟨4, 0⟩] else []) 3 s ⟨5, 0⟩).map
      fun r => (r.1.log, r.1.tree, r.2)) =
      some ([.fire 2, .del 1, .add 2 ⟨4, 0⟩], [2, 3], 1) := by decide

example : timersPrepare (runOps start [.add 1 ⟨9, 5⟩, .add 2 ⟨7, 1⟩]) ⟨5, 3⟩ = some ⟨1, 999998⟩ := by decide

end Verif.Timer
