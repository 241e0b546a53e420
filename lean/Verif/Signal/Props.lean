import Verif.Signal.Model
/-!
Properties of the signal dispatcher (C165).
-/
namespace Verif.Signal

theorem unregister_eq (l : List Handler) (h : Handler) :
    unregister l h.subsys h.cbfn h.data = l.erase h := by
  induction l with
  | nil => rfl
  | cons a l ih =>
    simp only [unregister]
    by_cases e : a = h
    · subst e; simp
    · rw [if_neg, ih, List.erase_cons_tail (by simpa using e)]
      rintro ⟨h1, h2, h3⟩
      apply e
      cases a; cases h; simp_all

/-- **C165a.** A registration adds one handler behind the others. -/
theorem register_spec (l : List Handler) (s f d : Nat) (x : Handler) :
    (register l s f d).count x = l.count x + (if x = ⟨s, f, d⟩ then 1 else 0) ∧ l <+: register l s f d := by
  refine ⟨?_, ?_⟩
  · unfold register
    rw [List.count_append, List.count_singleton]
    by_cases e : x = ⟨s, f, d⟩
    · simp [e]
    · simp [e, Ne.symm e]
  · exact ⟨_, rfl⟩

/-- **C165b.** An unregistration takes away one handler with that subsystem,
function and data if there is one; the others stay, in their order. -/
theorem unregister_spec (l : List Handler) (s f d : Nat) (x : Handler) :
    (unregister l s f d).count x = l.count x - (if x = ⟨s, f, d⟩ then 1 else 0) ∧
      (unregister l s f d).Sublist l := by
  have := unregister_eq l ⟨s, f, d⟩
  simp only at this
  rw [this]
  refine ⟨?_, List.erase_sublist⟩
  by_cases e : x = ⟨s, f, d⟩
  · rw [if_pos e, e, List.count_erase_self]
  · rw [if_neg e, List.count_erase_of_ne e, Nat.sub_zero]

/-- What the operations within a callback do to the list is what they do outside. -/
theorem apply_list (c : Cursor) (op : Op) :
    (c.apply op).list = match op with
      | .register h => register c.list h.subsys h.cbfn h.data
      | .unregister h => unregister c.list h.subsys h.cbfn h.data := by
  cases op with
  | register h => simp [Cursor.apply, Cursor.list, register]
  | unregister h =>
    simp only [Cursor.apply, unregister_eq]
    unfold Cursor.list
    by_cases hp : h ∈ c.pre
    · simp only [hp, if_true]
      rw [List.append_assoc, List.append_assoc, List.erase_append_left _ hp]
    · simp only [hp, if_false]
      rw [List.append_assoc, List.append_assoc, List.erase_append_right _ hp]
      by_cases hc : c.cur = some h
      · simp [hc]
      · simp only [hc, if_false]
        rw [List.erase_append_right]
        cases hh : c.cur with
        | none => simp
        | some y =>
          rw [hh] at hc
          simp only [Option.toList_some, List.mem_singleton]
          rintro rfl
          exact hc rfl

theorem dispatch_quiet_gen (beh : Handler → List Op) (subsys fuel : Nat) (pre l : List Handler)
    (hb : ∀ h ∈ l, h.subsys = subsys → beh h = []) (hf : l.length ≤ fuel) :
    dispatch beh subsys fuel pre l = some (l.filter fun h => h.subsys = subsys, pre ++ l) := by
  induction l generalizing fuel pre with
  | nil => cases fuel <;> simp [dispatch]
  | cons h l ih =>
    cases fuel with
    | zero => simp at hf
    | succ fuel =>
      simp only [List.length_cons, Nat.add_le_add_iff_right] at hf
      have ih' := ih fuel (pre ++ [h]) (fun x hx => hb x (List.mem_cons_of_mem _ hx)) hf
      simp only [dispatch]
      by_cases e : h.subsys = subsys
      · rw [if_neg (by simpa using e), hb h (by simp) e]
        simp only [List.foldl_nil]
        rw [ih']
        simp [e]
      · rw [if_pos e, ih']
        simp [e]

/-- **C165c.** If the callbacks leave the list alone, a signal is delivered to each
handler of its subsystem, once for each time that it is registered and in the
order of registration, and to no other. -/
theorem dispatch_quiet (beh : Handler → List Op) (subsys : Nat) (l : List Handler)
    (hb : ∀ h ∈ l, h.subsys = subsys → beh h = []) :
    dispatch beh subsys l.length [] l = some (l.filter fun h => h.subsys = subsys, l) := by
  rw [dispatch_quiet_gen beh subsys l.length [] l hb (Nat.le_refl _), List.nil_append]

/-- Only unregistrations of handlers other than that at the cursor. -/
theorem foldl_unregister (h : Handler) (ops : List Op) (pre post : List Handler)
    (ho : ∀ op ∈ ops, ∃ x, op = .unregister x ∧ x ≠ h) :
    ∃ pre' post', ops.foldl Cursor.apply { pre, cur := some h, post } = { pre := pre', cur := some h, post := post' } ∧
      pre'.Sublist pre ∧ post'.Sublist post := by
  induction ops generalizing pre post with
  | nil => exact ⟨pre, post, rfl, List.Sublist.refl _, List.Sublist.refl _⟩
  | cons op ops ih =>
    obtain ⟨x, rfl, hx⟩ := ho op (by simp)
    have ho' := fun o (m : o ∈ ops) => ho o (List.mem_cons_of_mem _ m)
    simp only [List.foldl_cons, Cursor.apply, unregister_eq]
    by_cases hp : x ∈ pre
    · simp only [hp, if_true]
      obtain ⟨a, b, h1, h2, h3⟩ := ih (pre.erase x) post ho'
      exact ⟨a, b, h1, h2.trans List.erase_sublist, h3⟩
    · have hc : ¬ (some h = some x) := by
        intro hh; exact hx (Option.some.inj hh).symm
      simp only [hp, if_false, hc]
      obtain ⟨a, b, h1, h2, h3⟩ := ih pre (post.erase x) ho'
      exact ⟨a, b, h1, h2, h3.trans List.erase_sublist⟩

theorem dispatch_unregister_gen (beh : Handler → List Op) (subsys fuel : Nat) (pre l : List Handler)
    (hb : ∀ h, ∀ op ∈ beh h, ∃ x, op = .unregister x ∧ x ≠ h) (hf : l.length ≤ fuel) :
    ∃ calls pre' post', dispatch beh subsys fuel pre l = some (calls, pre' ++ post') ∧
      pre'.Sublist pre ∧ post'.Sublist l ∧
      calls.Sublist (l.filter fun h => h.subsys = subsys) ∧
      (post'.filter fun h => h.subsys = subsys).Sublist calls := by
  induction fuel generalizing pre l with
  | zero =>
    cases l with
    | nil => exact ⟨[], pre, [], by simp [dispatch], by simp, by simp, by simp, by simp⟩
    | cons h l => simp at hf
  | succ fuel ih =>
    cases l with
    | nil => exact ⟨[], pre, [], by simp [dispatch], by simp, by simp, by simp, by simp⟩
    | cons h l =>
      simp only [List.length_cons, Nat.add_le_add_iff_right] at hf
      simp only [dispatch]
      by_cases e : h.subsys = subsys
      · rw [if_neg (by simpa using e)]
        obtain ⟨a, b, h1, h2, h3⟩ := foldl_unregister h (beh h) pre l (hb h)
        simp only [h1]
        obtain ⟨calls, p', q', k1, k2, k3, k4, k5⟩ := ih (a ++ [h]) b (Nat.le_trans h3.length_le hf)
        rw [k1]
        obtain ⟨p1, p2, rfl, m1, m2⟩ := List.sublist_append_iff.mp k2
        refine ⟨h :: calls, p1, p2 ++ q', by simp, m1.trans h2, ?_, ?_, ?_⟩
        · exact (m2.append (k3.trans h3))
        · rw [List.filter_cons, if_pos (by simpa using e)]
          exact (k4.trans (h3.filter _)).cons_cons _
        · rw [List.filter_append]
          refine (m2.filter _).append k5 |>.trans ?_
          simp [e]
      · rw [if_pos e]
        obtain ⟨calls, p', q', k1, k2, k3, k4, k5⟩ := ih (pre ++ [h]) l hf
        obtain ⟨p1, p2, rfl, m1, m2⟩ := List.sublist_append_iff.mp k2
        refine ⟨calls, p1, p2 ++ q', by rw [k1]; simp, m1, m2.append k3, ?_, ?_⟩
        · rw [List.filter_cons, if_neg (by simpa using e)]
          exact k4
        · rw [List.filter_append]
          refine (m2.filter _).append k5 |>.trans ?_
          simp [e]

/-- **C165d.** Callbacks may unregister handlers other than their own: the delivery
runs to its end, what is called are handlers of the subsystem that were registered
at the beginning, in order, and among them are all those that are still registered
at the end.  Missing: a callback that unregisters itself, which the code does not
survive (`self_unregister_counterexample`). -/
theorem dispatch_unregister_partial (beh : Handler → List Op) (subsys : Nat) (l : List Handler)
    (hb : ∀ h, ∀ op ∈ beh h, ∃ x, op = .unregister x ∧ x ≠ h) :
    ∃ calls l', dispatch beh subsys l.length [] l = some (calls, l') ∧ l'.Sublist l ∧
      calls.Sublist (l.filter fun h => h.subsys = subsys) ∧
      (l'.filter fun h => h.subsys = subsys).Sublist calls := by
  obtain ⟨calls, p', q', k1, k2, k3, k4, k5⟩ :=
    dispatch_unregister_gen beh subsys l.length [] l hb (Nat.le_refl _)
  have : p' = [] := by simpa using k2
  subst this
  exact ⟨calls, q', by simpa using k1, k3, k4, k5⟩

/-- A handler whose callback unregisters it and is registered once: the iteration
proceeds from freed memory, whatever the other handlers are. -/
theorem self_unregister_counterexample (beh : Handler → List Op) (h : Handler) (fuel : Nat)
    (pre post : List Handler) (hp : h ∉ pre) (hb : beh h = [.unregister h]) :
    dispatch beh h.subsys fuel pre (h :: post) = none := by
  cases fuel with
  | zero => rfl
  | succ fuel => simp [dispatch, hb, Cursor.apply, hp]

/-- A handler registered by a callback receives the signal that is being delivered
as well. -/
theorem register_delivered (beh : Handler → List Op) (h n : Handler) (l : List Handler)
    (hh : beh h = [.register n]) (hs : n.subsys = h.subsys)
    (hq : ∀ x ∈ l ++ [n], x.subsys = h.subsys → beh x = []) :
    dispatch beh h.subsys (l.length + 2) [] (h :: l) =
      some (h :: (l.filter fun x => x.subsys = h.subsys) ++ [n], h :: l ++ [n]) := by
  have := dispatch_quiet_gen beh h.subsys (l.length + 1) [h] (l ++ [n]) hq (by simp)
  simp only [dispatch, hh, ne_eq, not_true_eq_false, if_false, List.foldl_cons, List.foldl_nil,
    Cursor.apply, register, List.nil_append]
  rw [this]
  simp [hs]

/-- Two handlers of subsystem 1 and one of subsystem 2; the first takes the other away. -/
example : dispatch (fun h => if h.cbfn = 10 then [.unregister ⟨1, 12, 0⟩] else []) 1 3 []
    [⟨1, 10, 0⟩, ⟨2, 11, 0⟩, ⟨1, 12, 0⟩] = some ([⟨1, 10, 0⟩], [⟨1, 10, 0⟩, ⟨2, 11, 0⟩]) := by decide

example : ∀ h : Handler, ∀ op ∈ (if h.cbfn = 10 then [Op.unregister ⟨1, 12, 0⟩] else []),
    ∃ x, op = .unregister x ∧ x ≠ h := by
  intro h op ho
  by_cases e : h.cbfn = 10
  · rw [if_pos e, List.mem_singleton] at ho
    exact ⟨_, ho, by rintro rfl; simp at e⟩
  · simp [e] at ho

example : dispatch (fun _ => []) 1 3 [] [⟨1, 10, 0⟩, ⟨2, 11, 0⟩, ⟨1, 10, 0⟩] =
    some ([⟨1, 10, 0⟩, ⟨1, 10, 0⟩], [⟨1, 10, 0⟩, ⟨2, 11, 0⟩, ⟨1, 10, 0⟩]) := by decide

end Verif.Signal
