import Verif.Fsm.Props
/-!
Cleanup happens at most once, and memory is not given back while a safe
termination is under way (C41, whatever the callbacks do).
-/
namespace Verif.Fsm
open Verif

variable {U : Type}

/-- Calls of `cleanup` for an instance. -/
def cleanups (L : List Ev) (id : Nat) : Nat :=
  L.countP fun e => match e with
    | .called (.cleanup i _) => i == id
    | _ => false

/-- What an elementary step adds to the log. -/
theorem prim_log {q : Prop} {w w' : World U} (h : Prim q w w') :
    w.depth ≤ w'.depth ∧ (∀ i, w.depth ≠ 0 → w.insts i ≠ none → w'.insts i ≠ none) ∧
    ∃ es, w'.log = w.log ++ es ∧ (∀ id, cleanups es id = 0) ∧ (w.depth ≠ 0 → ∀ i, Ev.freed i ∉ es) := by
  have hput : ∀ (w : World U) (id : Nat) (fi : Inst) (i : Nat), w.insts i ≠ none → (w.put id fi).insts i ≠ none := by
    intro w id fi i h
    simp only [World.put]
    split
    · simp
    · exact h
  have hdel : ∀ {w w' : World U} {id p : Nat}, w.delChild id p = some w' →
      w'.depth = w.depth ∧ w'.log = w.log ∧ (∀ i, w.insts i ≠ none → w'.insts i ≠ none) := by
    intro w w' id p h
    obtain ⟨pi, h1, _, rfl⟩ := delChild_eq h
    exact ⟨rfl, rfl, hput _ _ _⟩
  have hunl : ∀ {w w' : World U} {id : Nat}, w.unlinkParent id = some w' →
      w'.depth = w.depth ∧ w'.log = w.log ∧ (∀ i, w.insts i ≠ none → w'.insts i ≠ none) := by
    intro w w' id h
    obtain ⟨fi, hi, ⟨_, rfl⟩ | ⟨p, _, hd⟩⟩ := unlinkParent_eq h
    · exact ⟨rfl, rfl, fun _ h => h⟩
    · obtain ⟨a, b, c⟩ := hdel hd
      exact ⟨a, b, fun i hi => c i (hput _ _ _ i hi)⟩
  cases h with
  | user => exact ⟨Nat.le_refl _, fun _ _ h => h, [], by simp, fun _ => rfl, by simp⟩
  | flags => exact ⟨Nat.le_refl _, fun _ _ h => h, [], by simp, fun _ => rfl, by simp⟩
  | alloc fsm => exact ⟨Nat.le_refl _, fun i _ h => hput _ _ _ i h, _, rfl, fun _ => rfl, by simp⟩
  | leave id fi new keep hi ht hp =>
    cases keep
    · exact ⟨Nat.le_refl _, fun i _ h => hput _ _ _ i h, _, rfl, fun _ => rfl, by simp⟩
    · exact ⟨Nat.le_refl _, fun i _ h => h, _, rfl, fun _ => rfl, by simp⟩
  | change id fi chk new keep ms T hi hp hn hq =>
    exact ⟨Nat.le_refl _, fun i _ h => hput _ _ _ i h, _, rfl, fun _ => rfl, by simp⟩
  | neutral e h =>
    refine ⟨Nat.le_refl _, fun i _ h => h, _, rfl, ?_, ?_⟩
    · intro id
      cases e with
      | called f => cases f <;> first | exact h.elim | rfl
      | _ => first | exact h.elim | rfl
    · intro _ i hm
      rw [List.mem_singleton] at hm
      subst hm
      exact h.elim
  | action id fi fs event hi ht hs hm hna he =>
    exact ⟨Nat.le_refl _, fun i _ h => h, _, rfl, fun _ => rfl, by simp⟩
  | allstate id fi event hi ht hm he =>
    exact ⟨Nat.le_refl _, fun i _ h => h, _, rfl, fun _ => rfl, by simp⟩
  | mark id fi cause hi ht =>
    obtain ⟨m1, m2, m3, m4, m5⟩ := mark_eq w id fi cause
    refine ⟨by omega, ?_, _, m3, fun _ => rfl, by simp⟩
    intro i _ h
    rw [m1]
    exact hput _ _ _ i h
  | delChild id p w' h =>
    obtain ⟨a, b, c⟩ := hdel h
    exact ⟨by omega, fun i _ => c i, [], by rw [b]; simp, fun _ => rfl, by simp⟩
  | free id w' h =>
    obtain ⟨fi, hi, hl, ⟨hd, rfl⟩ | ⟨hd, rfl⟩⟩ := free_eq h
    · exact ⟨Nat.le_refl _, fun i _ h => hput _ _ _ i h, _, rfl, fun _ => rfl, by simp⟩
    · obtain ⟨s1, s2, s3, s4, s5⟩ := freeOrSteal_spec (id :: w.collected)
        ({ (w.put id { fi with timer := none, linked := false }).emit (.released id) with collected := [] } : World U)
      refine ⟨by rw [s4]; exact Nat.le_refl _, fun i h => absurd hd h, ?_⟩
      refine ⟨[.released id] ++ (if w.dealloc then [] else (id :: w.collected).map Ev.freed), ?_, ?_,
        fun h => absurd hd h⟩
      · rw [s2, ← List.append_assoc]
        rfl
      · intro i
        unfold cleanups
        rw [List.countP_eq_zero]
        intro e he
        rcases List.mem_append.mp he with he | he
        · rw [List.mem_singleton] at he; subst he; simp
        · split at he
          · simp at he
          · obtain ⟨x, _, rfl⟩ := List.mem_map.mp he
            simp
  | unlinkParent id w' h =>
    obtain ⟨a, b, c⟩ := hunl h
    exact ⟨by omega, fun i _ => c i, [], by rw [b]; simp, fun _ => rfl, by simp⟩
  | changeParent id p e w' h =>
    obtain ⟨w1, h1, h2 | ⟨p', fi, pi, _, hfi, hpi, rfl⟩⟩ := changeParent_eq h
    · obtain ⟨a, b, c⟩ := hunl h1
      rw [h2]
      exact ⟨by omega, fun i _ => c i, [], by rw [b]; simp, fun _ => rfl, by simp⟩
    · obtain ⟨a, b, c⟩ := hunl h1
      refine ⟨Nat.le_of_eq a.symm, fun i _ hi => hput _ _ _ i (hput _ _ _ i (c i hi)), [], ?_, fun _ => rfl, by simp⟩
      simp only [World.put, List.append_nil]
      exact b
  | fire id fi hi ht => exact ⟨Nat.le_refl _, fun i _ h => hput _ _ _ i h, _, rfl, fun _ => rfl, by simp⟩

/-- The instance is terminating, or gone. -/
def Over (w : World U) (id : Nat) : Prop :=
  id < w.next ∧ ∀ fi, w.insts id = some fi → fi.terminating = true

theorem Over.keep {w w' : World U} {id : Nat} (h : Over w id) (hk : Keeps w w') : Over w' id := by
  refine ⟨Nat.lt_of_lt_of_le h.1 hk.1, ?_⟩
  intro fi' hi'
  obtain ⟨fi, h1, _, h3⟩ := hk.2 id fi' h.1 hi'
  exact h3 (h.2 fi h1)

theorem cleanups_append (a b : List Ev) (id : Nat) : cleanups (a ++ b) id = cleanups a id + cleanups b id :=
  List.countP_append

theorem cleanups_snoc (L : List Ev) (e : Ev) (id : Nat) :
    cleanups (L ++ [e]) id = cleanups L id + cleanups [e] id := cleanups_append _ _ _

/-- Between two points: nothing more once it is over, one call at most, and it
is over after that. -/
theorem steps_once {q : Prop} (id : Nat) {w w' : World U} (h : Steps q w w') : Wf w →
    (Over w id → cleanups w'.log id = cleanups w.log id) ∧
    (cleanups w'.log id = cleanups w.log id ∨ (cleanups w'.log id = cleanups w.log id + 1 ∧ Over w' id)) := by
  induction h with
  | refl w => exact fun _ => ⟨fun _ => rfl, Or.inl rfl⟩
  | prim h =>
    intro _
    obtain ⟨_, _, es, h1, h2, _⟩ := prim_log h
    rw [h1, cleanups_append, h2]
    exact ⟨fun _ => rfl, Or.inl rfl⟩
  | trans h h' ih ih' =>
    intro hw
    obtain ⟨hw1, hk1⟩ := steps_keeps h hw
    obtain ⟨a1, a2⟩ := ih hw
    obtain ⟨b1, b2⟩ := ih' hw1
    obtain ⟨_, hk2⟩ := steps_keeps h' hw1
    refine ⟨fun ho => (b1 (ho.keep hk1)).trans (a1 ho), ?_⟩
    rcases a2 with a2 | ⟨a2, a3⟩
    · rw [← a2]; exact b2
    · right
      exact ⟨by rw [b1 a3, a2], a3.keep hk2⟩
  | @cleanup w j fi cause w1 w2 hi ht h h' ih ih' =>
    intro hw
    obtain ⟨m1, m2, m3, m4, _⟩ := mark_eq w j fi cause
    obtain ⟨hwm, hkm⟩ := prim_keeps (.mark (q := q) w j fi cause hi ht) hw
    obtain ⟨hw1, hk1⟩ := steps_keeps h hwm
    obtain ⟨a1, a2⟩ := ih hwm
    obtain ⟨b1, b2⟩ := ih' hw1
    obtain ⟨_, hk2⟩ := steps_keeps h' hw1
    have hm : cleanups (w.mark j fi cause).log id = cleanups w.log id := by
      rw [m3, cleanups_snoc]; rfl
    rw [hm] at a1 a2
    have he : cleanups (w1.emit (.called (.cleanup j cause))).log id =
        cleanups w1.log id + if j = id then 1 else 0 := by
      simp only [World.emit]
      rw [cleanups_snoc]
      by_cases hj : j = id <;> simp [cleanups, hj]
    rw [he] at b1 b2
    by_cases hj : j = id
    · rw [if_pos hj] at b1 b2
      have hom : Over (w.mark j fi cause) id := by
        refine ⟨by rw [m2, ← hj]; exact hw j (by rw [hi]; simp), ?_⟩
        intro fi' hi'
        rw [m1, ← hj] at hi'
        simp only [World.put, if_true] at hi'
        rw [← Option.some.inj hi']
      have ho1 : Over (w1.emit (.called (.cleanup j cause))) id := hom.keep hk1
      have hno : ¬ Over w id := by
        intro ho
        have := ho.2 fi (by rw [← hj]; exact hi)
        rw [ht] at this
        cases this
      refine ⟨fun ho => absurd ho hno, Or.inr ⟨by rw [b1 ho1, a1 hom], ho1.keep hk2⟩⟩
    · rw [if_neg hj, Nat.add_zero] at b1 b2
      have hk0 : Keeps w (w1.emit (.called (.cleanup j cause))) := hkm.trans hk1
      refine ⟨fun ho => (b1 (ho.keep hk0)).trans (a1 (ho.keep hkm)), ?_⟩
      rcases a2 with a2 | ⟨a2, a3⟩
      · rw [← a2]; exact b2
      · right
        exact ⟨by rw [b1 a3, a2], Over.keep (w := w1.emit (.called (.cleanup j cause))) a3 hk2⟩
  | undepth _ _ ih => exact ih

/-- C41: whatever the callbacks do, and at every point of every execution,
`cleanup` has been called at most once for an instance. -/
theorem cleanup_once (user : User U) (n : Nat) (u : U) (id : Nat) : cleanups (run user n u).2.log id ≤ 1 := by
  have h := (steps_once (q := QuietLeave user) id (exec_steps user n (.user .main) (World.init u)
    (init_inv True u).wf).1 (init_inv True u).wf).2
  have h0 : cleanups (World.init u).log id = 0 := rfl
  unfold run
  omega

/-- Between two points with a safe termination under way. -/
theorem steps_safe {q : Prop} {w w' : World U} (h : Steps q w w') :
    w.depth ≤ w'.depth ∧ (w.depth ≠ 0 → ∀ i, w.insts i ≠ none → w'.insts i ≠ none) := by
  induction h with
  | refl w => exact ⟨Nat.le_refl _, fun _ _ h => h⟩
  | prim h =>
    obtain ⟨h1, h2, _⟩ := prim_log h
    exact ⟨h1, fun hd i => h2 i hd⟩
  | trans _ _ ih ih' => exact ⟨Nat.le_trans ih.1 ih'.1, fun hd i hi => ih'.2 (by have := ih.1; omega) i (ih.2 hd i hi)⟩
  | @cleanup w j fi cause w1 w2 hi ht h h' ih ih' =>
    obtain ⟨m1, m2, _⟩ := prim_log (.mark (q := q) w j fi cause hi ht)
    have hd1 : w.depth ≤ w1.depth := Nat.le_trans m1 ih.1
    have hd2 : (w1.emit (.called (.cleanup j cause))).depth = w1.depth := rfl
    refine ⟨Nat.le_trans hd1 ih'.1, ?_⟩
    intro hd i hi'
    exact ih'.2 (by rw [hd2]; omega) i (ih.2 (by omega) i (m2 i hd hi'))
  | @undepth w w' _ hd ih => exact ⟨Nat.le_refl _, ih.2⟩

/-- C41: while a safe termination is under way (`fsm_term_safely.depth` is not
0) no call gives back the memory of an instance, whatever the callbacks do. -/
theorem safe_no_free (user : User U) (n : Nat) (c : Call) (w : World U) (hw : Wf w) (hd : w.depth ≠ 0) (i : Nat)
    (hi : w.insts i ≠ none) : (exec user n c w).2.insts i ≠ none :=
  (steps_safe (exec_steps user n c w hw).1).2 hd i hi

end Verif.Fsm
