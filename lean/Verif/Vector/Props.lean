import Verif.Vector.Model
/-!
Properties of vectors (C167): a vector is a partial map from indices to values.
-/
namespace Verif.Vector
variable {α : Type}

/-- What a slot has: NULL beyond the slots allocated. -/
def at' (v : Vec α) (i : Nat) : Option α := (v.index[i]?).join

/-- There is a slot; the active ones are allocated; the others are NULL. -/
structure Inv (v : Vec α) : Prop where
  pos : 1 ≤ v.index.length
  act : v.active ≤ v.index.length
  rest : ∀ i, v.active ≤ i → at' v i = none

theorem inv_init (n : Nat) : Inv (init n : Vec α) := by
  refine ⟨?_, by simp [init], ?_⟩
  · simp only [init, List.length_replicate]; split <;> omega
  · intro i _
    simp only [at', init, List.getElem?_replicate]
    split <;> split <;> rfl

theorem ensureF_spec (fuel : Nat) (v : Vec α) (num : Nat) (hp : 1 ≤ v.index.length)
    (hf : num < v.index.length + fuel) (hf1 : 1 ≤ fuel) :
    ∃ w, ensureF fuel v num = some w ∧ num < w.index.length ∧ w.active = v.active ∧
      v.index.length ≤ w.index.length ∧ ∀ i, at' w i = at' v i := by
  induction fuel generalizing v with
  | zero => omega
  | succ fuel ih =>
    simp only [ensureF]
    by_cases h : v.index.length > num
    · exact ⟨v, by rw [if_pos h], h, rfl, Nat.le_refl _, fun _ => rfl⟩
    · rw [if_neg h]
      have hat : ∀ i, at' ({ v with index := v.index ++ List.replicate v.index.length none } : Vec α) i = at' v i := by
        intro i
        simp only [at']
        by_cases hi : i < v.index.length
        · rw [List.getElem?_append_left hi]
        · rw [List.getElem?_append_right (by omega), List.getElem?_eq_none (l := v.index) (by omega),
            List.getElem?_replicate]
          split <;> rfl
      by_cases h2 : (v.index ++ List.replicate v.index.length none).length ≤ num
      · rw [if_pos h2]
        simp only [List.length_append, List.length_replicate] at h2
        obtain ⟨w, h3, h4, h5, h6, h7⟩ := ih { v with index := v.index ++ List.replicate v.index.length none }
          (by simp; omega) (by simp; omega) (by omega)
        refine ⟨w, h3, h4, h5, ?_, fun i => (h7 i).trans (hat i)⟩
        simp only [List.length_append, List.length_replicate] at h6
        omega
      · rw [if_neg h2]
        exact ⟨_, rfl, by simpa using h2, rfl, by simp, hat⟩

/-- **C167a.** Ensuring a slot ends, makes it available and changes no slot. -/
theorem ensure_spec (v : Vec α) (num : Nat) (h : Inv v) :
    ∃ w, ensure v num = some w ∧ num < w.index.length ∧ w.active = v.active ∧ Inv w ∧ ∀ i, at' w i = at' v i := by
  have hp := h.pos
  obtain ⟨w, h1, h2, h3, h4, h5⟩ := ensureF_spec (num + 1) v num h.pos (by omega) (by omega)
  refine ⟨w, h1, h2, h3, ⟨by omega, by rw [h3]; exact Nat.le_trans h.act h4, ?_⟩, h5⟩
  intro i hi
  rw [h5, h.rest i (by rw [← h3]; exact hi)]

/-- **C167b.** A lookup yields what the slot has, for every index. -/
theorem lookup_spec (v : Vec α) (h : Inv v) (i : Nat) : lookup v i = some (at' v i) := by
  unfold lookup
  by_cases hi : i ≥ v.active
  · rw [if_pos hi, h.rest i hi]
  · rw [if_neg hi]
    have : i < v.index.length := by have := h.act; omega
    simp [at', List.getElem?_eq_getElem this]

theorem at_set (l : List (Option α)) (a : Nat) (i j : Nat) (x : Option α) (hi : i < l.length) :
    at' ⟨l.set i x, a⟩ j = if j = i then x else at' ⟨l, a⟩ j := by
  simp only [at', List.getElem?_set]
  by_cases h : i = j
  · subst h; simp [hi]
  · rw [if_neg h, if_neg (Ne.symm h)]

/-- The invariant after a slot is set. -/
theorem inv_set (w : Vec α) (i : Nat) (x : Option α) (h : Inv w) (hi : i < w.index.length) :
    Inv (⟨w.index.set i x, if w.active ≤ i then i + 1 else w.active⟩ : Vec α) := by
  have ha := h.act
  have hp := h.pos
  refine ⟨by simpa using hp, ?_, ?_⟩
  · simp only [List.length_set]; split <;> omega
  · intro j hj
    rw [at_set _ _ _ _ _ hi]
    have hj' : w.active ≤ j ∧ j ≠ i := by
      simp only at hj
      split at hj <;> omega
    rw [if_neg hj'.2]
    exact h.rest j hj'.1

/-- **C167c.** Setting a slot changes that slot and no other, whatever the size of
the vector. -/
theorem setIndex_spec (v : Vec α) (i : Nat) (x : Option α) (h : Inv v) :
    ∃ w, setIndex v i x = some w ∧ Inv w ∧ w.active = max v.active (i + 1) ∧
      ∀ j, at' w j = if j = i then x else at' v j := by
  obtain ⟨u, h1, h2, h3, h4, h5⟩ := ensure_spec v i h
  refine ⟨⟨u.index.set i x, if u.active ≤ i then i + 1 else u.active⟩, ?_, inv_set u i x h4 h2, ?_, ?_⟩
  · simp [setIndex, h1, h2]
  · simp only [h3]; split <;> omega
  · intro j
    rw [at_set _ _ _ _ _ h2]
    have := h5 j
    simp only [at'] at this ⊢
    rw [this]

theorem emptyFrom_spec (v : Vec α) (h : Inv v) (i n : Nat) (hn : i + n = v.active) :
    ∃ k, emptyFrom v i n = some k ∧ i ≤ k ∧ k ≤ v.active ∧ at' v k = none ∧
      ∀ j, i ≤ j → j < k → at' v j ≠ none := by
  induction n generalizing i with
  | zero => exact ⟨i, rfl, Nat.le_refl _, by omega, h.rest i (by omega), by omega⟩
  | succ n ih =>
    have hi : i < v.index.length := by have := h.act; omega
    simp only [emptyFrom, List.getElem?_eq_getElem hi]
    cases e : v.index[i] with
    | none =>
      exact ⟨i, rfl, Nat.le_refl _, by omega, by simp [at', List.getElem?_eq_getElem hi, e], by omega⟩
    | some y =>
      obtain ⟨k, k1, k2, k3, k4, k5⟩ := ih (i + 1) (by omega)
      refine ⟨k, k1, by omega, k3, k4, ?_⟩
      intro j h1 h2
      by_cases hj : j = i
      · subst hj; simp [at', List.getElem?_eq_getElem hi, e]
      · exact k5 j (by omega) h2

/-- **C167d.** A value is set in the first slot that is NULL, whose index is
returned; no other slot changes. -/
theorem set_spec (v : Vec α) (x : Option α) (h : Inv v) :
    ∃ w k, set v x = some (w, k) ∧ Inv w ∧ at' v k = none ∧ (∀ j, j < k → at' v j ≠ none) ∧
      w.active = max v.active (k + 1) ∧ ∀ j, at' w j = if j = k then x else at' v j := by
  have he : ∃ k, emptySlot v = some k ∧ at' v k = none ∧ ∀ j, j < k → at' v j ≠ none := by
    unfold emptySlot
    by_cases ha : v.active = 0
    · exact ⟨0, by rw [if_pos ha], h.rest 0 (by omega), by omega⟩
    · rw [if_neg ha]
      obtain ⟨k, k1, _, _, k4, k5⟩ := emptyFrom_spec v h 0 v.active (by omega)
      exact ⟨k, k1, k4, fun j => k5 j (by omega)⟩
  obtain ⟨k, e1, e2, e3⟩ := he
  obtain ⟨w, w1, w2, w3, w4⟩ := setIndex_spec v k x h
  refine ⟨w, k, ?_, w2, e2, e3, w3, w4⟩
  unfold setIndex at w1
  unfold set
  simp only [e1, Option.bind_eq_bind, Option.bind_some]
  simp only [Option.bind_eq_bind] at w1
  cases hu : ensure v k with
  | none => rw [hu] at w1; simp at w1
  | some u =>
    rw [hu] at w1
    simp only [Option.bind_some] at w1 ⊢
    by_cases hk : k < u.index.length
    · rw [if_pos hk] at w1 ⊢
      rw [Option.some.inj w1]
    · rw [if_neg hk] at w1; cases w1

/-- **C167e.** A lookup that ensures yields what the slot has. -/
theorem lookupEnsure_spec (v : Vec α) (i : Nat) (h : Inv v) :
    ∃ w, lookupEnsure v i = some (w, at' v i) ∧ Inv w ∧ w.active = v.active ∧ ∀ j, at' w j = at' v j := by
  obtain ⟨u, h1, h2, h3, h4, h5⟩ := ensure_spec v i h
  refine ⟨u, ?_, h4, h3, h5⟩
  have := h5 i
  simp only [at', List.getElem?_eq_getElem h2, Option.join_some] at this
  simp [lookupEnsure, h1, List.getElem?_eq_getElem h2, this, at']

theorem trim_spec (l : List (Option α)) (i : Nat) (hi : i ≤ l.length) :
    ∃ a, trim l i i = some a ∧ a ≤ i ∧ (∀ j, a ≤ j → j < i → (l[j]?).join = none) ∧
      (a = 0 ∨ (l[a - 1]?).join ≠ none) := by
  induction i with
  | zero => exact ⟨0, rfl, Nat.le_refl _, by omega, Or.inl rfl⟩
  | succ i ih =>
    have hl : i < l.length := by omega
    simp only [trim, List.getElem?_eq_getElem hl]
    cases e : l[i] with
    | some y =>
      refine ⟨i + 1, rfl, Nat.le_refl _, by omega, Or.inr ?_⟩
      simp [List.getElem?_eq_getElem hl, e]
    | none =>
      obtain ⟨a, a1, a2, a3, a4⟩ := ih (by omega)
      simp only [Nat.add_sub_cancel, Nat.add_one_ne_zero, if_false]
      refine ⟨a, a1, by omega, ?_, a4⟩
      intro j h1 h2
      by_cases hj : j = i
      · subst hj; simp [List.getElem?_eq_getElem hl, e]
      · exact a3 j h1 (by omega)

/-- **C167f.** Unsetting a slot makes it NULL and changes no other; if it was the
last active one, the vector ends behind the last slot that is not NULL. -/
theorem unset_spec (v : Vec α) (i : Nat) (h : Inv v) :
    ∃ w, unset v i = some w ∧ Inv w ∧ (∀ j, at' w j = if j = i then none else at' v j) ∧
      (i + 1 = v.active → w.active = 0 ∨ at' w (w.active - 1) ≠ none) ∧
      (i + 1 ≠ v.active → w.active = v.active) := by
  have ha := h.act
  unfold unset
  by_cases hi : i ≥ v.index.length
  · rw [if_pos hi]
    refine ⟨v, rfl, h, ?_, by omega, fun _ => rfl⟩
    intro j
    by_cases hj : j = i
    · rw [if_pos hj, hj, h.rest i (by omega)]
    · rw [if_neg hj]
  · rw [if_neg hi]
    have hi' : i < v.index.length := by omega
    by_cases hl : i + 1 = v.active
    · simp only [if_pos hl]
      obtain ⟨a, a1, a2, a3, a4⟩ := trim_spec (v.index.set i none) i (by simp; omega)
      rw [show v.active - 1 = i by omega, a1]
      refine ⟨⟨v.index.set i none, a⟩, rfl, ⟨by simpa using h.pos, by simp; omega, ?_⟩, ?_, fun _ => a4, by omega⟩
      · intro j hj
        simp only at hj
        by_cases h1 : j < i
        · exact a3 j hj h1
        · rw [at_set _ _ _ _ _ hi']
          by_cases h2 : j = i
          · rw [if_pos h2]
          · rw [if_neg h2]
            exact h.rest j (by omega)
      · intro j
        exact at_set _ _ _ _ _ hi'
    · simp only [if_neg hl]
      refine ⟨_, rfl, ⟨by simpa using h.pos, by simpa using ha, ?_⟩, fun j => at_set _ _ _ _ _ hi',
        fun e => absurd e hl, by simp⟩
      intro j hj
      rw [at_set _ _ _ _ _ hi']
      by_cases h2 : j = i
      · rw [if_pos h2]
      · rw [if_neg h2]
        exact h.rest j hj

theorem countFrom_spec (v : Vec α) (h : Inv v) (i n : Nat) (hn : i + n ≤ v.active) :
    countFrom v i n = some ((List.range' i n).countP fun j => (at' v j).isSome) := by
  induction n generalizing i with
  | zero => rfl
  | succ n ih =>
    have hi : i < v.index.length := by have := h.act; omega
    simp only [countFrom, List.getElem?_eq_getElem hi, ih (i + 1) (by omega), List.range'_succ, List.countP_cons]
    cases e : v.index[i] <;> simp [at', List.getElem?_eq_getElem hi, e]

/-- **C167g.** The count is the number of indices whose slot is not NULL, below any
bound behind the active slots. -/
theorem count_spec (v : Vec α) (h : Inv v) (n : Nat) (hn : v.active ≤ n) :
    count v = some ((List.range n).countP fun j => (at' v j).isSome) := by
  unfold count
  rw [countFrom_spec v h 0 v.active (by omega), List.range_eq_range']
  congr 1
  obtain ⟨k, rfl⟩ : ∃ k, n = v.active + k := ⟨n - v.active, by omega⟩
  rw [← List.range'_append_1 (s := 0), List.countP_append]
  have : (List.range' (0 + v.active) k).countP (fun j => (at' v j).isSome) = 0 := by
    rw [List.countP_eq_zero]
    intro j hj
    have := List.mem_range'_1.mp hj
    rw [h.rest j (by omega)]
    simp
  omega

/-- A copy has the same slots. -/
theorem copy_spec (v : Vec α) : copy v = v := by simp [copy]

/-- A caller's operation. -/
inductive Op (α : Type)
  | set (x : Option α)
  | setIndex (i : Nat) (x : Option α)
  | unset (i : Nat)
  | ensure (i : Nat)

/-- Runs an operation. -/
def step (v : Vec α) : Op α → Option (Vec α)
  | .set x => (set v x).map (·.1)
  | .setIndex i x => setIndex v i x
  | .unset i => unset v i
  | .ensure i => (lookupEnsure v i).map (·.1)

/-- **C167h.** No sequence of operations on a new vector accesses a slot that is
not allocated, and the invariant holds after each. -/
theorem run_inv (n : Nat) (ops : List (Op α)) :
    ∃ v, ops.foldlM step (init n : Vec α) = some v ∧ Inv v := by
  have : ∀ (u : Vec α), Inv u → ∃ v, ops.foldlM step u = some v ∧ Inv v := by
    induction ops with
    | nil => exact fun u hu => ⟨u, rfl, hu⟩
    | cons op ops ih =>
      intro u hu
      have hs : ∃ w, step u op = some w ∧ Inv w := by
        cases op with
        | set x =>
          obtain ⟨w, k, h1, h2, _⟩ := set_spec u x hu
          exact ⟨w, by simp [step, h1], h2⟩
        | setIndex i x =>
          obtain ⟨w, h1, h2, _⟩ := setIndex_spec u i x hu
          exact ⟨w, h1, h2⟩
        | unset i =>
          obtain ⟨w, h1, h2, _⟩ := unset_spec u i hu
          exact ⟨w, h1, h2⟩
        | ensure i =>
          obtain ⟨w, h1, h2, _⟩ := lookupEnsure_spec u i hu
          exact ⟨w, by simp [step, h1], h2⟩
      obtain ⟨w, h1, h2⟩ := hs
      obtain ⟨v, h3, h4⟩ := ih w h2
      exact ⟨v, by simp [List.foldlM_cons, h1, h3], h4⟩
  exact this _ (inv_init n)

/-- Slot 5 of a vector of size 1, then the first free slot, then slot 5 unset. -/
example : (do
    let v ← setIndex (init 1 : Vec Nat) 5 (some 7)
    let (v, k) ← set v (some 8)
    let w ← unset v 5
    some (v.index.length, v.active, k, w.active, ← count w)) = some (8, 6, 0, 1, 1) := by decide

example : Inv (init 0 : Vec Nat) := inv_init 0

end Verif.Vector
