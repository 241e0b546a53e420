import Verif.Stats.Rate
/-!
Names and indices of rate counter groups (C97).
-/
namespace Verif.Stats

/-- every group has a combination of name and index of its own -/
def Unique (gs : List Group) : Prop := gs.Pairwise fun g h => g.name ≠ h.name ∨ g.idx ≠ h.idx

theorem unusedFrom_ge (name : Name) (gs : List Group) (hm : ∀ g ∈ gs, g.name = name → g.idx ≠ 0xffffffff#32)
    (i : BitVec 32) : i.toNat ≤ (unusedFrom name gs i).toNat ∧
      ∀ g ∈ gs, g.name = name → g.idx.toNat < (unusedFrom name gs i).toNat := by
  induction gs generalizing i with
  | nil => simp [unusedFrom]
  | cons g gs ih =>
    have hm' : ∀ x ∈ gs, x.name = name → x.idx ≠ 0xffffffff#32 := fun x hx => hm x (List.mem_cons_of_mem _ hx)
    unfold unusedFrom
    by_cases hn : g.name = name
    · rw [if_neg (by simpa using hn)]
      have hmax := hm g List.mem_cons_self hn
      have hs : (g.idx + 1).toNat = g.idx.toNat + 1 := by
        have h1 : g.idx.toNat ≠ 0xffffffff := fun h => hmax (by apply BitVec.eq_of_toNat_eq; simpa using h)
        have := g.idx.isLt
        rw [BitVec.toNat_add]; simp; omega
      by_cases hle : i.toNat ≤ g.idx.toNat
      · rw [if_pos hle]
        obtain ⟨h1, h2⟩ := ih hm' (g.idx + 1)
        refine ⟨by omega, ?_⟩
        intro x hx hxn
        rcases List.mem_cons.1 hx with rfl | hx
        · omega
        · exact h2 x hx hxn
      · rw [if_neg hle]
        obtain ⟨h1, h2⟩ := ih hm' i
        refine ⟨h1, ?_⟩
        intro x hx hxn
        rcases List.mem_cons.1 hx with rfl | hx
        · omega
        · exact h2 x hx hxn
    · rw [if_pos hn]
      obtain ⟨h1, h2⟩ := ih hm' i
      refine ⟨h1, ?_⟩
      intro x hx hxn
      rcases List.mem_cons.1 hx with rfl | hx
      · exact absurd hxn hn
      · exact h2 x hx hxn

theorem identValid_no_dot {n : Name} (h : identValid (some n) = true) : mangle n = n := by
  rw [identValid_iff] at h
  obtain ⟨s, hs, -, hl⟩ := h
  cases hs
  unfold mangle
  conv_rhs => rw [← List.map_id n]
  apply List.map_congr_left
  intro c hc
  have h1 := hl c hc
  rw [if_neg]; · rfl
  rintro rfl
  exact absurd h1 (by decide)

/-- **Allocation.**  When the group name is a valid identifier as given, all
counters are named, and no group of that name has the index 4294967295, then
the new group gets an index no group of that name has - the requested one if
it was free - and can be looked up under it. -/
theorem alloc_unique_partial (s : Sys) (name : Name) (cn : List (Option Name)) (idx : BitVec 32)
    (hn : identValid (some name) = true) (hm : ∀ g ∈ s.groups, g.name = name → g.idx ≠ 0xffffffff#32)
    (id : Nat) (s' : Sys) (ha : alloc s name cn idx = (s', some id)) :
    ∃ g, s'.groups = g :: s.groups ∧ g.id = id ∧ g.name = name ∧ g.ctrs.length = cn.length ∧
      (∀ h ∈ s.groups, h.name = name → h.idx ≠ g.idx) ∧
      ((∀ h ∈ s.groups, h.name = name → h.idx ≠ idx) → g.idx = idx) ∧
      byNameIdx s'.groups name g.idx = some g ∧ (Unique s.groups → Unique s'.groups) := by
  unfold alloc at ha
  dsimp only at ha
  have key : ∀ i, i = (if (byNameIdx s.groups name idx).isSome then unusedIdx s.groups name else idx) →
      (∀ h ∈ s.groups, h.name = name → h.idx ≠ i) ∧ ((∀ h ∈ s.groups, h.name = name → h.idx ≠ idx) → i = idx) := by
    rintro i rfl
    by_cases hb : (byNameIdx s.groups name idx).isSome
    · rw [if_pos hb]
      constructor
      · intro h hh hhn he
        have := (unusedFrom_ge name s.groups hm 0).2 h hh hhn
        rw [he] at this
        exact absurd this (Nat.lt_irrefl _)
      · intro h
        unfold byNameIdx at hb
        rw [List.find?_isSome] at hb
        obtain ⟨x, hx, hp⟩ := hb
        simp at hp
        exact absurd hp.2 (h x hx hp.1)
    · rw [if_neg hb]
      refine ⟨?_, fun _ => rfl⟩
      intro h hh hhn he
      apply hb
      unfold byNameIdx
      rw [List.find?_isSome]
      exact ⟨h, hh, by simp [hhn, he]⟩
  have hdesc : ∀ nm cn', (if ¬ descValid name cn then descMangle name cn else some (name, cn)) = some (nm, cn') →
      nm = name := by
    intro nm cn' h
    split at h
    · unfold descMangle at h
      split at h
      · cases h
      · split at h
        · cases h; exact identValid_no_dot hn
        · cases h
    · cases h; rfl
  generalize hd : (if ¬ descValid name cn then descMangle name cn else some (name, cn)) = d at ha hdesc
  obtain ⟨k1, k2⟩ := key _ rfl
  generalize (if (byNameIdx s.groups name idx).isSome then unusedIdx s.groups name else idx) = j at ha k1 k2
  cases d with
  | none => simp at ha
  | some d =>
    obtain ⟨nm, cn'⟩ := d
    have hnm : nm = name := hdesc nm cn' rfl
    subst hnm
    simp only [Prod.mk.injEq, Option.some.injEq] at ha
    obtain ⟨rfl, rfl⟩ := ha
    refine ⟨_, rfl, rfl, rfl, by simp, k1, k2, by simp [byNameIdx], ?_⟩
    intro hu
    unfold Unique
    rw [List.pairwise_cons]
    refine ⟨?_, hu⟩
    intro h hh
    by_cases hq : h.name = nm
    · exact Or.inr (fun he => k1 h hh hq he.symm)
    · exact Or.inl (fun he => hq he.symm)

/-- when allocation fails: some name is NULL, or is no valid identifier even with
dots replaced by colons -/
theorem alloc_fails_iff (s : Sys) (name : Name) (cn : List (Option Name)) (idx : BitVec 32) :
    (alloc s name cn idx).2 = none ↔
      identValid (some (mangle name)) = false ∨ ∃ c ∈ cn, c = none ∨ ∃ n, c = some n ∧ identValid (some (mangle n)) = false := by
  have hv : ∀ n, identValid (some n) = true → identValid (some (mangle n)) = true := by
    intro n h; rw [identValid_no_dot h]; exact h
  have hnone : identValid none = false := rfl
  have hD : ∀ n c, descValid n c = true ↔ identValid (some n) = true ∧ ∀ x ∈ c, identValid x = true := by
    intro n c
    unfold descValid
    by_cases h : identValid (some n) = true <;> simp [h]
  unfold alloc
  dsimp only
  by_cases h : descValid name cn = true
  · simp only [h, not_true_eq_false, if_false]
    simp only [reduceCtorEq, false_iff, not_or, not_exists, not_and]
    rw [hD] at h
    refine ⟨by rw [hv _ h.1]; simp, ?_⟩
    intro c hc
    have := h.2 c hc
    refine ⟨?_, ?_⟩
    · rintro rfl; rw [hnone] at this; cases this
    · rintro n rfl; rw [hv _ this]; simp
  · simp only [h, not_false_eq_true, if_true, Bool.false_eq_true]
    unfold descMangle
    by_cases hany : cn.any Option.isNone
    · simp only [hany, if_true, true_iff]
      right
      obtain ⟨c, hc, he⟩ := List.any_eq_true.1 hany
      exact ⟨c, hc, Or.inl (by simpa using he)⟩
    · simp only [hany, if_false, Bool.false_eq_true]
      have hsome : ∀ c ∈ cn, ∃ n, c = some n := by
        intro c hc
        cases c with
        | none => exact absurd (List.any_eq_true.2 ⟨none, hc, rfl⟩) hany
        | some n => exact ⟨n, rfl⟩
      by_cases hm : descValid (mangle name) (cn.map (Option.map mangle)) = true
      · simp only [hm, if_true, reduceCtorEq, false_iff, not_or, not_exists, not_and]
        rw [hD] at hm
        refine ⟨by simp [hm.1], ?_⟩
        intro c hc
        obtain ⟨n, rfl⟩ := hsome c hc
        refine ⟨by simp, ?_⟩
        intro m he
        cases he
        have := hm.2 (some (mangle n)) (List.mem_map.2 ⟨some n, hc, rfl⟩)
        simp [this]
      · simp only [hm, if_false, Bool.false_eq_true, true_iff]
        rw [hD] at hm
        by_cases h1 : identValid (some (mangle name)) = true
        · right
          have : ¬ ∀ x ∈ cn.map (Option.map mangle), identValid x = true := fun hh => hm ⟨h1, hh⟩
          simp only [List.mem_map, forall_exists_index, and_imp, forall_apply_eq_imp_iff₂, not_forall] at this
          obtain ⟨c, hc, he⟩ := this
          obtain ⟨n, rfl⟩ := hsome c hc
          exact ⟨some n, hc, Or.inr ⟨n, rfl, by simpa using he⟩⟩
        · left; simpa using h1

/-- **Not guaranteed** for names with dots ("a.b"): the lookup is done with the name
before the dots are replaced, so two groups get the same name and index. -/
theorem alloc_unique_dots_counterexample : ∃ ops s, run ops Sys.init = some s ∧ ¬ Unique s.groups ∧
    ∀ o ∈ ops, ∃ n idx, o = .alloc n [] idx :=
  ⟨[.alloc [0x61, 0x2e, 0x62] [] 0, .alloc [0x61, 0x2e, 0x62] [] 0], _, rfl, by unfold Unique; decide,
    by intro o ho; simp at ho; subst ho; exact ⟨_, _, rfl⟩⟩

/-- **Not guaranteed** next to the index 4294967295: the next index wraps to 0. -/
theorem alloc_unique_wrap_counterexample : ∃ ops s, run ops Sys.init = some s ∧ ¬ Unique s.groups ∧
    ∀ o ∈ ops, ∃ n idx, o = .alloc n [] idx ∧ identValid (some n) = true :=
  ⟨[.alloc [0x61] [] 0xffffffff, .alloc [0x61] [] 0, .alloc [0x61] [] 0xffffffff], _, rfl,
    by unfold Unique; decide,
    by
      intro o ho
      simp at ho
      rcases ho with rfl | rfl | rfl <;> exact ⟨_, _, rfl, by decide⟩⟩

/-- lookup finds a group that has the name and the index, if there is one -/
theorem byNameIdx_spec (gs : List Group) (name : Name) (idx : BitVec 32) :
    (∀ g, byNameIdx gs name idx = some g → g ∈ gs ∧ g.name = name ∧ g.idx = idx) ∧
    (byNameIdx gs name idx = none ↔ ∀ g ∈ gs, ¬ (g.name = name ∧ g.idx = idx)) ∧
    (∀ g, Unique gs → g ∈ gs → g.name = name → g.idx = idx → byNameIdx gs name idx = some g) := by
  refine ⟨?_, ?_, ?_⟩
  · intro g h
    have := List.find?_some h
    simp at this
    exact ⟨List.mem_of_find?_eq_some h, this⟩
  · unfold byNameIdx; rw [List.find?_eq_none]; simp
  · intro g hu hg hn hi
    induction gs with
    | nil => cases hg
    | cons x gs ih =>
      unfold Unique at hu
      rw [List.pairwise_cons] at hu
      unfold byNameIdx
      rw [List.find?_cons]
      rcases List.mem_cons.1 hg with rfl | hg
      · simp [hn, hi]
      · have := hu.1 g hg
        have hx : (decide (x.name = name) && decide (x.idx = idx)) = false := by
          rw [hn, hi] at this
          rcases this with h | h <;> simp [h]
        rw [hx]
        exact ih hu.2 hg

/-- the counter found by name is the first of that name -/
theorem ctrByName_spec (g : Group) (name : Name) :
    (∀ i, ctrByName g name = some i ↔ g.ctrNames[i]? = some name ∧ ∀ j < i, g.ctrNames[j]? ≠ some name) ∧
    (ctrByName g name = none ↔ name ∉ g.ctrNames) := by
  constructor
  · intro i
    unfold ctrByName
    rw [List.findIdx?_eq_some_iff_getElem]
    constructor
    · rintro ⟨h, h1, h2⟩
      refine ⟨by rw [List.getElem?_eq_getElem h]; simpa using h1, ?_⟩
      intro j hj hq
      have := h2 j hj
      rw [List.getElem?_eq_getElem (by omega)] at hq
      simp at this hq
      exact this hq
    · rintro ⟨h1, h2⟩
      obtain ⟨h, he⟩ := List.getElem?_eq_some_iff.1 h1
      refine ⟨h, by simpa using he, ?_⟩
      intro j hj
      have := h2 j hj
      rw [List.getElem?_eq_getElem (by omega)] at this
      simpa using this
  · unfold ctrByName
    rw [List.findIdx?_eq_none_iff]
    constructor
    · intro h hm
      have := h name hm
      simp at this
    · intro h x hx
      simp
      rintro rfl
      exact h hx

/-- two groups "ab" asked for at index 3: the second gets 4 -/
example : ∃ s, run [.alloc [0x61, 0x62] [some [0x63]] 3, .alloc [0x61, 0x62] [some [0x63]] 3] Sys.init = some s ∧
    s.groups.map (·.idx) = [4, 3] ∧ (byNameIdx s.groups [0x61, 0x62] 4).map (·.id) = some 1 :=
  ⟨_, rfl, by decide, by decide⟩

end Verif.Stats
