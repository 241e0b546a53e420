import Verif.Fsm.Tree
namespace Verif.Fsm
open Verif

variable {U : Type}

/-- Terminating the children of an instance does what it should. -/
def Loop (user : User U) (f : Forest) : Prop :=
  ∀ (n : Nat) (w : World U) (par : Nat) (pi : Inst) (last : Option Nat), f.need ≤ n →
    w.insts par = some pi → pi.children = f.roots → IsForest w par f → f.ids.Nodup → par ∉ f.ids →
    (∀ c, last = some c → c ∉ f.ids) → (w.depth = 0 → w.collected = []) →
    ∃ rc w', exec user n (.children par .parent last) w = (.ok rc, w') ∧ After f.ids w w' ∧
      seen w'.log = seen w.log ++ forestLog w par f ∧
      ∀ i, i ∉ f.ids → w'.insts i = if i = par then some { pi with children := [] } else w.insts i

/-- The events of a termination, given the mode and what the parent is told. -/
def nodeLog (w : World U) (id : Nat) (parent : Option Nat) (kids : Forest) (cause : Cause) (told : List Ev) :
    List Ev :=
  [.terminating id cause] ++ sel (hasPre w id) (.called (.preTerm id cause)) ++ forestLog w id kids ++
    (parent.elim [] fun p => [.unlinked id p]) ++ sel (hasClean w id) (.called (.cleanup id cause)) ++
    (if w.depth = 0 ∧ w.safely = false then [.released id] ++ told else told ++ [.released id])

/-- A parent without this child. -/
def Inst.without (id : Nat) (pi : Inst) : Inst := { pi with children := pi.children.erase id }

theorem term_node {user : User U} (hq : QuietTerm user) {kids : Forest} (hloop : Loop user kids)
    {m : Nat} {w : World U} {id : Nat} {fi : Inst} {cause : Cause} {told : List Ev}
    (hm : kids.need + 2 ≤ m) (hi : w.insts id = some fi) (ht : fi.terminating = false) (hl : fi.linked = true)
    (hc : fi.children = kids.roots) (hf : IsForest w id kids) (hn : (id :: kids.ids).Nodup)
    (hcoll : w.depth = 0 → w.collected = [])
    (hpar : ∀ p, fi.parent = some p → p ∉ id :: kids.ids ∧ ∃ pi, w.insts p = some pi ∧ id ∈ pi.children)
    (htold : ∀ w6 : World U, (∀ p, fi.parent = some p → w6.insts p = (w.insts p).map (Inst.without id)) →
      ∃ rc u', (fi.parent.elim (Status.ok 0, w6) fun p =>
        if cause ≠ .parent then
          exec user m (.op (.dispatch (some p) fi.parentTermEvent)) (w6.emit (.notified id p fi.parentTermEvent))
        else (Status.ok 0, w6)) = (Status.ok rc, { w6 with u := u', log := w6.log ++ told }))
    (hseen : seen told = told) :
    ∃ w', exec user (m + 1) (.op (.term id cause)) w = (.ok 0, w') ∧ After (id :: kids.ids) w w' ∧
      seen w'.log = seen w.log ++ nodeLog w id fi.parent kids cause told ∧
      ∀ i, i ∉ id :: kids.ids →
        w'.insts i = if some i = fi.parent then (w.insts i).map (Inst.without id) else w.insts i := by
  have hidk : id ∉ kids.ids := (List.nodup_cons.mp hn).1
  have hpre : hasPre w id = fi.fsm.hasPreTerm := by simp [hasPre, hi]
  have hcln : hasClean w id = fi.fsm.hasCleanup := by simp [hasClean, hi]
  obtain ⟨k, rfl⟩ : ∃ k, m = k + 1 := ⟨m - 1, by omega⟩
  -- the beginning
  obtain ⟨a1, a2, a3, a4, a5⟩ := mark_eq w id fi cause
  have a6 : (w.mark id fi cause).safely = w.safely ∧ (w.mark id fi cause).dealloc = w.dealloc ∧
      (w.depth = 0 ∧ w.safely = false → (w.mark id fi cause).depth = 0) ∧
      (¬ (w.depth = 0 ∧ w.safely = false) → (w.mark id fi cause).depth = w.depth + 1) := by
    unfold World.mark
    simp only []
    split
    · rename_i hx
      replace hx : w.safely = true ∨ w.depth ≠ 0 := hx
      refine ⟨rfl, rfl, ?_, fun _ => rfl⟩
      rintro ⟨h1, h2⟩
      rcases hx with hx | hx
      · rw [h2] at hx; cases hx
      · exact absurd h1 hx
    · rename_i hx
      replace hx : ¬ (w.safely = true ∨ w.depth ≠ 0) := hx
      have h1 : w.depth = 0 := by
        by_contra h; exact hx (Or.inr h)
      have h2 : w.safely = false := by
        cases hs : w.safely
        · rfl
        · exact absurd (Or.inl hs) hx
      exact ⟨rfl, rfl, fun _ => h1, fun h => absurd ⟨h1, h2⟩ h⟩
  obtain ⟨a6, a7, a8, a9⟩ := a6
  generalize hw1 : w.mark id fi cause = w1 at a1 a2 a3 a4 a5 a6 a7 a8 a9
  -- pre_term
  obtain ⟨u2, rc2, b1⟩ := exec_opt hq k (.preTerm id cause) fi.fsm.hasPreTerm trivial w1
  generalize hw2 : ({ w1 with u := u2, log := w1.log ++ sel fi.fsm.hasPreTerm (.called (.preTerm id cause)) } : World U)
    = w2 at b1
  have b2 : w2.insts = w1.insts := by rw [← hw2]
  have b3 : w2.log = w1.log ++ sel fi.fsm.hasPreTerm (.called (.preTerm id cause)) := by rw [← hw2]
  have b4 : w2.next = w1.next ∧ w2.safely = w1.safely ∧ w2.dealloc = w1.dealloc ∧ w2.depth = w1.depth ∧
    w2.collected = w1.collected := by rw [← hw2]; exact ⟨rfl, rfl, rfl, rfl, rfl⟩
  have bi : ∀ i, w2.insts i = if i = id then some { fi with terminating := true } else w.insts i := by
    intro i; rw [b2, a1]; rfl
  have bk : ∀ i ∈ kids.ids, w2.insts i = w.insts i := by
    intro i hik
    rw [bi, if_neg (by intro h; rw [h] at hik; exact hidk hik)]
  -- the children
  obtain ⟨rc3, w3, c1, c2, c3, c4⟩ := hloop (k + 1) w2 id { fi with terminating := true } none (by omega)
    (by rw [bi, if_pos rfl]) hc (isForest_congr kids id bk hf) (List.nodup_cons.mp hn).2 hidk
    (by intro c h; cases h) (by rw [b4.2.2.2.1, b4.2.2.2.2, a4]; intro h; exact hcoll (by omega))
  have ci : w3.insts id = some { fi with terminating := true, children := [] } := by
    rw [c4 id hidk, if_pos rfl]
  have co : ∀ i, i ∉ id :: kids.ids → w3.insts i = w.insts i := by
    intro i hi'
    simp only [List.mem_cons, not_or] at hi'
    rw [c4 i hi'.2, if_neg hi'.1, bi, if_neg hi'.1]
  -- leaving the parent
  have hd : ∃ w4, (fi.parent.elim (some w3) fun p => (w3.delChild id p).map fun w => w.emit (.unlinked id p)) =
      some w4 ∧
      w4.next = w3.next ∧ w4.safely = w3.safely ∧ w4.dealloc = w3.dealloc ∧ w4.depth = w3.depth ∧
      w4.collected = w3.collected ∧ w4.log = w3.log ++ (fi.parent.elim [] fun p => [.unlinked id p]) ∧
      (∀ i, w4.insts i = if some i = fi.parent then (w.insts i).map (Inst.without id) else w3.insts i) := by
    cases hp : fi.parent with
    | none => exact ⟨w3, rfl, rfl, rfl, rfl, rfl, rfl, by simp, fun i => by simp⟩
    | some p =>
      obtain ⟨p1, pi, p2, p3⟩ := hpar p hp
      have p4 : w3.insts p = some pi := by rw [co p p1]; exact p2
      refine ⟨(w3.put p (pi.without id)).emit (.unlinked id p), ?_, rfl, rfl, rfl, rfl, rfl, rfl, ?_⟩
      · simp only [Option.elim, World.delChild, p4, if_pos p3, Option.map_some]
        rfl
      · intro i
        simp only [World.emit, World.put, Option.some.injEq]
        by_cases hip : i = p
        · rw [if_pos hip, if_pos hip, hip, p2]; rfl
        · rw [if_neg hip, if_neg hip]
  obtain ⟨w4, d1, d2, d3, d4, d5, d6, d7, d8⟩ := hd
  -- cleanup
  obtain ⟨u5, rc5, e1⟩ := exec_opt hq k (.cleanup id cause) fi.fsm.hasCleanup trivial w4
  generalize hw5 : ({ w4 with u := u5, log := w4.log ++ sel fi.fsm.hasCleanup (.called (.cleanup id cause)) } : World U)
    = w5 at e1
  have e2 : w5.insts = w4.insts := by rw [← hw5]
  have e3 : w5.log = w4.log ++ sel fi.fsm.hasCleanup (.called (.cleanup id cause)) := by rw [← hw5]
  have e4 : w5.next = w4.next ∧ w5.safely = w4.safely ∧ w5.dealloc = w4.dealloc ∧ w5.depth = w4.depth ∧
    w5.collected = w4.collected := by rw [← hw5]; exact ⟨rfl, rfl, rfl, rfl, rfl⟩
  have hidp : some id ≠ fi.parent := by
    intro h
    exact (hpar id h.symm).1 List.mem_cons_self
  have ei : w5.insts id = some { fi with terminating := true, children := [] } := by
    rw [e2, d8, if_neg hidp, ci]
  have eo : ∀ i, i ∉ id :: kids.ids →
      w5.insts i = if some i = fi.parent then (w.insts i).map (Inst.without id) else w.insts i := by
    intro i hi'
    rw [e2, d8, co i hi']
  have ek : ∀ i ∈ kids.ids, w5.insts i = w3.insts i := by
    intro i hik
    rw [e2, d8, if_neg]
    intro h
    exact (hpar i h.symm).1 (List.mem_cons_of_mem _ hik)
  have edep : w5.depth = w1.depth := by rw [e4.2.2.2.1, d5, c2.depth, b4.2.2.2.1]
  have edeal : w5.dealloc = w.dealloc := by rw [e4.2.2.1, d4, c2.dealloc, b4.2.2.1, a7]
  have esafe : w5.safely = w.safely := by rw [e4.2.1, d3, c2.safely, b4.2.1, a6]
  have enext : w5.next = w.next := by rw [e4.1, d2, c2.next, b4.1, a2]
  have hsel : ∀ b f, seen (sel b (.called f)) = sel b (.called f) := by
    intro b f; cases b <;> rfl
  have hunl : seen (fi.parent.elim [] fun p => [Ev.unlinked id p]) = (fi.parent.elim [] fun p => [Ev.unlinked id p]) := by
    cases fi.parent <;> rfl
  have elog : seen w5.log = seen w.log ++ ([.terminating id cause] ++ sel (hasPre w id) (.called (.preTerm id cause)) ++
      forestLog w id kids ++ (fi.parent.elim [] fun p => [.unlinked id p]) ++
      sel (hasClean w id) (.called (.cleanup id cause))) := by
    rw [e3, seen_append, hsel, d7, seen_append, hunl, c3, b3, seen_append, hsel, a3, seen_append,
      forestLog_congr kids id bk, hpre, hcln]
    simp only [List.append_assoc]
    rfl
  -- run it
  have hrun : ∀ w6 w7 w8 : World U, ∀ rc7, (if w5.depth = 0 then w5.free id else some w5) = some w6 →
      (fi.parent.elim (Status.ok 0, w6) fun p =>
        if cause ≠ .parent then
          exec user (k + 1) (.op (.dispatch (some p) fi.parentTermEvent)) (w6.emit (.notified id p fi.parentTermEvent))
        else (Status.ok 0, w6)) = (Status.ok rc7, w7) →
      (if w7.depth ≠ 0 then ({ w7 with depth := w7.depth - 1 }).free id else some w7) = some w8 →
      exec user (k + 1 + 1) (.op (.term id cause)) w = (.ok 0, w8) := by
    intro w6 w7 w8 rc7 h6 h7 h8
    generalize hm' : k + 1 = m at b1 c1 e1 h7 ⊢
    rw [exec]
    simp only [hi, ht, Bool.false_eq_true, if_false, hw1]
    rw [b1]
    simp only [Res.andThen]
    rw [c1]
    simp only [ci]
    rw [d1]
    simp only [cont]
    rw [e1]
    simp only [ei]
    rw [h6]
    simp only []
    rw [h7]
    simp only []
    rw [h8]
  by_cases hmode : w.depth = 0 ∧ w.safely = false
  · -- at once
    have h0 : w5.depth = 0 := by rw [edep]; exact a8 hmode
    obtain ⟨w6, f1, f2, f3, f4, f5, f6, f7, f8, f9⟩ := free_spec (fi := { fi with terminating := true, children := [] }) ei hl
    have hc5 : w5.collected = [] := by
      rw [e4.2.2.2.2, d6]
      exact c2.coll.1 (by rw [b4.2.2.2.1]; exact a8 hmode)
    have g6 : ∀ i, i ∉ id :: kids.ids →
        w6.insts i = if some i = fi.parent then (w.insts i).map (Inst.without id) else w.insts i := by
      intro i hi'
      have hne : i ≠ id := by simp only [List.mem_cons, not_or] at hi'; exact hi'.1
      rw [f9, hc5, if_neg (by rintro ⟨_, _, h⟩; exact hne (by simpa using h)), if_neg hne]
      exact eo i hi'
    obtain ⟨rc7, u7, g7⟩ := htold w6 (by
      intro p hp
      rw [g6 p (hpar p hp).1, if_pos hp.symm])
    have h7d : w6.depth = 0 := by rw [f5]; exact h0
    refine ⟨_, hrun w6 _ _ rc7 (by rw [if_pos h0]; exact f1) g7 (by rw [if_neg (by simpa using h7d)]), ?_, ?_, ?_⟩
    · refine ⟨f2.trans enext, f3.trans esafe, f4.trans edeal, by simp only; rw [h7d, hmode.1], ?_, ?_, ?_⟩
      · intro i hi'
        rcases List.mem_cons.mp hi' with rfl | hik
        · refine ⟨?_, ?_⟩
          · rintro ⟨_, h⟩
            simp only []
            rw [f9, if_pos ⟨h0, by rw [edeal]; exact h, List.mem_cons_self⟩]
          · rintro (h | h)
            · exact absurd hmode.1 h
            · refine ⟨{ fi with terminating := true, children := [], timer := none, linked := false }, ?_, rfl, rfl⟩
              simp only []
              rw [f9, if_neg (by rintro ⟨_, h', _⟩; rw [edeal, h] at h'; cases h'), if_pos rfl]
        · have hne : i ≠ id := by intro h; rw [h] at hik; exact hidk hik
          have h6 : w6.insts i = w3.insts i := by
            rw [f9, hc5, if_neg (by rintro ⟨_, _, h⟩; exact hne (by simpa using h)), if_neg hne, ek i hik]
          obtain ⟨g1, g2⟩ := c2.gone i hik
          have hd2 : w2.depth = 0 := by rw [b4.2.2.2.1]; exact a8 hmode
          have hdl2 : w2.dealloc = w.dealloc := by rw [b4.2.2.1, a7]
          refine ⟨?_, ?_⟩
          · rintro ⟨_, h⟩
            simp only []
            rw [h6]
            exact g1 ⟨hd2, hdl2.trans h⟩
          · rintro (h | h)
            · exact absurd hmode.1 h
            · obtain ⟨fj, j1, j2⟩ := g2 (Or.inr (hdl2.trans h))
              exact ⟨fj, by simp only []; rw [h6]; exact j1, j2⟩
      · intro _
        exact f8 h0
      · intro h; exact absurd hmode.1 h
    · simp only []
      rw [seen_append, hseen, f6, elog]
      unfold nodeLog
      rw [if_pos hmode]
      simp only [List.append_assoc]
    · intro i hi'
      exact g6 i hi'
  · -- later
    have h0 : w5.depth = w.depth + 1 := by rw [edep]; exact a9 hmode
    have h0' : w5.depth ≠ 0 := by omega
    obtain ⟨rc7, u7, g7⟩ := htold w5 (by
      intro p hp
      rw [eo p (hpar p hp).1, if_pos hp.symm])
    have hd2 : w2.depth ≠ 0 := by rw [b4.2.2.2.1, a9 hmode]; omega
    have hc5 : ∀ i, i ∈ w5.collected ↔ i ∈ w.collected ∨ i ∈ kids.ids := by
      intro i
      rw [e4.2.2.2.2, d6, c2.coll.2 hd2 i, b4.2.2.2.2, a4]
    obtain ⟨w8, f1, f2, f3, f4, f5, f6, f7, f8, f9⟩ := free_spec
      (w := ({ w5 with u := u7, log := w5.log ++ told, depth := w5.depth - 1 } : World U))
      (fi := { fi with terminating := true, children := [] }) ei hl
    simp only [] at f2 f3 f4 f5 f6 f7 f8 f9
    have h5m : w5.depth - 1 = w.depth := by omega
    rw [h5m] at f5 f7 f8 f9
    refine ⟨w8, hrun w5 _ w8 rc7 (by rw [if_neg h0']) g7 (by rw [if_pos h0']; exact f1), ?_, ?_, ?_⟩
    · refine ⟨f2.trans enext, f3.trans esafe, f4.trans edeal, f5, ?_, f8, ?_⟩
      · intro i hi'
        rcases List.mem_cons.mp hi' with rfl | hik
        · refine ⟨?_, ?_⟩
          · rintro ⟨h, h'⟩
            rw [f9, if_pos ⟨h, by rw [edeal]; exact h', List.mem_cons_self⟩]
          · intro h
            refine ⟨{ fi with terminating := true, children := [], timer := none, linked := false }, ?_, rfl, rfl⟩
            rw [f9, if_neg ?_, if_pos rfl]
            rintro ⟨h1, h2, _⟩
            rw [edeal] at h2
            rcases h with h | h
            · exact h h1
            · rw [h2] at h; cases h
        · have hne : i ≠ id := by intro h; rw [h] at hik; exact hidk hik
          obtain ⟨fj, j1, j2⟩ := (c2.gone i hik).2 (Or.inl hd2)
          refine ⟨?_, ?_⟩
          · rintro ⟨h, h'⟩
            rw [f9, if_pos ⟨h, by rw [edeal]; exact h', List.mem_cons_of_mem _ ((hc5 i).mpr (Or.inr hik))⟩]
          · intro h
            refine ⟨fj, ?_, j2⟩
            rw [f9, if_neg ?_, if_neg hne, ek i hik]
            · exact j1
            rintro ⟨h1, h2, _⟩
            rw [edeal] at h2
            rcases h with h | h
            · exact h h1
            · rw [h2] at h; cases h
      · intro h i
        rw [f7 h]
        simp only [List.mem_cons, hc5 i]
        constructor
        · rintro (h | h | h)
          · exact Or.inr (Or.inl h)
          · exact Or.inl h
          · exact Or.inr (Or.inr h)
        · rintro (h | h | h)
          · exact Or.inr (Or.inl h)
          · exact Or.inl h
          · exact Or.inr (Or.inr h)
    · rw [f6, seen_append, hseen, elog]
      unfold nodeLog
      rw [if_neg hmode]
      simp only [List.append_assoc]
    · intro i hi'
      have hne : i ≠ id := by simp only [List.mem_cons, not_or] at hi'; exact hi'.1
      have hnk : i ∉ kids.ids := by simp only [List.mem_cons, not_or] at hi'; exact hi'.2
      rw [f9, if_neg, if_neg hne]
      · exact eo i hi'
      · rintro ⟨h1, _, h3⟩
        rcases List.mem_cons.mp h3 with h3 | h3
        · exact hne h3
        · rcases (hc5 i).mp h3 with h3 | h3
          · rw [hcoll h1] at h3; cases h3
          · exact hnk h3

end Verif.Fsm

namespace Verif.Fsm
open Verif

variable {U : Type}

theorem loop_all {user : User U} (hq : QuietTerm user) : ∀ f : Forest, Loop user f
  | .nil => by
    intro n w par pi last hn hi hc _ _ _ _ hcoll
    obtain ⟨k, rfl⟩ : ∃ k, n = k + 1 := ⟨n - 1, by simp only [Forest.need] at hn; omega⟩
    simp only [Forest.roots] at hc
    refine ⟨0, w, ?_, ?_, by simp [forestLog], ?_⟩
    · rw [exec]
      simp only [hi, hc]
    · exact ⟨rfl, rfl, rfl, rfl, fun i h => absurd h (by simp [Forest.ids]), hcoll, by simp [Forest.ids]⟩
    · intro i _
      split
      · rename_i h; rw [h, hi, ← hc]
      · rfl
  | .cons id kids rest => by
    intro n w par pi last hn hi hc hf hnd hpar hlast hcoll
    simp only [Forest.need] at hn
    simp only [Forest.roots] at hc
    obtain ⟨⟨fi, f1, f2, f3, f4, f5⟩, hfk, hfr⟩ := hf
    simp only [Forest.ids] at hnd hpar hlast
    have hn1 : (id :: kids.ids).Nodup := by
      have : List.Sublist (id :: kids.ids) (id :: (kids.ids ++ rest.ids)) :=
        List.Sublist.cons_cons _ (List.sublist_append_left _ _)
      exact hnd.sublist this
    have hn2 : rest.ids.Nodup := (List.nodup_append.mp (List.nodup_cons.mp hnd).2).2.1
    have hdis : ∀ i ∈ rest.ids, i ∉ id :: kids.ids := by
      intro i hir hik
      rcases List.mem_cons.mp hik with rfl | hik
      · exact (List.nodup_cons.mp hnd).1 (List.mem_append_right _ hir)
      · exact (List.nodup_append.mp (List.nodup_cons.mp hnd).2).2.2 i hik i hir rfl
    have hp1 : par ∉ id :: kids.ids := by
      intro h
      apply hpar
      rcases List.mem_cons.mp h with h | h
      · rw [h]; exact List.mem_cons_self
      · exact List.mem_cons_of_mem _ (List.mem_append_left _ h)
    have hp2 : par ∉ rest.ids := fun h => hpar (List.mem_cons_of_mem _ (List.mem_append_right _ h))
    obtain ⟨m, rfl⟩ : ∃ m, n = m + 1 + 1 := ⟨n - 2, by omega⟩
    obtain ⟨w1, t1, t2, t3, t4⟩ := term_node hq (loop_all hq kids) (m := m) (w := w) (cause := .parent) (told := [])
      (by omega) f1 f3 f4 f5 hfk hn1 hcoll
      (by
        intro p hp
        rw [f2] at hp
        cases hp
        exact ⟨hp1, pi, hi, by rw [hc]; exact List.mem_cons_self⟩)
      (by
        intro w6 _
        refine ⟨0, w6.u, ?_⟩
        rw [f2]
        simp) rfl
    have g1 : w1.insts par = some { pi with children := rest.roots } := by
      rw [t4 par hp1, if_pos f2.symm, hi, Option.map_some]
      unfold Inst.without
      rw [hc, List.erase_cons_head]
    have g2 : ∀ i, i ∉ id :: kids.ids → i ≠ par → w1.insts i = w.insts i := by
      intro i h1 h2
      rw [t4 i h1, if_neg (by rw [f2]; intro h; exact h2 (Option.some.inj h))]
    have g3 : ∀ i ∈ rest.ids, w1.insts i = w.insts i := fun i hir =>
      g2 i (hdis i hir) (by intro h; rw [h] at hir; exact hp2 hir)
    obtain ⟨rc, w2, l1, l2, l3, l4⟩ := loop_all hq rest (m + 1) w1 par { pi with children := rest.roots } (some id)
      (by omega) g1 rfl (isForest_congr rest par g3 hfr) hn2 hp2
      (by intro c hc' hcr; rw [← Option.some.inj hc'] at hcr; exact hdis id hcr List.mem_cons_self)
      (fun h => t2.coll.1 (t2.depth ▸ h))
    refine ⟨rc, w2, ?_, ?_, ?_, ?_⟩
    · generalize hk : m + 1 = k at t1 l1 ⊢
      rw [exec]
      simp only [hi, hc]
      rw [if_neg (by intro h; exact hlast id h.symm List.mem_cons_self), t1]
      simp only [Res.andThen]
      exact l1
    · refine ⟨l2.next.trans t2.next, l2.safely.trans t2.safely, l2.dealloc.trans t2.dealloc,
        l2.depth.trans t2.depth, ?_, ?_, ?_⟩
      · intro i hi'
        simp only [Forest.ids] at hi'
        by_cases hir : i ∈ rest.ids
        · have := l2.gone i hir
          rw [t2.depth, t2.dealloc] at this
          exact this
        · have hik : i ∈ id :: kids.ids := by
            rcases List.mem_cons.mp hi' with h | h
            · rw [h]; exact List.mem_cons_self
            · rcases List.mem_append.mp h with h | h
              · exact List.mem_cons_of_mem _ h
              · exact absurd h hir
          have he : w2.insts i = w1.insts i := by
            rw [l4 i hir, if_neg (by intro h; rw [h] at hik; exact hp1 hik)]
          obtain ⟨o1, o2⟩ := t2.gone i hik
          refine ⟨fun h => by rw [he]; exact o1 h, fun h => ?_⟩
          obtain ⟨fj, j1, j2⟩ := o2 h
          exact ⟨fj, by rw [he]; exact j1, j2⟩
      · intro h; exact l2.coll.1 (t2.depth.trans h)
      · intro h i
        rw [l2.coll.2 (by rw [t2.depth]; exact h) i, t2.coll.2 h i]
        simp only [Forest.ids, List.mem_cons, List.mem_append, or_assoc]
    · rw [l3, t3, forestLog_congr rest par g3, f2]
      unfold nodeLog
      simp only [forestLog, List.append_nil, List.nil_append, ite_self, Option.elim, List.append_assoc]
    · intro i hi'
      simp only [Forest.ids] at hi'
      have h1 : i ∉ rest.ids := fun h => hi' (List.mem_cons_of_mem _ (List.mem_append_right _ h))
      have h2 : i ∉ id :: kids.ids := by
        intro h
        apply hi'
        rcases List.mem_cons.mp h with h | h
        · rw [h]; exact List.mem_cons_self
        · exact List.mem_cons_of_mem _ (List.mem_append_left _ h)
      rw [l4 i h1]
      split
      · rfl
      · rename_i hne; exact g2 i h2 hne

/-- What a parent in a given state does with an event: the call of its
callback, if it accepts the event. -/
def reaction (p : Nat) (pi : Inst) (event : Nat) : List Ev :=
  if pi.terminating then []
  else if pi.fsm.allMask.getLsbD event ∧ pi.fsm.hasAllstate then [.called (.allstate p event)]
  else match pi.fsm.states[pi.state]? with
    | none => []
    | some fs =>
      if fs.inMask.getLsbD event ∧ fs.hasAction then [.called (.action p pi.state event)] else []

theorem dispatch_quiet {user : User U} (hq : QuietTerm user) {k : Nat} {w : World U} {p : Nat} {pi : Inst}
    {event : Nat} (hi : w.insts p = some pi) (hs : pi.state < pi.fsm.states.length) (he : event < 32) :
    ∃ rc u', exec user (k + 1 + 1) (.op (.dispatch (some p) event)) w =
      (.ok rc, { w with u := u', log := w.log ++ reaction p pi event }) := by
  have hst : pi.fsm.states[pi.state]? = some pi.fsm.states[pi.state] := List.getElem?_eq_getElem hs
  generalize pi.fsm.states[pi.state] = fs at hst
  generalize hm : k + 1 = m
  rw [exec]
  simp only [hi]
  unfold reaction
  by_cases h1 : pi.terminating = true
  · rw [if_pos h1, if_pos h1]
    exact ⟨-22, w.u, by simp⟩
  · rw [if_neg h1, if_neg h1]
    simp only [hst]
    rw [if_neg (by omega)]
    by_cases h2 : pi.fsm.allMask.getLsbD event = true ∧ pi.fsm.hasAllstate = true
    · rw [if_pos h2, if_pos h2, ← hm]
      obtain ⟨u', rc, h⟩ := exec_quiet hq k (.allstate p event) trivial (w.emit (.called (.allstate p event)))
      rw [h]
      exact ⟨0, u', rfl⟩
    · rw [if_neg h2, if_neg h2]
      by_cases h3 : fs.inMask.getLsbD event = true
      · rw [if_neg (by simpa using h3)]
        by_cases h4 : fs.hasAction = true
        · rw [if_pos h4, if_pos ⟨h3, h4⟩, ← hm]
          obtain ⟨u', rc, h⟩ := exec_quiet hq k (.action p pi.state event) trivial
            (w.emit (.called (.action p pi.state event)))
          rw [h]
          exact ⟨0, u', rfl⟩
        · rw [if_neg h4, if_neg (fun h => h4 h.2)]
          exact ⟨0, w.u, by simp⟩
      · rw [if_pos (by simpa using h3), if_neg (fun h => h3 h.1)]
        exact ⟨-1, w.u, by simp⟩

/-- What the parent is told when an instance ends. -/
def toldLog (w : World U) (id : Nat) (fi : Inst) (cause : Cause) : List Ev :=
  match fi.parent with
  | none => []
  | some p =>
    if cause = .parent then []
    else .notified id p fi.parentTermEvent :: ((w.insts p).elim [] fun pi => reaction p pi fi.parentTermEvent)

/-- C41, the part about trees: when the callbacks of a termination make no
calls, terminating an instance with any tree below it succeeds, and
* the events are those of `nodeLog`: every instance of the tree begins its
  termination, has its children terminated, leaves its parent, is cleaned up and
  released, in this order and once; the parent is told once, unless it is the
  cause;
* all instances of the tree are gone (or, if someone else is to free them,
  released; or, within another safe termination, collected);
* the parent has lost this child, and all other instances are as they were.

Missing for the full statement: callbacks that make calls (where it is false,
`stuck_child_counterexample`). -/
theorem term_tree_partial {user : User U} (hq : QuietTerm user) {kids : Forest} {n : Nat} {w : World U} {id : Nat}
    {fi : Inst} {cause : Cause} (hn : kids.need + 4 ≤ n) (hi : w.insts id = some fi)
    (ht : fi.terminating = false) (hl : fi.linked = true) (hc : fi.children = kids.roots)
    (hf : IsForest w id kids) (hnd : (id :: kids.ids).Nodup) (hcoll : w.depth = 0 → w.collected = [])
    (hpar : ∀ p, fi.parent = some p → p ∉ id :: kids.ids ∧ fi.parentTermEvent < 32 ∧
      ∃ pi, w.insts p = some pi ∧ id ∈ pi.children ∧ pi.state < pi.fsm.states.length) :
    ∃ w', exec user n (.op (.term id cause)) w = (.ok 0, w') ∧ After (id :: kids.ids) w w' ∧
      seen w'.log = seen w.log ++ nodeLog w id fi.parent kids cause (toldLog w id fi cause) ∧
      ∀ i, i ∉ id :: kids.ids →
        w'.insts i = if some i = fi.parent then (w.insts i).map (Inst.without id) else w.insts i := by
  obtain ⟨k, rfl⟩ : ∃ k, n = k + 1 + 1 + 1 := ⟨n - 3, by omega⟩
  have hreact : ∀ p pi e, seen (reaction p pi e) = reaction p pi e := by
    intro p pi e
    unfold reaction
    split
    · rfl
    split
    · rfl
    split
    · rfl
    split
    · rfl
    · rfl
  refine term_node hq (loop_all hq kids) (m := k + 1 + 1) (by omega) hi ht hl hc hf hnd hcoll
    (fun p hp => ⟨(hpar p hp).1, by obtain ⟨pi, h1, h2, _⟩ := (hpar p hp).2.2; exact ⟨pi, h1, h2⟩⟩) ?_ ?_
  · intro w6 h6
    unfold toldLog
    cases hp : fi.parent with
    | none => exact ⟨0, w6.u, by simp⟩
    | some p =>
      simp only [Option.elim]
      by_cases hca : cause = .parent
      · rw [if_neg (by simpa using hca), if_pos hca]
        exact ⟨0, w6.u, by simp⟩
      · obtain ⟨h1, h2, pi, h3, h4, h5⟩ := hpar p hp
        rw [if_pos hca, if_neg hca, h3]
        have h7 := h6 p hp
        rw [h3] at h7
        obtain ⟨rc, u', h⟩ := dispatch_quiet hq (k := k) (w := w6.emit (.notified id p fi.parentTermEvent)) (p := p)
          (pi := pi.without id) (event := fi.parentTermEvent) h7 h5 h2
        refine ⟨rc, u', h.trans ?_⟩
        simp only [World.emit, List.append_assoc]
        rfl
  · unfold toldLog
    split
    · rfl
    · split
      · rfl
      · rename_i p _ _
        cases w.insts p with
        | none => rfl
        | some pi =>
          have : ∀ (x : Ev) (L : List Ev), seen [x] = [x] → seen L = L → seen (x :: L) = x :: L := by
            intro x L h1 h2
            rw [show x :: L = [x] ++ L from rfl, seen_append, h1, h2]
          exact this _ _ rfl (hreact _ _ _)

end Verif.Fsm
