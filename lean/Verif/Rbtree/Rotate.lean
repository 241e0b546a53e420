import Verif.Rbtree.Rep
/-!
Rotation, seen on the tree.
-/
namespace Verif.Rbtree

theorem relinkL_spec {m0 m : Mem} {ps : Path} {h : Nat} (hp : PRep m0.root m0.node h ps)
    (hroot : m.root = m0.root) (hpid : pid ps ≠ 0 → m.node (pid ps) = m0.node (pid ps))
    (hR : ∀ c l i qs, ps = .R c l i :: qs → h ≠ l.id) (h' : Nat) :
    ∃ m', m.relinkL (pid ps) h h' = some m' ∧ Relinked ps m0 m' h' ∧ ∀ j, j ≠ pid ps → m'.node j = m.node j := by
  cases ps with
  | nil => exact ⟨m.setRoot h', by simp [Mem.relinkL, pid], rfl, fun _ _ => rfl⟩
  | cons fr ps =>
    cases fr with
    | L c i r =>
      obtain ⟨h1, h2, h3, h4⟩ := hp
      have hn := hpid h1
      simp only [pid] at hn
      refine ⟨m.put i { m.node i with left := h' }, ?_, ⟨hroot, ?_⟩, ?_⟩
      · simp [Mem.relinkL, pid, h1, Mem.left, Mem.get, hn, h2, Mem.setLeft]
      · simp [Mem.put, hn]
      · intro j hj; simp only [pid] at hj; simp [Mem.put, hj]
    | R c l i =>
      obtain ⟨h1, h2, h3, h4⟩ := hp
      have hn := hpid h1
      simp only [pid] at hn
      have hne := hR c l i ps rfl
      refine ⟨m.put i { m.node i with right := h' }, ?_, ⟨hroot, ?_⟩, ?_⟩
      · simp [Mem.relinkL, pid, h1, Mem.left, Mem.get, hn, h2, Mem.setRight, hne]
      · simp [Mem.put, hn]
      · intro j hj; simp only [pid] at hj; simp [Mem.put, hj]

theorem relinkR_spec {m0 m : Mem} {ps : Path} {h : Nat} (hp : PRep m0.root m0.node h ps)
    (hroot : m.root = m0.root) (hpid : pid ps ≠ 0 → m.node (pid ps) = m0.node (pid ps))
    (hL : ∀ c i r qs, ps = .L c i r :: qs → h ≠ r.id) (h' : Nat) :
    ∃ m', m.relinkR (pid ps) h h' = some m' ∧ Relinked ps m0 m' h' ∧ ∀ j, j ≠ pid ps → m'.node j = m.node j := by
  cases ps with
  | nil => exact ⟨m.setRoot h', by simp [Mem.relinkR, pid], rfl, fun _ _ => rfl⟩
  | cons fr ps =>
    cases fr with
    | L c i r =>
      obtain ⟨h1, h2, h3, h4⟩ := hp
      have hn := hpid h1
      simp only [pid] at hn
      have hne := hL c i r ps rfl
      refine ⟨m.put i { m.node i with left := h' }, ?_, ⟨hroot, ?_⟩, ?_⟩
      · simp [Mem.relinkR, pid, h1, Mem.right, Mem.get, hn, h2, Mem.setLeft, hne]
      · simp [Mem.put, hn]
      · intro j hj; simp only [pid] at hj; simp [Mem.put, hj]
    | R c l i =>
      obtain ⟨h1, h2, h3, h4⟩ := hp
      have hn := hpid h1
      simp only [pid] at hn
      refine ⟨m.put i { m.node i with right := h' }, ?_, ⟨hroot, ?_⟩, ?_⟩
      · simp [Mem.relinkR, pid, h1, Mem.right, Mem.get, hn, h2, Mem.setRight]
      · simp [Mem.put, hn]
      · intro j hj; simp only [pid] at hj; simp [Mem.put, hj]

theorem setParentIf_spec (m : Mem) (p v : Nat) :
    ∃ m', m.setParentIf p v = some m' ∧ m'.root = m.root ∧ (∀ j, j ≠ p ∨ p = 0 → m'.node j = m.node j) ∧
      (p ≠ 0 → m'.node p = { m.node p with parent := v }) := by
  unfold Mem.setParentIf
  by_cases h : p = 0
  · simp [h]
  · refine ⟨m.put p { m.node p with parent := v }, by simp [h, Mem.setParent, Mem.get], rfl, ?_, ?_⟩
    · intro j hj
      rcases hj with hj | hj
      · simp [Mem.put, hj]
      · exact absurd hj h
    · intro _; simp [Mem.put]

theorem pid_mem {ps : Path} (h : ps ≠ []) : pid ps ∈ before ps ∨ pid ps ∈ after ps := by
  cases ps with
  | nil => exact absurd rfl h
  | cons fr ps => cases fr <;> simp [pid, before, after]

theorem pid_ne {m : Mem} {ps : Path} {t : T} (hf : Focus m ps t) {j : Nat} (hj : j ∈ t.inorder) : j ≠ pid ps := by
  rintro rfl
  cases ps with
  | nil => exact rep_ne_zero hf.rep hj
  | cons fr ps =>
    have hn := hf.nodup
    simp only [List.nodup_append, List.mem_append] at hn
    rcases pid_mem (ps := fr :: ps) (by simp) with h | h
    · exact hn.1.2.2 _ h _ hj rfl
    · exact hn.2.2 _ (Or.inr hj) _ h rfl

/-- a node of the subtree is not the root of a sibling subtree -/
theorem sibling_R {m : Mem} {ps : Path} {t : T} (hf : Focus m ps t) {j : Nat} (hj : j ∈ t.inorder) (c : Bool) (l : T)
    (i : Nat) (qs : Path) (he : ps = .R c l i :: qs) : j ≠ l.id := by
  rintro rfl
  subst he
  by_cases hl : l = .nil
  · subst hl; exact rep_ne_zero hf.rep hj
  · have hn := hf.nodup
    simp only [List.nodup_append, List.mem_append, before] at hn
    exact hn.1.2.2 _ (Or.inr (Or.inl (id_mem hl))) _ hj rfl

theorem sibling_L {m : Mem} {ps : Path} {t : T} (hf : Focus m ps t) {j : Nat} (hj : j ∈ t.inorder) (c : Bool) (i : Nat)
    (r : T) (qs : Path) (he : ps = .L c i r :: qs) : j ≠ r.id := by
  rintro rfl
  subst he
  by_cases hl : r = .nil
  · subst hl; exact rep_ne_zero hf.rep hj
  · have hn := hf.nodup
    simp only [List.nodup_append, List.mem_append, after, List.mem_cons] at hn
    exact hn.2.2 _ (Or.inr hj) _ (Or.inr (Or.inl (id_mem hl))) rfl

/-- `__rb_rotate_left` -/
theorem rotateLeft_holds {m : Mem} {ps : Path} {c c' : Bool} {a b d : T} {x y : Nat}
    (h : Holds m (plug ps (.node c a x (.node c' b y d)))) :
    ∃ m', rotateLeft m x = some m' ∧ Holds m' (plug ps (.node c' (.node c a x b) y d)) := by
  have hf := (holds_focus _ _ _).1 h
  have hf0 := hf
  obtain ⟨f1, ⟨x0, gx, ra, y0, gy, rb, rd⟩, f3⟩ := hf0
  have gx : m.node x = ⟨pid ps, c, a.id, y⟩ := gx
  have hn := f3
  simp only [T.inorder, List.nodup_append, List.nodup_cons, List.mem_cons, List.mem_append] at hn
  have hxp : x ≠ pid ps := pid_ne hf (by simp [T.inorder])
  have hyp : y ≠ pid ps := pid_ne hf (by simp [T.inorder])
  have hbp : ∀ j ∈ b.inorder, j ≠ pid ps := fun j hj => pid_ne hf (by simp [T.inorder, hj])
  have hap : ∀ j ∈ a.inorder, j ≠ pid ps := fun j hj => pid_ne hf (by simp [T.inorder, hj])
  have hdp : ∀ j ∈ d.inorder, j ≠ pid ps := fun j hj => pid_ne hf (by simp [T.inorder, hj])
  have hxy : x ≠ y := by rintro rfl; exact hn.1.2.1.2.1.1 (Or.inr (Or.inl rfl))
  have hb0 := rep_id rb
  have hxb : x ∉ b.inorder := fun hj => hn.1.2.1.2.1.1 (Or.inl hj)
  have hxd : x ∉ d.inorder := fun hj => hn.1.2.1.2.1.1 (Or.inr (Or.inr hj))
  have hxa : x ∉ a.inorder := fun hj => hn.1.2.1.2.2 x hj x (Or.inl rfl) rfl
  have hyb : y ∉ b.inorder := fun hj => hn.1.2.1.2.1.2.2.2 y hj y (Or.inl rfl) rfl
  have hyd : y ∉ d.inorder := fun hj => hn.1.2.1.2.1.2.2.1.1 hj
  have hya : y ∉ a.inorder := fun hj => hn.1.2.1.2.2 y hj y (Or.inr (Or.inr (Or.inl rfl))) rfl
  have hbx : x ≠ b.id ∨ b.id = 0 := by
    by_cases hb : b = .nil
    · exact Or.inr (hb0.2 hb)
    · exact Or.inl (fun e => hxb (e ▸ id_mem hb))
  have hby : y ≠ b.id ∨ b.id = 0 := by
    by_cases hb : b = .nil
    · exact Or.inr (hb0.2 hb)
    · exact Or.inl (fun e => hyb (e ▸ id_mem hb))
  obtain ⟨m1, hm1⟩ : ∃ m1, m1 = m.put x { m.node x with right := b.id } := ⟨_, rfl⟩
  obtain ⟨m2, e2, r2, o2, s2⟩ := setParentIf_spec m1 b.id x
  obtain ⟨m3, hm3⟩ : ∃ m3, m3 = m2.put y { m2.node y with left := x } := ⟨_, rfl⟩
  obtain ⟨m4, hm4⟩ : ∃ m4, m4 = m3.put y { m3.node y with parent := pid ps } := ⟨_, rfl⟩
  have n1x : m1.node x = ⟨pid ps, c, a.id, b.id⟩ := by rw [hm1]; simp [Mem.put, gx]
  have n1 : ∀ j, j ≠ x → m1.node j = m.node j := by intro j hj; rw [hm1]; simp [Mem.put, hj]
  have n2x : m2.node x = ⟨pid ps, c, a.id, b.id⟩ := by rw [o2 x hbx, n1x]
  have n2y : m2.node y = ⟨x, c', b.id, d.id⟩ := by rw [o2 y hby, n1 y (Ne.symm hxy), gy]
  have n3y : m3.node y = ⟨x, c', x, d.id⟩ := by rw [hm3]; simp [Mem.put, n2y]
  have n4y : m4.node y = ⟨pid ps, c', x, d.id⟩ := by rw [hm4]; simp [Mem.put, n3y]
  have n4 : ∀ j, j ≠ y → m4.node j = m2.node j := by intro j hj; rw [hm4, hm3]; simp [Mem.put, hj]
  have r4 : m4.root = m.root := by rw [hm4, hm3]; simp only [Mem.put]; rw [r2, hm1]; rfl
  have n4p : pid ps ≠ 0 → m4.node (pid ps) = m.node (pid ps) := by
    intro hp0
    rw [n4 _ (Ne.symm hyp), o2 _ ?_, n1 _ (Ne.symm hxp)]
    by_cases hb : b = .nil
    · exact Or.inr (hb0.2 hb)
    · exact Or.inl (fun e => hbp _ (id_mem hb) e.symm)
  obtain ⟨m5, e5, l5, o5⟩ := relinkL_spec (m := m4) f1 r4 n4p
    (fun c l i qs he => sibling_R hf (j := x) (by simp [T.inorder]) c l i qs he) y
  obtain ⟨m6, hm6⟩ : ∃ m6, m6 = m5.put x { m5.node x with parent := y } := ⟨_, rfl⟩
  have n6x : m6.node x = ⟨y, c, a.id, b.id⟩ := by
    rw [hm6]; simp only [Mem.put, if_true]; rw [o5 x hxp, n4 x hxy, n2x]
  have n6 : ∀ j, j ≠ x → m6.node j = m5.node j := by intro j hj; rw [hm6]; simp [Mem.put, hj]
  refine ⟨m6, ?_, ?_⟩
  · unfold rotateLeft
    have q1 : m.right x = some y := by simp [Mem.right, Mem.get, x0, gx]
    have q2 : m.parent x = some (pid ps) := by simp [Mem.parent, Mem.get, x0, gx]
    have q3 : m.left y = some b.id := by simp [Mem.left, Mem.get, y0, gy]
    have q4 : m.setRight x b.id = some m1 := by rw [hm1]; simp [Mem.setRight, Mem.get, x0]
    have q5 : m2.setLeft y x = some m3 := by rw [hm3]; simp [Mem.setLeft, Mem.get, y0]
    have q6 : m3.setParent y (pid ps) = some m4 := by rw [hm4]; simp [Mem.setParent, Mem.get, y0]
    have q7 : m5.setParent x y = some m6 := by rw [hm6]; simp [Mem.setParent, Mem.get, x0]
    have e5' : m4.relinkL (pid ps) x y = some m5 := e5
    simp [q1, q2, q3, q4, e2, q5, q6, e5', q7]
  · rw [holds_focus]
    have far : ∀ j, j ≠ x → j ≠ y → (j ≠ b.id ∨ b.id = 0) → j ≠ pid ps → m6.node j = m.node j := by
      intro j h1 h2 h3 h4
      rw [n6 j h1, o5 j h4, n4 j h2, o2 j h3, n1 j h1]
    have bid : ∀ j, j ∉ b.inorder → (j ≠ b.id ∨ b.id = 0) := by
      intro j hj
      by_cases hb : b = .nil
      · exact Or.inr (hb0.2 hb)
      · exact Or.inl (fun e => hj (e ▸ id_mem hb))
    have l6 : Relinked ps m m6 y := by
      cases ps with
      | nil => rw [hm6]; exact l5
      | cons fr ps =>
        cases fr with
        | L c i r => obtain ⟨u, v⟩ := l5; exact ⟨by rw [hm6]; exact u, by rw [n6 i (Ne.symm hxp)]; exact v⟩
        | R c l i => obtain ⟨u, v⟩ := l5; exact ⟨by rw [hm6]; exact u, by rw [n6 i (Ne.symm hxp)]; exact v⟩
    refine ⟨?_, ⟨y0, ?_, ⟨x0, n6x, ?_, ?_⟩, ?_⟩, by simpa [T.inorder] using f3⟩
    · refine prep_relinked f1 ?_ l6 ?_
      · have := f3
        simp only [List.nodup_append, List.mem_append] at this ⊢
        exact ⟨this.1.1, this.2.1, fun p hp q hq => this.2.2 p (Or.inl hp) q hq⟩
      · intro j hj hjp
        have hd : ∀ k, (k ∈ a.inorder ∨ k = x ∨ k ∈ b.inorder ∨ k = y ∨ k ∈ d.inorder) → j ≠ k := by
          intro k hk
          rcases hj with hj | hj
          · exact hn.1.2.2 j hj k hk
          · exact fun e => hn.2.2 k (Or.inr hk) j hj e.symm
        refine far j (hd x (by simp)) (hd y (by simp)) ?_ hjp
        apply bid
        intro hjb
        exact hd j (by simp [hjb]) rfl
    · rw [n6 y (Ne.symm hxy), o5 y hyp, n4y]; rfl
    · refine rep_congr ra ?_
      intro j hj
      refine far j (fun e => hxa (e ▸ hj)) (fun e => hya (e ▸ hj)) (bid j ?_) (hap j hj)
      intro hjb
      exact hn.1.2.1.2.2 j hj j (Or.inr (Or.inl hjb)) rfl
    · refine rep_parent rb hn.1.2.1.2.1.2.1 ?_ ?_
      · intro j hj hjb
        exact far j (fun e => hxb (e ▸ hj)) (fun e => hyb (e ▸ hj)) (Or.inl hjb) (hbp j hj)
      · intro hb
        have hbm := id_mem hb
        rw [n6 _ (fun e => hxb (e ▸ hbm)), o5 _ (hbp _ hbm), n4 _ (fun e => hyb (e ▸ hbm)),
          s2 (fun e => hb (hb0.1 e)), n1 _ (fun e => hxb (e ▸ hbm))]
    · refine rep_congr rd ?_
      intro j hj
      refine far j (fun e => hxd (e ▸ hj)) (fun e => hyd (e ▸ hj)) (bid j ?_) (hdp j hj)
      intro hjb
      exact hn.1.2.1.2.1.2.2.2 j hjb j (Or.inr hj) rfl

/-- `__rb_rotate_right` -/
theorem rotateRight_holds {m : Mem} {ps : Path} {c c' : Bool} {a b d : T} {x y : Nat}
    (h : Holds m (plug ps (.node c (.node c' a y b) x d))) :
    ∃ m', rotateRight m x = some m' ∧ Holds m' (plug ps (.node c' a y (.node c b x d))) := by
  have hf := (holds_focus _ _ _).1 h
  have hf0 := hf
  obtain ⟨f1, ⟨x0, gx, ⟨y0, gy, ra, rb⟩, rd⟩, f3⟩ := hf0
  have gx : m.node x = ⟨pid ps, c, y, d.id⟩ := gx
  have hn := f3
  simp only [T.inorder, List.nodup_append, List.nodup_cons, List.mem_cons, List.mem_append] at hn
  have hxp : x ≠ pid ps := pid_ne hf (by simp [T.inorder])
  have hyp : y ≠ pid ps := pid_ne hf (by simp [T.inorder])
  have hbp : ∀ j ∈ b.inorder, j ≠ pid ps := fun j hj => pid_ne hf (by simp [T.inorder, hj])
  have hap : ∀ j ∈ a.inorder, j ≠ pid ps := fun j hj => pid_ne hf (by simp [T.inorder, hj])
  have hdp : ∀ j ∈ d.inorder, j ≠ pid ps := fun j hj => pid_ne hf (by simp [T.inorder, hj])
  have hN := hn.1.2.1
  have hxy : x ≠ y := by rintro rfl; exact hN.2.2 x (Or.inr (Or.inl rfl)) x (Or.inl rfl) rfl
  have hb0 := rep_id rb
  have hxb : x ∉ b.inorder := fun hj => hN.2.2 x (Or.inr (Or.inr hj)) x (Or.inl rfl) rfl
  have hxd : x ∉ d.inorder := fun hj => hN.2.1.1 hj
  have hxa : x ∉ a.inorder := fun hj => hN.2.2 x (Or.inl hj) x (Or.inl rfl) rfl
  have hyb : y ∉ b.inorder := fun hj => hN.1.2.1.1 hj
  have hyd : y ∉ d.inorder := fun hj => hN.2.2 y (Or.inr (Or.inl rfl)) y (Or.inr hj) rfl
  have hya : y ∉ a.inorder := fun hj => hN.1.2.2 y hj y (Or.inl rfl) rfl
  have bid : ∀ j, j ∉ b.inorder → (j ≠ b.id ∨ b.id = 0) := by
    intro j hj
    by_cases hb : b = .nil
    · exact Or.inr (hb0.2 hb)
    · exact Or.inl (fun e => hj (e ▸ id_mem hb))
  have hbx := bid x hxb
  have hby := bid y hyb
  obtain ⟨m1, hm1⟩ : ∃ m1, m1 = m.put x { m.node x with left := b.id } := ⟨_, rfl⟩
  obtain ⟨m2, e2, r2, o2, s2⟩ := setParentIf_spec m1 b.id x
  obtain ⟨m3, hm3⟩ : ∃ m3, m3 = m2.put y { m2.node y with right := x } := ⟨_, rfl⟩
  obtain ⟨m4, hm4⟩ : ∃ m4, m4 = m3.put y { m3.node y with parent := pid ps } := ⟨_, rfl⟩
  have n1x : m1.node x = ⟨pid ps, c, b.id, d.id⟩ := by rw [hm1]; simp [Mem.put, gx]
  have n1 : ∀ j, j ≠ x → m1.node j = m.node j := by intro j hj; rw [hm1]; simp [Mem.put, hj]
  have n2x : m2.node x = ⟨pid ps, c, b.id, d.id⟩ := by rw [o2 x hbx, n1x]
  have n2y : m2.node y = ⟨x, c', a.id, b.id⟩ := by rw [o2 y hby, n1 y (Ne.symm hxy), gy]
  have n3y : m3.node y = ⟨x, c', a.id, x⟩ := by rw [hm3]; simp [Mem.put, n2y]
  have n4y : m4.node y = ⟨pid ps, c', a.id, x⟩ := by rw [hm4]; simp [Mem.put, n3y]
  have n4 : ∀ j, j ≠ y → m4.node j = m2.node j := by intro j hj; rw [hm4, hm3]; simp [Mem.put, hj]
  have r4 : m4.root = m.root := by rw [hm4, hm3]; simp only [Mem.put]; rw [r2, hm1]; rfl
  have n4p : pid ps ≠ 0 → m4.node (pid ps) = m.node (pid ps) := by
    intro hp0
    rw [n4 _ (Ne.symm hyp), o2 _ ?_, n1 _ (Ne.symm hxp)]
    by_cases hb : b = .nil
    · exact Or.inr (hb0.2 hb)
    · exact Or.inl (fun e => hbp _ (id_mem hb) e.symm)
  obtain ⟨m5, e5, l5, o5⟩ := relinkR_spec (m := m4) f1 r4 n4p
    (fun c i r qs he => sibling_L hf (j := x) (by simp [T.inorder]) c i r qs he) y
  obtain ⟨m6, hm6⟩ : ∃ m6, m6 = m5.put x { m5.node x with parent := y } := ⟨_, rfl⟩
  have n6x : m6.node x = ⟨y, c, b.id, d.id⟩ := by
    rw [hm6]; simp only [Mem.put, if_true]; rw [o5 x hxp, n4 x hxy, n2x]
  have n6 : ∀ j, j ≠ x → m6.node j = m5.node j := by intro j hj; rw [hm6]; simp [Mem.put, hj]
  refine ⟨m6, ?_, ?_⟩
  · unfold rotateRight
    have q1 : m.left x = some y := by simp [Mem.left, Mem.get, x0, gx]
    have q2 : m.parent x = some (pid ps) := by simp [Mem.parent, Mem.get, x0, gx]
    have q3 : m.right y = some b.id := by simp [Mem.right, Mem.get, y0, gy]
    have q4 : m.setLeft x b.id = some m1 := by rw [hm1]; simp [Mem.setLeft, Mem.get, x0]
    have q5 : m2.setRight y x = some m3 := by rw [hm3]; simp [Mem.setRight, Mem.get, y0]
    have q6 : m3.setParent y (pid ps) = some m4 := by rw [hm4]; simp [Mem.setParent, Mem.get, y0]
    have q7 : m5.setParent x y = some m6 := by rw [hm6]; simp [Mem.setParent, Mem.get, x0]
    have e5' : m4.relinkR (pid ps) x y = some m5 := e5
    simp [q1, q2, q3, q4, e2, q5, q6, e5', q7]
  · rw [holds_focus]
    have far : ∀ j, j ≠ x → j ≠ y → (j ≠ b.id ∨ b.id = 0) → j ≠ pid ps → m6.node j = m.node j := by
      intro j h1 h2 h3 h4
      rw [n6 j h1, o5 j h4, n4 j h2, o2 j h3, n1 j h1]
    have l6 : Relinked ps m m6 y := by
      cases ps with
      | nil => rw [hm6]; exact l5
      | cons fr ps =>
        cases fr with
        | L c i r => obtain ⟨u, v⟩ := l5; exact ⟨by rw [hm6]; exact u, by rw [n6 i (Ne.symm hxp)]; exact v⟩
        | R c l i => obtain ⟨u, v⟩ := l5; exact ⟨by rw [hm6]; exact u, by rw [n6 i (Ne.symm hxp)]; exact v⟩
    refine ⟨?_, ⟨y0, ?_, ?_, ⟨x0, n6x, ?_, ?_⟩⟩, by simpa [T.inorder] using f3⟩
    · refine prep_relinked f1 ?_ l6 ?_
      · have := f3
        simp only [List.nodup_append, List.mem_append] at this ⊢
        exact ⟨this.1.1, this.2.1, fun p hp q hq => this.2.2 p (Or.inl hp) q hq⟩
      · intro j hj hjp
        have hd : ∀ k, ((k ∈ a.inorder ∨ k = y ∨ k ∈ b.inorder) ∨ k = x ∨ k ∈ d.inorder) → j ≠ k := by
          intro k hk
          rcases hj with hj | hj
          · exact hn.1.2.2 j hj k hk
          · exact fun e => hn.2.2 k (Or.inr hk) j hj e.symm
        refine far j (hd x (by simp)) (hd y (by simp)) ?_ hjp
        apply bid
        intro hjb
        exact hd j (by simp [hjb]) rfl
    · rw [n6 y (Ne.symm hxy), o5 y hyp, n4y]; rfl
    · refine rep_congr ra ?_
      intro j hj
      refine far j (fun e => hxa (e ▸ hj)) (fun e => hya (e ▸ hj)) (bid j ?_) (hap j hj)
      intro hjb
      exact hN.1.2.2 j hj j (Or.inr hjb) rfl
    · refine rep_parent rb hN.1.2.1.2 ?_ ?_
      · intro j hj hjb
        exact far j (fun e => hxb (e ▸ hj)) (fun e => hyb (e ▸ hj)) (Or.inl hjb) (hbp j hj)
      · intro hb
        have hbm := id_mem hb
        rw [n6 _ (fun e => hxb (e ▸ hbm)), o5 _ (hbp _ hbm), n4 _ (fun e => hyb (e ▸ hbm)),
          s2 (fun e => hb (hb0.1 e)), n1 _ (fun e => hxb (e ▸ hbm))]
    · refine rep_congr rd ?_
      intro j hj
      refine far j (fun e => hxd (e ▸ hj)) (fun e => hyd (e ▸ hj)) (bid j ?_) (hdp j hj)
      intro hjb
      exact hN.2.2 j (Or.inr (Or.inr hjb)) j (Or.inr hj) rfl

end Verif.Rbtree
