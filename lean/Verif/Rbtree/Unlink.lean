import Verif.Rbtree.Erase
import Mathlib.Data.List.Nodup
/-!
Taking a node out: `rb_erase`, `rb_replace_node`.
-/
namespace Verif.Rbtree

def T.height : T → Nat
  | .nil => 0
  | .node _ l _ r => max l.height r.height + 1

theorem plug_append (qs ps : Path) (t : T) : plug (qs ++ ps) t = plug ps (plug qs t) := by
  induction qs generalizing t with
  | nil => rfl
  | cons fr qs ih => cases fr <;> exact ih _

theorem before_append (qs ps : Path) : before (qs ++ ps) = before ps ++ before qs := by
  induction qs with
  | nil => simp [before]
  | cons fr qs ih => cases fr <;> simp [before, ih]

theorem after_append (qs ps : Path) : after (qs ++ ps) = after qs ++ after ps := by
  induction qs with
  | nil => simp [after]
  | cons fr qs ih => cases fr <;> simp [after, ih]

theorem pid_append (qs ps : Path) (h : qs ≠ []) : pid (qs ++ ps) = pid qs := by
  cases qs with
  | nil => exact absurd rfl h
  | cons fr qs => cases fr <;> rfl

theorem height_plug (ps : Path) (t : T) : ps.length + t.height ≤ (plug ps t).height := by
  induction ps generalizing t with
  | nil => simp [plug]
  | cons fr ps ih =>
    cases fr with
    | L c i r => have := ih (.node c t i r); simp only [plug, T.height, List.length_cons] at this ⊢; omega
    | R c l i => have := ih (.node c l i t); simp only [plug, T.height, List.length_cons] at this ⊢; omega

theorem plug_id_congr (qs : Path) (h : qs ≠ []) (t u : T) : (plug qs t).id = (plug qs u).id := by
  induction qs generalizing t u with
  | nil => exact absurd rfl h
  | cons fr qs ih =>
    cases qs with
    | nil => cases fr <;> rfl
    | cons g qs => cases fr <;> exact ih (by simp) _ _

/-- the root is in the surroundings -/
theorem plug_id_mem {ps : Path} (hne : ps ≠ []) (t : T) : (plug ps t).id ∈ before ps ∨ (plug ps t).id ∈ after ps := by
  induction ps generalizing t with
  | nil => exact absurd rfl hne
  | cons fr ps ih =>
    cases ps with
    | nil => cases fr <;> simp [plug, before, after, T.id]
    | cons g ps =>
      cases fr with
      | L c i r =>
        rcases ih (by simp) (.node c t i r) with h | h
        · left; exact h
        · right; show _ ∈ i :: (r.inorder ++ after (g :: ps)); simp only [List.mem_cons, List.mem_append]; exact Or.inr (Or.inr h)
      | R c l i =>
        rcases ih (by simp) (.node c l i t) with h | h
        · left; show _ ∈ before (g :: ps) ++ (l.inorder ++ [i]); simp only [List.mem_append]; exact Or.inl h
        · right; exact h

/-- a node with at most one child has gone, the child has taken its place -/
theorem removed_holds {m m' : Mem} {ps : Path} {c : Bool} {l r ch : T} {x : Nat} (h : Holds m (plug ps (.node c l x r)))
    (hch : (l = .nil ∧ ch = r) ∨ (r = .nil ∧ ch = l)) (hr : Relinked ps m m' ch.id)
    (hc : ch ≠ .nil → m'.node ch.id = { m.node ch.id with parent := pid ps })
    (he : ∀ j, j ≠ pid ps → j ≠ x → j ≠ ch.id ∨ ch.id = 0 → m'.node j = m.node j) : Holds m' (plug ps ch) := by
  have hf := (holds_focus _ _ _).1 h
  obtain ⟨f1, ⟨x0, gx, rl, rr⟩, f3⟩ := hf
  have hf := (holds_focus _ _ _).1 h
  have hin : (T.node c l x r).inorder = x :: ch.inorder ∨ (T.node c l x r).inorder = ch.inorder ++ [x] := by
    rcases hch with ⟨rfl, rfl⟩ | ⟨rfl, rfl⟩
    · left; simp [T.inorder]
    · right; simp [T.inorder]
  have hmem : ∀ j, j ∈ (T.node c l x r).inorder ↔ j = x ∨ j ∈ ch.inorder := by
    intro j; rcases hin with e | e <;> simp [e, or_comm]
  have rch : Rep m.node x ch := by rcases hch with ⟨-, rfl⟩ | ⟨-, rfl⟩ <;> assumption
  have h0 := rep_id rch
  have hn := f3
  simp only [List.nodup_append, List.mem_append] at hn
  have hxch : x ∉ ch.inorder ∧ ch.inorder.Nodup := by
    have := hn.1.2.1
    rcases hin with e | e
    · rw [e] at this; exact List.nodup_cons.1 this
    · rw [e, List.nodup_append] at this
      exact ⟨fun hj => this.2.2 x hj x (by simp) rfl, this.1⟩
  have hout : ∀ j, j ∈ before ps ∨ j ∈ after ps → j ≠ x ∧ (j ≠ ch.id ∨ ch.id = 0) := by
    intro j hj
    have hd : ∀ k ∈ (T.node c l x r).inorder, j ≠ k := by
      intro k hk
      rcases hj with hj | hj
      · exact hn.1.2.2 j hj k hk
      · exact fun e => hn.2.2 k (Or.inr hk) j hj e.symm
    refine ⟨hd x ((hmem x).2 (Or.inl rfl)), ?_⟩
    by_cases hc : ch = .nil
    · exact Or.inr (h0.2 hc)
    · exact Or.inl (hd _ ((hmem _).2 (Or.inr (id_mem hc))))
  rw [holds_focus]
  refine ⟨?_, ?_, ?_⟩
  · refine prep_relinked f1 ?_ hr ?_
    · rw [List.nodup_append]
      exact ⟨hn.1.1, hn.2.1, fun p hp q hq => hn.2.2 p (Or.inl hp) q hq⟩
    · intro j hj hjp
      exact he j hjp (hout j hj).1 (hout j hj).2
  · refine rep_parent rch hxch.2 ?_ hc
    intro j hj hjc
    exact he j (pid_ne hf ((hmem j).2 (Or.inr hj))) (fun e => hxch.1 (e ▸ hj)) (Or.inl hjc)
  · refine List.Nodup.sublist ?_ f3
    have : List.Sublist ch.inorder (T.node c l x r).inorder := by
      rcases hin with e | e <;> simp [e]
    exact ((List.Sublist.refl _).append this).append (List.Sublist.refl _)

/-- another node has taken the place of `x` -/
theorem replaced_holds {m m' : Mem} {ps : Path} {c : Bool} {l r : T} {x n : Nat} (h : Holds m (plug ps (.node c l x r)))
    (n0 : n ≠ 0) (hnew : n ∉ (plug ps (.node c l x r)).inorder) (hr : Relinked ps m m' n)
    (hnn : m'.node n = ⟨pid ps, c, l.id, r.id⟩)
    (hl : l ≠ .nil → m'.node l.id = { m.node l.id with parent := n })
    (hrr : r ≠ .nil → m'.node r.id = { m.node r.id with parent := n })
    (he : ∀ j, j ≠ pid ps → j ≠ x → j ≠ n → j ≠ l.id ∨ l.id = 0 → j ≠ r.id ∨ r.id = 0 → m'.node j = m.node j) :
    Holds m' (plug ps (.node c l n r)) := by
  have hf := (holds_focus _ _ _).1 h
  obtain ⟨f1, ⟨x0, gx, rl, rr⟩, f3⟩ := hf
  have hf := (holds_focus _ _ _).1 h
  rw [inorder_plug] at hnew
  have hn := f3
  simp only [T.inorder, List.nodup_append, List.nodup_cons, List.mem_cons, List.mem_append] at hn
  simp only [T.inorder, List.mem_cons, List.mem_append, not_or] at hnew
  obtain ⟨⟨hnb, hnl, hnx, hnr⟩, hna⟩ := hnew
  have lid : ∀ j, j ∉ l.inorder → (j ≠ l.id ∨ l.id = 0) := by
    intro j hj
    by_cases hb : l = .nil
    · exact Or.inr ((rep_id rl).2 hb)
    · exact Or.inl (fun e => hj (e ▸ id_mem hb))
  have rid : ∀ j, j ∉ r.inorder → (j ≠ r.id ∨ r.id = 0) := by
    intro j hj
    by_cases hb : r = .nil
    · exact Or.inr ((rep_id rr).2 hb)
    · exact Or.inl (fun e => hj (e ▸ id_mem hb))
  have hlr : ∀ j ∈ l.inorder, j ∉ r.inorder := fun j hj hk => hn.1.2.1.2.2 j hj j (Or.inr hk) rfl
  rw [holds_focus]
  refine ⟨?_, ⟨n0, hnn, ?_, ?_⟩, ?_⟩
  · refine prep_relinked f1 ?_ hr ?_
    · rw [List.nodup_append]
      exact ⟨hn.1.1, hn.2.1, fun p hp q hq => hn.2.2 p (Or.inl hp) q hq⟩
    · intro j hj hjp
      have hd : ∀ k, (k ∈ l.inorder ∨ k = x ∨ k ∈ r.inorder) → j ≠ k := by
        intro k hk
        rcases hj with hj | hj
        · exact hn.1.2.2 j hj k hk
        · exact fun e => hn.2.2 k (Or.inr hk) j hj e.symm
      refine he j hjp (hd x (by simp)) ?_ (lid j (fun hk => hd j (Or.inl hk) rfl)) (rid j (fun hk => hd j (Or.inr (Or.inr hk)) rfl))
      rintro rfl
      rcases hj with hj | hj
      · exact hnb hj
      · exact hna hj
  · refine rep_parent rl hn.1.2.1.1 ?_ hl
    intro j hj hjc
    exact he j (pid_ne hf (by simp [T.inorder, hj])) (fun e => hn.1.2.1.2.2 j hj x (Or.inl rfl) e) (fun e => hnl (e ▸ hj))
      (Or.inl hjc) (rid j (hlr j hj))
  · refine rep_parent rr hn.1.2.1.2.1.2 ?_ hrr
    intro j hj hjc
    exact he j (pid_ne hf (by simp [T.inorder, hj])) (fun e => hn.1.2.1.2.1.1 (e ▸ hj)) (fun e => hnr (e ▸ hj))
      (lid j (fun hk => hlr j hk hj)) (Or.inl hjc)
  · have e1 : before ps ++ (T.node c l n r).inorder ++ after ps
        = (before ps ++ l.inorder) ++ n :: (r.inorder ++ after ps) := by simp [T.inorder]
    have e2 : before ps ++ (T.node c l x r).inorder ++ after ps
        = (before ps ++ l.inorder) ++ x :: (r.inorder ++ after ps) := by simp [T.inorder]
    rw [e2, List.nodup_middle] at f3
    rw [e1, List.nodup_middle, List.nodup_cons]
    refine ⟨?_, (List.nodup_cons.1 f3).2⟩
    simp only [List.mem_append, not_or]
    exact ⟨⟨hnb, hnl⟩, hnr, hna⟩

/-- `rb_replace_node` with a node that is not in the tree -/
theorem replaceNode_holds {m : Mem} {ps : Path} {c : Bool} {l r : T} {x n : Nat} (h : Holds m (plug ps (.node c l x r)))
    (n0 : n ≠ 0) (hnew : n ∉ (plug ps (.node c l x r)).inorder) :
    ∃ m', replaceNode m x n = some m' ∧ Holds m' (plug ps (.node c l n r)) := by
  have hf := (holds_focus _ _ _).1 h
  have hg := h.get
  obtain ⟨f1, ⟨x0, gx, rl, rr⟩, f3⟩ := hf
  have hf := (holds_focus _ _ _).1 h
  have hn := f3
  have hnew' := hnew
  rw [inorder_plug] at hnew'
  simp only [T.inorder, List.nodup_append, List.nodup_cons, List.mem_cons, List.mem_append] at hn
  simp only [T.inorder, List.mem_cons, List.mem_append, not_or] at hnew'
  obtain ⟨⟨hnb, hnl, hnx, hnr⟩, hna⟩ := hnew'
  have hxp : x ≠ pid ps := pid_ne hf (by simp [T.inorder])
  have hnp : n ≠ pid ps := by
    rintro rfl
    cases ps with
    | nil => exact n0 rfl
    | cons fr ps =>
      rcases pid_mem (ps := fr :: ps) (by simp) with h | h
      · exact hnb h
      · exact hna h
  have lid : ∀ j, j ∉ l.inorder → (j ≠ l.id ∨ l.id = 0) := by
    intro j hj
    by_cases hb : l = .nil
    · exact Or.inr ((rep_id rl).2 hb)
    · exact Or.inl (fun e => hj (e ▸ id_mem hb))
  have rid : ∀ j, j ∉ r.inorder → (j ≠ r.id ∨ r.id = 0) := by
    intro j hj
    by_cases hb : r = .nil
    · exact Or.inr ((rep_id rr).2 hb)
    · exact Or.inl (fun e => hj (e ▸ id_mem hb))
  have hxl : x ∉ l.inorder := fun hj => hn.1.2.1.2.2 x hj x (Or.inl rfl) rfl
  have hxr : x ∉ r.inorder := hn.1.2.1.2.1.1
  have hlr : ∀ j ∈ l.inorder, j ∉ r.inorder := fun j hj hk => hn.1.2.1.2.2 j hj j (Or.inr hk) rfl
  obtain ⟨m1, e1, l1, o1⟩ := relinkL_spec (m := m) f1 rfl (fun _ => rfl)
    (fun c l i qs he => sibling_R hf (j := x) (by simp [T.inorder]) c l i qs he) n
  obtain ⟨m2, e2, r2, o2, s2⟩ := setParentIf_spec m1 l.id n
  obtain ⟨m3, e3, r3, o3, s3⟩ := setParentIf_spec m2 r.id n
  have n1x : m1.node x = ⟨pid ps, c, l.id, r.id⟩ := by rw [o1 x hxp, gx]
  have n2x : m2.node x = ⟨pid ps, c, l.id, r.id⟩ := by rw [o2 x (lid x hxl), n1x]
  have n3x : m3.node x = ⟨pid ps, c, l.id, r.id⟩ := by rw [o3 x (rid x hxr), n2x]
  obtain ⟨m4, hm4⟩ : ∃ m4, m4 = m3.put n ⟨pid ps, c, l.id, r.id⟩ := ⟨_, rfl⟩
  have n4 : ∀ j, j ≠ n → m4.node j = m3.node j := by intro j hj; rw [hm4]; simp [Mem.put, hj]
  have e1' : m.relinkL (pid ps) x n = some m1 := e1
  refine ⟨m4, ?_, ?_⟩
  · unfold replaceNode
    have q1 : m.parent x = some (pid ps) := by simp [Mem.parent, hg]
    have q2 : m1.left x = some l.id := by simp [Mem.left, Mem.get, x0, n1x]
    have q3 : m2.right x = some r.id := by simp [Mem.right, Mem.get, x0, n2x]
    have q4 : m3.get x = some ⟨pid ps, c, l.id, r.id⟩ := by simp [Mem.get, x0, n3x]
    have q5 : m3.get n = some (m3.node n) := by simp [Mem.get, n0]
    simp [q1, q2, q3, q4, q5, e1', e2, e3, hm4]
  · refine replaced_holds h n0 hnew ?_ (by rw [hm4]; simp [Mem.put]) ?_ ?_ ?_
    · have lp : ∀ i, i = pid ps → i ∈ before ps ∨ i ∈ after ps → m4.node i = m1.node i := by
        rintro i rfl hi
        rw [n4 _ (Ne.symm hnp), o3 _ (rid _ ?_), o2 _ (lid _ ?_)]
        · intro hk; exact pid_ne hf (by simp [T.inorder, hk]) rfl
        · intro hk; exact pid_ne hf (by simp [T.inorder, hk]) rfl
      have r4 : m4.root = m1.root := by rw [hm4]; show m3.root = _; rw [r3, r2]
      cases ps with
      | nil => exact r4.trans l1
      | cons fr ps =>
        cases fr with
        | L c i r => exact ⟨r4.trans l1.1, by rw [lp i rfl (by simp [after])]; exact l1.2⟩
        | R c l i => exact ⟨r4.trans l1.1, by rw [lp i rfl (by simp [before])]; exact l1.2⟩
    · intro hl
      have hm := id_mem hl
      rw [n4 _ (fun e => hnl (e ▸ hm)), o3 _ (rid _ (hlr _ hm)), s2 (fun e => hl ((rep_id rl).1 e)),
        o1 _ (pid_ne hf (by simp [T.inorder, hm]))]
    · intro hr
      have hm := id_mem hr
      rw [n4 _ (fun e => hnr (e ▸ hm)), s3 (fun e => hr ((rep_id rr).1 e)), o2 _ (lid _ (fun hk => hlr _ hk hm)),
        o1 _ (pid_ne hf (by simp [T.inorder, hm]))]
    · intro j h1 h2 h3 h4 h5
      rw [n4 j h3, o3 j h5, o2 j h4, o1 j h1]

/-- rb_erase with at most one child -/
theorem eraseOne_spec {m : Mem} {ps : Path} {c : Bool} {l r ch : T} {x : Nat} (h : Holds m (plug ps (.node c l x r)))
    (hch : (l = .nil ∧ ch = r) ∨ (r = .nil ∧ ch = l)) :
    ∃ m', eraseOne m x ch.id = some (m', ch.id, pid ps, c) ∧ Holds m' (plug ps ch) ∧ Relinked ps m m' ch.id ∧
      (ch ≠ .nil → m'.node ch.id = { m.node ch.id with parent := pid ps }) ∧
      (∀ j, j ≠ pid ps → j ≠ ch.id ∨ ch.id = 0 → m'.node j = m.node j) := by
  have hf := (holds_focus _ _ _).1 h
  have hg := h.get
  obtain ⟨f1, ⟨x0, gx, rl, rr⟩, f3⟩ := hf
  have hf := (holds_focus _ _ _).1 h
  have rch : Rep m.node x ch := by rcases hch with ⟨-, rfl⟩ | ⟨-, rfl⟩ <;> assumption
  have hmem : ∀ j ∈ ch.inorder, j ∈ (T.node c l x r).inorder := by
    rcases hch with ⟨-, rfl⟩ | ⟨-, rfl⟩ <;> intro j hj <;> simp [T.inorder, hj]
  have hcp : ch ≠ .nil → ch.id ≠ pid ps := fun hc => pid_ne hf (hmem _ (id_mem hc))
  obtain ⟨m1, e1, r1, o1, s1⟩ := setParentIf_spec m ch.id (pid ps)
  have np : m1.node (pid ps) = m.node (pid ps) := by
    by_cases hc : ch = .nil
    · exact o1 _ (Or.inr ((rep_id rch).2 hc))
    · exact o1 _ (Or.inl (Ne.symm (hcp hc)))
  obtain ⟨m2, e2, l2, o2⟩ := relinkL_spec (m := m1) f1 r1 (fun _ => np)
    (fun c l i qs he => sibling_R hf (j := x) (by simp [T.inorder]) c l i qs he) ch.id
  have e2' : m1.relinkL (pid ps) x ch.id = some m2 := e2
  have hc : ch ≠ .nil → m2.node ch.id = { m.node ch.id with parent := pid ps } := by
    intro hc
    rw [o2 _ (hcp hc), s1 (fun e => hc ((rep_id rch).1 e))]
  have he : ∀ j, j ≠ pid ps → j ≠ ch.id ∨ ch.id = 0 → m2.node j = m.node j := by
    intro j h1 h3
    rw [o2 j h1, o1 j h3]
  refine ⟨m2, ?_, removed_holds h hch l2 hc (fun j h1 _ h3 => he j h1 h3), l2, hc, he⟩
  have q1 : m.parent x = some (pid ps) := by simp [Mem.parent, hg]
  have q2 : m.black x = some c := by simp [Mem.black, hg]
  simp [eraseOne, q1, q2, e1, e2']

theorem leftmost_spec {m : Mem} (f : Nat) {par : Nat} {t : T} (h : Rep m.node par t) (ht : t ≠ .nil) (hf : t.height ≤ f) :
    ∃ qs cs s rs, t = plug qs (.node cs .nil s rs) ∧ before qs = [] ∧ leftmost f m t.id = some s := by
  induction t generalizing f par with
  | nil => exact absurd rfl ht
  | node c l i r ihl ihr =>
    obtain ⟨i0, gi, hl, hr⟩ := h
    simp only [T.height] at hf
    obtain ⟨f, rfl⟩ : ∃ g, f = g + 1 := ⟨f - 1, by omega⟩
    have e1 : m.left i = some l.id := by simp [Mem.left, Mem.get, i0, gi]
    by_cases hn : l = .nil
    · subst hn
      exact ⟨[], c, i, r, rfl, rfl, by simp [leftmost, T.id, e1]⟩
    · obtain ⟨qs, cs, s, rs, h1, h2, h3⟩ := ihl f hl hn (by omega)
      refine ⟨qs ++ [.L c i r], cs, s, rs, by rw [plug_append, ← h1]; rfl, by simp [before_append, h2, before], ?_⟩
      have : l.id ≠ 0 := fun e => hn ((rep_id hl).1 e)
      show leftmost (f + 1) m i = some s
      simp [leftmost, e1, this, h3]

theorem rightmost_spec {m : Mem} (f : Nat) {par : Nat} {t : T} (h : Rep m.node par t) (ht : t ≠ .nil) (hf : t.height ≤ f) :
    ∃ qs cs s ls, t = plug qs (.node cs ls s .nil) ∧ after qs = [] ∧ rightmost f m t.id = some s := by
  induction t generalizing f par with
  | nil => exact absurd rfl ht
  | node c l i r ihl ihr =>
    obtain ⟨i0, gi, hl, hr⟩ := h
    simp only [T.height] at hf
    obtain ⟨f, rfl⟩ : ∃ g, f = g + 1 := ⟨f - 1, by omega⟩
    have e1 : m.right i = some r.id := by simp [Mem.right, Mem.get, i0, gi]
    by_cases hn : r = .nil
    · subst hn
      exact ⟨[], c, i, l, rfl, rfl, by simp [rightmost, T.id, e1]⟩
    · obtain ⟨qs, cs, s, rs, h1, h2, h3⟩ := ihr f hr hn (by omega)
      refine ⟨qs ++ [.R c l i], cs, s, rs, by rw [plug_append, ← h1]; rfl, by simp [after_append, h2, after], ?_⟩
      have : r.id ≠ 0 := fun e => hn ((rep_id hr).1 e)
      show rightmost (f + 1) m i = some s
      simp [rightmost, e1, this, h3]

/-- rb_erase with two children: the next node has left its place and has taken that of `x` -/
theorem eraseTwo_spec {m : Mem} {ps qs : Path} {c cs : Bool} {l rs : T} {x s f : Nat}
    (h : Holds m (plug ps (.node c l x (plug qs (.node cs .nil s rs))))) (hl : l ≠ .nil)
    (hq : before qs = []) (hs : leftmost f m (plug qs (.node cs .nil s rs)).id = some s) :
    ∃ m', eraseTwo f m x = some (m', rs.id, pid (qs ++ .R c l s :: ps), cs) ∧ Holds m' (plug (qs ++ .R c l s :: ps) rs) := by
  obtain ⟨r, hr⟩ : ∃ r, r = plug qs (.node cs .nil s rs) := ⟨_, rfl⟩
  rw [← hr] at h hs
  have hrn : r ≠ .nil := by rw [hr]; exact plug_ne_nil _ _ _ _ _
  have hs' : Holds m (plug (qs ++ .R c l x :: ps) (.node cs .nil s rs)) := by
    rw [plug_append, ← hr]; exact h
  have hf := (holds_focus _ _ _).1 h
  have hg := h.get
  have hgs := hs'.get
  obtain ⟨f1, ⟨x0, gx, rl, rr⟩, f3⟩ := hf
  have hf := (holds_focus _ _ _).1 h
  have hfs := (holds_focus _ _ _).1 hs'
  have hn := f3
  simp only [T.inorder, List.nodup_append, List.nodup_cons, List.mem_cons, List.mem_append] at hn
  have hrin : r.inorder = s :: (rs.inorder ++ after qs) := by rw [hr, inorder_plug, hq]; simp [T.inorder]
  have hsr : s ∈ r.inorder := by simp [hrin]
  have hrsr : ∀ j ∈ rs.inorder, j ∈ r.inorder := by intro j hj; simp [hrin, hj]
  have hrnd : r.inorder.Nodup := hn.1.2.1.2.1.2
  have hsn : s ∉ rs.inorder ∧ s ∉ after qs := by
    rw [hrin, List.nodup_cons, List.mem_append, not_or] at hrnd; exact hrnd.1
  have s0 : s ≠ 0 := hfs.rep.1
  have rrs : Rep m.node s rs := hfs.rep.2.2.2
  have l0 : l.id ≠ 0 := fun e => hl ((rep_id rl).1 e)
  have r0 : r.id ≠ 0 := fun e => hrn ((rep_id rr).1 e)
  have hlm := id_mem hl
  have hrm := id_mem hrn
  -- they are all different
  have hxs : x ≠ s := by rintro rfl; exact hn.1.2.1.2.1.1 hsr
  have hxl : x ≠ l.id := fun e => hn.1.2.1.2.2 l.id hlm x (Or.inl rfl) e.symm
  have hxr : x ≠ r.id := fun e => hn.1.2.1.2.1.1 (e ▸ hrm)
  have hls : l.id ≠ s := fun e => hn.1.2.1.2.2 l.id hlm s (Or.inr hsr) e
  have hlr : l.id ≠ r.id := fun e => hn.1.2.1.2.2 l.id hlm r.id (Or.inr hrm) e
  have hxp : x ≠ pid ps := pid_ne hf (by simp [T.inorder])
  have hsp : s ≠ pid ps := pid_ne hf (by simp [T.inorder, hsr])
  have hlp : l.id ≠ pid ps := pid_ne hf (by simp [T.inorder, hlm])
  have hrp : r.id ≠ pid ps := pid_ne hf (by simp [T.inorder, hrm])
  have rsid : ∀ j, j ∉ rs.inorder → (j ≠ rs.id ∨ rs.id = 0) := by
    intro j hj
    by_cases hb : rs = .nil
    · exact Or.inr ((rep_id rrs).2 hb)
    · exact Or.inl (fun e => hj (e ▸ id_mem hb))
  have hprs : pid ps ∉ rs.inorder := fun hk => pid_ne hf (j := pid ps) (by simp [T.inorder, hrsr _ hk]) rfl
  have hxrs : x ∉ rs.inorder := fun hk => hn.1.2.1.2.1.1 (hrsr _ hk)
  have hlrs : l.id ∉ rs.inorder := fun hk => hn.1.2.1.2.2 l.id hlm l.id (Or.inr (hrsr _ hk)) rfl
  -- first without the successor
  obtain ⟨m1, -, h1, l1, c1, o1⟩ := eraseOne_spec (ch := rs) hs' (Or.inl ⟨rfl, rfl⟩)
  have h1' : Holds m1 (plug ps (.node c l x (plug qs rs))) := by rw [plug_append] at h1; exact h1
  have hnew : s ∉ (plug ps (.node c l x (plug qs rs))).inorder := by
    simp only [inorder_plug, T.inorder, List.mem_append, List.mem_cons, hq, List.not_mem_nil, not_or, false_or]
    refine ⟨⟨?_, ?_, ?_, ?_, ?_⟩, ?_⟩
    · intro hk; exact hn.1.2.2 s hk s (Or.inr (Or.inr hsr)) rfl
    · intro hk; exact hn.1.2.1.2.2 s hk s (Or.inr hsr) rfl
    · exact Ne.symm hxs
    · exact hsn.1
    · exact hsn.2
    · intro hk; exact hn.2.2 s (Or.inr (Or.inr (Or.inr hsr))) s hk rfl
  -- the steps of the program
  obtain ⟨ma, ea, la, oa⟩ := relinkL_spec (m := m) f1 rfl (fun _ => rfl)
    (fun c l i qs he => sibling_R hf (j := x) (by simp [T.inorder]) c l i qs he) s
  have ea : m.relinkL (pid ps) x s = some ma := ea
  have nas : ma.node s = ⟨pid (qs ++ .R c l x :: ps), cs, 0, rs.id⟩ := by rw [oa s hsp, hfs.rep.2.1]; rfl
  have nax : ma.node x = ⟨pid ps, c, l.id, r.id⟩ := by rw [oa x hxp, gx]
  have q1 : m.right x = some r.id := by simp [Mem.right, hg]
  have q2 : m.parent x = some (pid ps) := by simp [Mem.parent, hg]
  have q3 : ma.right s = some rs.id := by simp [Mem.right, Mem.get, s0, nas]
  have q4 : ma.parent s = some (pid (qs ++ .R c l x :: ps)) := by simp [Mem.parent, Mem.get, s0, nas]
  have q5 : ma.black s = some cs := by simp [Mem.black, Mem.get, s0, nas]
  have hfin : ∀ (mb : Mem) (r' : Nat), mb.root = ma.root → mb.node x = ⟨pid ps, c, l.id, r.id⟩ →
      (∃ p k, mb.node s = ⟨p, k, 0, r'⟩) → r' = (plug qs rs).id →
      (pid ps ≠ 0 → mb.node (pid ps) = ma.node (pid ps)) → mb.node l.id = m.node l.id →
      (plug qs rs ≠ .nil → mb.node r' = { m1.node r' with parent := s }) →
      (∀ j, j ≠ pid ps → j ≠ x → j ≠ s → j ≠ l.id → j ≠ r' ∨ r' = 0 → mb.node j = m1.node j) →
      ∃ m', (do
        let oldn ← mb.get x
        let noden ← mb.get s
        let m := mb.put s { noden with parent := oldn.parent, black := oldn.black, left := oldn.left }
        let m ← m.setParent oldn.left s
        some (m, rs.id, pid (qs ++ .R c l s :: ps), cs)) = some (m', rs.id, pid (qs ++ .R c l s :: ps), cs) ∧
        Holds m' (plug (qs ++ .R c l s :: ps) rs) := by
    intro mb r' b1 b2 ⟨p, k, b3⟩ b4 b5 b6 b7 b8
    obtain ⟨mc, hmc⟩ : ∃ mc, mc = mb.put s ⟨pid ps, c, l.id, r'⟩ := ⟨_, rfl⟩
    obtain ⟨md, hmd⟩ : ∃ md, md = mc.put l.id { mc.node l.id with parent := s } := ⟨_, rfl⟩
    have u1 : mb.get x = some ⟨pid ps, c, l.id, r.id⟩ := by simp [Mem.get, x0, b2]
    have u2 : mb.get s = some ⟨p, k, 0, r'⟩ := by simp [Mem.get, s0, b3]
    have u3 : mc.setParent l.id s = some md := by simp [Mem.setParent, Mem.get, l0, hmd]
    have nc : ∀ j, j ≠ s → mc.node j = mb.node j := by intro j hj; rw [hmc]; simp [Mem.put, hj]
    have nd : ∀ j, j ≠ l.id → md.node j = mc.node j := by intro j hj; rw [hmd]; simp [Mem.put, hj]
    refine ⟨md, ?_, ?_⟩
    · simp only [u1, u2, Option.bind_eq_bind, Option.bind_some]
      rw [← hmc, u3]; rfl
    · rw [plug_append]
      refine replaced_holds (x := x) h1' s0 hnew ?_ ?_ ?_ ?_ ?_
      · -- the link from above
        have m1p : pid ps ≠ 0 → m1.node (pid ps) = m.node (pid ps) := by
          intro _
          refine o1 _ ?_ (rsid _ hprs)
          by_cases hqs : qs = []
          · subst hqs; exact Ne.symm hxp
          · rw [pid_append _ _ hqs]
            intro e
            have hk : pid qs ∈ r.inorder := by
              rcases pid_mem hqs with hk | hk
              · rw [hq] at hk; cases hk
              · simp [hrin, hk]
            exact pid_ne hf (j := pid qs) (by simp [T.inorder, hk]) e.symm
        have m1r : ps ≠ [] → m1.root = m.root := by
          intro hps
          have : m1.root = m.root := by
            cases qs with
            | nil => exact l1.1
            | cons fr qs => cases fr <;> exact l1.1
          exact this
        have mdp : pid ps ≠ 0 → md.node (pid ps) = ma.node (pid ps) := by
          intro hp
          rw [nd _ (Ne.symm hlp), nc _ (Ne.symm hsp), b5 hp]
        have mdr : md.root = ma.root := by rw [hmd]; show mc.root = _; rw [hmc]; exact b1
        cases ps with
        | nil => exact mdr.trans la
        | cons fr ps =>
          cases fr with
          | L c i r =>
            have hi : i ≠ 0 := f1.1
            exact ⟨mdr.trans (la.1.trans (m1r (by simp)).symm), by
              have e1 := mdp hi
              have e2 := m1p hi
              simp only [pid] at e1 e2
              rw [e1, e2]; exact la.2⟩
          | R c l i =>
            have hi : i ≠ 0 := f1.1
            exact ⟨mdr.trans (la.1.trans (m1r (by simp)).symm), by
              have e1 := mdp hi
              have e2 := m1p hi
              simp only [pid] at e1 e2
              rw [e1, e2]; exact la.2⟩
      · rw [nd s (Ne.symm hls), hmc, b4]; simp [Mem.put]
      · intro _
        rw [hmd]
        simp only [Mem.put, if_true]
        rw [nc _ hls, b6, o1 _ ?_ (rsid _ hlrs)]
        by_cases hqs : qs = []
        · subst hqs; exact Ne.symm hxl
        · rw [pid_append _ _ hqs]
          intro e
          have hk : pid qs ∈ r.inorder := by
            rcases pid_mem hqs with hk | hk
            · rw [hq] at hk; cases hk
            · simp [hrin, hk]
          exact hn.1.2.1.2.2 l.id hlm (pid qs) (Or.inr hk) e
      · intro hrr
        rw [← b4]
        have hk : r' ∈ (plug qs rs).inorder := by rw [b4]; exact id_mem hrr
        rw [inorder_plug, hq] at hk
        have hk' : r' ∈ r.inorder := by
          simp only [List.nil_append, List.mem_append] at hk
          rcases hk with hk | hk <;> simp [hrin, hk]
        rw [nd _ ?_, nc _ ?_, b7 hrr]
        · rintro e
          rw [e] at hk
          simp only [List.nil_append, List.mem_append] at hk
          rcases hk with hk | hk
          · exact hsn.1 hk
          · exact hsn.2 hk
        · exact fun e => hn.1.2.1.2.2 l.id hlm r' (Or.inr hk') e.symm
      · intro j j1 j2 j3 j4 j5
        have j4 : j ≠ l.id := by
          rcases j4 with h | h
          · exact h
          · exact absurd h l0
        rw [nd j j4, nc j j3]
        exact b8 j j1 j2 j3 j4 (by rw [b4]; exact j5)
  unfold eraseTwo
  simp only [q1, q2, ea, q3, q4, q5, hs, Option.bind_eq_bind, Option.bind_some]
  by_cases hqs : qs = []
  · subst hqs
    have hrs : r = .node cs .nil s rs := hr
    have hrid : r.id = s := by rw [hrs]; rfl
    have hu : unhook ma x s rs.id (pid ([] ++ .R c l x :: ps)) = some (ma, s) := by simp [unhook, pid]
    simp only [hu, Option.bind_some]
    have hl1 : m1.root = m.root ∧ m1.node x = { m.node x with right := rs.id } := l1
    have hc1 : rs ≠ .nil → m1.node rs.id = { m.node rs.id with parent := x } := c1
    have ho1 : ∀ j, j ≠ x → j ≠ rs.id ∨ rs.id = 0 → m1.node j = m.node j := o1
    refine hfin ma rs.id rfl nax ⟨_, _, nas⟩ rfl (fun _ => rfl) (oa _ hlp) ?_ ?_
    · intro hrr
      have hrr : rs ≠ .nil := hrr
      have hm := id_mem hrr
      rw [hc1 hrr, oa _ (fun e => hprs (e ▸ hm))]
      cases rs with
      | nil => exact absurd rfl hrr
      | node ck lk ik rk =>
        have : m.node ik = ⟨s, ck, lk.id, rk.id⟩ := rrs.2.1
        simp only [T.id] at this ⊢
        rw [this]
    · intro j j1 j2 j3 j4 j5
      rw [oa j j1, ho1 j j2 j5]
  · have hpq : ∀ ps', pid (qs ++ ps') = pid qs := fun ps' => pid_append qs ps' hqs
    rw [hpq]
    have hpa : pid qs ∈ after qs := by
      rcases pid_mem hqs with hk | hk
      · rw [hq] at hk; cases hk
      · exact hk
    have hpr : pid qs ∈ r.inorder := by simp [hrin, hpa]
    have hpx : pid qs ≠ x := by rintro e; exact hn.1.2.1.2.1.1 (e ▸ hpr)
    have hps : pid qs ≠ s := fun e => hsn.2 (e ▸ hpa)
    have hpl : pid qs ≠ l.id := fun e => hn.1.2.1.2.2 l.id hlm (pid qs) (Or.inr hpr) e.symm
    have hpp : pid qs ≠ pid ps := pid_ne hf (by simp [T.inorder, hpr])
    have hp0 : pid qs ≠ 0 := fun e => rep_ne_zero rr (e ▸ hpr)
    have hprs' : pid qs ∉ rs.inorder := by
      intro hk
      rw [hrin, List.nodup_cons, List.nodup_append] at hrnd
      exact hrnd.2.2.2 _ hk _ hpa rfl
    have hrid : r.id = (plug qs rs).id := by rw [hr]; exact plug_id_congr qs hqs _ _
    have hrpa : r.id ∈ after qs := by
      rcases plug_id_mem hqs rs with hk | hk
      · rw [hq] at hk; cases hk
      · rw [hrid]; exact hk
    have hrs : r.id ≠ s := fun e => hsn.2 (e ▸ hrpa)
    have hrrs : r.id ∉ rs.inorder := by
      intro hk
      rw [hrin, List.nodup_cons, List.nodup_append] at hrnd
      exact hrnd.2.2.2 _ hk _ hrpa rfl
    obtain ⟨hl1, hl2⟩ : m1.root = m.root ∧ m1.node (pid qs) = { m.node (pid qs) with left := rs.id } := by
      cases qs with
      | nil => exact absurd rfl hqs
      | cons fr qs =>
        cases fr with
        | L c i r => exact l1
        | R c l i => simp [before] at hq
    have hc1 : rs ≠ .nil → m1.node rs.id = { m.node rs.id with parent := pid qs } := by rw [← hpq]; exact c1
    have ho1 : ∀ j, j ≠ pid qs → j ≠ rs.id ∨ rs.id = 0 → m1.node j = m.node j := by rw [← hpq]; exact o1
    obtain ⟨b1, e1, r1, u1, s1⟩ := setParentIf_spec ma rs.id (pid qs)
    obtain ⟨b2, hb2⟩ : ∃ b2, b2 = b1.put (pid qs) { b1.node (pid qs) with left := rs.id } := ⟨_, rfl⟩
    obtain ⟨b3, hb3⟩ : ∃ b3, b3 = b2.put s { b2.node s with right := r.id } := ⟨_, rfl⟩
    obtain ⟨b4, hb4⟩ : ∃ b4, b4 = b3.put r.id { b3.node r.id with parent := s } := ⟨_, rfl⟩
    have n2 : ∀ j, j ≠ pid qs → b2.node j = b1.node j := by intro j hj; rw [hb2]; simp [Mem.put, hj]
    have n3 : ∀ j, j ≠ s → b3.node j = b2.node j := by intro j hj; rw [hb3]; simp [Mem.put, hj]
    have n4 : ∀ j, j ≠ r.id → b4.node j = b3.node j := by intro j hj; rw [hb4]; simp [Mem.put, hj]
    have n2p : b2.node (pid qs) = m1.node (pid qs) := by
      rw [hb2, hl2]
      simp only [Mem.put, if_true]
      rw [u1 _ (rsid _ hprs'), oa _ hpp]
    have n2x : b2.node x = ⟨pid ps, c, l.id, r.id⟩ := by rw [n2 x (Ne.symm hpx), u1 x (rsid x hxrs), nax]
    have n2s : b2.node s = ⟨pid qs, cs, 0, rs.id⟩ := by
      rw [n2 s (Ne.symm hps), u1 s (rsid s hsn.1), nas, hpq]
    have hu : unhook ma x s rs.id (pid qs) = some (b4, pid qs) := by
      have v1 : b1.setLeft (pid qs) rs.id = some b2 := by simp [Mem.setLeft, Mem.get, hp0, hb2]
      have v2 : b2.right x = some r.id := by simp [Mem.right, Mem.get, x0, n2x]
      have v3 : b2.setRight s r.id = some b3 := by simp [Mem.setRight, Mem.get, s0, hb3]
      have v4 : b3.setParent r.id s = some b4 := by simp [Mem.setParent, Mem.get, r0, hb4]
      simp [unhook, hpx, e1, v1, v2, v3, v4]
    simp only [hu, Option.bind_some]
    rw [← hpq (.R c l s :: ps)]
    refine hfin b4 r.id ?_ ?_ ⟨pid qs, cs, ?_⟩ hrid ?_ ?_ ?_ ?_
    · rw [hb4, hb3, hb2]; exact r1
    · rw [n4 x hxr, n3 x hxs, n2x]
    · rw [n4 s (Ne.symm hrs), hb3]; simp [Mem.put, n2s]
    · intro _
      rw [n4 _ (Ne.symm hrp), n3 _ (Ne.symm hsp), n2 _ (Ne.symm hpp), u1 _ (rsid _ hprs)]
    · rw [n4 _ hlr, n3 _ hls, n2 _ (Ne.symm hpl), u1 _ (rsid _ hlrs), oa _ hlp]
    · intro _
      have : b3.node r.id = m1.node r.id := by
        rw [n3 _ hrs]
        by_cases e : r.id = pid qs
        · rw [e]; exact n2p
        · rw [n2 _ e, u1 _ (rsid _ hrrs), oa _ hrp, ho1 _ e (rsid _ hrrs)]
      rw [hb4]
      simp only [Mem.put, if_true]
      rw [this]
    · intro j j1 j2 j3 j4 j5
      have j5 : j ≠ r.id := by
        rcases j5 with h | h
        · exact h
        · exact absurd h r0
      rw [n4 j j5, n3 j j3]
      by_cases e : j = pid qs
      · rw [e]; exact n2p
      · rw [n2 j e]
        by_cases e2 : j ≠ rs.id ∨ rs.id = 0
        · rw [u1 j e2, oa j j1, ho1 j e e2]
        · have e3 : j = rs.id := Classical.not_not.1 (fun h => e2 (Or.inl h))
          have e4 : rs.id ≠ 0 := fun h => e2 (Or.inr h)
          have e5 : rs ≠ .nil := fun h => e4 ((rep_id rrs).2 h)
          rw [e3, s1 e4, hc1 e5, oa _ (e3 ▸ j1)]

/-! ### Deletion as a whole -/

theorem ok_plug_congr {ps : Path} {t u : T} (h : ∀ b, Ok b t → Ok b u) : ∀ b, Ok b (plug ps t) → Ok b (plug ps u) := by
  induction ps generalizing t u with
  | nil => exact h
  | cons fr ps ih =>
    cases fr with
    | L c i r => exact ih (fun b hb => ⟨hb.1, h _ hb.2.1, hb.2.2⟩)
    | R c l i => exact ih (fun b hb => ⟨hb.1, hb.2.1, h _ hb.2.2⟩)

theorem rootBlack_of {ps : Path} {t : T} (h : Ok true (plug ps t)) : RootBlack ps := by
  induction ps generalizing t with
  | nil => trivial
  | cons fr ps ih =>
    cases ps with
    | nil => cases fr <;> exact h.1 rfl
    | cons g ps => cases fr <;> exact ih h

/-- the colours after taking out a node with at most one child -/
theorem dropped_spec {f : Nat} {m : Mem} {ps : Path} {c : Bool} {l r ch : T} {x : Nat} (hrb : RB (plug ps (.node c l x r)))
    (hch : (l = .nil ∧ ch = r) ∨ (r = .nil ∧ ch = l)) (h : Holds m (plug ps ch)) (hf : ps.length < f) :
    ∃ m' t', (if c then eraseColor f m ch.id (pid ps) else some m) = some m' ∧ Holds m' t' ∧ RB t' ∧
      t'.inorder = (plug ps ch).inorder := by
  obtain ⟨h1, h2, h3⟩ := hrb
  have hok := (ok_plug ps _).1 (ok_weaken h1)
  have hroot := rootBlack_of h1
  obtain ⟨n, ⟨k, b1, b2, rfl⟩, b3⟩ := (bal_plug ps _ _).1 h3
  have hk : Bal ch k := by rcases hch with ⟨-, rfl⟩ | ⟨-, rfl⟩ <;> assumption
  have ho : Ok (!c) ch := by rcases hch with ⟨-, rfl⟩ | ⟨-, rfl⟩; exact hok.1.2.2; exact hok.1.2.1
  cases c with
  | true =>
    simp only [if_true]
    refine eraseColor_spec f ps m ch k (by omega) (Or.inl hf) h ?_ hk ⟨hok.2, hroot, h2, b3⟩
    cases ch with
    | nil => trivial
    | node c' l' i' r' =>
      obtain ⟨-, q1, q2⟩ := ho
      cases c' with
      | true => exact ⟨q1, q2⟩
      | false => exact ⟨ok_weaken q1, ok_weaken q2⟩
  | false =>
    refine ⟨m, plug ps ch, by simp, h, ?_, rfl⟩
    have hne : ps ≠ [] := by
      rintro rfl
      exact absurd (h1.1 rfl) (by simp)
    refine ⟨rootBlack_ok hne hroot ((ok_plug ps ch).2 ⟨ok_weaken ho, hok.2⟩), h2, ?_⟩
    exact (bal_plug ps ch h2).2 ⟨k, hk, by simpa using b3⟩

/-- **`rb_erase`** of a node of a red-black tree: done, the tree is a red-black tree of
the other nodes in the same order.  `f` is at least the height. -/
theorem erase_spec {f : Nat} {m : Mem} {ps : Path} {c : Bool} {l r : T} {x : Nat}
    (h : Holds m (plug ps (.node c l x r))) (hrb : RB (plug ps (.node c l x r)))
    (hf : (plug ps (.node c l x r)).height ≤ f) :
    ∃ m' t', erase f m x = some m' ∧ Holds m' t' ∧ RB t' ∧
      t'.inorder = before ps ++ (l.inorder ++ r.inorder) ++ after ps := by
  have hg := h.get
  have hfo := (holds_focus _ _ _).1 h
  have q1 : m.left x = some l.id := by simp [Mem.left, hg]
  have q2 : m.right x = some r.id := by simp [Mem.right, hg]
  have hlen := height_plug ps (.node c l x r)
  simp only [T.height] at hlen
  have rl := hfo.rep.2.2.1
  have rr := hfo.rep.2.2.2
  unfold erase unlink
  simp only [q1, q2, Option.bind_eq_bind, Option.bind_some]
  by_cases hl : l = .nil
  · subst hl
    obtain ⟨m1, e1, h1, -⟩ := eraseOne_spec (ch := r) h (Or.inl ⟨rfl, rfl⟩)
    simp only [T.id, if_true]
    have e1 : eraseOne m x r.id = some (m1, r.id, pid ps, c) := e1
    obtain ⟨m', t', g1, g2, g3, g4⟩ := dropped_spec (f := f) hrb (ch := r) (Or.inl ⟨rfl, rfl⟩) h1 (by omega)
    refine ⟨m', t', ?_, g2, g3, ?_⟩
    · have := e1
      simp only [T.id] at this
      rw [this]; exact g1
    · rw [g4, inorder_plug]; simp [T.inorder]
  · have l0 : ¬ l.id = 0 := fun e => hl ((rep_id rl).1 e)
    by_cases hr : r = .nil
    · subst hr
      obtain ⟨m1, e1, h1, -⟩ := eraseOne_spec (ch := l) h (Or.inr ⟨rfl, rfl⟩)
      have hn0 : T.nil.id = 0 := rfl
      rw [hn0]
      simp only [l0, if_true, if_false, e1, Option.bind_some]
      obtain ⟨m', t', g1, g2, g3, g4⟩ := dropped_spec (f := f) hrb (ch := l) (Or.inr ⟨rfl, rfl⟩) h1 (by omega)
      refine ⟨m', t', g1, g2, g3, ?_⟩
      rw [g4, inorder_plug]; simp [T.inorder]
    · have r0 : ¬ r.id = 0 := fun e => hr ((rep_id rr).1 e)
      simp only [l0, r0, if_false]
      obtain ⟨qs, cs, s, rs, w1, w2, w3⟩ := leftmost_spec f rr hr (by omega)
      subst w1
      obtain ⟨m1, e1, h1⟩ := eraseTwo_spec h hl w2 w3
      simp only [e1, Option.bind_some]
      have hrb' : RB (plug (qs ++ .R c l s :: ps) (.node cs .nil s rs)) := by
        rw [plug_append]
        refine ⟨ok_plug_congr (ps := ps) (t := .node c l x (plug qs (.node cs .nil s rs)))
          (u := .node c l s (plug qs (.node cs .nil s rs))) (fun b hb => hb) true hrb.ok, ?_⟩
        obtain ⟨k, hk⟩ := hrb.bal
        obtain ⟨n, hk⟩ := (bal_plug ps _ k).1 hk
        exact ⟨k, (bal_plug ps (.node c l s (plug qs (.node cs .nil s rs))) k).2 ⟨n, hk⟩⟩
      have hlen' := height_plug (qs ++ .R c l x :: ps) (.node cs .nil s rs)
      rw [plug_append] at hlen'
      have hlen' : (qs ++ Frame.R c l x :: ps).length + _ ≤ (plug ps (.node c l x (plug qs (.node cs .nil s rs)))).height := hlen'
      simp only [T.height, List.length_append, List.length_cons] at hlen'
      obtain ⟨m', t', g1, g2, g3, g4⟩ := dropped_spec (f := f) hrb' (ch := rs) (Or.inl ⟨rfl, rfl⟩) h1
        (by simp only [List.length_append, List.length_cons]; omega)
      refine ⟨m', t', g1, g2, g3, ?_⟩
      rw [g4]
      simp [inorder_plug, before_append, after_append, before, after, w2, T.inorder]

end Verif.Rbtree
