import Verif.Rbtree.Unlink
import Mathlib.Tactic.Ring
/-!
Insertion, the search for the place, and going through the tree.
-/
namespace Verif.Rbtree

/-- the link in which a subtree with these surroundings hangs -/
def linkOf : Path → Link
  | [] => .root
  | .L _ i _ :: _ => .left i
  | .R _ _ i :: _ => .right i

theorem linkNode_holds {m : Mem} {ps : Path} {x : Nat} (h : Holds m (plug ps .nil)) (x0 : x ≠ 0)
    (hx : x ∉ (plug ps .nil).inorder) :
    ∃ m', linkNode m x (pid ps) (linkOf ps) = some m' ∧ Holds m' (plug ps (.node false .nil x .nil)) := by
  have hf := (holds_focus _ _ _).1 h
  rw [inorder_plug] at hx
  simp only [T.inorder, List.append_nil, List.mem_append, not_or] at hx
  have hxp : x ≠ pid ps := by
    rintro rfl
    cases ps with
    | nil => exact x0 rfl
    | cons fr ps =>
      rcases pid_mem (ps := fr :: ps) (by simp) with h | h
      · exact hx.1 h
      · exact hx.2 h
  have hg : m.get x = some (m.node x) := by simp [Mem.get, x0]
  have hnd := hf.nodup
  have hnod : (before ps ++ after ps).Nodup := by simpa [T.inorder] using hnd
  have hnod' : (before ps ++ (T.node false .nil x .nil).inorder ++ after ps).Nodup := by
    have e : before ps ++ (T.node false .nil x .nil).inorder ++ after ps = before ps ++ x :: after ps := by simp [T.inorder]
    rw [e, List.nodup_middle, List.nodup_cons]
    exact ⟨by simp [hx], hnod⟩
  obtain ⟨m1, hm1⟩ : ∃ m1, m1 = m.put x ⟨pid ps, false, 0, 0⟩ := ⟨_, rfl⟩
  have n1x : m1.node x = ⟨pid ps, false, 0, 0⟩ := by rw [hm1]; simp [Mem.put]
  have n1 : ∀ j, j ≠ x → m1.node j = m.node j := by intro j hj; rw [hm1]; simp [Mem.put, hj]
  have r1 : m1.root = m.root := by rw [hm1]; rfl
  have key : ∀ m', Relinked ps m m' x → m'.node x = ⟨pid ps, false, 0, 0⟩ →
      (∀ j, j ≠ pid ps → j ≠ x → m'.node j = m.node j) → Holds m' (plug ps (.node false .nil x .nil)) := by
    intro m' k1 k2 k3
    rw [holds_focus]
    refine ⟨prep_relinked hf.path hnod k1 ?_, ⟨x0, k2, trivial, trivial⟩, hnod'⟩
    intro j hj hjp
    refine k3 j hjp ?_
    rintro rfl
    rcases hj with hj | hj
    · exact hx.1 hj
    · exact hx.2 hj
  unfold linkNode
  simp only [hg, Option.bind_eq_bind, Option.bind_some, ← hm1]
  cases ps with
  | nil =>
    refine ⟨m1.setRoot x, rfl, key _ rfl n1x ?_⟩
    intro j _ hj; exact n1 j hj
  | cons fr ps =>
    have hp0 : pid (fr :: ps) ≠ 0 := by cases fr <;> exact hf.path.1
    cases fr with
    | L c i r =>
      have hp0 : i ≠ 0 := hp0
      have hxp : x ≠ i := hxp
      refine ⟨m1.put i { m1.node i with left := x }, by simp [linkOf, Mem.setLeft, Mem.get, hp0], key _ ⟨r1, ?_⟩ ?_ ?_⟩
      · simp only [Mem.put, if_true]; rw [n1 i (Ne.symm hxp)]
      · simp only [Mem.put, hxp, if_false]; exact n1x
      · intro j j1 j2
        have j1 : j ≠ i := j1
        simp only [Mem.put, j1, if_false]; exact n1 j j2
    | R c l i =>
      have hp0 : i ≠ 0 := hp0
      have hxp : x ≠ i := hxp
      refine ⟨m1.put i { m1.node i with right := x }, by simp [linkOf, Mem.setRight, Mem.get, hp0], key _ ⟨r1, ?_⟩ ?_ ?_⟩
      · simp only [Mem.put, if_true]; rw [n1 i (Ne.symm hxp)]
      · simp only [Mem.put, hxp, if_false]; exact n1x
      · intro j j1 j2
        have j1 : j ≠ i := j1
        simp only [Mem.put, j1, if_false]; exact n1 j j2

/-- the search ends at a free place; to the left of it everything not later, to the right everything later -/
theorem descend_spec (lt : Nat → Nat → Bool) (x : Nat) (m : Mem) (f : Nat) : ∀ (ps : Path) (t : T), t.height < f →
    Holds m (plug ps t) → (plug ps t).inorder.Pairwise (fun a b => lt x a = true → lt x b = true) →
    (∀ a ∈ before ps, lt x a = false) → (∀ a ∈ after ps, lt x a = true) →
    ∃ qs, plug qs .nil = plug ps t ∧ descend lt x f m (linkOf ps) t.id (pid ps) = some (linkOf qs, pid qs) ∧
      (∀ a ∈ before qs, lt x a = false) ∧ (∀ a ∈ after qs, lt x a = true) := by
  induction f with
  | zero => intro ps t h; omega
  | succ f ih =>
    intro ps t hf h hs hb ha
    cases t with
    | nil => exact ⟨ps, rfl, by simp [descend, T.id], hb, ha⟩
    | node c l i r =>
      simp only [T.height] at hf
      have hg := h.get
      have i0 : i ≠ 0 := ((holds_focus _ _ _).1 h).rep.1
      have hs' := hs
      rw [inorder_plug] at hs'
      simp only [T.inorder, List.pairwise_append, List.pairwise_cons, List.mem_append, List.mem_cons] at hs'
      cases hlt : lt x i with
      | true =>
        have e1 : m.left i = some l.id := by simp [Mem.left, hg]
        obtain ⟨qs, k1, k2, k3⟩ := ih (.L c i r :: ps) l (by omega) h hs hb (by
          intro a haa
          simp only [after, List.mem_cons, List.mem_append] at haa
          rcases haa with rfl | haa | haa
          · exact hlt
          · exact hs'.1.2.1.2.1.1 a haa hlt
          · exact ha a haa)
        refine ⟨qs, k1, ?_, k3⟩
        have e : descend lt x (f + 1) m (linkOf ps) (T.node c l i r).id (pid ps) = descend lt x f m (.left i) l.id i := by
          show descend lt x (f + 1) m (linkOf ps) i (pid ps) = _
          simp [descend, i0, hlt, e1]
        rw [e]; exact k2
      | false =>
        have e1 : m.right i = some r.id := by simp [Mem.right, hg]
        obtain ⟨qs, k1, k2, k3⟩ := ih (.R c l i :: ps) r (by omega) h hs (by
          intro a haa
          simp only [before, List.mem_append, List.mem_cons, List.not_mem_nil, or_false] at haa
          rcases haa with haa | haa | rfl
          · exact hb a haa
          · cases hq : lt x a
            · rfl
            · rw [hs'.1.2.1.2.2 a haa i (Or.inl rfl) hq] at hlt; cases hlt
          · exact hlt) ha
        refine ⟨qs, k1, ?_, k3⟩
        have e : descend lt x (f + 1) m (linkOf ps) (T.node c l i r).id (pid ps) = descend lt x f m (.right i) r.id i := by
          show descend lt x (f + 1) m (linkOf ps) i (pid ps) = _
          simp [descend, i0, hlt, e1]
        rw [e]; exact k2

theorem takeWhile_split {a b : List Nat} {p : Nat → Bool} (ha : ∀ x ∈ a, p x = true) (hb : ∀ x ∈ b, p x = false) :
    (a ++ b).takeWhile p = a ∧ (a ++ b).dropWhile p = b := by
  induction a with
  | nil =>
    cases b with
    | nil => simp
    | cons y b => simp [hb y (by simp)]
  | cons y a ih =>
    have := ih (fun x hx => ha x (by simp [hx]))
    simp [ha y (by simp), this]

/-- **Insertion** into a red-black tree, as `__add_timer` does it: the node goes behind
all nodes that are not later; the order of the others stays, and the tree is a red-black tree again. -/
theorem insert_spec {lt : Nat → Nat → Bool} {f : Nat} {m : Mem} {t : T} {x : Nat} (h : Holds m t) (hrb : RB t)
    (x0 : x ≠ 0) (hx : x ∉ t.inorder) (hf : t.height < f)
    (hs : t.inorder.Pairwise (fun a b => lt x a = true → lt x b = true)) :
    ∃ m' t', insert lt f m x = some m' ∧ Holds m' t' ∧ RB t' ∧
      t'.inorder = t.inorder.takeWhile (fun a => !lt x a) ++ x :: t.inorder.dropWhile (fun a => !lt x a) := by
  obtain ⟨qs, k1, k2, k3, k4⟩ := descend_spec lt x m f [] t hf h hs (by simp [before]) (by simp [after])
  have k1 : plug qs .nil = t := k1
  subst k1
  obtain ⟨m1, e1, h1⟩ := linkNode_holds h x0 hx
  have hok := (ok_plug qs _).1 (ok_weaken hrb.ok)
  obtain ⟨n, b1⟩ := hrb.bal
  obtain ⟨k, rfl, b2⟩ := (bal_plug qs _ _).1 b1
  have hlen := height_plug qs .nil
  simp only [T.height] at hlen
  obtain ⟨m', t', g1, g2, g3, g4⟩ := insertColor_spec f qs m1 .nil .nil x 0 (by omega) h1 trivial trivial hok.2
    (rootBlack_of hrb.ok) rfl rfl ⟨n, b2⟩
  refine ⟨m', t', ?_, g2, g3, ?_⟩
  · have hroot : m.root = (plug qs .nil).id := h.root
    unfold insert
    have k2 : descend lt x f m .root (plug qs .nil).id 0 = some (linkOf qs, pid qs) := k2
    rw [hroot, k2]
    simp [e1, g1]
  · rw [g4, inorder_plug, inorder_plug]
    have := takeWhile_split (p := fun a => !lt x a) (a := before qs) (b := after qs) (by simpa using k3) (by simpa using k4)
    simp only [T.inorder, List.nil_append, List.append_nil]
    rw [this.1, this.2]; simp

/-! ### Going through the tree -/

theorem mem_locate {t : T} {x : Nat} (h : x ∈ t.inorder) : ∃ ps c l r, t = plug ps (.node c l x r) := by
  induction t with
  | nil => cases h
  | node c l i r ihl ihr =>
    simp only [T.inorder, List.mem_append, List.mem_cons] at h
    rcases h with h | rfl | h
    · obtain ⟨ps, c', l', r', e⟩ := ihl h
      exact ⟨ps ++ [.L c i r], c', l', r', by rw [plug_append, ← e]; rfl⟩
    · exact ⟨[], c, l, r, rfl⟩
    · obtain ⟨ps, c', l', r', e⟩ := ihr h
      exact ⟨ps ++ [.R c l i], c', l', r', by rw [plug_append, ← e]; rfl⟩

theorem upRight_spec (m : Mem) (f : Nat) : ∀ (ps : Path) (t : T), ps.length < f → t ≠ .nil → Focus m ps t →
    upRight f m t.id = some ((after ps).head?.getD 0) := by
  induction f with
  | zero => intro ps t h; omega
  | succ f ih =>
    intro ps t hf ht h
    have hp : m.parent t.id = some (pid ps) := by
      cases t with
      | nil => exact absurd rfl ht
      | node c l i r => show m.parent i = _; simp [Mem.parent, h.get]
    cases ps with
    | nil => simp [upRight, hp, pid, after]
    | cons fr ps =>
      simp only [List.length_cons] at hf
      cases fr with
      | L c i r =>
        have i0 : i ≠ 0 := h.path.1
        have e1 : m.right i = some r.id := by simp [Mem.right, Mem.get, i0, h.path.2.1]
        have hne : ¬ t.id = r.id := fun e => sibling_L h (id_mem ht) c i r ps rfl e
        simp [upRight, hp, pid, i0, e1, hne, after]
      | R c l i =>
        have i0 : i ≠ 0 := h.path.1
        have e1 : m.right i = some t.id := by simp [Mem.right, Mem.get, i0, h.path.2.1]
        have h' : Focus m ps (.node c l i t) := (holds_focus m ps _).1 ((holds_focus m (.R c l i :: ps) t).2 h)
        have := ih ps (.node c l i t) (by omega) (by simp) h'
        have this : upRight f m i = some ((after ps).head?.getD 0) := this
        simp [upRight, hp, pid, i0, e1, after, this]

theorem upLeft_spec (m : Mem) (f : Nat) : ∀ (ps : Path) (t : T), ps.length < f → t ≠ .nil → Focus m ps t →
    upLeft f m t.id = some ((before ps).getLast?.getD 0) := by
  induction f with
  | zero => intro ps t h; omega
  | succ f ih =>
    intro ps t hf ht h
    have hp : m.parent t.id = some (pid ps) := by
      cases t with
      | nil => exact absurd rfl ht
      | node c l i r => show m.parent i = _; simp [Mem.parent, h.get]
    cases ps with
    | nil => simp [upLeft, hp, pid, before]
    | cons fr ps =>
      simp only [List.length_cons] at hf
      cases fr with
      | R c l i =>
        have i0 : i ≠ 0 := h.path.1
        have e1 : m.left i = some l.id := by simp [Mem.left, Mem.get, i0, h.path.2.1]
        have hne : ¬ t.id = l.id := fun e => sibling_R h (id_mem ht) c l i ps rfl e
        simp [upLeft, hp, pid, i0, e1, hne, before]
      | L c i r =>
        have i0 : i ≠ 0 := h.path.1
        have e1 : m.left i = some t.id := by simp [Mem.left, Mem.get, i0, h.path.2.1]
        have h' : Focus m ps (.node c t i r) := (holds_focus m ps _).1 ((holds_focus m (.L c i r :: ps) t).2 h)
        have := ih ps (.node c t i r) (by omega) (by simp) h'
        have this : upLeft f m i = some ((before ps).getLast?.getD 0) := this
        simp [upLeft, hp, pid, i0, e1, before, this]

/-- **`rb_first`** and **`rb_last`** -/
theorem first_spec {m : Mem} {t : T} {f : Nat} (h : Holds m t) (hf : t.height ≤ f) :
    first f m = some (t.inorder.head?.getD 0) ∧ last f m = some (t.inorder.getLast?.getD 0) := by
  unfold first last
  rw [h.root]
  by_cases ht : t = .nil
  · subst ht; simp [T.id, T.inorder]
  · have h0 : t.id ≠ 0 := fun e => ht ((rep_id h.rep).1 e)
    simp only [h0, if_false]
    obtain ⟨qs, cs, s, rs, e1, e2, e3⟩ := leftmost_spec f h.rep ht hf
    obtain ⟨qs', cs', s', rs', e1', e2', e3'⟩ := rightmost_spec f h.rep ht hf
    constructor
    · rw [e3, e1, inorder_plug, e2]; simp [T.inorder]
    · rw [e3', e1', inorder_plug, e2']; simp [T.inorder]

/-- **`rb_next`** -/
theorem next_at {m : Mem} {ps : Path} {c : Bool} {l r : T} {x f : Nat} (h : Holds m (plug ps (.node c l x r)))
    (hf : (plug ps (.node c l x r)).height ≤ f) :
    next f m x = some ((r.inorder ++ after ps).head?.getD 0) := by
  have hfo := (holds_focus _ _ _).1 h
  have hlen := height_plug ps (.node c l x r)
  simp only [T.height] at hlen
  have q1 : m.parent x = some (pid ps) := by simp [Mem.parent, h.get]
  have q2 : m.right x = some r.id := by simp [Mem.right, h.get]
  have hne : ¬ pid ps = x := fun e => pid_ne hfo (j := x) (by simp [T.inorder]) e.symm
  unfold next
  simp only [q1, q2, Option.bind_eq_bind, Option.bind_some, hne, if_false]
  by_cases hr : r = .nil
  · subst hr
    have e0 : T.nil.id = 0 := rfl
    simp only [e0, ne_eq, not_true_eq_false, if_false, T.inorder, List.nil_append]
    exact upRight_spec m f ps (.node c l x .nil) (by omega) (by simp) hfo
  · have h0 : r.id ≠ 0 := fun e => hr ((rep_id hfo.rep.2.2.2).1 e)
    simp only [ne_eq, h0, not_false_eq_true, if_true]
    obtain ⟨qs, cs, s, rs, e1, e2, e3⟩ := leftmost_spec f hfo.rep.2.2.2 hr (by omega)
    rw [e3, e1, inorder_plug, e2]; simp [T.inorder]

/-- **`rb_prev`** -/
theorem prev_at {m : Mem} {ps : Path} {c : Bool} {l r : T} {x f : Nat} (h : Holds m (plug ps (.node c l x r)))
    (hf : (plug ps (.node c l x r)).height ≤ f) :
    prev f m x = some ((before ps ++ l.inorder).getLast?.getD 0) := by
  have hfo := (holds_focus _ _ _).1 h
  have hlen := height_plug ps (.node c l x r)
  simp only [T.height] at hlen
  have q1 : m.parent x = some (pid ps) := by simp [Mem.parent, h.get]
  have q2 : m.left x = some l.id := by simp [Mem.left, h.get]
  have hne : ¬ pid ps = x := fun e => pid_ne hfo (j := x) (by simp [T.inorder]) e.symm
  unfold prev
  simp only [q1, q2, Option.bind_eq_bind, Option.bind_some, hne, if_false]
  by_cases hl : l = .nil
  · subst hl
    have e0 : T.nil.id = 0 := rfl
    simp only [e0, ne_eq, not_true_eq_false, if_false, T.inorder, List.append_nil]
    exact upLeft_spec m f ps (.node c .nil x r) (by omega) (by simp) hfo
  · have h0 : l.id ≠ 0 := fun e => hl ((rep_id hfo.rep.2.2.1).1 e)
    simp only [ne_eq, h0, not_false_eq_true, if_true]
    obtain ⟨qs, cs, s, ls, e1, e2, e3⟩ := rightmost_spec f hfo.rep.2.2.1 hl (by omega)
    rw [e3, e1, inorder_plug, e2]; simp [T.inorder]

/-! ### Height -/

def T.size (t : T) : Nat := t.inorder.length

theorem bal_size {t : T} {n : Nat} (h : Bal t n) : 2 ^ n ≤ t.size + 1 := by
  induction t generalizing n with
  | nil => cases h; simp [T.size, T.inorder]
  | node c l i r ihl ihr =>
    obtain ⟨k, h1, h2, rfl⟩ := h
    have a := ihl h1
    have b := ihr h2
    simp only [T.size, T.inorder, List.length_append, List.length_cons] at a b ⊢
    have : 2 ^ (k + c.toNat) ≤ 2 * 2 ^ k := by
      cases c
      · simp
      · simp only [Bool.toNat_true, pow_succ]; omega
    omega

theorem ok_height {t : T} {b : Bool} {n : Nat} (ho : Ok b t) (h : Bal t n) : t.height + b.toNat ≤ 2 * n + 1 := by
  induction t generalizing n b with
  | nil => cases h; cases b <;> simp [T.height]
  | node c l i r ihl ihr =>
    obtain ⟨k, h1, h2, rfl⟩ := h
    have p := ihl ho.2.1 h1
    have q := ihr ho.2.2 h2
    simp only [T.height]
    cases c with
    | true => cases b <;> simp at p q ⊢ <;> omega
    | false =>
      have : b = false := by
        cases b
        · rfl
        · exact absurd (ho.1 rfl) (by simp)
      subst this
      simp at p q ⊢; omega

/-- the number of rounds that suffices for a tree of `n` nodes -/
def rounds (n : Nat) : Nat := 2 * Nat.log2 (n + 1) + 1

/-- **Balance**: the height of a red-black tree is at most twice the logarithm of its size -/
theorem rb_height {t : T} (h : RB t) : t.height < rounds t.size := by
  obtain ⟨n, hn⟩ := h.bal
  have a := bal_size hn
  have b := ok_height h.ok hn
  have c : n ≤ Nat.log2 (t.size + 1) := (Nat.le_log2 (by omega)).2 a
  simp only [Bool.toNat_true] at b
  unfold rounds
  omega

end Verif.Rbtree
