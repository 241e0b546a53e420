import Verif.Rbtree.Rotate
/-!
Balance, and `rb_insert_color`.
-/
namespace Verif.Rbtree

/-- no red node below a red node; `red` tells whether the node above is red -/
def Ok (red : Bool) : T → Prop
  | .nil => True
  | .node c l _ r => (red = true → c = true) ∧ Ok (!c) l ∧ Ok (!c) r

/-- on each way down to a leaf there are `n` black nodes -/
def Bal : T → Nat → Prop
  | .nil, n => n = 0
  | .node c l _ r, n => ∃ k, Bal l k ∧ Bal r k ∧ n = k + c.toNat

/-- a red-black tree: its root is black, no red node has a red child, and all ways
down have the same number of black nodes -/
structure RB (t : T) : Prop where
  ok : Ok true t
  bal : ∃ n, Bal t n

/-- the colour above: red? -/
def pred : Path → Bool
  | [] => false
  | .L c _ _ :: _ => !c
  | .R c _ _ :: _ => !c

def POk : Path → Prop
  | [] => True
  | .L c _ r :: ps => (pred ps = true → c = true) ∧ Ok (!c) r ∧ POk ps
  | .R c l _ :: ps => (pred ps = true → c = true) ∧ Ok (!c) l ∧ POk ps

theorem ok_plug (ps : Path) (t : T) : Ok false (plug ps t) ↔ Ok (pred ps) t ∧ POk ps := by
  induction ps generalizing t with
  | nil => simp [plug, pred, POk]
  | cons fr ps ih =>
    cases fr with
    | L c i r =>
      simp only [plug, ih, Ok, pred, POk]
      constructor
      · rintro ⟨⟨h1, h2, h3⟩, h4⟩; exact ⟨h2, h1, h3, h4⟩
      · rintro ⟨h2, h1, h3, h4⟩; exact ⟨⟨h1, h2, h3⟩, h4⟩
    | R c l i =>
      simp only [plug, ih, Ok, pred, POk]
      constructor
      · rintro ⟨⟨h1, h2, h3⟩, h4⟩; exact ⟨h3, h1, h2, h4⟩
      · rintro ⟨h2, h1, h3, h4⟩; exact ⟨⟨h1, h3, h2⟩, h4⟩

/-- the surroundings fit a subtree with `n` black nodes on each way, and have `k` in all -/
def PBal : Path → Nat → Nat → Prop
  | [], n, k => n = k
  | .L c _ r :: ps, n, k => Bal r n ∧ PBal ps (n + c.toNat) k
  | .R c l _ :: ps, n, k => Bal l n ∧ PBal ps (n + c.toNat) k

theorem bal_plug (ps : Path) (t : T) (k : Nat) : Bal (plug ps t) k ↔ ∃ n, Bal t n ∧ PBal ps n k := by
  induction ps generalizing t with
  | nil => simp [plug, PBal]
  | cons fr ps ih =>
    cases fr with
    | L c i r =>
      simp only [plug, ih, Bal, PBal]
      constructor
      · rintro ⟨n, ⟨j, h1, h2, rfl⟩, h3⟩; exact ⟨j, h1, h2, h3⟩
      · rintro ⟨n, h1, h2, h3⟩; exact ⟨_, ⟨n, h1, h2, rfl⟩, h3⟩
    | R c l i =>
      simp only [plug, ih, Bal, PBal]
      constructor
      · rintro ⟨n, ⟨j, h1, h2, rfl⟩, h3⟩; exact ⟨j, h2, h1, h3⟩
      · rintro ⟨n, h1, h2, h3⟩; exact ⟨_, ⟨n, h2, h1, rfl⟩, h3⟩

theorem ok_weaken {t : T} {b : Bool} (h : Ok true t) : Ok b t := by
  cases t with
  | nil => trivial
  | node c l i r => exact ⟨fun _ => h.1 rfl, h.2⟩

/-- the last frame, at the root, is black -/
def RootBlack : Path → Prop
  | [] => True
  | [.L c _ _] => c = true
  | [.R c _ _] => c = true
  | _ :: p :: ps => RootBlack (p :: ps)

theorem redIf_id {nd : Nat → Node} {m : Mem} (hm : m.node = nd) {par : Nat} {t : T} (h : Rep nd par t) :
    m.redIf t.id = true ↔ ∃ l i r, t = .node false l i r := by
  cases t with
  | nil => simp [Mem.redIf, T.id]
  | node c l i r =>
    obtain ⟨h1, h2, -⟩ := h
    simp only [Mem.redIf, T.id, hm, h2]
    cases c <;> simp [h1]

theorem redIf_pid {m : Mem} {ps : Path} {h : Nat} (hp : PRep m.root m.node h ps) : m.redIf (pid ps) = pred ps := by
  cases ps with
  | nil => simp [Mem.redIf, pid, pred]
  | cons fr ps =>
    cases fr <;> (obtain ⟨h1, h2, -⟩ := hp; simp [Mem.redIf, pid, pred, h1, h2])

theorem plug_ne_nil (ps : Path) (c : Bool) (l r : T) (i : Nat) : plug ps (.node c l i r) ≠ .nil := by
  induction ps generalizing c l r i with
  | nil => simp [plug]
  | cons fr ps ih => cases fr <;> exact ih _ _ _ _

/-- end of `rb_insert_color`: the root is made black -/
theorem rootBlack_holds {m : Mem} {t : T} (h : Holds m t) (ht : t ≠ .nil) (hok : Ok false t) (hb : ∃ n, Bal t n) :
    ∃ m' t', m.setBlack m.root true = some m' ∧ Holds m' t' ∧ RB t' ∧ t'.inorder = t.inorder := by
  cases t with
  | nil => exact absurd rfl ht
  | node c l i r =>
    obtain ⟨m', h1, h2⟩ := setBlack_holds (ps := []) h true
    refine ⟨m', .node true l i r, by rw [h.root]; exact h1, h2, ⟨⟨fun _ => rfl, ?_, ?_⟩, ?_⟩, rfl⟩
    · cases c with
      | true => exact hok.2.1
      | false => exact ok_weaken hok.2.1
    · cases c with
      | true => exact hok.2.2
      | false => exact ok_weaken hok.2.2
    · obtain ⟨n, k, b1, b2, -⟩ := hb
      exact ⟨k + 1, k, b1, b2, rfl⟩

/-- `rb_insert_color` where the node above is black -/
theorem insertColor_stop {f : Nat} (hf : 0 < f) {ps : Path} {m : Mem} {c : Bool} {l r : T} {x : Nat}
    (h : Holds m (plug ps (.node c l x r))) (hpr : pred ps = false) (hok : Ok false (plug ps (.node c l x r)))
    (hb : ∃ k, Bal (plug ps (.node c l x r)) k) :
    ∃ m' t', insertColor f m x = some m' ∧ Holds m' t' ∧ RB t' ∧ t'.inorder = (plug ps (.node c l x r)).inorder := by
  obtain ⟨f, rfl⟩ : ∃ g, f = g + 1 := ⟨f - 1, by omega⟩
  have hfo := (holds_focus _ _ _).1 h
  have hx : m.parent x = some (pid ps) := by simp [Mem.parent, h.get]
  have hred := redIf_pid hfo.path
  unfold insertColor
  simp only [hx, Option.bind_eq_bind, Option.bind_some, hred, hpr, Bool.false_eq_true, if_false]
  exact rootBlack_holds h (plug_ne_nil _ _ _ _ _) hok hb

/-- `rb_insert_color` at the red node `x`, with nothing wrong but perhaps a red parent -/
theorem insertColor_spec (f : Nat) : ∀ (ps : Path) (m : Mem) (l r : T) (x n : Nat), ps.length < f →
    Holds m (plug ps (.node false l x r)) → Ok true l → Ok true r → POk ps → RootBlack ps →
    Bal l n → Bal r n → (∃ k, PBal ps n k) →
    ∃ m' t', insertColor f m x = some m' ∧ Holds m' t' ∧ RB t' ∧ t'.inorder = (plug ps (.node false l x r)).inorder := by
  induction f with
  | zero => intro ps m l r x n hf; omega
  | succ f ih =>
    intro ps m l r x n hf h hl hr hp hroot bl br hk
    have hfo := (holds_focus _ _ _).1 h
    have hx : m.parent x = some (pid ps) := by simp [Mem.parent, h.get]
    have hred := redIf_pid hfo.path
    unfold insertColor
    simp only [hx, Option.bind_eq_bind, Option.bind_some, hred]
    by_cases hpr : pred ps = true
    · simp only [hpr, if_true]
      match ps, hf, h, hp, hroot, hk, hfo, hx, hred, hpr with
      | [], _, _, _, _, _, _, _, _, hpr => simp [pred] at hpr
      | [.L c p u], _, _, _, hroot, _, _, _, _, hpr => simp only [RootBlack] at hroot; subst hroot; simp [pred] at hpr
      | [.R c u p], _, _, _, hroot, _, _, _, _, hpr => simp only [RootBlack] at hroot; subst hroot; simp [pred] at hpr
      | .L c p b :: .L c2 g u :: qs, hf, h, hp, hroot, hk, hfo, hx, hred, hpr =>
        have hc : c = false := by cases c <;> simp_all [pred]
        subst hc
        obtain ⟨hp1, hp2, hp3, hp4, hp5⟩ := hp
        simp only [pred, Bool.not_eq_true'] at hp1
        have hc2 : c2 = true := by cases c2 <;> simp_all
        subst hc2
        obtain ⟨k, bb, bu, hk⟩ := hk
        have hg1 := (show Holds m (plug (.L true g u :: qs) (.node false (.node false l x r) p b)) from h).get
        have hg2 := (show Holds m (plug qs (.node true (.node false (.node false l x r) p b) g u)) from h).get
        have e1 : m.parent p = some g := by simp [Mem.parent, hg1, pid]
        have e2 : m.left g = some p := by simp [Mem.left, hg2, T.id]
        have e3 : m.right g = some u.id := by simp [Mem.right, hg2, T.id]
        have hu := redIf_id (m := m) rfl hfo.path.2.2.2.2.2.1
        simp only [pid, e1, e2, e3, Option.bind_some, if_true]
        by_cases hur : m.redIf u.id = true
        · simp only [hur, if_true]
          obtain ⟨ul, ui, ur, rfl⟩ := hu.1 hur
          obtain ⟨m1, f1, s1⟩ := setBlack_holds (ps := .R true (.node false (.node false l x r) p b) g :: qs) h true
          obtain ⟨m2, f2, s2⟩ := setBlack_holds (ps := .L true g (.node true ul ui ur) :: qs)
            (c := false) (l := (.node false l x r)) (i := p) (r := b) s1 true
          obtain ⟨m3, f3, s3⟩ := setBlack_holds (ps := qs)
            (c := true) (l := (.node true (.node false l x r) p b)) (i := g) (r := (.node true ul ui ur)) s2 false
          have f1' : m.setBlack (T.node false ul ui ur).id true = some m1 := f1
          simp only [f1', f2, f3, Option.bind_some]
          obtain ⟨j, b1, b2, bj⟩ := bu
          simp only [Bool.toNat_false, Nat.add_zero] at bj b1 b2 bb hk
          subst bj
          obtain ⟨m', t', g1, g2, g3, g4⟩ := ih qs m3 _ _ g (n + 1) (by simp only [List.length_cons] at hf; omega) s3
            ⟨fun _ => rfl, ⟨by simp, hl, hr⟩, ok_weaken (by simpa using hp2)⟩ ⟨fun _ => rfl, ok_weaken hp4.2.1, ok_weaken hp4.2.2⟩ hp5
            (by cases qs with
              | nil => trivial
              | cons _ _ => exact hroot)
            ⟨n, ⟨n, bl, br, rfl⟩, bb, rfl⟩ ⟨n, b1, b2, rfl⟩ ⟨k, hk⟩
          refine ⟨m', t', g1, g2, g3, ?_⟩
          rw [g4]
          simp [inorder_plug, plug, T.inorder]
        · have hur' : m.redIf u.id = false := by simpa using hur
          simp only [hur', Bool.false_eq_true, if_false]
          have hub : Ok true u := by
            cases u with
            | nil => trivial
            | node cu ul ui ur =>
              cases cu with
              | true => exact ⟨fun _ => rfl, hp4.2⟩
              | false => exact absurd (hu.2 ⟨_, _, _, rfl⟩) hur
          simp only [Bool.toNat_false, Nat.add_zero, Bool.toNat_true] at bu hk
          simp only [Bool.not_false] at hp2
          have e4 : m.right p = some b.id := by simp [Mem.right, hg1, T.id]
          have hbx : ¬ b.id = x := fun e => sibling_L (m := m) (t := .node false l x r) (ps := .L false p b :: .L true g u :: qs)
            ((holds_focus _ _ _).1 h) (j := x) (by simp [T.inorder]) false p b (.L true g u :: qs) rfl e.symm
          simp only [e4, Option.bind_some, if_neg hbx]
          obtain ⟨m1, f1, s1⟩ := setBlack_holds (ps := .L true g u :: qs)
            (c := false) (l := .node false l x r) (i := p) (r := b) h true
          obtain ⟨m2, f2, s2⟩ := setBlack_holds (ps := qs)
            (c := true) (l := .node true (.node false l x r) p b) (i := g) (r := u) s1 false
          obtain ⟨m3, f3, s3⟩ := rotateRight_holds s2
          simp only [f1, f2, f3, Option.bind_some]
          obtain ⟨m', t', g1, g2, g3, g4⟩ := insertColor_stop (f := f) (by simp only [List.length_cons] at hf; omega)
            (ps := .L true p (.node false b g u) :: qs) s3 rfl
            ((ok_plug _ _).2 ⟨⟨by simp [pred], hl, hr⟩, fun _ => rfl, ⟨by simp, hp2, hub⟩, hp5⟩)
            ⟨k, (bal_plug _ _ _).2 ⟨n, ⟨n, bl, br, rfl⟩, ⟨n, bb, bu, rfl⟩, hk⟩⟩
          refine ⟨m', t', g1, g2, g3, ?_⟩
          rw [g4]
          simp [inorder_plug, plug, T.inorder]
      | .L c p b :: .R c2 u g :: qs, hf, h, hp, hroot, hk, hfo, hx, hred, hpr =>
        have hc : c = false := by cases c <;> simp_all [pred]
        subst hc
        obtain ⟨hp1, hp2, hp3, hp4, hp5⟩ := hp
        simp only [pred, Bool.not_eq_true'] at hp1
        have hc2 : c2 = true := by cases c2 <;> simp_all
        subst hc2
        obtain ⟨k, bb, bu, hk⟩ := hk
        have hg1 := (show Holds m (plug (.R true u g :: qs) (.node false (.node false l x r) p b)) from h).get
        have hg2 := (show Holds m (plug qs (.node true u g (.node false (.node false l x r) p b))) from h).get
        have e1 : m.parent p = some g := by simp [Mem.parent, hg1, pid]
        have e2 : m.left g = some u.id := by simp [Mem.left, hg2, T.id]
        have e3 : m.right g = some p := by simp [Mem.right, hg2, T.id]
        have hu := redIf_id (m := m) rfl hfo.path.2.2.2.2.2.1
        have hpu : p ≠ u.id := sibling_R (m := m) (t := .node false (.node false l x r) p b) (ps := .R true u g :: qs)
          ((holds_focus _ _ _).1 h) (by simp [T.inorder]) true u g qs rfl
        simp only [pid, e1, e2, e3, Option.bind_some, hpu, if_false]
        by_cases hur : m.redIf u.id = true
        · simp only [hur, if_true]
          obtain ⟨ul, ui, ur, rfl⟩ := hu.1 hur
          obtain ⟨m1, f1, s1⟩ := setBlack_holds (ps := .L true g (.node false (.node false l x r) p b) :: qs) h true
          obtain ⟨m2, f2, s2⟩ := setBlack_holds (ps := .R true (.node true ul ui ur) g :: qs)
            (c := false) (l := (.node false l x r)) (i := p) (r := b) s1 true
          obtain ⟨m3, f3, s3⟩ := setBlack_holds (ps := qs)
            (c := true) (l := (.node true ul ui ur)) (i := g) (r := (.node true (.node false l x r) p b)) s2 false
          have f1' : m.setBlack (T.node false ul ui ur).id true = some m1 := f1
          simp only [f1', f2, f3, Option.bind_some]
          obtain ⟨j, b1, b2, bj⟩ := bu
          simp only [Bool.toNat_false, Nat.add_zero] at bj b1 b2 bb hk
          subst bj
          obtain ⟨m', t', g1, g2, g3, g4⟩ := ih qs m3 _ _ g (n + 1) (by simp only [List.length_cons] at hf; omega) s3
            ⟨fun _ => rfl, ok_weaken hp4.2.1, ok_weaken hp4.2.2⟩ ⟨fun _ => rfl, ⟨by simp, hl, hr⟩, ok_weaken (by simpa using hp2)⟩ hp5
            (by cases qs with
              | nil => trivial
              | cons _ _ => exact hroot)
            ⟨n, b1, b2, rfl⟩ ⟨n, ⟨n, bl, br, rfl⟩, bb, rfl⟩ ⟨k, hk⟩
          refine ⟨m', t', g1, g2, g3, ?_⟩
          rw [g4]
          simp [inorder_plug, plug, T.inorder]
        · have hur' : m.redIf u.id = false := by simpa using hur
          simp only [hur', Bool.false_eq_true, if_false]
          have hub : Ok true u := by
            cases u with
            | nil => trivial
            | node cu ul ui ur =>
              cases cu with
              | true => exact ⟨fun _ => rfl, hp4.2⟩
              | false => exact absurd (hu.2 ⟨_, _, _, rfl⟩) hur
          simp only [Bool.toNat_false, Nat.add_zero, Bool.toNat_true] at bu hk
          simp only [Bool.not_false] at hp2
          have e4 : m.left p = some x := by simp [Mem.left, hg1, T.id]
          simp only [e4, Option.bind_some, if_true]
          obtain ⟨m0, f0, s0⟩ := rotateRight_holds (ps := .R true u g :: qs)
            (show Holds m (plug (.R true u g :: qs) (.node false (.node false l x r) p b)) from h)
          obtain ⟨m1, f1, s1⟩ := setBlack_holds s0 true
          obtain ⟨m2, f2, s2⟩ := setBlack_holds (ps := qs)
            (c := true) (l := u) (i := g) (r := .node true l x (.node false r p b)) s1 false
          obtain ⟨m3, f3, s3⟩ := rotateLeft_holds s2
          simp only [f0, f1, f2, f3, Option.bind_some]
          obtain ⟨m', t', g1, g2, g3, g4⟩ := insertColor_stop (f := f) (by simp only [List.length_cons] at hf; omega)
            (ps := .R true (.node false u g l) x :: qs) s3 rfl
            ((ok_plug _ _).2 ⟨⟨by simp [pred], hr, hp2⟩, fun _ => rfl, ⟨by simp, hub, hl⟩, hp5⟩)
            ⟨k, (bal_plug _ _ _).2 ⟨n, ⟨n, br, bb, rfl⟩, ⟨n, bu, bl, rfl⟩, hk⟩⟩
          refine ⟨m', t', g1, g2, g3, ?_⟩
          rw [g4]
          simp [inorder_plug, plug, T.inorder]
      | .R c b p :: .L c2 g u :: qs, hf, h, hp, hroot, hk, hfo, hx, hred, hpr =>
        have hc : c = false := by cases c <;> simp_all [pred]
        subst hc
        obtain ⟨hp1, hp2, hp3, hp4, hp5⟩ := hp
        simp only [pred, Bool.not_eq_true'] at hp1
        have hc2 : c2 = true := by cases c2 <;> simp_all
        subst hc2
        obtain ⟨k, bb, bu, hk⟩ := hk
        have hg1 := (show Holds m (plug (.L true g u :: qs) (.node false b p (.node false l x r))) from h).get
        have hg2 := (show Holds m (plug qs (.node true (.node false b p (.node false l x r)) g u)) from h).get
        have e1 : m.parent p = some g := by simp [Mem.parent, hg1, pid]
        have e2 : m.left g = some p := by simp [Mem.left, hg2, T.id]
        have e3 : m.right g = some u.id := by simp [Mem.right, hg2, T.id]
        have hu := redIf_id (m := m) rfl hfo.path.2.2.2.2.2.1
        simp only [pid, e1, e2, e3, Option.bind_some, if_true]
        by_cases hur : m.redIf u.id = true
        · simp only [hur, if_true]
          obtain ⟨ul, ui, ur, rfl⟩ := hu.1 hur
          obtain ⟨m1, f1, s1⟩ := setBlack_holds (ps := .R true (.node false b p (.node false l x r)) g :: qs) h true
          obtain ⟨m2, f2, s2⟩ := setBlack_holds (ps := .L true g (.node true ul ui ur) :: qs)
            (c := false) (l := b) (i := p) (r := (.node false l x r)) s1 true
          obtain ⟨m3, f3, s3⟩ := setBlack_holds (ps := qs)
            (c := true) (l := (.node true b p (.node false l x r))) (i := g) (r := (.node true ul ui ur)) s2 false
          have f1' : m.setBlack (T.node false ul ui ur).id true = some m1 := f1
          simp only [f1', f2, f3, Option.bind_some]
          obtain ⟨j, b1, b2, bj⟩ := bu
          simp only [Bool.toNat_false, Nat.add_zero] at bj b1 b2 bb hk
          subst bj
          obtain ⟨m', t', g1, g2, g3, g4⟩ := ih qs m3 _ _ g (n + 1) (by simp only [List.length_cons] at hf; omega) s3
            ⟨fun _ => rfl, ok_weaken (by simpa using hp2), ⟨by simp, hl, hr⟩⟩ ⟨fun _ => rfl, ok_weaken hp4.2.1, ok_weaken hp4.2.2⟩ hp5
            (by cases qs with
              | nil => trivial
              | cons _ _ => exact hroot)
            ⟨n, bb, ⟨n, bl, br, rfl⟩, rfl⟩ ⟨n, b1, b2, rfl⟩ ⟨k, hk⟩
          refine ⟨m', t', g1, g2, g3, ?_⟩
          rw [g4]
          simp [inorder_plug, plug, T.inorder]
        · have hur' : m.redIf u.id = false := by simpa using hur
          simp only [hur', Bool.false_eq_true, if_false]
          have hub : Ok true u := by
            cases u with
            | nil => trivial
            | node cu ul ui ur =>
              cases cu with
              | true => exact ⟨fun _ => rfl, hp4.2⟩
              | false => exact absurd (hu.2 ⟨_, _, _, rfl⟩) hur
          simp only [Bool.toNat_false, Nat.add_zero, Bool.toNat_true] at bu hk
          simp only [Bool.not_false] at hp2
          have e4 : m.right p = some x := by simp [Mem.right, hg1, T.id]
          simp only [e4, Option.bind_some, if_true]
          obtain ⟨m0, f0, s0⟩ := rotateLeft_holds (ps := .L true g u :: qs)
            (show Holds m (plug (.L true g u :: qs) (.node false b p (.node false l x r))) from h)
          obtain ⟨m1, f1, s1⟩ := setBlack_holds s0 true
          obtain ⟨m2, f2, s2⟩ := setBlack_holds (ps := qs)
            (c := true) (l := .node true (.node false b p l) x r) (i := g) (r := u) s1 false
          obtain ⟨m3, f3, s3⟩ := rotateRight_holds s2
          simp only [f0, f1, f2, f3, Option.bind_some]
          obtain ⟨m', t', g1, g2, g3, g4⟩ := insertColor_stop (f := f) (by simp only [List.length_cons] at hf; omega)
            (ps := .L true x (.node false r g u) :: qs) s3 rfl
            ((ok_plug _ _).2 ⟨⟨by simp [pred], hp2, hl⟩, fun _ => rfl, ⟨by simp, hr, hub⟩, hp5⟩)
            ⟨k, (bal_plug _ _ _).2 ⟨n, ⟨n, bb, bl, rfl⟩, ⟨n, br, bu, rfl⟩, hk⟩⟩
          refine ⟨m', t', g1, g2, g3, ?_⟩
          rw [g4]
          simp [inorder_plug, plug, T.inorder]
      | .R c b p :: .R c2 u g :: qs, hf, h, hp, hroot, hk, hfo, hx, hred, hpr =>
        have hc : c = false := by cases c <;> simp_all [pred]
        subst hc
        obtain ⟨hp1, hp2, hp3, hp4, hp5⟩ := hp
        simp only [pred, Bool.not_eq_true'] at hp1
        have hc2 : c2 = true := by cases c2 <;> simp_all
        subst hc2
        obtain ⟨k, bb, bu, hk⟩ := hk
        have hg1 := (show Holds m (plug (.R true u g :: qs) (.node false b p (.node false l x r))) from h).get
        have hg2 := (show Holds m (plug qs (.node true u g (.node false b p (.node false l x r)))) from h).get
        have e1 : m.parent p = some g := by simp [Mem.parent, hg1, pid]
        have e2 : m.left g = some u.id := by simp [Mem.left, hg2, T.id]
        have e3 : m.right g = some p := by simp [Mem.right, hg2, T.id]
        have hu := redIf_id (m := m) rfl hfo.path.2.2.2.2.2.1
        have hpu : p ≠ u.id := sibling_R (m := m) (t := .node false b p (.node false l x r)) (ps := .R true u g :: qs)
          ((holds_focus _ _ _).1 h) (by simp [T.inorder]) true u g qs rfl
        simp only [pid, e1, e2, e3, Option.bind_some, hpu, if_false]
        by_cases hur : m.redIf u.id = true
        · simp only [hur, if_true]
          obtain ⟨ul, ui, ur, rfl⟩ := hu.1 hur
          obtain ⟨m1, f1, s1⟩ := setBlack_holds (ps := .L true g (.node false b p (.node false l x r)) :: qs) h true
          obtain ⟨m2, f2, s2⟩ := setBlack_holds (ps := .R true (.node true ul ui ur) g :: qs)
            (c := false) (l := b) (i := p) (r := (.node false l x r)) s1 true
          obtain ⟨m3, f3, s3⟩ := setBlack_holds (ps := qs)
            (c := true) (l := (.node true ul ui ur)) (i := g) (r := (.node true b p (.node false l x r))) s2 false
          have f1' : m.setBlack (T.node false ul ui ur).id true = some m1 := f1
          simp only [f1', f2, f3, Option.bind_some]
          obtain ⟨j, b1, b2, bj⟩ := bu
          simp only [Bool.toNat_false, Nat.add_zero] at bj b1 b2 bb hk
          subst bj
          obtain ⟨m', t', g1, g2, g3, g4⟩ := ih qs m3 _ _ g (n + 1) (by simp only [List.length_cons] at hf; omega) s3
            ⟨fun _ => rfl, ok_weaken hp4.2.1, ok_weaken hp4.2.2⟩ ⟨fun _ => rfl, ok_weaken (by simpa using hp2), ⟨by simp, hl, hr⟩⟩ hp5
            (by cases qs with
              | nil => trivial
              | cons _ _ => exact hroot)
            ⟨n, b1, b2, rfl⟩ ⟨n, bb, ⟨n, bl, br, rfl⟩, rfl⟩ ⟨k, hk⟩
          refine ⟨m', t', g1, g2, g3, ?_⟩
          rw [g4]
          simp [inorder_plug, plug, T.inorder]
        · have hur' : m.redIf u.id = false := by simpa using hur
          simp only [hur', Bool.false_eq_true, if_false]
          have hub : Ok true u := by
            cases u with
            | nil => trivial
            | node cu ul ui ur =>
              cases cu with
              | true => exact ⟨fun _ => rfl, hp4.2⟩
              | false => exact absurd (hu.2 ⟨_, _, _, rfl⟩) hur
          simp only [Bool.toNat_false, Nat.add_zero, Bool.toNat_true] at bu hk
          simp only [Bool.not_false] at hp2
          have e4 : m.left p = some b.id := by simp [Mem.left, hg1, T.id]
          have hbx : ¬ b.id = x := fun e => sibling_R (m := m) (t := .node false l x r) (ps := .R false b p :: .R true u g :: qs)
            ((holds_focus _ _ _).1 h) (j := x) (by simp [T.inorder]) false b p (.R true u g :: qs) rfl e.symm
          simp only [e4, Option.bind_some, if_neg hbx]
          obtain ⟨m1, f1, s1⟩ := setBlack_holds (ps := .R true u g :: qs)
            (c := false) (l := b) (i := p) (r := .node false l x r) h true
          obtain ⟨m2, f2, s2⟩ := setBlack_holds (ps := qs)
            (c := true) (l := u) (i := g) (r := .node true b p (.node false l x r)) s1 false
          obtain ⟨m3, f3, s3⟩ := rotateLeft_holds s2
          simp only [f1, f2, f3, Option.bind_some]
          obtain ⟨m', t', g1, g2, g3, g4⟩ := insertColor_stop (f := f) (by simp only [List.length_cons] at hf; omega)
            (ps := .R true (.node false u g b) p :: qs) s3 rfl
            ((ok_plug _ _).2 ⟨⟨by simp [pred], hl, hr⟩, fun _ => rfl, ⟨by simp, hub, hp2⟩, hp5⟩)
            ⟨k, (bal_plug _ _ _).2 ⟨n, ⟨n, bl, br, rfl⟩, ⟨n, bu, bb, rfl⟩, hk⟩⟩
          refine ⟨m', t', g1, g2, g3, ?_⟩
          rw [g4]
          simp [inorder_plug, plug, T.inorder]
    · have hpr : pred ps = false := by simpa using hpr
      simp only [hpr, Bool.false_eq_true, if_false]
      obtain ⟨k, hk⟩ := hk
      exact rootBlack_holds h (plug_ne_nil _ _ _ _ _)
        ((ok_plug _ _).2 ⟨⟨by simp [hpr], hl, hr⟩, hp⟩) ⟨k, (bal_plug _ _ _).2 ⟨n, ⟨n, bl, br, rfl⟩, hk⟩⟩

end Verif.Rbtree
