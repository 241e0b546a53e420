import Verif.Rbtree.Insert
/-!
`__rb_erase_color`.
-/
namespace Verif.Rbtree

theorem blackOrNull_eq (m : Mem) (p : Nat) : m.blackOrNull p = !m.redIf p := by
  unfold Mem.blackOrNull Mem.redIf
  by_cases h : p = 0 <;> simp [h]

/-- the root is not red -/
def Dark : T → Prop
  | .nil => True
  | .node c _ _ _ => c = true

theorem dark_ok {t : T} {a b : Bool} (hd : Dark t) (h : Ok a t) : Ok b t := by
  cases t with
  | nil => trivial
  | node c l i r => exact ⟨fun _ => hd, h.2⟩

theorem blackOrNull_id {m : Mem} {par : Nat} {t : T} (h : Rep m.node par t) :
    m.blackOrNull t.id = true ↔ Dark t := by
  rw [blackOrNull_eq]
  have := redIf_id (m := m) rfl h
  cases t with
  | nil => simp [Mem.redIf, T.id, Dark]
  | node c l i r =>
    cases c with
    | true =>
      have hf : m.redIf (T.node true l i r).id = false := by
        cases hq : m.redIf (T.node true l i r).id
        · rfl
        · obtain ⟨_, _, _, he⟩ := this.1 hq; cases he
      simp [hf, Dark]
    | false => simp [this.2 ⟨_, _, _, rfl⟩, Dark]

/-- the two subtrees are in order, whatever colour they have above them -/
def Below : T → Prop
  | .nil => True
  | .node _ l _ r => Ok false l ∧ Ok false r

theorem rootBlack_ok {ps : Path} (hne : ps ≠ []) (hr : RootBlack ps) {t : T} (h : Ok false (plug ps t)) :
    Ok true (plug ps t) := by
  induction ps generalizing t with
  | nil => exact absurd rfl hne
  | cons fr ps ih =>
    cases ps with
    | nil =>
      cases fr with
      | L c i r => simp only [RootBlack] at hr; exact ⟨fun _ => hr, h.2⟩
      | R c l i => simp only [RootBlack] at hr; exact ⟨fun _ => hr, h.2⟩
    | cons g ps =>
      cases fr with
      | L c i r => exact ih (by simp) hr h
      | R c l i => exact ih (by simp) hr h

/-- what is known around the place where a black node is missing -/
structure Around (ps : Path) (n : Nat) : Prop where
  ok : POk ps
  root : RootBlack ps
  bal : ∃ k, PBal ps (n + 1) k

theorem plug_id_ne {m : Mem} {ps : Path} {t : T} (hf : Focus m ps t) (hne : ps ≠ []) : t.id ≠ m.root := by
  have h := (holds_focus _ _ _).2 hf
  rw [h.root]
  intro he
  -- the root is in the surroundings, not in the subtree
  have hroot : (plug ps t).id ∈ before ps ∨ (plug ps t).id ∈ after ps := by
    clear he h hf
    induction ps generalizing t with
    | nil => exact absurd rfl hne
    | cons fr ps ih =>
      cases ps with
      | nil => cases fr <;> simp [plug, before, after, T.id]
      | cons g ps =>
        cases fr with
        | L c i r =>
          rcases ih (t := .node c t i r) (by simp) with h | h
          · left; simpa [before, plug] using h
          · right; simp only [after, plug] at h ⊢; simp [h]
        | R c l i =>
          rcases ih (t := .node c l i t) (by simp) with h | h
          · left; simp only [before, plug] at h ⊢; simp [h]
          · right; simpa [after, plug] using h
  have hn := hf.nodup
  have h0 : (plug ps t).id ≠ 0 := by
    intro e
    have hz := rep_ne_zero h.rep
    rw [inorder_plug] at hz
    rw [e] at hroot
    rcases hroot with h | h <;> exact hz (by simp [h])
  have hnil : t ≠ .nil := by
    rintro rfl
    exact h0 he.symm
  have hm := id_mem hnil
  rw [he] at hm
  simp only [List.nodup_append, List.mem_append] at hn
  rcases hroot with h | h
  · exact hn.1.2.2 _ h _ hm rfl
  · exact hn.2.2 _ (Or.inr hm) _ h rfl

theorem eraseEnd_root {m : Mem} {t : T} (h : Holds m t) (ht : t ≠ .nil) (hok : Ok false t) (hb : ∃ n, Bal t n) :
    ∃ m' t', eraseEnd m m.root = some m' ∧ Holds m' t' ∧ RB t' ∧ t'.inorder = t.inorder := by
  obtain ⟨m', t', h1, h2⟩ := rootBlack_holds h ht hok hb
  refine ⟨m', t', ?_, h2⟩
  unfold eraseEnd
  rw [if_pos]
  · exact h1
  · rw [h.root]; exact fun e => ht ((rep_id h.rep).1 e)

/-- the node is red, or the root, or null at the root: it becomes black -/
theorem eraseEnd_here {m : Mem} {ps : Path} {t : T} {n : Nat} (h : Holds m (plug ps t)) (hb : Below t)
    (hs : ps = [] ∨ ¬ Dark t) (hbal : Bal t n) (ha : Around ps n) :
    ∃ m' t', eraseEnd m t.id = some m' ∧ Holds m' t' ∧ RB t' ∧ t'.inorder = (plug ps t).inorder := by
  cases t with
  | nil =>
    have : ps = [] := by
      rcases hs with h | h
      · exact h
      · exact absurd trivial h
    subst this
    exact ⟨m, .nil, by simp [eraseEnd, T.id], h, ⟨trivial, 0, rfl⟩, rfl⟩
  | node c l i r =>
    obtain ⟨m', h1, h2⟩ := setBlack_holds h true
    have hi : i ≠ 0 := ((holds_focus _ _ _).1 h).rep.1
    refine ⟨m', plug ps (.node true l i r), by simp [eraseEnd, T.id, hi, h1], h2, ?_, by simp [inorder_plug, T.inorder]⟩
    by_cases hne : ps = []
    · subst hne
      obtain ⟨k, b1, b2, -⟩ := hbal
      exact ⟨⟨fun _ => rfl, hb.1, hb.2⟩, k + 1, k, b1, b2, rfl⟩
    · have hc : c = false := by
        rcases hs with h | h
        · exact absurd h hne
        · cases c
          · rfl
          · exact absurd rfl h
      subst hc
      obtain ⟨k, b1, b2, e⟩ := hbal
      simp only [Bool.toNat_false, Nat.add_zero] at e
      subst e
      obtain ⟨j, hj⟩ := ha.bal
      refine ⟨rootBlack_ok hne ha.root ((ok_plug _ _).2 ⟨⟨fun _ => rfl, hb.1, hb.2⟩, ha.ok⟩), j, ?_⟩
      exact (bal_plug _ _ _).2 ⟨n + 1, ⟨n, b1, b2, rfl⟩, hj⟩

theorem rootBlack_tail {a : Frame} {ps : Path} (h : RootBlack (a :: ps)) : RootBlack ps := by
  cases ps with
  | nil => trivial
  | cons b ps => cases a <;> exact h

/-- a red sibling on the right goes up: after that the sibling is black -/
theorem eraseRedL_spec {m : Mem} {qs : Path} {c : Bool} {p n : Nat} {other t : T}
    (h : Holds m (plug (.L c p other :: qs) t)) (ha : Around (.L c p other :: qs) n) :
    ∃ m' c' ol o or qs', eraseRedL m p = some (m', o) ∧ Holds m' (plug (.L c' p (.node true ol o or) :: qs') t) ∧
      Around (.L c' p (.node true ol o or) :: qs') n ∧
      (plug (.L c' p (.node true ol o or) :: qs') t).inorder = (plug (.L c p other :: qs) t).inorder ∧
      (c' = false ∨ qs' = qs) := by
  obtain ⟨⟨o1, o2, o3⟩, hroot, k, b1, b2⟩ := ha
  have hg := (show Holds m (plug qs (.node c t p other)) from h).get
  cases other with
  | nil => simp [Bal] at b1
  | node co ol o or =>
    have e1 : m.right p = some o := by simp [Mem.right, hg, T.id]
    have hg2 := (show Holds m (plug (.R c t p :: qs) (.node co ol o or)) from h).get
    have e2 : m.black o = some co := by simp [Mem.black, hg2]
    cases co with
    | true =>
      refine ⟨m, c, ol, o, or, qs, ?_, h, ⟨⟨o1, o2, o3⟩, hroot, k, b1, b2⟩, rfl, Or.inr rfl⟩
      simp [eraseRedL, e1, e2]
    | false =>
      have hc : c = true := by
        cases c
        · have := o2.1 rfl; cases this
        · rfl
      subst hc
      obtain ⟨m1, f1, s1⟩ := setBlack_holds (ps := .R true t p :: qs) h true
      obtain ⟨m2, f2, s2⟩ := setBlack_holds (ps := qs) (l := t) (i := p) (r := .node true ol o or) s1 false
      obtain ⟨m3, f3, s3⟩ := rotateLeft_holds s2
      obtain ⟨j, d1, d2, d3⟩ := b1
      simp only [Bool.toNat_false, Nat.add_zero] at d3
      subst d3
      have hd : Dark ol := by
        cases ol with
        | nil => trivial
        | node x _ _ _ => exact o2.2.1.1 rfl
      cases ol with
      | nil => simp [Bal] at d1
      | node x oll oli olr =>
        have hx : x = true := hd
        subst hx
        have hg3 := (show Holds m3 (plug (.L true o or :: qs) (.node false t p (.node true oll oli olr))) from s3).get
        have e3 : m3.right p = some oli := by simp [Mem.right, hg3, T.id]
        refine ⟨m3, false, oll, oli, olr, .L true o or :: qs, ?_, s3, ⟨⟨by simp [pred], o2.2.1, ?_, ok_weaken o2.2.2, o3⟩, ?_, k, d1, ?_⟩, ?_, Or.inl rfl⟩
        · simp [eraseRedL, e1, e2, f1, f2, f3, e3]
        · exact fun _ => rfl
        · cases qs with
          | nil => rfl
          | cons _ _ => exact hroot
        · exact ⟨d2, b2⟩
        · simp [inorder_plug, plug, T.inorder]

/-- a black sibling on the right with a red child -/
theorem eraseFixL_spec {m : Mem} {qs : Path} {c : Bool} {p n o : Nat} {ol or t : T}
    (h : Holds m (plug (.L c p (.node true ol o or) :: qs) t)) (ha : Around (.L c p (.node true ol o or) :: qs) n)
    (ht : Ok true t) (hbal : Bal t n) (hred : ¬ (Dark ol ∧ Dark or)) :
    ∃ m' t', eraseFixL m p o = some m' ∧ Holds m' t' ∧ RB t' ∧
      t'.inorder = (plug (.L c p (.node true ol o or) :: qs) t).inorder := by
  obtain ⟨⟨o1, o2, o3⟩, hroot, k, b1, b2⟩ := ha
  obtain ⟨j, d1, d2, d3⟩ := b1
  simp only [Bool.toNat_true, Nat.add_right_cancel_iff] at d3
  subst d3
  have hfo := (holds_focus _ (.R c t p :: qs) (.node true ol o or)).1 h
  have e1 : m.right o = some or.id := by simp [Mem.right, hfo.get]
  have hbo := blackOrNull_id hfo.rep.2.2.2
  -- the end is the same for both: the far child is red
  have fin : ∀ (m : Mem) (ol : T) (o : Nat) (rl : T) (ri : Nat) (rr : T) (x : Bool) (r : Mem × Nat), r = (m, o) →
      Holds m (plug (.L c p (.node x ol o (.node false rl ri rr)) :: qs) t) →
      Ok false ol → Ok true rl → Ok true rr → Bal ol n → Bal rl n → Bal rr n →
      ∃ m' t', (do
        let pc ← r.1.black p
        let m ← r.1.setBlack r.2 pc
        let m ← m.setBlack p true
        let or ← m.right r.2
        let m ← m.setBlack or true
        let m ← rotateLeft m p
        eraseEnd m m.root) = some m' ∧ Holds m' t' ∧ RB t' ∧
        t'.inorder = (plug (.L c p (.node x ol o (.node false rl ri rr)) :: qs) t).inorder := by
    rintro m ol o rl ri rr x _ rfl h k1 k2 k3 w1 w2 w3
    have hg := (show Holds m (plug qs (.node c t p (.node x ol o (.node false rl ri rr)))) from h).get
    have q1 : m.black p = some c := by simp [Mem.black, hg]
    obtain ⟨m1, f1, s1⟩ := setBlack_holds (ps := .R c t p :: qs) h c
    obtain ⟨m2, f2, s2⟩ := setBlack_holds (ps := qs) (l := t) (i := p) (r := .node c ol o (.node false rl ri rr)) s1 true
    have hg2 := (show Holds m2 (plug (.R true t p :: qs) (.node c ol o (.node false rl ri rr))) from s2).get
    have q2 : m2.right o = some ri := by simp [Mem.right, hg2, T.id]
    obtain ⟨m3, f3, s3⟩ := setBlack_holds (ps := .R c ol o :: .R true t p :: qs) (l := rl) (i := ri) (r := rr) s2 true
    obtain ⟨m4, f4, s4⟩ := rotateLeft_holds (ps := qs) (a := t) (x := p) (b := ol) (y := o) (d := .node true rl ri rr) s3
    obtain ⟨m5, t', g1, g2, g3, g4⟩ := eraseEnd_root s4 (plug_ne_nil _ _ _ _ _)
      ((ok_plug _ _).2 ⟨⟨o1, ⟨fun _ => rfl, ok_weaken ht, k1⟩, ⟨fun _ => rfl, ok_weaken k2, ok_weaken k3⟩⟩, o3⟩)
      ⟨k, (bal_plug _ _ _).2 ⟨_, ⟨n + 1, ⟨n, hbal, w1, rfl⟩, ⟨n, w2, w3, rfl⟩, rfl⟩, b2⟩⟩
    refine ⟨m5, t', ?_, g2, g3, ?_⟩
    · simp [q1, f1, f2, q2, f3, f4, g1]
    · rw [g4]; simp [inorder_plug, plug, T.inorder]
  unfold eraseFixL
  simp only [e1, Option.bind_eq_bind, Option.bind_some]
  by_cases hor : m.blackOrNull or.id = true
  · simp only [hor, if_true]
    have hdo := hbo.1 hor
    cases ol with
    | nil => exact absurd ⟨trivial, hdo⟩ hred
    | node x oll oli olr =>
      cases x with
      | true => exact absurd ⟨rfl, hdo⟩ hred
      | false =>
        have e2 : m.left o = some oli := by simp [Mem.left, hfo.get, T.id]
        obtain ⟨m1, f1, s1⟩ := setBlack_holds (ps := .L true o or :: .R c t p :: qs) h true
        obtain ⟨m2, f2, s2⟩ := setBlack_holds (ps := .R c t p :: qs) (l := .node true oll oli olr) (i := o) (r := or) s1 false
        obtain ⟨m3, f3, s3⟩ := rotateRight_holds s2
        have hg3 := (show Holds m3 (plug qs (.node c t p (.node true oll oli (.node false olr o or)))) from s3).get
        have e3 : m3.right p = some oli := by simp [Mem.right, hg3, T.id]
        simp only [e2, f1, f2, f3, e3, Option.bind_some]
        obtain ⟨j, d4, d5, d6⟩ := d1
        simp only [Bool.toNat_false, Nat.add_zero] at d6
        subst d6
        obtain ⟨m', t', g1, g2, g3, g4⟩ := fin m3 oll oli olr o or true (m3, oli) rfl s3
          (ok_weaken o2.2.1.2.1) o2.2.1.2.2 (dark_ok hdo o2.2.2) d4 d5 d2
        refine ⟨m', t', g1, g2, g3, ?_⟩
        rw [g4]; simp [inorder_plug, plug, T.inorder]
  · simp only [hor, if_false, Bool.false_eq_true]
    cases or with
    | nil => exact absurd (hbo.2 trivial) hor
    | node x orl ori orr =>
      cases x with
      | true => exact absurd (hbo.2 rfl) hor
      | false =>
        obtain ⟨j, d4, d5, d6⟩ := d2
        simp only [Bool.toNat_false, Nat.add_zero] at d6
        subst d6
        exact fin m ol o orl ori orr true (m, o) rfl h o2.2.1 o2.2.2.2.1 o2.2.2.2.2 d1 d4 d5

/-- a red sibling on the left goes up: after that the sibling is black -/
theorem eraseRedR_spec {m : Mem} {qs : Path} {c : Bool} {p n : Nat} {other t : T}
    (h : Holds m (plug (.R c other p :: qs) t)) (ha : Around (.R c other p :: qs) n) :
    ∃ m' c' ol o or qs', eraseRedR m p = some (m', o) ∧ Holds m' (plug (.R c' (.node true or o ol) p :: qs') t) ∧
      Around (.R c' (.node true or o ol) p :: qs') n ∧
      (plug (.R c' (.node true or o ol) p :: qs') t).inorder = (plug (.R c other p :: qs) t).inorder ∧
      (c' = false ∨ qs' = qs) := by
  obtain ⟨⟨o1, o2, o3⟩, hroot, k, b1, b2⟩ := ha
  have hg := (show Holds m (plug qs (.node c other p t)) from h).get
  cases other with
  | nil => simp [Bal] at b1
  | node co or o ol =>
    have e1 : m.left p = some o := by simp [Mem.left, hg, T.id]
    have hg2 := (show Holds m (plug (.L c p t :: qs) (.node co or o ol)) from h).get
    have e2 : m.black o = some co := by simp [Mem.black, hg2]
    cases co with
    | true =>
      refine ⟨m, c, ol, o, or, qs, ?_, h, ⟨⟨o1, o2, o3⟩, hroot, k, b1, b2⟩, rfl, Or.inr rfl⟩
      simp [eraseRedR, e1, e2]
    | false =>
      have hc : c = true := by
        cases c
        · have := o2.1 rfl; cases this
        · rfl
      subst hc
      obtain ⟨m1, f1, s1⟩ := setBlack_holds (ps := .L true p t :: qs) h true
      obtain ⟨m2, f2, s2⟩ := setBlack_holds (ps := qs) (l := .node true or o ol) (i := p) (r := t) s1 false
      obtain ⟨m3, f3, s3⟩ := rotateRight_holds s2
      obtain ⟨j, d2, d1, d3⟩ := b1
      simp only [Bool.toNat_false, Nat.add_zero] at d3
      subst d3
      have hd : Dark ol := by
        cases ol with
        | nil => trivial
        | node x _ _ _ => exact o2.2.2.1 rfl
      cases ol with
      | nil => simp [Bal] at d1
      | node x olr oli oll =>
        have hx : x = true := hd
        subst hx
        have hg3 := (show Holds m3 (plug (.R true or o :: qs) (.node false (.node true olr oli oll) p t)) from s3).get
        have e3 : m3.left p = some oli := by simp [Mem.left, hg3, T.id]
        refine ⟨m3, false, oll, oli, olr, .R true or o :: qs, ?_, s3, ⟨⟨by simp [pred], o2.2.2, ?_, ok_weaken o2.2.1, o3⟩, ?_, k, d1, ?_⟩, ?_, Or.inl rfl⟩
        · simp [eraseRedR, e1, e2, f1, f2, f3, e3]
        · exact fun _ => rfl
        · cases qs with
          | nil => rfl
          | cons _ _ => exact hroot
        · exact ⟨d2, b2⟩
        · simp [inorder_plug, plug, T.inorder]

/-- a black sibling on the left with a red child -/
theorem eraseFixR_spec {m : Mem} {qs : Path} {c : Bool} {p n o : Nat} {ol or t : T}
    (h : Holds m (plug (.R c (.node true or o ol) p :: qs) t)) (ha : Around (.R c (.node true or o ol) p :: qs) n)
    (ht : Ok true t) (hbal : Bal t n) (hred : ¬ (Dark ol ∧ Dark or)) :
    ∃ m' t', eraseFixR m p o = some m' ∧ Holds m' t' ∧ RB t' ∧
      t'.inorder = (plug (.R c (.node true or o ol) p :: qs) t).inorder := by
  obtain ⟨⟨o1, o2, o3⟩, hroot, k, b1, b2⟩ := ha
  obtain ⟨j, d2, d1, d3⟩ := b1
  simp only [Bool.toNat_true, Nat.add_right_cancel_iff] at d3
  subst d3
  have hfo := (holds_focus _ (.L c p t :: qs) (.node true or o ol)).1 h
  have e1 : m.left o = some or.id := by simp [Mem.left, hfo.get]
  have hbo := blackOrNull_id hfo.rep.2.2.1
  -- the end is the same for both: the far child is red
  have fin : ∀ (m : Mem) (ol : T) (o : Nat) (rl : T) (ri : Nat) (rr : T) (x : Bool) (r : Mem × Nat), r = (m, o) →
      Holds m (plug (.R c (.node x (.node false rr ri rl) o ol) p :: qs) t) →
      Ok false ol → Ok true rl → Ok true rr → Bal ol n → Bal rl n → Bal rr n →
      ∃ m' t', (do
        let pc ← r.1.black p
        let m ← r.1.setBlack r.2 pc
        let m ← m.setBlack p true
        let or ← m.left r.2
        let m ← m.setBlack or true
        let m ← rotateRight m p
        eraseEnd m m.root) = some m' ∧ Holds m' t' ∧ RB t' ∧
        t'.inorder = (plug (.R c (.node x (.node false rr ri rl) o ol) p :: qs) t).inorder := by
    rintro m ol o rl ri rr x _ rfl h k1 k2 k3 w1 w2 w3
    have hg := (show Holds m (plug qs (.node c (.node x (.node false rr ri rl) o ol) p t)) from h).get
    have q1 : m.black p = some c := by simp [Mem.black, hg]
    obtain ⟨m1, f1, s1⟩ := setBlack_holds (ps := .L c p t :: qs) h c
    obtain ⟨m2, f2, s2⟩ := setBlack_holds (ps := qs) (l := .node c (.node false rr ri rl) o ol) (i := p) (r := t) s1 true
    have hg2 := (show Holds m2 (plug (.L true p t :: qs) (.node c (.node false rr ri rl) o ol)) from s2).get
    have q2 : m2.left o = some ri := by simp [Mem.left, hg2, T.id]
    obtain ⟨m3, f3, s3⟩ := setBlack_holds (ps := .L c o ol :: .L true p t :: qs) (l := rr) (i := ri) (r := rl) s2 true
    obtain ⟨m4, f4, s4⟩ := rotateRight_holds (ps := qs) (a := .node true rr ri rl) (x := p) (b := ol) (y := o) (d := t) s3
    obtain ⟨m5, t', g1, g2, g3, g4⟩ := eraseEnd_root s4 (plug_ne_nil _ _ _ _ _)
      ((ok_plug _ _).2 ⟨⟨o1, ⟨fun _ => rfl, ok_weaken k3, ok_weaken k2⟩, ⟨fun _ => rfl, k1, ok_weaken ht⟩⟩, o3⟩)
      ⟨k, (bal_plug _ _ _).2 ⟨_, ⟨n + 1, ⟨n, w3, w2, rfl⟩, ⟨n, w1, hbal, rfl⟩, rfl⟩, b2⟩⟩
    refine ⟨m5, t', ?_, g2, g3, ?_⟩
    · simp [q1, f1, f2, q2, f3, f4, g1]
    · rw [g4]; simp [inorder_plug, plug, T.inorder]
  unfold eraseFixR
  simp only [e1, Option.bind_eq_bind, Option.bind_some]
  by_cases hor : m.blackOrNull or.id = true
  · simp only [hor, if_true]
    have hdo := hbo.1 hor
    cases ol with
    | nil => exact absurd ⟨trivial, hdo⟩ hred
    | node x olr oli oll =>
      cases x with
      | true => exact absurd ⟨rfl, hdo⟩ hred
      | false =>
        have e2 : m.right o = some oli := by simp [Mem.right, hfo.get, T.id]
        obtain ⟨m1, f1, s1⟩ := setBlack_holds (ps := .R true or o :: .L c p t :: qs) h true
        obtain ⟨m2, f2, s2⟩ := setBlack_holds (ps := .L c p t :: qs) (l := or) (i := o) (r := .node true olr oli oll) s1 false
        obtain ⟨m3, f3, s3⟩ := rotateLeft_holds s2
        have hg3 := (show Holds m3 (plug qs (.node c (.node true (.node false or o olr) oli oll) p t)) from s3).get
        have e3 : m3.left p = some oli := by simp [Mem.left, hg3, T.id]
        simp only [e2, f1, f2, f3, e3, Option.bind_some]
        obtain ⟨j, d5, d4, d6⟩ := d1
        simp only [Bool.toNat_false, Nat.add_zero] at d6
        subst d6
        obtain ⟨m', t', g1, g2, g3, g4⟩ := fin m3 oll oli olr o or true (m3, oli) rfl s3
          (ok_weaken o2.2.2.2.2) o2.2.2.2.1 (dark_ok hdo o2.2.1) d4 d5 d2
        refine ⟨m', t', g1, g2, g3, ?_⟩
        rw [g4]; simp [inorder_plug, plug, T.inorder]
  · simp only [hor, if_false, Bool.false_eq_true]
    cases or with
    | nil => exact absurd (hbo.2 trivial) hor
    | node x orr ori orl =>
      cases x with
      | true => exact absurd (hbo.2 rfl) hor
      | false =>
        obtain ⟨j, d5, d4, d6⟩ := d2
        simp only [Bool.toNat_false, Nat.add_zero] at d6
        subst d6
        exact fin m ol o orl ori orr true (m, o) rfl h o2.2.2 o2.2.1.2.2 o2.2.1.2.1 d1 d4 d5

/-- `__rb_erase_color`: below the surroundings `ps` is a subtree with one black node too few on each way -/
theorem eraseColor_spec (f : Nat) : ∀ (ps : Path) (m : Mem) (t : T) (n : Nat), 0 < f → (ps.length < f ∨ ¬ Dark t) →
    Holds m (plug ps t) → Below t → Bal t n → Around ps n →
    ∃ m' t', eraseColor f m t.id (pid ps) = some m' ∧ Holds m' t' ∧ RB t' ∧ t'.inorder = (plug ps t).inorder := by
  induction f with
  | zero => intro ps m t n hf; omega
  | succ f ih =>
    intro ps m t n _ hf h hb hbal ha
    have hfo := (holds_focus _ _ _).1 h
    have hdark := blackOrNull_id hfo.rep
    unfold eraseColor
    by_cases hstop : ps = [] ∨ ¬ Dark t
    · have hcond : (m.blackOrNull t.id && decide (t.id ≠ m.root)) = false := by
        rcases hstop with rfl | hd
        · have := hfo.path
          simp only [PRep] at this
          simp [this]
        · have : m.blackOrNull t.id = false := by
            cases hq : m.blackOrNull t.id
            · rfl
            · exact absurd (hdark.1 hq) hd
          simp [this]
      simp only [hcond, Bool.false_eq_true, if_false]
      exact eraseEnd_here h hb hstop hbal ha
    · have hne : ps ≠ [] := fun e => hstop (Or.inl e)
      have hd : Dark t := by
        by_cases hd : Dark t
        · exact hd
        · exact absurd (Or.inr hd) hstop
      have hlen : ps.length < f + 1 := by
        rcases hf with h | h
        · exact h
        · exact absurd hd h
      have hcond : (m.blackOrNull t.id && decide (t.id ≠ m.root)) = true := by
        simp [hdark.2 hd, plug_id_ne hfo hne]
      have htok : Ok true t := by
        cases t with
        | nil => trivial
        | node c l i r =>
          have hc : c = true := hd
          subst hc
          exact ⟨fun _ => rfl, hb.1, hb.2⟩
      simp only [hcond, if_true, Option.bind_eq_bind]
      cases ps with
      | nil => exact absurd rfl hne
      | cons fr qs =>
        simp only [List.length_cons] at hlen
        cases fr with
        | L c p other =>
          have hg := (show Holds m (plug qs (.node c t p other)) from h).get
          have e1 : m.left p = some t.id := by simp [Mem.left, hg]
          simp only [pid, e1, Option.bind_some, if_true]
          obtain ⟨m1, c', ol, o, or, qs', f1, s1, a1, i1, hcq⟩ := eraseRedL_spec h ha
          have hfo1 := (holds_focus _ (.R c' t p :: qs') (.node true ol o or)).1 s1
          have e2 : m1.left o = some ol.id := by simp [Mem.left, hfo1.get]
          have e3 : m1.right o = some or.id := by simp [Mem.right, hfo1.get]
          simp only [f1, e2, e3, Option.bind_some]
          have d1 := blackOrNull_id hfo1.rep.2.2.1
          have d2 := blackOrNull_id hfo1.rep.2.2.2
          by_cases hboth : Dark ol ∧ Dark or
          · simp only [d1.2 hboth.1, d2.2 hboth.2, Bool.and_self, if_true]
            obtain ⟨m2, f2, s2⟩ := setBlack_holds (ps := .R c' t p :: qs') s1 false
            have hg2 := (show Holds m2 (plug qs' (.node c' t p (.node false ol o or))) from s2).get
            have e4 : m2.parent p = some (pid qs') := by simp [Mem.parent, hg2]
            simp only [f2, e4, Option.bind_some]
            obtain ⟨⟨o1, o2, o3⟩, hroot, k, b1, b2⟩ := a1
            obtain ⟨j, b3, b4, b5⟩ := b1
            simp only [Bool.toNat_true, Nat.add_right_cancel_iff] at b5
            subst b5
            obtain ⟨m', t', g1, g2, g3, g4⟩ := ih qs' m2 (.node c' t p (.node false ol o or)) (n + c'.toNat) (by omega)
              (by
                rcases hcq with rfl | rfl
                · exact Or.inr (by simp [Dark])
                · exact Or.inl (by omega)) s2
              ⟨ok_weaken htok, ⟨by simp, dark_ok hboth.1 o2.2.1, dark_ok hboth.2 o2.2.2⟩⟩
              ⟨n, hbal, ⟨n, b3, b4, rfl⟩, rfl⟩ ⟨o3, rootBlack_tail hroot, k, by
                rw [show n + c'.toNat + 1 = n + 1 + c'.toNat by omega]; exact b2⟩
            refine ⟨m', t', g1, g2, g3, ?_⟩
            rw [g4, ← i1]; simp [inorder_plug, plug, T.inorder]
          · have : (m1.blackOrNull ol.id && m1.blackOrNull or.id) = false := by
              cases hq1 : m1.blackOrNull ol.id
              · rfl
              · cases hq2 : m1.blackOrNull or.id
                · rfl
                · exact absurd ⟨d1.1 hq1, d2.1 hq2⟩ hboth
            simp only [this, Bool.false_eq_true, if_false]
            obtain ⟨m', t', g1, g2, g3, g4⟩ := eraseFixL_spec s1 a1 htok hbal hboth
            exact ⟨m', t', g1, g2, g3, by rw [g4, i1]⟩
        | R c other p =>
          have hg := (show Holds m (plug qs (.node c other p t)) from h).get
          have e1 : m.left p = some other.id := by simp [Mem.left, hg]
          have hne' : ¬ other.id = t.id := by
            intro e
            have hnd := hfo.nodup
            have ho : other ≠ .nil := by
              rintro rfl
              obtain ⟨-, -, k, b1, -⟩ := ha
              simp [Bal] at b1
            have ho0 : other.id ≠ 0 := fun e => ho ((rep_id hfo.path.2.2.1).1 e)
            have ht : t ≠ .nil := fun e2 => ho0 (by rw [e, e2]; rfl)
            exact sibling_R hfo (id_mem ht) c other p qs rfl e.symm
          simp only [pid, e1, Option.bind_some, hne', if_false]
          obtain ⟨m1, c', ol, o, or, qs', f1, s1, a1, i1, hcq⟩ := eraseRedR_spec h ha
          have hfo1 := (holds_focus _ (.L c' p t :: qs') (.node true or o ol)).1 s1
          have e2 : m1.left o = some or.id := by simp [Mem.left, hfo1.get]
          have e3 : m1.right o = some ol.id := by simp [Mem.right, hfo1.get]
          simp only [f1, e2, e3, Option.bind_some]
          have d1 := blackOrNull_id hfo1.rep.2.2.1
          have d2 := blackOrNull_id hfo1.rep.2.2.2
          by_cases hboth : Dark ol ∧ Dark or
          · simp only [d1.2 hboth.2, d2.2 hboth.1, Bool.and_self, if_true]
            obtain ⟨m2, f2, s2⟩ := setBlack_holds (ps := .L c' p t :: qs') s1 false
            have hg2 := (show Holds m2 (plug qs' (.node c' (.node false or o ol) p t)) from s2).get
            have e4 : m2.parent p = some (pid qs') := by simp [Mem.parent, hg2]
            simp only [f2, e4, Option.bind_some]
            obtain ⟨⟨o1, o2, o3⟩, hroot, k, b1, b2⟩ := a1
            obtain ⟨j, b3, b4, b5⟩ := b1
            simp only [Bool.toNat_true, Nat.add_right_cancel_iff] at b5
            subst b5
            obtain ⟨m', t', g1, g2, g3, g4⟩ := ih qs' m2 (.node c' (.node false or o ol) p t) (n + c'.toNat) (by omega)
              (by
                rcases hcq with rfl | rfl
                · exact Or.inr (by simp [Dark])
                · exact Or.inl (by omega)) s2
              ⟨⟨by simp, dark_ok hboth.2 o2.2.1, dark_ok hboth.1 o2.2.2⟩, ok_weaken htok⟩
              ⟨n, ⟨n, b3, b4, rfl⟩, hbal, rfl⟩ ⟨o3, rootBlack_tail hroot, k, by
                rw [show n + c'.toNat + 1 = n + 1 + c'.toNat by omega]; exact b2⟩
            refine ⟨m', t', g1, g2, g3, ?_⟩
            rw [g4, ← i1]; simp [inorder_plug, plug, T.inorder]
          · have : (m1.blackOrNull or.id && m1.blackOrNull ol.id) = false := by
              cases hq1 : m1.blackOrNull or.id
              · rfl
              · cases hq2 : m1.blackOrNull ol.id
                · rfl
                · exact absurd ⟨d2.1 hq2, d1.1 hq1⟩ hboth
            simp only [this, Bool.false_eq_true, if_false]
            obtain ⟨m', t', g1, g2, g3, g4⟩ := eraseFixR_spec s1 a1 htok hbal hboth
            exact ⟨m', t', g1, g2, g3, by rw [g4, i1]⟩

end Verif.Rbtree
