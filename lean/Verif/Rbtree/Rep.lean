import Verif.Rbtree.Model
/-!
Memory that holds a tree.
-/
namespace Verif.Rbtree

/-- a binary tree of addresses with colours -/
inductive T where
  | nil
  | node (black : Bool) (l : T) (i : Nat) (r : T)
deriving DecidableEq, Repr

/-- the address of the root, 0 for none -/
def T.id : T → Nat
  | .nil => 0
  | .node _ _ i _ => i

/-- the nodes in order -/
def T.inorder : T → List Nat
  | .nil => []
  | .node _ l i r => l.inorder ++ i :: r.inorder

/-- the nodes of the tree are in memory, with the parent given -/
def Rep (nd : Nat → Node) (par : Nat) : T → Prop
  | .nil => True
  | .node c l i r => i ≠ 0 ∧ nd i = ⟨par, c, l.id, r.id⟩ ∧ Rep nd i l ∧ Rep nd i r

/-- the memory holds the tree -/
structure Holds (m : Mem) (t : T) : Prop where
  root : m.root = t.id
  rep : Rep m.node 0 t
  nodup : t.inorder.Nodup

/-- one step on the way from a subtree to the root: the subtree is the left or the right child -/
inductive Frame where
  | L (black : Bool) (i : Nat) (r : T)
  | R (black : Bool) (l : T) (i : Nat)
deriving DecidableEq, Repr

abbrev Path := List Frame

def plug : Path → T → T
  | [], t => t
  | .L c i r :: ps, t => plug ps (.node c t i r)
  | .R c l i :: ps, t => plug ps (.node c l i t)

/-- address of the parent -/
def pid : Path → Nat
  | [] => 0
  | .L _ i _ :: _ => i
  | .R _ _ i :: _ => i

def before : Path → List Nat
  | [] => []
  | .L _ _ _ :: ps => before ps
  | .R _ l i :: ps => before ps ++ (l.inorder ++ [i])

def after : Path → List Nat
  | [] => []
  | .L _ i r :: ps => i :: (r.inorder ++ after ps)
  | .R _ _ _ :: ps => after ps

theorem inorder_plug (ps : Path) (t : T) : (plug ps t).inorder = before ps ++ t.inorder ++ after ps := by
  induction ps generalizing t with
  | nil => simp [plug, before, after]
  | cons fr ps ih => cases fr <;> simp [plug, before, after, ih, T.inorder]

/-- the nodes around a subtree at address `h` are in memory -/
def PRep (root : Nat) (nd : Nat → Node) (h : Nat) : Path → Prop
  | [] => root = h
  | .L c i r :: ps => i ≠ 0 ∧ nd i = ⟨pid ps, c, h, r.id⟩ ∧ Rep nd i r ∧ PRep root nd i ps
  | .R c l i :: ps => i ≠ 0 ∧ nd i = ⟨pid ps, c, l.id, h⟩ ∧ Rep nd i l ∧ PRep root nd i ps

theorem rep_plug (root : Nat) (nd : Nat → Node) (ps : Path) (t : T) :
    (root = (plug ps t).id ∧ Rep nd 0 (plug ps t)) ↔ PRep root nd t.id ps ∧ Rep nd (pid ps) t := by
  induction ps generalizing t with
  | nil => simp [plug, PRep, pid]
  | cons fr ps ih =>
    cases fr with
    | L c i r =>
      simp only [plug]
      rw [ih]
      simp only [PRep, Rep, pid, T.id]
      constructor
      · rintro ⟨h1, h2, h3, h4, h5⟩; exact ⟨⟨h2, h3, h5, h1⟩, h4⟩
      · rintro ⟨⟨h2, h3, h5, h1⟩, h4⟩; exact ⟨h1, h2, h3, h4, h5⟩
    | R c l i =>
      simp only [plug]
      rw [ih]
      simp only [PRep, Rep, pid, T.id]
      constructor
      · rintro ⟨h1, h2, h3, h4, h5⟩; exact ⟨⟨h2, h3, h4, h1⟩, h5⟩
      · rintro ⟨⟨h2, h3, h5, h1⟩, h4⟩; exact ⟨h1, h2, h3, h5, h4⟩

/-- the memory around and below a subtree, seen separately -/
structure Focus (m : Mem) (ps : Path) (t : T) : Prop where
  path : PRep m.root m.node t.id ps
  rep : Rep m.node (pid ps) t
  nodup : (before ps ++ t.inorder ++ after ps).Nodup

theorem holds_focus (m : Mem) (ps : Path) (t : T) : Holds m (plug ps t) ↔ Focus m ps t := by
  constructor
  · rintro ⟨h1, h2, h3⟩
    obtain ⟨a, b⟩ := (rep_plug m.root m.node ps t).1 ⟨h1, h2⟩
    exact ⟨a, b, by rw [← inorder_plug]; exact h3⟩
  · rintro ⟨h1, h2, h3⟩
    obtain ⟨a, b⟩ := (rep_plug m.root m.node ps t).2 ⟨h1, h2⟩
    exact ⟨a, b, by rw [inorder_plug]; exact h3⟩

/-! ### What the memory holds elsewhere does not matter -/

theorem rep_congr {nd nd' : Nat → Node} {par : Nat} {t : T} (h : Rep nd par t) (he : ∀ j ∈ t.inorder, nd' j = nd j) :
    Rep nd' par t := by
  induction t generalizing par with
  | nil => trivial
  | node c l i r ihl ihr =>
    obtain ⟨h1, h2, h3, h4⟩ := h
    refine ⟨h1, ?_, ihl h3 ?_, ihr h4 ?_⟩
    · rw [he i (by simp [T.inorder]), h2]
    · intro j hj; exact he j (by simp [T.inorder, hj])
    · intro j hj; exact he j (by simp [T.inorder, hj])

theorem prep_congr {root : Nat} {nd nd' : Nat → Node} {h : Nat} {ps : Path} (hp : PRep root nd h ps)
    (he : ∀ j, j ∈ before ps ∨ j ∈ after ps → nd' j = nd j) : PRep root nd' h ps := by
  induction ps generalizing h with
  | nil => exact hp
  | cons fr ps ih =>
    cases fr with
    | L c i r =>
      obtain ⟨h1, h2, h3, h4⟩ := hp
      refine ⟨h1, ?_, rep_congr h3 ?_, ih h4 ?_⟩
      · rw [he i (by simp [after]), h2]
      · intro j hj; exact he j (by simp [after, hj])
      · intro j hj; apply he j; simp [before, after]; rcases hj with hj | hj <;> simp [hj]
    | R c l i =>
      obtain ⟨h1, h2, h3, h4⟩ := hp
      refine ⟨h1, ?_, rep_congr h3 ?_, ih h4 ?_⟩
      · rw [he i (by simp [before]), h2]
      · intro j hj; exact he j (by simp [before, hj])
      · intro j hj; apply he j; simp [before, after]; rcases hj with hj | hj <;> simp [hj]

theorem id_mem {t : T} (h : t ≠ .nil) : t.id ∈ t.inorder := by
  cases t with
  | nil => exact absurd rfl h
  | node c l i r => simp [T.id, T.inorder]

theorem rep_id {nd : Nat → Node} {par : Nat} {t : T} (h : Rep nd par t) : t.id = 0 ↔ t = .nil := by
  cases t with
  | nil => simp [T.id]
  | node c l i r => simp only [T.id, reduceCtorEq, iff_false]; exact h.1

theorem rep_ne_zero {nd : Nat → Node} {par : Nat} {t : T} (h : Rep nd par t) : 0 ∉ t.inorder := by
  induction t generalizing par with
  | nil => simp [T.inorder]
  | node c l i r ihl ihr =>
    obtain ⟨h1, h2, h3, h4⟩ := h
    simp only [T.inorder, List.mem_append, List.mem_cons, not_or]
    exact ⟨ihl h3, fun h => h1 h.symm, ihr h4⟩

/-- a new parent for the subtree -/
theorem rep_parent {nd nd' : Nat → Node} {par par' : Nat} {t : T} (h : Rep nd par t) (hn : t.inorder.Nodup)
    (he : ∀ j ∈ t.inorder, j ≠ t.id → nd' j = nd j) (hr : t ≠ .nil → nd' t.id = { nd t.id with parent := par' }) :
    Rep nd' par' t := by
  cases t with
  | nil => trivial
  | node c l i r =>
    obtain ⟨h1, h2, h3, h4⟩ := h
    simp only [T.inorder, List.nodup_append, List.nodup_cons, List.mem_cons] at hn
    refine ⟨h1, ?_, rep_congr h3 ?_, rep_congr h4 ?_⟩
    · have := hr (by simp)
      simp only [T.id] at this
      rw [this, h2]
    · intro j hj
      exact he j (by simp [T.inorder, hj]) (hn.2.2 j hj i (Or.inl rfl))
    · intro j hj
      refine he j (by simp [T.inorder, hj]) ?_
      simp only [T.id]
      rintro rfl
      exact hn.2.1.1 hj

/-- the link from above, after replacing the subtree at `h` by one at `h'` -/
def Relinked (ps : Path) (m m' : Mem) (h' : Nat) : Prop :=
  match ps with
  | [] => m'.root = h'
  | .L _ i _ :: _ => m'.root = m.root ∧ m'.node i = { m.node i with left := h' }
  | .R _ _ i :: _ => m'.root = m.root ∧ m'.node i = { m.node i with right := h' }

theorem prep_relinked {m m' : Mem} {h h' : Nat} {ps : Path} (hp : PRep m.root m.node h ps)
    (hn : (before ps ++ after ps).Nodup) (hr : Relinked ps m m' h')
    (he : ∀ j, j ∈ before ps ∨ j ∈ after ps → j ≠ pid ps → m'.node j = m.node j) : PRep m'.root m'.node h' ps := by
  cases ps with
  | nil => exact hr
  | cons fr ps =>
    cases fr with
    | L c i r =>
      obtain ⟨h1, h2, h3, h4⟩ := hp
      obtain ⟨g1, g2⟩ := hr
      simp only [before, after, List.nodup_append, List.nodup_cons, List.mem_cons, List.mem_append] at hn
      refine ⟨h1, by rw [g2, h2], rep_congr h3 ?_, ?_⟩
      · intro j hj
        refine he j (by simp [after, hj]) ?_
        simp only [pid]
        rintro rfl
        exact hn.2.1.1 (Or.inl hj)
      · rw [g1]
        refine prep_congr h4 ?_
        intro j hj
        refine he j (by rcases hj with hj | hj <;> simp [before, after, hj]) ?_
        simp only [pid]
        rintro rfl
        rcases hj with hj | hj
        · exact hn.2.2 j hj j (Or.inl rfl) rfl
        · exact hn.2.1.1 (Or.inr hj)
    | R c l i =>
      obtain ⟨h1, h2, h3, h4⟩ := hp
      obtain ⟨g1, g2⟩ := hr
      simp only [before, after, List.nodup_append, List.nodup_cons, List.mem_cons, List.mem_append] at hn
      refine ⟨h1, by rw [g2, h2], rep_congr h3 ?_, ?_⟩
      · intro j hj
        refine he j (by simp [before, hj]) ?_
        simp only [pid]
        rintro rfl
        exact hn.1.2.1.2.2 j hj j (by simp) rfl
      · rw [g1]
        refine prep_congr h4 ?_
        intro j hj
        refine he j (by rcases hj with hj | hj <;> simp [before, after, hj]) ?_
        simp only [pid]
        rintro rfl
        rcases hj with hj | hj
        · exact hn.1.2.2 j hj j (by simp) rfl
        · exact hn.2.2 j (by simp) j hj rfl

/-- reading a node of the tree -/
theorem Focus.get {m : Mem} {ps : Path} {c : Bool} {l r : T} {i : Nat} (h : Focus m ps (.node c l i r)) :
    m.get i = some ⟨pid ps, c, l.id, r.id⟩ := by
  obtain ⟨h1, h2, -⟩ := h.rep
  simp [Mem.get, h1, h2]

theorem Holds.get {m : Mem} {ps : Path} {c : Bool} {l r : T} {i : Nat} (h : Holds m (plug ps (.node c l i r))) :
    m.get i = some ⟨pid ps, c, l.id, r.id⟩ := ((holds_focus _ _ _).1 h).get

/-- changing a colour -/
theorem setBlack_holds {m : Mem} {ps : Path} {c : Bool} {l r : T} {i : Nat} (h : Holds m (plug ps (.node c l i r)))
    (b : Bool) : ∃ m', m.setBlack i b = some m' ∧ Holds m' (plug ps (.node b l i r)) := by
  have hf := (holds_focus _ _ _).1 h
  have hg := h.get
  refine ⟨m.put i ⟨pid ps, b, l.id, r.id⟩, by simp [Mem.setBlack, hg], ?_⟩
  rw [holds_focus]
  obtain ⟨f1, f2, f3⟩ := hf
  obtain ⟨g1, g2, g3, g4⟩ := f2
  have hn := f3
  simp only [T.inorder, List.nodup_append, List.nodup_cons, List.mem_cons, List.mem_append] at hn
  refine ⟨?_, ⟨g1, by simp [Mem.put], rep_congr g3 ?_, rep_congr g4 ?_⟩, f3⟩
  · refine prep_congr f1 ?_
    intro j hj
    have : j ≠ i := by
      rintro rfl
      rcases hj with hj | hj
      · exact hn.1.2.2 j hj j (Or.inr (Or.inl rfl)) rfl
      · exact hn.2.2 j (Or.inr (Or.inr (Or.inl rfl))) j hj rfl
    simp [Mem.put, this]
  · intro j hj
    have : j ≠ i := fun e => hn.1.2.1.2.2 j hj i (Or.inl rfl) e
    simp [Mem.put, this]
  · intro j hj
    have : j ≠ i := by rintro rfl; exact hn.1.2.1.2.1.1 hj
    simp [Mem.put, this]

end Verif.Rbtree
