import Verif.Rbtree.Ops
/-!
Red-black trees under any sequence of calls (C100), in terms of the list of
the nodes in the tree.
-/
namespace Verif.Rbtree

/-- the calls that change a tree -/
inductive Op where
  | ins (x : Nat)
  | del (x : Nat)
  | repl (x y : Nat)
deriving DecidableEq, Repr

/-- one call; the loops take at most `f` rounds -/
def step (lt : Nat → Nat → Bool) (f : Nat) (m : Mem) : Op → Option Mem
  | .ins x => insert lt f m x
  | .del x => erase f m x
  | .repl x y => replaceNode m x y

def run (lt : Nat → Nat → Bool) (f : Nat) : List Op → Mem → Option Mem
  | [], m => some m
  | o :: os, m => (step lt f m o).bind (run lt f os)

/-- the effect on the sequence of the nodes -/
def spec (lt : Nat → Nat → Bool) (L : List Nat) : Op → List Nat
  | .ins x => L.takeWhile (fun a => !lt x a) ++ x :: L.dropWhile (fun a => !lt x a)
  | .del x => L.filter (· ≠ x)
  | .repl x y => L.map fun a => if a = x then y else a

/-- what the caller has to see to: no node is put in twice, only nodes in the tree are
taken out or replaced, and a replacement has the rank of what it replaces -/
def Fits (lt : Nat → Nat → Bool) (L : List Nat) : Op → Prop
  | .ins x => x ≠ 0 ∧ x ∉ L
  | .del x => x ∈ L
  | .repl x y => x ∈ L ∧ y ≠ 0 ∧ y ∉ L ∧ ∀ a, lt a y = lt a x ∧ lt y a = lt x a

def AllFit (lt : Nat → Nat → Bool) : List Op → List Nat → Prop
  | [], _ => True
  | o :: os, L => Fits lt L o ∧ AllFit lt os (spec lt L o)

/-- a strict weak order -/
structure Order (lt : Nat → Nat → Bool) : Prop where
  asymm : ∀ a b, lt a b = true → lt b a = false
  cotrans : ∀ a b c, lt a c = true → lt a b = true ∨ lt b c = true

def Sorted (lt : Nat → Nat → Bool) (L : List Nat) : Prop := L.Pairwise fun a b => lt b a = false

/-- the memory holds a red-black tree with these nodes, in this order -/
def Tree (m : Mem) (L : List Nat) : Prop := ∃ t, Holds m t ∧ RB t ∧ t.inorder = L

theorem rounds_mono {a b : Nat} (h : a ≤ b) : rounds a ≤ rounds b := by
  unfold rounds
  have : Nat.log2 (a + 1) ≤ Nat.log2 (b + 1) :=
    (Nat.le_log2 (by omega)).2 (Nat.le_trans (Nat.log2_self_le (by omega)) (by omega))
  omega

theorem tree_nodup {m : Mem} {L : List Nat} (h : Tree m L) : L.Nodup := by
  obtain ⟨t, h1, h2, rfl⟩ := h; exact h1.nodup

theorem tree_empty (nd : Nat → Node) : Tree ⟨0, nd⟩ [] :=
  ⟨.nil, ⟨rfl, trivial, by simp [T.inorder]⟩, ⟨trivial, 0, rfl⟩, rfl⟩

theorem filter_mid {a b : List Nat} {x : Nat} (h : (a ++ x :: b).Nodup) : (a ++ x :: b).filter (· ≠ x) = a ++ b := by
  rw [List.nodup_middle, List.nodup_cons, List.mem_append, not_or] at h
  rw [List.filter_append, List.filter_cons]
  simp only [ne_eq, decide_not, decide_true, Bool.not_true, Bool.false_eq_true, if_false]
  rw [List.filter_eq_self.2, List.filter_eq_self.2]
  · intro y hy; simp; rintro rfl; exact h.1.2 hy
  · intro y hy; simp; rintro rfl; exact h.1.1 hy

theorem map_mid {a b : List Nat} {x y : Nat} (h : (a ++ x :: b).Nodup) :
    (a ++ x :: b).map (fun k => if k = x then y else k) = a ++ y :: b := by
  rw [List.nodup_middle, List.nodup_cons, List.mem_append, not_or] at h
  have e : ∀ l : List Nat, x ∉ l → l.map (fun k => if k = x then y else k) = l := by
    intro l hl
    conv => rhs; rw [← List.map_id l]
    apply List.map_congr_left
    intro k hk
    have : k ≠ x := by rintro rfl; exact hl hk
    simp [this]
  rw [List.map_append, List.map_cons, e a h.1.1, e b h.1.2]; simp

/-- one insertion; only the comparison with the new node is needed -/
theorem tree_insert {lt : Nat → Nat → Bool} {f : Nat} {m : Mem} {L : List Nat} {x : Nat} (h : Tree m L) (x0 : x ≠ 0)
    (hx : x ∉ L) (hf : rounds L.length ≤ f) (hs : L.Pairwise fun a b => lt x a = true → lt x b = true) :
    ∃ m', insert lt f m x = some m' ∧ Tree m' (spec lt L (.ins x)) := by
  obtain ⟨t, h1, h2, rfl⟩ := h
  obtain ⟨m', t', g1, g2, g3, g4⟩ := insert_spec h1 h2 x0 hx (Nat.lt_of_lt_of_le (rb_height h2) hf) hs
  exact ⟨m', g1, t', g2, g3, g4⟩

/-- one deletion, without any condition on the order -/
theorem tree_erase {f : Nat} {m : Mem} {L : List Nat} {x : Nat} (h : Tree m L) (hx : x ∈ L)
    (hf : rounds L.length ≤ f) : ∃ m', erase f m x = some m' ∧ Tree m' (L.filter (· ≠ x)) := by
  obtain ⟨t, h1, h2, rfl⟩ := h
  obtain ⟨ps, c, l, r, rfl⟩ := mem_locate hx
  obtain ⟨m', t', g1, g2, g3, g4⟩ := erase_spec h1 h2 (Nat.le_of_lt (Nat.lt_of_lt_of_le (rb_height h2) hf))
  refine ⟨m', g1, t', g2, g3, ?_⟩
  have hnd := h1.nodup
  have e : (plug ps (.node c l x r)).inorder = (before ps ++ l.inorder) ++ x :: (r.inorder ++ after ps) := by
    simp [inorder_plug, T.inorder]
  rw [e] at hnd ⊢
  rw [g4, filter_mid hnd]; simp

theorem rb_relabel {ps : Path} {c : Bool} {l r : T} {x y : Nat} (h : RB (plug ps (.node c l x r))) :
    RB (plug ps (.node c l y r)) := by
  refine ⟨ok_plug_congr (ps := ps) (t := .node c l x r) (u := .node c l y r) (fun b hb => hb) true h.ok, ?_⟩
  obtain ⟨k, hk⟩ := h.bal
  obtain ⟨n, hk⟩ := (bal_plug ps _ k).1 hk
  exact ⟨k, (bal_plug ps (.node c l y r) k).2 ⟨n, hk⟩⟩

/-- one replacement, without any condition on the order -/
theorem tree_replace {m : Mem} {L : List Nat} {x y : Nat} (h : Tree m L) (hx : x ∈ L) (y0 : y ≠ 0) (hy : y ∉ L) :
    ∃ m', replaceNode m x y = some m' ∧ Tree m' (L.map fun a => if a = x then y else a) := by
  obtain ⟨t, h1, h2, rfl⟩ := h
  obtain ⟨ps, c, l, r, rfl⟩ := mem_locate hx
  obtain ⟨m', g1, g2⟩ := replaceNode_holds h1 y0 hy
  refine ⟨m', g1, _, g2, rb_relabel h2, ?_⟩
  have hnd := h1.nodup
  have e : ∀ z, (plug ps (.node c l z r)).inorder = (before ps ++ l.inorder) ++ z :: (r.inorder ++ after ps) := by
    intro z; simp [inorder_plug, T.inorder]
  rw [e] at hnd
  rw [e, e, map_mid hnd]

theorem sorted_mono {lt : Nat → Nat → Bool} (ho : Order lt) {L : List Nat} (h : Sorted lt L) (x : Nat) :
    L.Pairwise fun a b => lt x a = true → lt x b = true := by
  refine h.imp ?_
  intro a b hab hxa
  rcases ho.cotrans x b a hxa with h | h
  · exact h
  · rw [hab] at h; cases h

theorem spec_sorted {lt : Nat → Nat → Bool} (ho : Order lt) {L : List Nat} (h : Sorted lt L) (o : Op) (hf : Fits lt L o) :
    Sorted lt (spec lt L o) := by
  cases o with
  | ins x =>
    have hm := sorted_mono ho h x
    unfold Sorted at h ⊢
    simp only [spec]
    have h1 : ∀ a ∈ L.takeWhile (fun a => !lt x a), lt x a = false := by
      intro a ha
      have := List.all_takeWhile (p := fun a => !lt x a) (l := L)
      rw [List.all_eq_true] at this
      simpa using this a ha
    have h2 : ∀ a ∈ L.dropWhile (fun a => !lt x a), lt x a = true := by
      intro a ha
      cases hd : L.dropWhile (fun a => !lt x a) with
      | nil => rw [hd] at ha; cases ha
      | cons y ys =>
        have hy : lt x y = true := by
          have := List.head?_dropWhile_not (fun a => !lt x a) L
          rw [hd] at this
          simpa using this
        rw [hd] at ha
        rcases List.mem_cons.1 ha with rfl | ha
        · exact hy
        · have hsub : List.Pairwise (fun a b => lt x a = true → lt x b = true) (y :: ys) := by
            rw [← hd]; exact hm.sublist (List.dropWhile_sublist _)
          exact (List.pairwise_cons.1 hsub).1 a ha hy
    have hs : L.takeWhile (fun a => !lt x a) ++ L.dropWhile (fun a => !lt x a) = L := List.takeWhile_append_dropWhile
    rw [← hs, List.pairwise_append] at h
    rw [List.pairwise_append, List.pairwise_cons]
    refine ⟨h.1, ⟨fun b hb => ho.asymm x b (h2 b hb), h.2.1⟩, ?_⟩
    intro a ha b hb
    rcases List.mem_cons.1 hb with rfl | hb
    · exact h1 a ha
    · exact h.2.2 a ha b hb
  | del x => exact h.sublist (by simp only [spec]; exact List.filter_sublist)
  | repl x y =>
    obtain ⟨-, -, -, hr⟩ := hf
    unfold Sorted at h ⊢
    simp only [spec, List.pairwise_map]
    refine h.imp ?_
    intro a b hab
    by_cases ha : a = x <;> by_cases hb : b = x <;> simp [ha, hb, hr] <;> simp_all

/-- **Any sequence of calls** of insertion (as in the timer code), `rb_erase` and
`rb_replace_node`, on nodes as the caller has to see to: no call goes astray, each loop
ends after logarithmically many rounds, and there is always a red-black tree with
exactly the nodes put in and not taken out, in sorted order, new nodes behind
the equal ones. -/
theorem tree_run (lt : Nat → Nat → Bool) (ho : Order lt) (nd : Nat → Node) (f : Nat) (ops : List Op)
    (hv : AllFit lt ops []) (hf : rounds ops.length ≤ f) :
    ∃ m, run lt f ops ⟨0, nd⟩ = some m ∧ Tree m (ops.foldl (spec lt) []) ∧ Sorted lt (ops.foldl (spec lt) []) := by
  have key : ∀ (ops : List Op) (m : Mem) (L : List Nat), Tree m L → Sorted lt L → AllFit lt ops L →
      rounds (L.length + ops.length) ≤ f →
      ∃ m', run lt f ops m = some m' ∧ Tree m' (ops.foldl (spec lt) L) ∧ Sorted lt (ops.foldl (spec lt) L) := by
    intro ops
    induction ops with
    | nil => intro m L ht hs _ _; exact ⟨m, rfl, ht, hs⟩
    | cons o ops ih =>
      intro m L ht hs hv hf
      have hL : rounds L.length ≤ f := Nat.le_trans (rounds_mono (by omega)) hf
      have hstep : ∃ m1, step lt f m o = some m1 ∧ Tree m1 (spec lt L o) := by
        cases o with
        | ins x => exact tree_insert ht hv.1.1 hv.1.2 hL (sorted_mono ho hs x)
        | del x => exact tree_erase ht hv.1 hL
        | repl x y => exact tree_replace ht hv.1.1 hv.1.2.1 hv.1.2.2.1
      obtain ⟨m1, e1, t1⟩ := hstep
      have hlen : (spec lt L o).length ≤ L.length + 1 := by
        cases o with
        | ins x =>
          have : L.takeWhile (fun a => !lt x a) ++ L.dropWhile (fun a => !lt x a) = L := List.takeWhile_append_dropWhile
          have := congrArg List.length this
          simp only [List.length_append] at this
          simp only [spec, List.length_append, List.length_cons]; omega
        | del x => simp only [spec]; have := List.length_filter_le (· ≠ x) L; omega
        | repl x y => simp [spec]
      obtain ⟨m', g1, g2⟩ := ih m1 (spec lt L o) t1 (spec_sorted ho hs o hv.1) hv.2
        (Nat.le_trans (rounds_mono (by simp only [List.length_cons]; omega)) hf)
      exact ⟨m', by simp [run, e1, g1], g2⟩
  exact key ops _ [] (tree_empty nd) List.Pairwise.nil hv (by simpa using hf)

/-- **Going through**: `rb_first` and `rb_last` give the ends, NULL for the empty tree;
`rb_next` and `rb_prev` the neighbours, NULL at the ends. -/
theorem tree_walk {m : Mem} {L : List Nat} (h : Tree m L) (f : Nat) (hf : rounds L.length ≤ f) :
    first f m = some (L.head?.getD 0) ∧ last f m = some (L.getLast?.getD 0) ∧
    ∀ (i x : Nat), L[i]? = some x →
      next f m x = some (L[i + 1]?.getD 0) ∧ prev f m x = some (if i = 0 then 0 else L[i - 1]?.getD 0) := by
  obtain ⟨t, h1, h2, rfl⟩ := h
  have hh := Nat.le_of_lt (Nat.lt_of_lt_of_le (rb_height h2) hf)
  obtain ⟨a, b⟩ := first_spec h1 hh
  refine ⟨a, b, ?_⟩
  intro i x hi
  obtain ⟨ps, c, l, r, rfl⟩ := mem_locate (List.mem_of_getElem? hi)
  have e : (plug ps (.node c l x r)).inorder = (before ps ++ l.inorder) ++ x :: (r.inorder ++ after ps) := by
    simp [inorder_plug, T.inorder]
  have hnd := h1.nodup
  rw [e] at hnd hi ⊢
  have hii : i = (before ps ++ l.inorder).length := by
    have hj : ((before ps ++ l.inorder) ++ x :: (r.inorder ++ after ps))[(before ps ++ l.inorder).length]? = some x := by
      simp
    have hlt := (List.getElem?_eq_some_iff.1 hi).1
    exact (List.getElem?_inj hlt hnd).1 (hi.trans hj.symm)
  rw [next_at h1 hh, prev_at h1 hh]
  constructor
  · congr 2
    rw [hii, List.getElem?_append_right (by omega), List.head?_eq_getElem?]
    simp
  · congr 1
    by_cases h0 : i = 0
    · rw [hii] at h0
      have := List.length_eq_zero_iff.1 h0
      simp [hii, this]
    · rw [if_neg h0, List.getLast?_eq_getElem?, List.getElem?_append_left (l₁ := before ps ++ l.inorder) (by omega), hii]

/-- the balance the user relies on: a tree of `n` nodes has at most `2 log2 (n + 1)` levels -/
theorem tree_levels {m : Mem} {L : List Nat} (h : Tree m L) :
    ∃ t, Holds m t ∧ t.inorder = L ∧ t.height ≤ 2 * Nat.log2 (L.length + 1) := by
  obtain ⟨t, h1, h2, rfl⟩ := h
  have := rb_height h2
  unfold rounds at this
  exact ⟨t, h1, rfl, by unfold T.size at this; omega⟩

/-! ### Examples -/

/-- nodes 10 and 11 of equal rank -/
def exLt (a b : Nat) : Bool := a / 2 < b / 2

theorem exLt_order : Order exLt :=
  ⟨by intro a b h; simp only [exLt, decide_eq_true_eq, decide_eq_false_iff_not] at *; omega,
   by intro a b c h; simp only [exLt, decide_eq_true_eq] at *; omega⟩

def exOps : List Op :=
  [.ins 8, .ins 4, .ins 12, .ins 11, .ins 2, .ins 10, .ins 6, .del 8, .del 2, .repl 12 13, .ins 7, .del 4]

example : AllFit exLt exOps [] := by
  simp [AllFit, exOps, Fits, spec, exLt]

example : exOps.foldl (spec exLt) [] = [6, 7, 11, 10, 13] := by decide

example : (run exLt 10 exOps ⟨0, fun _ => ⟨0, false, 0, 0⟩⟩).map (fun m => (m.root, first 10 m, next 10 m 7, prev 10 m 6)) =
    some (11, some 6, some 11, some 0) := by decide +kernel

end Verif.Rbtree
