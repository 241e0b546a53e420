import Verif.Hlist.Model
/-!
# C119: lists with a single pointer as head
-/
namespace Verif.Hlist

/-- from a pointer on, the nodes linked are `xs`, each knowing the pointer that leads to it, and NULL follows -/
def Chain (m : Mem) : Slot → List Nat → Prop
  | s, [] => m.ptr s = none
  | s, x :: xs => m.ptr s = some x ∧ m.pprev x = some s ∧ Chain m (.next x) xs

/-- the same for a part of a list -/
def Seg (m : Mem) : Slot → List Nat → Prop
  | _, [] => True
  | s, x :: xs => m.ptr s = some x ∧ m.pprev x = some s ∧ Seg m (.next x) xs

/-- the pointer behind -/
def endSlot : Slot → List Nat → Slot
  | s, [] => s
  | _, x :: xs => endSlot (.next x) xs

theorem chain_append {m : Mem} : ∀ {s : Slot} {xs ys : List Nat}, Chain m s (xs ++ ys) ↔ Seg m s xs ∧ Chain m (endSlot s xs) ys
  | s, [], ys => by simp [Seg, endSlot]
  | s, x :: xs, ys => by
    have := chain_append (m := m) (s := .next x) (xs := xs) (ys := ys)
    simp only [List.cons_append, Chain, Seg, endSlot, this]
    constructor
    · rintro ⟨a, b, c, d⟩; exact ⟨⟨a, b, c⟩, d⟩
    · rintro ⟨⟨a, b, c⟩, d⟩; exact ⟨a, b, c, d⟩

theorem chain_head {m : Mem} {s : Slot} {xs : List Nat} (c : Chain m s xs) : m.ptr s = xs.head? := by
  cases xs with
  | nil => exact c
  | cons x xs => exact c.1

theorem endSlot_cases : ∀ (xs : List Nat) (s : Slot), (xs = [] ∧ endSlot s xs = s) ∨ ∃ x ∈ xs, endSlot s xs = .next x
  | [], _ => .inl ⟨rfl, rfl⟩
  | x :: xs, s => by
    rcases endSlot_cases xs (.next x) with ⟨h, e⟩ | ⟨y, hy, e⟩
    · exact .inr ⟨x, List.mem_cons_self, e⟩
    · exact .inr ⟨y, List.mem_cons_of_mem _ hy, e⟩

theorem chain_congr {m m' : Mem} : ∀ {xs : List Nat} {s : Slot}, m'.ptr s = m.ptr s → (∀ x ∈ xs, m'.ptr (.next x) = m.ptr (.next x) ∧ m'.pprev x = m.pprev x) → Chain m s xs → Chain m' s xs
  | [], _, h, _, c => h.trans c
  | x :: _, _, h, hx, c => ⟨h.trans c.1, (hx x List.mem_cons_self).2.trans c.2.1,
      chain_congr (hx x List.mem_cons_self).1 (fun y hy => hx y (List.mem_cons_of_mem _ hy)) c.2.2⟩

/-- a part stays if all its pointers but the one behind do -/
theorem seg_congr {m m' : Mem} : ∀ {xs : List Nat} {s : Slot}, xs.Nodup → (xs = [] ∨ m'.ptr s = m.ptr s) →
    (∀ x ∈ xs, m'.pprev x = m.pprev x ∧ (endSlot s xs ≠ .next x → m'.ptr (.next x) = m.ptr (.next x))) → Seg m s xs → Seg m' s xs
  | [], _, _, _, _, _ => trivial
  | x :: xs, s, hd, h, hx, c => by
    have h' : m'.ptr s = m.ptr s := h.resolve_left (by simp)
    rw [List.nodup_cons] at hd
    refine ⟨h'.trans c.1, (hx x List.mem_cons_self).1.trans c.2.1, seg_congr hd.2 ?_ (fun y hy => hx y (List.mem_cons_of_mem _ hy)) c.2.2⟩
    rcases endSlot_cases xs (.next x) with h | ⟨y, hy, h⟩
    · exact .inl h.1
    · refine .inr ((hx x List.mem_cons_self).2 fun e => hd.1 ?_)
      have : y = x := by
        have := h.symm.trans e
        cases this; rfl
      exact this ▸ hy

theorem endSlot_mem {xs : List Nat} {h x : Nat} (e : endSlot (.first h) xs = .next x) : x ∈ xs := by
  rcases endSlot_cases xs (.first h) with ⟨_, e'⟩ | ⟨y, hy, e'⟩
  · rw [e] at e'; cases e'
  · rw [e] at e'; cases e'; exact hy

theorem endSlot_first {xs : List Nat} {h k : Nat} (e : endSlot (.first h) xs = .first k) : xs = [] ∧ k = h := by
  rcases endSlot_cases xs (.first h) with ⟨h', e'⟩ | ⟨y, hy, e'⟩
  · rw [e] at e'; cases e'; exact ⟨h', rfl⟩
  · rw [e] at e'; cases e'

/-- what inserting a node writes -/
structure Inserted (m m' : Mem) (s : Slot) (n : Nat) (nx : Option Nat) : Prop where
  liveH : m'.liveH = m.liveH
  liveN : m'.liveN = m.liveN
  at_ : m'.ptr s = some n
  next : m'.ptr (.next n) = nx
  ptr : ∀ t, t ≠ s → t ≠ .next n → m'.ptr t = m.ptr t
  prev : m'.pprev n = some s
  back : ∀ y, nx = some y → m'.pprev y = some (.next n)
  pprev : ∀ y, y ≠ n → nx ≠ some y → m'.pprev y = m.pprev y

/-- what removing a node writes; what becomes of the node itself is left open -/
structure Removed (m m' : Mem) (s : Slot) (n : Nat) (nx : Option Nat) : Prop where
  liveH : m'.liveH = m.liveH
  liveN : m'.liveN = m.liveN
  at_ : m'.ptr s = nx
  ptr : ∀ t, t ≠ s → t ≠ .next n → m'.ptr t = m.ptr t
  back : ∀ y, nx = some y → m'.pprev y = some s
  pprev : ∀ y, y ≠ n → nx ≠ some y → m'.pprev y = m.pprev y

theorem head_mem {ys : List Nat} {y : Nat} (h : ys.head? = some y) : y ∈ ys := List.mem_of_head? h

theorem nodup_split {xs ys : List Nat} (h : (xs ++ ys).Nodup) : xs.Nodup ∧ ys.Nodup ∧ ∀ x ∈ xs, x ∉ ys := by
  rw [List.nodup_append] at h
  exact ⟨h.1, h.2.1, fun x hx hy => h.2.2 x hx x hy rfl⟩

theorem Inserted.chain {m m' : Mem} {h n : Nat} {xs ys : List Nat} (hd : (xs ++ ys).Nodup) (hn : n ∉ xs ++ ys) (c : Chain m (.first h) (xs ++ ys))
    (i : Inserted m m' (endSlot (.first h) xs) n ys.head?) : Chain m' (.first h) (xs ++ n :: ys) := by
  rw [chain_append] at c ⊢
  obtain ⟨d1, d2, d3⟩ := nodup_split hd
  obtain ⟨c1, c2⟩ := c
  rw [List.mem_append, not_or] at hn
  refine ⟨seg_congr d1 ?_ (fun x hx => ⟨i.pprev x (fun e => hn.1 (e ▸ hx)) (fun e => d3 x hx (head_mem e)), fun e => i.ptr _ (fun e' => e e'.symm) ?_⟩) c1, i.at_, i.prev, ?_⟩
  · rcases endSlot_cases xs (.first h) with e | ⟨y, hy, e⟩
    · exact .inl e.1
    · exact .inr (i.ptr _ (by rw [e]; intro h; cases h) (by intro h; cases h))
  · intro e; cases e; exact hn.1 hx
  · cases ys with
    | nil => exact i.next
    | cons y ys =>
      refine ⟨i.next, i.back y rfl, ?_⟩
      rw [List.nodup_cons] at d2
      have key : ∀ x ∈ y :: ys, m'.ptr (.next x) = m.ptr (.next x) := by
        intro x hx
        refine i.ptr _ (fun e => ?_) (fun e => ?_)
        · exact d3 x (endSlot_mem e.symm) hx
        · cases e; exact hn.2 hx
      refine chain_congr (key y List.mem_cons_self) (fun x hx => ⟨key x (List.mem_cons_of_mem _ hx), i.pprev x ?_ ?_⟩) c2.2.2
      · exact fun e => hn.2 (e ▸ List.mem_cons_of_mem _ hx)
      · intro e; cases e; exact d2.1 hx

theorem Removed.chain {m m' : Mem} {h n : Nat} {xs ys : List Nat} (hd : (xs ++ n :: ys).Nodup) (c : Chain m (.first h) (xs ++ n :: ys))
    (i : Removed m m' (endSlot (.first h) xs) n ys.head?) : Chain m' (.first h) (xs ++ ys) := by
  rw [chain_append] at c ⊢
  obtain ⟨d1, d2, d3⟩ := nodup_split hd
  obtain ⟨c1, c2⟩ := c
  rw [List.nodup_cons] at d2
  have hn : n ∉ xs := fun h => d3 n h List.mem_cons_self
  refine ⟨seg_congr d1 ?_ (fun x hx => ⟨i.pprev x (fun e => hn (e ▸ hx)) (fun e => d3 x hx (List.mem_cons_of_mem _ (head_mem e))), fun e => i.ptr _ (fun e' => e e'.symm) ?_⟩) c1, ?_⟩
  · rcases endSlot_cases xs (.first h) with e | ⟨y, hy, e⟩
    · exact .inl e.1
    · exact .inr (i.ptr _ (by rw [e]; intro h; cases h) (by intro h; cases h))
  · intro e; cases e; exact hn hx
  · cases ys with
    | nil => exact i.at_
    | cons y ys =>
      refine ⟨i.at_, i.back y rfl, ?_⟩
      have key : ∀ x ∈ y :: ys, m'.ptr (.next x) = m.ptr (.next x) := by
        intro x hx
        refine i.ptr _ (fun e => ?_) (fun e => ?_)
        · exact d3 x (endSlot_mem e.symm) (List.mem_cons_of_mem _ hx)
        · cases e; exact d2.1 hx
      have d4 := List.nodup_cons.1 d2.2
      refine chain_congr (key y List.mem_cons_self) (fun x hx => ⟨key x (List.mem_cons_of_mem _ hx), i.pprev x ?_ ?_⟩) c2.2.2.2.2
      · exact fun e => d2.1 (e ▸ List.mem_cons_of_mem _ hx)
      · intro e; cases e; exact d4.1 hx

/-- what is known: of each head that is set up, the nodes; what nodes are unhashed; and what nodes are fake lists -/
structure Abs where
  lists : Nat → Option (List Nat)
  idle : Nat → Bool
  fake : Nat → Bool

/-- a node in no list -/
def Abs.Free (a : Abs) (n : Nat) : Prop := ∀ h xs, a.lists h = some xs → n ∉ xs

/-- memory is as known -/
structure Rep (lh ln : Nat → Bool) (m : Mem) (a : Abs) : Prop where
  liveH : m.liveH = lh
  liveN : m.liveN = ln
  head : ∀ h xs, a.lists h = some xs → lh h = true
  node : ∀ h xs, a.lists h = some xs → ∀ x ∈ xs, ln x = true
  nodup : ∀ h xs, a.lists h = some xs → xs.Nodup
  chain : ∀ h xs, a.lists h = some xs → Chain m (.first h) xs
  apart : ∀ h k xs ys, a.lists h = some xs → a.lists k = some ys → h ≠ k → ∀ x ∈ xs, x ∉ ys
  idle : ∀ n, a.idle n = true → ln n = true ∧ a.Free n ∧ m.pprev n = none ∧ m.ptr (.next n) = none
  fake : ∀ n, a.fake n = true → ln n = true ∧ a.Free n ∧ m.pprev n = some (.next n) ∧ m.ptr (.next n) = none

/-- the operations, what they need, and what is known then -/
inductive Step (lh ln : Nat → Bool) : Abs → Op → Abs → Prop
  /-- a head is set up -/
  | initHead (a : Abs) (h : Nat) : lh h = true → Step lh ln a (.initHead h) { a with lists := upd a.lists h (some []) }
  /-- a node is set up -/
  | initNode (a : Abs) (n : Nat) : ln n = true → a.Free n → Step lh ln a (.initNode n) { a with idle := upd a.idle n true, fake := upd a.fake n false }
  /-- a node comes first -/
  | addHead (a : Abs) (n h : Nat) (xs : List Nat) : ln n = true → a.Free n → a.lists h = some xs →
      Step lh ln a (.addHead n h) { lists := upd a.lists h (some (n :: xs)), idle := upd a.idle n false, fake := upd a.fake n false }
  /-- a node comes before another -/
  | addBefore (a : Abs) (n x h : Nat) (xs ys : List Nat) : ln n = true → a.Free n → a.lists h = some (xs ++ x :: ys) →
      Step lh ln a (.addBefore n x) { lists := upd a.lists h (some (xs ++ n :: x :: ys)), idle := upd a.idle n false, fake := upd a.fake n false }
  /-- a node comes after another -/
  | addBehind (a : Abs) (n x h : Nat) (xs ys : List Nat) : ln n = true → a.Free n → a.lists h = some (xs ++ x :: ys) →
      Step lh ln a (.addBehind n x) { lists := upd a.lists h (some (xs ++ x :: n :: ys)), idle := upd a.idle n false, fake := upd a.fake n false }
  /-- a node set up becomes a fake list -/
  | addFake (a : Abs) (n : Nat) : a.idle n = true → Step lh ln a (.addFake n) { a with idle := upd a.idle n false, fake := upd a.fake n true }
  /-- a node is taken from wherever it is -/
  | del (a : Abs) (n h : Nat) (xs ys : List Nat) : a.lists h = some (xs ++ n :: ys) → Step lh ln a (.del n) { a with lists := upd a.lists h (some (xs ++ ys)) }
  /-- which works for fake lists, too -/
  | delFake (a : Abs) (n : Nat) : a.fake n = true → Step lh ln a (.del n) { a with fake := upd a.fake n false }
  /-- a node is taken from wherever it is, and set up -/
  | delInit (a : Abs) (n h : Nat) (xs ys : List Nat) : a.lists h = some (xs ++ n :: ys) →
      Step lh ln a (.delInit n) { a with lists := upd a.lists h (some (xs ++ ys)), idle := upd a.idle n true }
  | delInitFake (a : Abs) (n : Nat) : a.fake n = true → Step lh ln a (.delInit n) { a with idle := upd a.idle n true, fake := upd a.fake n false }
  /-- nothing happens to one that is in no list -/
  | delInitAgain (a : Abs) (n : Nat) : a.idle n = true → Step lh ln a (.delInit n) a
  /-- all nodes get another head; what was there is lost -/
  | moveList (a : Abs) (old new : Nat) (xs : List Nat) : old ≠ new → a.lists old = some xs → lh new = true →
      Step lh ln a (.moveList old new) { a with lists := upd (upd a.lists new (some xs)) old (some []) }

theorem upd_same {α β : Type} [DecidableEq α] (f : α → β) (a : α) (v : β) : upd f a v a = v := if_pos rfl
theorem upd_other {α β : Type} [DecidableEq α] (f : α → β) {a x : α} (v : β) (h : x ≠ a) : upd f a v x = f x := if_neg h

theorem upd_eq {α β : Type} [DecidableEq α] {f : α → β} {a x : α} {v w : β} (e : upd f a v x = w) : (x = a ∧ v = w) ∨ (x ≠ a ∧ f x = w) := by
  unfold upd at e
  split at e
  · exact .inl ⟨‹_›, e⟩
  · exact .inr ⟨‹_›, e⟩

theorem Rep.own {lh ln : Nat → Bool} {m : Mem} {a : Abs} (r : Rep lh ln m a) {h k : Nat} {xs ys : List Nat} {x : Nat} (e : a.lists h = some xs) (e' : a.lists k = some ys)
    (hx : x ∈ xs) (hy : x ∈ ys) : h = k := by
  by_cases hk : h = k
  · exact hk
  · exact absurd hy (r.apart h k xs ys e e' hk x hx)

/-- other lists, and nodes in none, do not change -/
theorem Rep.inserted {lh ln : Nat → Bool} {m m' : Mem} {a : Abs} (r : Rep lh ln m a) {n h : Nat} {xs ys : List Nat} (hl : ln n = true) (hn : a.Free n) (e : a.lists h = some (xs ++ ys))
    (i : Inserted m m' (endSlot (.first h) xs) n ys.head?) :
    Rep lh ln m' { lists := upd a.lists h (some (xs ++ n :: ys)), idle := upd a.idle n false, fake := upd a.fake n false } := by
  have hxy : ∀ x, x ∈ xs ++ n :: ys ↔ x = n ∨ x ∈ xs ++ ys := fun x => by simp only [List.mem_append, List.mem_cons]; exact or_left_comm
  have free : ∀ x, x ≠ n → a.Free x → Abs.Free { lists := upd a.lists h (some (xs ++ n :: ys)), idle := upd a.idle n false, fake := upd a.fake n false } x := by
    intro x hxn hx k zs hk
    rcases upd_eq hk with ⟨rfl, e'⟩ | ⟨_, e'⟩
    · cases e'
      rw [hxy, not_or]
      exact ⟨hxn, hx _ _ e⟩
    · exact hx k zs e'
  have same : ∀ x, x ≠ n → a.Free x → m'.pprev x = m.pprev x ∧ m'.ptr (.next x) = m.ptr (.next x) := by
    intro x hxn hx
    refine ⟨i.pprev x hxn fun e' => hx _ _ e (List.mem_append_right _ (head_mem e')), i.ptr _ (fun e' => hx _ _ e (List.mem_append_left _ (endSlot_mem e'.symm))) ?_⟩
    intro e'; cases e'; exact hxn rfl
  refine ⟨i.liveH.trans r.liveH, i.liveN.trans r.liveN, fun k zs hk => ?_, fun k zs hk x hx => ?_, fun k zs hk => ?_, fun k zs hk => ?_, fun k l zs ws hk hl' hne x hx hx' => ?_,
    fun x hx => ?_, fun x hx => ?_⟩
  · rcases upd_eq hk with ⟨rfl, _⟩ | ⟨_, e'⟩
    · exact r.head _ _ e
    · exact r.head _ _ e'
  · rcases upd_eq hk with ⟨rfl, e'⟩ | ⟨_, e'⟩
    · cases e'
      rcases (hxy x).1 hx with rfl | h
      · exact hl
      · exact r.node _ _ e x h
    · exact r.node _ _ e' x hx
  · rcases upd_eq hk with ⟨rfl, e'⟩ | ⟨_, e'⟩
    · cases e'
      rw [(List.perm_middle (a := n) (l₁ := xs) (l₂ := ys)).nodup_iff, List.nodup_cons]
      exact ⟨hn _ _ e, r.nodup _ _ e⟩
    · exact r.nodup _ _ e'
  · rcases upd_eq hk with ⟨rfl, e'⟩ | ⟨hkh, e'⟩
    · cases e'
      exact i.chain (r.nodup _ _ e) (hn _ _ e) (r.chain _ _ e)
    · refine chain_congr (i.ptr _ (fun e'' => hkh (endSlot_first e''.symm).2) (by intro h; cases h)) (fun x hx => ⟨i.ptr _ (fun e'' => ?_) (fun e'' => ?_), i.pprev x (fun e'' => ?_) (fun e'' => ?_)⟩) (r.chain _ _ e')
      · exact hkh (r.own e' e hx (List.mem_append_left _ (endSlot_mem e''.symm)))
      · cases e''; exact hn _ _ e' hx
      · exact hn _ _ e' (e'' ▸ hx)
      · exact hkh (r.own e' e hx (List.mem_append_right _ (head_mem e'')))
  · rcases upd_eq hk with ⟨rfl, e1⟩ | ⟨h1, e1⟩
    · cases e1
      rcases upd_eq hl' with ⟨rfl, e2⟩ | ⟨h2, e2⟩
      · exact hne rfl
      · rcases (hxy x).1 hx with rfl | h
        · exact hn _ _ e2 hx'
        · exact hne (r.own e e2 h hx')
    · rcases upd_eq hl' with ⟨rfl, e2⟩ | ⟨h2, e2⟩
      · cases e2
        rcases (hxy x).1 hx' with rfl | h
        · exact hn _ _ e1 hx
        · exact hne (r.own e1 e hx h)
      · exact hne (r.own e1 e2 hx hx')
  · rcases upd_eq hx with ⟨_, e'⟩ | ⟨hxn, e'⟩
    · cases e'
    · obtain ⟨i1, i2, i3, i4⟩ := r.idle x e'
      obtain ⟨s1, s2⟩ := same x hxn i2
      exact ⟨i1, free x hxn i2, s1.trans i3, s2.trans i4⟩
  · rcases upd_eq hx with ⟨_, e'⟩ | ⟨hxn, e'⟩
    · cases e'
    · obtain ⟨i1, i2, i3, i4⟩ := r.fake x e'
      obtain ⟨s1, s2⟩ := same x hxn i2
      exact ⟨i1, free x hxn i2, s1.trans i3, s2.trans i4⟩

theorem Rep.removed {lh ln : Nat → Bool} {m m' : Mem} {a : Abs} (r : Rep lh ln m a) {n h : Nat} {xs ys : List Nat} {b : Bool} (e : a.lists h = some (xs ++ n :: ys))
    (i : Removed m m' (endSlot (.first h) xs) n ys.head?) (hb : b = true → m'.pprev n = none ∧ m'.ptr (.next n) = none) :
    Rep lh ln m' { a with lists := upd a.lists h (some (xs ++ ys)), idle := upd a.idle n b } := by
  have hxy : ∀ x, x ∈ xs ++ ys → x ∈ xs ++ n :: ys := fun x hx => by
    simp only [List.mem_append, List.mem_cons] at hx ⊢
    rcases hx with h | h
    · exact .inl h
    · exact .inr (.inr h)
  have hin : n ∈ xs ++ n :: ys := by simp
  have hd := r.nodup _ _ e
  have hd' := hd
  rw [(List.perm_middle (a := n) (l₁ := xs) (l₂ := ys)).nodup_iff, List.nodup_cons] at hd'
  have free : ∀ x, (∀ k zs, a.lists k = some zs → x ∈ zs → x = n) → Abs.Free { a with lists := upd a.lists h (some (xs ++ ys)), idle := upd a.idle n b } x := by
    intro x hx k zs hk hm
    rcases upd_eq hk with ⟨rfl, e'⟩ | ⟨hkh, e'⟩
    · cases e'
      have := hx _ _ e (hxy x hm)
      exact hd'.1 (this ▸ hm)
    · have := hx _ _ e' hm
      subst this
      exact hkh (r.own e' e hm hin)
  have same : ∀ x, a.Free x → m'.pprev x = m.pprev x ∧ m'.ptr (.next x) = m.ptr (.next x) := by
    intro x hx
    have hxn : x ≠ n := fun e' => hx _ _ e (e' ▸ hin)
    refine ⟨i.pprev x hxn fun e' => hx _ _ e (hxy _ (List.mem_append_right _ (head_mem e'))), i.ptr _ (fun e' => hx _ _ e (hxy _ (List.mem_append_left _ (endSlot_mem e'.symm)))) ?_⟩
    intro e'; cases e'; exact hxn rfl
  refine ⟨i.liveH.trans r.liveH, i.liveN.trans r.liveN, fun k zs hk => ?_, fun k zs hk x hx => ?_, fun k zs hk => ?_, fun k zs hk => ?_, fun k l zs ws hk hl' hne x hx hx' => ?_,
    fun x hx => ?_, fun x hx => ?_⟩
  · rcases upd_eq hk with ⟨rfl, _⟩ | ⟨_, e'⟩
    · exact r.head _ _ e
    · exact r.head _ _ e'
  · rcases upd_eq hk with ⟨rfl, e'⟩ | ⟨_, e'⟩
    · cases e'
      exact r.node _ _ e x (hxy x hx)
    · exact r.node _ _ e' x hx
  · rcases upd_eq hk with ⟨rfl, e'⟩ | ⟨_, e'⟩
    · cases e'
      exact hd'.2
    · exact r.nodup _ _ e'
  · rcases upd_eq hk with ⟨rfl, e'⟩ | ⟨hkh, e'⟩
    · cases e'
      exact i.chain hd (r.chain _ _ e)
    · refine chain_congr (i.ptr _ (fun e'' => hkh (endSlot_first e''.symm).2) (by intro h; cases h)) (fun x hx => ⟨i.ptr _ (fun e'' => ?_) (fun e'' => ?_), i.pprev x (fun e'' => ?_) (fun e'' => ?_)⟩) (r.chain _ _ e')
      · exact hkh (r.own e' e hx (hxy _ (List.mem_append_left _ (endSlot_mem e''.symm))))
      · cases e''; exact hkh (r.own e' e hx hin)
      · subst e''; exact hkh (r.own e' e hx hin)
      · exact hkh (r.own e' e hx (hxy _ (List.mem_append_right _ (head_mem e''))))
  · rcases upd_eq hk with ⟨rfl, e1⟩ | ⟨h1, e1⟩
    · cases e1
      rcases upd_eq hl' with ⟨rfl, e2⟩ | ⟨h2, e2⟩
      · exact hne rfl
      · exact hne (r.own e e2 (hxy x hx) hx')
    · rcases upd_eq hl' with ⟨rfl, e2⟩ | ⟨h2, e2⟩
      · cases e2
        exact hne (r.own e1 e hx (hxy x hx'))
      · exact hne (r.own e1 e2 hx hx')
  · rcases upd_eq hx with ⟨rfl, rfl⟩ | ⟨hxn, e'⟩
    · obtain ⟨b1, b2⟩ := hb rfl
      exact ⟨r.node _ _ e _ hin, free _ (fun _ _ _ _ => rfl), b1, b2⟩
    · obtain ⟨i1, i2, i3, i4⟩ := r.idle x e'
      obtain ⟨s1, s2⟩ := same x i2
      exact ⟨i1, free x (fun k zs hk hm => absurd hm (i2 k zs hk)), s1.trans i3, s2.trans i4⟩
  · obtain ⟨i1, i2, i3, i4⟩ := r.fake x hx
    obtain ⟨s1, s2⟩ := same x i2
    exact ⟨i1, free x (fun k zs hk hm => absurd hm (i2 k zs hk)), s1.trans i3, s2.trans i4⟩

end Verif.Hlist
