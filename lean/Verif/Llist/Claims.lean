import Verif.Llist.Model
import Mathlib.Data.List.Nodup
/-!
# C118: linked lists in memory are lists
-/
namespace Verif.Llist

/-- following the pointers `f` from `a` one passes `xs` and comes to `b` -/
def Fwd (f : Nat → Nat) : Nat → List Nat → Nat → Prop
  | a, [], b => f a = b
  | a, x :: xs, b => f a = x ∧ Fwd f x xs b

/-- `h` is the head of a list of the entries `xs` in memory: all live, they are distinct, and the pointers lead through them both ways -/
structure Ring (m : Mem) (h : Nat) (xs : List Nat) : Prop where
  live : ∀ x ∈ h :: xs, m.live x = true
  nodup : (h :: xs).Nodup
  fwd : Fwd m.next h xs h
  bwd : Fwd m.prev h xs.reverse h

/-- memory differs at most at the addresses `s` -/
def Only (s : List Nat) (m m' : Mem) : Prop := m'.live = m.live ∧ ∀ x ∉ s, m'.next x = m.next x ∧ m'.prev x = m.prev x

/-- the last of `a :: xs` -/
def lst : Nat → List Nat → Nat
  | a, [] => a
  | _, x :: xs => lst x xs

theorem lst_mem : ∀ (a : Nat) (xs : List Nat), lst a xs ∈ a :: xs
  | a, [] => List.mem_cons_self
  | _, x :: xs => List.mem_cons_of_mem _ (lst_mem x xs)

theorem lst_append : ∀ (a : Nat) (xs : List Nat) (y : Nat) (ys : List Nat), lst a (xs ++ y :: ys) = lst y ys
  | _, [], _, _ => rfl
  | _, x :: xs, y, ys => lst_append x xs y ys

theorem lst_reverse_cons (b y : Nat) (ys : List Nat) : lst b (y :: ys).reverse = y := by
  rw [List.reverse_cons]
  exact lst_append b ys.reverse y []

theorem upd_same (f : Nat → Nat) (a v : Nat) : upd f a v a = v := if_pos rfl
theorem upd_other (f : Nat → Nat) {a x : Nat} (v : Nat) (h : x ≠ a) : upd f a v x = f x := if_neg h
theorem upd_comm (f : Nat → Nat) {a b : Nat} (v w : Nat) (h : a ≠ b) : upd (upd f a v) b w = upd (upd f b w) a v := by
  funext x
  unfold upd
  split
  · rename_i e; subst e; rw [if_neg (Ne.symm h)]
  · rfl

theorem fwd_congr {f g : Nat → Nat} : ∀ {a : Nat} {xs : List Nat} {b : Nat}, (∀ x ∈ a :: xs, g x = f x) → Fwd f a xs b → Fwd g a xs b
  | a, [], _, h, e => (h a List.mem_cons_self).trans e
  | a, _ :: _, _, h, e => ⟨(h a List.mem_cons_self).trans e.1, fwd_congr (fun x hx => h x (List.mem_cons_of_mem _ hx)) e.2⟩

theorem fwd_append {f : Nat → Nat} : ∀ {a : Nat} {xs : List Nat} {y : Nat} {ys : List Nat} {b : Nat},
    Fwd f a (xs ++ y :: ys) b ↔ Fwd f a xs y ∧ Fwd f y ys b
  | _, [], _, _, _ => Iff.rfl
  | a, x :: xs, y, ys, b => by
    show f a = x ∧ Fwd f x (xs ++ y :: ys) b ↔ (f a = x ∧ Fwd f x xs y) ∧ Fwd f y ys b
    rw [fwd_append, and_assoc]

theorem fwd_last {f : Nat → Nat} : ∀ {a : Nat} {xs : List Nat} {b : Nat}, Fwd f a xs b → f (lst a xs) = b
  | _, [], _, h => h
  | _, x :: xs, _, h => fwd_last (a := x) (xs := xs) h.2

/-- what is pointed to behind the first part -/
theorem fwd_at {f : Nat → Nat} {a b : Nat} {xs ys : List Nat} (h : Fwd f a (xs ++ ys) b) : f (lst a xs) = lst b ys.reverse := by
  cases ys with
  | nil => rw [List.append_nil] at h; exact fwd_last h
  | cons y ys => rw [lst_reverse_cons]; exact fwd_last (fwd_append.1 h).1

/-- the last pointer of a path is bent elsewhere -/
theorem fwd_bend {f : Nat → Nat} (c : Nat) : ∀ {a : Nat} {xs : List Nat} {b : Nat}, (a :: xs).Nodup → Fwd f a xs b → Fwd (upd f (lst a xs) c) a xs c
  | a, [], _, _, _ => upd_same f a c
  | a, x :: xs, _, hn, h => by
    rw [List.nodup_cons] at hn
    refine ⟨?_, fwd_bend c hn.2 h.2⟩
    rw [upd_other]
    · exact h.1
    · intro e
      exact hn.1 (e ▸ lst_mem x xs)

/-- a path is put in between -/
theorem fwd_splice {f : Nat → Nat} {a b y c : Nat} {xs ys zs : List Nat} (h : Fwd f a (xs ++ zs) b) (hy : Fwd f y ys c) (n1 : (a :: (xs ++ zs)).Nodup)
    (n2 : (y :: ys).Nodup) (hd : ∀ x ∈ y :: ys, x ∉ a :: (xs ++ zs)) :
    Fwd (upd (upd f (lst y ys) (f (lst a xs))) (lst a xs) y) a (xs ++ y :: (ys ++ zs)) b := by
  have l1 : lst a xs ∈ a :: (xs ++ zs) := by
    rcases List.mem_cons.1 (lst_mem a xs) with e | e
    · rw [e]; exact List.mem_cons_self
    · exact List.mem_cons_of_mem _ (List.mem_append_left _ e)
  have l2 := lst_mem y ys
  have hne : lst y ys ≠ lst a xs := fun e => hd _ l2 (e ▸ l1)
  have n1' : (a :: xs).Nodup := by
    rw [← List.cons_append] at n1
    exact (List.nodup_append.1 n1).1
  have hyp : ∀ d, Fwd (upd (upd f (lst y ys) d) (lst a xs) y) y ys d := by
    intro d
    refine fwd_congr ?_ (fwd_bend d n2 hy)
    intro x hx
    rw [upd_other]
    intro e
    exact hd x hx (e ▸ l1)
  refine fwd_append.2 ⟨?_, ?_⟩
  · have : ∀ d, Fwd f a xs d → Fwd (upd (upd f (lst y ys) (f (lst a xs))) (lst a xs) y) a xs y := by
      intro d hx
      rw [upd_comm _ _ _ hne]
      refine fwd_congr ?_ (fwd_bend y n1' hx)
      intro x hx
      rw [upd_other]
      rintro rfl
      refine hd _ l2 ?_
      rcases List.mem_cons.1 hx with e | e
      · rw [e]; exact List.mem_cons_self
      · exact List.mem_cons_of_mem _ (List.mem_append_left _ e)
    cases zs with
    | nil => rw [List.append_nil] at h; exact this _ h
    | cons z zs => exact this _ (fwd_append.1 h).1
  · cases zs with
    | nil =>
      rw [List.append_nil] at h ⊢
      rw [fwd_last h]
      exact hyp b
    | cons z zs =>
      obtain ⟨h1, h2⟩ := fwd_append.1 h
      refine fwd_append.2 ⟨by rw [fwd_last h1]; exact hyp z, ?_⟩
      refine fwd_congr ?_ h2
      intro x hx
      rw [upd_other, upd_other]
      · rintro rfl
        exact hd _ l2 (List.mem_cons_of_mem _ (List.mem_append_right _ hx))
      · rintro rfl
        rw [← List.cons_append] at n1
        exact (List.nodup_append.1 n1).2.2 _ (lst_mem a xs) _ hx rfl

/-- an entry is taken out -/
theorem fwd_remove {f : Nat → Nat} {a b n : Nat} {xs zs : List Nat} (h : Fwd f a (xs ++ n :: zs) b) (n1 : (a :: (xs ++ n :: zs)).Nodup) :
    Fwd (upd f (lst a xs) (f n)) a (xs ++ zs) b := by
  obtain ⟨h1, h2⟩ := fwd_append.1 h
  rw [← List.cons_append, List.nodup_append] at n1
  obtain ⟨n2, n3, n4⟩ := n1
  have hb := fwd_bend (f n) n2 h1
  cases zs with
  | nil =>
    rw [List.append_nil]
    have : f n = b := h2
    rw [this] at hb ⊢
    exact hb
  | cons z zs =>
    have hz : f n = z := h2.1
    rw [hz] at hb ⊢
    refine fwd_append.2 ⟨hb, fwd_congr ?_ h2.2⟩
    intro x hx
    rw [upd_other]
    rintro rfl
    exact n4 _ (lst_mem a xs) _ (List.mem_cons_of_mem _ hx) rfl

theorem Ring.frame {m m' : Mem} {s : List Nat} {h : Nat} {xs : List Nat} (r : Ring m h xs) (o : Only s m m') (hd : ∀ x ∈ h :: xs, x ∉ s) : Ring m' h xs := by
  refine ⟨fun x hx => by rw [o.1]; exact r.live x hx, r.nodup, fwd_congr (fun x hx => (o.2 x (hd x hx)).1) r.fwd, fwd_congr (fun x hx => (o.2 x (hd x ?_)).2) r.bwd⟩
  rcases List.mem_cons.1 hx with e | e
  · rw [e]; exact List.mem_cons_self
  · exact List.mem_cons_of_mem _ (List.mem_reverse.1 e)

theorem Only.trans {s : List Nat} {a b c : Mem} (h1 : Only s a b) (h2 : Only s b c) : Only s a c :=
  ⟨h2.1.trans h1.1, fun x hx => ⟨((h2.2 x hx).1).trans (h1.2 x hx).1, ((h2.2 x hx).2).trans (h1.2 x hx).2⟩⟩

theorem Only.mono {s t : List Nat} {a b : Mem} (h : Only s a b) (hs : ∀ x ∈ s, x ∈ t) : Only t a b :=
  ⟨h.1, fun x hx => h.2 x fun hm => hx (hs x hm)⟩

theorem Only.refl (s : List Nat) (m : Mem) : Only s m m := ⟨rfl, fun _ _ => ⟨rfl, rfl⟩⟩

/-- the last of the head and the first part, or of the head and the second part backwards, are of the ring -/
theorem lst_ring (h : Nat) (xs zs : List Nat) : lst h xs ∈ h :: (xs ++ zs) ∧ lst h zs.reverse ∈ h :: (xs ++ zs) := by
  constructor
  · rcases List.mem_cons.1 (lst_mem h xs) with e | e
    · rw [e]; exact List.mem_cons_self
    · exact List.mem_cons_of_mem _ (List.mem_append_left _ e)
  · rcases List.mem_cons.1 (lst_mem h zs.reverse) with e | e
    · rw [e]; exact List.mem_cons_self
    · exact List.mem_cons_of_mem _ (List.mem_append_right _ (List.mem_reverse.1 e))

theorem nodup_reverse_ring {h : Nat} {xs : List Nat} (n : (h :: xs).Nodup) : (h :: xs.reverse).Nodup := by
  rw [List.nodup_cons] at n ⊢
  exact ⟨fun hm => n.1 (List.mem_reverse.1 hm), List.nodup_reverse.2 n.2⟩

/-- `__llist_add` between two neighbours -/
theorem rawAdd_ring {m : Mem} {h n : Nat} {xs zs : List Nat} (r : Ring m h (xs ++ zs)) (hl : m.live n = true) (hn : n ∉ h :: (xs ++ zs)) :
    ∃ m', rawAdd m n (lst h xs) (lst h zs.reverse) = some m' ∧ Ring m' h (xs ++ n :: zs) ∧ Only (n :: h :: (xs ++ zs)) m m' := by
  obtain ⟨l1, l2⟩ := lst_ring h xs zs
  have hp := r.live _ l1
  have hq := r.live _ l2
  have f1 := fwd_at r.fwd
  have rb := r.bwd
  rw [List.reverse_append] at rb
  have f2 := fwd_at rb
  rw [List.reverse_reverse] at f2
  refine ⟨{ live := m.live, next := upd (upd m.next n (lst h zs.reverse)) (lst h xs) n, prev := upd (upd m.prev (lst h zs.reverse) n) n (lst h xs) }, ?_, ⟨?_, ?_, ?_, ?_⟩, rfl, ?_⟩
  · simp [rawAdd, setNext, setPrev, hp, hq, hl]
  · intro x hx
    rcases List.mem_cons.1 hx with rfl | hx
    · exact r.live _ List.mem_cons_self
    · rcases List.mem_append.1 hx with hx | hx
      · exact r.live _ (List.mem_cons_of_mem _ (List.mem_append_left _ hx))
      · rcases List.mem_cons.1 hx with rfl | hx
        · exact hl
        · exact r.live _ (List.mem_cons_of_mem _ (List.mem_append_right _ hx))
  · have := r.nodup
    have e : (h :: (xs ++ n :: zs)).Perm (n :: h :: (xs ++ zs)) := (List.perm_middle (a := n) (l₁ := h :: xs) (l₂ := zs))
    rw [e.nodup_iff, List.nodup_cons]
    exact ⟨hn, this⟩
  · rw [← f1]
    exact fwd_splice (ys := []) (c := m.next n) r.fwd rfl r.nodup (by simp) (by simpa using hn)
  · have hne : lst h zs.reverse ≠ n := fun e => hn (e ▸ l2)
    rw [upd_comm _ _ _ hne, ← f2]
    have nd := nodup_reverse_ring r.nodup
    rw [List.reverse_append] at nd
    have := fwd_splice (ys := []) (y := n) (c := m.prev n) rb rfl nd (by simp)
      (by simp only [List.mem_cons, List.mem_append, not_or, List.mem_reverse, List.not_mem_nil, or_false, forall_eq] at hn ⊢; exact ⟨hn.1, hn.2.2, hn.2.1⟩)
    simpa [lst] using this
  · intro x hx
    simp only [List.mem_cons, not_or] at hx
    have a1 : x ≠ lst h xs := by
      rintro rfl
      rcases List.mem_cons.1 l1 with e | e
      · exact hx.2.1 e
      · exact hx.2.2 e
    have a2 : x ≠ lst h zs.reverse := by
      rintro rfl
      rcases List.mem_cons.1 l2 with e | e
      · exact hx.2.1 e
      · exact hx.2.2 e
    exact ⟨by simp only [upd_other _ _ a1, upd_other _ _ hx.1], by simp only [upd_other _ _ hx.1, upd_other _ _ a2]⟩

/-- `__llist_del` of an entry; the entry itself is not written -/
theorem rawDel_ring {m : Mem} {h n : Nat} {xs zs : List Nat} (r : Ring m h (xs ++ n :: zs)) :
    getPrev m n = some (lst h xs) ∧ getNext m n = some (lst h zs.reverse) ∧
    ∃ m', rawDel m (lst h xs) (lst h zs.reverse) = some m' ∧ Ring m' h (xs ++ zs) ∧ Only (h :: (xs ++ zs)) m m' := by
  obtain ⟨l1, l2⟩ := lst_ring h xs zs
  have sub : ∀ x ∈ h :: (xs ++ zs), x ∈ h :: (xs ++ n :: zs) := by
    intro x hx
    rcases List.mem_cons.1 hx with rfl | hx
    · exact List.mem_cons_self
    · rcases List.mem_append.1 hx with hx | hx
      · exact List.mem_cons_of_mem _ (List.mem_append_left _ hx)
      · exact List.mem_cons_of_mem _ (List.mem_append_right _ (List.mem_cons_of_mem _ hx))
  have hp := r.live _ (sub _ l1)
  have hq := r.live _ (sub _ l2)
  have hl := r.live n (List.mem_cons_of_mem _ (List.mem_append_right _ List.mem_cons_self))
  have f1 : m.next n = lst h zs.reverse := by
    have : Fwd m.next h ((xs ++ [n]) ++ zs) h := by simpa using r.fwd
    have := fwd_at this
    rwa [lst_append] at this
  have rb := r.bwd
  have f2 : m.prev n = lst h xs := by
    have : Fwd m.prev h ((zs.reverse ++ [n]) ++ xs.reverse) h := by simpa using r.bwd
    have := fwd_at this
    rwa [lst_append, List.reverse_reverse] at this
  have rb' : Fwd m.prev h (zs.reverse ++ n :: xs.reverse) h := by simpa using r.bwd
  refine ⟨by simp [getPrev, hl, f2], by simp [getNext, hl, f1],
    { live := m.live, next := upd m.next (lst h xs) (lst h zs.reverse), prev := upd m.prev (lst h zs.reverse) (lst h xs) }, ?_, ⟨?_, ?_, ?_, ?_⟩, rfl, ?_⟩
  · simp [rawDel, setNext, setPrev, hp, hq]
  · exact fun x hx => r.live x (sub x hx)
  · have := r.nodup
    have e : (h :: (xs ++ n :: zs)).Perm (n :: h :: (xs ++ zs)) := (List.perm_middle (a := n) (l₁ := h :: xs) (l₂ := zs))
    rw [e.nodup_iff, List.nodup_cons] at this
    exact this.2
  · rw [← f1]
    exact fwd_remove r.fwd r.nodup
  · have nd := nodup_reverse_ring r.nodup
    have nd' : (h :: (zs.reverse ++ n :: xs.reverse)).Nodup := by simpa using nd
    rw [← f2, List.reverse_append]
    exact fwd_remove rb' nd'
  · intro x hx
    have a1 : x ≠ lst h xs := fun e => hx (e ▸ l1)
    have a2 : x ≠ lst h zs.reverse := fun e => hx (e ▸ l2)
    exact ⟨upd_other _ _ a1, upd_other _ _ a2⟩

theorem init_ring {m : Mem} {h : Nat} (hl : m.live h = true) : ∃ m', initHead m h = some m' ∧ Ring m' h [] ∧ Only [h] m m' := by
  refine ⟨{ live := m.live, next := upd m.next h h, prev := upd m.prev h h }, by simp [initHead, setNext, setPrev, hl], ⟨by simpa using hl, by simp, upd_same _ _ _, upd_same _ _ _⟩, rfl, ?_⟩
  intro x hx
  rw [List.mem_singleton] at hx
  exact ⟨upd_other _ _ hx, upd_other _ _ hx⟩

theorem add_ring {m : Mem} {h n : Nat} {xs : List Nat} (r : Ring m h xs) (hl : m.live n = true) (hn : n ∉ h :: xs) :
    ∃ m', add m n h = some m' ∧ Ring m' h (n :: xs) ∧ Only (n :: h :: xs) m m' := by
  obtain ⟨m', h1, h2, h3⟩ := rawAdd_ring (xs := []) (zs := xs) r hl hn
  refine ⟨m', ?_, h2, h3⟩
  have : m.next h = lst h xs.reverse := fwd_at (xs := []) (ys := xs) r.fwd
  simp [add, getNext, r.live h List.mem_cons_self, this]
  exact h1

theorem addTail_ring {m : Mem} {h n : Nat} {xs : List Nat} (r : Ring m h xs) (hl : m.live n = true) (hn : n ∉ h :: xs) :
    ∃ m', addTail m n h = some m' ∧ Ring m' h (xs ++ [n]) ∧ Only (n :: h :: xs) m m' := by
  obtain ⟨m', h1, h2, h3⟩ := rawAdd_ring (xs := xs) (zs := []) (by simpa using r) hl (by simpa using hn)
  refine ⟨m', ?_, h2, by simpa using h3⟩
  have : m.prev h = lst h xs := by
    have := fwd_at (f := m.prev) (a := h) (b := h) (xs := []) (ys := xs.reverse) r.bwd
    simpa [lst] using this
  simp [addTail, getPrev, r.live h List.mem_cons_self, this]
  exact h1

end Verif.Llist
