import Verif.Llist.System
/-!
# C118: what is read of a list, and loops over it
-/
namespace Verif.Llist

theorem forEach_path {m : Mem} {h : Nat} : ∀ (xs : List Nat) (a fuel : Nat), (∀ x ∈ xs, m.live x = true ∧ x ≠ h) → Fwd m.next a xs h → xs.length < fuel →
    forEach m h fuel (m.next a) = some xs
  | [], a, fuel + 1, _, f, _ => by
    have : m.next a = h := f
    simp [forEach, this]
  | x :: xs, a, fuel + 1, hl, f, hf => by
    obtain ⟨f1, f2⟩ := f
    obtain ⟨l1, l2⟩ := hl x List.mem_cons_self
    have := forEach_path xs x fuel (fun y hy => hl y (List.mem_cons_of_mem _ hy)) f2 (by simpa using hf)
    simp [forEach, f1, l2, getNext, l1, this]
  | [], _, 0, _, _, hf => by simp at hf
  | _ :: _, _, 0, _, _, hf => by simp at hf

theorem forEachPrev_path {m : Mem} {h : Nat} : ∀ (xs : List Nat) (a fuel : Nat), (∀ x ∈ xs, m.live x = true ∧ x ≠ h) → Fwd m.prev a xs h → xs.length < fuel →
    forEachPrev m h fuel (m.prev a) = some xs
  | [], a, fuel + 1, _, f, _ => by
    have : m.prev a = h := f
    simp [forEachPrev, this]
  | x :: xs, a, fuel + 1, hl, f, hf => by
    obtain ⟨f1, f2⟩ := f
    obtain ⟨l1, l2⟩ := hl x List.mem_cons_self
    have := forEachPrev_path xs x fuel (fun y hy => hl y (List.mem_cons_of_mem _ hy)) f2 (by simpa using hf)
    simp [forEachPrev, f1, l2, getPrev, l1, this]
  | [], _, 0, _, _, hf => by simp at hf
  | _ :: _, _, 0, _, _, hf => by simp at hf

theorem Ring.inner {m : Mem} {h : Nat} {xs : List Nat} (r : Ring m h xs) : ∀ x ∈ xs, m.live x = true ∧ x ≠ h :=
  fun x hx => ⟨r.live x (List.mem_cons_of_mem _ hx), fun e => (List.nodup_cons.1 r.nodup).1 (e ▸ hx)⟩

/-- **What is read of a list is what it holds**: whether it is empty, its first and last, all entries in order and backwards, and their number -/
theorem llist_read {live : Nat → Bool} {m : Mem} {s : Lists} {h : Nat} {xs : List Nat} (r : Rep live m s) (e : s h = some xs) :
    empty m h = some (decide (xs = [])) ∧ firstOrNull m h = some xs.head? ∧ last m h = some (xs.getLast?.getD h) ∧
    ∀ fuel, xs.length < fuel → (∃ a, getNext m h = some a ∧ forEach m h fuel a = some xs) ∧ (∃ a, getPrev m h = some a ∧ forEachPrev m h fuel a = some xs.reverse) ∧
      count m h fuel = some xs.length := by
  have ring := r.ring h xs e
  have hl := ring.live h List.mem_cons_self
  have he := empty_ring ring
  refine ⟨he, ?_, ?_, fun fuel hf => ?_⟩
  · cases xs with
    | nil => simp [firstOrNull, he]
    | cons x xs =>
      have : m.next h = x := ring.fwd.1
      simp [firstOrNull, he, getNext, hl, this]
  · have : m.prev h = lst h xs := by
      have := fwd_at (f := m.prev) (a := h) (b := h) (xs := []) (ys := xs.reverse) ring.bwd
      simpa [lst] using this
    have hlst : ∀ (a : Nat) (ys : List Nat), lst a ys = ys.getLast?.getD a := by
      intro a ys
      induction ys generalizing a with
      | nil => rfl
      | cons y ys ih =>
        rw [lst, ih]
        cases ys with
        | nil => rfl
        | cons z zs => simp [List.getLast?_cons]
    simp [last, getPrev, hl, this, hlst]
  · have h1 := forEach_path xs h fuel ring.inner ring.fwd hf
    have h2 := forEachPrev_path xs.reverse h fuel (fun x hx => ring.inner x (List.mem_reverse.1 hx)) ring.bwd (by simpa using hf)
    exact ⟨⟨_, by simp [getNext, hl], h1⟩, ⟨_, by simp [getPrev, hl], h2⟩, by simp [count, getNext, hl, h1]⟩

/-- a body of a loop that removes entries, and frees them -/
def removeIf (p : Nat → Bool) (m : Mem) (x : Nat) : Option Mem :=
  if p x then (del m x).map fun m => { m with live := fun a => if a = x then false else m.live a } else some m

theorem Ring.drop {m : Mem} {h n : Nat} {xs ys : List Nat} (r : Ring m h (xs ++ n :: ys)) :
    ∃ m', removeIf (fun _ => true) m n = some m' ∧ Ring m' h (xs ++ ys) ∧ (∀ x ∉ n :: h :: (xs ++ ys), m'.next x = m.next x ∧ m'.prev x = m.prev x ∧ m'.live x = m.live x) := by
  obtain ⟨h1, h2, m1, h3, h4, h5⟩ := rawDel_ring r
  have hl := r.live n (by simp)
  have hl1 : m1.live n = true := by rw [h5.1]; exact hl
  have hne : n ∉ h :: (xs ++ ys) := by
    have e : (h :: (xs ++ n :: ys)).Perm (n :: h :: (xs ++ ys)) := (List.perm_middle (a := n) (l₁ := h :: xs) (l₂ := ys))
    have := r.nodup
    rw [e.nodup_iff, List.nodup_cons] at this
    exact this.1
  refine ⟨{ live := fun a => if a = n then false else m1.live a, next := upd m1.next n poison1, prev := upd m1.prev n poison2 }, ?_, ⟨?_, h4.nodup, ?_, ?_⟩, ?_⟩
  · simp [removeIf, del, h1, h2, h3, setNext, setPrev, hl1]
  · intro x hx
    have : x ≠ n := fun e => hne (e ▸ hx)
    simp only [this, if_false]
    exact h4.live x hx
  · exact fwd_congr (fun x hx => upd_other _ _ (fun e => hne (e ▸ hx))) h4.fwd
  · refine fwd_congr (fun x hx => upd_other _ _ (fun e => hne (e ▸ ?_))) h4.bwd
    rcases List.mem_cons.1 hx with e | e
    · rw [e]; exact List.mem_cons_self
    · exact List.mem_cons_of_mem _ (List.mem_reverse.1 e)
  · intro x hx
    rw [List.mem_cons, not_or] at hx
    have := h5.2 x hx.2
    refine ⟨(upd_other _ _ hx.1).trans this.1, (upd_other _ _ hx.1).trans this.2, ?_⟩
    simp only [hx.1, if_false]
    rw [h5.1]

theorem safe_loop {h : Nat} (p : Nat → Bool) : ∀ (ys xs : List Nat) (m : Mem) (fuel : Nat), Ring m h (xs ++ ys) → ys.length < fuel →
    ∃ m' n n', ((m.next (lst h xs) = n ∧ (n = h ∨ m.live n = true)) ∧ m.next n = n') ∧ forEachSafe m h (removeIf p) fuel n n' = some (m', ys) ∧
      Ring m' h (xs ++ ys.filter (fun x => !p x)) ∧
      ∀ x ∉ h :: (xs ++ ys), m'.next x = m.next x ∧ m'.prev x = m.prev x ∧ m'.live x = m.live x
  | [], xs, m, fuel + 1, r, _ => by
    have : m.next (lst h xs) = h := by
      have := fwd_at r.fwd
      simpa [lst] using this
    refine ⟨m, h, m.next h, ⟨⟨this, .inl rfl⟩, rfl⟩, by simp [forEachSafe], by simpa using r, fun x _ => ⟨rfl, rfl, rfl⟩⟩
  | y :: ys, xs, m, fuel + 1, r, hf => by
    have hy : m.next (lst h xs) = y := by
      have := fwd_at r.fwd
      rwa [lst_reverse_cons] at this
    obtain ⟨ly, hyh⟩ := r.inner y (by simp)
    have hy' : m.next y = lst h ys.reverse := by
      have : Fwd m.next h ((xs ++ [y]) ++ ys) h := by simpa using r.fwd
      have := fwd_at this
      rwa [lst_append] at this
    by_cases hp : p y = true
    · obtain ⟨m1, b1, b2, b3⟩ := r.drop
      obtain ⟨m', n, n', ⟨⟨c1, c2⟩, c3⟩, c4, c5, c6⟩ := safe_loop p ys xs m1 fuel b2 (by simpa using hf)
      have en : lst h ys.reverse = n := by rw [← c1]; exact (fwd_at b2.fwd).symm
      have ln : m1.live n = true := by
        rcases c2 with e | e
        · rw [e]; exact b2.live h List.mem_cons_self
        · exact e
      have hb : removeIf p m y = some m1 := by
        rw [← b1]; simp [removeIf, hp]
      refine ⟨m', y, n, ⟨⟨hy, .inr ly⟩, hy'.trans en⟩, ?_, by simpa [hp] using c5, fun x hx => ?_⟩
      · simp [forEachSafe, hyh, hb, getNext, ln, c3, c4]
      · have hx1 : x ∉ h :: (xs ++ ys) := by
          intro hm; apply hx
          simp only [List.mem_cons, List.mem_append] at hm ⊢
          rcases hm with e | e | e
          · exact .inl e
          · exact .inr (.inl e)
          · exact .inr (.inr (.inr e))
        have hx2 : x ∉ y :: h :: (xs ++ ys) := by
          rw [List.mem_cons, not_or]
          exact ⟨fun e => hx (by simp [e]), hx1⟩
        obtain ⟨d1, d2, d3⟩ := c6 x hx1
        obtain ⟨e1, e2, e3⟩ := b3 x hx2
        exact ⟨d1.trans e1, d2.trans e2, d3.trans e3⟩
    · have r' : Ring m h ((xs ++ [y]) ++ ys) := by simpa using r
      obtain ⟨m', n, n', ⟨⟨c1, c2⟩, c3⟩, c4, c5, c6⟩ := safe_loop p ys (xs ++ [y]) m fuel r' (by simpa using hf)
      rw [lst_append] at c1
      have c1' : m.next y = n := c1
      have ln : m.live n = true := by
        rcases c2 with e | e
        · rw [e]; exact r.live h List.mem_cons_self
        · exact e
      have hb : removeIf p m y = some m := by simp [removeIf, hp]
      refine ⟨m', y, n, ⟨⟨hy, .inr ly⟩, c1'⟩, ?_, by simpa [hp] using c5, fun x hx => c6 x (by simpa using hx)⟩
      simp [forEachSafe, hyh, hb, getNext, ln, c3, c4]
  | [], _, _, 0, _, hf => by simp at hf
  | _ :: _, _, _, 0, _, hf => by simp at hf

/-- **A safe loop may remove and free the entry it is at**: with any of the entries removed and freed by its body, `llist_for_each_safe` visits all in order, and those
left are in the list; no other list changes -/
theorem llist_safe {live : Nat → Bool} {m : Mem} {s : Lists} {h : Nat} {xs : List Nat} (r : Rep live m s) (e : s h = some xs) (p : Nat → Bool) {fuel : Nat}
    (hf : xs.length < fuel) : ∃ m' n n', getNext m h = some n ∧ getNext m n = some n' ∧ forEachSafe m h (removeIf p) fuel n n' = some (m', xs) ∧
      Rep m'.live m' (s.set h (some (xs.filter fun x => !p x))) := by
  obtain ⟨m', n, n', ⟨⟨c1, c2⟩, c3⟩, c4, c5, c6⟩ := safe_loop p xs [] m fuel (r.ring h xs e) hf
  have hl := (r.ring h xs e).live h List.mem_cons_self
  have ln : m.live n = true := by
    rcases c2 with e | e
    · rw [e]; exact hl
    · exact e
  have sub : ∀ x, x ∈ h :: xs.filter (fun x => !p x) → x ∈ h :: xs := by
    intro x hx
    rcases List.mem_cons.1 hx with e | e
    · rw [e]; exact List.mem_cons_self
    · exact List.mem_cons_of_mem _ (List.mem_of_mem_filter e)
  have out : ∀ k ys, s k = some ys → k ≠ h → Ring m' k ys := by
    intro k ys hk hkh
    have rk := r.ring k ys hk
    have hx : ∀ x ∈ k :: ys, m'.next x = m.next x ∧ m'.prev x = m.prev x ∧ m'.live x = m.live x := fun x hx => c6 x (r.apart k h ys xs hk e hkh x hx)
    refine ⟨fun x hx' => by rw [(hx x hx').2.2]; exact rk.live x hx', rk.nodup, fwd_congr (fun x hx' => (hx x hx').1) rk.fwd, fwd_congr (fun x hx' => (hx x ?_).2.1) rk.bwd⟩
    rcases List.mem_cons.1 hx' with e | e
    · rw [e]; exact List.mem_cons_self
    · exact List.mem_cons_of_mem _ (List.mem_reverse.1 e)
  refine ⟨m', n, n', ?_, ?_, c4, rfl, fun k ys hk => ?_, fun a b as bs ha hb hne x hx hx' => ?_⟩
  · have c1' : m.next h = n := c1
    simp [getNext, hl, c1']
  · simp [getNext, ln, c3]
  · rcases set_some hk with ⟨rfl, e'⟩ | ⟨k1, k2⟩
    · cases e'
      simpa using c5
    · exact out k ys k2 k1
  · rcases set_some ha with ⟨rfl, ea⟩ | ⟨h1, e1⟩
    · cases ea
      rcases set_some hb with ⟨rfl, eb⟩ | ⟨h2, e2⟩
      · exact hne rfl
      · exact r.apart a b xs bs e e2 hne x (sub x hx) hx'
    · rcases set_some hb with ⟨rfl, eb⟩ | ⟨h2, e2⟩
      · cases eb
        exact r.apart a b as xs e1 e hne x hx (sub x hx')
      · exact r.apart a b as bs e1 e2 hne x hx hx'

/-- **An entry removed twice is caught**: the second time memory at the poison addresses would have to live -/
theorem llist_twice {live : Nat → Bool} {m : Mem} {s : Lists} {n h : Nat} {xs ys : List Nat} (r : Rep live m s) (e : s h = some (xs ++ n :: ys)) (hp : live 0x00100100 = false) :
    (∃ m', del m n = some m') ∧ execAll m [.del n, .del n] = none := by
  obtain ⟨h1, h2, h3, h4, m1, h5, h6, h7⟩ := r.removed e
  have hl : m1.live n = true := by rw [h7]; exact h3
  have hd : del m n = some { live := m1.live, next := upd m1.next n poison1, prev := upd m1.prev n poison2 } := by
    simp [del, h1, h2, h5, setNext, setPrev, hl]
  refine ⟨⟨_, hd⟩, ?_⟩
  have hp' : m1.live poison1 = false := by rw [h7, r.live]; exact hp
  simp only [execAll, exec, hd, Option.bind_some]
  simp [del, getPrev, getNext, hl, upd_same, rawDel, setPrev, hp']

/-- two heads and three entries: entries are added, moved and spliced, and one removed -/
def sampleOps : List Op := [.init 1, .init 2, .addTail 11 1, .addTail 12 1, .add 13 2, .move 12 2, .spliceInit 2 1, .del 13]

def sampleMem : Mem := { live := fun a => decide (a < 100), next := fun _ => 0, prev := fun _ => 0 }

example : ((execAll sampleMem sampleOps).bind fun m => (getNext m 1).bind fun a => forEach m 1 10 a) = some [12, 11] := by decide +kernel

example : ((execAll sampleMem sampleOps).bind fun m => empty m 2) = some true := by decide +kernel

/-- and this is a run of `Steps` -/
example : ∃ s, Steps sampleMem.live (fun _ => none) [.init 1, .addTail 11 1, .addTail 12 1, .del 11] s ∧ s 1 = some [12] := by
  refine ⟨_, .cons _ _ _ _ _ (.init _ 1 (by decide) (fun _ _ h => by cases h)) (.cons _ _ _ _ _ (.addTail _ 11 1 [] (by decide) ?_ (by decide) (set_same _ _ _))
    (.cons _ _ _ _ _ (.addTail _ 12 1 [11] (by decide) ?_ (by decide) (set_same _ _ _)) (.cons _ _ _ _ _ (.del _ 11 1 [] [12] (set_same _ _ _)) (.nil _)))), set_same _ _ _⟩
  · intro h xs e
    rcases set_some e with ⟨_, e⟩ | ⟨_, e⟩
    · cases e; decide
    · cases e
  · intro h xs e
    rcases set_some e with ⟨_, e⟩ | ⟨_, e⟩
    · cases e; decide
    · rcases set_some e with ⟨_, e⟩ | ⟨_, e⟩
      · cases e
      · rcases set_some e with ⟨_, e⟩ | ⟨_, e⟩
        · cases e; decide
        · cases e

end Verif.Llist
