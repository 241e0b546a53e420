import Verif.Llist.Claims
/-!
# C118: any number of lists, and any operations on them
-/
namespace Verif.Llist

/-- what lists there are: of each head, the entries -/
abbrev Lists := Nat → Option (List Nat)

/-- one of them changes -/
def Lists.set (s : Lists) (h : Nat) (v : Option (List Nat)) : Lists := fun x => if x = h then v else s x

/-- memory holds these lists, each apart from the others -/
structure Rep (live : Nat → Bool) (m : Mem) (s : Lists) : Prop where
  live : m.live = live
  ring : ∀ h xs, s h = some xs → Ring m h xs
  apart : ∀ h k xs ys, s h = some xs → s k = some ys → h ≠ k → ∀ x ∈ h :: xs, x ∉ k :: ys

/-- an address that is no entry of any list -/
def NoEntry (s : Lists) (n : Nat) : Prop := ∀ h xs, s h = some xs → n ∉ xs

/-- what the operations are for, and what they need -/
inductive Step (live : Nat → Bool) : Lists → Op → Lists → Prop
  /-- a list head is set up: it must not be an entry of a list -/
  | init (s : Lists) (h : Nat) : live h = true → NoEntry s h → Step live s (.init h) (s.set h (some []))
  /-- an entry comes first -/
  | add (s : Lists) (n h : Nat) (xs : List Nat) : live n = true → NoEntry s n → n ≠ h → s h = some xs → Step live s (.add n h) ((s.set n none).set h (some (n :: xs)))
  /-- an entry comes last -/
  | addTail (s : Lists) (n h : Nat) (xs : List Nat) : live n = true → NoEntry s n → n ≠ h → s h = some xs →
      Step live s (.addTail n h) ((s.set n none).set h (some (xs ++ [n])))
  /-- an entry is taken from wherever it is -/
  | del (s : Lists) (n h : Nat) (xs ys : List Nat) : s h = some (xs ++ n :: ys) → Step live s (.del n) (s.set h (some (xs ++ ys)))
  /-- and becomes an empty list of its own -/
  | delInit (s : Lists) (n h : Nat) (xs ys : List Nat) : s h = some (xs ++ n :: ys) → Step live s (.delInit n) ((s.set h (some (xs ++ ys))).set n (some []))
  /-- this may be done again -/
  | delInitAgain (s : Lists) (n : Nat) : s n = some [] → Step live s (.delInit n) s
  /-- an entry is taken from wherever it is, and comes first in a list, which may be the same -/
  | move (s : Lists) (n h k : Nat) (xs ys zs : List Nat) : s h = some (xs ++ n :: ys) → (s.set h (some (xs ++ ys))) k = some zs →
      Step live s (.move n k) ((s.set h (some (xs ++ ys))).set k (some (n :: zs)))
  /-- or last -/
  | moveTail (s : Lists) (n h k : Nat) (xs ys zs : List Nat) : s h = some (xs ++ n :: ys) → (s.set h (some (xs ++ ys))) k = some zs →
      Step live s (.moveTail n k) ((s.set h (some (xs ++ ys))).set k (some (zs ++ [n])))
  /-- the entries of a list come before those of another; unless empty it is no list any more -/
  | splice (s : Lists) (l h : Nat) (xs ys : List Nat) : l ≠ h → s l = some ys → s h = some xs → ys ≠ [] →
      Step live s (.splice l h) ((s.set l none).set h (some (ys ++ xs)))
  | spliceEmpty (s : Lists) (l h : Nat) : s l = some [] → Step live s (.splice l h) s
  /-- the same, and it is empty then -/
  | spliceInit (s : Lists) (l h : Nat) (xs ys : List Nat) : l ≠ h → s l = some ys → s h = some xs →
      Step live s (.spliceInit l h) ((s.set l (some [])).set h (some (ys ++ xs)))

theorem set_same (s : Lists) (h : Nat) (v : Option (List Nat)) : (s.set h v) h = v := if_pos rfl
theorem set_other (s : Lists) {h x : Nat} (v : Option (List Nat)) (e : x ≠ h) : (s.set h v) x = s x := if_neg e

theorem set_some {s : Lists} {h k : Nat} {v : Option (List Nat)} {xs : List Nat} (e : (s.set h v) k = some xs) :
    (k = h ∧ v = some xs) ∨ (k ≠ h ∧ s k = some xs) := by
  unfold Lists.set at e
  split at e
  · exact .inl ⟨‹_›, e⟩
  · exact .inr ⟨‹_›, e⟩

/-- one list changes in memory, with addresses of its own and free ones -/
theorem Rep.update {live : Nat → Bool} {m m' : Mem} {s s0 : Lists} {h : Nat} {xs : List Nat} {t : List Nat} (r : Rep live m s) (hs : ∀ k ys, s0 k = some ys → s k = some ys)
    (ring : Ring m' h xs) (o : Only t m m') (ht : ∀ k ys, s0 k = some ys → k ≠ h → ∀ x ∈ k :: ys, x ∉ t ∧ x ∉ h :: xs) : Rep live m' (s0.set h (some xs)) := by
  refine ⟨o.1.trans r.live, fun k ys hk => ?_, fun a b as bs ha hb hne x hx hx' => ?_⟩
  · rcases set_some hk with ⟨rfl, e⟩ | ⟨hne, e⟩
    · cases e; exact ring
    · exact (r.ring k ys (hs k ys e)).frame o fun x hx => (ht k ys e hne x hx).1
  · rcases set_some ha with ⟨rfl, e⟩ | ⟨h1, e1⟩
    · cases e
      rcases set_some hb with ⟨rfl, e⟩ | ⟨h2, e2⟩
      · exact hne rfl
      · exact (ht b bs e2 h2 x hx').2 hx
    · rcases set_some hb with ⟨rfl, e⟩ | ⟨h2, e2⟩
      · cases e
        exact (ht a as e1 h1 x hx).2 hx'
      · exact r.apart a b as bs (hs _ _ e1) (hs _ _ e2) hne x hx hx'

theorem set_none_some {s : Lists} {n k : Nat} {ys : List Nat} (e : (s.set n none) k = some ys) : k ≠ n ∧ s k = some ys := by
  rcases set_some e with ⟨_, e⟩ | h
  · cases e
  · exact h

/-- an entry is in no other list, nor a head -/
theorem Rep.entry {live : Nat → Bool} {m : Mem} {s : Lists} (r : Rep live m s) {h n : Nat} {xs : List Nat} (e : s h = some xs) (hn : n ∈ xs) :
    ∀ k ys, s k = some ys → k ≠ h → n ∉ k :: ys :=
  fun k ys hk hne => r.apart h k xs ys e hk (Ne.symm hne) n (List.mem_cons_of_mem _ hn)

/-- the state after `__llist_del` -/
theorem Rep.removed {live : Nat → Bool} {m : Mem} {s : Lists} (r : Rep live m s) {h n : Nat} {xs ys : List Nat} (e : s h = some (xs ++ n :: ys)) :
    getPrev m n = some (lst h xs) ∧ getNext m n = some (lst h ys.reverse) ∧ m.live n = true ∧ (∀ k zs, (s.set h (some (xs ++ ys))) k = some zs → n ∉ k :: zs) ∧
    ∃ m', rawDel m (lst h xs) (lst h ys.reverse) = some m' ∧ Rep live m' (s.set h (some (xs ++ ys))) ∧ m'.live = m.live := by
  have ring := r.ring h _ e
  obtain ⟨h1, h2, m', h3, h4, h5⟩ := rawDel_ring ring
  have sub : ∀ x ∈ h :: (xs ++ ys), x ∈ h :: (xs ++ n :: ys) := by
    intro x hx
    simp only [List.mem_cons, List.mem_append] at hx ⊢
    rcases hx with e | e | e
    · exact .inl e
    · exact .inr (.inl e)
    · exact .inr (.inr (.inr e))
  have hne : n ∉ h :: (xs ++ ys) := by
    have e : (h :: (xs ++ n :: ys)).Perm (n :: h :: (xs ++ ys)) := (List.perm_middle (a := n) (l₁ := h :: xs) (l₂ := ys))
    have := ring.nodup
    rw [e.nodup_iff, List.nodup_cons] at this
    exact this.1
  refine ⟨h1, h2, ring.live n (by simp), fun k zs hk => ?_, m', h3, r.update (fun _ _ => id) h4 h5 fun k zs hk hne x hx => ?_, h5.1⟩
  · rcases set_some hk with ⟨rfl, e'⟩ | ⟨hk1, hk2⟩
    · cases e'; exact hne
    · exact r.entry e (by simp) k zs hk2 hk1
  · have : x ∉ h :: (xs ++ n :: ys) := r.apart k h zs _ hk e hne x hx
    exact ⟨fun hx' => this (sub x hx'), fun hx' => this (sub x hx')⟩

/-- an address that is written, of no list -/
theorem Rep.scribble {live : Nat → Bool} {m m' : Mem} {s : Lists} {n : Nat} (r : Rep live m s) (o : Only [n] m m') (hn : ∀ k ys, s k = some ys → n ∉ k :: ys) : Rep live m' s :=
  ⟨o.1.trans r.live, fun k ys hk => (r.ring k ys hk).frame o (by
    intro x hx hx'
    rw [List.mem_singleton] at hx'
    exact hn k ys hk (hx' ▸ hx)), r.apart⟩

theorem Rep.added {live : Nat → Bool} {m : Mem} {s : Lists} (r : Rep live m s) {n h : Nat} {xs : List Nat} (hl : live n = true) (hn : NoEntry s n) (hne : n ≠ h)
    (e : s h = some xs) : (∃ m', add m n h = some m' ∧ Rep live m' ((s.set n none).set h (some (n :: xs)))) ∧
    ∃ m', addTail m n h = some m' ∧ Rep live m' ((s.set n none).set h (some (xs ++ [n]))) := by
  have hnot : n ∉ h :: xs := by
    intro hx
    rcases List.mem_cons.1 hx with e' | e'
    · exact hne e'
    · exact hn h xs e e'
  have hl' : m.live n = true := by rw [r.live]; exact hl
  have ht : ∀ k ys, (s.set n none) k = some ys → k ≠ h → ∀ x ∈ k :: ys, x ∉ n :: h :: xs := by
    intro k ys hk hkh x hx hx'
    obtain ⟨k1, k2⟩ := set_none_some hk
    rcases List.mem_cons.1 hx' with rfl | hx'
    · rcases List.mem_cons.1 hx with rfl | hx
      · exact k1 rfl
      · exact hn k ys k2 hx
    · exact r.apart k h ys xs k2 e hkh x hx hx'
  constructor
  · obtain ⟨m', h1, h2, h3⟩ := add_ring (r.ring h xs e) hl' hnot
    refine ⟨m', h1, r.update (fun k ys hk => (set_none_some hk).2) h2 h3 fun k ys hk hkh x hx => ⟨ht k ys hk hkh x hx, fun hx' => ?_⟩⟩
    refine ht k ys hk hkh x hx ?_
    simp only [List.mem_cons] at hx' ⊢
    rcases hx' with e | e | e
    · exact .inr (.inl e)
    · exact .inl e
    · exact .inr (.inr e)
  · obtain ⟨m', h1, h2, h3⟩ := addTail_ring (r.ring h xs e) hl' hnot
    refine ⟨m', h1, r.update (fun k ys hk => (set_none_some hk).2) h2 h3 fun k ys hk hkh x hx => ⟨ht k ys hk hkh x hx, fun hx' => ?_⟩⟩
    refine ht k ys hk hkh x hx ?_
    simp only [List.mem_cons, List.mem_append, List.not_mem_nil, or_false] at hx' ⊢
    rcases hx' with e | e | e
    · exact .inr (.inl e)
    · exact .inr (.inr e)
    · exact .inl e

theorem set_none_id {s : Lists} {n : Nat} (h : s n = none) : s.set n none = s := by
  funext x
  unfold Lists.set
  split
  · rename_i e; rw [e, h]
  · rfl

/-- `__llist_splice` -/
theorem rawSplice_ring {m : Mem} {l h : Nat} {xs ys : List Nat} (rl : Ring m l ys) (rh : Ring m h xs) (hd : ∀ x ∈ l :: ys, x ∉ h :: xs) (hne : ys ≠ []) :
    ∃ m', rawSplice m l h = some m' ∧ Ring m' h (ys ++ xs) ∧ Only (h :: (ys ++ xs)) m m' := by
  obtain ⟨y, ys', rfl⟩ := List.exists_cons_of_ne_nil hne
  have hfirst : m.next l = y := rl.fwd.1
  have hlast : m.prev l = lst y ys' := by
    have := fwd_at (f := m.prev) (a := l) (b := l) (xs := []) (ys := (y :: ys').reverse) rl.bwd
    simpa [lst] using this
  have hat : m.next h = lst h xs.reverse := fwd_at (xs := []) (ys := xs) rh.fwd
  have ll := rl.live l List.mem_cons_self
  have lh := rh.live h List.mem_cons_self
  have ly := rl.live y (by simp)
  have llast : m.live (lst y ys') = true := rl.live _ (List.mem_cons_of_mem _ (lst_mem y ys'))
  have lat : m.live (lst h xs.reverse) = true := rh.live _ (lst_ring h [] xs).2
  have nl : (y :: ys').Nodup := (List.nodup_cons.1 rl.nodup).2
  have hdy : ∀ x ∈ y :: ys', x ∉ h :: xs := fun x hx => hd x (List.mem_cons_of_mem _ hx)
  have hn1 : lst y ys' ≠ h := fun e => hdy _ (lst_mem y ys') (e ▸ List.mem_cons_self)
  refine ⟨{ live := m.live, next := upd (upd m.next h y) (lst y ys') (lst h xs.reverse), prev := upd (upd m.prev y h) (lst h xs.reverse) (lst y ys') }, ?_, ⟨?_, ?_, ?_, ?_⟩, rfl, ?_⟩
  · simp [rawSplice, getNext, getPrev, setNext, setPrev, ll, lh, ly, llast, lat, hfirst, hlast, hat]
  · intro x hx
    rcases List.mem_cons.1 hx with rfl | hx
    · exact lh
    · rcases List.mem_append.1 hx with hx | hx
      · exact rl.live x (List.mem_cons_of_mem _ hx)
      · exact rh.live x (List.mem_cons_of_mem _ hx)
  · have n2 := rh.nodup
    rw [List.nodup_cons] at n2 ⊢
    refine ⟨fun hx => ?_, List.nodup_append.2 ⟨nl, n2.2, fun a ha b hb e => hdy a ha (e ▸ List.mem_cons_of_mem _ hb)⟩⟩
    rcases List.mem_append.1 hx with hx | hx
    · exact hdy h hx List.mem_cons_self
    · exact n2.1 hx
  · have := fwd_splice (xs := []) (zs := xs) rh.fwd rl.fwd.2 rh.nodup nl hdy
    simp only [lst, List.nil_append] at this
    rw [upd_comm _ _ _ (Ne.symm hn1), ← hat]
    exact this
  · -- backwards: the entries of `l` reversed come after those of `h` reversed
    have bl : ∃ z zs, (y :: ys').reverse = z :: zs := by
      cases hz : (y :: ys').reverse with
      | nil => simp at hz
      | cons z zs => exact ⟨z, zs, rfl⟩
    obtain ⟨z, zs, hz⟩ := bl
    have ez : lst y ys' = z := by
      have h1 : m.prev l = z := by
        have := rl.bwd
        rw [hz] at this
        exact this.1
      rw [← hlast, h1]
    have ey : lst z zs = y := by
      have h1 : lst l ((y :: ys').reverse) = y := lst_reverse_cons l y ys'
      rw [hz] at h1
      exact h1
    have bw := rl.bwd
    rw [hz] at bw
    have mz : ∀ x, x ∈ z :: zs ↔ x ∈ y :: ys' := by
      intro x
      rw [← hz, List.mem_reverse]
    have := fwd_splice (f := m.prev) (a := h) (b := h) (xs := xs.reverse) (zs := []) (y := z) (ys := zs) (c := l) (by simpa using rh.bwd) bw.2
      (by simpa using nodup_reverse_ring rh.nodup) (by rw [← hz]; exact List.nodup_reverse.2 nl)
      (by
        intro x hx
        have := hdy x ((mz x).1 hx)
        simpa using this)
    rw [ey, fwd_last rh.bwd] at this
    rw [List.append_nil] at this
    rw [List.reverse_append, hz, ez]
    exact this
  · intro x hx
    simp only [List.mem_cons, List.mem_append, not_or] at hx
    obtain ⟨a1, ⟨a2, a3⟩, a4⟩ := hx
    have b1 : x ≠ lst y ys' := by
      rintro rfl
      rcases List.mem_cons.1 (lst_mem y ys') with e | e
      · exact a2 e
      · exact a3 e
    have b2 : x ≠ lst h xs.reverse := by
      rintro rfl
      rcases List.mem_cons.1 (lst_ring h [] xs).2 with e | e
      · exact a1 e
      · exact a4 e
    exact ⟨by simp only [upd_other _ _ b1, upd_other _ _ a1], by simp only [upd_other _ _ b2, upd_other _ _ a2]⟩

theorem empty_ring {m : Mem} {h : Nat} {xs : List Nat} (r : Ring m h xs) : empty m h = some (decide (xs = [])) := by
  unfold empty
  simp only [getNext, r.live h List.mem_cons_self, if_true, Option.map_some]
  cases xs with
  | nil =>
    have : m.next h = h := r.fwd
    simp [this]
  | cons x xs =>
    have : m.next h = x := r.fwd.1
    have hne : x ≠ h := by
      rintro rfl
      exact (List.nodup_cons.1 r.nodup).1 List.mem_cons_self
    simp [this, hne]

/-- **Every operation does to memory what it does to the lists**, and to all lists at once: the one it is about changes as said, no other does. Nothing is
read or written that does not live. -/
theorem llist_step {live : Nat → Bool} {m : Mem} {s s' : Lists} {o : Op} (r : Rep live m s) (h : Step live s o s') : ∃ m', exec m o = some m' ∧ Rep live m' s' := by
  cases h with
  | init h hl hn =>
    obtain ⟨m', h1, h2, h3⟩ := init_ring (m := m) (h := h) (by rw [r.live]; exact hl)
    refine ⟨m', h1, r.update (fun _ _ => id) h2 h3 fun k ys hk hkh x hx => ?_⟩
    have : x ≠ h := by
      rintro rfl
      rcases List.mem_cons.1 hx with e | e
      · exact hkh e.symm
      · exact hn k ys hk e
    simp [this]
  | add n h xs hl hn hne e => exact (r.added hl hn hne e).1
  | addTail n h xs hl hn hne e => exact (r.added hl hn hne e).2
  | del n h xs ys e =>
    obtain ⟨h1, h2, h3, h4, m1, h5, h6, h7⟩ := r.removed e
    have hl : m1.live n = true := by rw [h7]; exact h3
    refine ⟨{ live := m1.live, next := upd m1.next n poison1, prev := upd m1.prev n poison2 }, ?_, h6.scribble ⟨rfl, fun x hx => ?_⟩ h4⟩
    · simp [exec, del, h1, h2, h5, setNext, setPrev, hl]
    · rw [List.mem_singleton] at hx
      exact ⟨upd_other _ _ hx, upd_other _ _ hx⟩
  | delInit n h xs ys e =>
    obtain ⟨h1, h2, h3, h4, m1, h5, h6, h7⟩ := r.removed e
    obtain ⟨m', i1, i2, i3⟩ := init_ring (m := m1) (h := n) (by rw [h7]; exact h3)
    refine ⟨m', ?_, h6.update (fun _ _ => id) i2 i3 fun k zs hk hkh x hx => ?_⟩
    · simp [exec, delInit, h1, h2, h5, i1]
    · have : x ≠ n := by
        rintro rfl
        exact h4 k zs hk hx
      simp [this]
  | delInitAgain n e =>
    have ring := r.ring n [] e
    have hl := ring.live n List.mem_cons_self
    have f1 : m.next n = n := ring.fwd
    have f2 : m.prev n = n := ring.bwd
    have u1 : upd m.next n n = m.next := by
      funext x; unfold upd; split
      · rename_i e; rw [e, f1]
      · rfl
    have u2 : upd m.prev n n = m.prev := by
      funext x; unfold upd; split
      · rename_i e; rw [e, f2]
      · rfl
    exact ⟨m, by simp [exec, delInit, getPrev, getNext, rawDel, initHead, setNext, setPrev, hl, f1, f2, u1, u2], r⟩
  | move n h k xs ys zs e e' =>
    obtain ⟨h1, h2, h3, h4, m1, h5, h6, h7⟩ := r.removed e
    have hn : (s.set h (some (xs ++ ys))) n = none := by
      cases hx : (s.set h (some (xs ++ ys))) n with
      | none => rfl
      | some v => exact absurd List.mem_cons_self (h4 n v hx)
    obtain ⟨⟨m', a1, a2⟩, -⟩ := h6.added (n := n) (h := k) (by rw [← r.live]; exact h3) (fun k zs hk hx => h4 k zs hk (List.mem_cons_of_mem _ hx))
      (fun e => h4 k zs e' (e ▸ List.mem_cons_self)) e'
    rw [set_none_id hn] at a2
    exact ⟨m', by simp [exec, move, h1, h2, h5, a1], a2⟩
  | moveTail n h k xs ys zs e e' =>
    obtain ⟨h1, h2, h3, h4, m1, h5, h6, h7⟩ := r.removed e
    have hn : (s.set h (some (xs ++ ys))) n = none := by
      cases hx : (s.set h (some (xs ++ ys))) n with
      | none => rfl
      | some v => exact absurd List.mem_cons_self (h4 n v hx)
    obtain ⟨-, m', a1, a2⟩ := h6.added (n := n) (h := k) (by rw [← r.live]; exact h3) (fun k zs hk hx => h4 k zs hk (List.mem_cons_of_mem _ hx))
      (fun e => h4 k zs e' (e ▸ List.mem_cons_self)) e'
    rw [set_none_id hn] at a2
    exact ⟨m', by simp [exec, moveTail, h1, h2, h5, a1], a2⟩
  | splice l h xs ys hlh el eh hne =>
    have rl := r.ring l ys el
    have rh := r.ring h xs eh
    obtain ⟨m', h1, h2, h3⟩ := rawSplice_ring rl rh (r.apart l h ys xs el eh hlh) hne
    refine ⟨m', by simp [exec, splice, empty_ring rl, hne, h1], r.update (fun k zs hk => (set_none_some hk).2) h2 h3 fun k zs hk hkh x hx => ?_⟩
    obtain ⟨k1, k2⟩ := set_none_some hk
    have b1 := r.apart k l zs ys k2 el k1 x hx
    have b2 := r.apart k h zs xs k2 eh hkh x hx
    simp only [List.mem_cons, List.mem_append, not_or] at b1 b2 ⊢
    exact ⟨⟨b2.1, b1.2, b2.2⟩, b2.1, b1.2, b2.2⟩
  | spliceEmpty l h el => exact ⟨m, by simp [exec, splice, empty_ring (r.ring l [] el)], r⟩
  | spliceInit l h xs ys hlh el eh =>
    have rl := r.ring l ys el
    have rh := r.ring h xs eh
    by_cases hne : ys = []
    · subst hne
      refine ⟨m, by simp [exec, spliceInit, empty_ring rl], ?_⟩
      have : (s.set l (some [])).set h (some ([] ++ xs)) = s := by
        funext x
        unfold Lists.set
        split
        · rename_i e; rw [e, eh]; rfl
        · split
          · rename_i e; rw [e, el]
          · rfl
      rw [this]; exact r
    · obtain ⟨m1, h1, h2, h3⟩ := rawSplice_ring rl rh (r.apart l h ys xs el eh hlh) hne
      have r1 : Rep live m1 ((s.set l none).set h (some (ys ++ xs))) := by
        refine r.update (fun k zs hk => (set_none_some hk).2) h2 h3 fun k zs hk hkh x hx => ?_
        obtain ⟨k1, k2⟩ := set_none_some hk
        have b1 := r.apart k l zs ys k2 el k1 x hx
        have b2 := r.apart k h zs xs k2 eh hkh x hx
        simp only [List.mem_cons, List.mem_append, not_or] at b1 b2 ⊢
        exact ⟨⟨b2.1, b1.2, b2.2⟩, b2.1, b1.2, b2.2⟩
      obtain ⟨m', i1, i2, i3⟩ := init_ring (m := m1) (h := l) (by rw [h3.1]; exact rl.live l List.mem_cons_self)
      have r2 := r1.update (s0 := (s.set l none).set h (some (ys ++ xs))) (fun _ _ => id) i2 i3 (by
        intro k zs hk hkl x hx
        have : x ≠ l := by
          rintro rfl
          rcases set_some hk with ⟨rfl, e⟩ | ⟨k1, k2⟩
          · cases e
            rcases List.mem_cons.1 hx with e | hx
            · exact hlh e
            · rcases List.mem_append.1 hx with hx | hx
              · exact (List.nodup_cons.1 rl.nodup).1 hx
              · exact r.apart x k ys xs el eh hlh x List.mem_cons_self (List.mem_cons_of_mem _ hx)
          · obtain ⟨k3, k4⟩ := set_none_some k2
            exact r.apart k x zs ys k4 el k3 x hx List.mem_cons_self
        simp [this])
      have es : ((s.set l none).set h (some (ys ++ xs))).set l (some []) = (s.set l (some [])).set h (some (ys ++ xs)) := by
        funext x
        unfold Lists.set
        by_cases e1 : x = l
        · subst e1
          simp [hlh]
        · simp [e1]
      rw [es] at r2
      exact ⟨m', by simp [exec, spliceInit, empty_ring rl, hne, h1, i1], r2⟩

/-- steps one after the other -/
inductive Steps (live : Nat → Bool) : Lists → List Op → Lists → Prop
  | nil (s : Lists) : Steps live s [] s
  | cons (s s' s'' : Lists) (o : Op) (os : List Op) : Step live s o s' → Steps live s' os s'' → Steps live s (o :: os) s''

/-- **And so do any operations one after the other**, from a memory without lists on -/
theorem llist_run {live : Nat → Bool} {os : List Op} {s s' : Lists} (h : Steps live s os s') : ∀ {m : Mem}, Rep live m s → ∃ m', execAll m os = some m' ∧ Rep live m' s' := by
  induction h with
  | nil s => exact fun {m} r => ⟨m, rfl, r⟩
  | cons s s1 s2 o os h1 _ ih =>
    intro m r
    obtain ⟨m1, e1, r1⟩ := llist_step r h1
    obtain ⟨m2, e2, r2⟩ := ih r1
    exact ⟨m2, by rw [execAll, e1]; exact e2, r2⟩

/-- a memory without lists -/
theorem llist_start (m : Mem) : Rep m.live m (fun _ => none) := ⟨rfl, (fun _ _ h => by cases h), (fun _ _ _ _ h => by cases h)⟩

end Verif.Llist
