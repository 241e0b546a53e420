import Verif.Hlist.System
/-!
# C119: what is read of these lists, and loops over them
-/
namespace Verif.Hlist

variable {lh ln : Nat → Bool} {m : Mem} {a : Abs}

theorem forEach_chain : ∀ (xs : List Nat) (s : Slot) (fuel : Nat), (∀ x ∈ xs, m.liveN x = true) → Chain m s xs → xs.length ≤ fuel → forEach m fuel (m.ptr s) = some xs
  | [], s, fuel, _, c, _ => by
    have : m.ptr s = none := c
    cases fuel <;> simp [forEach, this]
  | x :: xs, s, fuel + 1, hl, c, hf => by
    have := forEach_chain xs (.next x) fuel (fun y hy => hl y (List.mem_cons_of_mem _ hy)) c.2.2 (by simpa using hf)
    simp [forEach, c.1, get_ok (show m.liveS (.next x) = true from hl x List.mem_cons_self), this]
  | _ :: _, _, 0, _, _, hf => by simp at hf

theorem Rep.liveNodes (r : Rep lh ln m a) {h : Nat} {xs : List Nat} (e : a.lists h = some xs) : ∀ x ∈ xs, m.liveN x = true := fun x hx => by
  rw [r.liveN]; exact r.node _ _ e x hx

/-- **What is read of a list is what it holds** -/
theorem hlist_read (r : Rep lh ln m a) {h : Nat} {xs : List Nat} (e : a.lists h = some xs) :
    empty m h = some (decide (xs = [])) ∧ ∀ fuel, xs.length ≤ fuel → ∃ p, get m (.first h) = some p ∧ forEach m fuel p = some xs := by
  have hc := r.chain _ _ e
  refine ⟨?_, fun fuel hf => ⟨_, get_ok (r.liveS_first e), forEach_chain xs _ fuel (r.liveNodes e) hc hf⟩⟩
  rw [empty, get_ok (r.liveS_first e), chain_head hc]
  cases xs <;> simp

/-- **What is read of a node**: whether it is in a list, whether it is the only one of a list, whether it is a fake list -/
theorem hlist_node (r : Rep lh ln m a) {n : Nat} :
    (∀ h xs, a.lists h = some xs → n ∈ xs → unhashed m n = some false ∧ isFake m n = some false ∧ ∀ k, isSingular m n k = some (decide (a.lists k = some [n]))) ∧
    (a.idle n = true → unhashed m n = some true ∧ isFake m n = some false) ∧ (a.fake n = true → unhashed m n = some false ∧ isFake m n = some true) := by
  refine ⟨fun h xs e hn => ?_, fun hi => ?_, fun hf => ?_⟩
  · obtain ⟨ys, zs, rfl⟩ := List.append_of_mem hn
    obtain ⟨hl, h1, h2⟩ := r.entry e
    have hlN : m.liveN n = true := by rw [r.liveN]; exact hl
    obtain ⟨e1, e2⟩ := end_ne (h := h) (r.nodup _ _ e)
    refine ⟨by simp [unhashed, getPprev_ok hlN, h2], by simp [isFake, getPprev_ok hlN, h2, e1], fun k => ?_⟩
    have key : a.lists k = some [n] ↔ zs = [] ∧ endSlot (.first h) ys = .first k := by
      constructor
      · intro hk
        have := r.own (x := n) e hk (by simp) (by simp)
        subst this
        rw [e] at hk
        have hk := Option.some.inj hk
        cases ys with
        | nil => simp at hk; exact ⟨hk, rfl⟩
        | cons y ys => simp at hk
      · rintro ⟨rfl, hk⟩
        obtain ⟨rfl, rfl⟩ := endSlot_first hk
        simpa using e
    cases zs with
    | nil =>
      have e3 : (some (endSlot (.first h) ys) == some (Slot.first k)) = decide (endSlot (.first h) ys = .first k) := by
        by_cases h : endSlot (.first h) ys = .first k <;> simp [h]
      simp only [isSingular, get_ok (r.liveS_next hl), h1, getPprev_ok hlN, h2, key]
      simpa using e3
    | cons z zs => simp [isSingular, get_ok (r.liveS_next hl), h1, key]
  · obtain ⟨i1, _, i3, _⟩ := r.idle n hi
    have hlN : m.liveN n = true := by rw [r.liveN]; exact i1
    exact ⟨by simp [unhashed, getPprev_ok hlN, i3], by simp [isFake, getPprev_ok hlN, i3]⟩
  · obtain ⟨i1, _, i3, _⟩ := r.fake n hf
    have hlN : m.liveN n = true := by rw [r.liveN]; exact i1
    exact ⟨by simp [unhashed, getPprev_ok hlN, i3], by simp [isFake, getPprev_ok hlN, i3]⟩

/-- a node in no list may be freed -/
def freeNode (m : Mem) (n : Nat) : Mem := { m with liveN := upd m.liveN n false }

theorem Rep.freed (r : Rep lh ln m a) {n : Nat} (hn : a.Free n) (hi : a.idle n = false) (hf : a.fake n = false) : Rep lh (upd ln n false) (freeNode m n) a := by
  refine ⟨r.liveH, ?_, r.head, fun h xs e x hx => ?_, r.nodup, fun h xs e => ?_, r.apart, fun x hx => ?_, fun x hx => ?_⟩
  · show upd m.liveN n false = _
    rw [r.liveN]
  · have hxn : x ≠ n := fun e' => hn _ _ e (e' ▸ hx)
    rw [upd_other _ _ hxn]
    exact r.node _ _ e x hx
  · exact chain_congr (m := m) rfl (fun _ _ => ⟨rfl, rfl⟩) (r.chain _ _ e)
  · have : x ≠ n := fun e => by rw [e, hi] at hx; cases hx
    rw [upd_other _ _ this]
    exact r.idle x hx
  · have : x ≠ n := fun e => by rw [e, hf] at hx; cases hx
    rw [upd_other _ _ this]
    exact r.fake x hx

/-- a body of a loop that removes nodes, and frees them -/
def removeIf (p : Nat → Bool) (m : Mem) (x : Nat) : Option Mem := if p x then (del m x).map (freeNode · x) else some m

theorem upd_upd {α β : Type} [DecidableEq α] (f : α → β) (x : α) (v w : β) : upd (upd f x v) x w = upd f x w := by
  funext y
  by_cases h : y = x
  · rw [h, upd_same, upd_same]
  · rw [upd_other _ _ h, upd_other _ _ h, upd_other _ _ h]

/-- **A safe loop may remove and free the node it is at**: with any of the nodes removed and freed by its body, `hlist_for_each_safe` visits all in order, and those left are in
the list; nothing else changes -/
theorem hlist_safe {h : Nat} (p : Nat → Bool) : ∀ (ys xs : List Nat) {ln : Nat → Bool} {m : Mem} {a : Abs} (fuel : Nat), Rep lh ln m a → a.lists h = some (xs ++ ys) → ys.length ≤ fuel →
    ∃ m', forEachSafe m (removeIf p) fuel ys.head? = some (m', ys) ∧
      Rep lh (fun x => ln x && !(decide (x ∈ ys) && p x)) m' { a with lists := upd a.lists h (some (xs ++ ys.filter (fun x => !p x))) }
  | [], xs, ln, m, a, fuel, r, e, _ => by
    refine ⟨m, by cases fuel <;> simp [forEachSafe], ?_⟩
    have e1 : (fun x => ln x && !(decide (x ∈ ([] : List Nat)) && p x)) = ln := by funext x; simp
    have e2 : upd a.lists h (some (xs ++ ([] : List Nat).filter (fun x => !p x))) = a.lists := by
      funext x
      by_cases hx : x = h
      · rw [hx, upd_same, e]; simp
      · exact upd_other _ _ hx
    rw [e1, e2]
    exact r
  | y :: ys, xs, ln, m, a, fuel + 1, r, e, hf => by
    obtain ⟨hl, h1, h2⟩ := r.entry e
    by_cases hp : p y = true
    · obtain ⟨m1, d1, r1⟩ := step_del r e
      have hd := r.nodup _ _ e
      have hd' := hd
      rw [(List.perm_middle (a := y) (l₁ := xs) (l₂ := ys)).nodup_iff, List.nodup_cons] at hd'
      have fr : Abs.Free { a with lists := upd a.lists h (some (xs ++ ys)) } y := by
        intro k zs hk hm
        rcases upd_eq hk with ⟨rfl, e'⟩ | ⟨hkh, e'⟩
        · cases e'; exact hd'.1 hm
        · exact hkh (r.own e' e hm (by simp))
      have hi : a.idle y = false := by
        cases hb : a.idle y with
        | false => rfl
        | true => exact absurd (by simp) ((r.idle y hb).2.1 _ _ e)
      have hfk : a.fake y = false := by
        cases hb : a.fake y with
        | false => rfl
        | true => exact absurd (by simp) ((r.fake y hb).2.1 _ _ e)
      have r2 := r1.freed fr hi hfk
      obtain ⟨m', e1, e2⟩ := hlist_safe p ys xs fuel r2 (upd_same _ _ _) (by simpa using hf)
      refine ⟨m', ?_, ?_⟩
      · simp [forEachSafe, get_ok (r.liveS_next hl), h1, removeIf, hp, d1, e1]
      · simp only [upd_upd] at e2
        have e3 : (fun x => upd ln y false x && !(decide (x ∈ ys) && p x)) = fun x => ln x && !(decide (x ∈ y :: ys) && p x) := by
          funext x
          by_cases hx : x = y
          · subst hx; simp [upd_same, hp]
          · simp [upd_other _ _ hx, hx]
        rw [e3] at e2
        simpa [hp] using e2
    · have e' : a.lists h = some ((xs ++ [y]) ++ ys) := by simpa using e
      obtain ⟨m', e1, e2⟩ := hlist_safe p ys (xs ++ [y]) fuel r e' (by simpa using hf)
      refine ⟨m', ?_, ?_⟩
      · simp [forEachSafe, get_ok (r.liveS_next hl), h1, removeIf, hp, e1]
      · have e3 : (fun x => ln x && !(decide (x ∈ ys) && p x)) = fun x => ln x && !(decide (x ∈ y :: ys) && p x) := by
          funext x
          by_cases hx : x = y
          · subst hx; simp [hp]
          · simp [hx]
        rw [e3] at e2
        simpa [hp] using e2
  | _ :: _, _, _, _, _, 0, _, _, hf => by simp at hf

/-- **A node removed twice is caught**: the second time memory at the poison addresses would have to live -/
theorem hlist_twice (r : Rep lh ln m a) {n h : Nat} {xs ys : List Nat} (e : a.lists h = some (xs ++ n :: ys)) (hp : ln 0x00200200 = false) :
    (∃ m', del m n = some m') ∧ execAll m [.del n, .del n] = none := by
  obtain ⟨m1, h1, h2, h3⟩ := rawDel_entry r e
  have hd : del m n = some (wp (wr m1 (.next n) (some poison1)) n (some poison2)) := by
    simp only [del, h1, Option.bind_eq_bind, Option.bind_some]
    rw [set_ok _ (show m1.liveS (.next n) = true from h3), Option.bind_some]
    exact setPprev_ok _ (by simpa using h3)
  refine ⟨⟨_, hd⟩, ?_⟩
  have hp' : m1.liveN 0x00200200 = false := by rw [h2.liveN, r.liveN]; exact hp
  generalize hm : wp (wr m1 (.next n) (some poison1)) n (some poison2) = m2 at hd
  have q1 : m2.liveN = m1.liveN := by subst hm; rfl
  have q2 : m2.pprev n = some poison2 := by subst hm; exact upd_same _ _ _
  have hl2 : m2.liveN n = true := by rw [q1]; exact h3
  have hs : ∀ v, set m2 poison2 v = none := fun v => by
    have : m2.liveS poison2 = false := by
      show m2.liveN 0x00200200 = false
      rw [q1]; exact hp'
    simp [set, this]
  simp only [execAll, exec, hd, Option.bind_some]
  simp [del, rawDel, get_ok (show m2.liveS (.next n) = true from hl2), getPprev_ok hl2, q2, hs]

/-- two heads and four nodes -/
def sampleMem : Mem := { liveH := fun a => decide (a < 10), liveN := fun a => decide (10 < a ∧ a < 100), ptr := fun _ => some 0, pprev := fun _ => none }

example : ((execAll sampleMem [.initHead 1, .addHead 11 1, .addHead 12 1, .addBefore 13 12, .addBehind 14 12, .del 12, .moveList 1 2]).bind fun m =>
    (get m (.first 2)).bind fun p => forEach m 10 p) = some [13, 14, 11] := by decide +kernel

/-- and this is a run of `Steps` -/
example : ∃ a, Steps sampleMem.liveH sampleMem.liveN ⟨fun _ => none, fun _ => false, fun _ => false⟩ [.initHead 1, .addHead 11 1, .addBehind 12 11, .delInit 11] a ∧
    a.lists 1 = some [12] ∧ a.idle 11 = true := by
  refine ⟨_, .cons _ _ _ _ _ (.initHead _ 1 (by decide)) (.cons _ _ _ _ _ (.addHead _ 11 1 [] (by decide) ?_ rfl)
    (.cons _ _ _ _ _ (.addBehind _ 12 11 1 [] [] (by decide) ?_ rfl) (.cons _ _ _ _ _ (.delInit _ 11 1 [] [12] rfl) (.nil _)))), rfl, rfl⟩
  · intro h xs e
    rcases upd_eq e with ⟨_, e⟩ | ⟨_, e⟩
    · cases e; decide
    · cases e
  · intro h xs e
    rcases upd_eq e with ⟨_, e⟩ | ⟨_, e⟩
    · cases e; decide
    · rcases upd_eq e with ⟨_, e⟩ | ⟨_, e⟩
      · cases e; decide
      · cases e

end Verif.Hlist
