import Verif.Hlist.Claims
/-!
# C119: any number of these lists, and any operations on them
-/
namespace Verif.Hlist

/-- a write that is known to be within memory -/
def wr (m : Mem) (s : Slot) (v : Option Nat) : Mem := { m with ptr := upd m.ptr s v }
def wp (m : Mem) (n : Nat) (v : Option Slot) : Mem := { m with pprev := upd m.pprev n v }
def wpIf (m : Mem) (p : Option Nat) (v : Option Slot) : Mem :=
  match p with
  | none => m
  | some x => wp m x v

theorem set_ok {m : Mem} {s : Slot} (v : Option Nat) (h : m.liveS s = true) : set m s v = some (wr m s v) := by simp [set, h, wr]
theorem get_ok {m : Mem} {s : Slot} (h : m.liveS s = true) : get m s = some (m.ptr s) := by simp [get, h]
theorem setPprev_ok {m : Mem} {n : Nat} (v : Option Slot) (h : m.liveN n = true) : setPprev m n v = some (wp m n v) := by simp [setPprev, h, wp]
theorem getPprev_ok {m : Mem} {n : Nat} (h : m.liveN n = true) : getPprev m n = some (m.pprev n) := by simp [getPprev, h]
theorem setPprevIf_ok {m : Mem} {p : Option Nat} (v : Option Slot) (h : ∀ x, p = some x → m.liveN x = true) : setPprevIf m p v = some (wpIf m p v) := by
  cases p with
  | none => rfl
  | some x => exact setPprev_ok v (h x rfl)

@[simp] theorem wr_liveS (m : Mem) (s t : Slot) (v : Option Nat) : (wr m s v).liveS t = m.liveS t := by cases t <;> rfl
@[simp] theorem wp_liveS (m : Mem) (n : Nat) (t : Slot) (v : Option Slot) : (wp m n v).liveS t = m.liveS t := by cases t <;> rfl
@[simp] theorem wpIf_liveS (m : Mem) (p : Option Nat) (t : Slot) (v : Option Slot) : (wpIf m p v).liveS t = m.liveS t := by cases p <;> cases t <;> rfl
@[simp] theorem wr_liveN (m : Mem) (s : Slot) (v : Option Nat) : (wr m s v).liveN = m.liveN := rfl
@[simp] theorem wp_liveN (m : Mem) (n : Nat) (v : Option Slot) : (wp m n v).liveN = m.liveN := rfl
@[simp] theorem wpIf_liveN (m : Mem) (p : Option Nat) (v : Option Slot) : (wpIf m p v).liveN = m.liveN := by cases p <;> rfl
@[simp] theorem wr_liveH (m : Mem) (s : Slot) (v : Option Nat) : (wr m s v).liveH = m.liveH := rfl
@[simp] theorem wp_liveH (m : Mem) (n : Nat) (v : Option Slot) : (wp m n v).liveH = m.liveH := rfl
@[simp] theorem wpIf_liveH (m : Mem) (p : Option Nat) (v : Option Slot) : (wpIf m p v).liveH = m.liveH := by cases p <;> rfl
@[simp] theorem wr_pprev (m : Mem) (s : Slot) (v : Option Nat) : (wr m s v).pprev = m.pprev := rfl
@[simp] theorem wp_ptr (m : Mem) (n : Nat) (v : Option Slot) : (wp m n v).ptr = m.ptr := rfl
@[simp] theorem wpIf_ptr (m : Mem) (p : Option Nat) (v : Option Slot) : (wpIf m p v).ptr = m.ptr := by cases p <;> rfl
@[simp] theorem wr_ptr (m : Mem) (s : Slot) (v : Option Nat) : (wr m s v).ptr = upd m.ptr s v := rfl
@[simp] theorem wp_pprev (m : Mem) (n : Nat) (v : Option Slot) : (wp m n v).pprev = upd m.pprev n v := rfl
theorem wpIf_at (m : Mem) (p : Option Nat) (v : Option Slot) {y : Nat} (h : p = some y) : (wpIf m p v).pprev y = v := by subst h; exact upd_same _ _ _
theorem wpIf_not (m : Mem) (p : Option Nat) (v : Option Slot) {y : Nat} (h : p ≠ some y) : (wpIf m p v).pprev y = m.pprev y := by
  cases p with
  | none => rfl
  | some x => exact upd_other _ _ (fun e => h (by rw [e]))

variable {lh ln : Nat → Bool} {m : Mem} {a : Abs}

theorem Rep.liveS_first (r : Rep lh ln m a) {h : Nat} {xs : List Nat} (e : a.lists h = some xs) : m.liveS (.first h) = true := by
  show m.liveH h = true
  rw [r.liveH]; exact r.head h xs e

theorem Rep.liveS_next (r : Rep lh ln m a) {n : Nat} (hl : ln n = true) : m.liveS (.next n) = true := by
  show m.liveN n = true
  rw [r.liveN]; exact hl

theorem Rep.liveS_end (r : Rep lh ln m a) {h : Nat} {xs ys : List Nat} (e : a.lists h = some (xs ++ ys)) : m.liveS (endSlot (.first h) xs) = true := by
  rcases endSlot_cases xs (.first h) with ⟨_, e'⟩ | ⟨x, hx, e'⟩
  · rw [e']; exact r.liveS_first e
  · rw [e']; exact r.liveS_next (r.node _ _ e x (List.mem_append_left _ hx))

/-- a node in a list: what its pointers are -/
theorem Rep.entry (r : Rep lh ln m a) {h n : Nat} {xs ys : List Nat} (e : a.lists h = some (xs ++ n :: ys)) :
    ln n = true ∧ m.ptr (.next n) = ys.head? ∧ m.pprev n = some (endSlot (.first h) xs) := by
  obtain ⟨_, c⟩ := chain_append.1 (r.chain _ _ e)
  exact ⟨r.node _ _ e n (by simp), chain_head c.2.2, c.2.1⟩

theorem first_ne_next {h n : Nat} : Slot.first h ≠ Slot.next n := fun h => by cases h

theorem rawDel_entry (r : Rep lh ln m a) {h n : Nat} {xs ys : List Nat} (e : a.lists h = some (xs ++ n :: ys)) :
    ∃ m', rawDel m n = some m' ∧ Removed m m' (endSlot (.first h) xs) n ys.head? ∧ m'.liveN n = true := by
  obtain ⟨hl, h1, h2⟩ := r.entry e
  have hlN : m.liveN n = true := by rw [r.liveN]; exact hl
  have hy : ∀ x, ys.head? = some x → m.liveN x = true := fun x hx => by
    rw [r.liveN]; exact r.node _ _ e x (List.mem_append_right _ (List.mem_cons_of_mem _ (head_mem hx)))
  refine ⟨wpIf (wr m (endSlot (.first h) xs) ys.head?) ys.head? (some (endSlot (.first h) xs)), ?_, ⟨by simp, by simp, ?_, ?_, ?_, ?_⟩, by simpa using hlN⟩
  · simp only [rawDel, get_ok (r.liveS_next hl), getPprev_ok hlN, h1, h2, Option.bind_eq_bind, Option.bind_some]
    rw [set_ok _ (r.liveS_end e)]
    exact setPprevIf_ok _ (by simpa using hy)
  · simp [upd_same]
  · intro t h1 _
    simpa using upd_other _ _ h1
  · exact fun y hy => wpIf_at _ _ _ hy
  · intro y _ h2
    rw [wpIf_not _ _ _ h2]
    rfl

/-- the cells of the node itself may be written then -/
theorem Removed.scribble {m' : Mem} {s : Slot} {n : Nat} {nx : Option Nat} (i : Removed m m' s n nx) (hs : s ≠ .next n) (hx : nx ≠ some n) (v : Option Nat) (w : Option Slot) :
    Removed m (wp (wr m' (.next n) v) n w) s n nx := by
  refine ⟨i.liveH, i.liveN, ?_, fun t h1 h2 => ?_, fun y hy => ?_, fun y h1 h2 => ?_⟩
  · simpa [upd_other _ _ hs] using i.at_
  · simpa [upd_other _ _ h2] using i.ptr t h1 h2
  · have : y ≠ n := fun e => hx (e ▸ hy)
    simpa [upd_other _ _ this] using i.back y hy
  · simpa [upd_other _ _ h1] using i.pprev y h1 h2

theorem end_ne {h n : Nat} {xs ys : List Nat} (hd : (xs ++ n :: ys).Nodup) : endSlot (.first h) xs ≠ .next n ∧ ys.head? ≠ some n := by
  obtain ⟨_, d2, d3⟩ := nodup_split hd
  exact ⟨fun e => d3 n (endSlot_mem e) List.mem_cons_self, fun e => (List.nodup_cons.1 d2).1 (head_mem e)⟩

theorem step_del (r : Rep lh ln m a) {n h : Nat} {xs ys : List Nat} (e : a.lists h = some (xs ++ n :: ys)) :
    ∃ m', del m n = some m' ∧ Rep lh ln m' { a with lists := upd a.lists h (some (xs ++ ys)) } := by
  obtain ⟨m1, h1, h2, h3⟩ := rawDel_entry r e
  obtain ⟨e1, e2⟩ := end_ne (h := h) (r.nodup _ _ e)
  refine ⟨wp (wr m1 (.next n) (some poison1)) n (some poison2), ?_, ?_⟩
  · simp only [del, h1, Option.bind_eq_bind, Option.bind_some]
    rw [set_ok _ (show m1.liveS (.next n) = true from h3), Option.bind_some]
    exact setPprev_ok _ (by simpa using h3)
  · have hid : upd a.idle n (a.idle n) = a.idle := by
      funext x
      by_cases h : x = n
      · rw [h, upd_same]
      · exact upd_other _ _ h
    have := r.removed (b := a.idle n) e (h2.scribble e1 e2 (some poison1) (some poison2)) (fun hb => absurd (by simp) ((r.idle n hb).2.1 _ _ e))
    rwa [hid] at this

theorem initNode_ok {m : Mem} {n : Nat} (h : m.liveN n = true) : initNode m n = some (wp (wr m (.next n) none) n none) := by
  simp only [initNode, Option.bind_eq_bind]
  rw [set_ok _ (show m.liveS (.next n) = true from h), Option.bind_some]
  exact setPprev_ok _ (by simpa using h)

theorem step_delInit (r : Rep lh ln m a) {n h : Nat} {xs ys : List Nat} (e : a.lists h = some (xs ++ n :: ys)) :
    ∃ m', delInit m n = some m' ∧ Rep lh ln m' { a with lists := upd a.lists h (some (xs ++ ys)), idle := upd a.idle n true } := by
  obtain ⟨m1, h1, h2, h3⟩ := rawDel_entry r e
  obtain ⟨e1, e2⟩ := end_ne (h := h) (r.nodup _ _ e)
  obtain ⟨hl, _, hp⟩ := r.entry e
  have hlN : m.liveN n = true := by rw [r.liveN]; exact hl
  refine ⟨wp (wr m1 (.next n) none) n none, ?_, ?_⟩
  · simp [delInit, unhashed, getPprev_ok hlN, hp, h1, initNode_ok h3]
  · exact r.removed e (h2.scribble e1 e2 none none) (fun _ => ⟨upd_same _ _ _, upd_same _ _ _⟩)

/-- cells of a node in no list change, and what is known of it -/
theorem Rep.lone (r : Rep lh ln m a) {n : Nat} {m' : Mem} {i f : Bool} (hl : ln n = true) (hn : a.Free n) (h1 : m'.liveH = m.liveH) (h2 : m'.liveN = m.liveN)
    (h3 : ∀ t, t ≠ .next n → m'.ptr t = m.ptr t) (h4 : ∀ x, x ≠ n → m'.pprev x = m.pprev x) (hi : i = true → m'.pprev n = none ∧ m'.ptr (.next n) = none)
    (hf : f = true → m'.pprev n = some (.next n) ∧ m'.ptr (.next n) = none) : Rep lh ln m' { a with idle := upd a.idle n i, fake := upd a.fake n f } := by
  have hx : ∀ k zs, a.lists k = some zs → ∀ x ∈ zs, x ≠ n := fun k zs e x hx e' => hn _ _ e (e' ▸ hx)
  have ne : ∀ x, x ≠ n → Slot.next x ≠ .next n := fun x h e => by cases e; exact h rfl
  refine ⟨h1.trans r.liveH, h2.trans r.liveN, r.head, r.node, r.nodup, fun k zs e => ?_, r.apart, fun x h => ?_, fun x h => ?_⟩
  · exact chain_congr (h3 _ first_ne_next) (fun x hx' => ⟨h3 _ (ne x (hx k zs e x hx')), h4 x (hx k zs e x hx')⟩) (r.chain k zs e)
  · rcases upd_eq h with ⟨rfl, e⟩ | ⟨hne, e⟩
    · exact ⟨hl, hn, hi e⟩
    · obtain ⟨i1, i2, i3, i4⟩ := r.idle x e
      exact ⟨i1, i2, (h4 x hne).trans i3, (h3 _ (ne x hne)).trans i4⟩
  · rcases upd_eq h with ⟨rfl, e⟩ | ⟨hne, e⟩
    · exact ⟨hl, hn, hf e⟩
    · obtain ⟨i1, i2, i3, i4⟩ := r.fake x e
      exact ⟨i1, i2, (h4 x hne).trans i3, (h3 _ (ne x hne)).trans i4⟩

theorem rawDel_fake (r : Rep lh ln m a) {n : Nat} (h : a.fake n = true) : rawDel m n = some (wr m (.next n) none) := by
  obtain ⟨hl, _, h1, h2⟩ := r.fake n h
  have hlN : m.liveN n = true := by rw [r.liveN]; exact hl
  simp only [rawDel, get_ok (r.liveS_next hl), getPprev_ok hlN, h1, h2, Option.bind_eq_bind, Option.bind_some]
  rw [set_ok _ (r.liveS_next hl)]
  rfl

theorem step_addHead (r : Rep lh ln m a) {n h : Nat} {xs : List Nat} (hl : ln n = true) (hn : a.Free n) (e : a.lists h = some xs) :
    ∃ m', addHead m n h = some m' ∧ Inserted m m' (.first h) n xs.head? := by
  have hlN : m.liveN n = true := by rw [r.liveN]; exact hl
  have hy : ∀ x, xs.head? = some x → m.liveN x = true := fun x hx => by rw [r.liveN]; exact r.node _ _ e x (head_mem hx)
  have hyn : xs.head? ≠ some n := fun h => hn _ _ e (head_mem h)
  have hne := @first_ne_next h n
  refine ⟨wp (wr (wpIf (wr m (.next n) xs.head?) xs.head? (some (.next n))) (.first h) (some n)) n (some (.first h)), ?_, ⟨by simp, by simp, ?_, ?_, ?_, ?_, ?_, ?_⟩⟩
  · simp only [addHead, get_ok (r.liveS_first e), chain_head (r.chain _ _ e), Option.bind_eq_bind, Option.bind_some]
    rw [set_ok _ (r.liveS_next hl), Option.bind_some, setPprevIf_ok _ (by simpa using hy), Option.bind_some, set_ok _ (by simpa using r.liveS_first e), Option.bind_some]
    exact setPprev_ok _ (by simpa using hlN)
  · simp [upd_same]
  · simp [upd_other _ _ hne.symm, upd_same]
  · intro t h1 h2
    simp [upd_other _ _ h1, upd_other _ _ h2]
  · simp [upd_same]
  · intro y hy'
    have : y ≠ n := fun e => hyn (e ▸ hy')
    simp only [wp_pprev, upd_other _ _ this, wr_pprev]
    exact wpIf_at _ _ _ hy'
  · intro y h1 h2
    simp only [wp_pprev, upd_other _ _ h1, wr_pprev]
    exact wpIf_not _ _ _ h2

theorem step_addBefore (r : Rep lh ln m a) {n x h : Nat} {xs ys : List Nat} (hl : ln n = true) (hn : a.Free n) (e : a.lists h = some (xs ++ x :: ys)) :
    ∃ m', addBefore m n x = some m' ∧ Inserted m m' (endSlot (.first h) xs) n (some x) := by
  obtain ⟨lx, _, hp⟩ := r.entry e
  have hlN : m.liveN n = true := by rw [r.liveN]; exact hl
  have hlX : m.liveN x = true := by rw [r.liveN]; exact lx
  have hxn : x ≠ n := fun h => hn _ _ e (by simp [h])
  have hs : endSlot (.first h) xs ≠ .next n := fun h => hn _ _ e (List.mem_append_left _ (endSlot_mem h))
  refine ⟨wr (wp (wr (wp m n (some (endSlot (.first h) xs))) (.next n) (some x)) x (some (.next n))) (endSlot (.first h) xs) (some n), ?_, ⟨by simp, by simp, ?_, ?_, ?_, ?_, ?_, ?_⟩⟩
  · simp only [addBefore, getPprev_ok hlX, hp, Option.bind_eq_bind, Option.bind_some]
    rw [setPprev_ok _ hlN, Option.bind_some, set_ok _ (by simpa using r.liveS_next hl), Option.bind_some, setPprev_ok _ (by simpa using hlX), Option.bind_some,
      getPprev_ok (by simpa using hlN), Option.bind_some]
    simp only [wp_pprev, upd_other _ _ hxn.symm, wr_pprev, upd_same, Option.bind_some]
    exact set_ok _ (by simpa using r.liveS_end e)
  · simp [upd_same]
  · simp [upd_other _ _ hs.symm, upd_same]
  · intro t h1 h2
    simp [upd_other _ _ h1, upd_other _ _ h2]
  · simp [upd_other _ _ hxn.symm, upd_same]
  · intro y hy'
    cases hy'
    simp [upd_same]
  · intro y h1 h2
    have : y ≠ x := fun e => h2 (by rw [e])
    simp [upd_other _ _ this, upd_other _ _ h1]

theorem step_addBehind (r : Rep lh ln m a) {n x h : Nat} {xs ys : List Nat} (hl : ln n = true) (hn : a.Free n) (e : a.lists h = some (xs ++ x :: ys)) :
    ∃ m', addBehind m n x = some m' ∧ Inserted m m' (.next x) n ys.head? := by
  obtain ⟨lx, hx, _⟩ := r.entry e
  have hlN : m.liveN n = true := by rw [r.liveN]; exact hl
  have hxn : x ≠ n := fun h => hn _ _ e (by simp [h])
  have hs : Slot.next x ≠ .next n := fun h => by cases h; exact hxn rfl
  have hy : ∀ y, ys.head? = some y → m.liveN y = true := fun y hy => by
    rw [r.liveN]; exact r.node _ _ e y (List.mem_append_right _ (List.mem_cons_of_mem _ (head_mem hy)))
  have hyn : ys.head? ≠ some n := fun h => hn _ _ e (List.mem_append_right _ (List.mem_cons_of_mem _ (head_mem h)))
  refine ⟨wpIf (wp (wr (wr m (.next n) ys.head?) (.next x) (some n)) n (some (.next x))) ys.head? (some (.next n)), ?_, ⟨by simp, by simp, ?_, ?_, ?_, ?_, ?_, ?_⟩⟩
  · simp only [addBehind, get_ok (r.liveS_next lx), hx, Option.bind_eq_bind, Option.bind_some]
    rw [set_ok _ (r.liveS_next hl), Option.bind_some, set_ok _ (by simpa using r.liveS_next lx), Option.bind_some, setPprev_ok _ (by simpa using hlN), Option.bind_some,
      get_ok (by simpa using r.liveS_next hl), Option.bind_some]
    simp only [wp_ptr, wr_ptr, upd_other _ _ hs.symm, upd_same]
    exact setPprevIf_ok _ (by simpa using hy)
  · simp [upd_same]
  · simp [upd_other _ _ hs.symm, upd_same]
  · intro t h1 h2
    simp [upd_other _ _ h1, upd_other _ _ h2]
  · rw [wpIf_not _ _ _ hyn]
    simp [upd_same]
  · exact fun y hy' => wpIf_at _ _ _ hy'
  · intro y h1 h2
    rw [wpIf_not _ _ _ h2]
    simp [upd_other _ _ h1]

theorem step_initHead (r : Rep lh ln m a) {h : Nat} (hl : lh h = true) : ∃ m', initHead m h = some m' ∧ Rep lh ln m' { a with lists := upd a.lists h (some []) } := by
  have hlH : m.liveS (.first h) = true := by show m.liveH h = true; rw [r.liveH]; exact hl
  have free : ∀ n, a.Free n → Abs.Free { a with lists := upd a.lists h (some []) } n := by
    intro n hn k zs hk
    rcases upd_eq hk with ⟨_, e⟩ | ⟨_, e⟩
    · cases e; simp
    · exact hn _ _ e
  refine ⟨_, set_ok _ hlH, r.liveH, r.liveN, fun k zs hk => ?_, fun k zs hk x hx => ?_, fun k zs hk => ?_, fun k zs hk => ?_, fun k l zs ws hk hl' hne x hx hx' => ?_,
    fun n hn => ?_, fun n hn => ?_⟩
  · rcases upd_eq hk with ⟨rfl, _⟩ | ⟨_, e'⟩
    · exact hl
    · exact r.head _ _ e'
  · rcases upd_eq hk with ⟨rfl, e'⟩ | ⟨_, e'⟩
    · cases e'; cases hx
    · exact r.node _ _ e' x hx
  · rcases upd_eq hk with ⟨rfl, e'⟩ | ⟨_, e'⟩
    · cases e'; exact List.nodup_nil
    · exact r.nodup _ _ e'
  · rcases upd_eq hk with ⟨rfl, e'⟩ | ⟨hkh, e'⟩
    · cases e'
      exact upd_same _ _ _
    · exact chain_congr (upd_other _ _ (fun e => by cases e; exact hkh rfl)) (fun x hx => ⟨upd_other m.ptr (a := .first h) none first_ne_next.symm, rfl⟩) (r.chain _ _ e')
  · rcases upd_eq hk with ⟨rfl, e1⟩ | ⟨h1, e1⟩
    · cases e1; cases hx
    · rcases upd_eq hl' with ⟨rfl, e2⟩ | ⟨h2, e2⟩
      · cases e2; cases hx'
      · exact hne (r.own e1 e2 hx hx')
  · obtain ⟨i1, i2, i3, i4⟩ := r.idle n hn
    exact ⟨i1, free n i2, i3, (upd_other m.ptr (a := .first h) none first_ne_next.symm).trans i4⟩
  · obtain ⟨i1, i2, i3, i4⟩ := r.fake n hn
    exact ⟨i1, free n i2, i3, (upd_other m.ptr (a := .first h) none first_ne_next.symm).trans i4⟩

theorem step_moveList (r : Rep lh ln m a) {old new : Nat} {xs : List Nat} (hne : old ≠ new) (e : a.lists old = some xs) (hl : lh new = true) :
    ∃ m', moveList m old new = some m' ∧ Rep lh ln m' { a with lists := upd (upd a.lists new (some xs)) old (some []) } := by
  have hlH : m.liveS (.first new) = true := by show m.liveH new = true; rw [r.liveH]; exact hl
  have hne' : Slot.first old ≠ .first new := fun h => by cases h; exact hne rfl
  have hy : ∀ y, xs.head? = some y → m.liveN y = true := fun y hy => by rw [r.liveN]; exact r.node _ _ e y (head_mem hy)
  have hm : moveList m old new = some (wr (wpIf (wr m (.first new) xs.head?) xs.head? (some (.first new))) (.first old) none) := by
    simp only [moveList, get_ok (r.liveS_first e), chain_head (r.chain _ _ e), Option.bind_eq_bind, Option.bind_some]
    rw [set_ok _ hlH, Option.bind_some, get_ok (by simpa using hlH), Option.bind_some]
    simp only [wr_ptr, upd_same]
    rw [setPprevIf_ok _ (by simpa using hy), Option.bind_some]
    exact set_ok _ (by simpa using r.liveS_first e)
  refine ⟨_, hm, ?_⟩
  generalize hm' : wr (wpIf (wr m (.first new) xs.head?) xs.head? (some (.first new))) (.first old) none = m'
  have p1 : m'.liveH = m.liveH := by subst hm'; simp
  have p2 : m'.liveN = m.liveN := by subst hm'; simp
  have p3 : m'.ptr (.first old) = none := by subst hm'; simp [upd_same]
  have p4 : m'.ptr (.first new) = xs.head? := by subst hm'; simp [upd_other _ _ hne'.symm, upd_same]
  have p5 : ∀ t, t ≠ .first old → t ≠ .first new → m'.ptr t = m.ptr t := by
    intro t h1 h2; subst hm'; simp [upd_other _ _ h1, upd_other _ _ h2]
  have p6 : ∀ y, xs.head? = some y → m'.pprev y = some (.first new) := by
    intro y hy; subst hm'; exact wpIf_at _ _ _ hy
  have p7 : ∀ y, xs.head? ≠ some y → m'.pprev y = m.pprev y := by
    intro y hy; subst hm'; exact wpIf_not _ _ _ hy
  clear hm hm'
  have lists : ∀ k zs, upd (upd a.lists new (some xs)) old (some []) k = some zs → zs = [] ∧ k = old ∨ zs = xs ∧ k = new ∨ k ≠ old ∧ k ≠ new ∧ a.lists k = some zs := by
    intro k zs hk
    rcases upd_eq hk with ⟨h1, e1⟩ | ⟨h1, e1⟩
    · cases e1; exact .inl ⟨rfl, h1⟩
    · rcases upd_eq e1 with ⟨h2, e2⟩ | ⟨h2, e2⟩
      · cases e2; exact .inr (.inl ⟨rfl, h2⟩)
      · exact .inr (.inr ⟨h1, h2, e2⟩)
  have free : ∀ n, a.Free n → Abs.Free { a with lists := upd (upd a.lists new (some xs)) old (some []) } n := by
    intro n hn k zs hk
    rcases lists k zs hk with ⟨rfl, _⟩ | ⟨rfl, _⟩ | ⟨_, _, e'⟩
    · simp
    · exact hn _ _ e
    · exact hn _ _ e'
  have same : ∀ n, a.Free n → m'.pprev n = m.pprev n ∧ m'.ptr (.next n) = m.ptr (.next n) := fun n hn =>
    ⟨p7 n fun h => hn _ _ e (head_mem h), p5 _ first_ne_next.symm first_ne_next.symm⟩
  refine ⟨p1.trans r.liveH, p2.trans r.liveN, fun k zs hk => ?_, fun k zs hk x hx => ?_, fun k zs hk => ?_, fun k zs hk => ?_, fun k l zs ws hk hl' hkl x hx hx' => ?_,
    fun n hn => ?_, fun n hn => ?_⟩
  · rcases lists k zs hk with ⟨_, rfl⟩ | ⟨_, rfl⟩ | ⟨_, _, e'⟩
    · exact r.head _ _ e
    · exact hl
    · exact r.head _ _ e'
  · rcases lists k zs hk with ⟨rfl, _⟩ | ⟨rfl, _⟩ | ⟨_, _, e'⟩
    · cases hx
    · exact r.node _ _ e x hx
    · exact r.node _ _ e' x hx
  · rcases lists k zs hk with ⟨rfl, _⟩ | ⟨rfl, _⟩ | ⟨_, _, e'⟩
    · exact List.nodup_nil
    · exact r.nodup _ _ e
    · exact r.nodup _ _ e'
  · rcases lists k zs hk with ⟨rfl, rfl⟩ | ⟨rfl, rfl⟩ | ⟨k1, k2, e'⟩
    · exact p3
    · have c := r.chain _ _ e
      cases zs with
      | nil => exact p4
      | cons y ys =>
        have d := List.nodup_cons.1 (r.nodup _ _ e)
        refine ⟨p4, p6 y rfl, chain_congr (p5 _ first_ne_next.symm first_ne_next.symm) (fun x hx => ⟨p5 _ first_ne_next.symm first_ne_next.symm, p7 x ?_⟩) c.2.2⟩
        intro h; cases h; exact d.1 hx
    · refine chain_congr (p5 _ (fun h => by cases h; exact k1 rfl) (fun h => by cases h; exact k2 rfl))
        (fun x hx => ⟨p5 _ first_ne_next.symm first_ne_next.symm, p7 x fun h => k1 (r.own e' e hx (head_mem h))⟩) (r.chain _ _ e')
  · rcases lists k zs hk with ⟨rfl, rfl⟩ | ⟨rfl, rfl⟩ | ⟨k1, k2, e1⟩
    · cases hx
    · rcases lists l ws hl' with ⟨rfl, rfl⟩ | ⟨rfl, rfl⟩ | ⟨l1, l2, e2⟩
      · cases hx'
      · exact hkl rfl
      · exact l1 (r.own e2 e hx' hx)
    · rcases lists l ws hl' with ⟨rfl, rfl⟩ | ⟨rfl, rfl⟩ | ⟨l1, l2, e2⟩
      · cases hx'
      · exact k1 (r.own e1 e hx hx')
      · exact hkl (r.own e1 e2 hx hx')
  · obtain ⟨i1, i2, i3, i4⟩ := r.idle n hn
    exact ⟨i1, free n i2, (same n i2).1.trans i3, (same n i2).2.trans i4⟩
  · obtain ⟨i1, i2, i3, i4⟩ := r.fake n hn
    exact ⟨i1, free n i2, (same n i2).1.trans i3, (same n i2).2.trans i4⟩

theorem endSlot_snoc : ∀ (xs : List Nat) (s : Slot) (x : Nat), endSlot s (xs ++ [x]) = .next x
  | [], _, _ => rfl
  | y :: ys, _, x => endSlot_snoc ys (.next y) x

/-- **Each operation does what it is for**, and touches memory that lives only -/
theorem hlist_step {o : Op} {a' : Abs} (r : Rep lh ln m a) (h : Step lh ln a o a') : ∃ m', exec m o = some m' ∧ Rep lh ln m' a' := by
  cases h with
  | initHead h hl => exact step_initHead r hl
  | initNode n hl hn =>
    have hlN : m.liveN n = true := by rw [r.liveN]; exact hl
    refine ⟨_, initNode_ok hlN, r.lone (i := true) (f := false) hl hn rfl rfl ?_ ?_ (fun _ => ⟨upd_same _ _ _, upd_same _ _ _⟩) (fun h => by cases h)⟩
    · exact fun t ht => upd_other _ _ ht
    · exact fun x hx => upd_other _ _ hx
  | addHead n h xs hl hn e =>
    obtain ⟨m', h1, h2⟩ := step_addHead r hl hn e
    exact ⟨m', h1, r.inserted (xs := []) hl hn e h2⟩
  | addBefore n x h xs ys hl hn e =>
    obtain ⟨m', h1, h2⟩ := step_addBefore r hl hn e
    exact ⟨m', h1, r.inserted (ys := x :: ys) hl hn e h2⟩
  | addBehind n x h xs ys hl hn e =>
    obtain ⟨m', h1, h2⟩ := step_addBehind r hl hn e
    have e' : a.lists h = some ((xs ++ [x]) ++ ys) := by simpa using e
    refine ⟨m', h1, ?_⟩
    have := r.inserted (xs := xs ++ [x]) hl hn e' (by rw [endSlot_snoc]; exact h2)
    simpa using this
  | addFake n hi =>
    obtain ⟨i1, i2, i3, i4⟩ := r.idle n hi
    have hlN : m.liveN n = true := by rw [r.liveN]; exact i1
    refine ⟨_, setPprev_ok _ hlN, r.lone (i := false) (f := true) i1 i2 rfl rfl (fun _ _ => rfl) (fun x hx => upd_other _ _ hx) (fun h => by cases h) (fun _ => ⟨upd_same _ _ _, i4⟩)⟩
  | del n h xs ys e => exact step_del r e
  | delFake n hf =>
    obtain ⟨i1, i2, i3, i4⟩ := r.fake n hf
    have hlN : m.liveN n = true := by rw [r.liveN]; exact i1
    refine ⟨wp (wr (wr m (.next n) none) (.next n) (some poison1)) n (some poison2), ?_, ?_⟩
    · simp only [exec, del, rawDel_fake r hf, Option.bind_eq_bind, Option.bind_some]
      rw [set_ok _ (by simpa using r.liveS_next i1), Option.bind_some]
      exact setPprev_ok _ (by simpa using hlN)
    · have hid : upd a.idle n false = a.idle := by
        funext x
        by_cases h : x = n
        · rw [h, upd_same]
          cases hb : a.idle n with
          | false => rfl
          | true =>
            have := (r.idle n hb).2.2.1
            rw [i3] at this; cases this
        · exact upd_other _ _ h
      have := r.lone (m' := wp (wr (wr m (.next n) none) (.next n) (some poison1)) n (some poison2)) (i := false) (f := false) i1 i2 rfl rfl
        (fun t ht => by simp [upd_other _ _ ht]) (fun x hx => upd_other _ _ hx) (fun h => by cases h) (fun h => by cases h)
      rwa [hid] at this
  | delInit n h xs ys e => exact step_delInit r e
  | delInitFake n hf =>
    obtain ⟨i1, i2, i3, i4⟩ := r.fake n hf
    have hlN : m.liveN n = true := by rw [r.liveN]; exact i1
    refine ⟨wp (wr (wr m (.next n) none) (.next n) none) n none, ?_, ?_⟩
    · have h3 : (wr m (.next n) none).liveN n = true := hlN
      simp [exec, delInit, unhashed, getPprev_ok hlN, i3, rawDel_fake r hf, initNode_ok h3]
    · exact r.lone (i := true) (f := false) i1 i2 rfl rfl (fun t ht => by simp [upd_other _ _ ht]) (fun x hx => upd_other _ _ hx) (fun _ => ⟨upd_same _ _ _, upd_same _ _ _⟩) (fun h => by cases h)
  | delInitAgain n hi =>
    obtain ⟨i1, i2, i3, i4⟩ := r.idle n hi
    have hlN : m.liveN n = true := by rw [r.liveN]; exact i1
    exact ⟨m, by simp [exec, delInit, unhashed, getPprev_ok hlN, i3], r⟩
  | moveList old new xs hne e hl => exact step_moveList r hne e hl

/-- operations one after the other -/
inductive Steps (lh ln : Nat → Bool) : Abs → List Op → Abs → Prop
  | nil (a : Abs) : Steps lh ln a [] a
  | cons (a a' a'' : Abs) (o : Op) (os : List Op) : Step lh ln a o a' → Steps lh ln a' os a'' → Steps lh ln a (o :: os) a''

/-- **Any number of lists, any operations** -/
theorem hlist_run {os : List Op} {a' : Abs} (h : Steps lh ln a os a') : ∀ {m : Mem}, Rep lh ln m a → ∃ m', execAll m os = some m' ∧ Rep lh ln m' a' := by
  induction h with
  | nil => exact fun {m} r => ⟨m, rfl, r⟩
  | cons a a1 a2 o os h1 _ ih =>
    intro m r
    obtain ⟨m1, e1, r1⟩ := hlist_step r h1
    obtain ⟨m2, e2, r2⟩ := ih r1
    exact ⟨m2, by simp [execAll, e1, e2], r2⟩

/-- nothing is known of memory in the beginning -/
theorem hlist_start (m : Mem) : Rep m.liveH m.liveN m ⟨fun _ => none, fun _ => false, fun _ => false⟩ :=
  ⟨rfl, rfl, (fun _ _ h => by cases h), (fun _ _ h => by cases h), (fun _ _ h => by cases h), (fun _ _ h => by cases h), (fun _ _ _ _ h => by cases h), (fun _ h => by cases h), (fun _ h => by cases h)⟩

end Verif.Hlist
