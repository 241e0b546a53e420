import Verif.Msgb.Model
/-!
Model of src/core/write_queue.c.

Messages are values of any type; the list inside is a `List` (`llist_*` as in
the model of msgb.c).  Of `bfd.when` only OSMO_FD_WRITE is kept.  Callbacks are
scripts: the operations they perform on the queue, then their return value.
What happens to messages is recorded in `log`.
-/
namespace Verif.Queue

open Verif.Msgb (enqueueCount dequeueCount)

/-- What happens to a message. -/
inductive Ev (α : Type) where
  | accepted (x : α) | rejected (x : α) | written (x : α) | again (x : α) | dropped (x : α)
deriving Repr, DecidableEq

/-- include/osmocom/core/write_queue.h:30-47 `struct osmo_wqueue` -/
structure WQ (α : Type) where
  max : BitVec 32
  cur : BitVec 32
  q : List α
  wr : Bool
  log : List (Ev α)
deriving Repr, DecidableEq

/-- src/core/write_queue.c:91-100 `osmo_wqueue_init`; `bfd.when` is not touched and 0 here. -/
def wqInit {α} (max : BitVec 32) : WQ α := { max := max, cur := 0, q := [], wr := false, log := [] }

def ENOSPC : Int := 28
def EBADF : Int := 9
def EAGAIN : Int := 11

/-- src/core/write_queue.c:107-116 `osmo_wqueue_enqueue_quiet` -/
def wqEnqueueQuiet {α} (w : WQ α) (x : α) : WQ α × Int :=
  if w.cur ≥ w.max then ({ w with log := w.log ++ [.rejected x] }, -ENOSPC)
  else
    let r := enqueueCount (w.q, w.cur) x
    ({ w with q := r.1, cur := r.2, wr := true, log := w.log ++ [.accepted x] }, 0)

/-- src/core/write_queue.c:123-132 `osmo_wqueue_enqueue`, without the log message -/
def wqEnqueue {α} (w : WQ α) (x : α) : WQ α × Int :=
  if w.cur ≥ w.max then ({ w with log := w.log ++ [.rejected x] }, -ENOSPC) else wqEnqueueQuiet w x

/-- src/core/write_queue.c:139-148 `osmo_wqueue_clear` -/
def wqClear {α} (w : WQ α) : WQ α :=
  { w with q := [], cur := 0, wr := false, log := w.log ++ w.q.map .dropped }

/-- src/core/write_queue.c:162-166: the loop; `none` when it would go on with an
empty queue. -/
def trimLoop {α} : Nat → WQ α → Nat → Option (WQ α × Nat)
  | 0, w, d => if w.cur > w.max then none else some (w, d)
  | n + 1, w, d =>
    if w.cur > w.max then
      match dequeueCount (w.q, w.cur) with
      | (some x, r) => trimLoop n { w with q := r.1, cur := r.2, log := w.log ++ [.dropped x] } (d + 1)
      | (none, _) => none
    else some (w, d)

/-- src/core/write_queue.c:157-168 `osmo_wqueue_set_maxlen` -/
def wqSetMaxlen {α} (w : WQ α) (len : BitVec 32) : Option (WQ α × Nat) :=
  trimLoop w.q.length { w with max := len } 0

/-- What a callback may do with the queue. -/
inductive Act (α : Type) where
  | enq (x : α) | clear | setMax (len : BitVec 32)
deriving Repr, DecidableEq

def act {α} (w : WQ α) : Act α → Option (WQ α)
  | .enq x => some (wqEnqueue w x).1
  | .clear => some (wqClear w)
  | .setMax len => (wqSetMaxlen w len).map (·.1)

def acts {α} (w : WQ α) : List (Act α) → Option (WQ α)
  | [] => some w
  | a :: as => (act w a).bind (fun w => acts w as)

/-- A callback: operations and return value. -/
structure Cb (α : Type) where
  script : List (Act α)
  rc : Int
deriving Repr, DecidableEq

/-- src/core/write_queue.c:58-80: the descriptor is writable. -/
def wqWrite {α} (w : WQ α) (cb : Cb α) : Option (WQ α) :=
  match dequeueCount (w.q, w.cur) with
  | (none, _) => some { w with wr := false }
  | (some x, r) =>
    (acts { w with q := r.1, cur := r.2, wr := false } cb.script).map (fun w =>
      if cb.rc = -EBADF then { w with log := w.log ++ [.written x] }
      else
        let w : WQ α :=
          if cb.rc = -EAGAIN then { w with q := x :: w.q, cur := w.cur + 1#32, log := w.log ++ [.again x] }
          else { w with log := w.log ++ [.written x] }
        if w.q ≠ [] then { w with wr := true } else w)

/-- src/core/write_queue.c:46-56: the read or except callback if its event is there, then the rest unless the descriptor is gone. -/
def callback {α} (w : WQ α) (cb : Option (Cb α)) (next : WQ α → Option (WQ α)) : Option (WQ α) :=
  match cb with
  | none => next w
  | some cb => (acts w cb.script).bind (fun w => if cb.rc = -EBADF then some w else next w)

/-- src/core/write_queue.c:58-80: the write event, if it is there. -/
def writable {α} (w : WQ α) (cb : Option (Cb α)) : Option (WQ α) :=
  match cb with
  | none => some w
  | some cb => wqWrite w cb

/-- src/core/write_queue.c:39-85 `osmo_wqueue_bfd_cb`: `read`, `except` and `write` are the
callbacks if the event is in `what`. -/
def wqEvent {α} (w : WQ α) (read except write : Option (Cb α)) : Option (WQ α) :=
  callback w read (fun w => callback w except (fun w => writable w write))

/-- What the user and the select loop do. -/
inductive Op (α : Type) where
  | act (a : Act α)
  | event (read except write : Option (Cb α))
deriving Repr, DecidableEq

def runOp {α} (w : WQ α) : Op α → Option (WQ α)
  | .act a => act w a
  | .event r e wr => wqEvent w r e wr

def run {α} (w : WQ α) : List (Op α) → Option (WQ α)
  | [] => some w
  | o :: os => (runOp w o).bind (fun w => run w os)

/-! ### Invariant -/

/-- Messages that have been accepted, in order. -/
def accepted {α} : List (Ev α) → List α
  | [] => []
  | .accepted x :: l => x :: accepted l
  | _ :: l => accepted l

/-- Messages written, in order. -/
def written {α} : List (Ev α) → List α
  | [] => []
  | .written x :: l => x :: written l
  | _ :: l => written l

/-- Messages dropped. -/
def dropped {α} : List (Ev α) → List α
  | [] => []
  | .dropped x :: l => x :: dropped l
  | _ :: l => dropped l

theorem accepted_append {α} (a b : List (Ev α)) : accepted (a ++ b) = accepted a ++ accepted b := by
  induction a with
  | nil => rfl
  | cons e a ih => cases e <;> simp [accepted, ih]

theorem written_append {α} (a b : List (Ev α)) : written (a ++ b) = written a ++ written b := by
  induction a with
  | nil => rfl
  | cons e a ih => cases e <;> simp [written, ih]

theorem dropped_append {α} (a b : List (Ev α)) : dropped (a ++ b) = dropped a ++ dropped b := by
  induction a with
  | nil => rfl
  | cons e a ih => cases e <;> simp [dropped, ih]

theorem accepted_dropped {α} (l : List α) : accepted (l.map Ev.dropped) = [] := by
  induction l with
  | nil => rfl
  | cons x l ih => simpa [accepted] using ih

theorem written_dropped {α} (l : List α) : written (l.map Ev.dropped) = [] := by
  induction l with
  | nil => rfl
  | cons x l ih => simpa [written] using ih

theorem dropped_dropped {α} (l : List α) : dropped (l.map Ev.dropped) = l := by
  induction l with
  | nil => rfl
  | cons x l ih => simp [dropped, ih]

/-- What holds of a queue with `fly` messages in the hands of a write callback and room for `slack` more than the maximum. -/
structure WInv {α} (fly : List α) (slack : Nat) (w : WQ α) : Prop where
  count : w.cur.toNat = w.q.length
  le : w.q.length ≤ w.max.toNat + slack
  perm : (accepted w.log).Perm (written w.log ++ dropped w.log ++ fly ++ w.q)

theorem setMax_inv {α} (fly : List α) : ∀ (n : Nat) (w : WQ α) (d : Nat), w.q.length ≤ n → w.cur.toNat = w.q.length →
    (accepted w.log).Perm (written w.log ++ dropped w.log ++ fly ++ w.q) →
    ∃ w' d', trimLoop n w d = some (w', d') ∧ WInv fly 0 w' ∧ w'.max = w.max ∧ w'.wr = w.wr ∧ d' + w'.q.length = d + w.q.length ∧
      (∃ k, w'.q = w.q.drop k ∧ w'.log = w.log ++ (w.q.take k).map .dropped) := by
  intro n
  induction n with
  | zero =>
    intro w d hn hc hp
    have : w.q = [] := List.length_eq_zero_iff.mp (by omega)
    have h0 : ¬ w.cur > w.max := by
      intro h
      have : w.max.toNat < w.cur.toNat := h
      omega
    refine ⟨w, d, by rw [trimLoop, if_neg h0], ⟨hc, ?_, hp⟩, rfl, rfl, rfl, 0, by simp, by simp⟩
    rw [this]; simp
  | succ n ih =>
    intro w d hn hc hp
    unfold trimLoop
    by_cases h0 : w.cur > w.max
    · rw [if_pos h0]
      have hgt : w.max.toNat < w.cur.toNat := h0
      cases hq : w.q with
      | nil => rw [hq, List.length_nil] at hc; omega
      | cons x l =>
        simp only [dequeueCount, Verif.Msgb.dequeue]
        have hlt := w.cur.isLt
        have hc' : (w.cur - 1#32).toNat = l.length := by
          rw [hq, List.length_cons] at hc
          rw [BitVec.toNat_sub]
          simp only [BitVec.toNat_ofNat]
          omega
        obtain ⟨w', d', e1, e2, e3, e4, e5, k, e6, e7⟩ := ih { w with q := l, cur := w.cur - 1#32, log := w.log ++ [.dropped x] } (d + 1)
          (by rw [hq, List.length_cons] at hn; simp only; omega) hc' (by
            simp only [accepted_append, written_append, dropped_append, accepted, written, dropped, List.append_nil]
            rw [hq] at hp
            refine hp.trans ?_
            simp only [List.append_assoc]
            refine List.Perm.append_left _ (List.Perm.append_left _ ?_)
            exact List.perm_middle)
        refine ⟨w', d', e1, e2, e3, e4, ?_, k + 1, by rw [e6]; rfl, ?_⟩
        · simp only [List.length_cons] at e5 ⊢
          omega
        · rw [e7]
          simp
    · rw [if_neg h0]
      refine ⟨w, d, rfl, ⟨hc, ?_, hp⟩, rfl, rfl, rfl, 0, by simp, by simp⟩
      have : ¬ w.max.toNat < w.cur.toNat := h0
      omega

theorem enqueue_eq {α} (w : WQ α) (x : α) : wqEnqueue w x = wqEnqueueQuiet w x := by
  unfold wqEnqueue wqEnqueueQuiet
  split <;> rfl

theorem enq_inv {α} (fly : List α) (slack : Nat) (w : WQ α) (x : α) (h : WInv fly slack w) : WInv fly slack (wqEnqueue w x).1 := by
  obtain ⟨h1, h2, h3⟩ := h
  rw [enqueue_eq]
  unfold wqEnqueueQuiet
  split
  · exact ⟨h1, h2, by simpa [accepted_append, written_append, dropped_append, accepted, written, dropped] using h3⟩
  · next hlt =>
    have hlt : w.cur.toNat < w.max.toNat := by
      have : ¬ w.max.toNat ≤ w.cur.toNat := hlt
      omega
    have := w.max.isLt
    refine ⟨?_, ?_, ?_⟩
    · simp only [enqueueCount, Verif.Msgb.enqueue, List.length_append, List.length_singleton, BitVec.toNat_add, BitVec.toNat_ofNat]
      omega
    · simp only [enqueueCount, Verif.Msgb.enqueue, List.length_append, List.length_singleton]
      omega
    · simp only [enqueueCount, Verif.Msgb.enqueue, accepted_append, written_append, dropped_append, accepted, written, dropped, List.append_nil]
      rw [← List.append_assoc]
      exact h3.append_right [x]

theorem act_inv {α} (fly : List α) (slack : Nat) (w : WQ α) (a : Act α) (h : WInv fly slack w) : ∃ w', act w a = some w' ∧ WInv fly slack w' := by
  cases a with
  | enq x => exact ⟨_, rfl, enq_inv fly slack w x h⟩
  | clear =>
    refine ⟨_, rfl, ⟨rfl, by simp [wqClear], ?_⟩⟩
    simp only [wqClear, accepted_append, written_append, dropped_append, accepted_dropped, written_dropped, dropped_dropped, List.append_nil, List.append_assoc]
    refine h.perm.trans ?_
    simp only [List.append_assoc]
    exact List.Perm.append_left _ (List.Perm.append_left _ List.perm_append_comm)
  | setMax len =>
    obtain ⟨w', d', e1, ⟨e2, e2', e2''⟩, _⟩ := setMax_inv fly w.q.length { w with max := len } 0 (Nat.le_refl _) h.count h.perm
    exact ⟨w', by simp only [act, wqSetMaxlen, e1, Option.map_some], ⟨e2, by omega, e2''⟩⟩

theorem acts_inv {α} (fly : List α) (slack : Nat) (as : List (Act α)) : ∀ w : WQ α, WInv fly slack w → ∃ w', acts w as = some w' ∧ WInv fly slack w' := by
  induction as with
  | nil => intro w h; exact ⟨w, rfl, h⟩
  | cons a as ih =>
    intro w h
    obtain ⟨w1, e1, e2⟩ := act_inv fly slack w a h
    obtain ⟨w2, f1, f2⟩ := ih w1 e2
    exact ⟨w2, by rw [acts, e1, Option.bind_some, f1], f2⟩

theorem deq_cons {α} (w : WQ α) (x : α) (l : List α) (hq : w.q = x :: l) (h : w.cur.toNat = w.q.length) :
    dequeueCount (w.q, w.cur) = (some x, l, w.cur - 1#32) ∧ (w.cur - 1#32).toNat = l.length := by
  refine ⟨by rw [hq]; rfl, ?_⟩
  have hlt := w.cur.isLt
  rw [hq, List.length_cons] at h
  rw [BitVec.toNat_sub]
  simp only [BitVec.toNat_ofNat]
  omega

theorem write_inv {α} (w : WQ α) (cb : Cb α) (slack : Nat) (hs : slack = 1 ∨ (slack = 0 ∧ (cb.rc = -EAGAIN → cb.script = [])))
    (hm : w.max.toNat + 1 < 2 ^ 32) (hm' : ∀ len, Act.setMax len ∈ cb.script → len.toNat + 1 < 2 ^ 32) (h : WInv [] slack w) :
    ∃ w', wqWrite w cb = some w' ∧ WInv [] slack w' := by
  unfold wqWrite
  cases hq : w.q with
  | nil =>
    refine ⟨_, rfl, ⟨?_, ?_, ?_⟩⟩
    · simpa [hq] using h.count
    · simp [hq]
    · simpa [hq] using h.perm
  | cons x l =>
    obtain ⟨d1, d2⟩ := deq_cons w x l hq h.count
    rw [hq] at d1
    rw [d1]
    dsimp only
    have hl := h.le
    rw [hq, List.length_cons] at hl
    have hp : (accepted w.log).Perm (written w.log ++ dropped w.log ++ [x] ++ l) := by
      have := h.perm
      rw [hq] at this
      simpa using this
    have hi : WInv [x] 0 { w with q := l, cur := w.cur - 1#32, wr := false } ∨ slack = 0 := by
      rcases hs with rfl | ⟨rfl, _⟩
      · exact Or.inl ⟨d2, by simp only; omega, hp⟩
      · exact Or.inr rfl
    have hi0 : WInv [x] 0 { w with q := l, cur := w.cur - 1#32, wr := false } := ⟨d2, by rcases hs with rfl | ⟨rfl, _⟩ <;> simp only <;> omega, hp⟩
    obtain ⟨w1, e1, e2⟩ := acts_inv [x] 0 cb.script _ hi0
    rw [e1, Option.map_some]
    refine ⟨_, rfl, ?_⟩
    obtain ⟨g1, g2, g3⟩ := e2
    -- written
    have hwr : WInv [] slack { w1 with log := w1.log ++ [.written x] } := by
      refine ⟨g1, by simp only; omega, ?_⟩
      simp only [accepted_append, written_append, dropped_append, accepted, written, dropped, List.append_nil]
      refine g3.trans ?_
      simp only [List.append_assoc]
      refine List.Perm.append_left _ ?_
      rw [← List.append_assoc, ← List.append_assoc]
      exact List.Perm.append_right _ List.perm_append_comm
    have hset : ∀ v : WQ α, WInv [] slack v → WInv [] slack (if v.q ≠ [] then { v with wr := true } else v) := by
      intro v hv
      split
      · exact ⟨hv.count, hv.le, hv.perm⟩
      · exact hv
    split
    · exact hwr
    · refine hset _ ?_
      split
      · next ha =>
        have hmax : w1.max.toNat + 1 < 2 ^ 32 := by
          clear hset hwr hi hi0 g1 g2 g3 d1 hp hl
          have key : ∀ (as : List (Act α)) (v v' : WQ α), v.max.toNat + 1 < 2 ^ 32 → (∀ len, Act.setMax len ∈ as → len.toNat + 1 < 2 ^ 32) → acts v as = some v' →
              v'.max.toNat + 1 < 2 ^ 32 := by
            intro as
            induction as with
            | nil => intro v v' h1 _ h3; cases h3; exact h1
            | cons a as ih =>
              intro v v' h1 h2 h3
              rw [acts] at h3
              cases hv : act v a with
              | none => rw [hv] at h3; cases h3
              | some u =>
                rw [hv, Option.bind_some] at h3
                refine ih u v' ?_ (fun len hl => h2 len (List.mem_cons_of_mem _ hl)) h3
                cases a with
                | enq y =>
                  rw [act, enqueue_eq, wqEnqueueQuiet] at hv
                  split at hv <;> cases hv <;> exact h1
                | clear => cases hv; exact h1
                | setMax len =>
                  have hlen := h2 len List.mem_cons_self
                  have trim : ∀ (n : Nat) (v : WQ α) (d : Nat) (r : WQ α × Nat), trimLoop n v d = some r → r.1.max = v.max := by
                    intro n
                    induction n with
                    | zero =>
                      intro v d r hr
                      rw [trimLoop] at hr
                      split at hr
                      · cases hr
                      · cases hr; rfl
                    | succ n ih =>
                      intro v d r hr
                      rw [trimLoop] at hr
                      split at hr
                      · split at hr
                        · have := ih _ _ r hr; exact this
                        · cases hr
                      · cases hr; rfl
                  rw [act] at hv
                  cases ht : wqSetMaxlen v len with
                  | none => rw [ht] at hv; cases hv
                  | some r =>
                    rw [ht] at hv
                    cases hv
                    have := trim _ _ _ _ ht
                    rw [this]
                    exact hlen
          have := key cb.script _ w1 (by exact hm) hm' e1; exact this
        refine ⟨?_, ?_, ?_⟩
        · simp only [List.length_cons, BitVec.toNat_add, BitVec.toNat_ofNat]
          omega
        · simp only [List.length_cons]
          rcases hs with rfl | ⟨rfl, hs⟩
          · omega
          · rw [hs ha] at e1
            cases e1
            simp only at g2 ⊢
            omega
        · simp only [accepted_append, written_append, dropped_append, accepted, written, dropped, List.append_nil]
          simpa using g3
      · exact hwr

end Verif.Queue
