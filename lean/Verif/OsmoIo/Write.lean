import Verif.OsmoIo.Read
/-!
Model of the write side of src/core/osmo_io.c with the poll backend src/core/osmo_io_poll.c, and its properties.
-/
namespace Verif.OsmoIo

/-! ### Model -/

/-- src/core/osmo_io_internal.h:124-145 `struct iofd_msghdr` of a message: the bytes it had when it was written, the offset of
`msg->data` among them, and the `iovec` as offset and length -/
structure Hdr where
  buf : List Byte
  data : Nat
  iovBase : Nat
  iovLen : Nat
deriving DecidableEq, Repr

/-- How a message ended: with what result, or dropped from the queue. -/
inductive End where
  | done (rc : Int)
  | dropped
deriving DecidableEq, Repr

/-- What src/core/osmo_io_internal.h:52-111 `struct osmo_io_fd` has for writing.  `wr` is whether OSMO_FD_WRITE is set.  Besides it:
the messages accepted so far, the messages ended and how, and the bytes that the kernel got. -/
structure Wr where
  q : List Hdr
  cur : Nat
  max : Nat
  wr : Bool
  closed : Bool
  registered : Bool
  accepted : List (List Byte)
  ended : List (List Byte × End)
  sent : List Byte
deriving DecidableEq, Repr

/-- errno -/
def ENOSPC : Int := 28
/-- errno -/
def EINVAL : Int := 22

/-- src/core/osmo_io.c:210-222 `iofd_txqueue_enqueue` -/
def enqueue (w : Wr) (h : Hdr) : Wr × Int :=
  if w.cur ≥ w.max then (w, -ENOSPC)
  else
    let w := { w with q := w.q ++ [h], cur := w.cur + 1 }
    (if w.cur = 1 ∧ w.closed = false then { w with wr := true } else w, 0)

/-- src/core/osmo_io.c:231-238 `iofd_txqueue_enqueue_front` -/
def enqueueFront (w : Wr) (h : Hdr) : Wr :=
  let w := { w with q := h :: w.q, cur := w.cur + 1 }
  if w.cur = 1 ∧ w.closed = false then { w with wr := true } else w

/-- src/core/osmo_io.c:245-262 `iofd_txqueue_dequeue`; `none` in the list cannot be (see the invariant) -/
def dequeue (w : Wr) : Wr × Option Hdr :=
  if w.cur = 0 then (w, none)
  else
    match w.q with
    | [] => (w, none)
    | h :: q =>
      let w := { w with q := q, cur := w.cur - 1 }
      (if w.cur = 0 then { w with wr := false } else w, some h)

/-- src/core/osmo_io.c:438-467 `osmo_iofd_write_msgb` -/
def writeMsg (w : Wr) (m : List Byte) : Wr × Int :=
  if m = [] then (w, -EINVAL)
  else
    let r := enqueue w ⟨m, 0, 0, m.length⟩
    if r.2 < 0 then (w, r.2) else ({ r.1 with accepted := r.1.accepted ++ [m] }, 0)

/-- src/core/osmo_io.c:791-798 `osmo_iofd_txqueue_clear`, at most `fuel` times -/
def clear : Nat → Wr → Wr
  | 0, w => w
  | fuel + 1, w =>
    match dequeue w with
    | (w, none) => w
    | (w, some h) => clear fuel { w with ended := w.ended ++ [(h.buf, .dropped)] }

/-- src/core/osmo_io.c:832-850 `osmo_iofd_close` -/
def close (w : Wr) : Wr :=
  if w.closed then w
  else
    let w := { w with closed := true }
    { clear (w.q.length + 1) w with registered := false }

/-- src/core/osmo_io.c:735-762 `osmo_iofd_register` with src/core/osmo_io_poll.c:126-138 `iofd_poll_register` (with a file
descriptor): setting up afresh clears OSMO_FD_WRITE -/
def register (w : Wr) : Wr :=
  let w := if w.registered then w else { w with registered := true, wr := false }
  let w := { w with closed := false }
  if w.cur > 0 then { w with wr := true } else w

/-- What a callback of the application may do. -/
inductive CbOp where
  | write (m : List Byte)
  | close
deriving DecidableEq, Repr

/-- what the application does in a callback -/
def cbOp (w : Wr) : CbOp → Wr
  | .write m => (writeMsg w m).1
  | .close => close w

/-- src/core/osmo_io.c:381-420 `iofd_handle_send_completion`; a message has ended when the callback is called -/
def sendCompletion (w : Wr) (h : Hdr) (rc : Int) (cb : List CbOp) : Wr :=
  if rc > 0 ∧ rc < (h.buf.length - h.data : Nat) then
    let data := h.data + rc.toNat
    enqueueFront w { h with data := data, iovLen := h.buf.length - data }
  else if rc = -EAGAIN then enqueueFront w h
  else
    cb.foldl cbOp { w with ended := w.ended ++ [(h.buf, .done rc)] }

/-- src/core/osmo_io_poll.c:83-107: the file descriptor is writable, `sendmsg` returns `rc` and the callback does `cb`.  `none`: not
called, as OSMO_FD_WRITE is not set, or more is sent than asked for -/
def writable (w : Wr) (rc : Int) (cb : List CbOp) : Option Wr :=
  if w.wr = false ∨ w.closed then none
  else
    match dequeue w with
    | (w, some h) =>
      if rc > h.iovLen then none
      else
        let w := { w with sent := w.sent ++ ((h.buf.drop h.iovBase).take h.iovLen).take rc.toNat }
        some (sendCompletion w h rc cb)
    | (w, none) =>
      let w := cb.foldl cbOp w
      some (if w.cur = 0 then { w with wr := false } else w)

/-- src/core/osmo_io_poll.c:180-188 `iofd_poll_notify_connected` -/
def notifyConnected (w : Wr) : Wr :=
  { (if w.registered then w else { w with registered := true, wr := false }) with wr := true }

/-- What can happen. -/
inductive Op where
  | write (m : List Byte)
  | writable (rc : Int) (cb : List CbOp)
  | clear
  | close
  | register
  | notifyConnected
deriving DecidableEq, Repr

/-- one step; what cannot happen changes nothing -/
def step (w : Wr) : Op → Wr
  | .write m => (writeMsg w m).1
  | .writable rc cb => (writable w rc cb).getD w
  | .clear => clear (w.q.length + 1) w
  | .close => close w
  | .register => register w
  | .notifyConnected => if w.closed then w else notifyConnected w

/-- src/core/osmo_io.c:656-703 `osmo_iofd_setup`; `max` is 1024 unless changed -/
def init (max : Nat) : Wr := ⟨[], 0, max, false, true, false, [], [], []⟩

/-! ### Invariant -/

/-- What holds always: the count is right, the queue is bounded, accepted messages end in the order they were accepted, and a queue
that is not empty is waited for. -/
structure Inv (w : Wr) : Prop where
  cur : w.cur = w.q.length
  bound : w.q.length ≤ w.max
  heeded : w.q ≠ [] → w.closed = false → w.wr = true

/-- All accepted messages are the ended ones and then those in the queue, in this order. -/
def Fifo (w : Wr) : Prop := w.accepted = w.ended.map (·.1) ++ w.q.map (·.buf)

theorem enqueue_inv {w : Wr} (h : Inv w) (x : Hdr) : Inv (enqueue w x).1 := by
  unfold enqueue
  split
  · exact h
  · rename_i hc
    have := h.cur
    have h2 := h.bound
    dsimp only
    split
    · exact ⟨by simp [h.cur], by simp; omega, by simp⟩
    · rename_i hn
      refine ⟨by simp [h.cur], by simp; omega, fun _ hcl => ?_⟩
      dsimp only at hn hcl ⊢
      apply h.heeded _ hcl
      intro he
      rw [he] at this
      simp at this
      exact hn ⟨by omega, hcl⟩

theorem enqueueFront_inv {w : Wr} (h : Inv w) (hb : w.q.length < w.max) (x : Hdr) : Inv (enqueueFront w x) := by
  unfold enqueueFront
  have := h.cur
  dsimp only
  split
  · exact ⟨by simp [h.cur], by simp; omega, by simp⟩
  · rename_i hn
    refine ⟨by simp [h.cur], by simp; omega, fun _ hcl => ?_⟩
    dsimp only at hn hcl ⊢
    apply h.heeded _ hcl
    intro he
    rw [he] at this
    simp at this
    exact hn ⟨by omega, hcl⟩

theorem dequeue_cases {w : Wr} (h : Inv w) : (w.q = [] ∧ dequeue w = (w, none)) ∨
    ∃ x q, w.q = x :: q ∧ dequeue w = ({ w with q := q, cur := q.length, wr := if q.length = 0 then false else w.wr }, some x) := by
  have hcur := h.cur
  unfold dequeue
  cases hq : w.q with
  | nil =>
    left
    rw [hq] at hcur
    simp at hcur
    exact ⟨rfl, by rw [if_pos hcur]⟩
  | cons x q =>
    right
    rw [hq] at hcur
    simp at hcur
    refine ⟨x, q, rfl, ?_⟩
    rw [if_neg (by omega)]
    have e : w.cur - 1 = q.length := by omega
    simp only [e]
    split <;> rfl

theorem dequeue_inv {w : Wr} (h : Inv w) : Inv (dequeue w).1 := by
  rcases dequeue_cases h with ⟨-, e⟩ | ⟨x, q, hq, e⟩
  · rw [e]; exact h
  · rw [e]
    have hb := h.bound
    rw [hq] at hb
    simp at hb
    refine ⟨rfl, by dsimp only; omega, fun hne hc => ?_⟩
    dsimp only at hne hc ⊢
    rw [if_neg (fun h0 => hne (List.length_eq_zero_iff.mp h0))]
    exact h.heeded (by rw [hq]; simp) hc

theorem writeMsg_eq (w : Wr) (m : List Byte) : (writeMsg w m).1 = w ∨
    (w.cur < w.max ∧ (writeMsg w m).1 = { (enqueue w ⟨m, 0, 0, m.length⟩).1 with accepted := w.accepted ++ [m] } ∧
      (enqueue w ⟨m, 0, 0, m.length⟩).1.q = w.q ++ [⟨m, 0, 0, m.length⟩] ∧
      (enqueue w ⟨m, 0, 0, m.length⟩).1.ended = w.ended ∧ (enqueue w ⟨m, 0, 0, m.length⟩).1.sent = w.sent) := by
  unfold writeMsg
  by_cases hm : m = []
  · left; rw [if_pos hm]
  · rw [if_neg hm]
    by_cases hc : w.cur ≥ w.max
    · left
      unfold enqueue
      rw [if_pos hc]
      simp [ENOSPC]
    · right
      have e : (enqueue w ⟨m, 0, 0, m.length⟩).2 = 0 := by
        unfold enqueue; rw [if_neg hc]
      have e2 : (enqueue w ⟨m, 0, 0, m.length⟩).1.accepted = w.accepted := by
        unfold enqueue; rw [if_neg hc]; dsimp only; split <;> rfl
      refine ⟨by omega, ?_, ?_, ?_, ?_⟩
      · dsimp only
        rw [if_neg (by omega), e2]
      · unfold enqueue; rw [if_neg hc]; dsimp only; split <;> rfl
      · unfold enqueue; rw [if_neg hc]; dsimp only; split <;> rfl
      · unfold enqueue; rw [if_neg hc]; dsimp only; split <;> rfl

theorem writeMsg_inv {w : Wr} (h : Inv w) (m : List Byte) : Inv (writeMsg w m).1 := by
  rcases writeMsg_eq w m with e | ⟨-, e, -⟩
  · rw [e]; exact h
  · rw [e]
    have := enqueue_inv h ⟨m, 0, 0, m.length⟩
    exact ⟨this.cur, this.bound, this.heeded⟩

theorem writeMsg_fifo {w : Wr} (hf : Fifo w) (m : List Byte) : Fifo (writeMsg w m).1 := by
  rcases writeMsg_eq w m with e | ⟨-, e, e1, e2, -⟩
  · rw [e]; exact hf
  · rw [e]
    unfold Fifo at hf ⊢
    dsimp only
    rw [e1, e2, hf]
    simp

/-- a header whose message has not been sent in part -/
def Fresh (h : Hdr) : Prop := h = ⟨h.buf, 0, 0, h.buf.length⟩ ∧ h.buf ≠ []

/-- the bytes of the messages that ended with success -/
def okBytes (l : List (List Byte × End)) : List Byte :=
  (l.map fun e => match e.2 with | .done rc => if rc > 0 then e.1 else [] | .dropped => []).flatten

/-- no message is sent in part, and the kernel got those that ended with success -/
structure Clean (w : Wr) : Prop where
  fresh : ∀ h ∈ w.q, Fresh h
  sent : w.sent = okBytes w.ended

theorem okBytes_append (a b : List (List Byte × End)) : okBytes (a ++ b) = okBytes a ++ okBytes b := by
  simp [okBytes]

theorem okBytes_dropped (l : List Hdr) : okBytes (l.map fun h => (h.buf, End.dropped)) = [] := by
  induction l with
  | nil => rfl
  | cons a l ih =>
    rw [List.map_cons, ← List.singleton_append, okBytes_append, ih]
    rfl

theorem clear_spec (fuel : Nat) : ∀ w : Wr, Inv w → w.q.length < fuel →
    Inv (clear fuel w) ∧ (clear fuel w).q = [] ∧ (clear fuel w).closed = w.closed ∧ (clear fuel w).sent = w.sent ∧
      (clear fuel w).accepted = w.accepted ∧ (clear fuel w).ended = w.ended ++ w.q.map (fun h => (h.buf, End.dropped)) := by
  induction fuel with
  | zero => intro w _ h; omega
  | succ fuel ih =>
    intro w h hl
    unfold clear
    have hi := dequeue_inv h
    rcases dequeue_cases h with ⟨hq, e⟩ | ⟨x, q, hq, e⟩
    · rw [e]
      dsimp only
      exact ⟨h, hq, rfl, rfl, rfl, by simp [hq]⟩
    · rw [e] at hi ⊢
      dsimp only
      rw [hq] at hl
      simp at hl
      obtain ⟨a, b, c, d, e, f⟩ := ih { w with
              q := q
              cur := q.length
              wr := (if q.length = 0 then false else w.wr)
              ended := w.ended ++ [(x.buf, End.dropped)] } ⟨hi.cur, hi.bound, hi.heeded⟩ (by dsimp only; omega)
      refine ⟨a, b, c, d, e, ?_⟩
      rw [f, hq]
      simp

/-- all three -/
structure All (w : Wr) : Prop where
  inv : Inv w
  fifo : Fifo w

theorem clear_all {w : Wr} (h : All w) : All (clear (w.q.length + 1) w) ∧ (Clean w → Clean (clear (w.q.length + 1) w)) := by
  obtain ⟨a, b, c, d, e, f⟩ := clear_spec (w.q.length + 1) w h.inv (by omega)
  refine ⟨⟨a, ?_⟩, fun hc => ⟨by rw [b]; simp, ?_⟩⟩
  · unfold Fifo
    rw [e, f, b, h.fifo]
    simp
  · rw [d, f, hc.sent, okBytes_append, okBytes_dropped, List.append_nil]

theorem close_all {w : Wr} (h : All w) : All (close w) ∧ (Clean w → Clean (close w)) := by
  unfold close
  split
  · exact ⟨h, id⟩
  · have h' : All { w with closed := true } := ⟨⟨h.inv.cur, h.inv.bound, fun _ hc => by cases hc⟩, h.fifo⟩
    obtain ⟨a, b⟩ := clear_all h'
    refine ⟨⟨⟨a.inv.cur, a.inv.bound, a.inv.heeded⟩, a.fifo⟩, fun hc => ?_⟩
    have := b ⟨hc.fresh, hc.sent⟩
    exact ⟨this.fresh, this.sent⟩

theorem writeMsg_all {w : Wr} (h : All w) (m : List Byte) : All (writeMsg w m).1 ∧ (Clean w → Clean (writeMsg w m).1) := by
  refine ⟨⟨writeMsg_inv h.inv m, writeMsg_fifo h.fifo m⟩, fun hc => ?_⟩
  by_cases hm : m = []
  · have : (writeMsg w m).1 = w := by unfold writeMsg; rw [if_pos hm]
    rw [this]; exact hc
  rcases writeMsg_eq w m with e | ⟨-, e, e1, e2, e3⟩
  · rw [e]; exact hc
  · rw [e]
    refine ⟨?_, by dsimp only; rw [e2, e3]; exact hc.sent⟩
    intro x hx
    dsimp only at hx
    rw [e1] at hx
    rcases List.mem_append.mp hx with hx | hx
    · exact hc.fresh x hx
    · rw [List.mem_singleton.mp hx]
      exact ⟨rfl, hm⟩

theorem cbOps_all (cb : List CbOp) : ∀ {w : Wr}, All w → All (cb.foldl cbOp w) ∧ (Clean w → Clean (cb.foldl cbOp w)) := by
  induction cb with
  | nil => intro w h; exact ⟨h, id⟩
  | cons o cb ih =>
    intro w h
    have h1 : All (cbOp w o) ∧ (Clean w → Clean (cbOp w o)) := by
      cases o with
      | write m => exact writeMsg_all h m
      | close => exact close_all h
    obtain ⟨a, b⟩ := ih h1.1
    exact ⟨a, fun hc => b (h1.2 hc)⟩

theorem enqueueFront_fields (w : Wr) (x : Hdr) : (enqueueFront w x).q = x :: w.q ∧ (enqueueFront w x).ended = w.ended ∧
    (enqueueFront w x).accepted = w.accepted ∧ (enqueueFront w x).sent = w.sent := by
  unfold enqueueFront
  dsimp only
  split <;> exact ⟨rfl, rfl, rfl, rfl⟩

/-- The result of a send is not a part of the message at the front. -/
def NoPartial (w : Wr) : Op → Prop
  | .writable rc _ => ∀ h q, w.q = h :: q → rc ≤ 0 ∨ (h.buf.length : Int) ≤ rc
  | _ => True

theorem writable_all {w w' : Wr} (h : All w) (rc : Int) (cb : List CbOp) (hw : writable w rc cb = some w') :
    All w' ∧ (Clean w → NoPartial w (.writable rc cb) → Clean w') := by
  unfold writable at hw
  split at hw
  · cases hw
  · have hi := dequeue_inv h.inv
    rcases dequeue_cases h.inv with ⟨hq, e⟩ | ⟨x, q, hq, e⟩
    · rw [e] at hw
      dsimp only at hw
      obtain ⟨a, b⟩ := cbOps_all cb h
      split at hw
      · rename_i h0
        cases hw
        have hq0 : (cb.foldl cbOp w).q = [] := List.length_eq_zero_iff.mp (by rw [← a.inv.cur]; exact h0)
        exact ⟨⟨⟨a.inv.cur, a.inv.bound, fun hne => absurd hq0 hne⟩, a.fifo⟩, fun hc _ => ⟨(b hc).fresh, (b hc).sent⟩⟩
      · cases hw
        exact ⟨a, fun hc _ => b hc⟩
    · rw [e] at hw hi
      dsimp only at hw hi
      have hb := h.inv.bound
      have hf := h.fifo
      unfold Fifo at hf
      rw [hq] at hb hf
      simp only [List.length_cons] at hb
      split at hw
      · cases hw
      · rename_i hle
        cases hw
        unfold sendCompletion
        split
        · rename_i hp
          obtain ⟨f1, f2, f3, f4⟩ := enqueueFront_fields { w with
              q := q
              cur := q.length
              wr := (if q.length = 0 then false else w.wr)
              sent := w.sent ++ ((x.buf.drop x.iovBase).take x.iovLen).take rc.toNat } { x with data := x.data + rc.toNat, iovLen := x.buf.length - (x.data + rc.toNat) }
          refine ⟨⟨enqueueFront_inv (w := { w with
              q := q
              cur := q.length
              wr := (if q.length = 0 then false else w.wr)
              sent := w.sent ++ ((x.buf.drop x.iovBase).take x.iovLen).take rc.toNat })
              ⟨hi.cur, hi.bound, hi.heeded⟩ (by dsimp only; omega) _, ?_⟩, fun hc hn => ?_⟩
          · unfold Fifo
            rw [f1, f2, f3, hf]
            rfl
          · exfalso
            have hx := (hc.fresh x (by rw [hq]; simp)).1
            rw [hx] at hp
            dsimp only at hp
            rcases hn x q hq with h | h <;> omega
        · rename_i hp
          split
          · rename_i hr
            obtain ⟨f1, f2, f3, f4⟩ := enqueueFront_fields { w with
              q := q
              cur := q.length
              wr := (if q.length = 0 then false else w.wr)
              sent := w.sent ++ ((x.buf.drop x.iovBase).take x.iovLen).take rc.toNat } x
            refine ⟨⟨enqueueFront_inv (w := { w with
              q := q
              cur := q.length
              wr := (if q.length = 0 then false else w.wr)
              sent := w.sent ++ ((x.buf.drop x.iovBase).take x.iovLen).take rc.toNat })
              ⟨hi.cur, hi.bound, hi.heeded⟩ (by dsimp only; omega) _, ?_⟩, fun hc hn => ⟨?_, ?_⟩⟩
            · unfold Fifo
              rw [f1, f2, f3, hf]
            · rw [f1]
              dsimp only
              rw [← hq]
              exact hc.fresh
            · rw [f2, f4]
              have : rc.toNat = 0 := by unfold EAGAIN at hr; omega
              dsimp only
              rw [this, List.take_zero, List.append_nil]
              exact hc.sent
          · have ha : All { w with
              q := q
              cur := q.length
              wr := (if q.length = 0 then false else w.wr)
              sent := w.sent ++ ((x.buf.drop x.iovBase).take x.iovLen).take rc.toNat
              ended := w.ended ++ [(x.buf, End.done rc)] } := by
              refine ⟨⟨hi.cur, hi.bound, hi.heeded⟩, ?_⟩
              unfold Fifo
              dsimp only
              rw [hf]
              simp
            obtain ⟨a, b⟩ := cbOps_all cb ha
            refine ⟨a, fun hc hn => b ⟨fun y hy => hc.fresh y (by rw [hq]; exact List.mem_cons_of_mem _ hy), ?_⟩⟩
            dsimp only
            have hx := (hc.fresh x (by rw [hq]; simp)).1
            have hib : x.iovBase = 0 := by rw [hx]
            have hil : x.iovLen = x.buf.length := by rw [hx]
            rw [okBytes_append, hc.sent, hib, hil, List.drop_zero, List.take_length]
            congr 1
            by_cases h0 : rc > 0
            · have hrl : rc.toNat = x.buf.length := by
                rw [hil] at hle
                rcases hn x q hq with h | h <;> omega
              rw [hrl, List.take_length]
              simp [okBytes, h0]
            · have : rc.toNat = 0 := by omega
              rw [this]
              simp [okBytes, h0]

/-- A state that the steps allowed by `P` lead to. -/
inductive Reach (P : Wr → Op → Prop) (max : Nat) : Wr → Prop
  | init : Reach P max (init max)
  | step {w : Wr} (o : Op) : Reach P max w → P w o → Reach P max (step w o)

theorem step_all {w : Wr} (h : All w) (o : Op) : All (step w o) ∧ (Clean w → NoPartial w o → Clean (step w o)) := by
  cases o with
  | write m =>
    obtain ⟨a, b⟩ := writeMsg_all h m
    exact ⟨a, fun hc _ => b hc⟩
  | writable rc cb =>
    unfold step
    dsimp only
    cases hw : writable w rc cb with
    | none => exact ⟨h, fun hc _ => hc⟩
    | some w' => exact writable_all h rc cb hw
  | clear =>
    obtain ⟨a, b⟩ := clear_all h
    exact ⟨a, fun hc _ => b hc⟩
  | close =>
    obtain ⟨a, b⟩ := close_all h
    exact ⟨a, fun hc _ => b hc⟩
  | register =>
    unfold step register
    dsimp only
    have hcur := h.inv.cur
    have hne : w.q ≠ [] → w.cur > 0 := fun hq => by
      have := List.length_pos_iff.mpr hq
      omega
    split
    · split
      · exact ⟨⟨⟨h.inv.cur, h.inv.bound, fun _ _ => rfl⟩, h.fifo⟩, fun hc _ => ⟨hc.fresh, hc.sent⟩⟩
      · rename_i hn
        exact ⟨⟨⟨h.inv.cur, h.inv.bound, fun hq _ => absurd (hne hq) hn⟩, h.fifo⟩, fun hc _ => ⟨hc.fresh, hc.sent⟩⟩
    · split
      · exact ⟨⟨⟨h.inv.cur, h.inv.bound, fun _ _ => rfl⟩, h.fifo⟩, fun hc _ => ⟨hc.fresh, hc.sent⟩⟩
      · rename_i hn
        exact ⟨⟨⟨h.inv.cur, h.inv.bound, fun hq _ => absurd (hne hq) hn⟩, h.fifo⟩, fun hc _ => ⟨hc.fresh, hc.sent⟩⟩
  | notifyConnected =>
    unfold step notifyConnected
    dsimp only
    split
    · exact ⟨h, fun hc _ => hc⟩
    · split
      · exact ⟨⟨⟨h.inv.cur, h.inv.bound, fun _ _ => rfl⟩, h.fifo⟩, fun hc _ => ⟨hc.fresh, hc.sent⟩⟩
      · exact ⟨⟨⟨h.inv.cur, h.inv.bound, fun _ _ => rfl⟩, h.fifo⟩, fun hc _ => ⟨hc.fresh, hc.sent⟩⟩

theorem init_all (max : Nat) : All (init max) := ⟨⟨rfl, Nat.zero_le _, fun h => absurd rfl h⟩, rfl⟩

/-- C82: in any execution the queue has at most `max` messages, accepted messages end in the order in which they were accepted,
each exactly once, and while messages wait on an open descriptor it is watched for being writable. -/
theorem reach_inv (P : Wr → Op → Prop) (max : Nat) (w : Wr) (h : Reach P max w) :
    w.accepted = w.ended.map (·.1) ++ w.q.map (·.buf) ∧ w.cur = w.q.length ∧ w.q.length ≤ w.max ∧
      (w.q ≠ [] → w.closed = false → w.wr = true) := by
  have ha : All w := by
    induction h with
    | init => exact init_all max
    | step o _ _ ih => exact (step_all ih o).1
  exact ⟨ha.fifo, ha.inv.cur, ha.inv.bound, ha.inv.heeded⟩

/-- C82 in part: if no send takes only part of a message, the kernel gets the messages that end with success, each whole and in
order (missing: sends of part of a message, for which it is false). -/
theorem stream_partial (max : Nat) (w : Wr) (h : Reach NoPartial max w) :
    w.sent = (w.ended.map fun e => match e.2 with | .done rc => if rc > 0 then e.1 else [] | .dropped => []).flatten := by
  have ha : All w ∧ Clean w := by
    induction h with
    | init => exact ⟨init_all max, by simp [init], rfl⟩
    | step o _ hp ih => exact ⟨(step_all ih.1 o).1, (step_all ih.1 o).2 ih.2 hp⟩
  exact ha.2.sent

/-- C82: after a send of part of a message the beginning of it is sent again, and the end of it never. -/
theorem stream_counterexample :
    let w := [Op.register, .write [1, 2, 3], .writable 1 [], .writable 2 []].foldl step (init 8)
    w.ended = [([1, 2, 3], .done 2)] ∧ w.sent = [1, 1, 2] := by decide +kernel

/-- C82: a message is refused only if it is empty or the queue is full, and then nothing changes. -/
theorem writeMsg_refused (w : Wr) (m : List Byte) :
    ((writeMsg w m).2 = 0 ↔ m ≠ [] ∧ w.cur < w.max) ∧ ((writeMsg w m).2 ≠ 0 → (writeMsg w m).1 = w) := by
  unfold writeMsg
  by_cases hm : m = []
  · rw [if_pos hm]
    exact ⟨⟨fun h => by simp [EINVAL] at h, fun h => absurd hm h.1⟩, fun _ => rfl⟩
  · rw [if_neg hm]
    unfold enqueue
    by_cases hc : w.cur ≥ w.max
    · rw [if_pos hc]
      refine ⟨⟨fun h => by simp [ENOSPC] at h, fun h => by omega⟩, fun _ => by simp [ENOSPC]⟩
    · rw [if_neg hc]
      refine ⟨⟨fun _ => ⟨hm, by omega⟩, fun _ => by simp⟩, fun h => by simp at h⟩

example : ([Op.register, .write [1, 2, 3], .write [4], .writable (-11) [], .writable 3 [.write [5]], .writable 1 [],
    .writable (-32) []].foldl step (init 8)).ended = [([1, 2, 3], .done 3), ([4], .done 1), ([5], .done (-32))] := by
  decide +kernel

end Verif.OsmoIo
