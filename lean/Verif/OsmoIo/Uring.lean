import Verif.Common
/-!
Model of sending with the io_uring backend src/core/osmo_io_uring.c, and its properties: which messages are handed to the kernel at
a time.
-/
namespace Verif.OsmoIo.Uring

/-! ### Model -/

/-- What src/core/osmo_io_internal.h:52-111 `struct osmo_io_fd` has for sending, messages being numbers: the queue, `write_enabled`
and `write_msghdr`; besides it the messages that the kernel has and that have not completed.  Simplifications: the queue is not
full, and the descriptor stays open and connected, in mode READ_WRITE. -/
structure U where
  q : List Nat
  enabled : Bool
  cur : Option Nat
  inflight : List Nat
deriving DecidableEq, Repr

/-- src/core/osmo_io.c:245-262 `iofd_txqueue_dequeue` with src/core/osmo_io_uring.c:415-418 `iofd_uring_write_disable` -/
def dequeue (u : U) : U × Option Nat :=
  match u.q with
  | [] => (u, none)
  | m :: q => ({ u with q := q, enabled := if q = [] then false else u.enabled }, some m)

/-- src/core/osmo_io_uring.c:291-322 `iofd_uring_submit_tx` -/
def submitTx (u : U) : U :=
  match dequeue u with
  | (u, none) => u
  | (u, some m) => { u with cur := some m, inflight := u.inflight ++ [m] }

/-- src/core/osmo_io_uring.c:371-413 `iofd_uring_write_enable`, for a queue that is not empty -/
def writeEnable (u : U) : U :=
  let u := { u with enabled := true }
  if u.cur ≠ none then u
  else if u.q.length > 0 then submitTx u
  else u

/-- src/core/osmo_io.c:210-222 `iofd_txqueue_enqueue` -/
def enqueue (u : U) (m : Nat) : U :=
  let u := { u with q := u.q ++ [m] }
  if u.q.length = 1 then writeEnable u else u

/-- src/core/osmo_io.c:231-238 `iofd_txqueue_enqueue_front` -/
def enqueueFront (u : U) (m : Nat) : U :=
  let u := { u with q := m :: u.q }
  if u.q.length = 1 then writeEnable u else u

/-- src/core/osmo_io_uring.c:207-230 `iofd_uring_handle_tx` for the completion of `m`: `again` if it is enqueued again by
`iofd_handle_send_completion`, otherwise the write callback writes the messages `cb` -/
def handleTx (u : U) (m : Nat) (again : Bool) (cb : List Nat) : U :=
  let u := { u with inflight := u.inflight.erase m }
  let u := if u.cur = some m then { u with cur := none } else u
  let u := if again then enqueueFront u m else cb.foldl enqueue u
  if u.enabled then submitTx u else u

/-- What can happen. -/
inductive Op where
  | write (m : Nat)
  | complete (m : Nat) (again : Bool) (cb : List Nat)
deriving DecidableEq, Repr

/-- one step; only what the kernel has can complete -/
def step (u : U) : Op → U
  | .write m => enqueue u m
  | .complete m again cb => if m ∈ u.inflight then handleTx u m again cb else u

/-- at first -/
def init : U := ⟨[], false, none, []⟩

/-! ### Properties -/

/-- the kernel has what `write_msghdr` says, and the queue is not empty exactly if writing is enabled, and then the kernel has one -/
structure Inv (u : U) : Prop where
  inflight : u.inflight = u.cur.toList
  enabled : u.enabled = true ↔ u.q ≠ []
  busy : u.q ≠ [] → u.cur ≠ none

theorem enqueue_inv {u : U} (h : Inv u) (m : Nat) : Inv (enqueue u m) := by
  obtain ⟨q, en, cur, inf⟩ := u
  obtain ⟨h1, h2, h3⟩ := h
  dsimp only at h1 h2 h3
  subst h1
  cases q with
  | nil =>
    cases cur with
    | none =>
      simp only [enqueue, writeEnable, submitTx, dequeue, List.nil_append, List.length_cons, List.length_nil]
      exact ⟨rfl, by simp, by simp⟩
    | some x =>
      simp only [enqueue, writeEnable, List.nil_append, List.length_cons, List.length_nil]
      exact ⟨rfl, by simp, by simp⟩
  | cons a q =>
    have hl : ¬ (a :: q ++ [m]).length = 1 := by simp
    simp only [enqueue]
    rw [if_neg hl]
    refine ⟨rfl, by simpa using h2, fun _ => h3 (by simp)⟩

/-- no message with the kernel, and writing enabled if the queue is not empty: after a completion, before the next is submitted -/
theorem submit_inv (q : List Nat) (en : Bool) (he : en = true ↔ q ≠ []) :
    Inv (if en then submitTx ⟨q, en, none, []⟩ else ⟨q, en, none, []⟩) := by
  cases q with
  | nil =>
    have : en = false := by
      cases en with
      | false => rfl
      | true => exact absurd rfl (he.mp rfl)
    rw [this]
    exact ⟨rfl, by simp, by simp⟩
  | cons a q =>
    have : en = true := he.mpr (by simp)
    rw [this]
    simp only [if_true, submitTx, dequeue]
    refine ⟨rfl, ?_, by simp⟩
    dsimp only
    by_cases hq : q = [] <;> simp [hq]

theorem handleTx_inv {u : U} (h : Inv u) (m : Nat) (hm : m ∈ u.inflight) (again : Bool) (cb : List Nat) (hcb : cb.length ≤ 1) :
    Inv (handleTx u m again cb) := by
  obtain ⟨q, en, cur, inf⟩ := u
  obtain ⟨h1, h2, h3⟩ := h
  dsimp only at h1 h2 h3 hm
  subst h1
  cases cur with
  | none => simp at hm
  | some x =>
    have : m = x := by simpa using hm
    subst this
    simp only [handleTx, Option.toList_some, List.erase_cons_head, if_true]
    -- one message more, at the front or the end of the queue
    have one : ∀ (qn : List Nat) (y : Nat), qn ≠ [] → (q = [] → qn = [y]) → (q ≠ [] → 1 < qn.length) →
        Inv (let u : U := if qn.length = 1 then writeEnable ⟨qn, en, none, []⟩ else ⟨qn, en, none, []⟩
             if u.enabled then submitTx u else u) := by
      intro qn y hn h0 h1
      cases q with
      | nil =>
        rw [h0 rfl]
        simp only [writeEnable, submitTx, dequeue, List.length_cons, List.length_nil]
        exact ⟨rfl, by simp, by simp⟩
      | cons a q =>
        have := h1 (by simp)
        have hn1 : ¬ qn.length = 1 := by omega
        simp only [hn1, if_false]
        exact submit_inv qn en ⟨fun _ => hn, fun _ => h2.mpr (by simp)⟩
    cases again with
    | true =>
      simp only [if_true, enqueueFront]
      exact one (m :: q) m (by simp) (by intro h; rw [h]) (by intro h; have := List.length_pos_iff.mpr h; simp; omega)
    | false =>
      simp only [Bool.false_eq_true, if_false]
      cases cb with
      | nil => exact submit_inv q en h2
      | cons y cb =>
        have : cb = [] := List.length_eq_zero_iff.mp (by simp at hcb; exact by simp [hcb])
        subst this
        simp only [List.foldl_cons, List.foldl_nil, enqueue]
        exact one (q ++ [y]) y (by simp) (by intro h; rw [h]; rfl)
          (by intro h; have := List.length_pos_iff.mpr h; simp; omega)

/-- A state that executions with callbacks writing at most `k` messages lead to. -/
inductive Reach (k : Nat) : U → Prop
  | init : Reach k init
  | write {u : U} (m : Nat) : Reach k u → Reach k (step u (.write m))
  | complete {u : U} (m : Nat) (again : Bool) (cb : List Nat) : Reach k u → cb.length ≤ k →
      Reach k (step u (.complete m again cb))

/-- C83 in part: with write callbacks that write at most one message each, at most one message of a descriptor is with the kernel, it
is the one noted in `write_msghdr`, and none waits in the queue while the kernel has none (missing: callbacks that write several
messages, for which it is false). -/
theorem one_in_flight_partial (u : U) (h : Reach 1 u) :
    u.inflight = u.cur.toList ∧ u.inflight.length ≤ 1 ∧ (u.q ≠ [] → u.inflight ≠ []) := by
  have hi : Inv u := by
    induction h with
    | init => exact ⟨rfl, by simp [init], by simp [init]⟩
    | write m _ ih => exact enqueue_inv ih m
    | complete m again cb _ hcb ih =>
      unfold step
      dsimp only
      split
      · rename_i hm
        exact handleTx_inv ih m hm again cb hcb
      · exact ih
  refine ⟨hi.inflight, ?_, fun hq => ?_⟩
  · rw [hi.inflight]
    cases u.cur <;> simp
  · rw [hi.inflight]
    have := hi.busy hq
    cases hc : u.cur with
    | none => exact absurd hc this
    | some x => simp

/-- C83: a write callback that writes two messages makes the kernel have both of them at once, in no order, and only the second is
noted. -/
theorem one_in_flight_counterexample : Reach 2 (step (step init (.write 0)) (.complete 0 false [1, 2])) ∧
    step (step init (.write 0)) (.complete 0 false [1, 2]) = ⟨[], false, some 2, [1, 2]⟩ :=
  ⟨.complete 0 false [1, 2] (.write 0 .init) (by decide), by decide⟩

example : (step (step (step init (.write 0)) (.write 1)) (.complete 0 true [])) = ⟨[1], true, some 0, [0]⟩ := by decide

end Verif.OsmoIo.Uring
