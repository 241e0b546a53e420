import Verif.Msgb.Model
/-!
Model of src/core/it_q.c: one queue, any number of threads that enqueue, one
thread that reads the eventfd, others that dequeue or flush by hand.

Threads are interleaved at the mutex: what happens under the lock is one step;
the increment of the eventfd after the unlock is a step of its own; so is the read of the
eventfd, and each dequeue of its callback.  The eventfd counter is unbounded and the
increment does not fail; `int i` of the loop does not overflow.
-/
namespace Verif.Queue

open Verif.Msgb (enqueueCount dequeueCount)

/-- include/osmocom/core/it_q.h:16-37 `struct osmo_it_q`, with the counter of the eventfd, the number of
threads between unlock and increment, and what the reader still has to do (`none`: it is not in
the callback).  `got` are the items taken out, `put` the ones accepted, in order. -/
structure ItQ (α : Type) where
  list : List α
  cur : BitVec 32
  max : BitVec 32
  event : Nat
  pending : Nat
  reader : Option Nat
  put : List α
  got : List α
  flushed : Nat
deriving Repr, DecidableEq

/-- src/core/it_q.c:121-166 `osmo_it_q_alloc` with a callback -/
def itqAlloc {α} (max : BitVec 32) : ItQ α :=
  { list := [], cur := 0, max := max, event := 0, pending := 0, reader := none, put := [], got := [], flushed := 0 }

/-- What the threads do. -/
inductive Act2 (α : Type) where
  | enqueue (x : α)   -- the part under the lock
  | increment         -- the write to the eventfd
  | read              -- the reader reads the eventfd
  | next              -- one round of the reader's loop
  | dequeue           -- by hand
  | flush
deriving Repr, DecidableEq

/-- src/core/it_q.c:226-243 `_osmo_it_q_enqueue`, up to the unlock -/
def itqEnqueue {α} (q : ItQ α) (x : α) : ItQ α × Int :=
  if q.cur + 1#32 > q.max then (q, -28)
  else
    let r := enqueueCount (q.list, q.cur) x
    ({ q with list := r.1, cur := r.2, pending := q.pending + 1, put := q.put ++ [x] }, 0)

/-- src/core/it_q.c:250-264 `_osmo_it_q_dequeue` with src/core/it_q.c:168-181 `item_dequeue` -/
def itqDequeue {α} (q : ItQ α) : ItQ α × Option α :=
  match q.list with
  | [] => (q, none)
  | x :: l => ({ q with list := l, cur := q.cur - 1#32, got := q.got ++ [x] }, some x)

/-- src/core/it_q.c:194-201 `osmo_it_q_flush` -/
def itqFlush {α} (q : ItQ α) : ItQ α := { q with list := [], cur := 0, flushed := q.flushed + q.list.length }

/-- A step of a thread; `none` if it is not possible: an increment without an enqueue
before, a read of an eventfd that is 0 (it would block, and the callback is only called
when it is not) or within the callback, a round of a loop not entered.
src/core/it_q.c:88-112 `osmo_it_q_fd_cb` -/
def itqStep {α} (q : ItQ α) : Act2 α → Option (ItQ α)
  | .enqueue x => some (itqEnqueue q x).1
  | .increment => if q.pending = 0 then none else some { q with pending := q.pending - 1, event := q.event + 1 }
  | .read =>
    match q.reader with
    | some _ => none
    | none => if q.event = 0 then none else some { q with event := 0, reader := some q.event }
  | .next =>
    match q.reader with
    | none => none
    | some 0 => some { q with reader := none }
    | some (n + 1) =>
      match itqDequeue q with
      | (q, none) => some { q with reader := none }
      | (q, some _) => some { q with reader := some n }
  | .dequeue => some (itqDequeue q).1
  | .flush => some (itqFlush q)

def itqRun {α} (q : ItQ α) : List (Act2 α) → Option (ItQ α)
  | [] => some q
  | a :: as => (itqStep q a).bind (fun q => itqRun q as)

/-- Rounds the reader will do. -/
def todo (r : Option Nat) : Nat := r.getD 0

/-- What holds after any steps. -/
structure ItInv {α} (q : ItQ α) : Prop where
  count : q.cur.toNat = q.list.length
  le : q.list.length ≤ q.max.toNat
  woken : q.list.length ≤ q.pending + q.event + todo q.reader

theorem dequeue_itinv {α} (q : ItQ α) (h : ItInv q) : (itqDequeue q).1.cur.toNat = (itqDequeue q).1.list.length ∧
    (itqDequeue q).1.list.length = q.list.length - 1 ∧ (itqDequeue q).1.max = q.max ∧ (itqDequeue q).1.pending = q.pending ∧ (itqDequeue q).1.event = q.event ∧
    (itqDequeue q).1.reader = q.reader ∧ ((itqDequeue q).2 = none → q.list = []) := by
  have hc := h.count
  unfold itqDequeue
  cases hl : q.list with
  | nil => exact ⟨by simpa [hl] using hc, by simp [hl], rfl, rfl, rfl, rfl, fun _ => rfl⟩
  | cons x l =>
    refine ⟨?_, by simp, rfl, rfl, rfl, rfl, fun h => by cases h⟩
    rw [hl, List.length_cons] at hc
    have := q.cur.isLt
    rw [BitVec.toNat_sub]
    simp only [BitVec.toNat_ofNat]
    omega

theorem step_itinv {α} (q q' : ItQ α) (a : Act2 α) (hm : q.max.toNat + 1 < 2 ^ 32) (h : ItInv q) (hs : itqStep q a = some q') : ItInv q' ∧ q'.max = q.max := by
  obtain ⟨h1, h2, h3⟩ := h
  cases a with
  | enqueue x =>
    cases hs
    unfold itqEnqueue
    split
    · exact ⟨⟨h1, h2, h3⟩, rfl⟩
    · next hlt =>
      have hlt : (q.cur + 1#32).toNat ≤ q.max.toNat := by
        have : ¬ q.max.toNat < (q.cur + 1#32).toNat := hlt
        omega
      rw [BitVec.toNat_add, BitVec.toNat_ofNat] at hlt
      have hlen := h2
      refine ⟨⟨?_, ?_, ?_⟩, rfl⟩
      · simp only [enqueueCount, Verif.Msgb.enqueue, List.length_append, List.length_singleton, BitVec.toNat_add, BitVec.toNat_ofNat]
        omega
      · simp only [enqueueCount, Verif.Msgb.enqueue, List.length_append, List.length_singleton]
        omega
      · simp only [enqueueCount, Verif.Msgb.enqueue, List.length_append, List.length_singleton]
        omega
  | increment =>
    simp only [itqStep] at hs
    split at hs
    · cases hs
    · cases hs; exact ⟨⟨h1, h2, by simp only; omega⟩, rfl⟩
  | read =>
    simp only [itqStep] at hs
    split at hs
    · cases hs
    · next hr =>
      split at hs
      · cases hs
      · cases hs
        refine ⟨⟨h1, h2, ?_⟩, rfl⟩
        rw [hr] at h3
        simp only [todo, Option.getD_none, Option.getD_some] at h3 ⊢
        omega
  | next =>
    simp only [itqStep] at hs
    obtain ⟨d1, d2, d3, d4, d5, d6, d7⟩ := dequeue_itinv q ⟨h1, h2, h3⟩
    split at hs
    · cases hs
    · next hr =>
      cases hs
      rw [hr] at h3
      simp only [todo, Option.getD_some] at h3
      exact ⟨⟨h1, h2, by simp only [todo, Option.getD_none]; omega⟩, rfl⟩
    · next n hr =>
      rw [hr] at h3
      simp only [todo, Option.getD_some] at h3
      split at hs
      · next q1 hd =>
        rw [hd] at d1 d2 d3 d7
        cases hs
        have : q.list = [] := d7 rfl
        rw [this] at d2
        simp only [List.length_nil] at d2
        exact ⟨⟨d1, by simp only at d2 ⊢; omega, by simp only at d2 ⊢; omega⟩, d3⟩
      · next q1 x hd =>
        rw [hd] at d1 d2 d3 d4 d5
        cases hs
        simp only at d1 d2 d3 d4 d5
        exact ⟨⟨d1, by simp only; rw [d3]; omega, by simp only [todo, Option.getD_some]; omega⟩, d3⟩
  | dequeue =>
    obtain ⟨d1, d2, d3, d4, d5, d6, d7⟩ := dequeue_itinv q ⟨h1, h2, h3⟩
    cases hs
    exact ⟨⟨d1, by rw [d3]; omega, by rw [d4, d5, d6]; omega⟩, d3⟩
  | flush =>
    cases hs
    exact ⟨⟨rfl, by simp [itqFlush], by simp [itqFlush]⟩, rfl⟩

theorem run_itinv {α} (as : List (Act2 α)) : ∀ (q q' : ItQ α), q.max.toNat + 1 < 2 ^ 32 → ItInv q → itqRun q as = some q' → ItInv q' ∧ q'.max = q.max := by
  induction as with
  | nil => intro q q' _ h hr; cases hr; exact ⟨h, rfl⟩
  | cons a as ih =>
    intro q q' hm h hr
    rw [itqRun] at hr
    cases hs : itqStep q a with
    | none => rw [hs] at hr; cases hr
    | some q1 =>
      rw [hs, Option.bind_some] at hr
      obtain ⟨i1, i2⟩ := step_itinv q q1 a hm h hs
      obtain ⟨j1, j2⟩ := ih q1 q' (by rw [i2]; exact hm) i1 hr
      exact ⟨j1, by rw [j2, i2]⟩

/-- C73: after any interleaving of threads the queue has no more items than its maximum, and the number kept
is right. -/
theorem itq_bounded {α} (max : BitVec 32) (as : List (Act2 α)) (q : ItQ α) (hm : max.toNat + 1 < 2 ^ 32) (h : itqRun (itqAlloc max) as = some q) :
    q.list.length ≤ max.toNat ∧ q.cur.toNat = q.list.length := by
  obtain ⟨⟨i1, i2, _⟩, i4⟩ := run_itinv as (itqAlloc max) q hm ⟨rfl, by simp [itqAlloc], by simp [itqAlloc]⟩ h
  rw [i4] at i2
  exact ⟨i2, i1⟩

/-- C73: no wake-up is lost: whenever no thread is between adding an item and the
eventfd, and the reader is not in its callback, and there is an item in the queue, then the
eventfd is readable. -/
theorem itq_wakeup {α} (max : BitVec 32) (as : List (Act2 α)) (q : ItQ α) (hm : max.toNat + 1 < 2 ^ 32) (h : itqRun (itqAlloc max) as = some q)
    (hp : q.pending = 0) (hr : q.reader = none) (hl : q.list ≠ []) : 1 ≤ q.event := by
  obtain ⟨⟨_, _, i3⟩, _⟩ := run_itinv as (itqAlloc max) q hm ⟨rfl, by simp [itqAlloc], by simp [itqAlloc]⟩ h
  have : 1 ≤ q.list.length := List.length_pos_iff.mpr hl
  rw [hp, hr] at i3
  simp only [todo, Option.getD_none] at i3
  omega

/-- C73: without a flush, items come out in the order in which they went in, none lost, none
twice. -/
theorem itq_fifo {α} (max : BitVec 32) (as : List (Act2 α)) (q : ItQ α) (hf : Act2.flush ∉ as) (h : itqRun (itqAlloc max) as = some q) :
    q.got ++ q.list = q.put := by
  have key : ∀ (as : List (Act2 α)) (q q' : ItQ α), Act2.flush ∉ as → q.got ++ q.list = q.put → itqRun q as = some q' → q'.got ++ q'.list = q'.put := by
    intro as
    induction as with
    | nil => intro q q' _ h hr; cases hr; exact h
    | cons a as ih =>
      intro q q' hf h hr
      rw [itqRun] at hr
      cases hs : itqStep q a with
      | none => rw [hs] at hr; cases hr
      | some q1 =>
        rw [hs, Option.bind_some] at hr
        refine ih q1 q' (fun h => hf (List.mem_cons_of_mem _ h)) ?_ hr
        have hd : (itqDequeue q).1.got ++ (itqDequeue q).1.list = (itqDequeue q).1.put := by
          unfold itqDequeue
          cases hl : q.list with
          | nil => simpa [hl] using h
          | cons x l => rw [hl] at h; simpa using h
        cases a with
        | enqueue x =>
          cases hs
          unfold itqEnqueue
          split
          · exact h
          · simp only [enqueueCount, Verif.Msgb.enqueue]
            rw [← List.append_assoc, h]
        | increment =>
          simp only [itqStep] at hs
          split at hs
          · cases hs
          · cases hs; exact h
        | read =>
          simp only [itqStep] at hs
          split at hs
          · cases hs
          · split at hs
            · cases hs
            · cases hs; exact h
        | next =>
          simp only [itqStep] at hs
          split at hs
          · cases hs
          · cases hs; exact h
          · split at hs
            · next q1 hq => rw [hq] at hd; cases hs; exact hd
            · next q1 x hq => rw [hq] at hd; cases hs; exact hd
        | dequeue => cases hs; exact hd
        | flush => exact absurd List.mem_cons_self hf
  exact key as _ q hf rfl h

/-- C73: the reader's callback, when no one interferes, takes as many items out as the eventfd counted (or all
there are), from the front, and is done. -/
theorem itq_callback {α} (q : ItQ α) (hr : q.reader = none) (he : 1 ≤ q.event) :
    ∃ q', itqRun q (.read :: List.replicate (min q.event q.list.length + 1) .next) = some q' ∧ q'.reader = none ∧ q'.event = 0 ∧
      q'.got = q.got ++ q.list.take q.event ∧ q'.list = q.list.drop q.event := by
  have key : ∀ (n : Nat) (q : ItQ α), q.reader = some n → ∃ q', itqRun q (List.replicate (min n q.list.length + 1) .next) = some q' ∧ q'.reader = none ∧
      q'.event = q.event ∧ q'.got = q.got ++ q.list.take n ∧ q'.list = q.list.drop n := by
    intro n
    induction n with
    | zero =>
      intro q hq
      rw [Nat.zero_min]
      exact ⟨{ q with reader := none }, by simp [itqRun, itqStep, hq], rfl, rfl, by simp, by simp⟩
    | succ n ih =>
      intro q hq
      cases hl : q.list with
      | nil =>
        rw [List.length_nil, Nat.min_zero]
        refine ⟨{ q with reader := none }, by simp [itqRun, itqStep, hq, itqDequeue, hl], rfl, rfl, by simp, by simp [hl]⟩
      | cons x l =>
        obtain ⟨q', e1, e2, e3, e4, e5⟩ := ih { q with list := l, cur := q.cur - 1#32, got := q.got ++ [x], reader := some n } rfl
        refine ⟨q', ?_, e2, e3, by rw [e4]; simp, by rw [e5]; simp⟩
        rw [List.length_cons, Nat.succ_min_succ, List.replicate_succ, itqRun]
        have : itqStep q .next = some { q with list := l, cur := q.cur - 1#32, got := q.got ++ [x], reader := some n } := by
          simp [itqStep, hq, itqDequeue, hl]
        rw [this, Option.bind_some]
        exact e1
  obtain ⟨q', e1, e2, e3, e4, e5⟩ := key q.event { q with event := 0, reader := some q.event } rfl
  refine ⟨q', ?_, e2, e3, e4, e5⟩
  rw [itqRun]
  have : itqStep q .read = some { q with event := 0, reader := some q.event } := by
    simp only [itqStep, hr]
    rw [if_neg (by omega)]
  rw [this, Option.bind_some]
  exact e1

/-- Two threads enqueue, the reader comes in between the second one's item and its increment. -/
example : ((itqRun (itqAlloc 4#32) [.enqueue 1, .increment, .enqueue 2, .read, .next, .increment, .next]).map (fun q => (q.got, q.list, q.event, q.reader))) =
    some ([1], [2], 1, none) := by decide +kernel

/-- The third item does not fit. -/
example : ((itqRun (itqAlloc 2#32) [.enqueue 1, .enqueue 2, .enqueue 3, .increment, .increment, .read, .next, .next, .next]).map (fun q => (q.got, q.list, q.event, q.reader))) =
    some ([1, 2], [], 0, none) := by decide +kernel

end Verif.Queue
