/-!
# BSSGP flow control (src/gb/gprs_bssgp.c)

A leaky bucket with a queue in front of it, for one BVC or one MS. Times are numbers of microseconds of one clock (`osmo_gettimeofday`, which
`osmo_timer_schedule` uses as well, src/core/timer.c:98-108) that does not run backwards; it stands still while a function runs. `uint32_t`
arithmetic is written with its wrap-around. Allocation does not fail. The output call-back is an event; what it returns is not modelled.
-/
namespace Verif.BssgpFc

/-- a message with the length of its LLC PDU; the number tells messages apart -/
structure Pdu where
  id : Nat
  len : Nat
  deriving DecidableEq, Repr

/-- include/osmocom/gprs/gprs_bssgp.h:86-102: `timer` is the time of expiry of a running timer; `now` the clock -/
structure Fc where
  max : Nat
  rate : Nat
  counter : Nat
  last : Nat
  maxDepth : Nat
  depth : Nat
  queue : List Pdu
  timer : Option Nat
  now : Nat
  deriving DecidableEq, Repr

/-- what is observed of a message: passed on at once, queued, refused (-EIO for its size, -ENOSPC for the queue) and freed, passed on from the queue,
or freed with the queue -/
inductive Ev
  | direct (p : Pdu) | queued (p : Pdu) | tooBig (p : Pdu) | full (p : Pdu) | unqueued (p : Pdu) | flushed (p : Pdu)
  deriving DecidableEq, Repr

/-- src/gb/gprs_bssgp.c:919-931: `bssgp_fc_init`, of memory that is zero -/
def init (max rate maxDepth now : Nat) : Fc :=
  { max := max, rate := rate, counter := 0, last := now, maxDepth := maxDepth, depth := 0, queue := [], timer := none, now := now }

/-- src/gb/gprs_bssgp.c:855-861: the bytes that leaked since the last PDU, in `uint32_t` -/
def leaked (fc : Fc) : Nat := ((fc.now - fc.last) / 10000 % 2 ^ 32 * (fc.rate / 100)) % 2 ^ 32

/-- src/gb/gprs_bssgp.c:845-878: `bssgp_fc_needs_queueing`; the sum in line 863 is one of `uint32_t`, the rest is `int64_t` -/
def needsQueueing (fc : Fc) (len : Nat) : Bool × Fc :=
  let predicted : Int := ((fc.counter + len) % 2 ^ 32 : Nat) - (leaked fc : Int)
  if predicted < len then (false, fc)
  else if predicted ≤ fc.max then (false, { fc with counter := predicted.toNat })
  else (true, fc)

/-- src/gb/gprs_bssgp.c:790-816: `fc_queue_timer_cfg` -/
def timerCfg (fc : Fc) : Fc :=
  match fc.queue with
  | [] => fc
  | p :: _ => if fc.rate ≠ 0 then { fc with timer := some (fc.now + p.len * 1000 % 2 ^ 32 / fc.rate * 1000) } else fc

/-- src/gb/gprs_bssgp.c:819-842: `fc_enqueue` -/
def enqueue (fc : Fc) (p : Pdu) : Fc × List Ev :=
  if fc.depth ≥ fc.maxDepth then (fc, [.full p])
  else (timerCfg { fc with queue := fc.queue ++ [p], depth := fc.depth + 1 }, [.queued p])

/-- src/gb/gprs_bssgp.c:890-915: `bssgp_fc_in` -/
def fcIn (fc : Fc) (p : Pdu) : Fc × List Ev :=
  if p.len > fc.max then (fc, [.tooBig p])
  else
    match needsQueueing fc p.len with
    | (true, fc) => enqueue fc p
    | (false, fc) => ({ fc with last := fc.now }, [.direct p])

/-- src/gb/gprs_bssgp.c:742-785: `fc_timer_cb` -/
def timerCb (fc : Fc) : Fc × List Ev :=
  match fc.queue with
  | [] => (fc, [])
  | p :: q =>
    match needsQueueing fc p.len with
    | (true, fc) => (timerCfg fc, [])
    | (false, fc) => (timerCfg { fc with queue := q, depth := fc.depth - 1, last := fc.now }, [.unqueued p])

/-- src/gb/gprs_bssgp.c:1452-1461: `bssgp_fc_flush_queue`; `queue_depth` and the timer stay -/
def flush (fc : Fc) : Fc × List Ev := ({ fc with queue := [] }, fc.queue.map .flushed)

/-- src/gb/gprs_bssgp.c:970-994: what `bssgp_rx_fc_bvc` does to the bucket, from the bucket size in 100 octets and the leak rate in 100 bit/s -/
def params (fc : Fc) (size rate : Nat) : Fc := timerCfg { fc with max := 100 * size, rate := 100 * rate / 8 }

/-- what happens to the bucket; the call-back of the timer runs once it is due, after `timer` was stopped by the timer core -/
inductive Op
  | pdu (p : Pdu) | expire | params (size rate : Nat) | flush | tick (dt : Nat)
  deriving DecidableEq, Repr

/-- one step; `none` if the timer is not due -/
def step (fc : Fc) : Op → Option (Fc × List Ev)
  | .pdu p => some (fcIn fc p)
  | .expire =>
    match fc.timer with
    | some t => if t ≤ fc.now then some (timerCb { fc with timer := none }) else none
    | none => none
  | .params s r => some (params fc s r, [])
  | .flush => some (flush fc)
  | .tick dt => some ({ fc with now := fc.now + dt }, [])

/-- a run -/
def run (fc : Fc) : List Op → Option (Fc × List Ev)
  | [] => some (fc, [])
  | o :: os =>
    match step fc o with
    | none => none
    | some (fc, ev) => (run fc os).map fun (fc, evs) => (fc, ev ++ evs)

end Verif.BssgpFc
