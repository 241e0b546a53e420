import Verif.Common
/-!
Model of src/core/timer.c.

Timers are named by numbers.  The red-black tree is represented by the sequence
of its nodes in order (`rb_first`, `rb_next`), which is justified in Rbtree/Timers.lean, the circular eviction list by
the list of its members.  A callback is an arbitrary function of the state
(which contains the history of the pass) giving a list of timer operations; a
callback that calls `osmo_timers_update` itself is not modelled.
-/
namespace Verif.Timer

/-- `struct timeval` -/
structure TV where
  sec : Int
  usec : Int
  deriving DecidableEq, Repr

/-- `timercmp(a, b, <)` of <sys/time.h> -/
def TV.lt (a b : TV) : Bool := if a.sec = b.sec then a.usec < b.usec else a.sec < b.sec

/-- `timeradd(a, b, result)` of <sys/time.h> -/
def TV.add (a b : TV) : TV :=
  if a.usec + b.usec ≥ 1000000 then { sec := a.sec + b.sec + 1, usec := a.usec + b.usec - 1000000 }
  else { sec := a.sec + b.sec, usec := a.usec + b.usec }

/-- `timersub(a, b, result)` of <sys/time.h> -/
def TV.sub (a b : TV) : TV :=
  if a.usec - b.usec < 0 then { sec := a.sec - b.sec - 1, usec := a.usec - b.usec + 1000000 }
  else { sec := a.sec - b.sec, usec := a.usec - b.usec }

/-- what happens during a pass, for the statement of properties only -/
inductive Ev where
  | fire (t : Nat)
  | add (t : Nat) (tv : TV)
  | del (t : Nat)
  deriving DecidableEq, Repr

/-- src/core/timer.c:42 `timer_root` as the nodes in order, the fields
`timeout` and `active` of the timers, src/core/timer.c:246
`timer_eviction_list`, and the history -/
structure TS where
  tree : List Nat
  timeout : Nat → TV
  active : Nat → Bool
  evict : List Nat
  log : List Ev

/-- store into a field of one timer -/
def upd {α} (f : Nat → α) (t : Nat) (v : α) : Nat → α := fun x => if x = t then v else f x

/-- src/core/timer.c:44-63 `__add_timer`: descending to the left only when the
new timeout is smaller puts the node behind all nodes not later than it. -/
def insertT (timeout : Nat → TV) (t : Nat) (tree : List Nat) : List Nat :=
  tree.takeWhile (fun x => !(timeout t).lt (timeout x)) ++
    t :: tree.dropWhile (fun x => !(timeout t).lt (timeout x))

/-- src/core/timer.c:116-125 `osmo_timer_del` -/
def timerDel (s : TS) (t : Nat) : TS :=
  if s.active t then
    { s with active := upd s.active t false, tree := s.tree.erase t, evict := s.evict.erase t }
  else s

/-- src/core/timer.c:80-86 `osmo_timer_add` -/
def timerAdd (s : TS) (t : Nat) : TS :=
  let s := timerDel s t
  { s with active := upd s.active t true, tree := insertT s.timeout t s.tree }

/-- src/core/timer.c:99-108 `osmo_timer_schedule` at time `now` -/
def timerSchedule (s : TS) (t : Nat) (seconds microseconds : Int) (now : TV) : TS :=
  timerAdd { s with timeout := upd s.timeout t (TV.add { sec := seconds, usec := microseconds } now) } t

/-- an operation of the application: set `timeout` and `osmo_timer_add`, or
`osmo_timer_del` -/
inductive TOp where
  | add (t : Nat) (tv : TV)
  | del (t : Nat)

/-- one operation, recorded in the history -/
def runOp (s : TS) : TOp → TS
  | .add t tv =>
    let s := timerAdd { s with timeout := upd s.timeout t tv } t
    { s with log := s.log ++ [.add t tv] }
  | .del t =>
    let s := timerDel s t
    { s with log := s.log ++ [.del t] }

def runOps (s : TS) (ops : List TOp) : TS := ops.foldl runOp s

/-- src/core/timer.c:253-260: collect the expired timers, each at the head -/
def collect (s : TS) (now : TV) : TS :=
  { s with evict := (s.tree.takeWhile fun x => !now.lt (s.timeout x)).reverse }

/-- src/core/timer.c:274-281: the restart loop; no result if it makes more
than `fuel` iterations -/
def fireLoop (cb : Nat → TS → List TOp) : Nat → TS → Option TS
  | fuel, s =>
    match s.evict with
    | [] => some s
    | t :: _ =>
      match fuel with
      | 0 => none
      | fuel + 1 =>
        let s := timerDel s t
        let s := { s with log := s.log ++ [.fire t] }
        fireLoop cb fuel (runOps s (cb t s))

/-- src/core/timer.c:242-284 `osmo_timers_update` at time `now`; the result
also tells the return value. -/
def timersUpdate (cb : Nat → TS → List TOp) (fuel : Nat) (s : TS) (now : TV) : Option (TS × Nat) :=
  let s := collect { s with log := [] } now
  (fireLoop cb fuel s).map fun (r : TS) => (r, if s.evict = [] then 0 else 1)

def LONG_MAX : Int := 9223372036854775807

/-- src/core/timer.c:208-221 `update_nearest`: `nearest_p` (`none` = NULL) -/
def updateNearest (cand current : TV) : Option TV :=
  if cand.sec ≠ LONG_MAX then
    if current.lt cand then some (cand.sub current) else some { sec := 0, usec := 0 }
  else none

/-- src/core/timer.c:224-239 `osmo_timers_prepare`, giving the value
`osmo_timers_nearest` (lines 175-181) returns -/
def timersPrepare (s : TS) (now : TV) : Option TV :=
  match s.tree with
  | [] => none
  | t :: _ => updateNearest (s.timeout t) now

/-- conversion of a `long` to `int` (gcc: modulo 2^32) -/
def toInt32 (x : Int) : Int := (x + 2147483648) % 4294967296 - 2147483648

/-- src/core/timer.c:186-206 `osmo_timers_nearest_ms` (not EMBEDDED).  Line 193
assigns a `long` to an `int`; the addition at line 200 is done in `long` and
converted again. -/
def nearestMs (nearest : Option TV) : Int :=
  match nearest with
  | none => -1
  | some n => toInt32 (toInt32 (n.sec * 1000) + (n.usec + 999).tdiv 1000)

/-- src/core/timer.c:148-165 `osmo_timer_remaining` with the time `now` -/
def timerRemaining (s : TS) (t : Nat) (now : TV) : TV × Int :=
  let r := (s.timeout t).sub now
  (r, if r.sec < 0 then -1 else 0)

/-- src/core/timer.c:134-137 `osmo_timer_pending` -/
def timerPending (s : TS) (t : Nat) : Bool := s.active t

/-- src/core/timer.c:288-297 `osmo_timers_check` -/
def timersCheck (s : TS) : Nat := s.tree.length

end Verif.Timer
