import Verif.Tdef.Model
/-!
`src/core/time_cc.c`: the time a flag is true, as a rate counter.  `uint64_t` is `Nat` modulo 2^64; `none` is an aborted program.
The reading of `CLOCK_MONOTONIC` in microseconds is an argument of every call.
-/
namespace Verif.TimeCc
open Verif

abbrev w64 (n : Nat) : Nat := n % 2 ^ 64

/-- `a - b` in 64 bits -/
def sub64 (a b : Nat) : Nat := (a % 2 ^ 64 + (2 ^ 64 - b % 2 ^ 64)) % 2 ^ 64

/-- include/osmocom/core/time_cc.h:105-125 `struct osmo_time_cc_cfg`, without the counter (see `State.ctr`) -/
structure Cfg where
  gran : Nat
  thr : Nat
  forget : Nat
  Tgran : Int
  Tthr : Int
  Tforget : Int
  tdefs : Option (List Tdef.Entry)
  deriving DecidableEq

/-- include/osmocom/core/time_cc.h:158-181 `struct osmo_time_cc`, and the rate counter it reports to: its value, or none without one.
The timer is the reading of the clock at which it is due, where it is pending. -/
structure State where
  cfg : Cfg
  flag : Bool
  total : Nat
  timer : Option Int
  start : Nat
  last : Nat
  sum : Nat
  reported : Nat
  ctr : Option Nat
  deriving DecidableEq

/-- src/core/time_cc.c:47 `GRAN_USEC` -/
def Cfg.granUsec (c : Cfg) : Nat := if c.gran ≠ 0 then c.gran else 1000000

/-- src/core/time_cc.c:48-50 `ROUND_THRESHOLD_USEC` -/
def Cfg.thrUsec (c : Cfg) : Nat :=
  if c.thr ≠ 0 then (if c.thr ≥ c.granUsec then c.granUsec else c.thr) else c.granUsec / 2

/-- src/core/time_cc.c:146-153 `osmo_time_cc_forget_sum` -/
def forgetSum (s : State) (now : Nat) : State :=
  { s with reported := 0, sum := 0, last := if s.last < now then now else s.last }

/-- src/core/time_cc.c:67-72: the granularity from its timer, and whether it is another now -/
def updGran (ts : List Tdef.Entry) (c : Cfg) : Option (Cfg × Bool) :=
  if c.Tgran ≠ 0 then (Tdef.get ts c.Tgran .us (-1)).map fun g =>
    let c' := { c with gran := g }
    (c', decide (c.granUsec ≠ c'.granUsec))
  else some (c, false)

/-- src/core/time_cc.c:73-75 -/
def updThr (ts : List Tdef.Entry) (c : Cfg) : Option Cfg :=
  if c.Tthr ≠ 0 then (Tdef.get ts c.Tthr .us (-1)).map fun g => { c with thr := g } else some c

/-- src/core/time_cc.c:76-81 -/
def updForget (ts : List Tdef.Entry) (c : Cfg) : Option (Cfg × Bool) :=
  if c.Tforget ≠ 0 then (Tdef.get ts c.Tforget .us (-1)).map fun g =>
    ({ c with forget := g }, decide (g ≠ 0 ∧ c.forget ≠ g))
  else some (c, false)

/-- src/core/time_cc.c:62-85 `osmo_time_cc_update_from_tdef` -/
def update (s : State) (now : Nat) : Option State :=
  match s.cfg.tdefs with
  | none => some s
  | some ts =>
    (updGran ts s.cfg).bind fun (c, d1) =>
      (updThr ts c).bind fun c =>
        (updForget ts c).map fun (c, d2) =>
          let s := { s with cfg := c }
          if (d1 || d2) && s.sum != 0 then forgetSum s now else s

/-- include/osmocom/core/utils.h:24 `OSMO_MIN` -/
def osmoMin (a b : Nat) : Nat := if a ≥ b then b else a

/-- src/core/time_cc.c:197-210: the clock reading of the next event, `UINT64_MAX` for none -/
def nextEvent (s : State) (now : Nat) : Nat :=
  let e := 2 ^ 64 - 1
  let e := if s.cfg.forget ≠ 0 ∧ ¬ s.flag ∧ s.sum > 0 then osmoMin e (w64 (s.last + s.cfg.forget)) else e
  if s.flag then osmoMin e (w64 (w64 (now + sub64 s.reported s.sum) + s.cfg.thrUsec)) else e

/-- a `uint64_t` as an `int` argument -/
def toInt32 (n : Nat) : Int := (BitVec.ofNat 32 n).toInt

/-- src/core/time_cc.c:195-224 `osmo_time_cc_schedule_timer`.  `osmo_timer_schedule` takes `int` seconds and microseconds from now;
that its clock runs as the one read here is assumed. -/
def schedule (s : State) (now : Nat) : Option State :=
  (update s now).map fun s =>
    let e := nextEvent s now
    if e = 2 ^ 64 - 1 then s
    else
      let d := if e ≤ now then 0 else e - now
      { s with timer := some (now + toInt32 (d / 1000000) * 1000000 + toInt32 (d % 1000000)) }

/-- src/core/time_cc.c:91-97 `osmo_time_cc_cleanup` -/
def cleanup (s : State) : State :=
  { cfg := s.cfg, flag := false, total := 0, timer := none, start := 0, last := 0, sum := 0, reported := 0, ctr := s.ctr }

/-- src/core/time_cc.c:99-106 `osmo_time_cc_start` -/
def startUp (s : State) (now : Nat) : Option State :=
  (update { cleanup s with start := now, last := now } now).bind fun s => schedule s now

/-- src/core/time_cc.c:108-117 `osmo_time_cc_count_time` -/
def countTime (s : State) (now : Nat) : State :=
  let d := sub64 now s.last
  let s := { s with last := now }
  if !s.flag then s else { s with total := w64 (s.total + d), sum := w64 (s.sum + d) }

/-- src/core/time_cc.c:119-144 `osmo_time_cc_report`; src/core/rate_ctr.c:286-289 `rate_ctr_add` -/
def report (s : State) : State :=
  if s.reported > s.sum then s
  else
    let delta := s.sum - s.reported
    let n := delta / s.cfg.granUsec
    let delta := delta - n * s.cfg.granUsec
    let n := if delta ≥ s.cfg.thrUsec then n + 1 else n
    if n = 0 then s
    else
      let n := if n > 2 ^ 31 - 1 then 2 ^ 31 - 1 else n
      { s with ctr := s.ctr.map fun c => w64 (c + n), reported := w64 (s.reported + n * s.cfg.granUsec) }

/-- src/core/time_cc.c:162-175 `osmo_time_cc_set_flag` -/
def setFlag (s : State) (now : Nat) (flag : Bool) : Option State :=
  (if s.start = 0 then startUp s now else some s).bind fun s =>
    if flag = s.flag then some s
    else schedule { report (countTime s now) with flag := flag } now

/-- src/core/time_cc.c:177-192 `osmo_time_cc_timer_cb`; the timer is no longer pending then -/
def timerCb (s : State) (now : Nat) : Option State :=
  (update { s with timer := none } now).bind fun s =>
    let s := if s.flag then report (countTime s now)
      else if s.cfg.forget ≠ 0 ∧ s.sum ≠ 0 ∧ now ≥ w64 (s.last + s.cfg.forget) then forgetSum s now
      else s
    schedule s now

end Verif.TimeCc
