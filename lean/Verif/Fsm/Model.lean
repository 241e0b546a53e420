import Verif.Common
/-!
Model of src/core/fsm.c: state changes, events, termination.

The callbacks of the user are arbitrary programs, which may call the library
again at any point: a strategy gets its own memory, the callback it is in and
the world, and either returns or makes a call.  `main` is such a program, too.
Execution is a function of a number of steps; when the steps are used up, the
world reached so far is the result, so that a statement about all results is
one about all points of all executions, also of those which do not end.

Instances are numbers, never reused.  Left out: names and ids, logging to the
log, `fsm_log_timeouts`, talloc children other than instances (and that freeing
an instance frees the instances below it in the talloc tree),
`osmo_fsm_inst_broadcast_children`.  The log of the model records what the
theorems speak about.
-/
namespace Verif.Fsm

/-- include/osmocom/core/fsm.h:42-55 `struct osmo_fsm_state`: masks, and which
callbacks there are. -/
structure FsmState where
  inMask : BitVec 32
  outMask : BitVec 32
  hasAction : Bool
  hasOnenter : Bool
  hasOnleave : Bool
deriving Repr, DecidableEq

/-- include/osmocom/core/fsm.h:58-84 `struct osmo_fsm`. -/
structure Fsm where
  states : List FsmState
  allMask : BitVec 32
  hasAllstate : Bool
  hasCleanup : Bool
  hasTimerCb : Bool
  hasPreTerm : Bool
deriving Repr, DecidableEq

/-- include/osmocom/core/fsm.h:21-32 `enum osmo_fsm_term_cause`. -/
inductive Cause where
  | parent | request | regular | error | timeout
deriving Repr, DecidableEq

/-- include/osmocom/core/fsm.h:87-121 `struct osmo_fsm_inst`.  `timer` is what a
pending timer was scheduled with (seconds and microseconds); `linked`: member
of the list of instances of its FSM. -/
structure Inst where
  fsm : Fsm
  state : Nat
  T : Int
  timer : Option (Int × Nat)
  parent : Option Nat
  parentTermEvent : Nat
  children : List Nat
  terminating : Bool
  linked : Bool
deriving Repr, DecidableEq

/-- A callback, or the main program. -/
inductive Frame where
  | main
  | onleave (id next : Nat)
  | onenter (id prev : Nat)
  | action (id state event : Nat)
  | allstate (id event : Nat)
  | preTerm (id : Nat) (cause : Cause)
  | cleanup (id : Nat) (cause : Cause)
  | timerCb (id : Nat)
deriving Repr, DecidableEq

/-- What the model records. -/
inductive Ev where
  | allocated (id : Nat) (fsm : Fsm)
  /-- a change to `new` was accepted in state `old`; `onleave` comes next -/
  | leaving (id old new : Nat) (keep : Bool)
  /-- the state became `new`; `checked` is the state the change was accepted
  in, `old` the state just before -/
  | changed (id checked old new : Nat) (keep : Bool) (ms : Nat) (T : Int)
  | called (f : Frame)
  | terminating (id : Nat) (cause : Cause)
  | unlinked (id parent : Nat)
  | notified (id parent event : Nat)
  | fired (id : Nat)
  /-- `osmo_fsm_inst_free` was called -/
  | released (id : Nat)
  /-- the memory was given back -/
  | freed (id : Nat)
deriving Repr, DecidableEq

/-- All instances, and the variables of src/core/fsm.c:90-102: `collected` are the
instances in `collect_ctx` (which exists iff there are some), `dealloc` tells
whether `fsm_dealloc_ctx` is set.  `rc` is what the last call returned. -/
structure World (U : Type) where
  insts : Nat → Option Inst
  next : Nat
  safely : Bool
  depth : Nat
  collected : List Nat
  dealloc : Bool
  log : List Ev
  rc : Int
  u : U

/-- Calls the user can make.  `timeout` is the timer of an instance expiring,
which the main loop does. -/
inductive Op where
  | alloc (fsm : Fsm)
  | stateChg (id new : Nat) (keep : Bool) (ms : Nat) (T : Int)
  | dispatch (id : Option Nat) (event : Nat)
  | term (id : Nat) (cause : Cause)
  | termChildren (id : Nat) (cause : Cause)
  | free (id : Nat)
  | unlinkParent (id : Nat)
  | changeParent (id : Nat) (parent : Option Nat) (event : Nat)
  | timeout (id : Nat)
  | termSafely (on : Bool)
  | setDealloc (on : Bool)
deriving Repr, DecidableEq

/-- What remains to be executed. -/
inductive Call where
  | op (o : Op)
  | user (f : Frame)
  /-- the loop of `_osmo_fsm_inst_term_children` -/
  | children (id : Nat) (cause : Cause) (last : Option Nat)
deriving Repr, DecidableEq

/-- Outcome: a return value; out of steps; undefined behaviour (or a failed
assertion). -/
inductive Status where
  | ok (rc : Int) | steps | ub
deriving Repr, DecidableEq

/-- A program of the user: return a value, or call. -/
abbrev User (U : Type) := U → Frame → World U → U × (Int ⊕ Op)

variable {U : Type}

/-- Set an instance. -/
def World.put (w : World U) (id : Nat) (fi : Inst) : World U :=
  { w with insts := fun i => if i = id then some fi else w.insts i }

/-- Record an event. -/
def World.emit (w : World U) (e : Ev) : World U := { w with log := w.log ++ [e] }

/-- src/core/fsm.c:688-692: what `osmo_timer_schedule` is called with; its
parameters are of type `int`. -/
def sched (ms : Nat) : Int × Nat := ((BitVec.ofNat 32 (ms / 1000)).toInt, ms % 1000 * 1000)

/-- `llist_del(&fi->proc.child)`, src/core/fsm.c:506 and 942: the instance has to be
in the list of the parent. -/
def World.delChild (w : World U) (id p : Nat) : Option (World U) :=
  match w.insts p with
  | none => none
  | some pi => if id ∈ pi.children then some (w.put p { pi with children := pi.children.erase id }) else none

/-- `fsm_free_or_steal`, src/core/fsm.c:106-112: stolen instances stay valid. -/
def World.freeOrSteal (w : World U) : List Nat → World U
  | [] => w
  | id :: ids =>
    if w.dealloc then w.freeOrSteal ids
    else ({ w with insts := fun i => if i = id then none else w.insts i }.emit (.freed id)).freeOrSteal ids

/-- src/core/fsm.c:536-572 `osmo_fsm_inst_free`; `none` if the instance is gone
or was released before (`llist_del` of a list entry already deleted). -/
def World.free (w : World U) (id : Nat) : Option (World U) :=
  match w.insts id with
  | none => none
  | some fi =>
    if fi.linked then
      let w := (w.put id { fi with timer := none, linked := false }).emit (.released id)
      if w.depth ≠ 0 then some { w with collected := id :: w.collected }
      else some ({ w with collected := [] }.freeOrSteal (id :: w.collected))
    else none

/-- src/core/fsm.c:500-508 `osmo_fsm_inst_unlink_parent`. -/
def World.unlinkParent (w : World U) (id : Nat) : Option (World U) :=
  match w.insts id with
  | none => none
  | some fi =>
    match fi.parent with
    | none => some w
    | some p => (w.put id { fi with parent := none, parentTermEvent := 0 }).delChild id p

/-- src/core/fsm.c:517-531 `osmo_fsm_inst_change_parent`; `llist_add` is in
front. -/
def World.changeParent (w : World U) (id : Nat) (parent : Option Nat) (event : Nat) : Option (World U) :=
  match w.unlinkParent id with
  | none => none
  | some w =>
    match parent with
    | none => some w
    | some p =>
      match w.insts id with
      | none => none
      | some fi =>
        let w := w.put id { fi with parent := some p, parentTermEvent := event }
        match w.insts p with
        | none => none
        | some pi => some (w.put p { pi with children := id :: pi.children })

/-- A new instance, src/core/fsm.c:437-459 `osmo_fsm_inst_alloc`. -/
def newInst (fsm : Fsm) : Inst :=
  { fsm := fsm, state := 0, T := 0, timer := none, parent := none, parentTermEvent := 0, children := [],
    terminating := false, linked := true }

/-- src/core/fsm.c:907-917: the beginning of a termination. -/
def World.mark (w : World U) (id : Nat) (fi : Inst) (cause : Cause) : World U :=
  let w := (w.put id { fi with terminating := true }).emit (.terminating id cause)
  if w.safely ∨ w.depth ≠ 0 then { w with depth := w.depth + 1 } else w

/-- src/core/fsm.c:682-693: enter the new state. -/
def enter (fi : Inst) (new : Nat) (keep : Bool) (ms : Nat) (T : Int) : Inst :=
  if ¬ keep ∨ fi.timer = none then
    { fi with state := new, T := T, timer := if ms ≠ 0 then some (sched ms) else fi.timer }
  else { fi with state := new }

/-- What a step of execution gives. -/
abbrev Res (U : Type) := Status × World U

/-- Continue if all is well. -/
def Res.andThen (r : Res U) (k : Int → World U → Res U) : Res U :=
  match r.1 with
  | .ok rc => k rc r.2
  | _ => r

/-- Continue with the result of an operation that may be undefined. -/
def cont (w : World U) (r : Option (World U)) (k : World U → Res U) : Res U :=
  match r with
  | some w' => k w'
  | none => (.ub, w)

/-- Execution with at most `n` nested steps.

* `user`: the program of the user, call by call.
* `alloc`: src/core/fsm.c:437-459; gives the number of the instance.
* `stateChg`: src/core/fsm.c:619-700 `state_chg`, which all the
  `_osmo_fsm_inst_state_chg*` functions call.
* `dispatch`: src/core/fsm.c:833-878 `_osmo_fsm_inst_dispatch`.
* `term`: src/core/fsm.c:896-972 `_osmo_fsm_inst_term`.
* `children`: src/core/fsm.c:986-1015 `_osmo_fsm_inst_term_children`.
* `timeout`: src/core/fsm.c:311-333 `fsm_tmr_cb`.
* `termSafely`, `setDealloc`: src/core/fsm.c:168-171 and 193-196. -/
def exec (user : User U) : Nat → Call → World U → Res U
  | 0, _, w => (.steps, w)
  | n + 1, .user f, w =>
    match user w.u f w with
    | (u, .inl rc) => (.ok rc, { w with u := u })
    | (u, .inr o) =>
      (exec user n (.op o) { w with u := u }).andThen fun rc w =>
        exec user n (.user f) { w with rc := rc }
  | _ + 1, .op (.alloc fsm), w =>
    (.ok w.next, { (w.put w.next (newInst fsm)).emit (.allocated w.next fsm) with next := w.next + 1 })
  | n + 1, .op (.stateChg id new keep ms T), w =>
    match w.insts id with
    | none => (.ub, w)
    | some fi =>
      if fi.terminating then (.ok (-22), w)
      else
        match fi.fsm.states[fi.state]? with
        | none => (.ub, w)
        | some st =>
          if 32 ≤ new then (.ub, w)
          else if ¬ st.outMask.getLsbD new then (.ok (-1), w)
          else
            let w1 := (if keep then w else w.put id { fi with timer := none }).emit (.leaving id fi.state new keep)
            Res.andThen (if st.hasOnleave then exec user n (.user (.onleave id new)) w1 else (.ok 0, w1))
              fun _ w2 =>
              match w2.insts id, fi.fsm.states[new]? with
              | some fi2, some st2 =>
                let w3 := (w2.put id (enter fi2 new keep ms T)).emit
                  (.changed id fi.state fi2.state new keep ms T)
                Res.andThen (if st2.hasOnenter then exec user n (.user (.onenter id fi.state)) w3 else (.ok 0, w3))
                  fun _ w4 => (.ok 0, w4)
              | _, _ => (.ub, w2)
  | n + 1, .op (.dispatch id event), w =>
    match id with
    | none => (.ok (-19), w)
    | some id =>
      match w.insts id with
      | none => (.ub, w)
      | some fi =>
        if fi.terminating then (.ok (-22), w)
        else
          match fi.fsm.states[fi.state]? with
          | none => (.ub, w)
          | some fs =>
            if 32 ≤ event then (.ub, w)
            else if fi.fsm.allMask.getLsbD event ∧ fi.fsm.hasAllstate then
              Res.andThen (exec user n (.user (.allstate id event)) (w.emit (.called (.allstate id event))))
                fun _ w1 => (.ok 0, w1)
            else if ¬ fs.inMask.getLsbD event then (.ok (-1), w)
            else if fs.hasAction then
              Res.andThen (exec user n (.user (.action id fi.state event))
                (w.emit (.called (.action id fi.state event)))) fun _ w1 => (.ok 0, w1)
            else (.ok 0, w)
  | n + 1, .op (.term id cause), w =>
    match w.insts id with
    | none => (.ub, w)
    | some fi =>
      if fi.terminating then (.ok 0, w)
      else
        let w1 := w.mark id fi cause
        Res.andThen (if fi.fsm.hasPreTerm then
            exec user n (.user (.preTerm id cause)) (w1.emit (.called (.preTerm id cause))) else (.ok 0, w1))
          fun _ w2 =>
          Res.andThen (exec user n (.children id .parent none) w2) fun _ w3 =>
          match w3.insts id with
          | none => (.ub, w3)
          | some fi3 =>
            cont w3 (fi3.parent.elim (some w3) fun p => (w3.delChild id p).map fun w => w.emit (.unlinked id p))
              fun w4 =>
            Res.andThen (if fi.fsm.hasCleanup then
                exec user n (.user (.cleanup id cause)) (w4.emit (.called (.cleanup id cause))) else (.ok 0, w4))
              fun _ w5 =>
              match w5.insts id with
              | none => (.ub, w5)
              | some fi5 =>
                cont w5 (if w5.depth = 0 then w5.free id else some w5) fun w6 =>
                Res.andThen (fi5.parent.elim (.ok 0, w6) fun p =>
                    if cause ≠ .parent then
                      exec user n (.op (.dispatch (some p) fi.parentTermEvent))
                        (w6.emit (.notified id p fi.parentTermEvent))
                    else (.ok 0, w6)) fun _ w7 =>
                  cont w7 (if w7.depth ≠ 0 then ({ w7 with depth := w7.depth - 1 }).free id else some w7)
                    fun w8 => (.ok 0, w8)
  | n + 1, .op (.termChildren id cause), w => exec user n (.children id cause none) w
  | n + 1, .children id cause last, w =>
    match w.insts id with
    | none => (.ub, w)
    | some fi =>
      match fi.children with
      | [] => (.ok 0, w)
      | c :: _ =>
        if some c = last then (.ok 0, w)
        else
          Res.andThen (exec user n (.op (.term c cause)) w) fun _ w1 => exec user n (.children id cause (some c)) w1
  | _ + 1, .op (.free id), w => cont w (w.free id) fun w => (.ok 0, w)
  | _ + 1, .op (.unlinkParent id), w => cont w (w.unlinkParent id) fun w => (.ok 0, w)
  | _ + 1, .op (.changeParent id parent event), w => cont w (w.changeParent id parent event) fun w => (.ok 0, w)
  | n + 1, .op (.timeout id), w =>
    match w.insts id with
    | none => (.ub, w)
    | some fi =>
      if fi.timer = none then (.ok 0, w)
      else
        let w1 := (w.put id { fi with timer := none }).emit (.fired id)
        if fi.fsm.hasTimerCb then
          Res.andThen (exec user n (.user (.timerCb id)) (w1.emit (.called (.timerCb id)))) fun rc w2 =>
            if rc = 1 then exec user n (.op (.term id .timeout)) w2 else (.ok 0, w2)
        else exec user n (.op (.term id .timeout)) w1
  | _ + 1, .op (.termSafely on), w => (.ok 0, { w with safely := on })
  | _ + 1, .op (.setDealloc on), w => (.ok 0, { w with dealloc := on })

/-- Nothing allocated yet. -/
def World.init (u : U) : World U :=
  { insts := fun _ => none, next := 0, safely := false, depth := 0, collected := [], dealloc := false,
    log := [], rc := 0, u := u }

/-- The main program. -/
def run (user : User U) (n : Nat) (u : U) : Res U := exec user n (.user .main) (World.init u)

end Verif.Fsm
