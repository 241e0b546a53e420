import Verif.Common
/-!
`src/core/tdef.c`: timer definitions.  `unsigned long` has 64 bits, `int` 32; `none` is an aborted program (`OSMO_ASSERT`, `osmo_panic`),
a signed overflow, or a table read beyond its end.
-/
namespace Verif.Tdef

/-- `ULONG_MAX` -/
def ulongMax : Nat := 2 ^ 64 - 1

/-- include/osmocom/core/tdef.h:38-44 `enum osmo_tdef_unit` -/
inductive Unit where
  | s | ms | m | custom | us
  deriving DecidableEq, Repr

/-- include/osmocom/core/tdef.h:65-85 `struct osmo_tdef`; of `desc` only whether it is there -/
structure Entry where
  T : Int
  default : Nat
  unit : Unit
  desc : Bool
  val : Nat
  min : Nat
  max : Nat
  deriving DecidableEq, Repr

/-- src/core/tdef.c:89-126 `osmo_tdef_factor` -/
def factor (a b : Unit) : Nat :=
  if b = a ∨ b = .custom ∨ a = .custom then 1
  else match b, a with
    | .us, .ms => 1000
    | .us, .s => 1000 * 1000
    | .us, .m => 60 * 1000 * 1000
    | .us, _ => 0
    | .ms, .s => 1000
    | .ms, .m => 60 * 1000
    | .ms, _ => 0
    | .s, .m => 60
    | .s, _ => 0
    | _, _ => 0

/-- src/core/tdef.c:129-146 `osmo_tdef_round`; `none` is a division by zero -/
def round (val : Nat) (fromU toU : Unit) : Option Nat :=
  if val = 0 then some 0
  else
    let f := factor fromU toU
    if f = 1 then some val
    else if f < 1 then
      let f := factor toU fromU
      if f = 0 then none else some ((val / f + if val % f ≠ 0 then 1 else 0) % 2 ^ 64)
    else if f > ulongMax / val then some ulongMax
    else some (val * f % 2 ^ 64)

/-- include/osmocom/core/tdef.h:98-99: the condition of `osmo_tdef_for_each` -/
def Entry.live (e : Entry) : Bool := e.T != 0 || e.default != 0 || e.desc

/-- src/core/tdef.c:225-233 `osmo_tdef_get_entry`: the index of the entry; the array is a list, read to its end only -/
def getEntry : List Entry → Int → Option (Option Nat)
  | [], _ => none
  | e :: es, T => if !e.live then some none else if e.T = T then some (some 0) else (getEntry es T).map fun r => r.map (· + 1)

/-- src/core/tdef.c:263-266 `osmo_tdef_val_in_range` -/
def inRange (e : Entry) (v : Nat) : Bool := v ≥ e.min && (e.max == 0 || v ≤ e.max)

/-- src/core/tdef.c:154-166 `osmo_tdefs_reset` -/
def reset : List Entry → Option (List Entry)
  | [] => none
  | e :: es => if !e.live then some (e :: es) else if !inRange e e.default then none else (reset es).map ({ e with val := e.default } :: ·)

/-- src/core/tdef.c:208-216 `osmo_tdef_get` -/
def get (ts : List Entry) (T : Int) (u : Unit) (dflt : Int) : Option Nat := do
  let i ← getEntry ts T
  match i with
  | none => if dflt < 0 then none else some dflt.toNat
  | some i => (ts[i]?).bind fun e => round e.val e.unit u

/-- src/core/tdef.c:243-256 `osmo_tdef_set`: the return value (-17 is `-EEXIST`, -34 `-ERANGE`) and the array -/
def set (ts : List Entry) (T : Int) (val : Nat) (u : Unit) : Option (Int × List Entry) := do
  let i ← getEntry ts T
  match i with
  | none => some (-17, ts)
  | some i => (ts[i]?).bind fun e => (round val u e.unit).map fun v =>
      if !inRange e v then (-34, ts) else (0, ts.set i { e with val := v })

/-- include/osmocom/core/tdef.h:111-119 `struct osmo_tdef_state_timeout` -/
structure StateTimeout where
  T : Int
  keep : Bool
  deriving DecidableEq, Repr

/-- src/core/tdef.c:320-328 `osmo_tdef_get_state_timeout` -/
def stateTimeout (state : Nat) (tab : List StateTimeout) : Option (Option StateTimeout) :=
  if state < 32 then (tab[state]?).map fun t => if !t.keep && t.T == 0 then none else some t else none

/-- what is called -/
inductive Chg where
  /-- `_osmo_fsm_inst_state_chg(fi, state, 0, 0, …)` -/
  | plain
  /-- `_osmo_fsm_inst_state_chg_ms(fi, state, ms, T, …)` -/
  | start (ms : Nat) (T : Int)
  /-- `_osmo_fsm_inst_state_chg_keep_timer(fi, state, …)` -/
  | keep
  /-- `_osmo_fsm_inst_state_chg_keep_or_start_timer_ms(fi, state, ms, T, …)` -/
  | keepOrStart (ms : Nat) (T : Int)
  deriving DecidableEq, Repr

/-- src/core/tdef.c:346-358: `val_ms` -/
def stateMs (ts : List Entry) (T : Int) (dflt : Int) : Option Nat := do
  let i ← getEntry ts T
  match i with
  | none => if dflt < 0 ∨ 2 ^ 63 ≤ dflt * 1000 then none else some (dflt * 1000).toNat
  | some i => (ts[i]?).bind fun e => (round e.val e.unit .ms).map fun v => if e.unit = .custom then v * 1000 % 2 ^ 64 else v

/-- src/core/tdef.c:334-371 `_osmo_tdef_fsm_inst_state_chg` -/
def stateChg (state : Nat) (tab : List StateTimeout) (ts : List Entry) (dflt : Int) : Option Chg :=
  (stateTimeout state tab).bind fun t =>
    match t with
    | none => some .plain
    | some t =>
      (if t.T ≠ 0 then stateMs ts t.T dflt else some 0).bind fun ms =>
        if t.keep then some (if t.T ≠ 0 then .keepOrStart ms t.T else .keep)
        else if t.T = 0 then none else some (.start ms t.T)

end Verif.Tdef
