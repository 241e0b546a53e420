import Verif.Lapd.Model
/-!
Two LAPD entities and the line between them.
-/
namespace Verif.Lapd
open Verif

/-- two data links, what waits on the line is in the `tx` of either; and what each was asked to send (DL-DATA requests with octets) -/
structure Sys where
  a : DL
  b : DL
  reqA : List (List Byte)
  reqB : List (List Byte)

/-- the line brings the frames in their order, but may lose any of them -/
inductive Ev where
  /-- a message is to be sent by `a` -/
  | data (m : List Byte)
  /-- the first frame from `b` reaches `a` -/
  | recv
  /-- the frame at a place of those on their way from `b` to `a` is lost -/
  | lose (n : Nat)
  /-- the timers of `a` expire -/
  | t200
  | t203
  deriving DecidableEq

/-- what happens at `a` -/
def stepA (s : Sys) : Ev → Option Sys
  | .data m => (dataReq s.a m).map fun a => { s with a := a, reqA := if m = [] then s.reqA else s.reqA ++ [m] }
  | .recv => match s.b.tx with
    | [] => some s
    | f :: fs => (rx s.a f).map fun a => { s with a := a, b := { s.b with tx := fs } }
  | .lose n => some { s with b := { s.b with tx := s.b.tx.eraseIdx n } }
  | .t200 => (t200Cb s.a).map fun a => { s with a := a }
  | .t203 => some { s with a := t203Cb s.a }

def Sys.swap (s : Sys) : Sys := ⟨s.b, s.a, s.reqB, s.reqA⟩

/-- an event, at `b` for `true` -/
def step (s : Sys) (e : Bool × Ev) : Option Sys :=
  if e.1 then (stepA s.swap e.2).map Sys.swap else stepA s e.2

def run (s : Sys) : List (Bool × Ev) → Option Sys
  | [] => some s
  | e :: es => (step s e).bind fun s => run s es

/-- a side is in one of the two states of an established link -/
def Est (d : DL) : Prop := d.state = .mfEst ∨ d.state = .timerRecov

instance (d : DL) : Decidable (Est d) := inferInstanceAs (Decidable (_ ∨ _))

/-- `a` asks for a link, `b` accepts, `a` learns of it -/
def establish (a b : DL) : Option Sys :=
  let a := estReq a
  match a.tx with
  | [f] => (rx b f).bind fun b =>
    match b.tx with
    | [g] => (rx { a with tx := [] } g).map fun a => ⟨a, { b with tx := [] }, [], []⟩
    | _ => none
  | _ => none

end Verif.Lapd
