import Verif.Common
/-!
Model of `src/core/signal.c`.

A handler is the triple of subsystem, function and data; functions and data are
numbers, for pointers that are only compared.  The list of handlers is a Lean
list.  What a callback does to the list is a list of registrations and
unregistrations that depends on the handler, the signal and its data.  Allocation
succeeds.  Nested dispatch from within a callback is not modelled.
-/
namespace Verif.Signal

/-- signal.c:38-43, `struct signal_handler`. -/
structure Handler where
  subsys : Nat
  cbfn : Nat
  data : Nat
deriving DecidableEq, Repr

/-- What a callback may do to the list. -/
inductive Op
  | register (h : Handler)
  | unregister (h : Handler)
deriving DecidableEq, Repr

/-- signal.c:61-79, `osmo_signal_register_handler`: at the tail. -/
def register (l : List Handler) (subsys cbfn data : Nat) : List Handler :=
  l ++ [{ subsys, cbfn, data }]

/-- signal.c:86-99, `osmo_signal_unregister_handler`: the first match. -/
def unregister (l : List Handler) (subsys cbfn data : Nat) : List Handler :=
  match l with
  | [] => []
  | h :: t =>
    if h.cbfn = cbfn ∧ h.data = data ∧ subsys = h.subsys then t
    else h :: unregister t subsys cbfn data

/-- The list as the iteration of signal.c:111 sees it: the handlers before the one
at which it is, that one (`none` once it is freed), the handlers behind it. -/
structure Cursor where
  pre : List Handler
  cur : Option Handler
  post : List Handler
deriving DecidableEq, Repr

/-- A registration or unregistration while the iteration is at the cursor: the
same walk along the list as `register` and `unregister`, in the three parts. -/
def Cursor.apply (c : Cursor) (op : Op) : Cursor :=
  match op with
  | .register h => { c with post := register c.post h.subsys h.cbfn h.data }
  | .unregister h =>
    if h ∈ c.pre then { c with pre := unregister c.pre h.subsys h.cbfn h.data }
    else if c.cur = some h then { c with cur := none }
    else { c with post := unregister c.post h.subsys h.cbfn h.data }

/-- The list that a cursor is in. -/
def Cursor.list (c : Cursor) : List Handler := c.pre ++ c.cur.toList ++ c.post

/-- signal.c:106-116, `osmo_signal_dispatch`: the handlers called and the list
afterwards.  `beh` is what the callback of a handler does for the signal.  To
proceed from a freed handler is `none`, as is running out of `fuel`. -/
def dispatch (beh : Handler → List Op) (subsys : Nat) : Nat → List Handler → List Handler →
    Option (List Handler × List Handler)
  | _, pre, [] => some ([], pre)
  | 0, _, _ :: _ => none
  | fuel + 1, pre, h :: post =>
    if h.subsys ≠ subsys then dispatch beh subsys fuel (pre ++ [h]) post
    else
      let c := (beh h).foldl Cursor.apply { pre, cur := some h, post }
      match c.cur with
      | none => none
      | some h => (dispatch beh subsys fuel (c.pre ++ [h]) c.post).map fun r => (h :: r.1, r.2)

end Verif.Signal
