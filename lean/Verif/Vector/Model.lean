import Verif.Common
/-!
Model of `src/vty/vector.c`.

A slot is an `Option α`, `none` = NULL; `index` are the slots allocated, whose
number is `alloced`.  Sizes do not overflow 32 bits and allocation succeeds.
`none` as a result is an access outside of the slots allocated, or a recursion
that does not end.
-/
namespace Verif.Vector
variable {α : Type}

/-- vector.h:22-26, `struct _vector`. -/
structure Vec (α : Type) where
  index : List (Option α)
  active : Nat
deriving DecidableEq, Repr

/-- vector.c:37-56, `vector_init`. -/
def init (size : Nat) : Vec α :=
  let size := if size = 0 then 1 else size
  { index := List.replicate size none, active := 0 }

/-- vector.c:74-93, `vector_copy`. -/
def copy (v : Vec α) : Vec α := { index := v.index.take v.index.length, active := v.active }

/-- vector.c:96-108, `vector_ensure`, with at most `fuel` calls. -/
def ensureF : Nat → Vec α → Nat → Option (Vec α)
  | 0, _, _ => none
  | fuel + 1, v, num =>
    if v.index.length > num then some v
    else
      let w := { v with index := v.index ++ List.replicate v.index.length none }
      if w.index.length ≤ num then ensureF fuel w num else some w

/-- vector.c:96-108, `vector_ensure`: a recursion that ends does so within
`num + 1` calls (each makes the vector larger unless it has no slot at all). -/
def ensure (v : Vec α) (num : Nat) : Option (Vec α) := ensureF (num + 1) v num

/-- vector.c:120-124, the loop from `i` on over `n` slots. -/
def emptyFrom (v : Vec α) : Nat → Nat → Option Nat
  | i, 0 => some i
  | i, n + 1 =>
    match v.index[i]? with
    | none => none
    | some none => some i
    | some (some _) => emptyFrom v (i + 1) n

/-- vector.c:113-125, `vector_empty_slot`. -/
def emptySlot (v : Vec α) : Option Nat :=
  if v.active = 0 then some 0 else emptyFrom v 0 v.active

/-- vector.c:144-154, `vector_set_index`; returns `i`. -/
def setIndex (v : Vec α) (i : Nat) (val : Option α) : Option (Vec α) := do
  let v ← ensure v i
  if i < v.index.length then
    some { index := v.index.set i val, active := if v.active ≤ i then i + 1 else v.active }
  else none

/-- vector.c:128-141, `vector_set`: the vector and the index returned. -/
def set (v : Vec α) (val : Option α) : Option (Vec α × Nat) := do
  let i ← emptySlot v
  let v ← ensure v i
  if i < v.index.length then
    some ({ index := v.index.set i val, active := if v.active ≤ i then i + 1 else v.active }, i)
  else none

/-- vector.c:157-162, `vector_lookup`. -/
def lookup (v : Vec α) (i : Nat) : Option (Option α) :=
  if i ≥ v.active then some none else v.index[i]?

/-- vector.c:165-169, `vector_lookup_ensure`. -/
def lookupEnsure (v : Vec α) (i : Nat) : Option (Vec α × Option α) := do
  let v ← ensure v i
  let x ← v.index[i]?
  some (v, x)

/-- vector.c:181, the loop with `i` and `active`. -/
def trim (index : List (Option α)) : Nat → Nat → Option Nat
  | 0, active => some active
  | i + 1, active =>
    match index[i]? with
    | none => none
    | some (some _) => some active
    | some none => if active = 0 then some (2 ^ 32 - 1) else trim index i (active - 1)

/-- vector.c:172-183, `vector_unset`. -/
def unset (v : Vec α) (i : Nat) : Option (Vec α) :=
  if i ≥ v.index.length then some v
  else
    let index := v.index.set i none
    if i + 1 = v.active then
      (trim index i (v.active - 1)).map fun a => { index, active := a }
    else some { index, active := v.active }

/-- vector.c:191-193, the loop from `i` on over `n` slots. -/
def countFrom (v : Vec α) : Nat → Nat → Option Nat
  | _, 0 => some 0
  | i, n + 1 =>
    match v.index[i]? with
    | none => none
    | some none => countFrom v (i + 1) n
    | some (some _) => (countFrom v (i + 1) n).map (· + 1)

/-- vector.c:186-196, `vector_count`. -/
def count (v : Vec α) : Option Nat := countFrom v 0 v.active

end Verif.Vector
