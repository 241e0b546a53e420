import Verif.Utils.NumModel
/-!
Model of src/core/use_count.c.

The linked list is a list of entries; a pointer to an entry is the entry with
the entries before and behind it.  A use token is NULL or a string.  A callback
that changes counts itself is the same as further operations of the history
(the call of `use_cb` is the last thing done); what is kept of it here is its
return value.
-/
namespace Verif.UseCount
open Verif.Utils

def INT32_MAX : Int := 2147483647
def INT32_MIN : Int := -2147483648

abbrev Tok := List Byte

/-- include/osmocom/core/use_count.h:190-200 `osmo_use_count_entry` -/
structure Entry where
  use : Option Tok
  count : Int
  deriving DecidableEq, Repr

/-- src/core/use_count.c:43-61 `count_safe`: new value and result; `none` is the
undefined behaviour of `-add` for INT32_MIN. -/
def countSafe (val add : Int) : Option (Int × Bool) :=
  if add < 0 ∧ val < 0 ∧ add = INT32_MIN then none
  else if add < 0 ∧ val < 0 ∧ val - INT32_MIN < -add then some (INT32_MIN, false)
  else if add > 0 ∧ val > 0 ∧ INT32_MAX - val < add then some (INT32_MAX, false)
  else some (val + add, true)

/-- src/core/use_count.c:75-77: the loop of `osmo_use_count_total` -/
def totalLoop : Int → List Entry → Option Int
  | total, [] => some total
  | total, e :: es => (countSafe total e.count).bind fun (r : Int × Bool) => totalLoop r.1 es

/-- src/core/use_count.c:67-79 `osmo_use_count_total` -/
def useCountTotal (s : List Entry) : Option Int := totalLoop 0 s

/-- first entry with a property, and what is before and behind it -/
def splitFirst (p : Entry → Bool) : List Entry → Option (List Entry × Entry × List Entry)
  | [] => none
  | e :: es => if p e then some ([], e, es) else (splitFirst p es).map fun (r : List Entry × Entry × List Entry) => (e :: r.1, r.2.1, r.2.2)

/-- src/core/use_count.c:164-174 `osmo_use_count_find`: tokens are compared by
their text, NULL only equals NULL. -/
def find (s : List Entry) (use : Option Tok) : Option (List Entry × Entry × List Entry) :=
  splitFirst (fun e => e.use == use) s

/-- src/core/use_count.c:86-95 `osmo_use_count_by` -/
def countBy (s : List Entry) (use : Option Tok) : Int :=
  match find s use with
  | none => 0
  | some (_, e, _) => e.count

/-- src/core/use_count.c:177-189 `osmo_use_count_repurpose_zero_entry` -/
def repurpose (s : List Entry) (use : Option Tok) : Option (List Entry × Entry × List Entry) :=
  (splitFirst (fun e => e.count == 0) s).map fun (r : List Entry × Entry × List Entry) => (r.1, { r.2.1 with use := use }, r.2.2)

/-- src/core/use_count.c:192-205 `osmo_use_count_create`; `alloc` tells whether
the allocation succeeds -/
def create (s : List Entry) (use : Option Tok) (alloc : Bool) : Option (List Entry × Entry × List Entry) :=
  if alloc then some (s, { use := use, count := 0 }, []) else none

/-- src/core/use_count.c:243-247: the entry to use -/
def obtain (s : List Entry) (use : Option Tok) (alloc : Bool) : Option (List Entry × Entry × List Entry) :=
  match find s use with
  | some r => some r
  | none =>
    match repurpose s use with
    | some r => some r
    | none => create s use alloc

def EINVAL : Int := 22
def ENOMEM : Int := 12
def ERANGE : Int := 34

/-- src/core/use_count.c:233-266 `_osmo_use_count_get_put` (`uc` not NULL); `cb`
is the return value of `use_cb`, 0 if there is none.  Outer `none` = undefined
behaviour. -/
def getPut (s : List Entry) (use : Option Tok) (change : Int) (alloc : Bool) (cb : Int) :
    Option (List Entry × Int) :=
  if change = 0 then some (s, 0)
  else
    match obtain s use alloc with
    | none => some (s, -ENOMEM)
    | some (a, e, b) =>
      let (a, b) := if e.count = 0 then (a ++ b, []) else (a, b)
      (countSafe e.count change).map fun (r : Int × Bool) =>
        if r.2 then (a ++ { e with count := r.1 } :: b, cb)
        else (a ++ e :: b, -ERANGE)

/-- src/core/use_count.c:291-304 `osmo_use_count_make_static_entries` -/
def makeStatic (s : List Entry) (n : Nat) : List Entry := s ++ List.replicate n { use := none, count := 0 }

/-- src/core/use_count.c:220-226 `osmo_use_count_free` of the entry of a token -/
def useFree (s : List Entry) (use : Option Tok) : List Entry :=
  match find s use with
  | none => s
  | some (a, _, b) => a ++ b

/-- `%d` -/
def decInt (v : Int) : List Byte := if v < 0 then 0x2d#8 :: decNat v.natAbs else decNat v.natAbs

/-- src/core/use_count.c:130-139: the texts printed for the entries -/
def strEntries : Bool → List Entry → List (List Byte) × Bool
  | first, [] => ([], first)
  | first, e :: es =>
    if e.count = 0 then strEntries first es
    else
      let r := strEntries false es
      ((if first then [] else [[0x2c#8]]) ++ (if e.count ≠ 1 then [decInt e.count ++ [0x2a#8]] else []) ++
        [e.use.getD [0x4e#8, 0x55#8, 0x4c#8, 0x4c#8]] ++ r.1, r.2)

/-- src/core/use_count.c:117-146 `osmo_use_count_to_str_buf` with the list
initialised: contents of the buffer and return value -/
def toStrBuf (s : List Entry) (win : List Byte) : Option (List Byte × Int) :=
  (useCountTotal s).bind fun (count : Int) =>
    let r := strEntries true s
    let ts := [decInt count ++ [0x20#8, 0x28#8]] ++ r.1 ++ (if r.2 then [[0x2d#8]] else []) ++ [[0x29#8]]
    (printAll (sbInit win) ts).map fun (sb : Sb) => (sb.buf, (sb.needed : Int))

end Verif.UseCount
