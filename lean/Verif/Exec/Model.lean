import Verif.Common
/-!
Model of the environment functions of `src/core/exec.c`.

Strings are lists of octets without the terminating NUL.  An array of string
pointers is a list of `Option Str`, `none` = NULL, whose length is the size of
the array; an environment that is only read up to its NULL is a list of strings.
Pointers are compared by nobody and therefore the strings themselves.  `none` as
a result is an access outside of the array or a failing assertion.
-/
namespace Verif.Exec

/-- A C string. -/
abbrev Str := List Byte

/-- The octet `=`. -/
def eqSign : Byte := 0x3d#8

/-- `-EINVAL` of exec.c:92, 145. -/
def EINVAL : Int := -22

/-- exec.c:58-67, `str_in_list`. -/
def strInList (list : List Str) (key : Str) : Bool :=
  match list with
  | [] => false
  | e :: es => if e = key then true else strInList es key

/-- `strchr(s, '=') - s` of exec.c:102, 108. -/
def eqPos (s : Str) : Option Nat :=
  match s with
  | [] => none
  | c :: cs => if c = eqSign then some 0 else (eqPos cs).map (· + 1)

/-- An assignment to an element of the array. -/
def put (out : List (Option Str)) (i : Nat) (v : Option Str) : Option (List (Option Str)) :=
  if i < out.length then some (out.set i v) else none

/-- exec.c:101-119, the loop over the input entries. -/
def filterLoop (outLen : Nat) (whitelist : List Str) :
    List Str → List (Option Str) → Nat → Option (List (Option Str) × Nat)
  | [], out, used => some (out, used)
  | ent :: rest, out, used =>
    match eqPos ent with
    | none => filterLoop outLen whitelist rest out used
    | some pos =>
      if pos ≥ 256 then filterLoop outLen whitelist rest out used
      else if strInList whitelist (ent.take pos) then
        if used = outLen - 1 then some (out, used)
        else (put out used (some ent)).bind fun out => filterLoop outLen whitelist rest out (used + 1)
      else filterLoop outLen whitelist rest out used

/-- exec.c:84-123, `osmo_environment_filter`: the array and the return value;
`out = none` is the NULL pointer, as for the others. -/
def filter (out : Option (List (Option Str))) (outLen : Nat) (inp : Option (List Str)) (whitelist : Option (List Str)) :
    Option (Option (List (Option Str)) × Int) :=
  match out, whitelist with
  | some o, some w =>
    if outLen = 0 then some (some o, EINVAL)
    else match inp with
      | none => (put o 0 none).map fun o => (some o, 1)
      | some i =>
        (filterLoop outLen w i o 0).bind fun (o, used) =>
          if used < outLen then (put o used none).map fun o => (some o, (used + 1 : Nat)) else none
  | o, _ => some (o, EINVAL)

/-- exec.c:148, the search for the NULL from index `i` on. -/
def seek : List (Option Str) → Nat → Option Nat
  | [], _ => none
  | none :: _, i => some i
  | some _ :: t, i => seek t (i + 1)

/-- exec.c:156-157, the loop over the entries to append. -/
def appendLoop (outLen : Nat) : List Str → List (Option Str) → Nat → Option (List (Option Str) × Nat)
  | [], out, used => some (out, used)
  | e :: es, out, used =>
    if used < outLen - 1 then (put out used (some e)).bind fun out => appendLoop outLen es out (used + 1)
    else some (out, used)

/-- exec.c:140-163, `osmo_environment_append`. -/
def append (out : Option (List (Option Str))) (outLen : Nat) (inp : Option (List Str)) :
    Option (Option (List (Option Str)) × Int) :=
  match out with
  | none => some (none, EINVAL)
  | some o =>
    if outLen = 0 then some (some o, EINVAL)
    else (seek o 0).bind fun used =>
      match inp with
      | none =>
        if used = 0 then (put o 0 none).map fun o => (some o, 1)
        else some (some o, (used : Nat))
      | some i =>
        (appendLoop outLen i o used).bind fun (o, used) =>
          if used < outLen then (put o used none).map fun o => (some o, (used + 1 : Nat)) else none

end Verif.Exec
