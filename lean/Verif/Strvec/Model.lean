import Verif.Common
/-!
Model of `cmd_make_strvec2` of `src/vty/command.c`.

A string is a list of octets other than NUL.  `isspace` is that of the C locale,
false for octets from 128 on (whose `char` is negative).  The vector of tokens is
a list: `vector_set` puts a value that is not NULL behind the others (C167).
Allocation succeeds.
-/
namespace Verif.Strvec

/-- A C string. -/
abbrev Str := List Byte

/-- `CMD_ERR_INVALID_INDENT` of command.h:206. -/
def INVALID_INDENT : Int := 11

/-- `isspace()`. -/
def isspace (c : Byte) : Bool := decide (c = 32#8 ∨ (9 ≤ c.toNat ∧ c.toNat ≤ 13))

/-- command.c:283-295, the loop over the leading white space, from `cp` on with
`ind` between `string` and `cp`: what is left, and the indentation. -/
def skipIndent (strict : Bool) : Str → Str → Except Int (Str × Str)
  | [], ind => .ok ([], ind)
  | c :: cs, ind =>
    if isspace c then
      if strict && c ≠ 32#8 && c ≠ 9#8 then
        if c = 10#8 ∨ c = 13#8 then skipIndent strict cs []
        else .error INVALID_INDENT
      else skipIndent strict cs (ind ++ [c])
    else .ok (c :: cs, ind)

/-- command.c:312-315, the octets of a token and what is left. -/
def token : Str → Str × Str
  | [] => ([], [])
  | c :: cs =>
    if !(isspace c || c = 13#8 || c = 10#8) then
      let (t, r) := token cs
      (c :: t, r)
    else ([], c :: cs)

/-- command.c:322-324, the white space behind a token. -/
def skip : Str → Str
  | [] => []
  | c :: cs => if isspace c || c = 10#8 || c = 13#8 then skip cs else c :: cs

/-- command.c:311-328, the loop over the tokens, at most `fuel` times. -/
def tokens : Nat → Str → Option (List Str)
  | 0, _ => none
  | fuel + 1, cp =>
    let (t, r) := token cp
    match skip r with
    | [] => some [t]
    | r => (tokens fuel r).map (t :: ·)

/-- What the function leaves for the caller: the indentation and the vector, each
possibly NULL; `none` stands for a loop that does not end. -/
abbrev Result := Option (Except Int (Option Str × Option (List Str)))

/-- command.c:266-332, `cmd_make_strvec2`; `strict` is whether `indent` is given. -/
def make (strict : Bool) (string : Option Str) : Result :=
  match string with
  | none => some (.ok (none, none))
  | some s =>
    match skipIndent strict s [] with
    | .error e => some (.error e)
    | .ok (cp, ind) =>
      let indent := if strict then some ind else none
      match cp with
      | [] => some (.ok (indent, none))
      | c :: cs =>
        if c = 33#8 ∨ c = 35#8 then some (.ok (indent, none))
        else (tokens (c :: cs).length (c :: cs)).map fun ts => .ok (indent, some ts)

end Verif.Strvec
