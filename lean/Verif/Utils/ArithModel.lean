import Verif.Common
/-!
Model of the arithmetic helpers of src/core/utils.c and
include/osmocom/core/utils.h: integer square root, Luhn digit, modulus macros.
-/
namespace Verif.Utils

/-- src/core/utils.c:1070-1073: the Newton loop of `osmo_isqrt32`; the sum is
computed in `uint32_t`, `none` = division by zero. -/
def isqrtLoop (x g0 g1 : Nat) : Option Nat :=
  if h : g1 < g0 then
    if g1 = 0 then none
    else isqrtLoop x g1 (((g1 + x / g1) % 2 ^ 32) / 2)
  else some g0
termination_by g0

/-- src/core/utils.c:1048-1064: the comparison cascade computing the shift `s`
from `x1 = x - 1`. -/
def isqrtShift (x1 : Nat) : Nat :=
  let s := 1
  let (s, x1) := if x1 > 0xffff then (s + 8, x1 / 2 ^ 16) else (s, x1)
  let (s, x1) := if x1 > 0xff then (s + 4, x1 / 2 ^ 8) else (s, x1)
  let (s, x1) := if x1 > 0xf then (s + 2, x1 / 2 ^ 4) else (s, x1)
  if x1 > 0x3 then s + 1 else s

/-- src/core/utils.c:1040-1075 `osmo_isqrt32` on a `uint32_t` given as `Nat`. -/
def isqrt32 (x : Nat) : Option Nat :=
  if x ≤ 1 then some x
  else
    let s := isqrtShift (x - 1)
    let g0 := 2 ^ s
    let g1 := ((g0 + x / 2 ^ s) % 2 ^ 32) / 2
    isqrtLoop x g0 g1

/-- `isdigit()` in the C locale, src/core/utils.c:1204 -/
def isDigit (c : Byte) : Bool := 0x30 ≤ c.toNat && c.toNat ≤ 0x39

/-- src/core/utils.c:1210 and 1218: `in[i] - '0'` for a digit character at index `i`. -/
def digitAt (inp : List Byte) (i : Nat) : Nat := (inp.getD i 0#8).toNat - 0x30

/-- src/core/utils.c:1209-1214: the loop over `i = n-1, n-3, ...`. -/
def luhnDbl (inp : List Byte) : Nat → Nat
  | 0 => 0
  | 1 => let dbl := digitAt inp 0 * 2; if dbl > 9 then dbl - 9 else dbl
  | n + 2 =>
    let dbl := digitAt inp (n + 1) * 2
    (if dbl > 9 then dbl - 9 else dbl) + luhnDbl inp n

/-- src/core/utils.c:1217-1218: the loop over `i = n-2, n-4, ...`. -/
def luhnRest (inp : List Byte) : Nat → Nat
  | 0 => 0
  | 1 => 0
  | n + 2 => digitAt inp n + luhnRest inp n

/-- result of `osmo_luhn`, src/core/utils.c:1205 and 1221 -/
inductive LuhnRes where
  | einval
  | digit (c : Byte)
  | overflow
  deriving DecidableEq, Repr

/-- src/core/utils.c:1198-1222 `osmo_luhn` on `in_len = inp.length`.  All
summands are non-negative, so `int` overflow happens iff the final product
overflows (`overflow` = undefined behaviour). -/
def luhn (inp : List Byte) : LuhnRes :=
  if inp.all isDigit then
    let sum := luhnDbl inp inp.length + luhnRest inp inp.length
    if sum * 9 < 2 ^ 31 then .digit (BitVec.ofNat 8 (sum * 9 % 10 + 0x30)) else .overflow
  else .einval

/-- include/osmocom/core/utils.h:189 `OSMO_MOD_FLR`; the C operator `%` is
`Int.tmod`.  `none` = division by zero.  Simplification: mathematical integers
(`INT_MIN % -1` is not modelled). -/
def modFlr (x y : Int) : Option Int :=
  if y = 0 then none
  else some (if (x > 0 ∧ y < 0) ∨ (x < 0 ∧ y > 0) then x.tmod y + y else x.tmod y)

/-- include/osmocom/core/utils.h:195 `OSMO_MOD_EUC`. -/
def modEuc (x y : Int) : Option Int :=
  if y = 0 then none
  else some (if x.tmod y < 0 then (if y > 0 then x.tmod y + y else x.tmod y - y) else x.tmod y)

end Verif.Utils
