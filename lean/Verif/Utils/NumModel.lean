import Verif.Utils.StrbufModel
/-!
Model of the number/text conversions of src/core/utils.c:
osmo_str_to_int64, osmo_str_to_int, osmo_float_str_to_int,
osmo_int_to_float_str_buf, together with `strtoll` of the C library.
C strings are byte lists without NUL inside.
-/
namespace Verif.Utils

def I64MAX : Int := 9223372036854775807
def I64MIN : Int := -9223372036854775808

/-- error codes used by the functions below -/
inductive Errno where
  | ok | EINVAL | ERANGE | EOVERFLOW | ENOTSUP | E2BIG
  deriving DecidableEq, Repr

/-- `isspace()` in the C locale -/
def isSpace (c : Byte) : Bool := c.toNat = 0x20 || (0x09 ≤ c.toNat && c.toNat ≤ 0x0d)

/-- digit value as used by `strtoll` (0-9, a-z, A-Z) -/
def digit36 (c : Byte) : Nat :=
  if 0x30 ≤ c.toNat ∧ c.toNat ≤ 0x39 then c.toNat - 0x30
  else if 0x41 ≤ c.toNat ∧ c.toNat ≤ 0x5a then c.toNat - 0x37
  else if 0x61 ≤ c.toNat ∧ c.toNat ≤ 0x7a then c.toNat - 0x57
  else 99

/-- Horner evaluation of a digit string -/
def horner (b : Nat) (ds : List Byte) : Nat := ds.foldl (fun v d => v * b + digit36 d) 0

/-- result of `strtoll`: value, characters from `endptr` on, `errno` -/
structure StrtollRes where
  val : Int
  rest : List Byte
  errno : Errno
  deriving DecidableEq, Repr

/-- optional `0x`/`0X` prefix, only taken when a hexadecimal digit follows -/
def hexPrefix (s : List Byte) : Bool :=
  match s with
  | z :: x :: d :: _ => z = 0x30#8 && (x = 0x78#8 || x = 0x58#8) && digit36 d < 16
  | _ => false

/-- `strtoll(str, &endptr, base)` (C11 7.22.1.4, C locale, `long long` of 64
bit; an invalid base sets EINVAL as in POSIX/glibc; the `0b` prefix of C23 is
not modelled). -/
def strtoll (s : List Byte) (base : Int) : StrtollRes :=
  if base < 0 ∨ base = 1 ∨ base > 36 then { val := 0, rest := s, errno := .EINVAL }
  else
    let s1 := s.dropWhile isSpace
    let neg := s1.head? = some 0x2d#8
    let s2 := if s1.head? = some 0x2d#8 ∨ s1.head? = some 0x2b#8 then s1.drop 1 else s1
    let pfx := (base = 0 ∨ base = 16) ∧ hexPrefix s2
    let b := if pfx then 16 else if base = 0 then (if s2.head? = some 0x30#8 then 8 else 10) else base.toNat
    let s3 := if pfx then s2.drop 2 else s2
    let ds := s3.takeWhile fun c => digit36 c < b
    if ds = [] then { val := 0, rest := s, errno := .ok }
    else
      let v : Int := if neg then -(horner b ds : Int) else horner b ds
      let rest := s3.drop ds.length
      if v > I64MAX then { val := I64MAX, rest := rest, errno := .ERANGE }
      else if v < I64MIN then { val := I64MIN, rest := rest, errno := .ERANGE }
      else { val := v, rest := rest, errno := .ok }

/-- src/core/utils.c:1493-1536 `osmo_str_to_int64`: `*result` and return code
(`.ok` = 0, otherwise the negated errno).  `str` non-NULL.  The comparisons of
the `long long` value with INT64_MIN/MAX (lines 1505-1514) never hold as both
types have 64 bit. -/
def strToInt64 (s : List Byte) (base mn mx : Int) : Int × Errno :=
  if s = [] then (0, .EINVAL)
  else
    let r := strtoll s base
    match r.errno with
    | .ERANGE => (r.val, .EOVERFLOW)
    | .ok =>
      if r.rest ≠ [] then
        if r.rest.length = s.length then (r.val, .EINVAL) else (r.val, .E2BIG)
      else if r.val < mn ∨ r.val > mx then (r.val, .ERANGE)
      else (r.val, .ok)
    | _ => (r.val, .ENOTSUP)

def IMAX : Int := 2147483647
def IMIN : Int := -2147483648

/-- src/core/utils.c:1552-1571 `osmo_str_to_int` -/
def strToInt (s : List Byte) (base mn mx : Int) : Int × Errno :=
  let r := strToInt64 s base mn mx
  if r.1 < IMIN then (IMIN, .EOVERFLOW)
  else if r.1 > IMAX then (IMAX, .EOVERFLOW)
  else r

/-- src/core/utils.c:1339-1341 and 1371-1373: is the outcome of a strtoll call a range error? -/
def rangeErr (r : StrtollRes) : Bool :=
  (r.errno = .ERANGE && (r.val = I64MAX || r.val = I64MIN)) || (r.errno ≠ .ok && r.val = 0)

/-- `isdigit()` -/
def isDig (c : Byte) : Bool := 0x30 ≤ c.toNat && c.toNat ≤ 0x39

/-- src/core/utils.c:1325-1332: only digits and at most one point? -/
def floatValid : Bool → List Byte → Bool
  | _, [] => true
  | seen, c :: cs =>
    if c = 0x2e#8 then (if seen then false else floatValid true cs)
    else if isDig c then floatValid seen cs else false

/-- src/core/utils.c:1355-1361: the digit string `decimal_str` of `p` characters -/
def decStr (F : List Byte) (p : Nat) : List Byte :=
  F.take p ++ List.replicate (p - (F.take p).length) 0x30#8

/-- src/core/utils.c:1350-1377: the fraction part; `F` are the characters behind
the point -/
def decPart (F : List Byte) (hasPoint : Bool) (p : Nat) : Int × Errno :=
  if p ≠ 0 ∧ hasPoint = true ∧ F ≠ [] then
    let skip := if p < 20 then 0 else p - 20
    let dstr := decStr F p
    if (dstr.take skip).any (· ≠ 0x30#8) then (0, .ERANGE)
    else
      let d := strtoll (dstr.drop skip) 10
      if rangeErr d then (0, .ERANGE)
      else if d.rest ≠ [] then (0, .EINVAL)
      else (d.val, .ok)
  else (0, .ok)

/-- src/core/utils.c:1379-1404: range check and combination -/
def combine (i : Int) (dec : Int) (neg : Bool) (p : Nat) : Int × Errno :=
  let factor : Int := if p > 18 then 0 else 10 ^ p
  let imax : Int := if p > 18 then 0 else I64MAX / factor
  let dmax : Int := if p > 18 then I64MAX else if i = imax then I64MAX % factor else I64MAX
  if i > imax then (0, .ERANGE)
  else if dec > dmax then (0, .ERANGE)
  else ((if neg then -1 else 1) * (i * factor + dec), .ok)

/-- src/core/utils.c:1319-1404: the text behind the sign -/
def floatBody (str : List Byte) (neg : Bool) (p : Nat) : Int × Errno :=
  if str = [] then (0, .EINVAL)
  else if floatValid false str = false then (0, .EINVAL)
  else
    let hasPoint := str.contains 0x2e#8
    let before := str.takeWhile (· ≠ 0x2e#8)   -- characters before the point
    let after := str.drop (before.length + 1)  -- characters after the point
    let r := strtoll str 10
    -- `!point || point > str`
    let useInt := !hasPoint || !before.isEmpty
    if useInt && rangeErr r then (0, .ERANGE)
    else if useInt && r.rest.length ≠ str.length - before.length then (0, .EINVAL)
    else
      let dec := decPart after hasPoint p
      if dec.2 ≠ .ok then (0, dec.2)
      else combine (if useInt then r.val else 0) dec.1 neg p

/-- src/core/utils.c:1295-1405 `osmo_float_str_to_int`; result: `*val` and the
return code.  Simplification: `precision + 1` does not wrap and the VLA fits. -/
def floatStrToInt (str : List Byte) (precision : Nat) : Int × Errno :=
  floatBody (if str.head? = some 0x2d#8 ∨ str.head? = some 0x2b#8 then str.drop 1 else str)
    (str.head? = some 0x2d#8) precision

/-- `"%lld"` of a non-negative value -/
def decNat (n : Nat) : List Byte := (Nat.toDigits 10 n).map fun ch => BitVec.ofNat 8 ch.toNat

/-- `"%0*lld"` with width `w` of a non-negative value -/
def decNatW (w n : Nat) : List Byte :=
  List.replicate (w - (decNat n).length) 0x30#8 ++ decNat n

/-- src/core/utils.c:1460-1463: `while (!(val % 10)) { val /= 10; w--; }`;
fuel = width (each iteration lowers it); `none` = more iterations. -/
def stripZeros : Nat → Nat → Option (Nat × Nat)
  | 0, v => if v % 10 ≠ 0 then some (v, 0) else none
  | w + 1, v => if v % 10 ≠ 0 then some (v, w + 1) else stripZeros w (v / 10)

/-- `OSMO_STRBUF_PRINTF` of the given texts one after the other -/
def printAll (sb : Sb) : List (List Byte) → Option Sb
  | [] => some sb
  | t :: ts => (appendWith sb (snprintfText t)).bind fun sb => printAll sb ts

/-- src/core/utils.c:1458-1464: the text of the fraction, trailing zeros skipped;
`none` = the loop does not end -/
def fracText (prec v : Nat) : Option (List Byte) :=
  (stripZeros prec v).map fun (x : Nat × Nat) => decNatW x.2 x.1

/-- src/core/utils.c:1426-1464: the texts printed one after the other by
`osmo_int_to_float_str_buf`; they depend on the value only, not on the buffer.
`val` is an `int64_t`. -/
def floatPieces (val : Int) (precision : Nat) : Option (List (List Byte)) :=
  let sign : List (List Byte) := if val < 0 then [[0x2d#8]] else []
  if val = I64MIN then some (sign ++ [[0x45#8, 0x52#8, 0x52#8]])
  else
    let v := val.natAbs
    if precision > 18 then
      if v = 0 then some (sign ++ [[0x30#8]])
      else (fracText 19 v).map fun (f : List Byte) =>
        sign ++ [[0x30#8, 0x2e#8]] ++ List.replicate (precision - 19) [0x30#8] ++ [f]
    else
      let i := decNat (v / 10 ^ precision)
      if v % 10 ^ precision = 0 then some (sign ++ [i])
      else (fracText precision (v % 10 ^ precision)).map fun (f : List Byte) => sign ++ [i, [0x2e#8], f]

/-- src/core/utils.c:1420-1466 `osmo_int_to_float_str_buf` as an snprintf-like
function. -/
def intToFloatStrBuf (val : Int) (precision : Nat) (win : List Byte) : Option (List Byte × Int) :=
  (floatPieces val precision).bind fun (ts : List (List Byte)) =>
    (printAll (sbInit win) ts).map fun (sb : Sb) => (sb.buf, (sb.needed : Int))

end Verif.Utils
