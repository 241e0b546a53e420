import Verif.Common
/-!
Model of the BCD and hexadecimal text conversions of src/core/utils.c.
C strings are byte lists without their NUL; output buffers are byte lists whose
length is the size of the allocation, an access outside yields `none`.
-/
namespace Verif.Utils

def EINVAL : Int := 22
def ENOMEM : Int := 12

/-- src/core/utils.c:118-124 `osmo_bcd2char` -/
def bcd2char (bcd : Byte) : Byte :=
  if bcd.toNat < 0xa then 0x30#8 + bcd else 0x41#8 + (bcd - 0xa#8)

/-- src/core/utils.c:130-140 `osmo_char2bcd` -/
def char2bcd (c : Byte) : Byte :=
  if 0x30 ≤ c.toNat ∧ c.toNat ≤ 0x39 then c - 0x30#8
  else if 0x41 ≤ c.toNat ∧ c.toNat ≤ 0x46 then 0xa#8 + (c - 0x41#8)
  else if 0x61 ≤ c.toNat ∧ c.toNat ≤ 0x66 then 0xa#8 + (c - 0x61#8)
  else 0#8

/-- src/core/utils.c:168-171: fetch nibble `i` -/
def fetchNibble (bcd : List Byte) (i : Nat) : Option Byte :=
  (bcd[i / 2]?).map fun (b : Byte) => (if i % 2 = 1 then b >>> 4 else b) &&& 0xf#8

/-- src/core/utils.c:167-177: the loop with `r = dst_end - dst` stores left;
`pos` is the offset of `dst`. -/
def bcd2strLoop (bcd : List Byte) (endN : Int) (allowHex : Bool) :
    Nat → Nat → Nat → List Byte → Int → Option (List Byte × Nat × Int)
  | 0, _, pos, dst, rc => some (dst, pos, rc)
  | r + 1, ni, pos, dst, rc =>
    if (ni : Int) < endN then
      (fetchNibble bcd ni).bind fun nib =>
        let rc' := if !allowHex && nib.toNat > 9 then -EINVAL else rc
        if pos < dst.length then
          bcd2strLoop bcd endN allowHex r (ni + 1) (pos + 1) (dst.set pos (bcd2char nib)) rc'
        else none
    else some (dst, pos, rc)

/-- src/core/utils.c:156-183 `osmo_bcd2str` for a non-NULL `dst` of `dst_size =
dst.length` bytes; result: new content of `dst` and the return value. -/
def bcd2str (dst bcd : List Byte) (startN endN : Int) (allowHex : Bool) : Option (List Byte × Int) :=
  if dst.length < 1 ∨ startN < 0 then some (dst, -ENOMEM)
  else
    (bcd2strLoop bcd endN allowHex (dst.length - 1) startN.toNat 0 dst 0).bind fun (d, pos, rc) =>
      if pos < d.length then
        some (d.set pos 0#8, if rc < 0 then rc else max 0 (endN - startN))
      else none

/-- src/core/utils.c:224-231 and 269-276: value of a hex digit -/
def digitVal (allowHex : Bool) (c : Byte) : Option Byte :=
  if 0x30 ≤ c.toNat ∧ c.toNat ≤ 0x39 then some (c - 0x30#8)
  else if allowHex ∧ 0x41 ≤ c.toNat ∧ c.toNat ≤ 0x46 then some (0xa#8 + (c - 0x41#8))
  else if allowHex ∧ 0x61 ≤ c.toNat ∧ c.toNat ≤ 0x66 then some (0xa#8 + (c - 0x61#8))
  else none

/-- src/core/utils.c:218-238: `n` iterations left, `ni` = `nibble_i`; the Bool
is false when the loop returned `-EINVAL`. -/
def str2bcdLoop (allowHex : Bool) : Nat → Nat → List Byte → List Byte → Option (List Byte × Bool)
  | 0, _, _, dst => some (dst, true)
  | n + 1, ni, digits, dst =>
    let store (nib : Byte) (rest : List Byte) : Option (List Byte × Bool) :=
      (dst[ni / 2]?).bind fun o =>
        let nib := nib &&& 0xf#8
        let o' := if ni % 2 = 1 then (nib <<< 4) ||| (o &&& 0x0f#8) else (o &&& 0xf0#8) ||| nib
        str2bcdLoop allowHex n (ni + 1) rest (dst.set (ni / 2) o')
    match digits with
    | [] => store 0xf#8 []
    | c :: rest =>
      match digitVal allowHex c with
      | none => some (dst, false)
      | some v => store v rest

/-- src/core/utils.c:201-242 `osmo_str2bcd` for a non-NULL `dst`; result: new
content of `dst` and the return value.  Simplification: `start_nibble +
strlen(digits)` does not overflow `int`. -/
def str2bcd (dst digits : List Byte) (startN endN : Int) (allowHex : Bool) : Option (List Byte × Int) :=
  if dst.length = 0 ∨ startN < 0 then some (dst, -ENOMEM)
  else
    let e := if endN < 0 then startN + digits.length else endN
    let endN := if endN < 0 ∧ e % 2 = 1 then e + 1 else e
    if endN / 2 > dst.length then some (dst, -ENOMEM)
    else
      (str2bcdLoop allowHex (endN - startN).toNat startN.toNat digits dst).map fun (d, ok) =>
        (d, if ok then endN / 2 else -EINVAL)

/-- src/core/utils.c:262-263: the white space skipped by `osmo_hexparse` -/
def isHexSpace (c : Byte) : Bool := c = 0x20#8 || c = 0x09#8 || c = 0x0a#8 || c = 0x0d#8

/-- src/core/utils.c:260-287: the loop of `osmo_hexparse` and its epilogue; `limit` is
`max_len << 1`. Result: buffer and return value. -/
def hexparseLoop (limit : Nat) : List Byte → Nat → List Byte → Option (List Byte × Int)
  | [], np, b => some (b, if np % 2 = 1 then -1 else (np / 2 : Nat))
  | c :: rest, np, b =>
    if isHexSpace c then hexparseLoop limit rest np b
    else if np ≥ limit then some (b, -1)
    else
      match digitVal true c with
      | none => some (b, -1)
      | some v =>
        (b[np / 2]?).bind fun o =>
          hexparseLoop limit rest (np + 1)
            (b.set (np / 2) (o ||| (v <<< (if np % 2 = 1 then 0 else 4))))

/-- src/core/utils.c:250-288 `osmo_hexparse` into a buffer of `max_len =
b.length` bytes; `max_len << 1` in 32 bit. -/
def hexparse (str b : List Byte) : Option (List Byte × Int) :=
  hexparseLoop ((b.length * 2) % 2 ^ 32) str 0 (List.replicate b.length 0#8)

/-- src/core/utils.c:291 `hex_chars` -/
def hexChars : List Byte := [0x30, 0x31, 0x32, 0x33, 0x34, 0x35, 0x36, 0x37, 0x38, 0x39,
  0x61, 0x62, 0x63, 0x64, 0x65, 0x66]

/-- bounds-checked store of one char -/
def putc (out : List Byte) (i : Nat) (c : Byte) : Option (List Byte) :=
  if i < out.length then some (out.set i c) else none

/-- src/core/utils.c:335-338: `while (len_remain > 1 && *delimp)` -/
def copyDelim : List Byte → Int → Nat → List Byte → Option (List Byte × Nat)
  | [], _, cur, out => some (out, cur)
  | d :: ds, rem, cur, out =>
    if rem > 1 then (putc out cur d).bind fun out => copyDelim ds (rem - 1) (cur + 1) out
    else some (out, cur)

/-- src/core/utils.c:322-339: the loop over the remaining input bytes; `cur` is
the write offset; returns the final offset. -/
def hexdumpLoop (delim : List Byte) (dal : Bool) : List Byte → Nat → List Byte → Option (List Byte × Nat)
  | [], cur, out => some (out, cur)
  | x :: rest, cur, out =>
    let rem : Int := out.length - cur - 1
    let last := rest.isEmpty
    if rem < 2 + delim.length ∧ ¬ (!dal ∧ last ∧ rem ≥ 2) then some (out, cur)
    else
      (putc out cur (hexChars.getD (x >>> 4).toNat 0#8)).bind fun out =>
      (putc out (cur + 1) (hexChars.getD (x &&& 0xf#8).toNat 0#8)).bind fun out =>
        if last ∧ !dal then some (out, cur + 2)
        else
          (copyDelim delim rem (cur + 2) out).bind fun (out, cur) =>
            hexdumpLoop delim dal rest cur out

/-- src/core/utils.c:309-342 `osmo_hexdump_buf` with `out_buf_size =
out.length`; `len = buf.length`, `delim` a (possibly empty) string.
Simplification: sizes below 2^31. -/
def hexdumpBuf (out buf delim : List Byte) (dal : Bool) : Option (List Byte) :=
  if out.length = 0 then some out
  else (hexdumpLoop delim dal buf 0 out).bind fun (out, cur) => putc out cur 0#8

/-- src/core/utils.c:351-379 `osmo_ubit_dump_buf` with `buf_len = out.length >
0`. -/
def ubitDumpBuf (out bits : List Byte) : List Byte :=
  let len := min bits.length (out.length - 1)
  let outch (b : Byte) : Byte :=
    if b = 0#8 then 0x30#8 else if b = 0xff#8 then 0x3f#8 else if b = 1#8 then 0x31#8 else 0x45#8
  (bits.take len).map outch ++ List.replicate (out.length - len) 0#8

end Verif.Utils
