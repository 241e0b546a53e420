import Verif.Common
/-!
Called/calling party BCD numbers, src/gsm/gsm48_ie.c:41-180.

Strings are lists of bytes without the terminating nul.  A read or a store
outside of a buffer is `none` (undefined behaviour).  Simplifications: `int`
and `size_t` are natural numbers, so that numbers longer than `INT_MAX` digits
are not treated specially.
-/
namespace Verif.Bcd

/-- include of errno.h: the codes used below -/
def EIO : Int := 5
def EINVAL : Int := 22
def ENOSPC : Int := 28

/-- src/gsm/gsm48_ie.c:41-44 `bcd_num_digits` -/
def digits : List Byte :=
  [0x30, 0x31, 0x32, 0x33, 0x34, 0x35, 0x36, 0x37, 0x38, 0x39, 0x2a, 0x23, 0x61, 0x62, 0x63, 0x00]

/-- `bcd_num_digits[n]` for a nibble `n`, src/gsm/gsm48_ie.c:100 and 113 -/
def digit (n : Nat) : Byte := digits.getD n 0

/-- the loop of src/gsm/gsm48_ie.c:94-115: number of rounds left, `i`,
`output_len`, the characters stored up to now; the result is the characters
stored, the `output_len` left, and `truncated` -/
def decLoop (lv : List Byte) (inLen : Nat) : Nat → Nat → Nat → List Byte → Option (List Byte × Nat × Bool)
  | 0, _, room, out => some (out, room, false)
  | n + 1, i, room, out =>
    if room ≤ 1 then some (out, room, true)
    else
      match lv[i]? with
      | none => none
      | some b =>
        let out := out ++ [digit (b.toNat % 16)]
        let room := room - 1
        if room ≤ 1 then
          if i = inLen ∧ b.toNat / 16 = 15 then some (out, room, false)
          else some (out, room, true)
        else decLoop lv inLen n (i + 1) (room - 1) (out ++ [digit (b.toNat / 16)])

/-- src/gsm/gsm48_ie.c:77-124 `gsm48_decode_bcd_number2`: `lv` is the memory
of `input_len` bytes at `bcd_lv`; the result is the return code and the
characters stored in `output` from its start on (with the nul) -/
def decodeNumber2 (outLen : Nat) (lv : List Byte) (hLen : Nat) : Option (Int × List Byte) :=
  if outLen < 1 then some (-ENOSPC, [])
  else
    match lv with
    | [] => some (-EIO, [0])
    | l :: _ =>
      let inLen := l.toNat
      if lv.length < inLen + 1 then some (-EINVAL, [0])
      else
        match decLoop lv inLen (inLen + 1 - (1 + hLen)) (1 + hLen) outLen [] with
        | none => none
        | some (out, room, truncated) =>
          let out := if room ≥ 1 then out ++ [0] else out
          some (if truncated then -ENOSPC else 0, out)

/-- the string in the output buffer, as its user sees it -/
def cstr (out : List Byte) : List Byte := out.takeWhile (· ≠ 0)

/-- src/gsm/gsm48_ie.c:127-136 `asc_to_bcd` -/
def ascToBcd (c : Byte) : Option Nat :=
  if digits.idxOf c < 16 then some (digits.idxOf c) else none

/-- the loop of src/gsm/gsm48_ie.c:165-173: characters left, `i`, the index of
`bcd_cur`, the memory at `bcd_lv`; `.inl` is the return in the loop, `.inr` its end -/
def encLoop : List Byte → Nat → Nat → List Byte → Option (Sum (Int × List Byte) (Nat × Nat × List Byte))
  | [], i, cur, mem => some (.inr (i, cur, mem))
  | c :: cs, i, cur, mem =>
    match ascToBcd c with
    | none => some (.inl (-EINVAL, mem))
    | some v =>
      match mem[cur]? with
      | none => none
      | some old =>
        if i % 2 = 0 then encLoop cs (i + 1) cur (mem.set cur (BitVec.ofNat 8 v))
        else encLoop cs (i + 1) (cur + 1) (mem.set cur (old ||| BitVec.ofNat 8 (v * 16)))

/-- behind the loop, src/gsm/gsm48_ie.c:174-179: the filler, and the number of octets used -/
def encFinish : Option (Sum (Int × List Byte) (Nat × Nat × List Byte)) → Option (Int × List Byte)
  | none => none
  | some (.inl r) => some r
  | some (.inr (i, cur, mem)) =>
    if i % 2 ≠ 0 then
      match mem[cur]? with
      | none => none
      | some old => some (((cur + 1 : Nat) : Int), mem.set cur (old ||| 0xf0))
    else some ((cur : Int), mem)

/-- src/gsm/gsm48_ie.c:158-160: the length octet -/
def lenOctet (n hLen : Nat) : Byte :=
  let l : Byte := BitVec.ofNat 8 (n / 2 + hLen)
  if n % 2 ≠ 0 then l + 1 else l

/-- src/gsm/gsm48_ie.c:150-180 `gsm48_encode_bcd_number`: `mem` is the memory
at `bcd_lv`, `maxLen` the `uint8_t max_len`; the result is the return value and the memory -/
def encodeNumber (mem : List Byte) (maxLen : Byte) (hLen : Nat) (input : List Byte) : Option (Int × List Byte) :=
  match mem with
  | [] => none
  | _ :: rest =>
    let l := lenOctet input.length hLen
    let mem := l :: rest
    if l.toNat > maxLen.toNat then some (-EIO, mem)
    else encFinish (encLoop input 0 (1 + hLen) mem)

end Verif.Bcd
