import Verif.BitBuf
/-!
Model of src/core/bits.c.  Buffers are byte lists; a read or write outside a
buffer makes the result `none`.
-/
namespace Verif.Bits

/-- src/core/bits.c:47-62 `osmo_ubit2pbit`: the for-loop over the input from
index `i` with current byte `cur`; the bytes stored through `outptr` are
returned in order (`outptr - out` is their number).  Simplification: the output
buffer is assumed large enough. `in[i] << bitnum` is computed in `int` and
truncated to 8 bit when or-ed into `curbyte`. -/
def ubit2pbitLoop : List Byte → Nat → Byte → List Byte
  | [], i, cur => if i % 8 ≠ 0 then [cur] else []
  | b :: rest, i, cur =>
    let cur' := cur ||| (b <<< (7 - i % 8))
    if i % 8 = 7 then cur' :: ubit2pbitLoop rest (i + 1) 0#8
    else ubit2pbitLoop rest (i + 1) cur'

/-- src/core/bits.c:41-62 `osmo_ubit2pbit` on `num_bits = inp.length`. -/
def ubit2pbit (inp : List Byte) : List Byte := ubit2pbitLoop inp 0 0#8

/-- src/core/bits.c:149-173: the unrolled body of the loop; stores the bits
`byte >> k & 1` for `k` in the list until `limit` bytes were written.  Returns
all bytes written so far and whether the `break` was taken. -/
def unpackByte (byte : Byte) (limit : Nat) : List Nat → List Byte → List Byte × Bool
  | [], w => (w, false)
  | k :: ks, w =>
    let w' := w ++ [(byte >>> k) &&& 1#8]
    if limit ≤ w'.length then (w', true) else unpackByte byte limit ks w'

/-- src/core/bits.c:148-174: loop over `in[i]`, `n` iterations left. -/
def pbit2ubitLoop (inp : List Byte) (limit : Nat) : Nat → Nat → List Byte → Option (List Byte)
  | 0, _, w => some w
  | n + 1, i, w =>
    match inp[i]? with
    | none => none
    | some byte =>
      match unpackByte byte limit [7, 6, 5, 4, 3, 2, 1, 0] w with
      | (w', true) => some w'
      | (w', false) => pbit2ubitLoop inp limit n (i + 1) w'

/-- src/core/bits.c:142-176 `osmo_pbit2ubit`; the result is the list of bytes
written to `out`, its length the return value. Output buffer assumed large
enough. -/
def pbit2ubit (inp : List Byte) (numBits : Nat) : Option (List Byte) :=
  pbit2ubitLoop inp numBits (numBits / 8 + 1) 0 []

/-- include/osmocom/core/bits.h:36-44 `osmo_pbit_bytesize` -/
def pbitBytesize (n : Nat) : Nat := if n % 8 ≠ 0 then n / 8 + 1 else n / 8

/-- src/core/bits.c:192-199 `osmo_ubit2pbit_ext` loop: `n` bits left, index
`i`. Simplification: `out_ofs + i` and `in_ofs + i` do not wrap at 2^32. -/
def ubit2pbitExtLoop (inp : List Byte) (outOfs inOfs : Nat) (lsb : Bool) :
    Nat → Nat → List Byte → Option (List Byte)
  | 0, _, out => some out
  | n + 1, i, out =>
    let op := outOfs + i
    let bn := if lsb then op % 8 else 7 - op % 8
    match inp[inOfs + i]?, out[op / 8]? with
    | some u, some b =>
      let b' := if u ≠ 0#8 then b ||| (1#8 <<< bn) else b &&& ~~~(1#8 <<< bn)
      ubit2pbitExtLoop inp outOfs inOfs lsb n (i + 1) (out.set (op / 8) b')
    | _, _ => none

/-- src/core/bits.c:187-201 `osmo_ubit2pbit_ext`: new content of `out` and the
return value, `unsigned` arithmetic modulo 2^32. -/
def ubit2pbitExt (out : List Byte) (outOfs : Nat) (inp : List Byte) (inOfs numBits : Nat)
    (lsb : Bool) : Option (List Byte × Nat) :=
  (ubit2pbitExtLoop inp outOfs inOfs lsb numBits 0 out).map fun o =>
    (o, ((outOfs + numBits + (2 ^ 32 - 1)) % 2 ^ 32) / 8 + 1)

/-- src/core/bits.c:217-221 `osmo_pbit2ubit_ext` loop. -/
def pbit2ubitExtLoop (inp : List Byte) (outOfs inOfs : Nat) (lsb : Bool) :
    Nat → Nat → List Byte → Option (List Byte)
  | 0, _, out => some out
  | n + 1, i, out =>
    let ip := inOfs + i
    let bn := if lsb then ip % 8 else 7 - ip % 8
    match inp[ip / 8]? with
    | none => none
    | some b =>
      if outOfs + i < out.length then
        pbit2ubitExtLoop inp outOfs inOfs lsb n (i + 1)
          (out.set (outOfs + i) (if b &&& (1#8 <<< bn) ≠ 0#8 then 1#8 else 0#8))
      else none

/-- src/core/bits.c:212-223 `osmo_pbit2ubit_ext` -/
def pbit2ubitExt (out : List Byte) (outOfs : Nat) (inp : List Byte) (inOfs numBits : Nat)
    (lsb : Bool) : Option (List Byte × Nat) :=
  (pbit2ubitExtLoop inp outOfs inOfs lsb numBits 0 out).map fun o =>
    (o, (outOfs + numBits) % 2 ^ 32)

/-- src/core/bits.c:235-252 `flip_table` -/
def flipTable : List Byte := [
  0x00, 0x80, 0x40, 0xc0, 0x20, 0xa0, 0x60, 0xe0, 0x10, 0x90, 0x50, 0xd0, 0x30, 0xb0, 0x70, 0xf0,
  0x08, 0x88, 0x48, 0xc8, 0x28, 0xa8, 0x68, 0xe8, 0x18, 0x98, 0x58, 0xd8, 0x38, 0xb8, 0x78, 0xf8,
  0x04, 0x84, 0x44, 0xc4, 0x24, 0xa4, 0x64, 0xe4, 0x14, 0x94, 0x54, 0xd4, 0x34, 0xb4, 0x74, 0xf4,
  0x0c, 0x8c, 0x4c, 0xcc, 0x2c, 0xac, 0x6c, 0xec, 0x1c, 0x9c, 0x5c, 0xdc, 0x3c, 0xbc, 0x7c, 0xfc,
  0x02, 0x82, 0x42, 0xc2, 0x22, 0xa2, 0x62, 0xe2, 0x12, 0x92, 0x52, 0xd2, 0x32, 0xb2, 0x72, 0xf2,
  0x0a, 0x8a, 0x4a, 0xca, 0x2a, 0xaa, 0x6a, 0xea, 0x1a, 0x9a, 0x5a, 0xda, 0x3a, 0xba, 0x7a, 0xfa,
  0x06, 0x86, 0x46, 0xc6, 0x26, 0xa6, 0x66, 0xe6, 0x16, 0x96, 0x56, 0xd6, 0x36, 0xb6, 0x76, 0xf6,
  0x0e, 0x8e, 0x4e, 0xce, 0x2e, 0xae, 0x6e, 0xee, 0x1e, 0x9e, 0x5e, 0xde, 0x3e, 0xbe, 0x7e, 0xfe,
  0x01, 0x81, 0x41, 0xc1, 0x21, 0xa1, 0x61, 0xe1, 0x11, 0x91, 0x51, 0xd1, 0x31, 0xb1, 0x71, 0xf1,
  0x09, 0x89, 0x49, 0xc9, 0x29, 0xa9, 0x69, 0xe9, 0x19, 0x99, 0x59, 0xd9, 0x39, 0xb9, 0x79, 0xf9,
  0x05, 0x85, 0x45, 0xc5, 0x25, 0xa5, 0x65, 0xe5, 0x15, 0x95, 0x55, 0xd5, 0x35, 0xb5, 0x75, 0xf5,
  0x0d, 0x8d, 0x4d, 0xcd, 0x2d, 0xad, 0x6d, 0xed, 0x1d, 0x9d, 0x5d, 0xdd, 0x3d, 0xbd, 0x7d, 0xfd,
  0x03, 0x83, 0x43, 0xc3, 0x23, 0xa3, 0x63, 0xe3, 0x13, 0x93, 0x53, 0xd3, 0x33, 0xb3, 0x73, 0xf3,
  0x0b, 0x8b, 0x4b, 0xcb, 0x2b, 0xab, 0x6b, 0xeb, 0x1b, 0x9b, 0x5b, 0xdb, 0x3b, 0xbb, 0x7b, 0xfb,
  0x07, 0x87, 0x47, 0xc7, 0x27, 0xa7, 0x67, 0xe7, 0x17, 0x97, 0x57, 0xd7, 0x37, 0xb7, 0x77, 0xf7,
  0x0f, 0x8f, 0x4f, 0xcf, 0x2f, 0xaf, 0x6f, 0xef, 0x1f, 0x9f, 0x5f, 0xdf, 0x3f, 0xbf, 0x7f, 0xff]

/-- src/core/bits.c:264-273 `osmo_bit_reversal`; `k` is the mode bit mask. -/
def bitReversal (x : BitVec 32) (k : BitVec 32) : BitVec 32 :=
  let x := if k &&& 1#32 ≠ 0#32 then (x &&& 0x55555555#32) <<< 1 ||| (x &&& 0xAAAAAAAA#32) >>> 1 else x
  let x := if k &&& 2#32 ≠ 0#32 then (x &&& 0x33333333#32) <<< 2 ||| (x &&& 0xCCCCCCCC#32) >>> 2 else x
  let x := if k &&& 4#32 ≠ 0#32 then (x &&& 0x0F0F0F0F#32) <<< 4 ||| (x &&& 0xF0F0F0F0#32) >>> 4 else x
  let x := if k &&& 8#32 ≠ 0#32 then (x &&& 0x00FF00FF#32) <<< 8 ||| (x &&& 0xFF00FF00#32) >>> 8 else x
  if k &&& 16#32 ≠ 0#32 then (x &&& 0x0000FFFF#32) <<< 16 ||| (x &&& 0xFFFF0000#32) >>> 16 else x

/-- src/core/bits.c:281-288 `osmo_revbytebits_32` -/
def revbytebits32 (x : BitVec 32) : BitVec 32 :=
  let x := (x &&& 0x55555555#32) <<< 1 ||| (x &&& 0xAAAAAAAA#32) >>> 1
  let x := (x &&& 0x33333333#32) <<< 2 ||| (x &&& 0xCCCCCCCC#32) >>> 2
  (x &&& 0x0F0F0F0F#32) <<< 4 ||| (x &&& 0xF0F0F0F0#32) >>> 4

/-- src/core/bits.c:294-297 `osmo_revbytebits_8` (the table has 256 entries, so
the access is always in bounds). -/
def revbytebits8 (x : Byte) : Byte := flipTable.getD x.toNat 0#8

/-- src/core/bits.c:309-310: loop of `osmo_revbytebits_buf`, `n` left, index `i` -/
def revbytebitsLoop : Nat → Nat → List Byte → Option (List Byte)
  | 0, _, buf => some buf
  | n + 1, i, buf =>
    match buf[i]? with
    | none => none
    | some b => revbytebitsLoop n (i + 1) (buf.set i (revbytebits8 b))

/-- src/core/bits.c:305-311 `osmo_revbytebits_buf` -/
def revbytebitsBuf (buf : List Byte) (len : Nat) : Option (List Byte) := revbytebitsLoop len 0 buf

/-- src/core/bits.c:117-122 `osmo_ubit2sbit`; soft bits as integers. -/
def ubit2sbit (inp : List Byte) : List Int := inp.map fun b => if b ≠ 0#8 then -127 else 127

/-- src/core/bits.c:129-134 `osmo_sbit2ubit` -/
def sbit2ubit (inp : List Int) : List Byte := inp.map fun s => if s < 0 then 1#8 else 0#8

/-- src/core/bits.c:69-89 `osmo_nibble_shift_right`: bytes written to `out[0..]`
(empty when the function returns early); reads outside `inp` give `none`. -/
def nibbleShiftRight (inp : List Byte) (numNibbles : Nat) : Option (List Byte) :=
  let whole := numNibbles / 2
  if whole = 0 then some []
  else do
    let first ← inp[0]?
    let mid ← ((List.range (whole - 1)).map (· + 1)).mapM fun i => do
      let a ← inp[i - 1]?
      let b ← inp[i]?
      return ((a &&& 0xF#8) <<< 4 ||| b >>> 4)
    let a ← inp[whole - 1]?
    let last ← if numNibbles % 2 = 1 then do
        let b ← inp[whole]?
        pure ((a &&& 0xF#8) <<< 4 ||| b >>> 4)
      else pure ((a &&& 0xF#8) <<< 4)
    return (first >>> 4) :: mid ++ [last]

/-- src/core/bits.c:96-110 `osmo_nibble_shift_left_unal` -/
def nibbleShiftLeftUnal (inp : List Byte) (numNibbles : Nat) : Option (List Byte) :=
  let whole := numNibbles / 2
  if whole = 0 then some []
  else do
    let body ← (List.range whole).mapM fun i => do
      let a ← inp[i]?
      let b ← inp[i + 1]?
      return ((a &&& 0xF#8) <<< 4 ||| b >>> 4)
    if numNibbles % 2 = 1 then do
      let a ← inp[whole]?
      return body ++ [(a &&& 0xF#8) <<< 4]
    else return body

/-- include/osmocom/core/bits.h:117-120 `osmo_rol16`: computed in `int` (32 bit)
and truncated to 16 bit; shift in [0,16]. -/
def rol16 (x : BitVec 16) (s : Nat) : BitVec 16 :=
  (((x.setWidth 32) <<< s) ||| ((x.setWidth 32) >>> (16 - s))).setWidth 16

end Verif.Bits
