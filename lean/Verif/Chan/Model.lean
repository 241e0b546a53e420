import Verif.Bits.Model
import Verif.Crc.Model
import Verif.Interleave.Model
import Verif.ConvAcc.Punctured
/-!
Model of the channel coding of control channels, the synchronization channel and the random access channel in
src/coding/gsm0503_coding.c.  A `ubit_t` array is a list of bytes, an `sbit_t` array a list of integers.  What is in an array on the stack
before it is written is a parameter.  `none`: access outside of an array, or a `ubit_t` that is not 0 or 1 used as an index.
-/
namespace Verif.Chan
open Verif.Conv Verif.ConvAcc Verif.Interleave

/-- a bit as `ubit_t` -/
def ubit (b : Bool) : Byte := if b then 1#8 else 0#8

/-- src/core/conv.c:145-149: the input is an index into the tables -/
def bit? (b : Byte) : Option Bool := if b = 0#8 then some false else if b = 1#8 then some true else none

/-- `osmo_conv_encode(code, input, output)`: the output array and the return value -/
def convEncode (c : Code) (input output : List Byte) : Option (List Byte × Nat) := do
  let bits ← (input.take c.len).mapM bit?
  let out ← encode c bits
  let output ← writeAt output 0 (out.map ubit)
  some (output, out.length)

/-- `osmo_conv_decode(code, input, output)`, for the codes that src/core/conv.c:648-650 passes to the accelerated decoder: the
output array; the return value is not looked at in src/coding/gsm0503_coding.c -/
def convDecode (c : Code) (input : List Int) (output : List Byte) : Option (List Byte) := do
  let r ← decodeAcc c input
  writeAt output 0 (r.2.map ubit)

/-- src/coding/gsm0503_coding.c:554-561, without `data_punc`: the number of soft bits that do not have the sign of the bit; 0 has none -/
def bitErrors : List Byte → List Int → Option Nat
  | [], _ => some 0
  | _ :: _, [] => none
  | b :: bs, x :: xs => (bitErrors bs xs).map fun n => if (b = 1#8 ∧ x < 0) ∨ (b = 0#8 ∧ 0 < x) then n else n + 1

/-- src/coding/gsm0503_coding.c:578-584 `osmo_conv_decode_ber` with src/coding/gsm0503_coding.c:534-569
`osmo_conv_decode_ber_punctured`, `n_errors` and `n_bits_total` given: the output array and both.  `EGPRS_DATA_C_MAX` is 1836
(src/coding/gsm0503_coding.c:120-120); `recoded` is what it is filled with before. -/
def decodeBer (c : Code) (input : List Int) (output : List Byte) (recoded : List Byte) : Option (List Byte × Nat × Nat) := do
  let output ← convDecode c input output
  let r ← convEncode c output recoded
  let n ← bitErrors (r.1.take r.2) input
  some (output, n, r.2)

/-- `osmo_crcXXgen_set_bits(code, conv, n, conv + n)` -/
def setParity {W : Nat} (code : Crc.Code W) (n : Nat) (conv : List Byte) : Option (List Byte) := do
  let inp ← readAt conv 0 n
  let p ← Crc.setBits code inp
  writeAt conv n p

/-- `osmo_crcXXgen_check_bits(code, conv, n, conv + n)` -/
def checkParity {W : Nat} (code : Crc.Code W) (n : Nat) (conv : List Byte) : Option Nat := do
  let inp ← readAt conv 0 n
  let p ← readAt conv n code.bits
  Crc.checkBits code inp p

/-- src/coding/gsm0503_parity.c:40-45 `gsm0503_fire_crc40` -/
def fireCrc40 : Crc.Code 64 := { bits := 40, poly := 0x0004820009#64, init := 0#64, remainder := 0xffffffffff#64 }

/-- src/coding/gsm0503_parity.c:82-87 `gsm0503_rach_crc6` -/
def rachCrc6 : Crc.Code 8 := { bits := 6, poly := 0x2f#8, init := 0x00#8, remainder := 0x3f#8 }

/-- src/coding/gsm0503_parity.c:93-98 `gsm0503_sch_crc10` -/
def schCrc10 : Crc.Code 16 := { bits := 10, poly := 0x175#16, init := 0x000#16, remainder := 0x3ff#16 }

/-- utils/conv_codes_gsm.py:33-43 `xcch` -/
def xcchCode : Code := genCode [(G0, 1), (G1, 1)] 224 .flush none

/-- utils/conv_codes_gsm.py:151-156 `rach` -/
def rachCode : Code := genCode [(G0, 1), (G1, 1)] 14 .flush none

/-- utils/conv_codes_gsm.py:168-173 `sch` -/
def schCode : Code := genCode [(G0, 1), (G1, 1)] 35 .flush none

/-! ### xCCH and FACCH -/

/-- src/coding/gsm0503_coding.c:615-626 `_xcch_encode_cB` -/
def xcchEncodeCB (conv cB l2 : List Byte) : Option (List Byte) := do
  let conv ← Bits.pbit2ubitExt conv 0 l2 0 184 true
  let conv ← setParity fireCrc40 184 conv.1
  let r ← convEncode xcchCode conv cB
  some r.1

/-- what the decoding functions give: the return value, the buffer for the data, the number of errors and of bits -/
structure Decoded where
  rv : Int
  data : List Byte
  errors : Nat
  total : Nat
deriving DecidableEq

/-- src/coding/gsm0503_coding.c:592-609 `_xcch_decode_cB` -/
def xcchDecodeCB (conv recoded l2 : List Byte) (cB : List Int) : Option Decoded := do
  let r ← decodeBer xcchCode cB conv recoded
  let rv ← checkParity fireCrc40 184 r.1
  if rv ≠ 0 then some { rv := -1, data := l2, errors := r.2.1, total := r.2.2 }
  else do
    let l2 ← Bits.ubit2pbitExt l2 0 r.1 0 184 true
    some { rv := 0, data := l2.1, errors := r.2.1, total := r.2.2 }

/-- the arrays on the stack when encoding -/
structure EncStack where
  conv : List Byte
  cB : List Byte
  iB : List Byte

/-- the arrays on the stack when decoding -/
structure DecStack where
  conv : List Byte
  recoded : List Byte
  cB : List Int
  iB : List Int

/-- src/coding/gsm0503_coding.c:657-670 `gsm0503_xcch_encode` -/
def xcchEncode (s : EncStack) (bursts l2 : List Byte) : Option (List Byte) := do
  let cB ← xcchEncodeCB s.conv s.cB l2
  xcchSend 1#8 1#8 s.iB cB bursts

/-- src/coding/gsm0503_coding.c:638-650 `gsm0503_xcch_decode` -/
def xcchDecode (s : DecStack) (l2 : List Byte) (bursts : List Int) : Option Decoded := do
  let cB ← xcchReceive s.cB s.iB bursts
  xcchDecodeCB s.conv s.recoded l2 cB

/-- src/coding/gsm0503_coding.c:3743-3761 `gsm0503_tch_fr_facch_encode` -/
def facchFEncode (s : EncStack) (bursts data : List Byte) : Option (List Byte) := do
  let cB ← xcchEncodeCB s.conv s.cB data
  tchFrSend 0 1#8 s.iB cB bursts

/-- src/coding/gsm0503_coding.c:3777-3780 and 3842-3845: minus the sum of soft bits -/
def steal (places : List Nat) (bursts : List Int) : Option Int :=
  (places.mapM fun p => bursts[p]?).map fun l => -l.sum

/-- src/coding/gsm0503_coding.c:3770-3798 `gsm0503_tch_fr_facch_decode`; if it is no FACCH, `n_errors` and `n_bits_total` are left -/
def facchFDecode (s : DecStack) (data : List Byte) (bursts : List Int) (errors total : Nat) : Option Decoded := do
  let st ← steal ([0, 1, 2, 3].map (fun i => i * 116 + 58) ++ [4, 5, 6, 7].map fun i => i * 116 + 57) bursts
  if st ≤ 0 then some { rv := -1, data := data, errors := errors, total := total }
  else do
    let cB ← tchFrReceive 0 s.cB s.iB bursts
    let r ← xcchDecodeCB s.conv s.recoded data cB
    some (if r.rv ≠ 0 then { r with rv := -1 } else { r with rv := 23 })

/-- src/coding/gsm0503_coding.c:3805-3826 `gsm0503_tch_hr_facch_encode` -/
def facchHEncode (s : EncStack) (bursts data : List Byte) : Option (List Byte) := do
  let cB ← xcchEncodeCB s.conv s.cB data
  facchHSend 0 1#8 s.iB cB bursts

/-- src/coding/gsm0503_coding.c:3835-3866 `gsm0503_tch_hr_facch_decode` -/
def facchHDecode (s : DecStack) (data : List Byte) (bursts : List Int) (errors total : Nat) : Option Decoded := do
  let st ← steal ([0, 1, 2, 3].map (fun i => i * 116 + 58) ++ [2, 3, 4, 5].map fun i => i * 116 + 57) bursts
  if st ≤ 0 then some { rv := -1, data := data, errors := errors, total := total }
  else do
    let cB ← facchHReceive 0 s.cB s.iB bursts
    let r ← xcchDecodeCB s.conv s.recoded data cB
    some (if r.rv ≠ 0 then { r with rv := -1 } else { r with rv := 23 })

/-! ### SCH -/

/-- src/coding/gsm0503_coding.c:3368-3379 `gsm0503_sch_encode` -/
def schEncode (conv burst sbInfo : List Byte) : Option (List Byte) := do
  let conv ← Bits.pbit2ubitExt conv 0 sbInfo 0 25 true
  let conv ← setParity schCrc10 25 conv.1
  let r ← convEncode schCode conv burst
  some r.1

/-- src/coding/gsm0503_coding.c:3348-3362 `gsm0503_sch_decode`: the return value and `sb_info` -/
def schDecode (conv sbInfo : List Byte) (burst : List Int) : Option (Int × List Byte) := do
  let conv ← convDecode schCode burst conv
  let rv ← checkParity schCrc10 25 conv
  if rv ≠ 0 then some (-1, sbInfo)
  else do
    let o ← Bits.ubit2pbitExt sbInfo 0 conv 0 25 true
    some (0, o.1)

/-! ### RACH -/

/-- src/coding/gsm0503_coding.c:3201-3208 `rach_apply_bsic` -/
def rachApplyBsic (d : List Byte) (bsic : Byte) (start : Nat) : Option (List Byte) :=
  (List.range 6).foldlM (fun d i => (d[start + i]?).map fun x => d.set (start + i) (x ^^^ ((bsic >>> (5 - i)) &&& 1#8))) d

/-- src/coding/gsm0503_coding.c:3317-3338 `gsm0503_rach_ext_encode` -/
def rachExtEncode (conv burst : List Byte) (ra11 : BitVec 16) (bsic : Byte) (is11 : Bool) : Option (List Byte) := do
  let ra : List Byte := if is11 then [(ra11 >>> 3).setWidth 8, (ra11 &&& 0x07#16).setWidth 8] else [ra11.setWidth 8, 0#8]
  let nbits := if is11 then 11 else 8
  let conv ← Bits.pbit2ubitExt conv 0 ra 0 nbits true
  let conv ← setParity rachCrc6 nbits conv.1
  let conv ← rachApplyBsic conv bsic nbits
  let r ← convEncode (if is11 then rachExt.code else rachCode) conv burst
  some r.1

/-- src/coding/gsm0503_coding.c:3306-3309 `gsm0503_rach_encode` -/
def rachEncode (conv burst : List Byte) (ra : Byte) (bsic : Byte) : Option (List Byte) :=
  rachExtEncode conv burst (ra.setWidth 16) bsic false

/-- src/coding/gsm0503_coding.c:3210-3229 `rach_decode_ber`: the return value (as `int16_t`), and the numbers of errors and bits -/
def rachDecode (conv recoded : List Byte) (burst : List Int) (bsic : Byte) (is11 : Bool) : Option (Int × Nat × Nat) := do
  let nbits := if is11 then 11 else 8
  let r ← decodeBer (if is11 then rachExt.code else rachCode) burst conv recoded
  let conv ← rachApplyBsic r.1 bsic nbits
  let rv ← checkParity rachCrc6 nbits conv
  if rv ≠ 0 then some (-1, r.2)
  else do
    let ra ← Bits.ubit2pbitExt [0#8, 0#8] 0 conv 0 nbits true
    let r0 := (ra.1.getD 0 0#8).toNat
    let r1 := (ra.1.getD 1 0#8).toNat
    some (if is11 then (((r0 <<< 3) ||| (r1 &&& 0x07) : Nat) : Int) else (r0 : Int), r.2)

/-- src/coding/gsm0503_coding.c:3270-3279 `gsm0503_rach_ext_decode_ber`: the return value, `*ra` and the numbers -/
def rachExtDecodeBer (conv recoded : List Byte) (ra : BitVec 16) (burst : List Int) (bsic : Byte) :
    Option (Int × BitVec 16 × Nat × Nat) := do
  let r ← rachDecode conv recoded burst bsic true
  if r.1 < 0 then some (r.1, ra, r.2) else some (0, BitVec.ofInt 16 r.1, r.2)

/-- src/coding/gsm0503_coding.c:3288-3299 `gsm0503_rach_decode_ber` -/
def rachDecodeBer (conv recoded : List Byte) (ra : Byte) (burst : List Int) (bsic : Byte) : Option (Int × Byte × Nat × Nat) := do
  let r ← rachDecode conv recoded burst bsic false
  if r.1 < 0 then some (r.1, ra, r.2) else some (0, BitVec.ofInt 8 r.1, r.2)

end Verif.Chan
