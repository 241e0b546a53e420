import Verif.Common
/-!
Model of src/isdn/v110.c and src/gsm/gsm44021.c: V.110 frames, the modified V.110 frames of GSM 04.21 and the synchronous RA1 rate
adaptation.  Arrays of unpacked bits are lists of bytes; the length parameters are the lengths of the arrays.  Sequences of assignments,
`memcpy` and `memset` with fixed offsets are written as lists of operations (`Op`) run in order; offsets kept by the code in a running
`d_idx` are written out.  `none`: an access outside of an array.
-/
namespace Verif.V110

/-- One `memcpy(dst + to, src + from, n)` or `memset(dst + to, v, n)`; an assignment is a copy of one byte. -/
inductive Op
  | copy (to frm n : Nat)
  | fill (to : Nat) (v : Byte) (n : Nat)
  deriving DecidableEq, Repr

/-- run one operation on the destination -/
def Op.run (src dst : List Byte) : Op → Option (List Byte)
  | .copy to frm n => (readAt src frm n).bind fun b => writeAt dst to b
  | .fill to v n => writeAt dst to (List.replicate n v)

/-- run all of them in order -/
def runOps (src : List Byte) : List Op → List Byte → Option (List Byte)
  | [], dst => some dst
  | o :: os, dst => (o.run src dst).bind (runOps src os)

/-- include/osmocom/isdn/v110.h:6-17: `struct osmo_v110_decoded_frame` is a block of 66 bytes; here the offsets of its four arrays
`d_bits`, `e_bits`, `s_bits`, `x_bits` -/
def dOff : Nat := 0
@[inherit_doc dOff] def eOff : Nat := 48
@[inherit_doc dOff] def sOff : Nat := 55
@[inherit_doc dOff] def xOff : Nat := 64

def EINVAL : Int := 22
def ENOSPC : Int := 28

/-- src/isdn/v110.c:50-74: the copies of `osmo_v110_decode_frame` -/
def decOps80 : List Op :=
  [.copy (xOff + 0) (2 * 8 + 7) 1, .copy (xOff + 1) (7 * 8 + 7) 1,
   .copy (sOff + 0) (1 * 8 + 7) 1, .copy (sOff + 2) (3 * 8 + 7) 1, .copy (sOff + 3) (4 * 8 + 7) 1,
   .copy (sOff + 5) (6 * 8 + 7) 1, .copy (sOff + 7) (8 * 8 + 7) 1, .copy (sOff + 8) (9 * 8 + 7) 1,
   .copy eOff (5 * 8 + 1) 7,
   .copy (dOff + 0 * 6) (1 * 8 + 1) 6, .copy (dOff + 1 * 6) (2 * 8 + 1) 6,
   .copy (dOff + 2 * 6) (3 * 8 + 1) 6, .copy (dOff + 3 * 6) (4 * 8 + 1) 6,
   .copy (dOff + 4 * 6) (6 * 8 + 1) 6, .copy (dOff + 5 * 6) (7 * 8 + 1) 6,
   .copy (dOff + 6 * 6) (8 * 8 + 1) 6, .copy (dOff + 7 * 6) (9 * 8 + 1) 6]

/-- src/isdn/v110.c:45-77 `osmo_v110_decode_frame`: return value and the frame afterwards -/
def decodeFrame (fr bits : List Byte) : Option (Int × List Byte) :=
  if bits.length < 80 then some (-EINVAL, fr)
  else (runOps bits decOps80 fr).map fun fr => (0, fr)

/-- src/isdn/v110.c:89-118: the stores of `osmo_v110_encode_frame` -/
def encOps80 : List Op :=
  [.fill 0 0 8] ++ (List.range' 1 9).map (fun i => .fill (i * 8) 1 1) ++
  [.copy (2 * 8 + 7) (xOff + 0) 1, .copy (7 * 8 + 7) (xOff + 1) 1,
   .copy (1 * 8 + 7) (sOff + 0) 1, .copy (3 * 8 + 7) (sOff + 2) 1, .copy (4 * 8 + 7) (sOff + 3) 1,
   .copy (6 * 8 + 7) (sOff + 5) 1, .copy (8 * 8 + 7) (sOff + 7) 1, .copy (9 * 8 + 7) (sOff + 8) 1,
   .copy (5 * 8 + 1) eOff 7,
   .copy (1 * 8 + 1) (dOff + 0 * 6) 6, .copy (2 * 8 + 1) (dOff + 1 * 6) 6,
   .copy (3 * 8 + 1) (dOff + 2 * 6) 6, .copy (4 * 8 + 1) (dOff + 3 * 6) 6,
   .copy (6 * 8 + 1) (dOff + 4 * 6) 6, .copy (7 * 8 + 1) (dOff + 5 * 6) 6,
   .copy (8 * 8 + 1) (dOff + 6 * 6) 6, .copy (9 * 8 + 1) (dOff + 7 * 6) 6]

/-- src/isdn/v110.c:84-121 `osmo_v110_encode_frame`: return value and the bits afterwards -/
def encodeFrame (bits fr : List Byte) : Option (Int × List Byte) :=
  if bits.length < 80 then some (-ENOSPC, bits)
  else (runOps fr encOps80 bits).map fun b => (10 * 8, b)

/-- src/gsm/gsm44021.c:43-72: the copies of `osmo_csd_12k_6k_decode_frame` -/
def decOps60 : List Op :=
  [.copy (xOff + 0) (1 * 7 + 6) 1, .copy (xOff + 1) (6 * 7 + 3) 1,
   .copy (sOff + 0) (0 * 7 + 6) 1, .copy (sOff + 2) (2 * 7 + 6) 1, .copy (sOff + 3) (3 * 7 + 6) 1,
   .copy (sOff + 5) (5 * 7 + 3) 1, .copy (sOff + 7) (7 * 7 + 3) 1, .copy (sOff + 8) (8 * 7 + 3) 1,
   .copy (eOff + 3) (4 * 7 + 0) 4,
   .copy (dOff + 0 * 6 + 0) (0 * 7 + 0) 6, .copy (dOff + 1 * 6 + 0) (1 * 7 + 0) 6,
   .copy (dOff + 2 * 6 + 0) (2 * 7 + 0) 6, .copy (dOff + 3 * 6 + 0) (3 * 7 + 0) 6,
   .copy (dOff + 4 * 6 + 0) (4 * 7 + 4) 3, .copy (dOff + 4 * 6 + 3) (5 * 7 + 0) 3,
   .copy (dOff + 5 * 6 + 0) (5 * 7 + 4) 3, .copy (dOff + 5 * 6 + 3) (6 * 7 + 0) 3,
   .copy (dOff + 6 * 6 + 0) (6 * 7 + 4) 3, .copy (dOff + 6 * 6 + 3) (7 * 7 + 0) 3,
   .copy (dOff + 7 * 6 + 0) (7 * 7 + 4) 3, .copy (dOff + 7 * 6 + 3) (8 * 7 + 0) 3]

/-- src/gsm/gsm44021.c:27-75 `osmo_csd_12k_6k_decode_frame` -/
def decodeFrame60 (fr bits : List Byte) : Option (Int × List Byte) :=
  if bits.length < 60 then some (-EINVAL, fr)
  else (runOps bits decOps60 fr).map fun fr => (0, fr)

/-- src/gsm/gsm44021.c:82-111: the copies of `osmo_csd_12k_6k_encode_frame` -/
def encOps60 : List Op :=
  [.copy (1 * 7 + 6) (xOff + 0) 1, .copy (6 * 7 + 3) (xOff + 1) 1,
   .copy (0 * 7 + 6) (sOff + 0) 1, .copy (2 * 7 + 6) (sOff + 2) 1, .copy (3 * 7 + 6) (sOff + 3) 1,
   .copy (5 * 7 + 3) (sOff + 5) 1, .copy (7 * 7 + 3) (sOff + 7) 1, .copy (8 * 7 + 3) (sOff + 8) 1,
   .copy (4 * 7 + 0) (eOff + 3) 4,
   .copy (0 * 7 + 0) (dOff + 0 * 6 + 0) 6, .copy (1 * 7 + 0) (dOff + 1 * 6 + 0) 6,
   .copy (2 * 7 + 0) (dOff + 2 * 6 + 0) 6, .copy (3 * 7 + 0) (dOff + 3 * 6 + 0) 6,
   .copy (4 * 7 + 4) (dOff + 4 * 6 + 0) 3, .copy (5 * 7 + 0) (dOff + 4 * 6 + 3) 3,
   .copy (5 * 7 + 4) (dOff + 5 * 6 + 0) 3, .copy (6 * 7 + 0) (dOff + 5 * 6 + 3) 3,
   .copy (6 * 7 + 4) (dOff + 6 * 6 + 0) 3, .copy (7 * 7 + 0) (dOff + 6 * 6 + 3) 3,
   .copy (7 * 7 + 4) (dOff + 7 * 6 + 0) 3, .copy (8 * 7 + 0) (dOff + 7 * 6 + 3) 3]

/-- src/gsm/gsm44021.c:77-114 `osmo_csd_12k_6k_encode_frame` -/
def encodeFrame60 (bits fr : List Byte) : Option (Int × List Byte) :=
  if bits.length < 60 then some (-EINVAL, bits)
  else (runOps fr encOps60 bits).map fun b => (60, b)

/-- src/gsm/gsm44021.c:152-203: the places of the 24 data bits in the order they are read (and, in 234-261, written) -/
def places36 : List Nat :=
  [0 * 8 + 0, 0 * 8 + 1, 0 * 8 + 2, 0 * 8 + 4, 0 * 8 + 5, 0 * 8 + 6,
   1 * 8 + 0, 1 * 8 + 1, 1 * 8 + 2, 1 * 8 + 4, 1 * 8 + 5, 1 * 8 + 6,
   2 * 8 + 4, 2 * 8 + 5, 2 * 8 + 6,
   3 * 8 + 0, 3 * 8 + 1, 3 * 8 + 2, 3 * 8 + 4, 3 * 8 + 5, 3 * 8 + 6,
   4 * 8 + 0, 4 * 8 + 1, 4 * 8 + 2]

/-- src/gsm/gsm44021.c:133-203: the copies of `osmo_csd_3k6_decode_frame`; each data bit is stored twice -/
def decOps36 : List Op :=
  [.copy (xOff + 0) (0 * 8 + 7) 1, .copy (xOff + 1) (3 * 8 + 3) 1,
   .copy (sOff + 0) (0 * 8 + 3) 1, .copy (sOff + 2) (1 * 8 + 3) 1, .copy (sOff + 3) (1 * 8 + 7) 1,
   .copy (sOff + 5) (2 * 8 + 7) 1, .copy (sOff + 7) (3 * 8 + 7) 1, .copy (sOff + 8) (4 * 8 + 3) 1,
   .copy (eOff + 3) (2 * 8 + 0) 4] ++
  places36.zipIdx.flatMap fun p => [.copy (dOff + 2 * p.2) p.1 1, .copy (dOff + 2 * p.2 + 1) p.1 1]

/-- src/gsm/gsm44021.c:119-208 `osmo_csd_3k6_decode_frame` -/
def decodeFrame36 (fr bits : List Byte) : Option (Int × List Byte) :=
  if bits.length < 36 then some (-EINVAL, fr)
  else (runOps bits decOps36 fr).map fun fr => (0, fr)

/-- src/gsm/gsm44021.c:215-261: the copies of `osmo_csd_3k6_encode_frame`; every second data bit is taken -/
def encOps36 : List Op :=
  [.copy (0 * 8 + 7) (xOff + 0) 1, .copy (3 * 8 + 3) (xOff + 1) 1,
   .copy (0 * 8 + 3) (sOff + 0) 1, .copy (1 * 8 + 3) (sOff + 2) 1, .copy (1 * 8 + 7) (sOff + 3) 1,
   .copy (2 * 8 + 7) (sOff + 5) 1, .copy (3 * 8 + 7) (sOff + 7) 1, .copy (4 * 8 + 3) (sOff + 8) 1,
   .copy (2 * 8 + 0) (eOff + 3) 4] ++
  places36.zipIdx.map fun p => .copy p.1 (dOff + 2 * p.2) 1

/-- src/gsm/gsm44021.c:210-266 `osmo_csd_3k6_encode_frame` -/
def encodeFrame36 (bits fr : List Byte) : Option (Int × List Byte) :=
  if bits.length < 36 then some (-EINVAL, bits)
  else (runOps fr encOps36 bits).map fun b => (36, b)

/-! ### RA1 -/

/-- include/osmocom/isdn/v110.h:26-40 `enum osmo_v100_sync_ra1_rate` by its numbers 0 .. 11; src/isdn/v110.c:147-160 `osmo_v110_e1e2e3` -/
def e1e2e3 : List (List Byte) :=
  [[1, 0, 0], [0, 1, 0], [1, 1, 0], [0, 1, 1], [1, 0, 1], [0, 1, 1], [0, 0, 1], [1, 0, 1], [0, 1, 1], [0, 0, 1], [1, 0, 1], [0, 1, 1]]

/-- include/osmocom/isdn/v110.h:44-45 `osmo_v110_e1e2e3_set` for the bits `e` of the rate -/
def setE (e : List Byte) : List Op := e.zipIdx.map fun p => .fill (eOff + p.2) p.1 1

/-- include/osmocom/isdn/v110.h:46-47 `osmo_v110_e1e2e3_cmp`: whether the first three E bits are those given -/
def sameE (fr e : List Byte) : Option Bool := (readAt fr eOff 3).map fun b => b == e

/-- the E bits of the rate with this number; beyond the table nothing -/
def eOf (rate : Nat) : List Byte := e1e2e3.getD rate []

/-- src/isdn/v110.c:173-175: 600 bit/s -/
def up600 : List Op := setE (eOf 0) ++ (List.range 6).flatMap fun i => (List.range 8).map fun k => .copy (dOff + i * 8 + k) i 1
/-- src/isdn/v110.c:188-191 -/
def down600 : List Op := (List.range 6).map fun i => .copy i (dOff + i * 8) 1
/-- src/isdn/v110.c:207-209: 1200 bit/s -/
def up1200 : List Op := setE (eOf 1) ++ (List.range 12).flatMap fun i => (List.range 4).map fun k => .copy (dOff + i * 4 + k) i 1
/-- src/isdn/v110.c:222-225 -/
def down1200 : List Op := (List.range 12).map fun i => .copy i (dOff + i * 4) 1
/-- src/isdn/v110.c:241-245: 2400 bit/s -/
def up2400 : List Op := setE (eOf 2) ++ (List.range 24).flatMap fun i => [.copy (dOff + i * 2 + 0) i 1, .copy (dOff + i * 2 + 1) i 1]
/-- src/isdn/v110.c:259-262 -/
def down2400 : List Op := (List.range 24).map fun i => .copy i (dOff + i * 2) 1
/-- src/isdn/v110.c:280-296: multiples of 3600 bit/s -/
def up3600 : List Op := setE (eOf 4) ++
  [.copy (dOff + 0) 0 10, .fill (dOff + 10) 1 2, .copy (dOff + 12) 10 2, .fill (dOff + 14) 1 2, .copy (dOff + 16) 12 2, .fill (dOff + 18) 1 2,
   .copy (dOff + 20) 14 14, .fill (dOff + 34) 1 2, .copy (dOff + 36) 28 2, .fill (dOff + 38) 1 2, .copy (dOff + 40) 30 2,
   .fill (dOff + 42) 1 2, .copy (dOff + 44) 32 4]
/-- src/isdn/v110.c:312-326 -/
def down3600 : List Op :=
  [.copy 0 (dOff + 0) 10, .copy 10 (dOff + 12) 2, .copy 12 (dOff + 16) 2, .copy 14 (dOff + 20) 14, .copy 28 (dOff + 36) 2,
   .copy 30 (dOff + 40) 2, .copy 32 (dOff + 44) 4]
/-- src/isdn/v110.c:343-345: multiples of 4800 bit/s -/
def up4800 : List Op := setE (eOf 3) ++ [.copy dOff 0 48]
/-- src/isdn/v110.c:359 -/
def down4800 : List Op := [.copy 0 dOff 48]
/-- src/isdn/v110.c:377-396: multiples of 12000 bit/s -/
def up12000 : List Op := setE (eOf 6) ++
  [.copy (dOff + 0) 0 10, .fill (dOff + 10) 1 2, .copy (dOff + 12) 10 2, .fill (dOff + 14) 1 2, .copy (dOff + 16) 12 2, .fill (dOff + 18) 1 2,
   .copy (dOff + 20) 14 1, .fill (dOff + 21) 1 3, .copy (dOff + 24) 15 10, .fill (dOff + 34) 1 2, .copy (dOff + 36) 25 2,
   .fill (dOff + 38) 1 2, .copy (dOff + 40) 27 2, .fill (dOff + 42) 1 2, .copy (dOff + 44) 29 1, .fill (dOff + 45) 1 3]
/-- src/isdn/v110.c:412-429 -/
def down12000 : List Op :=
  [.copy 0 (dOff + 0) 10, .copy 10 (dOff + 12) 2, .copy 12 (dOff + 16) 2, .copy 14 (dOff + 20) 1, .copy 15 (dOff + 24) 10,
   .copy 25 (dOff + 36) 2, .copy 27 (dOff + 40) 2, .copy 29 (dOff + 44) 1]

/-- What distinguishes the pairs of functions src/isdn/v110.c:167-432: the number of user bits, the operations in both directions and the
number of the rate whose E bits they set and expect -/
structure Ra1 where
  n : Nat
  up : List Op
  down : List Op
  e : Nat

def ra600 : Ra1 := ⟨6, up600, down600, 0⟩
def ra1200 : Ra1 := ⟨12, up1200, down1200, 1⟩
def ra2400 : Ra1 := ⟨24, up2400, down2400, 2⟩
def ra3600 : Ra1 := ⟨36, up3600, down3600, 4⟩
def ra4800 : Ra1 := ⟨48, up4800, down4800, 3⟩
def ra12000 : Ra1 := ⟨30, up12000, down12000, 6⟩

/-- src/isdn/v110.c:167-178, 201-212, 235-248, 272-299, 337-348, 369-399: the functions `v110_adapt_.._to_IR..` -/
def Ra1.toIr (a : Ra1) (fr d : List Byte) : Option (Int × List Byte) :=
  if d.length ≠ a.n then some (-EINVAL, fr) else (runOps d a.up fr).map fun fr => (0, fr)

/-- src/isdn/v110.c:180-194, 214-228, 250-265, 301-329, 350-362, 401-432: the functions `v110_adapt_IR.._to_..` -/
def Ra1.toUser (a : Ra1) (out fr : List Byte) : Option (Int × List Byte) :=
  if out.length < a.n then some (-ENOSPC, out)
  else (sameE fr (eOf a.e)).bind fun same =>
    if same then (runOps fr a.down out).map fun o => ((a.n : Int), o) else some (-EINVAL, out)

/-- src/isdn/v110.c:436-444 `struct osmo_v110_sync_ra1` -/
structure Rate where
  data : Nat
  intermediate : Nat
  chunk : Nat
  ra1 : Ra1

/-- src/isdn/v110.c:447-532 `osmo_v110_sync_ra1_def` -/
def rates : List Rate :=
  [⟨600, 8000, 6, ra600⟩, ⟨1200, 8000, 12, ra1200⟩, ⟨2400, 8000, 24, ra2400⟩, ⟨4800, 8000, 48, ra4800⟩, ⟨7200, 16000, 36, ra3600⟩,
   ⟨9600, 16000, 48, ra4800⟩, ⟨12000, 32000, 30, ra12000⟩, ⟨14400, 32000, 36, ra3600⟩, ⟨19200, 32000, 48, ra4800⟩,
   ⟨24000, 64000, 30, ra12000⟩, ⟨28800, 64000, 36, ra3600⟩, ⟨38400, 64000, 48, ra4800⟩]

/-- src/isdn/v110.c:536-542 `osmo_v110_sync_ra1_get_user_data_chunk_bitlen` -/
def chunkBits (rate : Nat) : Int := match rates[rate]? with | some r => r.chunk | none => -EINVAL
/-- src/isdn/v110.c:545-551 `osmo_v110_sync_ra1_get_user_data_rate` -/
def dataRate (rate : Nat) : Int := match rates[rate]? with | some r => r.data | none => -EINVAL
/-- src/isdn/v110.c:554-560 `osmo_v110_sync_ra1_get_intermediate_rate` -/
def interRate (rate : Nat) : Int := match rates[rate]? with | some r => r.intermediate | none => -EINVAL

/-- src/isdn/v110.c:568-575 `osmo_v110_sync_ra1_user_to_ir` -/
def userToIr (rate : Nat) (fr d : List Byte) : Option (Int × List Byte) :=
  match rates[rate]? with | some r => r.ra1.toIr fr d | none => some (-EINVAL, fr)

/-- src/isdn/v110.c:583-590 `osmo_v110_sync_ra1_ir_to_user` -/
def irToUser (rate : Nat) (out fr : List Byte) : Option (Int × List Byte) :=
  match rates[rate]? with | some r => r.ra1.toUser out fr | none => some (-EINVAL, out)

end Verif.V110
