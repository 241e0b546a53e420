import Verif.Common
/-!
Model of src/gsm/rlp.c: frames of the Radio Link Protocol and their frame check
sequence.
-/
namespace Verif.Rlp

/-- src/gsm/rlp.c:191-224 `rlp_fcs_table` -/
def fcsTable : List (BitVec 32) := [
  0xb29d2d#32, 0x643a5b#32, 0x44d87a#32, 0x927f0c#32, 0x051c38#32, 0xd3bb4e#32, 0xf3596f#32, 0x25fe19#32,
  0x8694bc#32, 0x5033ca#32, 0x70d1eb#32, 0xa6769d#32, 0x3115a9#32, 0xe7b2df#32, 0xc750fe#32, 0x11f788#32,
  0xda8e0f#32, 0x0c2979#32, 0x2ccb58#32, 0xfa6c2e#32, 0x6d0f1a#32, 0xbba86c#32, 0x9b4a4d#32, 0x4ded3b#32,
  0xee879e#32, 0x3820e8#32, 0x18c2c9#32, 0xce65bf#32, 0x59068b#32, 0x8fa1fd#32, 0xaf43dc#32, 0x79e4aa#32,
  0x62bb69#32, 0xb41c1f#32, 0x94fe3e#32, 0x425948#32, 0xd53a7c#32, 0x039d0a#32, 0x237f2b#32, 0xf5d85d#32,
  0x56b2f8#32, 0x80158e#32, 0xa0f7af#32, 0x7650d9#32, 0xe133ed#32, 0x37949b#32, 0x1776ba#32, 0xc1d1cc#32,
  0x0aa84b#32, 0xdc0f3d#32, 0xfced1c#32, 0x2a4a6a#32, 0xbd295e#32, 0x6b8e28#32, 0x4b6c09#32, 0x9dcb7f#32,
  0x3ea1da#32, 0xe806ac#32, 0xc8e48d#32, 0x1e43fb#32, 0x8920cf#32, 0x5f87b9#32, 0x7f6598#32, 0xa9c2ee#32,
  0x49da1e#32, 0x9f7d68#32, 0xbf9f49#32, 0x69383f#32, 0xfe5b0b#32, 0x28fc7d#32, 0x081e5c#32, 0xdeb92a#32,
  0x7dd38f#32, 0xab74f9#32, 0x8b96d8#32, 0x5d31ae#32, 0xca529a#32, 0x1cf5ec#32, 0x3c17cd#32, 0xeab0bb#32,
  0x21c93c#32, 0xf76e4a#32, 0xd78c6b#32, 0x012b1d#32, 0x964829#32, 0x40ef5f#32, 0x600d7e#32, 0xb6aa08#32,
  0x15c0ad#32, 0xc367db#32, 0xe385fa#32, 0x35228c#32, 0xa241b8#32, 0x74e6ce#32, 0x5404ef#32, 0x82a399#32,
  0x99fc5a#32, 0x4f5b2c#32, 0x6fb90d#32, 0xb91e7b#32, 0x2e7d4f#32, 0xf8da39#32, 0xd83818#32, 0x0e9f6e#32,
  0xadf5cb#32, 0x7b52bd#32, 0x5bb09c#32, 0x8d17ea#32, 0x1a74de#32, 0xccd3a8#32, 0xec3189#32, 0x3a96ff#32,
  0xf1ef78#32, 0x27480e#32, 0x07aa2f#32, 0xd10d59#32, 0x466e6d#32, 0x90c91b#32, 0xb02b3a#32, 0x668c4c#32,
  0xc5e6e9#32, 0x13419f#32, 0x33a3be#32, 0xe504c8#32, 0x7267fc#32, 0xa4c08a#32, 0x8422ab#32, 0x5285dd#32,
  0x1f18f0#32, 0xc9bf86#32, 0xe95da7#32, 0x3ffad1#32, 0xa899e5#32, 0x7e3e93#32, 0x5edcb2#32, 0x887bc4#32,
  0x2b1161#32, 0xfdb617#32, 0xdd5436#32, 0x0bf340#32, 0x9c9074#32, 0x4a3702#32, 0x6ad523#32, 0xbc7255#32,
  0x770bd2#32, 0xa1aca4#32, 0x814e85#32, 0x57e9f3#32, 0xc08ac7#32, 0x162db1#32, 0x36cf90#32, 0xe068e6#32,
  0x430243#32, 0x95a535#32, 0xb54714#32, 0x63e062#32, 0xf48356#32, 0x222420#32, 0x02c601#32, 0xd46177#32,
  0xcf3eb4#32, 0x1999c2#32, 0x397be3#32, 0xefdc95#32, 0x78bfa1#32, 0xae18d7#32, 0x8efaf6#32, 0x585d80#32,
  0xfb3725#32, 0x2d9053#32, 0x0d7272#32, 0xdbd504#32, 0x4cb630#32, 0x9a1146#32, 0xbaf367#32, 0x6c5411#32,
  0xa72d96#32, 0x718ae0#32, 0x5168c1#32, 0x87cfb7#32, 0x10ac83#32, 0xc60bf5#32, 0xe6e9d4#32, 0x304ea2#32,
  0x932407#32, 0x458371#32, 0x656150#32, 0xb3c626#32, 0x24a512#32, 0xf20264#32, 0xd2e045#32, 0x044733#32,
  0xe45fc3#32, 0x32f8b5#32, 0x121a94#32, 0xc4bde2#32, 0x53ded6#32, 0x8579a0#32, 0xa59b81#32, 0x733cf7#32,
  0xd05652#32, 0x06f124#32, 0x261305#32, 0xf0b473#32, 0x67d747#32, 0xb17031#32, 0x919210#32, 0x473566#32,
  0x8c4ce1#32, 0x5aeb97#32, 0x7a09b6#32, 0xacaec0#32, 0x3bcdf4#32, 0xed6a82#32, 0xcd88a3#32, 0x1b2fd5#32,
  0xb84570#32, 0x6ee206#32, 0x4e0027#32, 0x98a751#32, 0x0fc465#32, 0xd96313#32, 0xf98132#32, 0x2f2644#32,
  0x347987#32, 0xe2def1#32, 0xc23cd0#32, 0x149ba6#32, 0x83f892#32, 0x555fe4#32, 0x75bdc5#32, 0xa31ab3#32,
  0x007016#32, 0xd6d760#32, 0xf63541#32, 0x209237#32, 0xb7f103#32, 0x615675#32, 0x41b454#32, 0x971322#32,
  0x5c6aa5#32, 0x8acdd3#32, 0xaa2ff2#32, 0x7c8884#32, 0xebebb0#32, 0x3d4cc6#32, 0x1daee7#32, 0xcb0991#32,
  0x686334#32, 0xbec442#32, 0x9e2663#32, 0x488115#32, 0xdfe221#32, 0x094557#32, 0x29a776#32, 0xff0000#32]

/-- src/gsm/rlp.c:236-237: the loop body -/
def fcsStep (divider : BitVec 32) (b : Byte) : BitVec 32 :=
  let input : Byte := b ^^^ (divider &&& 0xff#32).setWidth 8
  (divider >>> 8) ^^^ fcsTable.getD input.toNat 0#32

/-- src/gsm/rlp.c:230-241 `osmo_rlp_fcs_compute` -/
def fcsCompute (inp : List Byte) : BitVec 32 := inp.foldl fcsStep 0#32

/-- include/osmocom/gsm/rlp.h:62-75 `osmo_rlp_frame_decoded`.  The enums are
their numbers (include/osmocom/gsm/rlp.h:31-35: U = 0, S = 1, IS = 2). -/
structure Frame where
  version : Byte
  ftype : BitVec 32
  uFtype : BitVec 32
  sFtype : BitVec 32
  cR : Bool
  pF : Bool
  sBits : Byte
  nS : BitVec 16
  nR : BitVec 16
  fcs : BitVec 32
  /-- `uint8_t info[536/8]`: 67 bytes -/
  info : List Byte
  infoLen : BitVec 16
deriving DecidableEq, Repr

/-- `memset(out, 0, sizeof(*out))`, src/gsm/rlp.c:81 -/
def zeroFrame : Frame :=
  { version := 0#8, ftype := 0#32, uFtype := 0#32, sFtype := 0#32, cR := false, pF := false, sBits := 0#8,
    nS := 0#16, nR := 0#16, fcs := 0#32, info := List.replicate 67 0#8, infoLen := 0#16 }

/-- `memcpy(out->info, data + hdr_len, data_len - (hdr_len + FCS_SIZE_BYTES))` and
the assignment of `info_len`: src/gsm/rlp.c:95-96 and 109-110 -/
def copyInfo (f : Frame) (data : List Byte) (dataLen : Nat) : Option Frame := do
  let bs ← readAt data 2 (dataLen - 5)
  let info ← writeAt f.info 0 bs
  some { f with info := info, infoLen := BitVec.ofNat 16 (dataLen - 5) }

/-- src/gsm/rlp.c:69-115 `osmo_rlp_decode`.  `none` = access outside of `data` or
`info`; an error code leaves `*out` untouched. -/
def decode (version : Byte) (data : List Byte) (dataLen : Nat) : Option (Except Int Frame) := do
  if dataLen ≠ 240 / 8 ∧ dataLen ≠ 576 / 8 then return .error (-22)
  if 2#8 ≤ version then return .error (-95)
  let d0 ← data[0]?
  let d1 ← data[1]?
  let nS : Byte := (d0 >>> 3) ||| ((d1 &&& 1#8) <<< 5)
  let nR : Byte := d1 >>> 2
  let c1 ← data[dataLen - 1]?
  let c2 ← data[dataLen - 2]?
  let c3 ← data[dataLen - 3]?
  let f := { zeroFrame with
             version := version
             cR := (d0 &&& 1#8) ≠ 0#8
             fcs := (c1.setWidth 32 <<< 16) ||| (c2.setWidth 32 <<< 8) ||| (c3.setWidth 32 <<< 0)
             pF := ((d1 >>> 1) &&& 1#8) ≠ 0#8 }
  if nS = 0x3f#8 then
    let f := { f with ftype := 0#32, uFtype := (nR &&& 0x1f#8).setWidth 32 }
    if f.uFtype = 0x17#32 then
      let f ← copyInfo f data dataLen
      return .ok f
    else return .ok f
  else if nS = 0x3e#8 then
    return .ok { f with ftype := 1#32, sFtype := ((d0 >>> 1) &&& 3#8).setWidth 32, nR := nR.setWidth 16 }
  else
    let f := { f with ftype := 2#32, sFtype := ((d0 >>> 1) &&& 3#8).setWidth 32, nS := nS.setWidth 16, nR := nR.setWidth 16 }
    let f ← copyInfo f data dataLen
    return .ok f

/-- `out[i] |= v` -/
def orAt (out : List Byte) (i : Nat) (v : Byte) : Option (List Byte) := do
  let x ← out[i]?
  writeAt out i [x ||| v]

/-- `if (b) out[i] |= v`, src/gsm/rlp.c:137-140 -/
def orIf (b : Bool) (out : List Byte) (i : Nat) (v : Byte) : Option (List Byte) := if b then orAt out i v else some out

/-- src/gsm/rlp.c:171-187: patch the header, add the FCS -/
def finish (out : List Byte) (outSize : Nat) (nS nR sBits : Byte) : Option (Int × List Byte) := do
  let out ← orAt out 0 ((nS &&& 0x1f#8) <<< 3)
  let out ← orAt out 1 ((nS &&& 0x20#8) >>> 5)
  let out ← orAt out 1 ((nR &&& 0x3f#8) <<< 2)
  let out ← orAt out 0 ((sBits &&& 3#8) <<< 1)
  let dat ← readAt out 0 (outSize - 3)
  let fcs := fcsCompute dat
  let out ← writeAt out (outSize - 3 : Nat) [((fcs >>> 0) &&& 0xff#32).setWidth 8]
  let out ← writeAt out (outSize - 2 : Nat) [((fcs >>> 8) &&& 0xff#32).setWidth 8]
  let out ← writeAt out (outSize - 1 : Nat) [((fcs >>> 16) &&& 0xff#32).setWidth 8]
  return ((outSize : Int), out)

/-- `memcpy(out+hdr_len, in->info, in->info_len)`, src/gsm/rlp.c:150 and 165 -/
def putInfo (out : List Byte) (f : Frame) : Option (List Byte) := do
  let bs ← readAt f.info 0 f.infoLen.toNat
  writeAt out 2 bs

/-- src/gsm/rlp.c:122-188 `osmo_rlp_encode`: return value and contents of the
output buffer.  `none` = access outside of a buffer. -/
def encode (out : List Byte) (outSize : Nat) (f : Frame) : Option (Int × List Byte) := do
  if 2#8 ≤ f.version then return (-95, out)
  if outSize ≠ 240 / 8 ∧ outSize ≠ 576 / 8 then return (-22, out)
  let out ← writeAt out 0 (List.replicate outSize 0#8)
  let out ← orIf f.cR out 0 0x01#8
  let out ← orIf f.pF out 1 0x02#8
  if f.ftype = 0#32 then
    if f.uFtype = 0x17#32 then
      if outSize - 5 < f.infoLen.toNat then return (-22, out)
      let out ← putInfo out f
      finish out outSize 0x3f#8 (f.uFtype.setWidth 8) 0#8
    else finish out outSize 0x3f#8 (f.uFtype.setWidth 8) 0#8
  else if f.ftype = 1#32 then
    finish out outSize 0x3e#8 (f.nR.setWidth 8) (f.sFtype.setWidth 8)
  else if f.ftype = 2#32 then
    if outSize - 5 < f.infoLen.toNat then return (-22, out)
    let out ← putInfo out f
    finish out outSize (f.nS.setWidth 8) (f.nR.setWidth 8) (f.sFtype.setWidth 8)
  else return (-22, out)

end Verif.Rlp
