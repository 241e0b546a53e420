import Verif.Common
/-!
Models of src/core/crcXXgen.c.tpl (generic bit-wise CRC, instantiated for 8, 16,
32 and 64 bits) and src/core/crc16.c (table driven CRC-16).
-/
namespace Verif.Crc

/-- include/osmocom/core/crcXXgen.h.tpl:30-35 `osmo_crcXXgen_code`, for `uintW_t` -/
structure Code (W : Nat) where
  bits : Nat
  poly : BitVec W
  init : BitVec W
  remainder : BitVec W

/-- src/core/crcXXgen.c.tpl:48-56: the loop body.  For 8 and 16 bits C computes
in `int` and truncates, which gives the same value. -/
def crcStep {W : Nat} (code : Code W) (crc : BitVec W) (inb : Byte) : BitVec W :=
  let n := code.bits - 1
  let bit : BitVec W := (inb &&& 1#8).setWidth W
  let crc := crc ^^^ (bit <<< n)
  let crc := if crc &&& (1#W <<< n) ≠ 0 then (crc <<< 1) ^^^ code.poly else crc <<< 1
  crc &&& ((1#W <<< code.bits) - 1#W)

/-- shift amounts for which the loop body is defined: `1 << code->bits` is
computed in `int` for 8 and 16 bits, in the type itself for 32 and 64. -/
def shiftsDefined {W : Nat} (code : Code W) : Prop :=
  1 ≤ code.bits ∧ code.bits ≤ W ∧ (32 ≤ W → code.bits < W)

instance {W : Nat} (code : Code W) : Decidable (shiftsDefined code) := by
  unfold shiftsDefined; infer_instance

/-- src/core/crcXXgen.c.tpl:40-62 `osmo_crcXXgen_compute_bits`; `none` = shift by
an undefined amount.  More bits than the type has are not modelled as defined. -/
def computeBits {W : Nat} (code : Code W) (inp : List Byte) : Option (BitVec W) :=
  if inp = [] ∨ shiftsDefined code then some (inp.foldl (crcStep code) code.init ^^^ code.remainder)
  else none

/-- `(crc >> (code->bits-i-1)) & 1` as a ubit_t -/
def crcBit {W : Nat} (code : Code W) (crc : BitVec W) (i : Nat) : Byte :=
  if crc.getLsbD (code.bits - i - 1) then 1#8 else 0#8

/-- src/core/crcXXgen.c.tpl:75-88 `osmo_crcXXgen_check_bits`; `crcBits` is the
array with at least `bits` elements (else `none`) -/
def checkBits {W : Nat} (code : Code W) (inp crcBits : List Byte) : Option Nat :=
  (computeBits code inp).bind fun (crc : BitVec W) =>
    if crcBits.length < code.bits then none
    else if (List.range code.bits).any fun i => (crcBits.getD i 0#8) ^^^ crcBit code crc i ≠ 0#8 then some 1
    else some 0

/-- src/core/crcXXgen.c.tpl:100-110 `osmo_crcXXgen_set_bits`: what is written to
`crc_bits` -/
def setBits {W : Nat} (code : Code W) (inp : List Byte) : Option (List Byte) :=
  (computeBits code inp).map fun (crc : BitVec W) => (List.range code.bits).map (crcBit code crc)

/-- src/core/crc16.c:18-51 `osmo_crc16_table` -/
def crc16Table : List (BitVec 16) := [
  0x0000#16, 0xc0c1#16, 0xc181#16, 0x0140#16, 0xc301#16, 0x03c0#16, 0x0280#16, 0xc241#16,
  0xc601#16, 0x06c0#16, 0x0780#16, 0xc741#16, 0x0500#16, 0xc5c1#16, 0xc481#16, 0x0440#16,
  0xcc01#16, 0x0cc0#16, 0x0d80#16, 0xcd41#16, 0x0f00#16, 0xcfc1#16, 0xce81#16, 0x0e40#16,
  0x0a00#16, 0xcac1#16, 0xcb81#16, 0x0b40#16, 0xc901#16, 0x09c0#16, 0x0880#16, 0xc841#16,
  0xd801#16, 0x18c0#16, 0x1980#16, 0xd941#16, 0x1b00#16, 0xdbc1#16, 0xda81#16, 0x1a40#16,
  0x1e00#16, 0xdec1#16, 0xdf81#16, 0x1f40#16, 0xdd01#16, 0x1dc0#16, 0x1c80#16, 0xdc41#16,
  0x1400#16, 0xd4c1#16, 0xd581#16, 0x1540#16, 0xd701#16, 0x17c0#16, 0x1680#16, 0xd641#16,
  0xd201#16, 0x12c0#16, 0x1380#16, 0xd341#16, 0x1100#16, 0xd1c1#16, 0xd081#16, 0x1040#16,
  0xf001#16, 0x30c0#16, 0x3180#16, 0xf141#16, 0x3300#16, 0xf3c1#16, 0xf281#16, 0x3240#16,
  0x3600#16, 0xf6c1#16, 0xf781#16, 0x3740#16, 0xf501#16, 0x35c0#16, 0x3480#16, 0xf441#16,
  0x3c00#16, 0xfcc1#16, 0xfd81#16, 0x3d40#16, 0xff01#16, 0x3fc0#16, 0x3e80#16, 0xfe41#16,
  0xfa01#16, 0x3ac0#16, 0x3b80#16, 0xfb41#16, 0x3900#16, 0xf9c1#16, 0xf881#16, 0x3840#16,
  0x2800#16, 0xe8c1#16, 0xe981#16, 0x2940#16, 0xeb01#16, 0x2bc0#16, 0x2a80#16, 0xea41#16,
  0xee01#16, 0x2ec0#16, 0x2f80#16, 0xef41#16, 0x2d00#16, 0xedc1#16, 0xec81#16, 0x2c40#16,
  0xe401#16, 0x24c0#16, 0x2580#16, 0xe541#16, 0x2700#16, 0xe7c1#16, 0xe681#16, 0x2640#16,
  0x2200#16, 0xe2c1#16, 0xe381#16, 0x2340#16, 0xe101#16, 0x21c0#16, 0x2080#16, 0xe041#16,
  0xa001#16, 0x60c0#16, 0x6180#16, 0xa141#16, 0x6300#16, 0xa3c1#16, 0xa281#16, 0x6240#16,
  0x6600#16, 0xa6c1#16, 0xa781#16, 0x6740#16, 0xa501#16, 0x65c0#16, 0x6480#16, 0xa441#16,
  0x6c00#16, 0xacc1#16, 0xad81#16, 0x6d40#16, 0xaf01#16, 0x6fc0#16, 0x6e80#16, 0xae41#16,
  0xaa01#16, 0x6ac0#16, 0x6b80#16, 0xab41#16, 0x6900#16, 0xa9c1#16, 0xa881#16, 0x6840#16,
  0x7800#16, 0xb8c1#16, 0xb981#16, 0x7940#16, 0xbb01#16, 0x7bc0#16, 0x7a80#16, 0xba41#16,
  0xbe01#16, 0x7ec0#16, 0x7f80#16, 0xbf41#16, 0x7d00#16, 0xbdc1#16, 0xbc81#16, 0x7c40#16,
  0xb401#16, 0x74c0#16, 0x7580#16, 0xb541#16, 0x7700#16, 0xb7c1#16, 0xb681#16, 0x7640#16,
  0x7200#16, 0xb2c1#16, 0xb381#16, 0x7340#16, 0xb101#16, 0x71c0#16, 0x7080#16, 0xb041#16,
  0x5000#16, 0x90c1#16, 0x9181#16, 0x5140#16, 0x9301#16, 0x53c0#16, 0x5280#16, 0x9241#16,
  0x9601#16, 0x56c0#16, 0x5780#16, 0x9741#16, 0x5500#16, 0x95c1#16, 0x9481#16, 0x5440#16,
  0x9c01#16, 0x5cc0#16, 0x5d80#16, 0x9d41#16, 0x5f00#16, 0x9fc1#16, 0x9e81#16, 0x5e40#16,
  0x5a00#16, 0x9ac1#16, 0x9b81#16, 0x5b40#16, 0x9901#16, 0x59c0#16, 0x5880#16, 0x9841#16,
  0x8801#16, 0x48c0#16, 0x4980#16, 0x8941#16, 0x4b00#16, 0x8bc1#16, 0x8a81#16, 0x4a40#16,
  0x4e00#16, 0x8ec1#16, 0x8f81#16, 0x4f40#16, 0x8d01#16, 0x4dc0#16, 0x4c80#16, 0x8c41#16,
  0x4400#16, 0x84c1#16, 0x8581#16, 0x4540#16, 0x8701#16, 0x47c0#16, 0x4680#16, 0x8641#16,
  0x8201#16, 0x42c0#16, 0x4380#16, 0x8341#16, 0x4100#16, 0x81c1#16, 0x8081#16, 0x4040#16]

/-- src/core/crc16.c:67-100 `osmo_crc16_ccitt_table` -/
def crc16CcittTable : List (BitVec 16) := [
  0x0000#16, 0x1189#16, 0x2312#16, 0x329b#16, 0x4624#16, 0x57ad#16, 0x6536#16, 0x74bf#16,
  0x8c48#16, 0x9dc1#16, 0xaf5a#16, 0xbed3#16, 0xca6c#16, 0xdbe5#16, 0xe97e#16, 0xf8f7#16,
  0x1081#16, 0x0108#16, 0x3393#16, 0x221a#16, 0x56a5#16, 0x472c#16, 0x75b7#16, 0x643e#16,
  0x9cc9#16, 0x8d40#16, 0xbfdb#16, 0xae52#16, 0xdaed#16, 0xcb64#16, 0xf9ff#16, 0xe876#16,
  0x2102#16, 0x308b#16, 0x0210#16, 0x1399#16, 0x6726#16, 0x76af#16, 0x4434#16, 0x55bd#16,
  0xad4a#16, 0xbcc3#16, 0x8e58#16, 0x9fd1#16, 0xeb6e#16, 0xfae7#16, 0xc87c#16, 0xd9f5#16,
  0x3183#16, 0x200a#16, 0x1291#16, 0x0318#16, 0x77a7#16, 0x662e#16, 0x54b5#16, 0x453c#16,
  0xbdcb#16, 0xac42#16, 0x9ed9#16, 0x8f50#16, 0xfbef#16, 0xea66#16, 0xd8fd#16, 0xc974#16,
  0x4204#16, 0x538d#16, 0x6116#16, 0x709f#16, 0x0420#16, 0x15a9#16, 0x2732#16, 0x36bb#16,
  0xce4c#16, 0xdfc5#16, 0xed5e#16, 0xfcd7#16, 0x8868#16, 0x99e1#16, 0xab7a#16, 0xbaf3#16,
  0x5285#16, 0x430c#16, 0x7197#16, 0x601e#16, 0x14a1#16, 0x0528#16, 0x37b3#16, 0x263a#16,
  0xdecd#16, 0xcf44#16, 0xfddf#16, 0xec56#16, 0x98e9#16, 0x8960#16, 0xbbfb#16, 0xaa72#16,
  0x6306#16, 0x728f#16, 0x4014#16, 0x519d#16, 0x2522#16, 0x34ab#16, 0x0630#16, 0x17b9#16,
  0xef4e#16, 0xfec7#16, 0xcc5c#16, 0xddd5#16, 0xa96a#16, 0xb8e3#16, 0x8a78#16, 0x9bf1#16,
  0x7387#16, 0x620e#16, 0x5095#16, 0x411c#16, 0x35a3#16, 0x242a#16, 0x16b1#16, 0x0738#16,
  0xffcf#16, 0xee46#16, 0xdcdd#16, 0xcd54#16, 0xb9eb#16, 0xa862#16, 0x9af9#16, 0x8b70#16,
  0x8408#16, 0x9581#16, 0xa71a#16, 0xb693#16, 0xc22c#16, 0xd3a5#16, 0xe13e#16, 0xf0b7#16,
  0x0840#16, 0x19c9#16, 0x2b52#16, 0x3adb#16, 0x4e64#16, 0x5fed#16, 0x6d76#16, 0x7cff#16,
  0x9489#16, 0x8500#16, 0xb79b#16, 0xa612#16, 0xd2ad#16, 0xc324#16, 0xf1bf#16, 0xe036#16,
  0x18c1#16, 0x0948#16, 0x3bd3#16, 0x2a5a#16, 0x5ee5#16, 0x4f6c#16, 0x7df7#16, 0x6c7e#16,
  0xa50a#16, 0xb483#16, 0x8618#16, 0x9791#16, 0xe32e#16, 0xf2a7#16, 0xc03c#16, 0xd1b5#16,
  0x2942#16, 0x38cb#16, 0x0a50#16, 0x1bd9#16, 0x6f66#16, 0x7eef#16, 0x4c74#16, 0x5dfd#16,
  0xb58b#16, 0xa402#16, 0x9699#16, 0x8710#16, 0xf3af#16, 0xe226#16, 0xd0bd#16, 0xc134#16,
  0x39c3#16, 0x284a#16, 0x1ad1#16, 0x0b58#16, 0x7fe7#16, 0x6e6e#16, 0x5cf5#16, 0x4d7c#16,
  0xc60c#16, 0xd785#16, 0xe51e#16, 0xf497#16, 0x8028#16, 0x91a1#16, 0xa33a#16, 0xb2b3#16,
  0x4a44#16, 0x5bcd#16, 0x6956#16, 0x78df#16, 0x0c60#16, 0x1de9#16, 0x2f72#16, 0x3efb#16,
  0xd68d#16, 0xc704#16, 0xf59f#16, 0xe416#16, 0x90a9#16, 0x8120#16, 0xb3bb#16, 0xa232#16,
  0x5ac5#16, 0x4b4c#16, 0x79d7#16, 0x685e#16, 0x1ce1#16, 0x0d68#16, 0x3ff3#16, 0x2e7a#16,
  0xe70e#16, 0xf687#16, 0xc41c#16, 0xd595#16, 0xa12a#16, 0xb0a3#16, 0x8238#16, 0x93b1#16,
  0x6b46#16, 0x7acf#16, 0x4854#16, 0x59dd#16, 0x2d62#16, 0x3ceb#16, 0x0e70#16, 0x1ff9#16,
  0xf78f#16, 0xe606#16, 0xd49d#16, 0xc514#16, 0xb1ab#16, 0xa022#16, 0x92b9#16, 0x8330#16,
  0x7bc7#16, 0x6a4e#16, 0x58d5#16, 0x495c#16, 0x3de3#16, 0x2c6a#16, 0x1ef1#16, 0x0f78#16]

/-- include/osmocom/core/crc16.h:32-35 `osmo_crc16_byte` -/
def crc16Byte (crc : BitVec 16) (data : Byte) : BitVec 16 :=
  (crc >>> 8) ^^^ crc16Table.getD ((crc ^^^ data.setWidth 16) &&& 0xff#16).toNat 0#16

/-- src/core/crc16.c:59-64 `osmo_crc16` -/
def crc16 (crc : BitVec 16) (buffer : List Byte) : BitVec 16 := buffer.foldl crc16Byte crc

/-- include/osmocom/core/crc16.h:44-47 `osmo_crc16_ccitt_byte` -/
def crc16CcittByte (crc : BitVec 16) (data : Byte) : BitVec 16 :=
  (crc >>> 8) ^^^ crc16CcittTable.getD ((crc ^^^ data.setWidth 16) &&& 0xff#16).toNat 0#16

/-- src/core/crc16.c:108-113 `osmo_crc16_ccitt` -/
def crc16Ccitt (crc : BitVec 16) (buffer : List Byte) : BitVec 16 := buffer.foldl crc16CcittByte crc

end Verif.Crc
