import Verif.Bits.Model
import Verif.Crc.Model
/-!
Model of src/core/isdnhdlc.c.

`struct osmo_isdnhdlc_vars` is used either by the decoder or by the encoder;
each gets the members it uses.  `int` members that never are negative are natural
numbers.  The state STOPPED is assigned nowhere and left out.  Loops run for
a number of rounds; `none` stands for an access outside of an array or for
rounds running out.
-/
namespace Verif.IsdnHdlc

open Verif.Bits (revbytebits8)
open Verif.Crc (crc16CcittByte)

/-! ### Decoder -/

/-- src/core/isdnhdlc.c:29-32 -/
inductive RxState where
  | fastIdle | getFlagB0 | getFlagB1A6 | getFlagB7 | getData | fastFlag
deriving Repr, DecidableEq

/-- include/osmocom/core/isdnhdlc.h:29-53 `struct osmo_isdnhdlc_vars` -/
structure Rx where
  bitShift : Nat
  ones : Nat
  dataBits : Nat
  ffbitShift : Nat
  state : RxState
  dstpos : Nat
  crc : BitVec 16
  cbin : Byte
  shiftReg : Byte
  ffvalue : Byte
  dataReceived : Bool
  doAdapt56 : Bool
  doBitreverse : Bool
deriving Repr, DecidableEq

/-- src/core/isdnhdlc.c:43-51 `osmo_isdnhdlc_rcv_init` -/
def rcvInit (adapt56 bitreverse : Bool) : Rx :=
  { bitShift := 0, ones := 0, dataBits := 0, ffbitShift := 0, state := .getData, dstpos := 0, crc := 0,
    cbin := 0, shiftReg := 0, ffvalue := 0, dataReceived := false, doAdapt56 := adapt56, doBitreverse := bitreverse }

/-- src/core/isdnhdlc.c:74-90 `check_frame` -/
def checkFrame (h : Rx) : Rx × Int :=
  if h.dstpos < 2 then (h, -1)
  else if h.crc ≠ 0xf0b8#16 then (h, -2)
  else ({ h with dstpos := h.dstpos - 2 }, ((h.dstpos - 2 : Nat) : Int))

/-- src/core/isdnhdlc.c:121-123 -/
def fastFlag : List Byte := [0x00, 0x00, 0x00, 0x20, 0x30, 0x38, 0x3c, 0x3e, 0x3f]

/-- src/core/isdnhdlc.c:125-127 -/
def fastFlagValue : List Byte := [0x00, 0x7e, 0xfc, 0xf9, 0xf3, 0xe7, 0xcf, 0x9f, 0x3f]

/-- src/core/isdnhdlc.c:129-131 -/
def fastAbort : List Byte := [0x00, 0x00, 0x80, 0xc0, 0xe0, 0xf0, 0xf8, 0xfc, 0xfe, 0xff]

/-- src/core/isdnhdlc.c:133-144 `handle_fast_flag` -/
def handleFastFlag (h : Rx) : Option Rx :=
  fastFlag[h.bitShift]?.bind (fun v =>
    if h.cbin = v then
      fastFlagValue[h.bitShift]?.map (fun u =>
        { h with ffvalue := u, state := .fastFlag, ffbitShift := h.bitShift, bitShift := 1 })
    else some { h with state := .getData, dataReceived := false })

/-- src/core/isdnhdlc.c:146-155 `handle_abort` -/
def handleAbort (h : Rx) : Option Rx :=
  if h.ffbitShift = 0 then none
  else
    fastAbort[h.ffbitShift - 1]?.map (fun v =>
      { h with shiftReg := v, ones := h.ffbitShift - 2, dataBits := h.ffbitShift - 1, state := .getData, dataReceived := false })

/-- `cbin <<= 1; bit_shift--` -/
def nextBit (h : Rx) : Rx := { h with cbin := h.cbin <<< 1, bitShift := h.bitShift - 1 }

/-- src/core/isdnhdlc.c:222-271: the bit in state HDLC_GET_DATA. -/
def getDataBit (h : Rx) (status : Int) : Option (Rx × Int) :=
  if h.cbin.getLsbD 7 then
    let h := { h with ones := h.ones + 1 }
    if h.ones = 6 then some (h, status)
    else if h.ones = 7 then
      let status := if h.dataReceived then -1 else status
      if h.doAdapt56 then some ({ h with state := .getFlagB0 }, status)
      else
        fastAbort[h.bitShift + 1]?.map (fun v =>
          if h.cbin = v then ({ h with state := .fastIdle, bitShift := 1 }, status) else (h, status))
    else some ({ h with shiftReg := (h.shiftReg >>> 1) ||| 0x80, dataBits := h.dataBits + 1 }, status)
  else if h.ones = 5 then some ({ h with ones := 0 }, status)
  else if h.ones = 6 then
    let c := if h.dataReceived then checkFrame h else (h, status)
    let h := { c.1 with crc := 0xffff, shiftReg := 0, dataBits := 0 }
    (if h.doAdapt56 then some { h with state := .getData, dataReceived := false } else handleFastFlag h).map
      (fun h => ({ h with ones := 0 }, c.2))
  else some ({ h with shiftReg := h.shiftReg >>> 1, dataBits := h.dataBits + 1, ones := 0 }, status)

/-- Result of one round of the loop. -/
structure RxRes where
  h : Rx
  dst : List Byte
  status : Int
  ret : Bool
deriving Repr, DecidableEq

/-- src/core/isdnhdlc.c:221-296: the state HDLC_GET_DATA. -/
def getData (h : Rx) (dst : List Byte) (dsize : Nat) (status : Int) : Option RxRes :=
  (getDataBit h status).bind (fun r =>
    let h := r.1
    if r.2 ≠ 0 then some { h := nextBit { h with dstpos := 0 }, dst := dst, status := r.2, ret := true }
    else if h.dataBits = 8 then
      let h := { h with dataBits := 0, dataReceived := true, crc := crc16CcittByte h.crc h.shiftReg }
      if h.dstpos < dsize then
        if h.dstpos < dst.length then
          some { h := nextBit { h with dstpos := h.dstpos + 1 }, dst := dst.set h.dstpos h.shiftReg, status := 0, ret := false }
        else none
      else some { h := nextBit { h with dstpos := 0 }, dst := dst, status := -3, ret := false }
    else some { h := nextBit h, dst := dst, status := 0, ret := false })

/-- src/core/isdnhdlc.c:160-170: the next octet, if one is due. -/
def fetch (h : Rx) (src : List Byte) : Rx × List Byte :=
  if h.bitShift = 0 then
    match src with
    | [] => (h, [])
    | b :: src =>
      ({ h with cbin := if h.doBitreverse then b else revbytebits8 b, bitShift := if h.doAdapt56 then 7 else 8 }, src)
  else (h, src)

/-- src/core/isdnhdlc.c:172-314: the switch. -/
def rxSwitch (h : Rx) (dst : List Byte) (dsize : Nat) (status : Int) : Option RxRes :=
  match h.state with
  | .fastIdle =>
    if h.cbin = 0xff then some { h := { h with bitShift := 0 }, dst := dst, status := status, ret := false }
    else some { h := { h with state := .getFlagB0, ones := 0, bitShift := 8 }, dst := dst, status := status, ret := false }
  | .getFlagB0 =>
    let h :=
      if h.cbin.getLsbD 7 then
        if h.doAdapt56 then h
        else if h.ones + 1 ≥ 8 ∧ h.bitShift = 1 then { h with ones := h.ones + 1, state := .fastIdle }
        else { h with ones := h.ones + 1 }
      else { h with state := .getFlagB1A6, ones := 0 }
    some { h := nextBit h, dst := dst, status := status, ret := false }
  | .getFlagB1A6 =>
    let h :=
      if h.cbin.getLsbD 7 then
        if h.ones + 1 = 6 then { h with ones := h.ones + 1, state := .getFlagB7 } else { h with ones := h.ones + 1 }
      else { h with ones := 0 }
    some { h := nextBit h, dst := dst, status := status, ret := false }
  | .getFlagB7 =>
    let h :=
      if h.cbin.getLsbD 7 then { h with state := .getFlagB0 }
      else { h with state := .getData, crc := 0xffff, shiftReg := 0, ones := 0, dataBits := 0, dataReceived := false }
    some { h := nextBit h, dst := dst, status := status, ret := false }
  | .getData => getData h dst dsize status
  | .fastFlag =>
    if h.cbin = h.ffvalue then some { h := { h with bitShift := 0 }, dst := dst, status := status, ret := false }
    else if h.cbin = 0xff then
      some { h := { h with state := .fastIdle, bitShift := 0 }, dst := dst, status := status, ret := false }
    else if h.ffbitShift = 8 then
      some { h := { h with state := .getFlagB7 }, dst := dst, status := status, ret := false }
    else (handleAbort h).map (fun h => { h := h, dst := dst, status := status, ret := false })

/-- src/core/isdnhdlc.c:159-315: the loop, `fuel` rounds at most.  Result: state,
rest of the source, destination, return value. -/
def decLoop (dsize : Nat) : Nat → Rx → List Byte → List Byte → Int → Option (Rx × List Byte × List Byte × Int)
  | 0, _, _, _, _ => none
  | fuel + 1, h, src, dst, status =>
    if src = [] then some (h, src, dst, 0)
    else
      let f := fetch h src
      (rxSwitch f.1 dst dsize status).bind (fun r =>
        if r.ret then some (r.h, f.2, r.dst, r.status) else decLoop dsize fuel r.h f.2 r.dst r.status)

/-- src/core/isdnhdlc.c:116-318 `osmo_isdnhdlc_decode`: state, the part of the
source that is left (`*count` is the length of the rest), destination, return
value.  `slen` is not negative.  There are 8 bits for every octet and 2 rounds
for a bit at most. -/
def decode (h : Rx) (src dst : List Byte) (dsize : Nat) : Option (Rx × List Byte × List Byte × Int) :=
  decLoop dsize (16 * (src.length + 2)) h src dst 0

/-! ### Encoder -/

/-- src/core/isdnhdlc.c:34-39 -/
inductive TxState where
  | sendData | sendCrc1 | sendFastFlag | sendFirstFlag | sendCrc2 | sendClosingFlag
  | sendIdle1 | sendFastIdle | sendFlagB0 | sendFlagB1A6 | sendFlagB7 | sendFlagOne
deriving Repr, DecidableEq

/-- include/osmocom/core/isdnhdlc.h:29-53 `struct osmo_isdnhdlc_vars` -/
structure Tx where
  bitShift : Nat
  ones : Nat
  dataBits : Nat
  state : TxState
  crc : BitVec 16
  cbin : Byte
  shiftReg : Byte
  ffvalue : Byte
  dataReceived : Bool
  dchannel : Bool
  doAdapt56 : Bool
  doClosing : Bool
  doBitreverse : Bool
deriving Repr, DecidableEq

/-- src/core/isdnhdlc.c:53-72 `osmo_isdnhdlc_out_init` -/
def outInit (adapt56 dchannel bitreverse : Bool) : Tx :=
  { bitShift := 0, ones := 0, dataBits := if adapt56 then 0 else 8,
    state := if adapt56 then .sendFlagB0 else if dchannel then .sendFirstFlag else .sendFastFlag,
    crc := 0, cbin := 0x7e, shiftReg := 0, ffvalue := if dchannel then 0 else 0x7e, dataReceived := false,
    dchannel := dchannel, doAdapt56 := adapt56, doClosing := false, doBitreverse := bitreverse }

/-- src/core/isdnhdlc.c:340-342 -/
def xfastFlagValue : List Byte := [0x7e, 0x3f, 0x9f, 0xcf, 0xe7, 0xf3, 0xf9, 0xfc, 0x7e]

/-- An octet as it goes into the destination. -/
def outByte (h : Tx) (b : Byte) : Byte := if h.doBitreverse then b else revbytebits8 b

/-- src/core/isdnhdlc.c:352-377: the next octet of data or the first one of the CRC,
if due. -/
def txLoad (h : Tx) (src : List Byte) : Tx × List Byte :=
  if h.bitShift = 0 then
    if src ≠ [] ∧ h.doClosing = false then
      ({ h with shiftReg := src.headD 0, doClosing := decide (src.length = 1), bitShift := 8 }, src.tail)
    else if h.state = .sendData then
      if h.dataReceived then
        ({ h with state := .sendCrc1, crc := h.crc ^^^ 0xffff, bitShift := 8, shiftReg := (h.crc ^^^ 0xffff).setWidth 8 }, src)
      else if h.doAdapt56 then ({ h with state := .sendFlagB0 }, src)
      else ({ h with state := .sendFastFlag }, src)
    else (h, src)
  else (h, src)

/-- `cbin <<= 1; data_bits++` and the bit. -/
def putBit (h : Tx) (b : Bool) : Tx :=
  { h with cbin := (h.cbin <<< 1) + (if b then 1 else 0), dataBits := h.dataBits + 1 }

/-- src/core/isdnhdlc.c:465-474: the next bit of the shift register, and the count
of ones. -/
def shiftOut (h : Tx) : Tx :=
  let b := h.shiftReg.getLsbD 0
  { putBit h b with ones := if b then h.ones + 1 else 0, shiftReg := h.shiftReg >>> 1, bitShift := h.bitShift - 1 }

/-- src/core/isdnhdlc.c:397-406: the state HDLC_SENDFLAG_ONE. -/
def txFlagOne (h : Tx) : Tx :=
  if h.bitShift = 8 then
    { h with cbin := h.ffvalue >>> (8 - h.dataBits), state := .sendData, crc := 0xffff, ones := 0, dataReceived := true }
  else h

/-- Loop variables of the encoder: state, source, destination, room in it. -/
structure TxLoop where
  h : Tx
  src : List Byte
  out : List Byte
  dsize : Int
deriving Repr, DecidableEq

/-- src/core/isdnhdlc.c:379-590: the switch. -/
def txSwitch (l : TxLoop) : Option TxLoop :=
  let h := l.h
  match h.state with
  | .sendFastFlag =>
    let h := { h with doClosing := false }
    if l.src = [] then some { l with h := h, out := l.out ++ [outByte h h.ffvalue], dsize := l.dsize - 1 }
    else some { l with h := txFlagOne h }
  | .sendFlagOne => some { l with h := txFlagOne h }
  | .sendFlagB0 => some { l with h := { putBit h false with doClosing := false, ones := 0, state := .sendFlagB1A6 } }
  | .sendFlagB1A6 =>
    some { l with h := { putBit h true with ones := h.ones + 1, state := if h.ones + 1 = 6 then .sendFlagB7 else h.state } }
  | .sendFlagB7 =>
    let h := putBit h false
    if l.src = [] then some { l with h := { h with state := .sendFlagB0 } }
    else if h.bitShift = 8 then
      some { l with h := { h with state := .sendData, crc := 0xffff, ones := 0, dataReceived := true } }
    else some { l with h := h }
  | .sendFirstFlag =>
    let h := { h with dataReceived := true }
    if h.dataBits = 8 then some { l with h := { h with state := .sendData, crc := 0xffff, ones := 0 } }
    else
      let h : Tx := { putBit h (h.shiftReg.getLsbD 0) with shiftReg := h.shiftReg >>> 1, bitShift := h.bitShift - 1 }
      if h.bitShift = 0 then some { l with h := { h with state := .sendData, crc := 0xffff, ones := 0 } }
      else some { l with h := h }
  | .sendData =>
    if h.ones = 5 then some { l with h := { putBit h false with ones := 0 } }
    else
      let h := if h.bitShift = 8 then { h with crc := crc16CcittByte h.crc h.shiftReg } else h
      some { l with h := shiftOut h }
  | .sendCrc1 =>
    if h.ones = 5 then some { l with h := { putBit h false with ones := 0 } }
    else
      let h := shiftOut h
      if h.bitShift = 0 then
        some { l with h := { h with shiftReg := (h.crc >>> 8).setWidth 8, state := .sendCrc2, bitShift := 8 } }
      else some { l with h := h }
  | .sendCrc2 =>
    if h.ones = 5 then some { l with h := { putBit h false with ones := 0 } }
    else
      let h := shiftOut h
      if h.bitShift = 0 then some { l with h := { h with shiftReg := 0x7e, state := .sendClosingFlag, bitShift := 8 } }
      else some { l with h := h }
  | .sendClosingFlag =>
    if h.ones = 5 then some { l with h := { putBit h false with ones := 0 } }
    else
      let h : Tx := { putBit h (h.shiftReg.getLsbD 0) with shiftReg := h.shiftReg >>> 1, bitShift := h.bitShift - 1 }
      if h.bitShift = 0 then
        xfastFlagValue[h.dataBits]?.map (fun v =>
          if h.dchannel then
            { l with h := { h with ffvalue := 0x7e, bitShift := 8 - h.dataBits,
                                   state := if 8 - h.dataBits = 0 then .sendFastIdle else .sendIdle1 } }
          else
            { l with h := { h with ffvalue := v, dataReceived := false,
                                   state := if h.doAdapt56 then .sendFlagB0 else .sendFastFlag },
                     dsize := if l.dsize > 1 then 1 else l.dsize })
      else some { l with h := h }
  | .sendIdle1 =>
    let h : Tx := { putBit h true with doClosing := false, bitShift := h.bitShift - 1 }
    if h.bitShift = 0 then some { l with h := { h with state := .sendFastIdle } } else some { l with h := h }
  | .sendFastIdle =>
    let h := { h with doClosing := false, cbin := 0xff, dataBits := 8 }
    if h.bitShift = 8 then some { l with h := { h with cbin := 0x7e, state := .sendFirstFlag } }
    else some { l with h := { h with bitShift := 0, dataBits := 0 }, out := l.out ++ [outByte h h.cbin], dsize := 0 }

/-- src/core/isdnhdlc.c:591-597: the eighth bit at 56 kbit/s. -/
def txAdapt (h : Tx) : Tx := if h.doAdapt56 ∧ h.dataBits = 7 then putBit h true else h

/-- src/core/isdnhdlc.c:591-607: a complete octet goes out. -/
def txOut (l : TxLoop) : TxLoop :=
  let h := txAdapt l.h
  if h.dataBits = 8 then { l with h := { h with dataBits := 0 }, out := l.out ++ [outByte h h.cbin], dsize := l.dsize - 1 }
  else { l with h := h }

/-- src/core/isdnhdlc.c:352-607: one round of the loop. -/
def txRound (l : TxLoop) : Option TxLoop :=
  let f := txLoad l.h l.src
  (txSwitch { l with h := f.1, src := f.2 }).map txOut

/-- src/core/isdnhdlc.c:351-608: the loop, `fuel` rounds at most. -/
def encLoop : Nat → TxLoop → Option TxLoop
  | 0, _ => none
  | fuel + 1, l => if l.dsize > 0 then (txRound l).bind (encLoop fuel) else some l

/-- src/core/isdnhdlc.c:348-350: one octet frames. -/
def txEnter (h : Tx) (src : List Byte) : Tx :=
  if src.length = 1 ∧ h.state = .sendFastFlag then { h with state := .sendFlagOne } else h

/-- src/core/isdnhdlc.c:337-612 `osmo_isdnhdlc_encode` with `fuel` rounds of the loop
at most: state, the part of the source that is left, the octets stored (their number is
the return value). -/
def encode (fuel : Nat) (h : Tx) (src : List Byte) (dsize : Nat) : Option (Tx × List Byte × List Byte) :=
  (encLoop fuel { h := txEnter h src, src := src, out := [], dsize := dsize }).map (fun l => (l.h, l.src, l.out))

end Verif.IsdnHdlc
