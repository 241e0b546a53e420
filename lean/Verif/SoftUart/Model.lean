import Verif.Common
/-!
Model of src/core/soft_uart.c.

Unpacked bits (`ubit_t`) are booleans, i.e. they only hold 0 and 1, as the type
requires.  `uint8_t` counters wrap at 256.  Call-backs are observers: the
receive call-back appends the message and its flags to a log, the transmit
call-back supplies a list of characters.  They do not call the UART again.
-/
namespace Verif.SoftUart

/-- include/osmocom/core/soft_uart.h:33-40 `enum osmo_soft_uart_parity_mode`;
`bad` is any value outside of the enumeration. -/
inductive Parity | none | even | odd | mark | space | bad
deriving Repr, DecidableEq

/-- include/osmocom/core/soft_uart.h:62-73 `enum osmo_soft_uart_flow_ctrl_mode`. -/
inductive FlowCtrl | none | dtrDsr | rtsCts
deriving Repr, DecidableEq

/-- include/osmocom/core/soft_uart.h:76-123 `struct osmo_soft_uart_cfg`: data and
stop bits are `uint8_t`, buffer size and timeout `unsigned int`; `cb` tells
whether `rx_cb` is set.  `status_change_cb` and `priv` are left out. -/
structure Cfg where
  nData : Nat
  nStop : Nat
  parity : Parity
  bufSize : Nat
  timeout : Nat
  cb : Bool
  flowCtrl : FlowCtrl := .none
deriving Repr, DecidableEq

/-- src/core/soft_uart.c:32-37 `enum suart_flow_state`. -/
inductive Flow | idle | data | parity | stop
deriving Repr, DecidableEq

/-- The part of `rx` of src/core/soft_uart.c:45-54 that follows single bits. -/
structure Core where
  flow : Flow
  bitCount : Nat
  shiftReg : Byte
  parityBit : Bool
  flags : Nat
deriving Repr, DecidableEq

/-- A receive buffer: the size it was allocated with and the characters in it. -/
structure Buf where
  cap : Nat
  chars : List Byte
deriving Repr, DecidableEq

/-- src/core/soft_uart.c:40-62 `struct osmo_soft_uart`, receiving side.  `timerCb`
tells whether `osmo_timer_setup` was called, `timer` whether the timer is
pending, `log` holds what was passed to `rx_cb`, oldest first. -/
structure Uart where
  cfg : Cfg
  running : Bool
  core : Core
  msg : Option Buf
  timerCb : Bool
  timer : Bool
  log : List (List Byte × Nat)
deriving Repr, DecidableEq

/-- src/core/msgb.c:73-94 `msgb_alloc_c`: the size is an `uint16_t`. -/
def allocBuf (size : Nat) : Buf := { cap := size % 65536, chars := [] }

/-- src/core/soft_uart.c:80-92 `osmo_soft_uart_flush_rx`. -/
def flushRx (u : Uart) : Uart :=
  match u.msg with
  | none => u
  | some m =>
    if m.chars = [] then u
    else if u.cfg.cb then
      { u with timer := false, log := u.log ++ [(m.chars, u.core.flags)], msg := some (allocBuf u.cfg.bufSize) }
    else { u with timer := false, msg := some { m with chars := [] } }

/-- src/core/soft_uart.c:95-111 `suart_rx_ch`; `none` if the assertion fails or
`msgb_put_u8` aborts for lack of room. -/
def rxCh (u : Uart) (ch : Byte) : Option Uart :=
  match u.msg with
  | none => none
  | some m =>
    if m.cap < m.chars.length + 1 then none
    else
      let u1 := { u with msg := some { m with chars := m.chars ++ [ch] } }
      let len := m.chars.length + 1
      if u.cfg.bufSize ≤ len ∨ u.core.flags ≠ 0 then some (flushRx u1)
      else if len = 1 then some { u1 with timer := true }
      else some u1

/-- src/core/soft_uart.c:114-185 `suart_rx_bit` without the call of
`suart_rx_ch`: the new state and the character that is complete, if any;
`none` for the failed assertion of line 168. -/
def coreBit (cfg : Cfg) (c : Core) (bit : Bool) : Option (Core × Option Byte) :=
  match c.flow with
  | .idle =>
    if bit = false then
      some ({ flow := .data, flags := 0, shiftReg := 0, bitCount := 0, parityBit := false }, none)
    else some (c, none)
  | .data =>
    let bitCount := (c.bitCount + 1) % 256
    let shiftReg := c.shiftReg >>> 1
    let shiftReg := if bit then shiftReg ||| 0x80#8 else shiftReg
    let parityBit := if bit then !c.parityBit else c.parityBit
    if cfg.nData ≤ bitCount then
      some ({ c with
        flow := if cfg.parity ≠ .none then .parity else .stop
        bitCount := bitCount
        parityBit := parityBit
        shiftReg := if cfg.nData < 8 then shiftReg >>> (8 - cfg.nData) else shiftReg }, none)
    else some ({ c with bitCount := bitCount, parityBit := parityBit, shiftReg := shiftReg }, none)
  | .parity =>
    match cfg.parity with
    | .even => some ({ c with flow := .stop, flags := if c.parityBit ≠ bit then c.flags ||| 2 else c.flags }, none)
    | .odd => some ({ c with flow := .stop, flags := if c.parityBit = bit then c.flags ||| 2 else c.flags }, none)
    | .mark => some ({ c with flow := .stop, flags := if bit ≠ true then c.flags ||| 2 else c.flags }, none)
    | .space => some ({ c with flow := .stop, flags := if bit ≠ false then c.flags ||| 2 else c.flags }, none)
    | .none => none
    | .bad => none
  | .stop =>
    let bitCount := (c.bitCount + 1) % 256
    let flags := if bit ≠ true then c.flags ||| 1 else c.flags
    if cfg.nData + cfg.nStop ≤ bitCount then
      some ({ c with bitCount := bitCount, flags := flags }, some c.shiftReg)
    else some ({ c with bitCount := bitCount, flags := flags }, none)

/-- src/core/soft_uart.c:114-185 `suart_rx_bit`. -/
def rxBit (u : Uart) (bit : Bool) : Option Uart :=
  match coreBit u.cfg u.core bit with
  | none => none
  | some (c, none) => some { u with core := c }
  | some (c, some ch) =>
    match rxCh { u with core := c } ch with
    | none => none
    | some u' => some { u' with core := { u'.core with flow := .idle } }

/-- src/core/soft_uart.c:204-205. -/
def rxBits (u : Uart) : List Bool → Option Uart
  | [] => some u
  | b :: bs =>
    match rxBit u b with
    | none => none
    | some u' => rxBits u' bs

/-- src/core/soft_uart.c:200-207 `osmo_soft_uart_rx_ubits`; -11 is -EAGAIN. -/
def rxUbits (u : Uart) (bits : List Bool) : Option (Int × Uart) :=
  if !u.running then some (-11, u)
  else
    match rxBits u bits with
    | none => none
    | some u' => some (0, u')

/-- The receive timer expires (src/core/soft_uart.c:188-192 `suart_rx_timer_cb`):
nothing happens if it is not pending, nor if no function was set
(src/core/timer.c:276-278). -/
def timerExpiry (u : Uart) : Uart :=
  if !u.timer then u
  else if u.timerCb then flushRx { u with timer := false }
  else { u with timer := false }

/-- src/core/soft_uart.c:443-465 `osmo_soft_uart_configure`; -22 is -EINVAL. -/
def configure (u : Uart) (cfg : Cfg) : Int × Uart :=
  if cfg.nData > 8 ∨ cfg.nData = 0 then (-22, u)
  else if cfg.nStop = 0 then (-22, u)
  else if cfg.parity = .bad then (-22, u)
  else if cfg.bufSize = 0 then (-22, u)
  else
    let u1 := if u.cfg.bufSize > cfg.bufSize ∨ u.cfg.timeout > cfg.timeout then flushRx u else u
    (0, { u1 with cfg := cfg, timerCb := true })

/-- src/core/soft_uart.c:487-501 `osmo_soft_uart_set_rx`. -/
def setRx (u : Uart) (enable : Bool) : Uart :=
  if !enable && u.running then
    let u1 := flushRx u
    { u1 with running := false, core := { u1.core with flow := .idle } }
  else if enable && !u.running then
    let u1 := match u.msg with
      | none => { u with msg := some (allocBuf u.cfg.bufSize) }
      | some _ => u
    { u1 with running := true, core := { u1.core with flow := .idle } }
  else u

/-- src/core/soft_uart.c:411-423 `osmo_soft_uart_alloc`: everything but the
configuration is zero; the configuration is not checked. -/
def alloc (cfg : Cfg) : Uart :=
  { cfg := cfg, running := false,
    core := { flow := .idle, bitCount := 0, shiftReg := 0, parityBit := false, flags := 0 },
    msg := none, timerCb := false, timer := false, log := [] }

/-- What can happen to the receiving side. -/
inductive Op
  | configure (cfg : Cfg)
  | setRx (enable : Bool)
  | rx (bits : List Bool)
  | timer
  | flush
deriving Repr, DecidableEq

def step (u : Uart) : Op → Option Uart
  | .configure cfg => some (configure u cfg).2
  | .setRx e => some (setRx u e)
  | .rx bits => (rxUbits u bits).map Prod.snd
  | .timer => some (timerExpiry u)
  | .flush => some (flushRx u)

def run (u : Uart) : List Op → Option Uart
  | [] => some u
  | o :: os =>
    match step u o with
    | none => none
    | some u' => run u' os

/-- `tx` of src/core/soft_uart.c:55-61. -/
structure Tx where
  running : Bool
  flow : Flow
  bitCount : Nat
  shiftReg : Byte
  parityBit : Bool
deriving Repr, DecidableEq

/-- src/core/soft_uart.c:214-276 `suart_tx_bit`; the message is the list of
characters in it, empty for NULL.  `none` for the failed assertion of line 261. -/
def txBit (cfg : Cfg) (t : Tx) (msg : List Byte) : Option (Bool × Tx × List Byte) :=
  match t.flow with
  | .idle =>
    match msg with
    | [] => some (true, t, [])
    | ch :: msg => some (false, { t with shiftReg := ch, flow := .data, bitCount := 0, parityBit := false }, msg)
  | .data =>
    let bit := t.shiftReg.getLsbD 0
    let bitCount := (t.bitCount + 1) % 256
    some (bit,
      { t with
        parityBit := xor t.parityBit bit
        shiftReg := t.shiftReg >>> 1
        bitCount := bitCount
        flow := if cfg.nData ≤ bitCount then (if cfg.parity ≠ .none then .parity else .stop) else .data },
      msg)
  | .parity =>
    match cfg.parity with
    | .even => some (t.parityBit, { t with flow := .stop }, msg)
    | .odd => some (!t.parityBit, { t with flow := .stop }, msg)
    | .mark => some (true, { t with flow := .stop }, msg)
    | .space => some (false, { t with flow := .stop }, msg)
    | .none => none
    | .bad => none
  | .stop =>
    let bitCount := (t.bitCount + 1) % 256
    some (true,
      { t with bitCount := bitCount, flow := if cfg.nData + cfg.nStop ≤ bitCount then .idle else .stop }, msg)

/-- src/core/soft_uart.c:279-290 `suart_tx_pending`: the bits stored. -/
def txPending (cfg : Cfg) (t : Tx) : Nat → Option (List Bool × Tx)
  | 0 => some ([], t)
  | n + 1 =>
    if t.flow = .idle then some ([], t)
    else
      match txBit cfg t [] with
      | none => none
      | some (b, t', _) =>
        match txPending cfg t' n with
        | none => none
        | some (bs, t'') => some (b :: bs, t'')

/-- src/core/soft_uart.c:351-352. -/
def txPull (cfg : Cfg) (t : Tx) (msg : List Byte) : Nat → Option (List Bool × Tx × List Byte)
  | 0 => some ([], t, msg)
  | n + 1 =>
    match txBit cfg t msg with
    | none => none
    | some (b, t', msg') =>
      match txPull cfg t' msg' n with
      | none => none
      | some (bs, r) => some (b :: bs, r)

/-- src/core/soft_uart.c:310-326: DSR is 4, CTS is 32
(include/osmocom/core/soft_uart.h:51-58). -/
def suspended (cfg : Cfg) (status : Nat) : Bool :=
  match cfg.flowCtrl with
  | .dtrDsr => !status.testBit 2
  | .rtsCts => !status.testBit 5
  | .none => false

/-- src/core/soft_uart.c:328-339: the number of characters asked for. -/
def txChars (cfg : Cfg) (t : Tx) (n : Nat) : Nat :=
  let frameBits := 1 + cfg.nData + cfg.nStop
  let frameBits := if cfg.parity ≠ .none then frameBits + 1 else frameBits
  let nChars := n / frameBits
  if nChars = 0 then (if t.flow = .idle then 1 else 0) else nChars

/-- What a call of `osmo_soft_uart_tx_ubits` does: return value, the bits
stored, the characters taken from the call-back, the characters of these that
were still in the message when it was freed. -/
structure TxOut where
  rc : Int
  bits : List Bool
  taken : List Byte
  lost : List Byte
  tx : Tx
deriving Repr, DecidableEq

/-- src/core/soft_uart.c:298-356 `osmo_soft_uart_tx_ubits`.  `supply k` is what
`tx_cb` writes into a message with room for `k` characters; more than `k`
characters abort in `msgb_put`.  The message is allocated with an `uint16_t`
size (line 343). -/
def txUbits (cfg : Cfg) (t : Tx) (status n : Nat) (supply : Nat → List Byte) : Option TxOut :=
  if n = 0 then some { rc := -22, bits := [], taken := [], lost := [], tx := t }
  else if !t.running then some { rc := -11, bits := [], taken := [], lost := [], tx := t }
  else if suspended cfg status then
    match txPending cfg t n with
    | none => none
    | some (bs, t') => some { rc := bs.length, bits := bs, taken := [], lost := [], tx := t' }
  else
    let nChars := txChars cfg t n
    let room := nChars % 65536
    let msg := if nChars = 0 then [] else supply room
    if room < msg.length then none
    else
      match txPull cfg t msg n with
      | none => none
      | some (bs, t', msg') => some { rc := n, bits := bs, taken := msg, lost := msg', tx := t' }

/-- A sequence of calls: status lines, number of bits, call-back.  The bits of
all calls and the characters of all calls. -/
def txRun (cfg : Cfg) (t : Tx) : List (Nat × Nat × (Nat → List Byte)) → Option (List Bool × List Byte × Tx)
  | [] => some ([], [], t)
  | (status, n, supply) :: calls =>
    match txUbits cfg t status n supply with
    | none => none
    | some o =>
      match txRun cfg o.tx calls with
      | none => none
      | some (bs, cs, t') => some (o.bits ++ bs, o.taken ++ cs, t')

end Verif.SoftUart
