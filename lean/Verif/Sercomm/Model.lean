import Verif.Common
/-!
Model of src/core/sercomm.c (HDLC-like framing on a serial line).

A queued message buffer is the list of its bytes with the two header octets.
The receive handlers are represented by the record of what they are called
with; the echo handler answering on its own instance is not modelled.
-/
namespace Verif.Sercomm

def HDLC_FLAG : Byte := 0x7E#8
def HDLC_ESCAPE : Byte := 0x7D#8
def HDLC_C_UI : Byte := 0x03#8
/-- include/osmocom/core/sercomm.h:14-22: `_SC_DLCI_MAX` -/
def DLCI_MAX : Nat := 129

/-- src/core/sercomm.c:60-66 `rx_state` -/
inductive RxSt where
  | waitStart | addr | ctrl | data | escape
  deriving DecidableEq, Repr

/-- include/osmocom/core/sercomm.h:39-48: the queues; the bytes of `tx.msg` from
`next_char` on; whether `tx.state` is RX_ST_ESCAPE -/
structure Tx where
  queues : Nat → List (List Byte)
  cur : Option (List Byte)
  esc : Bool

/-- include/osmocom/core/sercomm.h:51-64: `rx.msg` by its data (NULL is the same
as a fresh buffer), and the calls made to handlers in order -/
structure Rx where
  msg : List Byte
  state : RxSt
  dlci : Byte
  ctrl : Byte
  out : List (Nat × List Byte)

/-- src/core/sercomm.c:102-120 `osmo_sercomm_sendmsg`; there is no queue beyond
the last DLCI: `none`.  The message has head-room for the header. -/
def sendmsg (tx : Tx) (dlci : Byte) (payload : List Byte) : Option Tx :=
  if dlci.toNat < DLCI_MAX then
    some { tx with queues := fun i => if i = dlci.toNat then tx.queues i ++ [dlci :: HDLC_C_UI :: payload] else tx.queues i }
  else none

/-- src/core/sercomm.c:126-136 `osmo_sercomm_tx_queue_depth` -/
def txQueueDepth (tx : Tx) (dlci : Nat) : Nat := (tx.queues dlci).length

/-- src/core/sercomm.c:191-195: the lowest DLCI with a message -/
def firstQueue (tx : Tx) : Option Nat := (List.range DLCI_MAX).find? fun i => tx.queues i ≠ []

/-- the octets that are escaped, src/core/sercomm.c:223-225 -/
def special (c : Byte) : Bool := c == HDLC_FLAG || c == HDLC_ESCAPE || c == 0#8

/-- src/core/sercomm.c:179-238 `osmo_sercomm_drv_pull`: new state and the octet
(`none` inside = nothing to send); outer `none` = read behind the message -/
def pull (tx : Tx) : Option (Tx × Option Byte) :=
  match tx.cur with
  | none =>
    match firstQueue tx with
    | none => some (tx, none)
    | some i =>
      match tx.queues i with
      | [] => some (tx, none)
      | m :: ms =>
        some ({ tx with queues := fun j => if j = i then ms else tx.queues j, cur := some m }, some HDLC_FLAG)
  | some rest =>
    if tx.esc then
      match rest with
      | [] => none
      | c :: r => some ({ tx with cur := some r, esc := false }, some c)
    else
      match rest with
      | [] => some ({ tx with cur := none }, some HDLC_FLAG)
      | c :: r =>
        if special c then some ({ tx with cur := some ((c ^^^ 0x20#8) :: r), esc := true }, some HDLC_ESCAPE)
        else some ({ tx with cur := some r }, some c)

/-- src/core/sercomm.c:258-266 `dispatch_rx_msg` -/
def dispatch (handler : Nat → Bool) (rx : Rx) : Rx :=
  if rx.dlci.toNat < DLCI_MAX ∧ handler rx.dlci.toNat then { rx with out := rx.out ++ [(rx.dlci.toNat, rx.msg)] }
  else rx

/-- src/core/sercomm.c:272-335 `osmo_sercomm_drv_rx_char`; the receive buffer
has `size` octets of tail-room when fresh. -/
def rxChar (handler : Nat → Bool) (size : Nat) (rx : Rx) (ch : Byte) : Rx :=
  if size - rx.msg.length = 0 then { rx with msg := [], state := .waitStart }
  else
    match rx.state with
    | .waitStart => if ch ≠ HDLC_FLAG then rx else { rx with state := .addr }
    | .addr => { rx with dlci := ch, state := .ctrl }
    | .ctrl => { rx with ctrl := ch, state := .data }
    | .data =>
      if ch = HDLC_ESCAPE then { rx with state := .escape }
      else if ch = HDLC_FLAG then { dispatch handler rx with msg := [], state := .waitStart }
      else { rx with msg := rx.msg ++ [ch] }
    | .escape => { rx with msg := rx.msg ++ [ch ^^^ 0x20#8], state := .data }

end Verif.Sercomm
