import Verif.Common
import Verif.Sms.Smc
/-!
Model of the short message relay entity, src/gsm/gsm0411_smr.c: one instance,
its timer and the primitives it passes to the layers above (`rl`) and below
(`mn`).

Simplifications: as in `Verif.Sms.Smc`, the callbacks return without calling
back into the instance; a message from below is the octets from `l3h` on.
-/
namespace Verif.Sms.Smr

/-- include/osmocom/gsm/protocol/gsm_04_11.h:18-23; WAIT_FOR_RETRANS_T is never entered -/
inductive RpState where
  | idle | waitForRpAck | waitToTxRpAck
  deriving DecidableEq, Repr

/-- include/osmocom/gsm/gsm0411_smr.h:9-14 -/
def SM_RL_DATA_REQ : Nat := 0x401
def SM_RL_DATA_IND : Nat := 0x402
def SM_RL_REPORT_REQ : Nat := 0x405
def SM_RL_REPORT_IND : Nat := 0x406

/-- include/osmocom/gsm/protocol/gsm_04_11.h:52-58 -/
def RP_DATA_MO : Nat := 0
def RP_DATA_MT : Nat := 1
def RP_ACK_MO : Nat := 2
def RP_ACK_MT : Nat := 3
def RP_ERROR_MO : Nat := 4
def RP_ERROR_MT : Nat := 5
def RP_SMMA_MO : Nat := 6

/-- `GSM411_RP_CAUSE_MSGTYPE_NOTEXIST`, `GSM411_RP_CAUSE_MSG_INCOMP_STATE` -/
def MSGTYPE_NOTEXIST : Nat := 97
def MSG_INCOMP_STATE : Nat := 98

/-- include/osmocom/gsm/gsm0411_smr.h:16-26; `timer`: `rp_timer` is scheduled -/
structure Smr where
  network : Bool
  state : RpState := .idle
  timer : Bool := false
  deriving DecidableEq, Repr

/-- `mn_send`, `rl_recv`, `msgb_free` of a message of the upper layer -/
inductive Out where
  | mn (type : Nat) (m : List Byte)
  | rl (type : Nat) (m : List Byte)
  | free (m : List Byte)
  deriving DecidableEq, Repr

/-- src/gsm/gsm0411_smr.c:155-169 `gsm411_rp_sendmsg`: the header pushed before `m` -/
def rpHdr (type ref : Nat) (m : List Byte) : List Byte :=
  BitVec.ofNat 8 (m.length % 256 + 2) :: BitVec.ofNat 8 type :: BitVec.ofNat 8 ref :: m

/-- src/gsm/gsm0411_smr.c:141-152 `new_rp_state` -/
def newState (s : Smr) (st : RpState) : Smr := { s with state := st, timer := if st = .idle then false else s.timer }

/-- src/gsm/gsm0411_smr.c:171-185 `gsm411_send_rp_error` -/
def rpError (s : Smr) (ref cause : Nat) : Out :=
  .mn MNSMS_DATA_REQ (rpHdr (if s.network then RP_ERROR_MT else RP_ERROR_MO) ref [1, BitVec.ofNat 8 cause])

/-- src/gsm/gsm0411_smr.c:187-195 `gsm411_send_release` -/
def release : Out := .mn MNSMS_REL_REQ []

/-- src/gsm/gsm0411_smr.c:219-228 `gsm411_rl_data_req` -/
def dataReq (s : Smr) (m : List Byte) : Smr × List Out :=
  (newState { s with timer := true } .waitForRpAck, [.mn MNSMS_EST_REQ m])

/-- src/gsm/gsm0411_smr.c:230-239 `gsm411_rl_report_req` -/
def reportReq (s : Smr) (m : List Byte) : Smr × List Out := (newState s .idle, [.mn MNSMS_DATA_REQ m, release])

/-- the fields of the RP header behind the two octets of the CP header:
`rp_data->msg_type & 0x07` and `rp_data->msg_ref`; `none`: behind the message.
The reference is read only where it is used -/
def rpType (m : List Byte) : Option Nat := (m[3]?).map fun b => b.toNat % 8
def rpRef (m : List Byte) : Option Nat := (m[4]?).map BitVec.toNat

/-- `inst->network == (msg_type & 1)` -/
def wrongWay (s : Smr) (t : Nat) : Bool := s.network.toNat == t % 2

/-- src/gsm/gsm0411_smr.c:241-290 `gsm411_mnsms_est_ind` -/
def estInd (s : Smr) (m : List Byte) : Option (Smr × List Out) :=
  match rpType m with
  | none => none
  | some t =>
    if wrongWay s t then (rpRef m).map fun ref => (newState s .idle, [rpError s ref MSG_INCOMP_STATE, release])
    else if t = RP_DATA_MT ∨ t = RP_DATA_MO ∨ t = RP_SMMA_MO then
      some (newState { s with timer := true } .waitToTxRpAck, [.rl SM_RL_DATA_IND m])
    else (rpRef m).map fun ref => (newState s .idle, [rpError s ref MSGTYPE_NOTEXIST])

/-- src/gsm/gsm0411_smr.c:292-340 `gsm411_mnsms_data_ind_tx` -/
def dataInd (s : Smr) (m : List Byte) : Option (Smr × List Out) :=
  match rpType m with
  | none => none
  | some t =>
    if wrongWay s t then (rpRef m).map fun ref => (newState s .idle, [rpError s ref MSG_INCOMP_STATE, release])
    else if t = RP_ACK_MO ∨ t = RP_ACK_MT ∨ t = RP_ERROR_MO ∨ t = RP_ERROR_MT then
      some (newState s .idle, [.rl SM_RL_REPORT_IND m, release])
    else (rpRef m).map fun ref => (newState s .idle, [rpError s ref MSGTYPE_NOTEXIST, release])

/-- src/gsm/gsm0411_smr.c:342-351 `gsm411_mnsms_error_ind_tx` -/
def errorIndTx (s : Smr) (m : List Byte) : Smr × List Out := (newState s .idle, [.rl SM_RL_REPORT_IND m, release])

/-- src/gsm/gsm0411_smr.c:353-360 `gsm411_mnsms_error_ind_rx` -/
def errorIndRx (s : Smr) (m : List Byte) : Smr × List Out := (newState s .idle, [.rl SM_RL_REPORT_IND m])

/-- src/gsm/gsm0411_smr.c:363-375 `rp_timer_expired`, with 197-217: an empty
report and an abort with a TV of cause 111 -/
def timerExpired (s : Smr) : Smr × List Out :=
  ({ s with timer := false }, [.rl SM_RL_REPORT_IND [], .mn MNSMS_ABORT_REQ [1, 111]])

/-- src/gsm/gsm0411_smr.c:400-427 `gsm411_smr_send` with the table of 378-394 -/
def send (s : Smr) (type : Nat) (m : List Byte) : Smr × List Out :=
  if type = SM_RL_DATA_REQ ∧ s.state = .idle then dataReq s m
  else if type = SM_RL_REPORT_REQ ∧ s.state = .waitToTxRpAck then reportReq s m
  else (s, [.free m])

/-- src/gsm/gsm0411_smr.c:465-494 `gsm411_smr_recv` with the table of 430-457 -/
def recv (s : Smr) (type : Nat) (m : List Byte) : Option (Smr × List Out) :=
  if type = MNSMS_EST_IND ∧ s.state = .idle then estInd s m
  else if type = MNSMS_DATA_IND ∧ s.state = .waitForRpAck then dataInd s m
  else if type = MNSMS_ERROR_IND ∧ s.state = .waitForRpAck then some (errorIndTx s m)
  else if type = MNSMS_ERROR_IND ∧ s.state = .waitToTxRpAck then some (errorIndRx s m)
  else some (s, [])

/-- what can happen to an instance -/
inductive Ev where
  | send (type : Nat) (m : List Byte)
  | recv (type : Nat) (m : List Byte)
  | timeout
  deriving DecidableEq, Repr

def step (s : Smr) : Ev → Option (Smr × List Out)
  | .send t m => some (send s t m)
  | .recv t m => recv s t m
  | .timeout => if s.timer then some (timerExpired s) else some (s, [])

def run (s : Smr) : List Ev → Option (Smr × List (Ev × List Out))
  | [] => some (s, [])
  | e :: es =>
    match step s e with
    | none => none
    | some (s', out) =>
      match run s' es with
      | none => none
      | some (s'', tr) => some (s'', (e, out) :: tr)

/-- src/gsm/gsm0411_smr.c:76-93 `gsm411_smr_init` -/
def init (network : Bool) : Smr := { network := network }

end Verif.Sms.Smr
