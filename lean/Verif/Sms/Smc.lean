import Verif.Common
/-!
Model of the short message control entity, src/gsm/gsm0411_smc.c: one
instance, its timer and the primitives it passes to the layers above (`mn`)
and below (`mm`).

Simplifications: the callbacks `mn_recv` and `mm_send` return without calling
back into the instance (a layer that does so queues its primitive); logging is
left out; a message is the list of its octets, and a message buffer that is
freed shows as the output `free`.
-/
namespace Verif.Sms

/-- include/osmocom/gsm/protocol/gsm_04_11.h:10-15 -/
inductive CpState where
  | idle | connPending | waitCpAck | mmEstablished
  deriving DecidableEq, Repr

/-- include/osmocom/gsm/protocol/gsm_04_11.h:29-31 -/
def CP_DATA : Nat := 0x01
def CP_ACK : Nat := 0x04
def CP_ERROR : Nat := 0x10

/-- include/osmocom/gsm/gsm0411_smc.h:10-27 -/
def MMSMS_EST_REQ : Nat := 0x310
def MMSMS_EST_IND : Nat := 0x312
def MMSMS_EST_CNF : Nat := 0x311
def MMSMS_REL_REQ : Nat := 0x320
def MMSMS_REL_IND : Nat := 0x322
def MMSMS_DATA_REQ : Nat := 0x330
def MMSMS_DATA_IND : Nat := 0x332
def MNSMS_ABORT_REQ : Nat := 0x101
def MNSMS_DATA_REQ : Nat := 0x102
def MNSMS_DATA_IND : Nat := 0x103
def MNSMS_EST_REQ : Nat := 0x104
def MNSMS_EST_IND : Nat := 0x105
def MNSMS_ERROR_IND : Nat := 0x106
def MNSMS_REL_REQ : Nat := 0x107

/-- include/osmocom/gsm/gsm0411_smc.h:29-45: the fields that change, and
`cp_max_retr`; `timer`: `cp_timer` is scheduled -/
structure Smc where
  state : CpState := .idle
  msg : Option (List Byte) := none
  rel : Bool := false
  retx : Nat := 0
  maxRetr : Nat := 2
  timer : Bool := false
  deriving DecidableEq, Repr

/-- what an instance does: `mm_send` of a message it allocated, `mm_send` of a
message it was given by the upper layer, `mn_recv`, `msgb_free` of a message it
was given by the upper layer -/
inductive Out where
  | mm (type : Nat) (cp : Nat) (m : List Byte)
  | pass (type : Nat) (cp : Nat) (m : List Byte)
  | mn (type : Nat) (m : List Byte)
  | free (m : List Byte)
  deriving DecidableEq, Repr

/-- the tailroom of `gsm411_msgb_alloc`, src/gsm/gsm0411_utils.c:47-56 -/
def TAILROOM : Nat := 1024 - 128

/-- `if (inst->cp_msg) { msgb_free(inst->cp_msg); inst->cp_msg = NULL; }` -/
def freeMsg (s : Smc) : List Out :=
  match s.msg with
  | none => []
  | some m => [.free m]

/-- src/gsm/gsm0411_smc.c:163-182 `gsm411_mnsms_est_req` -/
def estReq (s : Smc) (m : List Byte) : Smc × List Out :=
  ({ s with msg := some m, state := .connPending, rel := false }, freeMsg s ++ [.mm MMSMS_EST_REQ 0 []])

/-- src/gsm/gsm0411_smc.c:184-206 `gsm411_mmsms_send_msg` of the stored message
`m`; `none`: the copy does not fit the buffer, the program stops -/
def sendMsg (s : Smc) (m : List Byte) : Option (Smc × List Out) :=
  if m.length > TAILROOM then none
  else some ({ s with retx := if s.state ≠ .waitCpAck then 0 else s.retx, state := .waitCpAck, timer := true },
    [.mm MMSMS_DATA_REQ CP_DATA m])

/-- src/gsm/gsm0411_smc.c:208-219 `gsm411_mmsms_est_cnf` -/
def estCnf (s : Smc) : Option (Smc × List Out) :=
  match s.msg with
  | none => some (s, [])
  | some m => sendMsg s m

/-- src/gsm/gsm0411_smc.c:222-253 `cp_timer_expired` -/
def timerExpired (s : Smc) : Option (Smc × List Out) :=
  let s := { s with timer := false }
  if s.retx = s.maxRetr then
    some ({ s with state := .idle, msg := none }, [.mn MNSMS_ERROR_IND []] ++ freeMsg s ++ [.mm MMSMS_REL_REQ 0 []])
  else estCnf { s with retx := s.retx + 1 }

/-- src/gsm/gsm0411_smc.c:255-284 `gsm411_mmsms_cp_ack` -/
def cpAck (s : Smc) : Smc × List Out :=
  if s.rel then ({ s with msg := none, state := .idle, timer := false }, freeMsg s ++ [.mm MMSMS_REL_REQ 0 []])
  else ({ s with msg := none, state := .mmEstablished, timer := false }, freeMsg s)

/-- src/gsm/gsm0411_smc.c:286-307 `gsm411_mmsms_cp_data` -/
def cpData (s : Smc) (m : List Byte) : Smc × List Out :=
  if s.state = .idle then
    ({ s with state := .mmEstablished, rel := false }, [.mm MMSMS_DATA_REQ CP_ACK [], .mn MNSMS_EST_IND m])
  else (s, [.mm MMSMS_DATA_REQ CP_ACK [], .mn MNSMS_DATA_IND m])

/-- src/gsm/gsm0411_smc.c:310-323 `gsm411_mnsms_data_req` -/
def dataReq (s : Smc) (m : List Byte) : Option (Smc × List Out) :=
  match sendMsg { s with msg := some m } m with
  | none => none
  | some (s', out) => some (s', freeMsg s ++ out)

/-- src/gsm/gsm0411_smc.c:326-355 `gsm411_mnsms_rel_req` -/
def relReq (s : Smc) (m : List Byte) : Smc × List Out :=
  if s.state = .idle then (s, [.free m])
  else if s.state ≠ .mmEstablished then ({ s with rel := true }, [.free m])
  else ({ s with msg := none, state := .idle }, [.free m] ++ freeMsg s ++ [.mm MMSMS_REL_REQ 0 []])

/-- src/gsm/gsm0411_smc.c:357-376 `gsm411_mmsms_cp_error` -/
def cpError (s : Smc) (m : List Byte) : Smc × List Out :=
  ({ s with msg := none, state := .idle }, freeMsg s ++ [.mn MNSMS_ERROR_IND m, .mm MMSMS_REL_REQ 0 []])

/-- src/gsm/gsm0411_smc.c:378-398 `gsm411_mmsms_rel_ind` -/
def relInd (s : Smc) : Smc × List Out :=
  ({ s with msg := none, state := .idle }, freeMsg s ++ [.mn MNSMS_ERROR_IND []])

/-- src/gsm/gsm0411_smc.c:401-419 `gsm411_mnsms_abort_req` -/
def abortReq (s : Smc) (m : List Byte) : Smc × List Out :=
  ({ s with msg := none, state := .idle }, freeMsg s ++ [.pass MMSMS_DATA_REQ CP_ERROR m, .mm MMSMS_REL_REQ 0 []])

/-- src/gsm/gsm0411_smc.c:454-480 `gsm411_smc_send` with the table of 422-448 -/
def send (s : Smc) (type : Nat) (m : List Byte) : Option (Smc × List Out) :=
  if type = MNSMS_EST_REQ ∧ s.state = .idle then some (estReq s m)
  else if type = MNSMS_REL_REQ then some (relReq s m)
  else if type = MNSMS_DATA_REQ ∧ s.state = .mmEstablished then dataReq s m
  else if type = MNSMS_ABORT_REQ ∧ s.state ≠ .idle then some (abortReq s m)
  else some (s, [.free m])

/-- src/gsm/gsm0411_smc.c:544-571: no entry of the table matches -/
def unhandled (s : Smc) (type : Nat) : Smc × List Out :=
  if type = MMSMS_EST_IND ∨ type = MMSMS_DATA_IND then
    ({ s with state := .idle },
      [.mm MMSMS_DATA_REQ CP_ERROR [97], .mn MNSMS_ERROR_IND [], .mm MMSMS_REL_REQ 0 []])
  else (s, [])

/-- src/gsm/gsm0411_smc.c:528-580 `gsm411_smc_recv` with the table of 483-520:
the CP type counts only with MMSMS-DATA-IND -/
def recv (s : Smc) (type cp : Nat) (m : List Byte) : Option (Smc × List Out) :=
  if type = MMSMS_EST_CNF ∧ s.state = .connPending then estCnf s
  else if type = MMSMS_EST_IND ∧ s.state = .idle then some (cpData s m)
  else if type = MMSMS_DATA_IND ∧ s.state = .mmEstablished ∧ cp = CP_DATA then some (cpData s m)
  else if type = MMSMS_DATA_IND ∧ s.state = .waitCpAck ∧ cp = CP_ACK then some (cpAck s)
  else if type = MMSMS_DATA_IND ∧ cp = CP_ERROR then some (cpError s m)
  else if type = MMSMS_REL_IND ∧ s.state ≠ .idle then some (relInd s)
  else some (unhandled s type)

/-- src/gsm/gsm0411_smc.c:100-114 `gsm411_smc_clear` -/
def clear (s : Smc) : Smc × List Out := ({ s with timer := false, msg := none }, freeMsg s)

/-- what can happen to an instance; the timer expires only if it is scheduled -/
inductive Ev where
  | send (type : Nat) (m : List Byte)
  | recv (type cp : Nat) (m : List Byte)
  | timeout
  deriving DecidableEq, Repr

def step (s : Smc) : Ev → Option (Smc × List Out)
  | .send t m => send s t m
  | .recv t cp m => recv s t cp m
  | .timeout => if s.timer then timerExpired s else some (s, [])

/-- an execution from `s`: the state reached and what was done at each event -/
def run (s : Smc) : List Ev → Option (Smc × List (Ev × List Out))
  | [] => some (s, [])
  | e :: es =>
    match step s e with
    | none => none
    | some (s', out) =>
      match run s' es with
      | none => none
      | some (s'', tr) => some (s'', (e, out) :: tr)

/-- src/gsm/gsm0411_smc.c:79-97 `gsm411_smc_init` -/
def init : Smc := {}

end Verif.Sms
