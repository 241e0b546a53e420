import Verif.Common
/-!
`src/isdn/lapd_core.c`: the LAPD data link, established.  Octets are `Byte`, `uint8_t` sequence numbers `Nat`.

Left out: the address (SAPI, TEI, LPD), and with it all but one data link; contention resolution (SABM with content); `LAPD_F_RTS` (the frames
of LAPDm wait in a queue then; here they are sent at once, and `update_pending_frames` is not set); suspending and resuming; DM frames.  The layer above
is assumed not to call back into the data link from within an indication.  `cr` is `true` for a command: src/isdn/lapd_core.c:432-453 gives both
sides the same values for the two meanings.  `none` is an endless loop or an access outside the history.
-/
namespace Verif.Lapd
open Verif

/-- include/osmocom/isdn/lapd_core.h:75-85 `enum lapd_state`, those after the assignment of a TEI -/
inductive State where
  | idle | sabmSent | discSent | mfEst | timerRecov
  deriving DecidableEq, Repr

/-- the format and function of a frame, I frames with N(S) -/
inductive Kind where
  | i (ns : Nat) | rr | rnr | rej | sabm | ua
  deriving DecidableEq, Repr

/-- include/osmocom/isdn/lapd_core.h:107-124 `struct lapd_msg_ctx`, and the data -/
structure Frame where
  cmd : Bool
  kind : Kind
  pf : Bool
  nr : Nat
  data : List Byte
  more : Bool
  deriving DecidableEq, Repr

/-- the settings of a data link -/
structure Cfg where
  k : Nat
  vRange : Nat
  rangeHist : Nat
  n201 : Nat
  maxf : Nat
  n200 : Nat
  reestablish : Bool
  drop2nd : Bool
  t203 : Bool
  deriving DecidableEq, Repr

/-- a segment as in `struct lapd_history`: the octets, and whether more follow -/
abbrev Seg := List Byte × Bool

/-- include/osmocom/isdn/lapd_core.h:137-177 `struct lapd_datalink`; `tx` the frames handed to `send_ph_data_req`, `up` the messages of
DL-DATA indications, `mdl` the causes of MDL-ERROR indications, `t200` and `t203` whether the timers run -/
structure DL where
  cfg : Cfg
  state : State
  vSend : Nat
  vAck : Nat
  vRecv : Nat
  seqErr : Nat
  ownBusy : Bool
  peerBusy : Bool
  t200 : Bool
  t203 : Bool
  retrans : Nat
  sendQueue : List (List Byte)
  sendBuffer : Option (List Byte)
  sendOut : Nat
  hist : List (Option Seg)
  rcvBuf : Option (List Byte)
  tx : List Frame
  up : List (List Byte)
  mdl : List Nat
  deriving DecidableEq, Repr

/-- src/isdn/lapd_core.c:124-127 -/
def doMod (x m : Nat) : Nat := x &&& (m - 1)

/-- src/isdn/lapd_core.c:129-132 -/
def incMod (x m : Nat) : Nat := (x + 1) &&& (m - 1)

/-- src/isdn/lapd_core.c:134-137 -/
def addMod (x y m : Nat) : Nat := (x + y) &&& (m - 1)

/-- src/isdn/lapd_core.c:139-142; the difference of two `uint8_t`, its low eight bits -/
def subMod (x y m : Nat) : Nat := (x + 256 - y) &&& (m - 1)

/-- src/isdn/lapd_core.c:332-340: the loop over `m` -/
def histRangeLoop (k : Nat) : List Nat → Nat
  | [] => 0
  | m :: ms => if m &&& k ≠ 0 then (if k > m then 2 * m else m) else histRangeLoop k ms

/-- src/isdn/lapd_core.c:332-340 -/
def histRange (k : Nat) : Nat := histRangeLoop (k + 1) [128, 64, 32, 16, 8, 4, 2, 1]

/-- src/isdn/lapd_core.c:305-360 `lapd_dl_init2`, with N201 (a parameter of every frame), and the settings a user may change after it -/
def init (k vRange n201 maxf n200 : Nat) (reestablish drop2nd t203 : Bool) : DL :=
  let k := if k > vRange - 1 then vRange - 1 else k
  { cfg := { k := k, vRange := vRange, rangeHist := histRange k, n201 := n201, maxf := maxf, n200 := n200, reestablish := reestablish,
             drop2nd := drop2nd, t203 := t203 }
    state := .idle, vSend := 0, vAck := 0, vRecv := 0, seqErr := 0, ownBusy := false, peerBusy := false, t200 := false, t203 := false,
    retrans := 0, sendQueue := [], sendBuffer := none, sendOut := 0, hist := List.replicate (histRange k) none, rcvBuf := none, tx := [],
    up := [], mdl := [] }

/-- src/isdn/lapd_core.c:276-295 `lapd_dl_newstate` -/
def newstate (d : DL) (s : State) : DL :=
  let d := if s ≠ .mfEst ∧ d.state = .mfEst then { d with t203 := false } else d
  let d := if d.cfg.t203 ∧ s = .mfEst ∧ d.state ≠ .mfEst then { d with t203 := true } else d
  { d with state := s }

/-- src/isdn/lapd_core.c:474-485 `mdl_error` -/
def mdlError (d : DL) (cause : Nat) : DL := { d with mdl := d.mdl ++ [cause] }

/-- src/isdn/lapd_core.c:533-596 `lapd_send_rr`, `lapd_send_rnr`, `lapd_send_rej`: a supervisory frame with N(R) -/
def sendS (d : DL) (kind : Kind) (pf cmd : Bool) : DL :=
  { d with tx := d.tx ++ [{ cmd := cmd, kind := kind, pf := pf, nr := d.vRecv, data := [], more := false }] }

/-- src/isdn/lapd_core.c:1987-1993, 2006-2010: the next message that has octets -/
def dequeue : List (List Byte) → Option (List Byte) × List (List Byte)
  | [] => (none, [])
  | m :: q => if m.length = 0 then dequeue q else (some m, q)

/-- src/isdn/lapd_core.c:1986-2010: the send buffer, what has been sent of it, and the queue, with something left to be sent if there is -/
def fetch (d : DL) : Option (List Byte) × Nat × List (List Byte) :=
  match d.sendBuffer with
  | some b => if b.length - d.sendOut = 0 then ((dequeue d.sendQueue).1, 0, (dequeue d.sendQueue).2) else (some b, d.sendOut, d.sendQueue)
  | none => ((dequeue d.sendQueue).1, 0, (dequeue d.sendQueue).2)

/-- src/isdn/lapd_core.c:2019-2032, 2049-2059, 2064-2078: an I frame is sent -/
def emitI (d : DL) (s : Seg) : DL :=
  { d with
    vSend := incMod d.vSend d.cfg.vRange
    t203 := if d.t200 then d.t203 else false
    t200 := true
    tx := d.tx ++ [{ cmd := true, kind := .i d.vSend, pf := false, nr := d.vRecv, data := s.1, more := s.2 }] }

/-- src/isdn/lapd_core.c:1935-2086 `lapd_send_i`; the first argument bounds the rounds, the last is whether something was sent so far -/
def sendI : Nat → DL → Bool → Option (DL × Bool)
  | 0, _, _ => none
  | n + 1, d, rc =>
    if d.peerBusy then some (d, rc)
    else if d.state = .timerRecov then some (d, rc)
    else if d.vSend = addMod d.vAck d.cfg.k d.cfg.vRange then some (d, rc)
    else
      let h := doMod d.vSend d.cfg.rangeHist
      match d.hist[h]? with
      | none => none
      | some (some s) => sendI n (emitI d s) true
      | some none =>
        match fetch d with
        | (none, _, q) => some ({ d with sendBuffer := none, sendOut := 0, sendQueue := q }, rc)
        | (some b, out, q) =>
          let left := b.length - out
          let length := if left > d.cfg.n201 then d.cfg.n201 else left
          let s : Seg := ((b.drop out).take length, decide (left > length))
          sendI n (emitI { d with sendBuffer := some b, sendOut := out + length, sendQueue := q, hist := d.hist.set h (some s) } s) true

/-- rounds enough for any numbers -/
def rounds : Nat := 600

/-- src/isdn/lapd_core.c:1935-2086 `lapd_send_i` -/
def doSendI (d : DL) : Option (DL × Bool) := sendI rounds d false

/-- src/isdn/lapd_core.c:1912-1932 `lapd_data_req` -/
def dataReq (d : DL) (m : List Byte) : Option DL :=
  if m.length = 0 then some d else (doSendI { d with sendQueue := d.sendQueue ++ [m] }).map (·.1)

/-- src/isdn/lapd_core.c:817-824: the history is freed from `i` up to `nr` -/
def ackLoop (c : Cfg) : Nat → Nat → Nat → List (Option Seg) → Option (List (Option Seg))
  | 0, _, _, _ => none
  | n + 1, i, nr, hist =>
    if i = nr then some hist
    else
      let h := doMod i c.rangeHist
      if h < hist.length then ackLoop c n (incMod i c.vRange) nr (hist.set h none) else none

/-- src/isdn/lapd_core.c:826-835: whether T200 is reset -/
def ackReset (d : DL) (rej : Bool) (nr : Nat) : Bool :=
  d.state != .timerRecov && ((!rej && nr != d.vAck) || (rej && nr == d.vAck))

/-- src/isdn/lapd_core.c:801-867 `lapd_acknowledge`; whether N(R) was valid is returned -/
def acknowledge (d : DL) (rej : Bool) (nr : Nat) : Option (DL × Bool) :=
  (ackLoop d.cfg rounds d.vAck nr d.hist).bind fun hist =>
    if d.state ≠ .timerRecov ∧ subMod nr d.vAck d.cfg.vRange > subMod d.vSend d.vAck d.cfg.vRange then
      some ({ d with hist := hist, t200 := d.t200 && !ackReset d rej nr }, false)
    else
      (hist[subMod d.vSend 1 d.cfg.rangeHist]?).map fun last =>
        let t200 := if ackReset d rej nr then !rej && last.isSome else d.t200
        ({ d with hist := hist, vAck := nr, t200 := t200, t203 := !t200 && d.cfg.t203 && d.state == .mfEst }, true)

/-- src/isdn/lapd_core.c:1399-1412, 1487-1503, 1534-1550: the answer to a poll -/
def answer (d : DL) : DL :=
  if !d.ownBusy ∧ d.seqErr = 0 then sendS d .rr true false else if d.ownBusy then sendS d .rnr true false else d

/-- src/isdn/lapd_core.c:1390-1428: an RR frame -/
def rxRr (d : DL) (f : Frame) : Option DL :=
  (acknowledge d false f.nr).bind fun (d, _) =>
    let d := if f.cmd ∧ f.pf then answer d
      else if !f.cmd ∧ f.pf ∧ d.state = .timerRecov then newstate { d with vSend := f.nr, t200 := false } .mfEst
      else d
    (doSendI d).map (·.1)

/-- src/isdn/lapd_core.c:1429-1469: an RNR frame -/
def rxRnr (d : DL) (f : Frame) : Option DL :=
  (acknowledge d false f.nr).bind fun (d, _) =>
    let d := { d with peerBusy := true, t200 := false }
    let d := if f.pf then
        if f.cmd then sendS d (if d.ownBusy then .rnr else .rr) true false
        else if d.state = .timerRecov then { newstate d .mfEst with vSend := f.nr } else d
      else d
    (doSendI d).map (·.1)

/-- src/isdn/lapd_core.c:1470-1561: a REJ frame -/
def rxRej (d : DL) (f : Frame) : Option DL :=
  (acknowledge d true f.nr).bind fun (d, _) =>
    let recov := d.state = .timerRecov
    let d := { d with peerBusy := false, vSend := f.nr, vAck := f.nr }
    let d :=
      if ¬ recov then
        let d := { d with t200 := false }
        let d := if f.cmd ∧ f.pf then answer d else d
        if !f.cmd ∧ f.pf then mdlError d 6 else d
      else if !f.cmd ∧ f.pf then newstate { d with t200 := false } .mfEst
      else if f.cmd ∧ f.pf then answer d
      else d
    (doSendI d).map (·.1)

/-- src/isdn/lapd_core.c:1353-1571 `lapd_rx_s` -/
def rxS (d : DL) (f : Frame) : Option DL :=
  if f.data.length > 0 ∨ f.more then some (mdlError d 9)
  else
    let d := if !f.cmd ∧ f.pf ∧ d.state ≠ .timerRecov then mdlError d 6 else d
    if d.state ≠ .mfEst ∧ d.state ≠ .timerRecov then some d
    else match f.kind with
      | .rr => rxRr d f
      | .rnr => rxRnr d f
      | .rej => rxRej d f
      | _ => some (mdlError d 12)

/-- src/isdn/lapd_core.c:1687-1719: a segment is delivered, alone or with those before it -/
def deliver (maxf : Nat) (st : List (List Byte) × Option (List Byte)) (s : Seg) : List (List Byte) × Option (List Byte) :=
  if !s.2 ∧ st.2 = none then (st.1 ++ [s.1], none)
  else
    let b := st.2.getD []
    let b := if b.length + s.1.length > maxf then b else b ++ s.1
    if !s.2 then (st.1 ++ [b], none) else (st.1, some b)

/-- src/isdn/lapd_core.c:1635-1667: an I frame out of sequence -/
def rxIErr (d : DL) (f : Frame) : Option DL :=
  let d := if d.seqErr ≠ 1 ∨ !d.cfg.drop2nd then sendS { d with seqErr := 1 } .rej f.pf false else { d with seqErr := 2 }
  (acknowledge d false f.nr).bind fun (d, ok) =>
    let d := if ok then d else mdlError d 7
    (doSendI d).map (·.1)

/-- src/isdn/lapd_core.c:1668-1768: an I frame in sequence -/
def rxISeq (d : DL) (f : Frame) : Option DL :=
  let d := { d with seqErr := 0, vRecv := incMod d.vRecv d.cfg.vRange }
  (acknowledge d false f.nr).bind fun (d, ok) =>
    let r := deliver d.cfg.maxf (d.up, d.rcvBuf) (f.data, f.more)
    let d := if d.ownBusy then d else { d with up := r.1, rcvBuf := r.2 }
    let d := if ok then d else mdlError d 7
    if f.pf then (doSendI (sendS d (if d.ownBusy then .rnr else .rr) true false)).map (·.1)
    else if d.ownBusy then (doSendI (sendS d .rnr false false)).map (·.1)
    else (doSendI d).map fun (d, sent) => if sent then d else sendS d .rr false false

/-- src/isdn/lapd_core.c:1574-1769 `lapd_rx_i` -/
def rxI (d : DL) (ns : Nat) (f : Frame) : Option DL :=
  if !f.cmd then some (mdlError d 12)
  else if f.data.length = 0 ∨ f.data.length > d.cfg.n201 then some (mdlError d 11)
  else if f.more ∧ f.data.length < d.cfg.n201 then some (mdlError d 10)
  else if d.state ≠ .mfEst ∧ d.state ≠ .timerRecov then some d
  else if ns ≠ d.vRecv then rxIErr d f
  else rxISeq d f

/-- src/isdn/lapd_core.c:1857-1909 `lapd_est_req`, without content -/
def estReq (d : DL) : DL :=
  let d := { d with sendQueue := [], sendBuffer := none, hist := (List.replicate d.hist.length none).set 0 (some ([], false)), rcvBuf := none,
                    vSend := 0, ownBusy := false, peerBusy := false, retrans := 0 }
  let d := newstate d .sabmSent
  { d with tx := d.tx ++ [{ cmd := true, kind := .sabm, pf := true, nr := 0, data := [], more := false }], t200 := true }

/-- src/isdn/lapd_core.c:872-1016 `lapd_rx_u_sabm`, without content -/
def rxSabm (d : DL) (f : Frame) : DL :=
  let d := { d with seqErr := 0 }
  let ua : Frame := { cmd := false, kind := .ua, pf := f.pf, nr := 0, data := [], more := false }
  match d.state with
  | .discSent => { d with t200 := false }
  | .sabmSent => { d with tx := d.tx ++ [ua] }
  | s =>
    let d := if s = .timerRecov then { d with t200 := false } else d
    let d := { d with tx := d.tx ++ [ua], vSend := 0, vRecv := 0, vAck := 0, hist := List.replicate d.hist.length none }
    newstate d .mfEst

/-- src/isdn/lapd_core.c:1218-1308 `lapd_rx_u_ua`, to a SABM without content, or in an established link -/
def rxUa (d : DL) (f : Frame) : Option DL :=
  if !f.pf then some d
  else match d.state with
    | .sabmSent =>
      let d := { d with t200 := false, vSend := 0, vRecv := 0, vAck := 0, hist := List.replicate d.hist.length none }
      (doSendI (newstate d .mfEst)).map (·.1)
    | .mfEst | .timerRecov => some (mdlError d 3)
    | _ => some d

/-- src/isdn/lapd_core.c:1772-1792 `lapd_ph_data_ind` -/
def rx (d : DL) (f : Frame) : Option DL :=
  match f.kind with
  | .i ns => rxI d ns f
  | .sabm => some (if f.cmd then rxSabm d f else mdlError d 12)
  | .ua => if f.cmd then some (mdlError d 12) else rxUa d f
  | _ => rxS d f

/-- src/isdn/lapd_core.c:701-762: the timer T200 expires in an established link -/
def t200Est (d : DL) : Option DL :=
  let d := if d.state = .mfEst then newstate { d with retrans := 0 } .timerRecov else d
  let d := { d with retrans := (d.retrans + 1) % 256 }
  if d.retrans ≤ d.cfg.n200 then
    let vs := subMod d.vSend 1 d.cfg.vRange
    (d.hist[doMod vs d.cfg.rangeHist]?).map fun s =>
      let d : DL := match s with
        | some s => { d with tx := d.tx ++ [{ cmd := true, kind := .i vs, pf := true, nr := d.vRecv, data := s.1, more := s.2 }] }
        | none => if !d.ownBusy ∧ d.seqErr = 0 then sendS d .rr true true else if d.ownBusy then sendS d .rnr true true else d
      { d with t200 := true }
  else
    let d := mdlError d 1
    some (if d.cfg.reestablish then estReq d else d)

/-- src/isdn/lapd_core.c:645-767 `lapd_t200_cb`; in the states SABM_SENT and DISC_SENT nothing is modelled -/
def t200Cb (d : DL) : Option DL :=
  if !d.t200 then some d
  else if d.state = .mfEst ∨ d.state = .timerRecov then t200Est { d with t200 := false } else some d

/-- src/isdn/lapd_core.c:770-797 `lapd_t203_cb` -/
def t203Cb (d : DL) : DL :=
  if !d.t203 then d
  else
    let d := { d with t203 := false }
    if d.state ≠ .mfEst then d
    else
      let d := newstate { d with retrans := 0 } .timerRecov
      { sendS d (if d.ownBusy then .rnr else .rr) true true with t200 := true }

end Verif.Lapd
