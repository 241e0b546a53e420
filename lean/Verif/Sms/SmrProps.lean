import Verif.Sms.Smr
import Verif.Sms.SmcConn
/-!
C140 reports, C141 timer and C142 headers of the short message relay entity.
-/
namespace Verif.Sms.Smr

def outs (tr : List (Ev × List Out)) : List Out := tr.flatMap Prod.snd

theorem run_cons {s s' : Smr} {e : Ev} {es : List Ev} {tr : List (Ev × List Out)} (h : run s (e :: es) = some (s', tr)) :
    ∃ s1 out tr1, step s e = some (s1, out) ∧ run s1 es = some (s', tr1) ∧ tr = (e, out) :: tr1 := by
  rw [run] at h
  split at h
  · cases h
  · rename_i s1 out hs
    split at h
    · cases h
    · rename_i s2 tr2 hr2
      cases h
      exact ⟨s1, out, tr2, hs, hr2, rfl⟩

theorem some_pair {a : Smr × List Out} {s : Smr} {out : List Out} (h : some a = some (s, out)) : s = a.1 ∧ out = a.2 := by
  cases h; exact ⟨rfl, rfl⟩

/-- the ways an instance can move -/
inductive Move (s : Smr) : Ev → Smr → List Out → Prop
  | dataReq (m) (h : s.state = .idle) :
      Move s (.send SM_RL_DATA_REQ m) { s with state := .waitForRpAck, timer := true } [.mn MNSMS_EST_REQ m]
  | reportReq (m) (h : s.state = .waitToTxRpAck) :
      Move s (.send SM_RL_REPORT_REQ m) { s with state := .idle, timer := false } [.mn MNSMS_DATA_REQ m, release]
  | dropped (t m) : Move s (.send t m) s [.free m]
  | rpData (m) (h : s.state = .idle) (t) (ht : rpType m = some t) (hw : wrongWay s t = false)
      (hd : t = RP_DATA_MT ∨ t = RP_DATA_MO ∨ t = RP_SMMA_MO) :
      Move s (.recv MNSMS_EST_IND m) { s with state := .waitToTxRpAck, timer := true } [.rl SM_RL_DATA_IND m]
  | badEst (m) (h : s.state = .idle) (t ref) (ht : rpType m = some t) (hr : rpRef m = some ref) (hw : wrongWay s t = false) :
      Move s (.recv MNSMS_EST_IND m) { s with state := .idle, timer := false } [rpError s ref MSGTYPE_NOTEXIST]
  | rpAck (m) (h : s.state = .waitForRpAck) (t) (ht : rpType m = some t) (hw : wrongWay s t = false)
      (hd : t = RP_ACK_MO ∨ t = RP_ACK_MT ∨ t = RP_ERROR_MO ∨ t = RP_ERROR_MT) :
      Move s (.recv MNSMS_DATA_IND m) { s with state := .idle, timer := false } [.rl SM_RL_REPORT_IND m, release]
  | badData (m) (h : s.state = .waitForRpAck) (t ref) (ht : rpType m = some t) (hr : rpRef m = some ref) (hw : wrongWay s t = false) :
      Move s (.recv MNSMS_DATA_IND m) { s with state := .idle, timer := false } [rpError s ref MSGTYPE_NOTEXIST, release]
  | wrongWay (k m) (t ref) (ht : rpType m = some t) (hr : rpRef m = some ref) (hw : Smr.wrongWay s t = true)
      (hk : k = MNSMS_EST_IND ∧ s.state = .idle ∨ k = MNSMS_DATA_IND ∧ s.state = .waitForRpAck) :
      Move s (.recv k m) { s with state := .idle, timer := false } [rpError s ref MSG_INCOMP_STATE, release]
  | errorTx (m) (h : s.state = .waitForRpAck) :
      Move s (.recv MNSMS_ERROR_IND m) { s with state := .idle, timer := false } [.rl SM_RL_REPORT_IND m, release]
  | errorRx (m) (h : s.state = .waitToTxRpAck) :
      Move s (.recv MNSMS_ERROR_IND m) { s with state := .idle, timer := false } [.rl SM_RL_REPORT_IND m]
  | ignored (t m) : Move s (.recv t m) s []
  | noTimer (h : s.timer = false) : Move s .timeout s []
  | expired (h : s.timer = true) :
      Move s .timeout { s with timer := false } [.rl SM_RL_REPORT_IND [], .mn MNSMS_ABORT_REQ [1, 111]]

theorem step_move {s s' : Smr} {e : Ev} {out : List Out} (h : step s e = some (s', out)) : Move s e s' out := by
  cases e with
  | send t m =>
    obtain ⟨rfl, rfl⟩ := some_pair h
    unfold send
    split
    · rename_i hc; obtain ⟨rfl, hs⟩ := hc
      exact .dataReq m hs
    · split
      · rename_i hc; obtain ⟨rfl, hs⟩ := hc
        exact .reportReq m hs
      · exact .dropped t m
  | recv t m =>
    simp only [step, recv] at h
    split at h
    · rename_i hc; obtain ⟨rfl, hs⟩ := hc
      unfold estInd at h
      split at h
      · cases h
      · rename_i t ht
        split at h
        · rename_i hw
          cases hr : rpRef m with
          | none => rw [hr] at h; cases h
          | some ref =>
            rw [hr] at h
            obtain ⟨rfl, rfl⟩ := some_pair h
            exact .wrongWay _ m t ref ht hr hw (.inl ⟨rfl, hs⟩)
        · rename_i hw
          split at h
          · rename_i hd
            obtain ⟨rfl, rfl⟩ := some_pair h
            exact .rpData m hs t ht (by simpa using hw) hd
          · cases hr : rpRef m with
            | none => rw [hr] at h; cases h
            | some ref =>
              rw [hr] at h
              obtain ⟨rfl, rfl⟩ := some_pair h
              exact .badEst m hs t ref ht hr (by simpa using hw)
    · split at h
      · rename_i hc; obtain ⟨rfl, hs⟩ := hc
        unfold dataInd at h
        split at h
        · cases h
        · rename_i t ht
          split at h
          · rename_i hw
            cases hr : rpRef m with
            | none => rw [hr] at h; cases h
            | some ref =>
              rw [hr] at h
              obtain ⟨rfl, rfl⟩ := some_pair h
              exact .wrongWay _ m t ref ht hr hw (.inr ⟨rfl, hs⟩)
          · rename_i hw
            split at h
            · rename_i hd
              obtain ⟨rfl, rfl⟩ := some_pair h
              exact .rpAck m hs t ht (by simpa using hw) hd
            · cases hr : rpRef m with
              | none => rw [hr] at h; cases h
              | some ref =>
                rw [hr] at h
                obtain ⟨rfl, rfl⟩ := some_pair h
                exact .badData m hs t ref ht hr (by simpa using hw)
      · split at h
        · rename_i hc; obtain ⟨rfl, hs⟩ := hc
          obtain ⟨rfl, rfl⟩ := some_pair h
          exact .errorTx m hs
        · split at h
          · rename_i hc; obtain ⟨rfl, hs⟩ := hc
            obtain ⟨rfl, rfl⟩ := some_pair h
            exact .errorRx m hs
          · cases h; exact .ignored t m
  | timeout =>
    simp only [step] at h
    split at h
    · rename_i ht
      obtain ⟨rfl, rfl⟩ := some_pair h
      exact .expired ht
    · rename_i ht
      cases h
      exact .noTimer (by simpa using ht)

/-! ## C140: reports -/

/-- reports to the upper layer -/
def reports (out : List Out) : Nat := out.countP fun o => match o with | .rl t _ => t = SM_RL_REPORT_IND | _ => false

/-- transfers: a message accepted from the upper layer, or given to it -/
def transfers (out : List Out) : Nat :=
  out.countP fun o => match o with | .mn t _ => t = MNSMS_EST_REQ | .rl t _ => t = SM_RL_DATA_IND | _ => false

/-- expiries of the timer, which abort the connection -/
def aborts (out : List Out) : Nat := out.countP fun o => match o with | .mn t _ => t = MNSMS_ABORT_REQ | _ => false

def busy (s : Smr) : Nat := if s.state = .idle then 0 else 1

theorem rp_consts : SM_RL_DATA_REQ = 0x401 ∧ SM_RL_DATA_IND = 0x402 ∧ SM_RL_REPORT_REQ = 0x405 ∧ SM_RL_REPORT_IND = 0x406 :=
  ⟨rfl, rfl, rfl, rfl⟩

theorem step_reports {s s' : Smr} {e : Ev} {out : List Out} (h : step s e = some (s', out)) :
    reports out + busy s' ≤ busy s + transfers out + aborts out := by
  have hm := step_move h
  cases hm
  case dataReq m hs => simp [reports, busy, transfers, aborts, hs, consts]
  case reportReq m hs => simp [reports, busy, release]
  case dropped => simp [reports]; omega
  case rpData m hs t ht hw hd => simp [reports, busy, transfers, hs, rp_consts]
  case badEst => simp [reports, busy, rpError]
  case rpAck m hs t ht hw hd => simp [reports, busy, transfers, hs, release, rp_consts]; omega
  case badData => simp [reports, busy, rpError, release]
  case wrongWay => simp [reports, busy, rpError, release]
  case errorTx m hs => simp [reports, busy, transfers, hs, release, rp_consts]; omega
  case errorRx m hs => simp [reports, busy, transfers, hs, rp_consts]
  case ignored => simp [reports]; omega
  case noTimer => simp [reports]; omega
  case expired => simp [reports, busy, transfers, aborts, rp_consts, consts]; omega

/-- C140: there is at most one report for each transfer, and one for each
expiry of the timer.  Missing: the transfer whose timer expired should not be
reported a second time, see `double_report_counterexample`; and there should
be no fewer, see `lost_report_counterexample` -/
theorem reports_partial (es : List Ev) (n : Bool) (s : Smr) (tr : List (Ev × List Out)) (h : run (init n) es = some (s, tr)) :
    reports (outs tr) + busy s ≤ transfers (outs tr) + aborts (outs tr) := by
  have key : ∀ (es : List Ev) (s0 s : Smr) (tr : List (Ev × List Out)), run s0 es = some (s, tr) →
      reports (outs tr) + busy s ≤ busy s0 + transfers (outs tr) + aborts (outs tr) := by
    intro es
    induction es with
    | nil => intro s0 s tr h; cases h; simp [reports, outs]; omega
    | cons e es ih =>
      intro s0 s tr h
      obtain ⟨s1, out, tr1, hs, hr, rfl⟩ := run_cons h
      have h1 := step_reports hs
      have h2 := ih s1 s tr1 hr
      have e1 : outs ((e, out) :: tr1) = out ++ outs tr1 := rfl
      rw [e1]
      simp only [reports, transfers, aborts, List.countP_append] at *
      omega
  have := key es (init n) s tr h
  have h0 : busy (init n) = 0 := rfl
  omega

/-- C140: the answer to a message that was sent: the first right one ends the
transfer with one report and the release of the connection -/
theorem answered (s : Smr) (m : List Byte) (h : s.state = .waitForRpAck) (t : Nat) (ht : rpType m = some t)
    (hd : t ∈ (if s.network then [RP_ACK_MO, RP_ERROR_MO] else [RP_ACK_MT, RP_ERROR_MT])) :
    step s (.recv MNSMS_DATA_IND m) =
      some ({ s with state := .idle, timer := false }, [.rl SM_RL_REPORT_IND m, .mn MNSMS_REL_REQ []]) := by
  have hw : wrongWay s t = false ∧ (t = RP_ACK_MO ∨ t = RP_ACK_MT ∨ t = RP_ERROR_MO ∨ t = RP_ERROR_MT) := by
    unfold wrongWay
    cases hn : s.network <;> simp [hn] at hd <;> rcases hd with rfl | rfl <;> decide
  show recv s MNSMS_DATA_IND m = _
  unfold recv
  rw [if_neg (by rw [h]; simp), if_pos (And.intro rfl h)]
  unfold dataInd
  rw [ht]
  simp only [hw.1, Bool.false_eq_true, if_false]
  rw [if_pos hw.2]
  rfl

/-- C140: a message from the peer: given to the upper layer once, its report
sent to the peer and the connection released -/
theorem received (s : Smr) (m r : List Byte) (h : s.state = .idle) (t : Nat) (ht : rpType m = some t)
    (hd : t ∈ (if s.network then [RP_DATA_MO, RP_SMMA_MO] else [RP_DATA_MT])) :
    ∃ s1, step s (.recv MNSMS_EST_IND m) = some (s1, [.rl SM_RL_DATA_IND m]) ∧ s1.timer = true ∧
      step s1 (.send SM_RL_REPORT_REQ r) =
        some ({ s with state := .idle, timer := false }, [.mn MNSMS_DATA_REQ r, .mn MNSMS_REL_REQ []]) := by
  have hw : wrongWay s t = false ∧ (t = RP_DATA_MT ∨ t = RP_DATA_MO ∨ t = RP_SMMA_MO) := by
    unfold wrongWay
    cases hn : s.network <;> simp [hn] at hd
    · subst hd; decide
    · rcases hd with rfl | rfl <;> decide
  refine ⟨{ s with state := .waitToTxRpAck, timer := true }, ?_, rfl, ?_⟩
  · show recv s MNSMS_EST_IND m = _
    unfold recv
    rw [if_pos (And.intro rfl h)]
    unfold estInd
    rw [ht]
    simp only [hw.1, Bool.false_eq_true, if_false]
    rw [if_pos hw.2]
    rfl
  · simp [step, send, reportReq, newState, release, rp_consts]

/-- C140: a message for the other side is answered with an RP-ERROR that has
its reference, and the connection is released -/
theorem wrong_way (s : Smr) (p l : List Byte) (c0 c1 ln ty ref : Byte) (hm : l = c0 :: c1 :: ln :: ty :: ref :: p) (k : Nat)
    (hk : k = MNSMS_EST_IND ∧ s.state = .idle ∨ k = MNSMS_DATA_IND ∧ s.state = .waitForRpAck)
    (hw : s.network = true ↔ ty.toNat % 2 = 1) :
    step s (.recv k l) = some ({ s with state := .idle, timer := false },
      [.mn MNSMS_DATA_REQ [4, if s.network then 5 else 4, ref, 1, 98], .mn MNSMS_REL_REQ []]) := by
  subst hm
  have ht : rpType (c0 :: c1 :: ln :: ty :: ref :: p) = some (ty.toNat % 8) := rfl
  have hr : rpRef (c0 :: c1 :: ln :: ty :: ref :: p) = some ref.toNat := rfl
  have hww : wrongWay s (ty.toNat % 8) = true := by
    unfold wrongWay
    cases hn : s.network
    · rw [hn] at hw
      have : ¬ ty.toNat % 2 = 1 := fun hh => by have := hw.2 hh; cases this
      simp; omega
    · have := hw.1 hn
      simp; omega
  have he : [rpError s ref.toNat MSG_INCOMP_STATE, release] =
      [.mn MNSMS_DATA_REQ [4, if s.network then 5 else 4, ref, 1, 98], .mn MNSMS_REL_REQ []] := by
    unfold rpError release rpHdr
    cases s.network <;> simp [RP_ERROR_MO, RP_ERROR_MT, MSG_INCOMP_STATE]
  rw [← he]
  rcases hk with ⟨rfl, hs⟩ | ⟨rfl, hs⟩
  · show recv s MNSMS_EST_IND _ = _
    unfold recv
    rw [if_pos (And.intro rfl hs)]
    unfold estInd
    rw [ht, hr]
    simp only [hww, if_true]
    rfl
  · show recv s MNSMS_DATA_IND _ = _
    unfold recv
    rw [if_neg (by rw [hs]; simp), if_pos (And.intro rfl hs)]
    unfold dataInd
    rw [ht, hr]
    simp only [hww, if_true]
    rfl

/-- C140: an expired timer and a late answer: one message, two reports -/
theorem double_report_counterexample : ∃ s tr, run (init true) [.send SM_RL_DATA_REQ [7], .timeout, .recv MNSMS_DATA_IND [0x09, 1, 2, 2, 5]] =
    some (s, tr) ∧ transfers (outs tr) = 1 ∧ reports (outs tr) = 2 := ⟨_, _, rfl, rfl, rfl⟩

/-- C140: an answer of an unknown type or for the other side ends the transfer
of the upper layer's message without any report to it -/
theorem lost_report_counterexample (m : List Byte) : ∃ s tr, run (init true) [.send SM_RL_DATA_REQ m, .recv MNSMS_DATA_IND [0x09, 1, 2, 6, 5]] =
    some (s, tr) ∧ s.state = .idle ∧ transfers (outs tr) = 1 ∧ reports (outs tr) = 0 := ⟨_, _, rfl, rfl, rfl, rfl⟩

/-- C140: an RP message that cannot begin a transfer leaves the connection up -/
theorem unreleased_counterexample : ∃ s tr, run (init true) [.recv MNSMS_EST_IND [0x09, 1, 2, 2, 5]] = some (s, tr) ∧ s.state = .idle ∧
    outs tr = [.mn MNSMS_DATA_REQ [4, 5, 5, 1, 97]] := ⟨_, _, rfl, rfl, rfl⟩

/-! ## C141: the timer -/

/-- C141: the timer does not run in IDLE; in a wait it runs, unless it has
expired in it -/
theorem timer_runs (es : List Ev) (n : Bool) (s : Smr) (tr : List (Ev × List Out)) (h : run (init n) es = some (s, tr)) :
    (s.state = .idle → s.timer = false) ∧ (aborts (outs tr) = 0 → s.state ≠ .idle → s.timer = true) := by
  have key : ∀ (es : List Ev) (s0 s : Smr) (tr : List (Ev × List Out)), run s0 es = some (s, tr) → (s0.state = .idle → s0.timer = false) →
      (s.state = .idle → s.timer = false) ∧
      ((s0.state ≠ .idle → s0.timer = true) → aborts (outs tr) = 0 → s.state ≠ .idle → s.timer = true) := by
    intro es
    induction es with
    | nil => intro s0 s tr h h0; cases h; exact ⟨h0, fun h1 _ => h1⟩
    | cons e es ih =>
      intro s0 s tr h h0
      obtain ⟨s1, out, tr1, hs, hr, rfl⟩ := run_cons h
      have hm := step_move hs
      have e1 : aborts (outs ((e, out) :: tr1)) = aborts out + aborts (outs tr1) := by simp [outs, aborts, List.countP_append]
      have hstep : (s1.state = .idle → s1.timer = false) ∧
          ((s0.state ≠ .idle → s0.timer = true) → aborts out = 0 → s1.state ≠ .idle → s1.timer = true) := by
        cases hm
        case expired ht => exact ⟨fun _ => rfl, fun _ ha => by simp [aborts] at ha⟩
        all_goals first
          | exact ⟨h0, fun hh _ => hh⟩
          | exact ⟨fun _ => rfl, fun _ _ hh => absurd rfl hh⟩
          | exact ⟨(by intro hh; cases hh), fun _ _ _ => rfl⟩
      have h2 := ih s1 s tr1 hr hstep.1
      refine ⟨h2.1, fun h3 h4 => h2.2 (hstep.2 h3 (by omega)) (by omega)⟩
  have := key es (init n) s tr h (fun _ => rfl)
  exact ⟨this.1, this.2 (fun hh => absurd rfl hh)⟩

/-- C141: when it expires the upper layer is told and the connection aborted -/
theorem expiry_tells (s : Smr) (h : s.timer = true) :
    step s .timeout = some ({ s with timer := false }, [.rl SM_RL_REPORT_IND [], .mn MNSMS_ABORT_REQ [1, 111]]) := by
  simp [step, h, timerExpired]

/-- C141: but the instance stays in its wait.  An abort is not answered
(`Verif.Sms.abort_silent`), and whatever the upper layer wants to send and the
peer begins to send afterwards is thrown away -/
theorem stuck_counterexample (s : Smr) (hs : s.state = .waitForRpAck) (ht : s.timer = true) (es : List Ev)
    (he : ∀ e ∈ es, (∃ t m, e = .send t m) ∨ (∃ m, e = .recv MNSMS_EST_IND m) ∨ e = .timeout) :
    ∃ tr, run s (.timeout :: es) = some ({ s with timer := false }, tr) ∧ ∀ o ∈ outs tr.tail, ∃ m, o = .free m := by
  have key : ∀ es : List Ev, (∀ e ∈ es, (∃ t m, e = .send t m) ∨ (∃ m, e = .recv MNSMS_EST_IND m) ∨ e = .timeout) →
      ∃ tr, run { s with timer := false } es = some ({ s with timer := false }, tr) ∧ ∀ o ∈ outs tr, ∃ m, o = .free m := by
    intro es
    induction es with
    | nil => intro _; exact ⟨[], rfl, by simp [outs]⟩
    | cons e es ih =>
      intro he
      obtain ⟨tr, h1, h2⟩ := ih fun e' he' => he e' (by simp [he'])
      have hstep : ∃ out, step { s with timer := false } e = some ({ s with timer := false }, out) ∧ ∀ o ∈ out, ∃ m, o = .free m := by
        rcases he e (by simp) with ⟨t, m, rfl⟩ | ⟨m, rfl⟩ | rfl
        · exact ⟨[.free m], by simp [step, send, hs], by simp⟩
        · exact ⟨[], by simp [step, recv, hs, consts], by simp⟩
        · exact ⟨[], by simp [step], by simp⟩
      obtain ⟨out, h3, h4⟩ := hstep
      refine ⟨(e, out) :: tr, ?_, ?_⟩
      · rw [run, h3]
        simp only
        rw [h1]
      · intro o ho
        have : o ∈ out ++ outs tr := ho
        rcases List.mem_append.1 this with ho | ho
        · exact h4 o ho
        · exact h2 o ho
  obtain ⟨tr, h1, h2⟩ := key es he
  refine ⟨(.timeout, [.rl SM_RL_REPORT_IND [], .mn MNSMS_ABORT_REQ [1, 111]]) :: tr, ?_, h2⟩
  rw [run, expiry_tells s ht]
  simp only
  rw [h1]

/-! ## C142: headers -/

/-- C142: messages of five octets and more are looked at within their octets.
Missing: shorter ones, see `short_counterexample` -/
theorem in_bounds_partial (s : Smr) (t : Nat) (m : List Byte) (h : 5 ≤ m.length) : ∃ r, step s (.recv t m) = some r := by
  have h3 : ∃ b, m[3]? = some b := ⟨m[3], List.getElem?_eq_getElem (by omega)⟩
  have h4 : ∃ b, m[4]? = some b := ⟨m[4], List.getElem?_eq_getElem (by omega)⟩
  obtain ⟨b3, h3⟩ := h3
  obtain ⟨b4, h4⟩ := h4
  simp only [step, recv, estInd, dataInd, rpType, rpRef, h3, h4, Option.map_some]
  repeat' split
  all_goals exact ⟨_, rfl⟩

theorem short_counterexample (s : Smr) (m : List Byte) (h : m.length ≤ 3) (hs : s.state = .idle) : step s (.recv MNSMS_EST_IND m) = none := by
  have h3 : m[3]? = none := List.getElem?_eq_none (by omega)
  simp [step, recv, hs, estInd, rpType, h3]

/-- C142: the length in the RP header is that of the rest of the RP message, up
to 253 octets.  Missing: longer ones, see `length_counterexample` -/
theorem length_partial (type ref : Nat) (m : List Byte) (h : m.length ≤ 253) :
    ∃ l rest, rpHdr type ref m = l :: rest ∧ l.toNat = rest.length := by
  refine ⟨_, _, rfl, ?_⟩
  simp only [BitVec.toNat_ofNat, List.length_cons]
  omega

theorem length_counterexample (type ref : Nat) (m : List Byte) (h : 254 ≤ m.length) :
    ∃ l rest, rpHdr type ref m = l :: rest ∧ l.toNat < rest.length := by
  refine ⟨_, _, rfl, ?_⟩
  simp only [BitVec.toNat_ofNat, List.length_cons]
  omega

/-! ## Examples -/

example : (run (init true) [.send SM_RL_DATA_REQ [7], .recv MNSMS_DATA_IND [0x09, 1, 2, 2, 5], .send SM_RL_DATA_REQ [8]]).map
    (fun r => (r.1.state, outs r.2)) =
    some (.waitForRpAck, [.mn MNSMS_EST_REQ [7], .rl SM_RL_REPORT_IND [0x09, 1, 2, 2, 5], .mn MNSMS_REL_REQ [], .mn MNSMS_EST_REQ [8]]) := by
  decide

example : ∃ s : Smr, s.state = .waitForRpAck ∧ s.timer = true ∧ step (init false) (.send SM_RL_DATA_REQ [1]) = some (s, [.mn MNSMS_EST_REQ [1]]) :=
  ⟨_, rfl, rfl, rfl⟩

end Verif.Sms.Smr
