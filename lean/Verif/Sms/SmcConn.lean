import Verif.Sms.SmcProps
/-!
C137 use of the MM connection, C138 release and error indications, C139 an
unanswered message.
-/
namespace Verif.Sms

/-- what holds of every instance -/
structure Inv (s : Smc) : Prop where
  pending : s.state = .connPending → s.msg.isSome = true
  waiting : s.state = .waitCpAck → s.msg.isSome = true ∧ s.timer = true
  retx : s.retx ≤ s.maxRetr ∧ s.maxRetr = 2

theorem inv_init : Inv init := ⟨(by intro h; cases h), (by intro h; cases h), by decide⟩

theorem step_inv (s : Smc) (e : Ev) (s' : Smc) (out : List Out) (hi : Inv s) (h : step s e = some (s', out)) : Inv s' := by
  have hr := retx_le s e s' out hi.retx h
  have hm := step_move h
  cases hm
  case relReq b =>
    revert hr
    simp only [Sms.relReq]
    split
    · exact fun hr => hi
    · split
      · exact fun hr => ⟨hi.pending, hi.waiting, hr⟩
      · exact fun hr => ⟨(by intro h; cases h), (by intro h; cases h), hr⟩
  case cpAck b _ =>
    revert hr
    simp only [Sms.cpAck]
    split
    · exact fun hr => ⟨(by intro h; cases h), (by intro h; cases h), hr⟩
    · exact fun hr => ⟨(by intro h; cases h), (by intro h; cases h), hr⟩
  case estReq b _ => exact ⟨fun _ => rfl, (by intro h; cases h), hr⟩
  case dataReq b _ => exact ⟨(by intro h; cases h), fun _ => ⟨rfl, rfl⟩, hr⟩
  case estCnf cp b m _ hmm => exact ⟨(by intro h; cases h), fun _ => ⟨by simp [hmm], rfl⟩, hr⟩
  case again m _ _ hmm => exact ⟨(by intro h; cases h), fun _ => ⟨by simp [hmm], rfl⟩, hr⟩
  case stale ht _ hmm =>
    refine ⟨hi.pending, fun h => ?_, hr⟩
    have := (hi.waiting h).1
    simp [hmm] at this
  all_goals first
    | exact hi
    | exact ⟨(by intro h; cases h), (by intro h; cases h), hr⟩

/-- C139: in every reachable state -/
theorem reachable_inv (es : List Ev) (s : Smc) (tr : List (Ev × List Out)) (h : run init es = some (s, tr)) : Inv s :=
  run_inv Inv step_inv es init s tr inv_init h

/-! ## C137: use of the MM connection -/

/-- the MM connection as the layer below sees it -/
inductive Conn where
  | down | requested | up
  deriving DecidableEq, Repr

/-- what comes from below: a confirmation counts for a request only -/
def Conn.input (c : Conn) : Ev → Conn
  | .recv t _ _ =>
    if t = MMSMS_EST_CNF then (if c = .requested then .up else c)
    else if t = MMSMS_EST_IND then .up
    else if t = MMSMS_REL_IND then .down
    else c
  | _ => c

def Conn.output (c : Conn) : Out → Conn
  | .mm t _ _ => if t = MMSMS_EST_REQ then .requested else if t = MMSMS_REL_REQ then .down else c
  | _ => c

/-- CP-DATA and CP-ACK go over a connection that is up -/
def Conn.allows (c : Conn) : Out → Prop
  | .mm t cp _ => t = MMSMS_DATA_REQ ∧ (cp = CP_DATA ∨ cp = CP_ACK) → c = .up
  | _ => True

/-- the outputs of one event, in order -/
def Conn.legal : Conn → List Out → Prop
  | _, [] => True
  | c, o :: os => c.allows o ∧ Conn.legal (c.output o) os

def Conn.after (c : Conn) (e : Ev) (out : List Out) : Conn := out.foldl Conn.output (c.input e)

/-- the whole execution -/
def Connected : Conn → List (Ev × List Out) → Prop
  | _, [] => True
  | c, (e, out) :: tr => (c.input e).legal out ∧ Connected (c.after e out) tr

/-- the timer does not expire but in the wait for CP-ACK -/
def Fresh : Smc → List Ev → Prop
  | _, [] => True
  | s, e :: es => (e = .timeout → s.timer = true → s.state = .waitCpAck) ∧ ∀ s' out, step s e = some (s', out) → Fresh s' es

/-- the connection as the instance sees it -/
def Agree (s : Smc) (c : Conn) : Prop :=
  match s.state with
  | .idle => True
  | .connPending => c = .requested
  | .waitCpAck => c = .up
  | .mmEstablished => c = .up

theorem legal_freeMsg (c : Conn) (s : Smc) (out : List Out) : c.legal (freeMsg s ++ out) ↔ c.legal out := by
  unfold freeMsg
  split
  · rfl
  · simp [Conn.legal, Conn.allows, Conn.output]

theorem after_freeMsg (c : Conn) (s : Smc) (out : List Out) : (freeMsg s ++ out).foldl Conn.output c = out.foldl Conn.output c := by
  unfold freeMsg
  split
  · rfl
  · simp [Conn.output]

theorem consts : MMSMS_EST_REQ = 0x310 ∧ MMSMS_EST_IND = 0x312 ∧ MMSMS_EST_CNF = 0x311 ∧ MMSMS_REL_REQ = 0x320 ∧
    MMSMS_REL_IND = 0x322 ∧ MMSMS_DATA_REQ = 0x330 ∧ MMSMS_DATA_IND = 0x332 ∧ CP_DATA = 1 ∧ CP_ACK = 4 ∧ CP_ERROR = 16 ∧
    MNSMS_ABORT_REQ = 0x101 ∧ MNSMS_DATA_REQ = 0x102 ∧ MNSMS_DATA_IND = 0x103 ∧ MNSMS_EST_REQ = 0x104 ∧ MNSMS_EST_IND = 0x105 ∧
    MNSMS_ERROR_IND = 0x106 ∧ MNSMS_REL_REQ = 0x107 :=
  ⟨rfl, rfl, rfl, rfl, rfl, rfl, rfl, rfl, rfl, rfl, rfl, rfl, rfl, rfl, rfl, rfl, rfl⟩

theorem step_conn {s s' : Smc} {c : Conn} {e : Ev} {out : List Out} (hinv : Inv s) (ha : Agree s c)
    (hf : e = .timeout → s.timer = true → s.state = .waitCpAck) (h : step s e = some (s', out)) :
    (c.input e).legal out ∧ Agree s' (c.after e out) := by
  have hm := step_move h
  unfold Conn.after
  cases hm
  case estReq b hs =>
    simp only [Sms.estReq, legal_freeMsg, after_freeMsg]
    simp [Conn.legal, Conn.allows, Conn.input, Conn.output, Agree, consts]
  case relReq b =>
    simp only [Sms.relReq]
    split
    · simp [Conn.legal, Conn.allows, Conn.input, Conn.output, ha]
    · split
      · refine ⟨by simp [Conn.legal, Conn.allows], ?_⟩
        simpa [Agree, Conn.input, Conn.output] using ha
      · refine ⟨?_, trivial⟩
        show (c.input (.send MNSMS_REL_REQ b)).legal (.free b :: (freeMsg s ++ [.mm MMSMS_REL_REQ 0 []]))
        refine ⟨trivial, (legal_freeMsg _ _ _).2 ⟨?_, trivial⟩⟩
        simp [Conn.allows, consts]
  case dataReq b hs =>
    simp only [Agree, hs] at ha
    simp only [legal_freeMsg, after_freeMsg]
    simp [Conn.legal, Conn.allows, Conn.input, Conn.output, Agree, consts, ha]
  case abortReq b hs =>
    simp only [Sms.abortReq, legal_freeMsg, after_freeMsg]
    simp [Conn.legal, Conn.allows, Agree, consts]
  case dropped t b => simp [Conn.legal, Conn.allows, Conn.input, Conn.output, ha]
  case estCnf cp b m hs hmm =>
    simp only [Agree, hs] at ha
    simp [Conn.legal, Conn.allows, Conn.input, Conn.output, Agree, consts, ha]
  case estCnfNo cp b hs hmm =>
    have := hinv.pending hs
    simp [hmm] at this
  case estInd cp b hs => simp [Conn.legal, Conn.allows, Conn.input, Conn.output, Agree, consts]
  case cpData b hs =>
    have ha' := ha
    simp only [Agree, hs] at ha
    simp [Conn.legal, Conn.allows, Conn.input, Conn.output, consts, ha']
    simp [ha]
  case cpAck b hs =>
    simp only [Agree, hs] at ha
    simp only [Sms.cpAck]
    split
    · simp only [legal_freeMsg, after_freeMsg]
      simp [Conn.legal, Conn.allows, Agree, consts]
    · have := legal_freeMsg (c.input (.recv MMSMS_DATA_IND CP_ACK b)) s []
      have h2 := after_freeMsg (c.input (.recv MMSMS_DATA_IND CP_ACK b)) s []
      simp only [List.append_nil] at this h2
      rw [this, h2]
      simp [Conn.legal, Conn.input, Agree, consts, ha]
  case cpError b =>
    simp only [Sms.cpError, legal_freeMsg, after_freeMsg]
    simp [Conn.legal, Conn.allows, Agree, consts]
  case relInd cp b hs =>
    simp only [Sms.relInd, legal_freeMsg, after_freeMsg]
    simp [Conn.legal, Conn.allows, Agree]
  case refused t cp b hs hd ha => simp [Conn.legal, Conn.allows, Agree, consts]
  case ignored t cp b ht h1 h2 =>
    refine ⟨trivial, ?_⟩
    simp only [List.foldl_nil, Conn.input]
    have hs : s.state = .idle ∨ c.input (.recv t cp b) = c := by
      simp only [Conn.input]
      by_cases hc : t = MMSMS_EST_CNF
      · by_cases hr : c = .requested
        · left
          subst hr
          have := h1 hc
          revert ha this
          unfold Agree
          cases s.state <;> simp
        · simp [hc, hr]
      · by_cases hr : t = MMSMS_REL_IND
        · exact .inl (h2 hr)
        · simp [hc, ht.1, hr]
    rcases hs with hs | hs
    · simp [Agree, hs]
    · simp only [Conn.input] at hs
      rw [hs]
      exact ha
  case noTimer hs => exact ⟨trivial, ha⟩
  case giveUp ht hr =>
    simp only [List.append_assoc, List.singleton_append]
    exact ⟨by simp [Conn.legal, Conn.allows, Conn.output, legal_freeMsg, consts], trivial⟩
  case again m ht hr hmm =>
    have := hf rfl ht
    simp only [Agree, this] at ha
    simp [Conn.legal, Conn.allows, Conn.input, Conn.output, Agree, consts, ha]
  case stale ht hr hmm => exact ⟨trivial, by simpa [Agree, Conn.input] using ha⟩

theorem run_conn (es : List Ev) : ∀ (s s' : Smc) (c : Conn) (tr : List (Ev × List Out)), Inv s → Agree s c → Fresh s es →
    run s es = some (s', tr) → Connected c tr := by
  induction es with
  | nil => intro s s' c tr _ _ _ h; cases h; trivial
  | cons e es ih =>
    intro s s' c tr hi ha hf h
    obtain ⟨s1, out, tr1, hs, hr, rfl⟩ := run_cons h
    obtain ⟨h1, h2⟩ := step_conn hi ha hf.1 hs
    exact ⟨h1, ih s1 s' _ tr1 (step_inv s e s1 out hi hs) h2 (hf.2 s1 out hs) hr⟩

/-- C137: CP-DATA and CP-ACK are only sent over an MM connection that is up.
Missing: executions in which the timer expires in another state than the wait
for CP-ACK, see `stale_timer_counterexample` -/
theorem connected_partial (es : List Ev) (s : Smc) (tr : List (Ev × List Out)) (hf : Fresh init es)
    (h : run init es = some (s, tr)) : Connected .down tr :=
  run_conn es init s .down tr inv_init trivial hf h

/-- C137: a release from below leaves the timer running; it sends the next
message before the connection for it is confirmed -/
theorem stale_timer_counterexample (m : List Byte) (hm : m.length ≤ TAILROOM) :
    ∃ s tr, run init [.send MNSMS_EST_REQ m, .recv MMSMS_EST_CNF 0 [], .recv MMSMS_REL_IND 0 [], .send MNSMS_EST_REQ m, .timeout] =
      some (s, tr) ∧ ¬ Connected .down tr := by
  have hs : ∀ s : Smc, sendMsg s m = some ({ s with retx := if s.state ≠ .waitCpAck then 0 else s.retx, state := .waitCpAck, timer := true },
      [.mm MMSMS_DATA_REQ CP_DATA m]) := by
    intro s
    rw [sendMsg, if_neg (by omega)]
  refine ⟨{ state := .waitCpAck, msg := some m, timer := true },
    [(.send MNSMS_EST_REQ m, [.mm MMSMS_EST_REQ 0 []]), (.recv MMSMS_EST_CNF 0 [], [.mm MMSMS_DATA_REQ CP_DATA m]),
     (.recv MMSMS_REL_IND 0 [], [.free m, .mn MNSMS_ERROR_IND []]), (.send MNSMS_EST_REQ m, [.mm MMSMS_EST_REQ 0 []]),
     (.timeout, [.mm MMSMS_DATA_REQ CP_DATA m])], ?_, ?_⟩
  · have e1 : step init (.send MNSMS_EST_REQ m) = some ({ state := .connPending, msg := some m }, [.mm MMSMS_EST_REQ 0 []]) := rfl
    have e2 : step { state := .connPending, msg := some m } (.recv MMSMS_EST_CNF 0 []) =
        some ({ state := .waitCpAck, msg := some m, timer := true }, [.mm MMSMS_DATA_REQ CP_DATA m]) := by
      show sendMsg { state := .connPending, msg := some m } m = _
      rw [hs]; rfl
    have e3 : step { state := .waitCpAck, msg := some m, timer := true } (.recv MMSMS_REL_IND 0 []) =
        some ({ timer := true }, [.free m, .mn MNSMS_ERROR_IND []]) := rfl
    have e4 : step { timer := true } (.send MNSMS_EST_REQ m) =
        some ({ state := .connPending, msg := some m, timer := true }, [.mm MMSMS_EST_REQ 0 []]) := rfl
    have e5 : step { state := .connPending, msg := some m, timer := true } .timeout =
        some ({ state := .waitCpAck, msg := some m, timer := true }, [.mm MMSMS_DATA_REQ CP_DATA m]) := by
      show sendMsg { state := .connPending, msg := some m, retx := 1 } m = _
      rw [hs]; rfl
    simp only [run, e1, e2, e3, e4, e5]
  · simp [Connected, Conn.legal, Conn.allows, Conn.input, Conn.output, Conn.after, consts]

/-- C137: the timer left running ends a connection that the other side has set
up in the meantime -/
theorem stale_timer_release_counterexample : ∃ s tr, run init [.send MNSMS_EST_REQ [1], .recv MMSMS_EST_CNF 0 [], .timeout, .timeout,
    .recv MMSMS_REL_IND 0 [], .recv MMSMS_EST_IND CP_DATA [2], .timeout] = some (s, tr) ∧
    tr.getLast? = some (.timeout, [.mn MNSMS_ERROR_IND [], .mm MMSMS_REL_REQ 0 []]) ∧ s.state = .idle := by
  refine ⟨{ retx := 2 }, _, rfl, by decide, rfl⟩

/-! ## C138: release and error indications -/

def releases (out : List Out) : Nat := out.countP fun o => match o with | .mm t _ _ => t = MMSMS_REL_REQ | _ => false
def errors (out : List Out) : Nat := out.countP fun o => match o with | .mn t _ => t = MNSMS_ERROR_IND | _ => false

/-- the connection is released by the layer below -/
def fromBelow : Ev → Bool
  | .recv t _ _ => t = MMSMS_REL_IND
  | _ => false

/-- the upper layer asked for the end: now, or before the acknowledgement that
was waited for -/
def wanted (s : Smc) : Ev → Bool
  | .send _ _ => true
  | .recv t cp _ => t = MMSMS_DATA_IND && cp = CP_ACK && s.state = .waitCpAck
  | .timeout => false

theorem releases_append (a b : List Out) : releases (a ++ b) = releases a + releases b := by simp [releases, List.countP_append]
theorem errors_append (a b : List Out) : errors (a ++ b) = errors a + errors b := by simp [errors, List.countP_append]
theorem releases_freeMsg (s : Smc) : releases (freeMsg s) = 0 := by unfold freeMsg; split <;> simp [releases]
theorem errors_freeMsg (s : Smc) : errors (freeMsg s) = 0 := by unfold freeMsg; split <;> simp [errors]

/-- C138: whenever the instance returns to IDLE the connection is released,
once, unless it was released from below -/
theorem idle_releases {s s' : Smc} {e : Ev} {out : List Out} (h : step s e = some (s', out)) (h0 : s.state ≠ .idle)
    (h1 : s'.state = .idle) : releases out = if fromBelow e then 0 else 1 := by
  have hm := step_move h
  cases hm
  case relReq b =>
    revert h1
    simp only [Sms.relReq]
    rw [if_neg h0]
    split
    · intro h1; exact absurd h1 h0
    · intro _
      simp only [releases_append, releases_freeMsg]
      simp [releases, fromBelow]
  case abortReq b _ =>
    simp only [Sms.abortReq, releases_append, releases_freeMsg]
    simp [releases, fromBelow]
  case cpAck b _ =>
    revert h1
    simp only [Sms.cpAck]
    split
    · intro _
      simp only [releases_append, releases_freeMsg]
      simp [releases, fromBelow, consts]
    · intro h1; cases h1
  case cpError b =>
    simp only [Sms.cpError, releases_append, releases_freeMsg]
    simp [releases, fromBelow, consts]
  case relInd cp b _ =>
    simp only [Sms.relInd, releases_append, releases_freeMsg]
    simp [releases, fromBelow]
  case refused t cp b hs hd ha =>
    rcases hs with ⟨rfl, _⟩ | ⟨rfl, _⟩ <;> rfl
  case giveUp _ _ =>
    simp only [releases_append, releases_freeMsg]
    simp [releases, fromBelow]
  all_goals first
    | exact absurd h1 h0
    | cases h1

/-- C138: and the upper layer is told of the failure, once, if it did not ask
for the end itself -/
theorem idle_tells {s s' : Smc} {e : Ev} {out : List Out} (h : step s e = some (s', out)) (h0 : s.state ≠ .idle)
    (h1 : s'.state = .idle) : errors out = if wanted s e then 0 else 1 := by
  have hm := step_move h
  cases hm
  case relReq b =>
    simp only [Sms.relReq]
    rw [if_neg h0]
    split
    · rfl
    · simp only [errors_append, errors_freeMsg]
      simp [errors, wanted]
  case abortReq b _ =>
    simp only [Sms.abortReq, errors_append, errors_freeMsg]
    simp [errors, wanted]
  case cpAck b hs =>
    simp only [Sms.cpAck]
    split
    · simp only [errors_append, errors_freeMsg]
      simp [errors, wanted, hs]
    · rw [errors_freeMsg]
      simp [wanted, hs]
  case cpError b =>
    simp only [Sms.cpError, errors_append, errors_freeMsg]
    simp [errors, wanted, consts]
  case relInd cp b _ =>
    simp only [Sms.relInd, errors_append, errors_freeMsg]
    simp [errors, wanted, consts]
  case refused t cp b hs hd ha =>
    have : wanted s (.recv t cp b) = false := by
      simp only [wanted]
      by_cases h2 : t = MMSMS_DATA_IND <;> by_cases h3 : cp = CP_ACK <;> by_cases h4 : s.state = .waitCpAck <;> simp [h2, h3, h4]
      exact ha ⟨h2, h4, h3⟩
    rw [this]
    rfl
  case giveUp _ _ =>
    simp only [errors_append, errors_freeMsg]
    simp [errors, wanted]
  all_goals first
    | exact absurd h1 h0
    | cases h1

/-- C138: a request to release is kept until the acknowledgement that is waited
for, and carried out then -/
theorem release_kept {s : Smc} (m b : List Byte) (h : s.state = .waitCpAck) :
    ∃ s1 s2 out, step s (.send MNSMS_REL_REQ m) = some (s1, [.free m]) ∧ s1.state = .waitCpAck ∧
      step s1 (.recv MMSMS_DATA_IND CP_ACK b) = some (s2, out) ∧ s2.state = .idle ∧ s2.timer = false ∧ s2.msg = none ∧
      releases out = 1 := by
  refine ⟨{ s with rel := true }, { s with rel := true, msg := none, state := .idle, timer := false }, freeMsg s ++ [.mm MMSMS_REL_REQ 0 []],
    ?_, h, ?_, rfl, rfl, rfl, ?_⟩
  · simp [step, send, relReq, h, consts]
  · simp [step, recv, cpAck, h, consts, freeMsg]
  · simp only [releases_append, releases_freeMsg]
    simp [releases]

/-- C138: an acknowledgement without such a request leaves the connection up
for the next message, with nothing to be sent again -/
theorem ack_ends {s : Smc} (b : List Byte) (h : s.state = .waitCpAck) (hr : s.rel = false) :
    ∃ s' out, step s (.recv MMSMS_DATA_IND CP_ACK b) = some (s', out) ∧ s'.state = .mmEstablished ∧ s'.timer = false ∧ s'.msg = none ∧
      releases out = 0 ∧ errors out = 0 := by
  refine ⟨{ s with msg := none, state := .mmEstablished, timer := false }, freeMsg s, ?_, rfl, rfl, rfl, releases_freeMsg s, errors_freeMsg s⟩
  simp [step, recv, cpAck, h, hr, consts]

/-- C138: a request to abort is not answered to the upper layer -/
theorem abort_silent {s s' : Smc} {m : List Byte} {out : List Out} (h : step s (.send MNSMS_ABORT_REQ m) = some (s', out)) :
    s'.state = .idle ∧ errors out = 0 := by
  have hm := step_move h
  generalize he : Ev.send MNSMS_ABORT_REQ m = e at hm
  cases hm <;> try cases he
  case abortReq _ =>
    refine ⟨rfl, ?_⟩
    simp only [Sms.abortReq, errors_append, errors_freeMsg]
    simp [errors]
  case dropped =>
    refine ⟨?_, rfl⟩
    by_cases hs : s.state = .idle
    · exact hs
    · simp [step, send, hs, consts, abortReq] at h
      have := h.2
      unfold freeMsg at this
      split at this <;> simp at this

/-! ## C139: an unanswered message -/

/-- C139: from any wait for CP-ACK: the message is sent again until it was
sent three times, then the upper layer is told, the message freed and the
connection released -/
theorem gives_up (k : Nat) : ∀ (s : Smc) (m : List Byte), Inv s → s.state = .waitCpAck → s.msg = some m → m.length ≤ TAILROOM →
    s.maxRetr - s.retx = k →
    ∃ s' tr, run s (List.replicate (k + 1) .timeout) = some (s', tr) ∧
      outs tr = List.replicate k (.mm MMSMS_DATA_REQ CP_DATA m) ++ [.mn MNSMS_ERROR_IND [], .free m, .mm MMSMS_REL_REQ 0 []] ∧
      s'.state = .idle ∧ s'.msg = none ∧ s'.timer = false := by
  induction k with
  | zero =>
    intro s m hi hs hm hl hk
    have hr : s.retx = s.maxRetr := by have := hi.retx; omega
    have ht := (hi.waiting hs).2
    have e1 : step s .timeout = some ({ s with timer := false, state := .idle, msg := none },
        [.mn MNSMS_ERROR_IND [], .free m, .mm MMSMS_REL_REQ 0 []]) := by
      simp [step, ht, timerExpired, hr, freeMsg, hm]
    refine ⟨{ s with timer := false, state := .idle, msg := none },
      [(.timeout, [.mn MNSMS_ERROR_IND [], .free m, .mm MMSMS_REL_REQ 0 []])], ?_, rfl, rfl, rfl, rfl⟩
    · show run s [.timeout] = _
      rw [run, e1]
      rfl
  | succ k ih =>
    intro s m hi hs hm hl hk
    have hr : s.retx ≠ s.maxRetr := by omega
    have ht := (hi.waiting hs).2
    have e1 : step s .timeout = some ({ s with retx := s.retx + 1 }, [.mm MMSMS_DATA_REQ CP_DATA m]) := by
      have hn : ¬ m.length > TAILROOM := by omega
      simp [step, ht, timerExpired, hr, estCnf, hm, sendMsg, hs, hn]
    obtain ⟨s', tr, h1, h2, h3⟩ := ih { s with retx := s.retx + 1 } m (step_inv _ _ _ _ hi e1) hs hm hl (by simp only; omega)
    refine ⟨s', (.timeout, [.mm MMSMS_DATA_REQ CP_DATA m]) :: tr, ?_, ?_, h3⟩
    · show run s (.timeout :: List.replicate (k + 1) .timeout) = _
      rw [run, e1]
      simp only
      rw [h1]
    · have : outs ((.timeout, [.mm MMSMS_DATA_REQ CP_DATA m]) :: tr) = .mm MMSMS_DATA_REQ CP_DATA m :: outs tr := rfl
      rw [this, h2, List.replicate_succ, List.cons_append]

/-- C139: after whatever happened before: a request in IDLE whose connection is
confirmed and that is never answered is sent three times -/
theorem unanswered (es : List Ev) (s : Smc) (tr : List (Ev × List Out)) (h : run init es = some (s, tr)) (hs : s.state = .idle)
    (m : List Byte) (hm : m.length ≤ TAILROOM) :
    ∃ s' tr', run s [.send MNSMS_EST_REQ m, .recv MMSMS_EST_CNF 0 [], .timeout, .timeout, .timeout] = some (s', tr') ∧
      s'.state = .idle ∧ s'.msg = none ∧ s'.timer = false ∧
      outs tr' = freeMsg s ++ [.mm MMSMS_EST_REQ 0 [], .mm MMSMS_DATA_REQ CP_DATA m, .mm MMSMS_DATA_REQ CP_DATA m,
        .mm MMSMS_DATA_REQ CP_DATA m, .mn MNSMS_ERROR_IND [], .free m, .mm MMSMS_REL_REQ 0 []] := by
  have hi := reachable_inv es s tr h
  have hn : ¬ m.length > TAILROOM := by omega
  have e1 : step s (.send MNSMS_EST_REQ m) = some ({ s with msg := some m, state := .connPending, rel := false },
      freeMsg s ++ [.mm MMSMS_EST_REQ 0 []]) := by
    simp [step, send, estReq, hs]
  have e2 : step { s with msg := some m, state := .connPending, rel := false } (.recv MMSMS_EST_CNF 0 []) =
      some ({ s with msg := some m, state := .waitCpAck, rel := false, retx := 0, timer := true }, [.mm MMSMS_DATA_REQ CP_DATA m]) := by
    simp [step, recv, estCnf, sendMsg, hn]
  have hi2 := step_inv _ _ _ _ (step_inv _ _ _ _ hi e1) e2
  obtain ⟨s', tr', h1, h2, h3, h4, h5⟩ := gives_up 2 _ m hi2 rfl rfl hm (by have := hi.retx; simp only; omega)
  refine ⟨s', (.send MNSMS_EST_REQ m, freeMsg s ++ [.mm MMSMS_EST_REQ 0 []]) ::
    (.recv MMSMS_EST_CNF 0 [], [.mm MMSMS_DATA_REQ CP_DATA m]) :: tr', ?_, h3, h4, h5, ?_⟩
  · rw [run, e1]
    simp only
    rw [run, e2]
    simp only
    have h1' : run { s with msg := some m, state := .waitCpAck, rel := false, retx := 0, timer := true } [.timeout, .timeout, .timeout] =
      some (s', tr') := h1
    rw [h1']
  · simp only [outs, List.flatMap_cons] at h2 ⊢
    rw [h2]
    simp [List.replicate]

/-! ## Examples -/

example : (run init [.send MNSMS_EST_REQ [7], .recv MMSMS_EST_CNF 0 [], .timeout, .send MNSMS_REL_REQ [], .recv MMSMS_DATA_IND CP_ACK []]).map
    (fun r => (r.1.state, outs r.2)) =
    some (.idle, [.mm MMSMS_EST_REQ 0 [], .mm MMSMS_DATA_REQ CP_DATA [7], .mm MMSMS_DATA_REQ CP_DATA [7], .free [], .free [7],
      .mm MMSMS_REL_REQ 0 []]) := by decide

example : Fresh init [.send MNSMS_EST_REQ [7], .recv MMSMS_EST_CNF 0 [], .timeout] := by
  refine ⟨(by intro h; cases h), ?_⟩
  intro s1 o1 h1
  cases h1
  refine ⟨(by intro h; cases h), ?_⟩
  intro s2 o2 h2
  cases h2
  exact ⟨fun _ _ => rfl, fun _ _ _ => trivial⟩

end Verif.Sms
