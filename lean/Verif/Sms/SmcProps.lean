import Verif.Sms.Smc
/-!
C135 ownership of messages, C136 retransmissions, C137 use of the connection,
C138 release and error indications of the short message control entity.
-/
namespace Verif.Sms

/-- everything done in an execution -/
def outs (tr : List (Ev × List Out)) : List Out := tr.flatMap Prod.snd

/-- an execution that keeps an invariant, and a measure on its steps -/
theorem run_inv (I : Smc → Prop) (hI : ∀ s e s' out, I s → step s e = some (s', out) → I s') :
    ∀ (es : List Ev) (s s' : Smc) (tr : List (Ev × List Out)), I s → run s es = some (s', tr) → I s' := by
  intro es
  induction es with
  | nil => intro s s' tr h hr; cases hr; exact h
  | cons e es ih =>
    intro s s' tr h hr
    rw [run] at hr
    split at hr
    · cases hr
    · rename_i s1 out hs
      split at hr
      · cases hr
      · rename_i s2 tr2 hr2
        cases hr
        exact ih s1 _ tr2 (hI s e s1 out h hs) hr2

theorem run_cons {s s' : Smc} {e : Ev} {es : List Ev} {tr : List (Ev × List Out)} (h : run s (e :: es) = some (s', tr)) :
    ∃ s1 out tr1, step s e = some (s1, out) ∧ run s1 es = some (s', tr1) ∧ tr = (e, out) :: tr1 := by
  rw [run] at h
  split at h
  · cases h
  · rename_i s1 out hs
    split at h
    · cases h
    · rename_i s2 tr2 hr2
      cases h
      exact ⟨s1, out, tr2, hs, hr2, rfl⟩

theorem sendMsg_some {s s' : Smc} {m : List Byte} {out : List Out} (h : sendMsg s m = some (s', out)) :
    s' = { s with retx := if s.state ≠ .waitCpAck then 0 else s.retx, state := .waitCpAck, timer := true } ∧
      out = [.mm MMSMS_DATA_REQ CP_DATA m] := by
  unfold sendMsg at h
  split at h
  · cases h
  · cases h; exact ⟨rfl, rfl⟩

theorem some_pair {a : Smc × List Out} {s : Smc} {out : List Out} (h : some a = some (s, out)) : s = a.1 ∧ out = a.2 := by
  cases h; exact ⟨rfl, rfl⟩

/-- the ways an instance can move -/
inductive Move (s : Smc) : Ev → Smc → List Out → Prop
  | estReq (m) (h : s.state = .idle) : Move s (.send MNSMS_EST_REQ m) (Sms.estReq s m).1 (Sms.estReq s m).2
  | relReq (m) : Move s (.send MNSMS_REL_REQ m) (Sms.relReq s m).1 (Sms.relReq s m).2
  | dataReq (m) (h : s.state = .mmEstablished) :
      Move s (.send MNSMS_DATA_REQ m) { s with msg := some m, retx := 0, state := .waitCpAck, timer := true }
        (freeMsg s ++ [.mm MMSMS_DATA_REQ CP_DATA m])
  | abortReq (m) (h : s.state ≠ .idle) : Move s (.send MNSMS_ABORT_REQ m) (Sms.abortReq s m).1 (Sms.abortReq s m).2
  | dropped (t m) : Move s (.send t m) s [.free m]
  | estCnf (cp b m) (h : s.state = .connPending) (hm : s.msg = some m) :
      Move s (.recv MMSMS_EST_CNF cp b) { s with retx := 0, state := .waitCpAck, timer := true } [.mm MMSMS_DATA_REQ CP_DATA m]
  | estCnfNo (cp b) (h : s.state = .connPending) (hm : s.msg = none) : Move s (.recv MMSMS_EST_CNF cp b) s []
  | estInd (cp m) (h : s.state = .idle) :
      Move s (.recv MMSMS_EST_IND cp m) { s with state := .mmEstablished, rel := false }
        [.mm MMSMS_DATA_REQ CP_ACK [], .mn MNSMS_EST_IND m]
  | cpData (m) (h : s.state = .mmEstablished) :
      Move s (.recv MMSMS_DATA_IND CP_DATA m) s [.mm MMSMS_DATA_REQ CP_ACK [], .mn MNSMS_DATA_IND m]
  | cpAck (m) (h : s.state = .waitCpAck) : Move s (.recv MMSMS_DATA_IND CP_ACK m) (Sms.cpAck s).1 (Sms.cpAck s).2
  | cpError (m) : Move s (.recv MMSMS_DATA_IND CP_ERROR m) (Sms.cpError s m).1 (Sms.cpError s m).2
  | relInd (cp m) (h : s.state ≠ .idle) : Move s (.recv MMSMS_REL_IND cp m) (Sms.relInd s).1 (Sms.relInd s).2
  | refused (t cp m) (h : t = MMSMS_EST_IND ∧ s.state ≠ .idle ∨ t = MMSMS_DATA_IND ∧ cp ≠ CP_ERROR)
      (hd : ¬(t = MMSMS_DATA_IND ∧ s.state = .mmEstablished ∧ cp = CP_DATA))
      (ha : ¬(t = MMSMS_DATA_IND ∧ s.state = .waitCpAck ∧ cp = CP_ACK)) :
      Move s (.recv t cp m) { s with state := .idle }
        [.mm MMSMS_DATA_REQ CP_ERROR [97], .mn MNSMS_ERROR_IND [], .mm MMSMS_REL_REQ 0 []]
  | ignored (t cp m) (h : t ≠ MMSMS_EST_IND ∧ t ≠ MMSMS_DATA_IND)
      (h' : t = MMSMS_EST_CNF → s.state ≠ .connPending) (h'' : t = MMSMS_REL_IND → s.state = .idle) : Move s (.recv t cp m) s []
  | noTimer (h : s.timer = false) : Move s .timeout s []
  | giveUp (h : s.timer = true) (hr : s.retx = s.maxRetr) :
      Move s .timeout { s with timer := false, state := .idle, msg := none }
        ([.mn MNSMS_ERROR_IND []] ++ freeMsg s ++ [.mm MMSMS_REL_REQ 0 []])
  | again (m) (h : s.timer = true) (hr : s.retx ≠ s.maxRetr) (hm : s.msg = some m) :
      Move s .timeout { s with retx := if s.state ≠ .waitCpAck then 0 else s.retx + 1, state := .waitCpAck, timer := true }
        [.mm MMSMS_DATA_REQ CP_DATA m]
  | stale (h : s.timer = true) (hr : s.retx ≠ s.maxRetr) (hm : s.msg = none) :
      Move s .timeout { s with retx := s.retx + 1, timer := false } []

theorem step_move {s s' : Smc} {e : Ev} {out : List Out} (h : step s e = some (s', out)) : Move s e s' out := by
  cases e with
  | send t m =>
    simp only [step, send] at h
    split at h
    · rename_i hc; obtain ⟨rfl, hs⟩ := hc; cases h; exact .estReq m hs
    · split at h
      · rename_i hc; subst hc; obtain ⟨rfl, rfl⟩ := some_pair h; exact .relReq m
      · split at h
        · rename_i hc; obtain ⟨rfl, hs⟩ := hc
          unfold dataReq at h
          split at h
          · cases h
          · rename_i s1 out1 h1
            cases h
            obtain ⟨rfl, rfl⟩ := sendMsg_some h1
            have := Move.dataReq (s := s) m hs
            simpa [hs] using this
        · split at h
          · rename_i hc; obtain ⟨rfl, hs⟩ := hc; cases h; exact .abortReq m hs
          · cases h; exact .dropped t m
  | recv t cp m =>
    simp only [step, recv] at h
    split at h
    · rename_i hc; obtain ⟨rfl, hs⟩ := hc
      unfold estCnf at h
      split at h
      · rename_i hm; cases h; exact .estCnfNo cp m hs hm
      · rename_i b hm
        obtain ⟨rfl, rfl⟩ := sendMsg_some h
        have := Move.estCnf (s := s) cp m b hs hm
        simpa [hs] using this
    · rename_i n1
      split at h
      · rename_i hc; obtain ⟨rfl, hs⟩ := hc
        obtain ⟨rfl, rfl⟩ := some_pair h
        have := Move.estInd (s := s) cp m hs
        simpa [cpData, hs] using this
      · rename_i n2
        split at h
        · rename_i hc; obtain ⟨rfl, hs, rfl⟩ := hc
          obtain ⟨rfl, rfl⟩ := some_pair h
          have := Move.cpData (s := s) m hs
          simpa [cpData, hs] using this
        · rename_i n3
          split at h
          · rename_i hc; obtain ⟨rfl, hs, rfl⟩ := hc; obtain ⟨rfl, rfl⟩ := some_pair h; exact .cpAck m hs
          · rename_i n4
            split at h
            · rename_i hc; obtain ⟨rfl, rfl⟩ := hc; cases h; exact .cpError m
            · rename_i n5
              split at h
              · rename_i hc; obtain ⟨rfl, hs⟩ := hc; cases h; exact .relInd cp m hs
              · rename_i n6
                unfold unhandled at h
                split at h
                · rename_i hc
                  cases h
                  refine .refused t cp m ?_ n3 n4
                  rcases hc with rfl | rfl
                  · exact .inl ⟨rfl, fun hh => n2 ⟨rfl, hh⟩⟩
                  · exact .inr ⟨rfl, fun hh => n5 ⟨rfl, hh⟩⟩
                · rename_i hc
                  cases h
                  refine .ignored t cp m ⟨fun hh => hc (.inl hh), fun hh => hc (.inr hh)⟩ (fun h1 h2 => n1 ⟨h1, h2⟩) ?_
                  exact fun h1 => Decidable.byContradiction fun h2 => n6 ⟨h1, h2⟩
  | timeout =>
    simp only [step] at h
    split at h
    · rename_i ht
      simp only [timerExpired] at h
      split at h
      · rename_i hr; cases h; exact .giveUp ht hr
      · rename_i hr
        unfold estCnf at h
        simp only at h
        split at h
        · rename_i hm; cases h
          exact .stale ht hr hm
        · rename_i b hm
          obtain ⟨rfl, rfl⟩ := sendMsg_some h
          exact .again b ht hr hm
    · rename_i ht
      cases h
      exact .noTimer (by simpa using ht)

/-! ## C135: ownership -/

/-- how often the upper layer handed over `m` -/
def given (m : List Byte) (es : List Ev) : Nat := es.countP fun e => match e with | .send _ b => b = m | _ => false

/-- how often `m` was freed, or passed on to the layer below -/
def gone (m : List Byte) (out : List Out) : Nat :=
  out.countP fun o => match o with | .free b => b = m | .pass _ _ b => b = m | _ => false

def held (m : List Byte) (s : Smc) : Nat := if s.msg = some m then 1 else 0

theorem gone_freeMsg (m : List Byte) (s : Smc) : gone m (freeMsg s) = held m s := by
  unfold freeMsg held gone
  split <;> rename_i h <;> simp [h, List.countP_cons]

theorem gone_append (m : List Byte) (a b : List Out) : gone m (a ++ b) = gone m a + gone m b := by
  simp [gone, List.countP_append]

theorem step_owned {s s' : Smc} {e : Ev} {out : List Out} (m : List Byte) (h : step s e = some (s', out)) :
    held m s + given m [e] = gone m out + held m s' := by
  have hm := step_move h
  have hk : ∀ b : List Byte, (if b = m then 1 else 0) = held m { s with msg := some b } := by intro b; simp [held]
  cases hm
  case estReq b _ =>
    simp only [Sms.estReq, gone_append, gone_freeMsg]
    simp [held, given, gone, List.countP_cons]
  case relReq b =>
    simp only [Sms.relReq]
    split
    · simp [held, given, gone, List.countP_cons, Nat.add_comm]
    · split
      · simp [held, given, gone, List.countP_cons, Nat.add_comm]
      · simp only [gone_append, gone_freeMsg]
        simp [held, given, gone, List.countP_cons, Nat.add_comm]
  case dataReq b _ =>
    simp only [gone_append, gone_freeMsg]
    simp [held, given, gone, List.countP_cons]
  case abortReq b _ =>
    simp only [Sms.abortReq, gone_append, gone_freeMsg]
    simp [held, given, gone, List.countP_cons]
  case cpAck b _ =>
    simp only [Sms.cpAck]
    split
    · simp only [gone_append, gone_freeMsg]
      simp [held, given, gone, List.countP_cons]
    · simp only [gone_freeMsg]
      simp [held, given]
  case cpError b =>
    simp only [Sms.cpError, gone_append, gone_freeMsg]
    simp [held, given, gone, List.countP_cons]
  case relInd cp b _ =>
    simp only [Sms.relInd, gone_append, gone_freeMsg]
    simp [held, given, gone, List.countP_cons]
  case giveUp _ _ =>
    simp only [gone_append, gone_freeMsg]
    simp [held, given, gone, List.countP_cons]
  all_goals simp [held, given, gone, List.countP_cons, Nat.add_comm]

/-- C135: at any time each message the upper layer handed over has been freed
or passed on exactly once, or is the one kept for retransmission -/
theorem messages_owned (m : List Byte) (es : List Ev) (s s' : Smc) (tr : List (Ev × List Out)) (h : run s es = some (s', tr)) :
    held m s + given m es = gone m (outs tr) + held m s' := by
  induction es generalizing s tr with
  | nil => cases h; simp [given, gone, outs]
  | cons e es ih =>
    obtain ⟨s1, out, tr1, hs, hr, rfl⟩ := run_cons h
    have h1 := step_owned m hs
    have h2 := ih s1 tr1 hr
    have e1 : given m (e :: es) = given m [e] + given m es := by
      simp only [given, List.countP_cons, List.countP_nil]; omega
    have e2 : gone m (outs ((e, out) :: tr1)) = gone m out + gone m (outs tr1) := by
      simp [outs, gone_append]
    omega

/-- C135: after `gsm411_smc_clear` none is left -/
theorem clear_owned (m : List Byte) (es : List Ev) (s : Smc) (tr : List (Ev × List Out)) (h : run init es = some (s, tr)) :
    given m es = gone m (outs tr ++ (clear s).2) ∧ (clear s).1.timer = false := by
  have h1 := messages_owned m es init s tr h
  have h2 : held m init = 0 := rfl
  rw [gone_append]
  simp only [clear, gone_freeMsg]
  exact ⟨by omega, trivial⟩

/-! ## C136: retransmissions -/

/-- how often `m` was sent in a CP-DATA -/
def sentData (m : List Byte) (out : List Out) : Nat := out.countP fun o => o = .mm MMSMS_DATA_REQ CP_DATA m

/-- how often the upper layer asked for `m` to be sent -/
def asked (m : List Byte) (es : List Ev) : Nat :=
  es.countP fun e => e = .send MNSMS_EST_REQ m ∨ e = .send MNSMS_DATA_REQ m

/-- how often a CP-ERROR was sent because of a message that did not fit the state -/
def refusals (out : List Out) : Nat := out.countP fun o => o = .mm MMSMS_DATA_REQ CP_ERROR [97]

theorem retx_le : ∀ s e s' out, s.retx ≤ s.maxRetr ∧ s.maxRetr = 2 → step s e = some (s', out) → s'.retx ≤ s'.maxRetr ∧ s'.maxRetr = 2 := by
  intro s e s' out hi h
  have hm := step_move h
  cases hm
  case relReq b => simp only [Sms.relReq]; split <;> (try split) <;> exact hi
  case cpAck b _ => simp only [Sms.cpAck]; split <;> exact hi
  case again b _ hr _ =>
    simp only
    split
    · omega
    · omega
  case stale _ hr _ => simp only; omega
  all_goals first
    | exact hi
    | (simp only; omega)

theorem sentData_append (m : List Byte) (a b : List Out) : sentData m (a ++ b) = sentData m a + sentData m b := by
  simp [sentData, List.countP_append]

theorem sentData_freeMsg (m : List Byte) (s : Smc) : sentData m (freeMsg s) = 0 := by
  unfold freeMsg
  split <;> simp [sentData]

theorem refusals_append (a b : List Out) : refusals (a ++ b) = refusals a + refusals b := by
  simp [refusals, List.countP_append]

/-- transmissions of `m` that are still to come -/
def left (m : List Byte) (s : Smc) : Nat :=
  if s.msg = some m then (if s.state = .waitCpAck then s.maxRetr - s.retx else s.maxRetr + 1) else 0

theorem left_le (m : List Byte) (s : Smc) : left m s ≤ s.maxRetr + 1 := by
  unfold left
  split
  · split <;> omega
  · omega

theorem step_retrans {s s' : Smc} {e : Ev} {out : List Out} (m : List Byte) (hi : s.retx ≤ s.maxRetr ∧ s.maxRetr = 2)
    (h : step s e = some (s', out)) : sentData m out + left m s' ≤ left m s + 3 * (asked m [e] + refusals out) := by
  have hm := step_move h
  have hc : MMSMS_DATA_REQ = 0x330 ∧ CP_DATA = 1 ∧ CP_ACK = 4 ∧ CP_ERROR = 16 ∧ MMSMS_REL_REQ = 0x320 ∧ MMSMS_EST_REQ = 0x310 :=
    ⟨rfl, rfl, rfl, rfl, rfl, rfl⟩
  have hl := left_le m s
  cases hm
  case estReq b _ =>
    have h1 : sentData m [Out.mm MMSMS_EST_REQ 0 []] = 0 := rfl
    have h2 := left_le m (Sms.estReq s b).1
    have h3 : (Sms.estReq s b).1.maxRetr = 2 := hi.2
    have h4 : b ≠ m → left m (Sms.estReq s b).1 = 0 := by intro hb; simp [left, Sms.estReq, hb]
    have h5 : b = m → asked m [Ev.send MNSMS_EST_REQ b] = 1 := by intro hb; simp [asked, hb]
    simp only [Sms.estReq, sentData_append, sentData_freeMsg] at *
    by_cases hb : b = m
    · have := h5 hb; omega
    · have := h4 hb; omega
  case relReq b =>
    simp only [Sms.relReq]
    split
    · simp [sentData]
    · split
      · simp only [left]; simp [sentData]
      · simp only [sentData_append, sentData_freeMsg]
        simp [sentData, left, hc]
  case dataReq b hs =>
    simp only [sentData_append, sentData_freeMsg]
    by_cases hb : b = m
    · subst hb
      simp [sentData, left, asked, hi.2]
      omega
    · simp [sentData, left, hb]
  case abortReq b _ =>
    simp only [Sms.abortReq, sentData_append, sentData_freeMsg]
    simp [sentData, left, hc]
  case dropped t b => simp [sentData]
  case estCnf cp b c hs hmm =>
    by_cases hb : c = m
    · subst hb
      simp [sentData, left, hmm, hs, hi.2]
    · simp [sentData, left, hmm, hb]
  case estCnfNo => simp [sentData]
  case estInd cp b hs => simp [sentData, left, hs, hc]
  case cpData b hs => simp [sentData, hc]
  case cpAck b hs =>
    simp only [Sms.cpAck]
    split
    · simp only [sentData_append, sentData_freeMsg]
      simp [sentData, left, hc]
    · simp [sentData_freeMsg, left]
  case cpError b =>
    simp only [Sms.cpError, sentData_append, sentData_freeMsg]
    simp [sentData, left, hc]
  case relInd cp b hs =>
    simp only [Sms.relInd, sentData_append, sentData_freeMsg]
    simp [sentData, left]
  case refused t cp b hs _ _ =>
    have h1 := left_le m { s with state := .idle }
    simp only at h1
    have h2 : refusals [.mm MMSMS_DATA_REQ CP_ERROR [97], .mn MNSMS_ERROR_IND [], .mm MMSMS_REL_REQ 0 []] = 1 := rfl
    have h3 : sentData m [.mm MMSMS_DATA_REQ CP_ERROR [97], .mn MNSMS_ERROR_IND [], .mm MMSMS_REL_REQ 0 []] = 0 := by
      simp [sentData, hc]
    rw [h2, h3]
    omega
  case ignored => simp [sentData]
  case noTimer => simp [sentData]
  case giveUp =>
    simp only [sentData_append, sentData_freeMsg]
    simp [sentData, left, hc]
  case again b ht hr hmm =>
    by_cases hb : b = m
    · subst hb
      by_cases hs : s.state = .waitCpAck
      · simp [sentData, left, hmm, hs]
        omega
      · simp [sentData, left, hmm, hs, hi.2]
    · simp [sentData, left, hmm, hb]
  case stale ht hr hmm => simp [sentData, left, hmm]

theorem run_retrans (m : List Byte) (es : List Ev) : ∀ (s s' : Smc) (tr : List (Ev × List Out)),
    s.retx ≤ s.maxRetr ∧ s.maxRetr = 2 → run s es = some (s', tr) →
    sentData m (outs tr) + left m s' ≤ left m s + 3 * (asked m es + refusals (outs tr)) := by
  induction es with
  | nil => intro s s' tr _ h; cases h; simp [sentData, outs]
  | cons e es ih =>
    intro s s' tr hi h
    obtain ⟨s1, out, tr1, hs, hr, rfl⟩ := run_cons h
    have h1 := step_retrans m hi hs
    have h2 := ih s1 s' tr1 (retx_le s e s1 out hi hs) hr
    have e1 : asked m (e :: es) = asked m [e] + asked m es := by
      simp only [asked, List.countP_cons, List.countP_nil]; omega
    have e2 : sentData m (outs ((e, out) :: tr1)) = sentData m out + sentData m (outs tr1) := by simp [outs, sentData_append]
    have e3 : refusals (outs ((e, out) :: tr1)) = refusals out + refusals (outs tr1) := by simp [outs, refusals_append]
    omega

/-- C136: a message is sent at most three times for each request, and for each
CP-ERROR sent because of an unexpected message.  Missing: the latter should
not count, see `retransmissions_counterexample` -/
theorem retransmissions_partial (m : List Byte) (es : List Ev) (s : Smc) (tr : List (Ev × List Out))
    (h : run init es = some (s, tr)) : sentData m (outs tr) ≤ 3 * (asked m es + refusals (outs tr)) := by
  have h1 := run_retrans m es init s tr ⟨by decide, rfl⟩ h
  have h2 : left m init = 0 := rfl
  omega

/-- C136: without unexpected messages at most three times for each request -/
theorem retransmissions_clean (m : List Byte) (es : List Ev) (s : Smc) (tr : List (Ev × List Out))
    (h : run init es = some (s, tr)) (h0 : refusals (outs tr) = 0) : sentData m (outs tr) ≤ 3 * asked m es := by
  have := retransmissions_partial m es s tr h
  omega

/-- C136: nothing is sent that was not asked for -/
theorem sent_was_asked (m : List Byte) (es : List Ev) : ∀ (s s' : Smc) (tr : List (Ev × List Out)),
    run s es = some (s', tr) → 0 < sentData m (outs tr) ∨ s'.msg = some m → s.msg = some m ∨ 0 < asked m es := by
  have key : ∀ s e s' out, step s e = some (s', out) → 0 < sentData m out ∨ s'.msg = some m → s.msg = some m ∨ 0 < asked m [e] := by
    intro s e s' out h hp
    have hi := step_move h
    have hc : MMSMS_DATA_REQ = 0x330 ∧ CP_DATA = 1 ∧ CP_ACK = 4 ∧ CP_ERROR = 16 ∧ MMSMS_REL_REQ = 0x320 ∧ MMSMS_EST_REQ = 0x310 :=
      ⟨rfl, rfl, rfl, rfl, rfl, rfl⟩
    cases hi
    case estReq b _ =>
      simp only [Sms.estReq, sentData_append, sentData_freeMsg] at hp
      simp [sentData, hc] at hp
      exact .inr (by simp [asked, hp])
    case relReq b =>
      revert hp
      simp only [Sms.relReq]
      split
      · simp [sentData]; exact fun hh => .inl hh
      · split
        · simp [sentData]; exact fun hh => .inl hh
        · simp only [sentData_append, sentData_freeMsg]
          simp [sentData, hc]
    case dataReq b _ =>
      simp only [sentData_append, sentData_freeMsg] at hp
      have hb : b = m := by
        by_cases hb : b = m
        · exact hb
        · simp [sentData, hb] at hp
      exact .inr (by simp [asked, hb])
    case abortReq b _ =>
      simp only [Sms.abortReq, sentData_append, sentData_freeMsg] at hp
      simp [sentData, hc] at hp
    case estCnf cp b c hs hmm =>
      have hb : c = m := by
        by_cases hb : c = m
        · exact hb
        · simp [sentData, hmm, hb] at hp
      exact .inl (by rw [hmm, hb])
    case cpAck b hs =>
      revert hp
      simp only [Sms.cpAck]
      split
      · simp only [sentData_append, sentData_freeMsg]; simp [sentData, hc]
      · simp [sentData_freeMsg]
    case cpError b =>
      simp only [Sms.cpError, sentData_append, sentData_freeMsg] at hp
      simp [sentData, hc] at hp
    case relInd cp b hs =>
      simp only [Sms.relInd, sentData_append, sentData_freeMsg] at hp
      simp [sentData] at hp
    case giveUp =>
      simp only [sentData_append, sentData_freeMsg] at hp
      simp [sentData, hc] at hp
    case again b ht hr hmm =>
      have hb : b = m := by
        by_cases hb : b = m
        · exact hb
        · simp [sentData, hmm, hb] at hp
      exact .inl (by rw [hmm, hb])
    all_goals
      simp [sentData, hc] at hp
      exact .inl hp
  induction es with
  | nil =>
    intro s s' tr h hp
    cases h
    rcases hp with hp | hp
    · simp [sentData, outs] at hp
    · exact .inl hp
  | cons e es ih =>
    intro s s' tr h hp
    obtain ⟨s1, out, tr1, hs, hr, rfl⟩ := run_cons h
    have e1 : asked m (e :: es) = asked m [e] + asked m es := by
      simp only [asked, List.countP_cons, List.countP_nil]; omega
    have e2 : sentData m (outs ((e, out) :: tr1)) = sentData m out + sentData m (outs tr1) := by simp [outs, sentData_append]
    have k := key s e s1 out hs
    by_cases h1 : 0 < sentData m out
    · rcases k (.inl h1) with h2 | h2
      · exact .inl h2
      · exact .inr (by omega)
    · have h3 : 0 < sentData m (outs tr1) ∨ s'.msg = some m := by
        rcases hp with hp | hp
        · exact .inl (by omega)
        · exact .inr hp
      rcases ih s1 s' tr1 hr h3 with h2 | h2
      · rcases k (.inr h2) with h4 | h4
        · exact .inl h4
        · exact .inr (by omega)
      · exact .inr (by omega)

/-- C136: a peer that answers with unexpected messages gets the same message
as often as it likes, although it was asked for once and the connection is
released after each of them -/
theorem retransmissions_counterexample (m : List Byte) (hm : m.length ≤ TAILROOM) (n : Nat) :
    ∃ es s tr, run init es = some (s, tr) ∧ asked m es = 1 ∧ n ≤ sentData m (outs tr) := by
  have hs : ∀ s : Smc, sendMsg s m = some ({ s with retx := if s.state ≠ .waitCpAck then 0 else s.retx, state := .waitCpAck, timer := true },
      [.mm MMSMS_DATA_REQ CP_DATA m]) := by
    intro s
    rw [sendMsg, if_neg (by omega)]
  have loop : ∀ n, ∃ es tr, run { state := .waitCpAck, msg := some m, timer := true } es =
      some ({ state := .waitCpAck, msg := some m, timer := true }, tr) ∧ asked m es = 0 ∧ n ≤ sentData m (outs tr) := by
    intro n
    induction n with
    | zero => exact ⟨[], [], rfl, rfl, by omega⟩
    | succ n ih =>
      obtain ⟨es, tr, h1, h2, h3⟩ := ih
      refine ⟨.recv MMSMS_DATA_IND 0x99 [] :: .timeout :: es,
        (.recv MMSMS_DATA_IND 0x99 [], [.mm MMSMS_DATA_REQ CP_ERROR [97], .mn MNSMS_ERROR_IND [], .mm MMSMS_REL_REQ 0 []]) ::
          (.timeout, [.mm MMSMS_DATA_REQ CP_DATA m]) :: tr, ?_, ?_, ?_⟩
      · have e1 : step { state := .waitCpAck, msg := some m, timer := true } (.recv MMSMS_DATA_IND 0x99 []) =
            some ({ state := .idle, msg := some m, timer := true },
              [.mm MMSMS_DATA_REQ CP_ERROR [97], .mn MNSMS_ERROR_IND [], .mm MMSMS_REL_REQ 0 []]) := rfl
        have e2 : step { state := .idle, msg := some m, timer := true } .timeout =
            some ({ state := .waitCpAck, msg := some m, timer := true }, [.mm MMSMS_DATA_REQ CP_DATA m]) := by
          show sendMsg { state := .idle, msg := some m, retx := 1 } m = _
          rw [hs]
          rfl
        rw [run, e1]
        simp only
        rw [run, e2]
        simp only
        rw [h1]
      · simpa [asked, List.countP_cons] using h2
      · have : sentData m (outs ((Ev.recv MMSMS_DATA_IND 0x99 [], [.mm MMSMS_DATA_REQ CP_ERROR [97], .mn MNSMS_ERROR_IND [],
            .mm MMSMS_REL_REQ 0 []]) :: (.timeout, [.mm MMSMS_DATA_REQ CP_DATA m]) :: tr)) = 1 + sentData m (outs tr) := by
          have hc : MMSMS_DATA_REQ = 0x330 ∧ CP_DATA = 1 ∧ CP_ERROR = 16 ∧ MMSMS_REL_REQ = 0x320 := ⟨rfl, rfl, rfl, rfl⟩
          simp [outs, sentData, List.countP_cons, hc, Nat.add_comm]
        omega
  obtain ⟨es, tr, h1, h2, h3⟩ := loop n
  refine ⟨.send MNSMS_EST_REQ m :: .recv MMSMS_EST_CNF 0 [] :: es, { state := .waitCpAck, msg := some m, timer := true },
    (.send MNSMS_EST_REQ m, [.mm MMSMS_EST_REQ 0 []]) :: (.recv MMSMS_EST_CNF 0 [], [.mm MMSMS_DATA_REQ CP_DATA m]) :: tr, ?_, ?_, ?_⟩
  · have e1 : step init (.send MNSMS_EST_REQ m) = some ({ state := .connPending, msg := some m }, [.mm MMSMS_EST_REQ 0 []]) := rfl
    have e2 : step { state := .connPending, msg := some m } (.recv MMSMS_EST_CNF 0 []) =
        some ({ state := .waitCpAck, msg := some m, timer := true }, [.mm MMSMS_DATA_REQ CP_DATA m]) := by
      show sendMsg { state := .connPending, msg := some m } m = _
      rw [hs]
      rfl
    rw [run, e1]
    simp only
    rw [run, e2]
    simp only
    rw [h1]
  · have : asked m (.send MNSMS_EST_REQ m :: .recv MMSMS_EST_CNF 0 [] :: es) = 1 + asked m es := by
      simp [asked, List.countP_cons, Nat.add_comm]
    omega
  · have : sentData m (outs tr) ≤ sentData m (outs ((Ev.send MNSMS_EST_REQ m, [.mm MMSMS_EST_REQ 0 []]) ::
        (.recv MMSMS_EST_CNF 0 [], [.mm MMSMS_DATA_REQ CP_DATA m]) :: tr)) := by
      simp only [outs, List.flatMap_cons, sentData_append]
      omega
    omega

end Verif.Sms
