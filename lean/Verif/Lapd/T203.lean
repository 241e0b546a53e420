import Verif.Lapd.Answers
/-!
C111: the supervision of an idle LAPD link by T203; src/isdn/lapd_core.c.
-/
namespace Verif.Lapd
open Verif

/-- T203 runs in MF_EST only -/
def Only (d : DL) : Prop := d.t203 = true → d.state = .mfEst

/-- an established link is watched by T200 or, if enabled, by T203 -/
def Watched (d : DL) : Prop := d.cfg.t203 = true → d.state = .mfEst → d.t200 = true ∨ d.t203 = true

theorem newstate_timers (d : DL) (s : State) : (newstate d s).state = s ∧ (newstate d s).cfg = d.cfg ∧ (newstate d s).t200 = d.t200 ∧
    (newstate d s).t203 = (if s ≠ .mfEst ∧ d.state = .mfEst then false else if d.cfg.t203 = true ∧ s = .mfEst ∧ d.state ≠ .mfEst then true else d.t203) := by
  unfold newstate
  by_cases h1 : s = .mfEst
  · subst h1
    by_cases h2 : d.state = .mfEst
    · simp [h2]
    · by_cases h3 : d.cfg.t203 = true <;> simp [h2, h3]
  · by_cases h2 : d.state = .mfEst <;> simp [h1, h2]

theorem newstate_only {d : DL} (h : Only d) (s : State) : Only (newstate d s) := by
  obtain ⟨a, _, _, e⟩ := newstate_timers d s
  unfold Only at *
  rw [a, e]
  by_cases h1 : s = .mfEst
  · exact fun _ => h1
  · by_cases h2 : d.state = .mfEst
    · rw [if_pos ⟨h1, h2⟩]
      intro h; cases h
    · rw [if_neg (fun e => h2 e.2), if_neg (fun e => h1 e.2.1)]
      intro e
      exact absurd (h e) h2

theorem newstate_watched {d : DL} (h : Watched d) (s : State) : Watched (newstate d s) := by
  obtain ⟨a, b, c, e⟩ := newstate_timers d s
  unfold Watched at *
  rw [a, b, c, e]
  intro hc h1
  rw [if_neg (fun e => e.1 h1)]
  by_cases h2 : d.state = .mfEst
  · rw [if_neg (fun e => e.2.2 h2)]
    exact h hc h2
  · rw [if_pos ⟨hc, h1, h2⟩]
    exact .inr rfl

theorem sendI_timers : ∀ (n : Nat) (d d' : DL) (rc rc' : Bool), sendI n d rc = some (d', rc') →
    d'.cfg = d.cfg ∧ d'.state = d.state ∧ (d'.t203 = true → d.t203 = true) ∧ (d.t200 = true ∨ d.t203 = true → d'.t200 = true ∨ d'.t203 = true)
  | 0, d, d', rc, rc', h => by cases h
  | n + 1, d, d', rc, rc', h => by
    have stay : ∀ d'' : DL, d''.cfg = d.cfg → d''.state = d.state → d''.t203 = d.t203 → d''.t200 = d.t200 → some (d'', rc) = some (d', rc') →
        d'.cfg = d.cfg ∧ d'.state = d.state ∧ (d'.t203 = true → d.t203 = true) ∧ (d.t200 = true ∨ d.t203 = true → d'.t200 = true ∨ d'.t203 = true) := by
      intro d'' h1 h2 h3 h4 e
      cases e
      exact ⟨h1, h2, (by rw [h3]; exact id), by rw [h3, h4]; exact id⟩
    have more : ∀ (d'' : DL) (s : Seg), d''.cfg = d.cfg → d''.state = d.state → d''.t203 = d.t203 → sendI n (emitI d'' s) true = some (d', rc') →
        d'.cfg = d.cfg ∧ d'.state = d.state ∧ (d'.t203 = true → d.t203 = true) ∧ (d.t200 = true ∨ d.t203 = true → d'.t200 = true ∨ d'.t203 = true) := by
      intro d'' s h1 h2 h3 e
      obtain ⟨a, b, c, f⟩ := sendI_timers n _ _ _ _ e
      refine ⟨a.trans h1, b.trans h2, fun h => ?_, fun _ => f (.inl rfl)⟩
      have := c h
      simp only [emitI] at this
      rw [← h3]
      split at this
      · exact this
      · cases this
    rw [sendI] at h
    split at h
    · exact stay d rfl rfl rfl rfl h
    split at h
    · exact stay d rfl rfl rfl rfl h
    split at h
    · exact stay d rfl rfl rfl rfl h
    simp only at h
    split at h
    · cases h
    · exact more d _ rfl rfl rfl h
    · split at h
      · refine stay _ ?_ ?_ ?_ ?_ h <;> rfl
      · refine more _ _ ?_ ?_ ?_ h <;> rfl

theorem doSendI_only {d d' : DL} {rc : Bool} (h : Only d) (e : doSendI d = some (d', rc)) : Only d' := by
  obtain ⟨_, b, c, _⟩ := sendI_timers _ _ _ _ _ e
  intro h'
  rw [b]; exact h (c h')

theorem doSendI_watched {d d' : DL} {rc : Bool} (h : Watched d) (e : doSendI d = some (d', rc)) : Watched d' := by
  obtain ⟨a, b, _, c⟩ := sendI_timers _ _ _ _ _ e
  intro h1 h2
  rw [a] at h1
  rw [b] at h2
  exact c (h h1 h2)

theorem acknowledge_only {d d' : DL} {rej ok : Bool} {nr : Nat} (h : Only d) (e : acknowledge d rej nr = some (d', ok)) : Only d' := by
  unfold acknowledge at e
  obtain ⟨hist, _, e⟩ := Option.bind_eq_some_iff.1 e
  split at e
  · cases e; exact h
  · obtain ⟨_, _, e⟩ := Option.map_eq_some_iff.1 e
    cases e
    intro h'
    simp only [Bool.and_eq_true, beq_iff_eq] at h'
    exact h'.2

/-- a valid N(R) leaves the link watched -/
theorem acknowledge_watched {d d' : DL} {rej : Bool} {nr : Nat} (e : acknowledge d rej nr = some (d', true)) : Watched d' := by
  unfold acknowledge at e
  obtain ⟨hist, _, e⟩ := Option.bind_eq_some_iff.1 e
  split at e
  · cases e
  · obtain ⟨_, _, e⟩ := Option.map_eq_some_iff.1 e
    cases e
    intro h1 h2
    simp only at h1 h2 ⊢
    rw [h1, h2]
    cases (if ackReset d rej nr = true then !rej && _ else d.t200) <;> simp

theorem answer_same (d : DL) : (answer d).state = d.state ∧ (answer d).t203 = d.t203 ∧ (answer d).t200 = d.t200 ∧ (answer d).cfg = d.cfg := by
  unfold answer sendS
  split
  · exact ⟨rfl, rfl, rfl, rfl⟩
  · split <;> exact ⟨rfl, rfl, rfl, rfl⟩

theorem only_of {d d' : DL} (h : Only d) (h1 : d'.state = d.state) (h2 : d'.t203 = d.t203) : Only d' := by
  unfold Only; rw [h1, h2]; exact h

theorem map_fst {x : Option (DL × Bool)} {d' : DL} (h : x.map (·.1) = some d') : ∃ rc, x = some (d', rc) := by
  obtain ⟨⟨d, rc⟩, h1, h2⟩ := Option.map_eq_some_iff.1 h
  cases h2
  exact ⟨rc, h1⟩

theorem rxRr_only {d d' : DL} {f : Frame} (h : Only d) (e : rxRr d f = some d') : Only d' := by
  unfold rxRr at e
  obtain ⟨⟨d1, ok⟩, e1, e⟩ := Option.bind_eq_some_iff.1 e
  have h2 := acknowledge_only h e1
  obtain ⟨rc, e⟩ := map_fst e
  refine doSendI_only ?_ e
  by_cases hx : f.cmd = true ∧ f.pf = true
  · rw [if_pos hx]
    exact only_of h2 (answer_same d1).1 (answer_same d1).2.1
  · rw [if_neg hx]
    by_cases hy : (!f.cmd) = true ∧ f.pf = true ∧ d1.state = .timerRecov
    · rw [if_pos hy]
      exact newstate_only (d := { d1 with vSend := f.nr, t200 := false }) h2 _
    · rw [if_neg hy]
      exact h2

theorem rxRnr_only {d d' : DL} {f : Frame} (h : Only d) (e : rxRnr d f = some d') : Only d' := by
  unfold rxRnr at e
  obtain ⟨⟨d1, ok⟩, e1, e⟩ := Option.bind_eq_some_iff.1 e
  have h2 := acknowledge_only h e1
  have h3 : Only { d1 with peerBusy := true, t200 := false } := h2
  obtain ⟨rc, e⟩ := map_fst e
  refine doSendI_only ?_ e
  simp only
  by_cases hx : f.pf = true
  · rw [if_pos hx]
    by_cases hy : f.cmd = true
    · rw [if_pos hy]; exact h3
    · rw [if_neg hy]
      by_cases hz : d1.state = .timerRecov
      · rw [if_pos hz]; exact newstate_only h3 .mfEst
      · rw [if_neg hz]; exact h3
  · rw [if_neg hx]; exact h3

theorem rxRej_only {d d' : DL} {f : Frame} (h : Only d) (e : rxRej d f = some d') : Only d' := by
  unfold rxRej at e
  obtain ⟨⟨d1, ok⟩, e1, e⟩ := Option.bind_eq_some_iff.1 e
  have h2 := acknowledge_only h e1
  obtain ⟨rc, e⟩ := map_fst e
  refine doSendI_only ?_ e
  have h3 : ∀ t, Only { d1 with peerBusy := false, vSend := f.nr, vAck := f.nr, t200 := t } := fun t => only_of h2 rfl rfl
  have h4 : ∀ t, Only (answer { d1 with peerBusy := false, vSend := f.nr, vAck := f.nr, t200 := t }) := fun t =>
    only_of (h3 t) (answer_same _).1 (answer_same _).2.1
  by_cases hx : d1.state = .timerRecov
  · rw [if_neg (not_not.2 hx)]
    by_cases hy : (!f.cmd) = true ∧ f.pf = true
    · rw [if_pos hy]; exact newstate_only (h3 false) _
    · rw [if_neg hy]
      by_cases hz : f.cmd = true ∧ f.pf = true
      · rw [if_pos hz]; exact h4 d1.t200
      · rw [if_neg hz]; exact h3 d1.t200
  · rw [if_pos hx]
    by_cases hy : (!f.cmd) = true ∧ f.pf = true
    · rw [if_pos hy]
      by_cases hz : f.cmd = true ∧ f.pf = true
      · rw [if_pos hz]; exact only_of (h4 false) rfl rfl
      · rw [if_neg hz]; exact only_of (h3 false) rfl rfl
    · rw [if_neg hy]
      by_cases hz : f.cmd = true ∧ f.pf = true
      · rw [if_pos hz]; exact h4 false
      · rw [if_neg hz]; exact h3 false

theorem rxS_only {d d' : DL} {f : Frame} (h : Only d) (e : rxS d f = some d') : Only d' := by
  unfold rxS at e
  split at e
  · cases e; exact h
  · have h1 : Only (if (!f.cmd) = true ∧ f.pf = true ∧ d.state ≠ .timerRecov then mdlError d 6 else d) := by split <;> exact h
    simp only at e
    generalize (if (!f.cmd) = true ∧ f.pf = true ∧ d.state ≠ .timerRecov then mdlError d 6 else d) = d1 at h1 e
    split at e
    · cases e; exact h1
    · split at e
      · exact rxRr_only h1 e
      · exact rxRnr_only h1 e
      · exact rxRej_only h1 e
      · cases e; exact h1

theorem rxISeq_only {d d' : DL} {f : Frame} (h : Only d) (e : rxISeq d f = some d') : Only d' := by
  unfold rxISeq at e
  obtain ⟨⟨d1, ok⟩, e1, e⟩ := Option.bind_eq_some_iff.1 e
  have h2 : Only d1 := acknowledge_only (d := { d with seqErr := 0, vRecv := incMod d.vRecv d.cfg.vRange }) h e1
  simp only at e
  have h3 : Only (if d1.ownBusy = true then d1 else { d1 with up := (deliver d1.cfg.maxf (d1.up, d1.rcvBuf) (f.data, f.more)).1, rcvBuf := (deliver d1.cfg.maxf (d1.up, d1.rcvBuf) (f.data, f.more)).2 }) := by
    split <;> exact h2
  generalize (if d1.ownBusy = true then d1 else { d1 with up := (deliver d1.cfg.maxf (d1.up, d1.rcvBuf) (f.data, f.more)).1, rcvBuf := (deliver d1.cfg.maxf (d1.up, d1.rcvBuf) (f.data, f.more)).2 }) = d2 at e h3
  have h4 : Only (if ok = true then d2 else mdlError d2 7) := by split <;> exact h3
  generalize (if ok = true then d2 else mdlError d2 7) = d3 at e h4
  split at e
  · obtain ⟨rc, e⟩ := map_fst e
    exact doSendI_only (d := sendS _ _ _ _) h4 e
  split at e
  · obtain ⟨rc, e⟩ := map_fst e
    exact doSendI_only (d := sendS _ _ _ _) h4 e
  · obtain ⟨⟨d4, sent⟩, e2, e⟩ := Option.map_eq_some_iff.1 e
    have h5 := doSendI_only h4 e2
    simp only at e
    split at e
    · cases e; exact h5
    · cases e; exact h5

theorem rxIErr_only {d d' : DL} {f : Frame} (h : Only d) (e : rxIErr d f = some d') : Only d' := by
  unfold rxIErr at e
  obtain ⟨⟨d1, ok⟩, e1, e⟩ := Option.bind_eq_some_iff.1 e
  have h0 : Only (if d.seqErr ≠ 1 ∨ (!d.cfg.drop2nd) = true then sendS { d with seqErr := 1 } .rej f.pf false else { d with seqErr := 2 }) := by
    split <;> exact h
  have h2 : Only d1 := acknowledge_only h0 e1
  obtain ⟨rc, e⟩ := map_fst e
  refine doSendI_only ?_ e
  cases ok <;> exact h2

theorem rxI_only {d d' : DL} {f : Frame} {ns : Nat} (h : Only d) (e : rxI d ns f = some d') : Only d' := by
  unfold rxI at e
  split at e
  · cases e; exact h
  split at e
  · cases e; exact h
  split at e
  · cases e; exact h
  split at e
  · cases e; exact h
  split at e
  · exact rxIErr_only h e
  · exact rxISeq_only h e

theorem rxSabm_only {d : DL} (f : Frame) (h : Only d) : Only (rxSabm d f) := by
  unfold rxSabm
  simp only
  split
  · exact h
  · exact h
  · refine newstate_only ?_ _
    by_cases hx : d.state = .timerRecov
    · rw [if_pos hx]; exact h
    · rw [if_neg hx]; exact h

theorem rxUa_only {d d' : DL} {f : Frame} (h : Only d) (e : rxUa d f = some d') : Only d' := by
  unfold rxUa at e
  split at e
  · cases e; exact h
  · split at e
    · obtain ⟨rc, e⟩ := map_fst e
      exact doSendI_only (newstate_only (d := { d with t200 := false, vSend := 0, vRecv := 0, vAck := 0, hist := List.replicate d.hist.length none }) h _) e
    · cases e; exact h
    · cases e; exact h
    · cases e; exact h

theorem estReq_only {d : DL} (h : Only d) : Only (estReq d) := by
  unfold estReq
  exact newstate_only (d := { d with sendQueue := [], sendBuffer := none, hist := (List.replicate d.hist.length none).set 0 (some ([], false)), rcvBuf := none, vSend := 0, ownBusy := false, peerBusy := false, retrans := 0 }) h .sabmSent

theorem t200Est_only {d d' : DL} (h : Only d) (e : t200Est d = some d') : Only d' := by
  unfold t200Est at e
  have h1 : Only (if d.state = .mfEst then newstate { d with retrans := 0 } .timerRecov else d) := by
    split
    · exact newstate_only (d := { d with retrans := 0 }) h _
    · exact h
  simp only at e
  generalize (if d.state = .mfEst then newstate { d with retrans := 0 } .timerRecov else d) = d1 at e h1
  split at e
  · obtain ⟨s, _, e⟩ := Option.map_eq_some_iff.1 e
    subst e
    cases s with
    | some s => exact h1
    | none =>
      simp only
      split
      · exact h1
      · split <;> exact h1
  · cases e
    split
    · exact estReq_only (d := mdlError _ _) h1
    · exact h1

/-- **T203 runs only in MF_EST**, whatever frame is received, message sent or timer expired -/
theorem lapd_t203_only {d d' : DL} (h : d.t203 = true → d.state = .mfEst)
    (he : (∃ f, rx d f = some d') ∨ (∃ m, dataReq d m = some d') ∨ t200Cb d = some d' ∨ t203Cb d = d' ∨ estReq d = d') :
    d'.t203 = true → d'.state = .mfEst := by
  change Only d'
  rcases he with ⟨f, e⟩ | ⟨m, e⟩ | e | e | e
  · unfold rx at e
    split at e
    · exact rxI_only h e
    · cases e
      split
      · exact rxSabm_only f h
      · exact h
    · split at e
      · cases e; exact h
      · exact rxUa_only h e
    · exact rxS_only h e
  · unfold dataReq at e
    split at e
    · cases e; exact h
    · obtain ⟨rc, e⟩ := map_fst e
      exact doSendI_only (d := { d with sendQueue := d.sendQueue ++ [m] }) h e
  · unfold t200Cb at e
    split at e
    · cases e; exact h
    · split at e
      · exact t200Est_only (d := { d with t200 := false }) h e
      · cases e; exact h
  · subst e
    unfold t203Cb
    split
    · exact h
    · simp only
      split
      · intro h'; cases h'
      · exact newstate_only (d := { d with t203 := false, retrans := 0 }) (fun h' => by cases h') .timerRecov
  · subst e; exact estReq_only h

theorem watched_of {a b : DL} (h : Watched a) (h1 : b.cfg = a.cfg) (h2 : b.state = a.state) (h3 : b.t200 = a.t200) (h4 : b.t203 = a.t203) :
    Watched b := by
  unfold Watched
  rw [h1, h2, h3, h4]; exact h

theorem acknowledge_misc (d : DL) (e : Nat) (tx : List Frame) (mdl : List Nat) (rej : Bool) (n : Nat) :
    acknowledge { d with seqErr := e, tx := tx, mdl := mdl } rej n =
      (acknowledge d rej n).map fun p => ({ p.1 with seqErr := e, tx := tx, mdl := mdl }, p.2) := by
  unfold acknowledge ackReset
  simp only
  cases ackLoop d.cfg rounds d.vAck n d.hist with
  | none => rfl
  | some hist =>
    simp only [Option.bind_some]
    split
    · rfl
    · rw [Option.map_map]; rfl

/-- N(R) is one of those expected -/
def Valid (d : DL) (n : Nat) : Prop := ∀ d1 ok, acknowledge d false n = some (d1, ok) → ok = true

theorem Valid.misc {d d1 : DL} {e n : Nat} {tx : List Frame} {mdl : List Nat} {ok : Bool} (hv : Valid d n)
    (h : acknowledge { d with seqErr := e, tx := tx, mdl := mdl } false n = some (d1, ok)) : ok = true := by
  rw [acknowledge_misc] at h
  obtain ⟨⟨d2, ok2⟩, e1, e2⟩ := Option.map_eq_some_iff.1 h
  cases e2
  exact hv _ _ e1

theorem rxRr_watched {d d' : DL} {f : Frame} (hv : ∀ d1 ok, acknowledge d false f.nr = some (d1, ok) → ok = true) (h : rxRr d f = some d') :
    Watched d' := by
  unfold rxRr at h
  obtain ⟨⟨d1, ok⟩, h1, h⟩ := Option.bind_eq_some_iff.1 h
  have hok := hv _ _ h1
  subst hok
  have hw := acknowledge_watched h1
  obtain ⟨rc, h⟩ := map_fst h
  refine doSendI_watched ?_ h
  by_cases hx : f.cmd = true ∧ f.pf = true
  · rw [if_pos hx]
    obtain ⟨a, b, c, e⟩ := answer_same d1
    exact watched_of hw e a c b
  · rw [if_neg hx]
    by_cases hy : (!f.cmd) = true ∧ f.pf = true ∧ d1.state = .timerRecov
    · rw [if_pos hy]
      refine newstate_watched (fun _ e => ?_) _
      have : d1.state = .mfEst := e
      rw [hy.2.2] at this
      cases this
    · rw [if_neg hy]
      exact hw

theorem rxIErr_watched {d d' : DL} {f : Frame} (hv : Valid d f.nr) (h : rxIErr d f = some d') : Watched d' := by
  unfold rxIErr at h
  obtain ⟨⟨d1, ok⟩, h1, h⟩ := Option.bind_eq_some_iff.1 h
  have hok : ok = true := by
    split at h1
    · exact hv.misc (e := 1) (mdl := d.mdl) h1
    · exact hv.misc (e := 2) (tx := d.tx) (mdl := d.mdl) h1
  subst hok
  obtain ⟨rc, h⟩ := map_fst h
  exact doSendI_watched (acknowledge_watched h1) h

theorem rxISeq_watched {d d' : DL} {f : Frame} (hv : Valid d f.nr) (h : rxISeq d f = some d') : Watched d' := by
  unfold rxISeq at h
  obtain ⟨⟨d1, ok⟩, h1, h⟩ := Option.bind_eq_some_iff.1 h
  have hok : ok = true := by
    rw [acknowledge_recv] at h1
    obtain ⟨⟨d2, ok2⟩, e1, e2⟩ := Option.map_eq_some_iff.1 h1
    cases e2
    exact hv _ _ e1
  subst hok
  have hw := acknowledge_watched h1
  simp only [if_true] at h
  have h3 : Watched (if d1.ownBusy = true then d1 else { d1 with up := (deliver d1.cfg.maxf (d1.up, d1.rcvBuf) (f.data, f.more)).1, rcvBuf := (deliver d1.cfg.maxf (d1.up, d1.rcvBuf) (f.data, f.more)).2 }) := by
    split <;> exact hw
  generalize (if d1.ownBusy = true then d1 else { d1 with up := (deliver d1.cfg.maxf (d1.up, d1.rcvBuf) (f.data, f.more)).1, rcvBuf := (deliver d1.cfg.maxf (d1.up, d1.rcvBuf) (f.data, f.more)).2 }) = d2 at h h3
  split at h
  · obtain ⟨rc, h⟩ := map_fst h
    exact doSendI_watched (d := sendS _ _ _ _) h3 h
  split at h
  · obtain ⟨rc, h⟩ := map_fst h
    exact doSendI_watched (d := sendS _ _ _ _) h3 h
  · obtain ⟨⟨d4, sent⟩, e2, h⟩ := Option.map_eq_some_iff.1 h
    have h4 := doSendI_watched h3 e2
    simp only at h
    split at h
    · cases h; exact h4
    · cases h; exact h4

/-- **An idle link is supervised**: after a RR or I frame with a valid N(R), a link in MF_EST has T200 running, or T203 if that is enabled -/
theorem lapd_watched {d d' : DL} {f : Frame} (hs : Est d)
    (hv : ∀ d1 ok, acknowledge d false f.nr = some (d1, ok) → ok = true)
    (hk : (f.kind = .rr ∧ f.data = [] ∧ f.more = false) ∨ (∃ ns, f.kind = .i ns ∧ IOk d.cfg.n201 f)) (h : rx d f = some d') :
    d'.cfg.t203 = true → d'.state = .mfEst → d'.t200 = true ∨ d'.t203 = true := by
  change Watched d'
  have hst : ¬ (d.state ≠ .mfEst ∧ d.state ≠ .timerRecov) := by
    rintro ⟨a, b⟩; rcases hs with e | e; exact a e; exact b e
  rcases hk with ⟨hk, hd, hm⟩ | ⟨ns, hk, o1, o2, o3, o4⟩
  · unfold rx at h
    simp only [hk] at h
    unfold rxS at h
    rw [if_neg (by simp [hd, hm])] at h
    simp only [hk] at h
    by_cases hx : (!f.cmd) = true ∧ f.pf = true ∧ d.state ≠ .timerRecov
    · rw [if_pos hx, if_neg (c := (mdlError d 6).state ≠ .mfEst ∧ (mdlError d 6).state ≠ .timerRecov) hst] at h
      exact rxRr_watched (fun d1 ok e => Valid.misc (d := d) (e := d.seqErr) (tx := d.tx) hv e) h
    · rw [if_neg hx, if_neg hst] at h
      exact rxRr_watched hv h
  · unfold rx at h
    simp only [hk] at h
    unfold rxI at h
    rw [if_neg (by simp [o1]), if_neg (by omega), if_neg (by rintro ⟨a, b⟩; have := o4 a; omega), if_neg hst] at h
    split at h
    · exact rxIErr_watched hv h
    · exact rxISeq_watched hv h

/-- **and when it is established**, by a SABM that was asked for or by one received -/
theorem lapd_watched_start (d : DL) (f : Frame) :
    (∀ d', f.kind = .ua → f.cmd = false → f.pf = true → d.state = .sabmSent → rx d f = some d' →
      d'.cfg.t203 = true → d'.state = .mfEst → d'.t200 = true ∨ d'.t203 = true) ∧
    (f.kind = .sabm → f.cmd = true → (d.state = .idle ∨ d.state = .timerRecov) →
      ∃ d', rx d f = some d' ∧ d'.state = .mfEst ∧ (d.cfg.t203 = true → d'.t203 = true)) := by
  refine ⟨fun d' hk hc hp hs h => ?_, fun hk hc hs => ?_⟩
  · change Watched d'
    unfold rx at h
    simp only [hk, hc, Bool.false_eq_true, if_false] at h
    unfold rxUa at h
    simp only [hp, hs, Bool.not_true, Bool.false_eq_true, if_false] at h
    obtain ⟨rc, h⟩ := map_fst h
    refine doSendI_watched (newstate_watched (fun _ e => ?_) _) h
    simp only at e
    first
      | (rw [hs] at e; cases e)
      | cases e
  · unfold rx
    simp only [hk, hc, if_true]
    refine ⟨_, rfl, ?_⟩
    unfold rxSabm
    rcases hs with hs | hs
    · simp only [hs]
      rw [(newstate_timers _ _).1, (newstate_timers _ _).2.2.2]
      refine ⟨rfl, fun h => ?_⟩
      simp [h, hs]
    · simp only [hs]
      rw [(newstate_timers _ _).1, (newstate_timers _ _).2.2.2]
      refine ⟨rfl, fun h => ?_⟩
      simp [h, hs]

/-- **Not so after a REJ frame** (src/isdn/lapd_core.c:826-835, 1476-1514): if it is the first to acknowledge the last frames, T200 is stopped
after it was decided not to start T203, and neither watches the link from then on -/
theorem lapd_watched_counterexample :
    (start 100 [atA (.data [1]), atA (.data [2]), atA (.data [3]), atB (.lose 0), atB .recv, atB .recv, atA .recv, atA .recv,
      atB .recv, atB .recv, atB .recv, atB .recv, atA (.lose 0), atA (.lose 0), atA (.lose 0), atA .recv]).any
      (fun s => s.b.up = [[1], [2], [3]] ∧ s.a.cfg.t203 = true ∧ s.a.state = .mfEst ∧ s.a.t200 = false ∧ s.a.t203 = false) = true := by decide +kernel

/-- T203 runs in a link just established, and T200 in place of it once something is sent, until that is acknowledged -/
example : (start 100 []).any (fun s => s.a.t203 ∧ s.b.t203 ∧ !s.a.t200) = true ∧
    (start 100 [atA (.data [1])]).any (fun s => !s.a.t203 ∧ s.a.t200) = true ∧
    (start 100 [atA (.data [1]), atB .recv, atA .recv]).any (fun s => s.a.t203 ∧ !s.a.t200) = true := by decide +kernel

end Verif.Lapd
