import Verif.Lapd.Send
/-!
The invariant and the receiving of frames, and the timers.
-/
namespace Verif.Lapd
open Verif

variable {E : Env} {d : DL} {g : G}

/-- in timer recovery, T200 runs, or has run as often as it may -/
def Tr (d : DL) : Prop := d.state = .timerRecov → d.t200 = true ∨ d.cfg.n200 < d.retrans

/-- the outcome of an event at a side: the numbers acknowledged and received, and more segments perhaps -/
def Good (E : Env) (d : DL) (g : G) (va vr : Nat) (d' : DL) : Prop :=
  ∃ g', L E d' g' ∧ Idle d' g' ∧ Tr d' ∧ g'.va = va ∧ g'.vr = vr ∧ g.segs <+: g'.segs ∧ d'.cfg = d.cfg

theorem finish (h : L E d g) (hv : E.vaB ≤ g.vr) (hr : Ready d g) (ht : Tr d) :
    ∃ d' sent, doSendI d = some (d', sent) ∧ Good E d g g.va g.vr d' := by
  have h256 := h.cfg.le256
  have hk := h.k_lt
  have hR := h.R_le
  have hw := h.win
  obtain ⟨d', g', rc, e1, e2, e3, e4, e5, e6, e7, e8⟩ := sendI_spec hv rounds d g false h rfl rfl (List.prefix_refl _) hr
    (by unfold rounds; omega) (by decide)
  refine ⟨d', rc, e1, g', e2, e6, fun hs => ?_, e4, e3, e5, e7.cfg⟩
  rw [e7.state] at hs
  rw [e8 hs]
  exact ht hs

theorem L.noBusy (h : L E d g) : L E { d with peerBusy := false } g :=
  ⟨h.cfg, h.est, h.own, rfl, h.vAck, h.vSend, h.vRecv, h.win, h.hlen, h.occ, h.free, h.seg, h.env, h.tx, h.fok, h.ord, h.rcv⟩

theorem newstate_eq (d : DL) (s : State) : ∃ t, newstate d s = { d with t203 := t, state := s } := by
  unfold newstate
  simp only
  split <;> split <;> exact ⟨_, rfl⟩

/-- the answer to a poll keeps the invariant -/
theorem L.answer (h : L E d g) (hv : E.vaB ≤ g.vr) : ∃ fs tx, L E (answer d) { g with fs := fs } ∧ answer d = { d with tx := tx } := by
  unfold Verif.Lapd.answer
  by_cases hs : (!d.ownBusy) = true ∧ d.seqErr = 0
  · rw [if_pos hs]
    obtain ⟨fs, h'⟩ := h.pushS hv .rr (by simp) true false
    exact ⟨fs, _, h', rfl⟩
  · rw [if_neg hs, if_neg (by rw [h.own]; decide)]
    exact ⟨g.fs, d.tx, h, rfl⟩

theorem rxRr_spec (h : L E d g) (hi : Idle d g) (ht : Tr d) (hv : E.vaB ≤ g.vr) (f : Frame) {n : Nat} (hn : f.nr = n % d.cfg.vRange)
    (h1 : g.va ≤ n) (h2 : n ≤ E.vrB) : ∃ d', rxRr d f = some d' ∧ Good E d g n g.vr d' := by
  obtain ⟨hist, t200, t203, e1, e2, e3, e4⟩ := acknowledge_spec h (fun hs => (hi hs).1) false h1 h2
  unfold rxRr
  rw [hn, e1, Option.bind_some]
  simp only
  have hT : Tr { d with hist := hist, vAck := n % d.cfg.vRange, t200 := t200, t203 := t203 } := fun hs => by
    simp only at hs ⊢
    rw [e3 hs]; exact ht hs
  have hw := e2.win
  have hR : Ready { d with hist := hist, vAck := n % d.cfg.vRange, t200 := t200, t203 := t203 } { g with va := n } := fun hs =>
    ⟨by simp only; rw [(hi hs).1]; exact hw.1, fun hlt => .inl (e4 hs rfl (hi hs).2.1 hlt)⟩
  by_cases hc : f.cmd = true ∧ f.pf = true
  · rw [if_pos hc]
    obtain ⟨fs, tx, a1, a2⟩ := e2.answer hv
    rw [a2] at a1 ⊢
    obtain ⟨d', sent, b1, b2⟩ := finish a1 hv hR hT
    exact ⟨d', by rw [b1]; rfl, b2⟩
  · rw [if_neg hc]
    by_cases hr : (!f.cmd) = true ∧ f.pf = true ∧ d.state = .timerRecov
    · rw [if_pos hr]
      obtain ⟨t, hns⟩ := newstate_eq { d with hist := hist, vAck := n % d.cfg.vRange, t203 := t203, vSend := n % d.cfg.vRange, t200 := false } .mfEst
      rw [hns]
      have hL := ((e2.setSend n ⟨hw.1, hw.2.1⟩).state .mfEst (.inl rfl)).misc d.seqErr false t d.retrans d.mdl
      obtain ⟨d', sent, b1, b2⟩ := finish hL hv (fun _ => ⟨Nat.le_refl _, fun hlt => .inr hlt⟩) (fun hs => by cases hs)
      exact ⟨d', by rw [b1]; rfl, b2⟩
    · rw [if_neg hr]
      obtain ⟨d', sent, b1, b2⟩ := finish e2 hv hR hT
      exact ⟨d', by rw [b1]; rfl, b2⟩

/-- after a REJ frame -/
abbrev rejd (d : DL) (hist : List (Option Seg)) (n : Nat) (t200 t203 : Bool) (tx : List Frame) : DL :=
  { d with hist := hist, vAck := n, vSend := n, peerBusy := false, t200 := t200, t203 := t203, tx := tx }

theorem rxRej_spec (h : L E d g) (hi : Idle d g) (ht : Tr d) (hv : E.vaB ≤ g.vr) (f : Frame) {n : Nat} (hn : f.nr = n % d.cfg.vRange)
    (h1 : g.va ≤ n) (h2 : n ≤ E.vrB) : ∃ d', rxRej d f = some d' ∧ Good E d g n g.vr d' := by
  obtain ⟨hist, t200, t203, e1, e2, e3, -⟩ := acknowledge_spec h (fun hs => (hi hs).1) true h1 h2
  unfold rxRej
  rw [hn, e1, Option.bind_some]
  simp only
  have hw := e2.win
  have hL : ∀ t200, L E (rejd d hist (n % d.cfg.vRange) t200 t203 d.tx) { g with va := n, vs := n } := fun t200 =>
    (((e2.setSend n ⟨hw.1, hw.2.1⟩).noBusy).misc d.seqErr t200 t203 d.retrans d.mdl)
  have hR : ∀ (d' : DL) (fs : List GFrame), Ready d' { g with va := n, vs := n, fs := fs } := fun d' fs _ =>
    ⟨Nat.le_refl _, fun hlt => .inr hlt⟩
  by_cases hs : d.state = .timerRecov
  · simp only [hs, not_true_eq_false, if_false]
    have hT : t200 = true ∨ d.cfg.n200 < d.retrans := by rw [e3 hs]; exact ht hs
    rw [← hs]
    by_cases hr : (!f.cmd) = true ∧ f.pf = true
    · rw [if_pos hr]
      obtain ⟨t, hns⟩ := newstate_eq (rejd d hist (n % d.cfg.vRange) false t203 d.tx) .mfEst
      rw [hns]
      obtain ⟨d', sent, b1, b2⟩ := finish (((hL false).state .mfEst (.inl rfl)).misc d.seqErr false t d.retrans d.mdl) hv (hR _ _)
        (fun hs => by cases hs)
      exact ⟨d', by rw [b1]; rfl, b2⟩
    · rw [if_neg hr]
      by_cases hc : f.cmd = true ∧ f.pf = true
      · rw [if_pos hc]
        obtain ⟨fs, tx, a1, a2⟩ := (hL t200).answer hv
        rw [a2] at a1 ⊢
        obtain ⟨d', sent, b1, b2⟩ := finish a1 hv (hR _ _) (fun _ => hT)
        exact ⟨d', by rw [b1]; rfl, b2⟩
      · rw [if_neg hc]
        obtain ⟨d', sent, b1, b2⟩ := finish (hL t200) hv (hR _ _) (fun _ => hT)
        exact ⟨d', by rw [b1]; rfl, b2⟩
  · simp only [hs, not_false_eq_true, if_true]
    have hT : ∀ (tx : List Frame) (mdl : List Nat), Tr { rejd d hist (n % d.cfg.vRange) false t203 tx with mdl := mdl } :=
      fun _ _ h' => absurd h' hs
    have hA : ∃ fs tx, L E (rejd d hist (n % d.cfg.vRange) false t203 tx) { g with va := n, vs := n, fs := fs } ∧
        (if f.cmd = true ∧ f.pf = true then answer (rejd d hist (n % d.cfg.vRange) false t203 d.tx)
          else rejd d hist (n % d.cfg.vRange) false t203 d.tx) = rejd d hist (n % d.cfg.vRange) false t203 tx := by
      by_cases hc : f.cmd = true ∧ f.pf = true
      · rw [if_pos hc]
        obtain ⟨fs, tx, a1, a2⟩ := (hL false).answer hv
        rw [a2] at a1
        exact ⟨fs, tx, a1, a2⟩
      · rw [if_neg hc]
        exact ⟨g.fs, d.tx, hL false, rfl⟩
    obtain ⟨fs, tx, a1, a2⟩ := hA
    rw [a2]
    by_cases hr : (!f.cmd) = true ∧ f.pf = true
    · rw [if_pos hr]
      unfold mdlError
      obtain ⟨d', sent, b1, b2⟩ := finish (a1.misc d.seqErr false t203 d.retrans (d.mdl ++ [6])) hv (hR _ _) (hT _ _)
      exact ⟨d', by rw [b1]; rfl, b2⟩
    · rw [if_neg hr]
      obtain ⟨d', sent, b1, b2⟩ := finish a1 hv (hR _ _) (hT _ _)
      exact ⟨d', by rw [b1]; rfl, b2⟩

/-- a supervisory frame of the peer -/
theorem rxS_spec (h : L E d g) (hi : Idle d g) (ht : Tr d) (hv : E.vaB ≤ g.vr) (f : GFrame) (hk : ∀ ns m, f.kind ≠ .i ns m)
    (hd : f.data = [] ∧ f.more = false) (h1 : g.va ≤ f.nr) (h2 : f.nr ≤ E.vrB) :
    ∃ d', rxS d (f.erase d.cfg.vRange) = some d' ∧ Good E d g f.nr g.vr d' := by
  unfold rxS
  rw [if_neg (by simp [GFrame.erase, hd.1, hd.2])]
  simp only
  have key : ∀ mdl, ∃ d', (match (f.erase d.cfg.vRange).kind with
      | .rr => rxRr { d with mdl := mdl } (f.erase d.cfg.vRange)
      | .rnr => rxRnr { d with mdl := mdl } (f.erase d.cfg.vRange)
      | .rej => rxRej { d with mdl := mdl } (f.erase d.cfg.vRange)
      | _ => some (mdlError { d with mdl := mdl } 12)) = some d' ∧ Good E d g f.nr g.vr d' := by
    intro mdl
    have hL := h.misc d.seqErr d.t200 d.t203 d.retrans mdl
    cases hkk : f.kind with
    | i ns m => exact absurd hkk (hk ns m)
    | rr => simp only [GFrame.erase, hkk, GKind.erase]; exact rxRr_spec hL hi ht hv _ rfl h1 h2
    | rej => simp only [GFrame.erase, hkk, GKind.erase]; exact rxRej_spec hL hi ht hv _ rfl h1 h2
  have hest := h.est
  by_cases hm : (!(f.erase d.cfg.vRange).cmd) = true ∧ (f.erase d.cfg.vRange).pf = true ∧ d.state ≠ .timerRecov
  · rw [if_pos hm, if_neg (by rcases hest with e | e <;> simp [mdlError, e])]
    exact key (d.mdl ++ [6])
  · rw [if_neg hm, if_neg (by rcases hest with e | e <;> simp [e])]
    exact key d.mdl

end Verif.Lapd
