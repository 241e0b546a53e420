import Verif.Lapd.Rx
/-!
The invariant and every event at one side.
-/
namespace Verif.Lapd
open Verif

variable {E : Env} {d : DL} {g : G}

/-- a segment is received in sequence -/
theorem L.recv (h : L E d g) {s : Seg} (hs : E.segsB[g.vr]? = some s) (seqErr : Nat) :
    L E { d with
      seqErr := seqErr
      vRecv := (g.vr + 1) % d.cfg.vRange
      up := (deliver d.cfg.maxf (d.up, d.rcvBuf) s).1
      rcvBuf := (deliver d.cfg.maxf (d.up, d.rcvBuf) s).2 } { g with vr := g.vr + 1 } := by
  refine ⟨h.cfg, h.est, h.own, h.peer, h.vAck, h.vSend, rfl, h.win, h.hlen, h.occ, h.free, h.seg, h.env, h.tx, ?_, h.ord, ?_⟩
  · intro f hf
    have := (h.fok f hf).nr
    exact ⟨⟨this.1, by simp only; omega⟩, (h.fok f hf).i, (h.fok f hf).s⟩
  · have hlt := (List.getElem?_eq_some_iff.1 hs).1
    refine ⟨hlt, ?_⟩
    simp only
    rw [List.take_add_one, hs, Option.toList_some, List.foldl_append, h.rcv.2]
    rfl

/-- acknowledging does not look at V(R) -/
theorem acknowledge_recv (d : DL) (e v : Nat) (rej : Bool) (n : Nat) :
    acknowledge { d with seqErr := e, vRecv := v } rej n =
      (acknowledge d rej n).map fun p => ({ p.1 with seqErr := e, vRecv := v }, p.2) := by
  unfold acknowledge ackReset
  simp only
  cases ackLoop d.cfg rounds d.vAck n d.hist with
  | none => rfl
  | some hist =>
    simp only [Option.bind_some]
    split
    · rfl
    · rw [Option.map_map]; rfl

theorem rxIErr_spec (h : L E d g) (hi : Idle d g) (ht : Tr d) (hv : E.vaB ≤ g.vr) (f : Frame) {n : Nat} (hn : f.nr = n % d.cfg.vRange)
    (h1 : g.va ≤ n) (h2 : n ≤ E.vrB) : ∃ d', rxIErr d f = some d' ∧ Good E d g n g.vr d' := by
  have hA : ∃ e tx fs, (if d.seqErr ≠ 1 ∨ (!d.cfg.drop2nd) = true then sendS { d with seqErr := 1 } .rej f.pf false else { d with seqErr := 2 }) =
      { d with seqErr := e, tx := tx } ∧ L E { d with seqErr := e, tx := tx } { g with fs := fs } := by
    by_cases hs : d.seqErr ≠ 1 ∨ (!d.cfg.drop2nd) = true
    · rw [if_pos hs]
      obtain ⟨fs, h'⟩ := (h.misc 1 d.t200 d.t203 d.retrans d.mdl).pushS hv .rej (by simp) f.pf false
      exact ⟨1, _, fs, rfl, h'⟩
    · rw [if_neg hs]
      exact ⟨2, d.tx, g.fs, rfl, h.misc 2 d.t200 d.t203 d.retrans d.mdl⟩
  obtain ⟨e, tx, fs, a1, a2⟩ := hA
  obtain ⟨hist, t200, t203, e1, e2, e3, e4⟩ := acknowledge_spec a2 (fun hs => (hi hs).1) false h1 h2
  unfold rxIErr
  simp only
  rw [a1, hn, e1, Option.bind_some]
  simp only [if_true]
  have hw := e2.win
  obtain ⟨d', sent, b1, b2⟩ := finish e2 hv
    (fun hs => ⟨by simp only; rw [(hi hs).1]; exact hw.1, fun hlt => .inl (e4 hs rfl (hi hs).2.1 hlt)⟩)
    (fun hs => by simp only at hs ⊢; rw [e3 hs]; exact ht hs)
  exact ⟨d', by rw [b1]; rfl, b2⟩

theorem rxISeq_spec (h : L E d g) (hi : Idle d g) (ht : Tr d) (hv : E.vaB ≤ g.vr) (f : Frame) {n : Nat} (hn : f.nr = n % d.cfg.vRange)
    (h1 : g.va ≤ n) (h2 : n ≤ E.vrB) (hs : E.segsB[g.vr]? = some (f.data, f.more)) :
    ∃ d', rxISeq d f = some d' ∧ Good E d g n (g.vr + 1) d' := by
  obtain ⟨hist, t200, t203, e1, e2, e3, e4⟩ := acknowledge_spec h (fun hs => (hi hs).1) false h1 h2
  have hw := e2.win
  have hL := e2.recv hs 0
  unfold rxISeq
  simp only
  rw [acknowledge_recv, hn, e1, Option.map_some, Option.bind_some]
  simp only [h.own, if_true, Bool.false_eq_true, if_false]
  rw [h.vRecv, incMod_mod h.cfg]
  have hv' : E.vaB ≤ g.vr + 1 := by omega
  have hR : ∀ fs (d' : DL), d'.state = d.state → d'.t200 = t200 → Ready d' { g with va := n, vr := g.vr + 1, fs := fs } := fun fs d' es et hs => by
    rw [es] at hs
    exact ⟨by simp only; rw [(hi hs).1]; exact hw.1, fun hlt => .inl (et.trans (e4 hs rfl (hi hs).2.1 hlt))⟩
  have hT : ∀ d' : DL, d'.state = d.state → d'.t200 = t200 → d'.cfg = d.cfg → d'.retrans = d.retrans → Tr d' := fun d' es et ec er hs => by
    rw [es] at hs
    rw [et, ec, er, e3 hs]
    exact ht hs
  rw [h.own] at hL
  by_cases hp : f.pf = true
  · rw [if_pos hp]
    obtain ⟨fs, h'⟩ := hL.pushS hv' .rr (by simp) true false
    obtain ⟨d', sent, b1, b2⟩ := finish h' hv' (hR _ _ rfl rfl) (hT _ rfl rfl rfl rfl)
    simp only [GKind.erase] at b1
    exact ⟨d', by rw [b1]; rfl, b2⟩
  · rw [if_neg hp]
    obtain ⟨d', sent, b1, b2⟩ := finish hL hv' (hR _ _ rfl rfl) (hT _ rfl rfl rfl rfl)
    rw [b1, Option.map_some]
    simp only
    cases sent with
    | true => exact ⟨d', rfl, b2⟩
    | false =>
      obtain ⟨g', c1, c2, c3, c4, c5, c6, c7⟩ := b2
      obtain ⟨fs, h'⟩ := c1.pushS (by rw [c5]; exact hv') .rr (by simp) false false
      exact ⟨_, rfl, _, h', c2, c3, c4, c5, c6, c7⟩

/-- an I frame of the peer -/
theorem rxI_spec (h : L E d g) (hi : Idle d g) (ht : Tr d) (hv : E.vaB ≤ g.vr) (f : GFrame) {ns m : Nat} (hk : f.kind = .i ns m)
    (hc : f.cmd = true) (hok : SegOk d.cfg.n201 (f.data, f.more)) (h1 : g.va ≤ f.nr) (h2 : f.nr ≤ E.vrB)
    (hseg : E.segsB[ns]? = some (f.data, f.more)) (hnear : ns < g.vr + d.cfg.vRange ∧ g.vr < ns + d.cfg.vRange) :
    ∃ d', rx d (f.erase d.cfg.vRange) = some d' ∧
      ((ns ≠ g.vr ∧ Good E d g f.nr g.vr d') ∨ (ns = g.vr ∧ Good E d g f.nr (g.vr + 1) d')) := by
  have hpos := hok.pos
  have hle := hok.le
  have hfull := hok.full
  simp only at hpos hle hfull
  have e : rx d (f.erase d.cfg.vRange) = rxI d (ns % d.cfg.vRange) (f.erase d.cfg.vRange) := by
    unfold rx
    simp only [GFrame.erase, hk, GKind.erase]
  rw [e]
  unfold rxI
  have g1 : ¬ ((!(f.erase d.cfg.vRange).cmd) = true) := by simp [GFrame.erase, hc]
  have g2 : ¬ ((f.erase d.cfg.vRange).data.length = 0 ∨ (f.erase d.cfg.vRange).data.length > d.cfg.n201) := by
    simp only [GFrame.erase]; omega
  have g3 : ¬ ((f.erase d.cfg.vRange).more = true ∧ (f.erase d.cfg.vRange).data.length < d.cfg.n201) := by
    simp only [GFrame.erase]
    rintro ⟨a, b⟩
    have := hfull a
    omega
  have g4 : ¬ (d.state ≠ .mfEst ∧ d.state ≠ .timerRecov) := by
    rintro ⟨a, b⟩
    rcases h.est with e | e
    · exact a e
    · exact b e
  rw [if_neg g1, if_neg g2, if_neg g3, if_neg g4]
  by_cases hns : ns = g.vr
  · rw [if_neg (by rw [h.vRecv, hns]; simp)]
    obtain ⟨d', a, b⟩ := rxISeq_spec h hi ht hv (f.erase d.cfg.vRange) rfl h1 h2 (by rw [← hns]; exact hseg)
    exact ⟨d', a, .inr ⟨hns, b⟩⟩
  · rw [if_pos (by rw [h.vRecv]; exact fun e => hns (mod_near e hnear.1 hnear.2))]
    obtain ⟨d', a, b⟩ := rxIErr_spec h hi ht hv (f.erase d.cfg.vRange) rfl h1 h2
    exact ⟨d', a, .inl ⟨hns, b⟩⟩

/-- a message is to be sent -/
theorem dataReq_spec (h : L E d g) (hi : Idle d g) (ht : Tr d) (hv : E.vaB ≤ g.vr) (m : List Byte) :
    ∃ d', dataReq d m = some d' ∧ Good { E with req := if m = [] then E.req else E.req ++ [m] } d g g.va g.vr d' := by
  unfold dataReq
  by_cases hm : m = []
  · subst hm
    simp only [List.length_nil, if_true]
    exact ⟨d, rfl, g, h, hi, ht, rfl, rfl, List.prefix_refl _, rfl⟩
  · rw [if_neg (fun e => hm (List.length_eq_zero_iff.1 e)), if_neg hm]
    have hL : L { E with req := E.req ++ [m] } { d with sendQueue := d.sendQueue ++ [m] } g := by
      refine ⟨h.cfg, h.est, h.own, h.peer, h.vAck, h.vSend, h.vRecv, h.win, h.hlen, h.occ, h.free, ?_, h.env, h.tx, ?_, h.ord, h.rcv⟩
      · simp only [List.flatMap_append, h.seg, rest, List.flatMap_cons, List.flatMap_nil, List.append_nil, List.append_assoc]
      · intro f hf
        exact ⟨(h.fok f hf).nr, (h.fok f hf).i, (h.fok f hf).s⟩
    obtain ⟨d', sent, b1, b2⟩ := finish hL hv (fun hs => ⟨by rw [(hi hs).1]; exact h.win.1, fun hlt => .inl ((hi hs).2.1 hlt)⟩) ht
    exact ⟨d', by rw [b1]; rfl, b2⟩

/-- T200 expires -/
theorem t200_spec (h : L E d g) (hi : Idle d g) (ht : Tr d) (hv : E.vaB ≤ g.vr) :
    ∃ d', t200Cb d = some d' ∧ (Good E d g g.va g.vr d' ∨ d'.state = .sabmSent) := by
  unfold t200Cb
  by_cases h0 : (!d.t200) = true
  · rw [if_pos h0]
    exact ⟨d, rfl, .inl ⟨g, h, hi, ht, rfl, rfl, List.prefix_refl _, rfl⟩⟩
  · rw [if_neg h0, if_pos (show d.state = .mfEst ∨ d.state = .timerRecov from h.est)]
    have hd1 : ∃ t r, (if d.state = .mfEst then newstate { d with t200 := false, retrans := 0 } .timerRecov else { d with t200 := false }) =
        { d with t200 := false, t203 := t, retrans := r, state := .timerRecov } := by
      by_cases hs : d.state = .mfEst
      · rw [if_pos hs]
        obtain ⟨t, e⟩ := newstate_eq { d with t200 := false, retrans := 0 } .timerRecov
        rw [e]
        exact ⟨t, 0, rfl⟩
      · rw [if_neg hs]
        have hs' : d.state = .timerRecov := h.est.resolve_left hs
        exact ⟨d.t203, d.retrans, by rw [← hs']⟩
    obtain ⟨t, r, e1⟩ := hd1
    have hL := (h.state .timerRecov (.inr rfl)).misc d.seqErr false t ((r + 1) % 256) d.mdl
    unfold t200Est
    simp only [e1]
    by_cases hr : (r + 1) % 256 ≤ d.cfg.n200
    · rw [if_pos hr]
      have hw := h.win
      have hk := h.k_lt
      have hplace : doMod (subMod d.vSend 1 d.cfg.vRange) d.cfg.rangeHist < d.cfg.rangeHist := by
        rw [doMod_hist h.cfg]; exact Nat.mod_lt _ h.R_pos
      have hs1 : (subMod d.vSend 1 d.cfg.vRange + 1) % d.cfg.vRange = g.vs % d.cfg.vRange := by
        rw [h.vSend]; exact subMod_one h.cfg h.cfg.range (Nat.dvd_refl _) g.vs
      rw [List.getElem?_eq_getElem (by rw [h.hlen]; exact hplace), Option.map_some]
      cases hslot : d.hist[doMod (subMod d.vSend 1 d.cfg.vRange) d.cfg.rangeHist]'(by rw [h.hlen]; exact hplace) with
      | none =>
        simp only
        by_cases hq : (!d.ownBusy) = true ∧ d.seqErr = 0
        · rw [if_pos hq]
          obtain ⟨fs, h'⟩ := hL.pushS hv .rr (by simp) true true
          exact ⟨_, rfl, .inl ⟨_, h'.misc d.seqErr true t ((r + 1) % 256) d.mdl, (fun e => by cases e), (fun _ => .inl rfl), rfl, rfl,
            List.prefix_refl _, rfl⟩⟩
        · rw [if_neg hq, if_neg (by rw [h.own]; decide)]
          exact ⟨_, rfl, .inl ⟨_, hL.misc d.seqErr true t ((r + 1) % 256) d.mdl, (fun e => by cases e), (fun _ => .inl rfl), rfl, rfl,
            List.prefix_refl _, rfl⟩⟩
      | some s =>
        simp only
        have hex : ∃ j, g.va ≤ j ∧ j < g.segs.length ∧ j % d.cfg.rangeHist = doMod (subMod d.vSend 1 d.cfg.vRange) d.cfg.rangeHist := by
          by_contra hno
          have := h.free _ hplace (fun j a b e => hno ⟨j, a, b, e⟩)
          rw [List.getElem?_eq_getElem (by rw [h.hlen]; exact hplace), hslot] at this
          cases this
        obtain ⟨j, j1, j2, j3⟩ := hex
        have hj : j + 1 = g.vs := by
          refine mod_near (R := d.cfg.rangeHist) ?_ (by omega) (by omega)
          rw [doMod_hist h.cfg] at j3
          rw [Nat.add_mod, j3, ← Nat.add_mod]
          rw [← Nat.mod_mod_of_dvd (subMod d.vSend 1 d.cfg.vRange + 1) h.cfg.dvd, hs1, Nat.mod_mod_of_dvd _ h.cfg.dvd]
        have hsub : subMod d.vSend 1 d.cfg.vRange = j % d.cfg.vRange := by
          have hlt : subMod d.vSend 1 d.cfg.vRange < d.cfg.vRange := by
            obtain ⟨e, hE⟩ := h.cfg.range
            rw [subMod, hE, Nat.and_two_pow_sub_one_eq_mod]
            exact Nat.mod_lt _ (Nat.two_pow_pos _)
          rw [← hj] at hs1
          have b : subMod d.vSend 1 d.cfg.vRange % d.cfg.vRange = j % d.cfg.vRange := Nat.ModEq.add_right_cancel' 1 hs1
          rwa [Nat.mod_eq_of_lt hlt] at b
        have hocc := h.occ j j1 j2
        rw [j3, List.getElem?_eq_getElem (by rw [h.hlen]; exact hplace), hslot] at hocc
        have hp := hL.push { cmd := true, kind := .i j g.segs.length, pf := true, nr := g.vr, data := s.1, more := s.2 }
          ⟨⟨hv, Nat.le_refl _⟩, (fun ns m e => by
            simp only [GKind.i.injEq] at e
            obtain ⟨rfl, rfl⟩ := e
            have he := h.env
            have : d.cfg.k = d.cfg.k := rfl
            exact ⟨rfl, (Option.some.inj hocc).symm, j2, by simp only; omega, he.2, Nat.le_refl _, by simp only; omega⟩),
            fun hk => absurd rfl (hk _ _)⟩ rfl
          (fun ns m e => by simp only [GKind.i.injEq] at e; exact e.2.symm)
        have hp' := hp.misc d.seqErr true t ((r + 1) % 256) d.mdl
        simp only [GFrame.erase, GKind.erase, ← hsub, ← h.vRecv] at hp'
        exact ⟨_, rfl, .inl ⟨_, hp', (fun e => by cases e), (fun _ => .inl rfl), rfl, rfl, List.prefix_refl _, rfl⟩⟩
    · rw [if_neg hr]
      unfold mdlError
      simp only
      by_cases hre : d.cfg.reestablish = true
      · rw [if_pos hre]
        refine ⟨_, rfl, .inr ?_⟩
        unfold estReq
        obtain ⟨t', e⟩ := newstate_eq { d with t200 := false, t203 := t, retrans := 0, state := .timerRecov, mdl := d.mdl ++ [1], sendQueue := [], sendBuffer := none, hist := (List.replicate d.hist.length none).set 0 (some ([], false)), rcvBuf := none, vSend := 0, ownBusy := false, peerBusy := false } .sabmSent
        simp only [e]
      · rw [if_neg hre]
        exact ⟨_, rfl, .inl ⟨g, hL.misc d.seqErr false t ((r + 1) % 256) (d.mdl ++ [1]), (fun e => by cases e), (fun _ => .inr (by simp only; omega)),
          rfl, rfl, List.prefix_refl _, rfl⟩⟩

/-- T203 expires -/
theorem t203_spec (h : L E d g) (hi : Idle d g) (ht : Tr d) (hv : E.vaB ≤ g.vr) : Good E d g g.va g.vr (t203Cb d) := by
  unfold t203Cb
  by_cases h0 : (!d.t203) = true
  · rw [if_pos h0]
    exact ⟨g, h, hi, ht, rfl, rfl, List.prefix_refl _, rfl⟩
  · rw [if_neg h0]
    simp only
    by_cases hs : d.state = .mfEst
    · rw [if_neg (by simpa using hs)]
      obtain ⟨t, e⟩ := newstate_eq { d with t203 := false, retrans := 0 } .timerRecov
      rw [e]
      simp only [h.own, Bool.false_eq_true, if_false]
      have hL := (h.state .timerRecov (.inr rfl)).misc d.seqErr d.t200 t 0 d.mdl
      obtain ⟨fs, h'⟩ := hL.pushS hv .rr (by simp) true true
      have h'' := h'.misc d.seqErr true t 0 d.mdl
      simp only [sendS, GKind.erase, h.own] at h'' ⊢
      exact ⟨_, h'', (fun e => by cases e), (fun _ => .inl rfl), rfl, rfl, List.prefix_refl _, rfl⟩
    · rw [if_pos hs]
      exact ⟨g, h.misc d.seqErr d.t200 false d.retrans d.mdl, (fun e => absurd e hs), ht, rfl, rfl, List.prefix_refl _, rfl⟩

end Verif.Lapd
