import Verif.Lapd.Findings
/-!
C111: the frames a LAPD side sends of its own, whatever the peer sends; src/isdn/lapd_core.c.
-/
namespace Verif.Lapd
open Verif

/-- frames are added to those sent; V(R) is kept -/
structure Sent (d d' : DL) (ext : List Frame) : Prop where
  tx : d'.tx = d.tx ++ ext
  vr : d'.vRecv = d.vRecv

theorem sendI_sent : ∀ (n : Nat) (d d' : DL) (rc rc' : Bool), sendI n d rc = some (d', rc') →
    ∃ ext, Sent d d' ext ∧ (∀ f ∈ ext, f.nr = d.vRecv ∧ f.cmd = true ∧ ∃ ns, f.kind = .i ns) ∧ (rc' = true → rc = true ∨ ext ≠ [])
  | 0, d, d', rc, rc', h => by cases h
  | n + 1, d, d', rc, rc', h => by
    have stay : ∀ d'' : DL, d''.tx = d.tx → d''.vRecv = d.vRecv → some (d'', rc) = some (d', rc') →
        ∃ ext, Sent d d' ext ∧ (∀ f ∈ ext, f.nr = d.vRecv ∧ f.cmd = true ∧ ∃ ns, f.kind = .i ns) ∧ (rc' = true → rc = true ∨ ext ≠ []) := by
      intro d'' h1 h2 e
      cases e
      exact ⟨[], ⟨by rw [h1, List.append_nil], h2⟩, by simp, .inl⟩
    have more : ∀ (d'' : DL) (s : Seg), d''.tx = d.tx → d''.vRecv = d.vRecv → sendI n (emitI d'' s) true = some (d', rc') →
        ∃ ext, Sent d d' ext ∧ (∀ f ∈ ext, f.nr = d.vRecv ∧ f.cmd = true ∧ ∃ ns, f.kind = .i ns) ∧ (rc' = true → rc = true ∨ ext ≠ []) := by
      intro d'' s h1 h2 e
      obtain ⟨ext, a, b, _⟩ := sendI_sent n _ _ _ _ e
      refine ⟨{ cmd := true, kind := .i d''.vSend, pf := false, nr := d''.vRecv, data := s.1, more := s.2 } :: ext, ⟨?_, ?_⟩, ?_, by simp⟩
      · rw [a.tx, emitI, h1]; simp
      · rw [a.vr, emitI]; exact h2
      · intro f hf
        rcases List.mem_cons.1 hf with rfl | hf
        · exact ⟨h2, rfl, _, rfl⟩
        · have := b f hf
          refine ⟨?_, this.2⟩
          rw [this.1, emitI]; exact h2
    rw [sendI] at h
    split at h
    · exact stay d rfl rfl h
    split at h
    · exact stay d rfl rfl h
    split at h
    · exact stay d rfl rfl h
    simp only at h
    split at h
    · cases h
    · exact more d _ rfl rfl h
    · split at h
      · refine stay _ ?_ ?_ h <;> rfl
      · refine more _ _ ?_ ?_ h <;> rfl

theorem doSendI_sent {d d' : DL} {rc : Bool} (h : doSendI d = some (d', rc)) :
    ∃ ext, Sent d d' ext ∧ (∀ f ∈ ext, f.nr = d.vRecv ∧ f.cmd = true ∧ ∃ ns, f.kind = .i ns) ∧ (rc = true → ext ≠ []) := by
  obtain ⟨ext, a, b, e⟩ := sendI_sent _ _ _ _ _ h
  exact ⟨ext, a, b, fun hr => (e hr).resolve_left (by decide)⟩

theorem acknowledge_sent {d d' : DL} {rej ok : Bool} {nr : Nat} (h : acknowledge d rej nr = some (d', ok)) :
    d'.tx = d.tx ∧ d'.vRecv = d.vRecv ∧ d'.state = d.state ∧ d'.seqErr = d.seqErr ∧ d'.ownBusy = d.ownBusy := by
  unfold acknowledge at h
  obtain ⟨hist, _, h⟩ := Option.bind_eq_some_iff.1 h
  split at h
  · cases h; exact ⟨rfl, rfl, rfl, rfl, rfl⟩
  · obtain ⟨_, _, h⟩ := Option.map_eq_some_iff.1 h
    cases h; exact ⟨rfl, rfl, rfl, rfl, rfl⟩

/-- **What is accepted is acknowledged**: if an I frame moves V(R) on, a frame with the new N(R) is sent at once -/
theorem lapd_acked {d d' : DL} {f : Frame} {ns : Nat} (hk : f.kind = .i ns) (h : rx d f = some d') (hne : d'.vRecv ≠ d.vRecv) :
    ∃ ext, d'.tx = d.tx ++ ext ∧ ∃ fr ∈ ext, fr.nr = d'.vRecv := by
  unfold rx at h
  simp only [hk] at h
  unfold rxI at h
  split at h
  · cases h; exact absurd rfl hne
  split at h
  · cases h; exact absurd rfl hne
  split at h
  · cases h; exact absurd rfl hne
  split at h
  · cases h; exact absurd rfl hne
  split at h
  · exfalso
    apply hne
    unfold rxIErr at h
    obtain ⟨⟨d1, ok⟩, h1, h⟩ := Option.bind_eq_some_iff.1 h
    obtain ⟨⟨d2, sent⟩, h2, h⟩ := Option.map_eq_some_iff.1 h
    cases h
    obtain ⟨ext, a, _⟩ := doSendI_sent h2
    rw [a.vr]
    have e1 := (acknowledge_sent h1).2.1
    have e2 : (if ok = true then d1 else mdlError d1 7).vRecv = d1.vRecv := by split <;> rfl
    rw [e2, e1]
    split <;> rfl
  · unfold rxISeq at h
    obtain ⟨⟨d1, ok⟩, h1, h⟩ := Option.bind_eq_some_iff.1 h
    obtain ⟨e1, e2, -⟩ := acknowledge_sent h1
    simp only at h e1 e2
    obtain ⟨d2, hd2⟩ : ∃ d2, d2 = (if ok = true then (if d1.ownBusy = true then d1 else { d1 with up := (deliver d1.cfg.maxf (d1.up, d1.rcvBuf) (f.data, f.more)).1, rcvBuf := (deliver d1.cfg.maxf (d1.up, d1.rcvBuf) (f.data, f.more)).2 }) else mdlError (if d1.ownBusy = true then d1 else { d1 with up := (deliver d1.cfg.maxf (d1.up, d1.rcvBuf) (f.data, f.more)).1, rcvBuf := (deliver d1.cfg.maxf (d1.up, d1.rcvBuf) (f.data, f.more)).2 }) 7) := ⟨_, rfl⟩
    rw [← hd2] at h
    have e3 : d2.tx = d.tx := by rw [hd2, ← e1]; split <;> split <;> rfl
    have key : ∀ (kind : Kind) (pf : Bool) (d3 : DL) (sent : Bool), doSendI (sendS d2 kind pf false) = some (d3, sent) →
        ∃ ext, d3.tx = d.tx ++ ext ∧ ∃ fr ∈ ext, fr.nr = d3.vRecv := by
      intro kind pf d3 sent h3
      obtain ⟨ext, a, _⟩ := doSendI_sent h3
      refine ⟨{ cmd := false, kind := kind, pf := pf, nr := d2.vRecv, data := [], more := false } :: ext, ?_, _, List.mem_cons_self, ?_⟩
      · rw [a.tx, sendS, e3]; simp
      · rw [a.vr]; rfl
    split at h
    · obtain ⟨⟨d3, sent⟩, h3, h⟩ := Option.map_eq_some_iff.1 h
      cases h
      exact key _ _ _ _ h3
    split at h
    · obtain ⟨⟨d3, sent⟩, h3, h⟩ := Option.map_eq_some_iff.1 h
      cases h
      exact key _ _ _ _ h3
    · obtain ⟨⟨d3, sent⟩, h3, h⟩ := Option.map_eq_some_iff.1 h
      simp only at h
      obtain ⟨ext, a, b, e⟩ := doSendI_sent h3
      cases sent with
      | true =>
        simp only [if_true] at h
        subst h
        refine ⟨ext, by rw [a.tx, e3], ?_⟩
        obtain ⟨fr, hfr⟩ := List.exists_mem_of_ne_nil _ (e rfl)
        exact ⟨fr, hfr, by rw [(b fr hfr).1, a.vr]⟩
      | false =>
        cases h
        refine ⟨ext ++ [{ cmd := false, kind := .rr, pf := false, nr := d3.vRecv, data := [], more := false }], ?_, _,
          List.mem_append_right _ (List.mem_singleton.2 rfl), rfl⟩
        simp only [Bool.false_eq_true, if_false, sendS]
        rw [a.tx, e3, List.append_assoc]

/-- a well-formed I frame: a command, with 1 to N201 octets, and exactly N201 of them where more follow -/
def IOk (n201 : Nat) (f : Frame) : Prop :=
  f.cmd = true ∧ 1 ≤ f.data.length ∧ f.data.length ≤ n201 ∧ (f.more = true → f.data.length = n201)

/-- **What is missing is asked for**: a well-formed I frame out of sequence is not delivered, and answered by a REJ frame with V(R), and the F
bit of its P bit; unless the second such REJ is to be dropped, and one was sent -/
theorem lapd_rejected {d d' : DL} {f : Frame} {ns : Nat} (hk : f.kind = .i ns) (hs : Est d) (hok : IOk d.cfg.n201 f) (hns : ns ≠ d.vRecv)
    (h2 : d.cfg.drop2nd = false ∨ d.seqErr ≠ 1) (h : rx d f = some d') :
    d'.vRecv = d.vRecv ∧ ∃ ext, d'.tx = d.tx ++ { cmd := false, kind := .rej, pf := f.pf, nr := d.vRecv, data := [], more := false } :: ext ∧
      ∀ fr ∈ ext, fr.nr = d.vRecv ∧ fr.cmd = true := by
  obtain ⟨o1, o2, o3, o4⟩ := hok
  unfold rx at h
  simp only [hk] at h
  unfold rxI at h
  rw [if_neg (by simp [o1]), if_neg (by omega), if_neg (by rintro ⟨a, b⟩; have := o4 a; omega),
    if_neg (by rintro ⟨a, b⟩; rcases hs with e | e; exact a e; exact b e), if_pos hns] at h
  unfold rxIErr at h
  rw [if_pos (by rcases h2 with e | e; exact .inr (by simp [e]); exact .inl e)] at h
  obtain ⟨⟨d1, ok⟩, h1, h⟩ := Option.bind_eq_some_iff.1 h
  obtain ⟨⟨d2, sent⟩, h2, h⟩ := Option.map_eq_some_iff.1 h
  cases h
  obtain ⟨ext, a, b, _⟩ := doSendI_sent h2
  obtain ⟨e1, e2, -⟩ := acknowledge_sent h1
  have e3 : (if ok = true then d1 else mdlError d1 7).vRecv = d.vRecv := by rw [← show d1.vRecv = d.vRecv from e2]; split <;> rfl
  have e4 : (if ok = true then d1 else mdlError d1 7).tx = d1.tx := by split <;> rfl
  refine ⟨a.vr.trans e3, ext, ?_, fun fr hfr => ⟨(b fr hfr).1.trans e3, (b fr hfr).2.1⟩⟩
  rw [a.tx, e4, e1, sendS]
  simp

/-- **Polls are answered**: a RR command with the P bit makes a side that misses nothing send a RR response with the F bit first of all -/
theorem lapd_poll {d d' : DL} {f : Frame} (hs : Est d) (hk : f.kind = .rr) (hf : f.cmd = true ∧ f.pf = true ∧ f.data = [] ∧ f.more = false)
    (ho : d.ownBusy = false) (he : d.seqErr = 0) (h : rx d f = some d') :
    ∃ ext, d'.tx = d.tx ++ { cmd := false, kind := .rr, pf := true, nr := d.vRecv, data := [], more := false } :: ext ∧
      ∀ fr ∈ ext, fr.nr = d.vRecv ∧ fr.cmd = true := by
  obtain ⟨f1, f2, f3, f4⟩ := hf
  unfold rx at h
  simp only [hk] at h
  unfold rxS at h
  rw [if_neg (by simp [f3, f4])] at h
  simp only [f1, Bool.not_true, Bool.false_eq_true, false_and, if_false] at h
  rw [if_neg (by rintro ⟨a, b⟩; rcases hs with e | e; exact a e; exact b e)] at h
  simp only [hk] at h
  unfold rxRr at h
  obtain ⟨⟨d1, ok⟩, h1, h⟩ := Option.bind_eq_some_iff.1 h
  simp only [f1, f2, and_self, if_true] at h
  obtain ⟨⟨d2, sent⟩, h2, h⟩ := Option.map_eq_some_iff.1 h
  cases h
  obtain ⟨e1, e2, e3, e4, e5⟩ := acknowledge_sent h1
  have e : answer d1 = sendS d1 .rr true false := by
    unfold answer
    rw [if_pos (by rw [e4, e5, ho, he]; simp)]
  rw [e] at h2
  obtain ⟨ext, a, b, _⟩ := doSendI_sent h2
  refine ⟨ext, ?_, fun fr hfr => ⟨(b fr hfr).1.trans e2, (b fr hfr).2.1⟩⟩
  rw [a.tx, sendS, e1, e2]
  simp

/-- a frame that is not well-formed is reported, and changes nothing else -/
theorem lapd_malformed {d : DL} {f : Frame} {ns : Nat} :
    (f.kind = .i ns → f.cmd = false → rx d f = some { d with mdl := d.mdl ++ [12] }) ∧
    (f.kind = .i ns → f.cmd = true → f.data = [] ∨ d.cfg.n201 < f.data.length → rx d f = some { d with mdl := d.mdl ++ [11] }) ∧
    (f.kind = .i ns → f.cmd = true → f.data ≠ [] → f.more = true → f.data.length < d.cfg.n201 → rx d f = some { d with mdl := d.mdl ++ [10] }) ∧
    (f.kind = .rr ∨ f.kind = .rnr ∨ f.kind = .rej → f.data ≠ [] ∨ f.more = true → rx d f = some { d with mdl := d.mdl ++ [9] }) := by
  refine ⟨fun hk hc => ?_, fun hk hc hl => ?_, fun hk hc hd hm hl => ?_, fun hk hd => ?_⟩
  · unfold rx rxI; simp only [hk]; rw [if_pos (by simp [hc])]; rfl
  · unfold rx rxI; simp only [hk]
    rw [if_neg (by simp [hc]), if_pos (by rcases hl with e | e; exact .inl (by simp [e]); exact .inr e)]; rfl
  · have hpos : f.data.length ≠ 0 := fun e => hd (List.length_eq_zero_iff.1 e)
    unfold rx rxI; simp only [hk]
    rw [if_neg (by simp [hc]), if_neg (by omega), if_pos ⟨hm, hl⟩]; rfl
  · have e : rx d f = rxS d f := by
      unfold rx
      rcases hk with e | e | e <;> simp only [e]
    rw [e]
    unfold rxS
    rw [if_pos (by
      rcases hd with e | e
      · exact .inl (List.length_pos_of_ne_nil e)
      · exact .inr e)]
    rfl

/-- **T200**: with expiries left, a side goes to timer recovery and sends a command with the P bit: a poll, or the last I frame sent if it is not
acknowledged; nothing only where it misses frames itself -/
theorem lapd_t200_poll {d d' : DL} (hs : Est d) (ht : d.t200 = true) (hr : d.state = .mfEst ∨ d.retrans < d.cfg.n200) (h255 : d.cfg.n200 < 256)
    (hn : 1 ≤ d.cfg.n200) (ho : d.ownBusy = false) (he : d.seqErr = 0) (h : t200Cb d = some d') :
    d'.state = .timerRecov ∧ d'.t200 = true ∧ d'.retrans = (if d.state = .mfEst then 1 else d.retrans + 1) ∧
      ∃ fr, d'.tx = d.tx ++ [fr] ∧ fr.cmd = true ∧ fr.pf = true ∧ fr.nr = d.vRecv ∧
        (fr.kind = .rr ∨ ∃ s, fr.kind = .i (subMod d.vSend 1 d.cfg.vRange) ∧ (fr.data, fr.more) = s ∧ some s ∈ d.hist) := by
  unfold t200Cb at h
  rw [if_neg (by simp [ht]), if_pos (show d.state = .mfEst ∨ d.state = .timerRecov from hs)] at h
  unfold t200Est at h
  have hd1 : ∃ t, (if d.state = .mfEst then newstate { d with t200 := false, retrans := 0 } .timerRecov else { d with t200 := false }) =
      { d with t200 := false, t203 := t, retrans := if d.state = .mfEst then 0 else d.retrans, state := .timerRecov } := by
    by_cases hm : d.state = .mfEst
    · rw [if_pos hm, if_pos hm]
      obtain ⟨t, e⟩ := newstate_eq { d with t200 := false, retrans := 0 } .timerRecov
      exact ⟨t, e⟩
    · rw [if_neg hm, if_neg hm]
      have hs' : d.state = .timerRecov := hs.resolve_left hm
      exact ⟨d.t203, by rw [← hs']⟩
  obtain ⟨t, e1⟩ := hd1
  simp only [e1] at h
  have hre : ((if d.state = .mfEst then 0 else d.retrans) + 1) % 256 = if d.state = .mfEst then 1 else d.retrans + 1 := by
    split
    · rfl
    · rename_i hm
      have := hr.resolve_left hm
      exact Nat.mod_eq_of_lt (by omega)
  rw [hre] at h
  rw [if_pos (by split; exact hn; rename_i hm; exact hr.resolve_left hm)] at h
  obtain ⟨s, h1, h⟩ := Option.map_eq_some_iff.1 h
  cases s with
  | none =>
    simp only [ho, he, Bool.not_false, and_self, if_true] at h
    subst h
    exact ⟨rfl, rfl, rfl, _, rfl, rfl, rfl, rfl, .inl rfl⟩
  | some s =>
    simp only at h
    subst h
    exact ⟨rfl, rfl, rfl, _, rfl, rfl, rfl, rfl, .inr ⟨s, rfl, rfl, List.mem_of_getElem? h1⟩⟩

/-- **N200**: with no expiries left, the layer above is told, and a SABM asks for the link anew, or nothing is sent, as was set -/
theorem lapd_n200 {d d' : DL} (hs : d.state = .timerRecov) (ht : d.t200 = true) (hr : d.cfg.n200 ≤ d.retrans) (h255 : d.retrans < 255)
    (h : t200Cb d = some d') :
    d'.mdl = d.mdl ++ [1] ∧
      (d.cfg.reestablish = true → d'.state = .sabmSent ∧ d'.t200 = true ∧
        d'.tx = d.tx ++ [{ cmd := true, kind := .sabm, pf := true, nr := 0, data := [], more := false }]) ∧
      (d.cfg.reestablish = false → d'.state = .timerRecov ∧ d'.t200 = false ∧ d'.tx = d.tx ∧ d'.hist = d.hist ∧ d'.sendQueue = d.sendQueue) := by
  unfold t200Cb at h
  rw [if_neg (by simp [ht]), if_pos (.inr hs)] at h
  unfold t200Est at h
  simp only [hs, reduceCtorEq, if_false] at h
  rw [if_neg (by rw [Nat.mod_eq_of_lt (by omega)]; omega)] at h
  unfold mdlError at h
  simp only at h
  cases hre : d.cfg.reestablish with
  | false =>
    simp only [hre, Bool.false_eq_true, if_false] at h
    cases h
    exact ⟨rfl, (fun e => by cases e), fun _ => ⟨rfl, rfl, rfl, rfl, rfl⟩⟩
  | true =>
    simp only [hre, if_true] at h
    unfold estReq at h
    obtain ⟨t', e⟩ := newstate_eq { d with t200 := false, retrans := 0, state := .timerRecov, mdl := d.mdl ++ [1], sendQueue := [], sendBuffer := none, hist := (List.replicate d.hist.length none).set 0 (some ([], false)), rcvBuf := none, vSend := 0, ownBusy := false, peerBusy := false } .sabmSent
    simp only [e] at h
    cases h
    exact ⟨rfl, (fun _ => ⟨rfl, rfl, rfl⟩), fun e => by cases e⟩

/-- **T203**: an idle link is polled -/
theorem lapd_t203 {d : DL} (hs : d.state = .mfEst) (ht : d.t203 = true) (ho : d.ownBusy = false) :
    (t203Cb d).state = .timerRecov ∧ (t203Cb d).t200 = true ∧ (t203Cb d).t203 = false ∧ (t203Cb d).retrans = 0 ∧
      (t203Cb d).tx = d.tx ++ [{ cmd := true, kind := .rr, pf := true, nr := d.vRecv, data := [], more := false }] := by
  unfold t203Cb newstate sendS
  simp [hs, ht, ho]

/-! ### A link in which these apply -/

example : (start 100 [atA (.data [1, 2, 3, 4]), atB (.lose 0), atB .recv]).any (fun s => s.b.seqErr = 1 ∧ s.b.up = [] ∧
    s.b.tx = [{ cmd := false, kind := .rej, pf := false, nr := 0, data := [], more := false }]) = true := by decide +kernel

example : (start 100 [atA (.data [1]), atB .recv]).any (fun s => s.b.up = [[1]] ∧
    s.b.tx = [{ cmd := false, kind := .rr, pf := false, nr := 1, data := [], more := false }]) = true := by decide +kernel

example : (start 100 [atA .t203, atB .recv, atA .recv]).any (fun s => s.a.state = .mfEst ∧ s.a.t200 = false ∧ s.a.t203 = true ∧ s.a.mdl = []) = true := by
  decide +kernel

example : (start 100 [atA (.data [1]), atA .t200]).any (fun s => s.a.state = .timerRecov ∧ s.a.tx.length = 2 ∧
    s.a.tx[1]? = some { cmd := true, kind := .i 0, pf := true, nr := 0, data := [1], more := false }) = true := by decide +kernel

end Verif.Lapd
