import Verif.IsdnHdlc.Dec
import Verif.IsdnHdlc.EncProps
/-!
Frames from the encoder to the decoder.
-/
namespace Verif.IsdnHdlc

/-- A line with frames: it begins with a flag, and after every flag there is another flag
or a frame and a flag. -/
inductive Line : List (List Byte) → List Bool → Prop
  | start : Line [] flag
  | idle {ps L} : Line ps L → Line ps (L ++ flag)
  | frame {ps L} (p : List Byte) : Line ps L → p ≠ [] → Line (ps ++ [p]) (L ++ (frameBits p ++ flag))

theorem Line.flags {ps : List (List Byte)} {L : List Bool} (h : Line ps L) (m : Nat) : Line ps (L ++ flags m) := by
  induction m with
  | zero => simpa [IsdnHdlc.flags] using h
  | succ m ih =>
    rw [← flags_add m 1, ← List.append_assoc]
    exact ih.idle

/-! ### The decoder -/

/-- Calls of the decoder until the source is empty, each with what the one before left: state, destination, and return value and
octets of each call that did not return 0. -/
def drain (dsize : Nat) : Nat → Rx → List Byte → List Byte → Option (Rx × List Byte × List (Int × List Byte))
  | 0, _, _, _ => none
  | fuel + 1, h, src, dst =>
    if src = [] then some (h, dst, [])
    else
      (decode h src dst dsize).bind (fun r =>
        (drain dsize fuel r.1 r.2.1 r.2.2.1).map (fun q =>
          (q.1, q.2.1, (if r.2.2.2 = 0 then [] else [(r.2.2.2, r.2.2.1.take r.2.2.2.toNat)]) ++ q.2.2)))

/-- A source that comes in pieces. -/
def receive (dsize : Nat) : Rx → List Byte → List (List Byte) → Option (Rx × List Byte × List (Int × List Byte))
  | h, dst, [] => some (h, dst, [])
  | h, dst, src :: rest =>
    (drain dsize (8 * src.length + 10) h src dst).bind (fun r =>
      (receive dsize r.1 r.2.1 rest).map (fun q => (q.1, q.2.1, r.2.2 ++ q.2.2)))

/-- What the caller sees of an event. -/
def seen (e : Event) : Int × List Byte := (e.1, e.2.take e.1.toNat)

theorem verdict_le (data : List Byte) (crc : BitVec 16) : (verdict data crc).toNat ≤ data.length := by
  unfold verdict
  split
  · simp
  · split
    · simp
    · rw [Int.toNat_natCast]; omega

theorem sstep_events {dsize : Nat} {s t : S} {b : Bool} {ev : List Event} (h : sstep dsize s b = some (t, ev)) : ∀ e ∈ ev, e.1.toNat ≤ e.2.length := by
  unfold sstep at h
  have hm : ∀ o : Option S, o.map (fun s => (s, ([] : List Event))) = some (t, ev) → ev = [] := by
    intro o ho
    cases o with
    | none => cases ho
    | some s => cases ho; rfl
  split at h
  · split at h
    · cases h; simp
    · split at h
      · cases h
      · rw [hm _ h]; simp
  · split at h
    · cases h; simp
    · split at h
      · cases h
        intro e he
        split at he
        · rw [List.mem_singleton.mp he]
          exact verdict_le _ _
        · cases he
      · rw [hm _ h]; simp

theorem srun_events {dsize : Nat} (bits : List Bool) : ∀ {s t : S} {ev : List Event}, srun dsize s bits = some (t, ev) → ∀ e ∈ ev, e.1.toNat ≤ e.2.length := by
  induction bits with
  | nil => intro s t ev h; cases h; simp
  | cons b bits ih =>
    intro s t ev h
    simp only [srun] at h
    cases h1 : sstep dsize s b with
    | none => rw [h1] at h; cases h
    | some r =>
      rw [h1, Option.bind_some] at h
      cases h2 : srun dsize r.1 bits with
      | none => rw [h2] at h; cases h
      | some q =>
        rw [h2, Option.map_some] at h
        cases h
        intro e he
        rcases List.mem_append.mp he with he | he
        · exact sstep_events h1 e he
        · exact ih h2 e he

theorem take_seen {dst data : List Byte} {n : Nat} (h : dst.take data.length = data) (hn : n ≤ data.length) : dst.take n = data.take n := by
  rw [← h, List.take_take, Nat.min_eq_left hn]

/-- The bits the decoder still has to work on. -/
def ahead (h : Rx) : List Bool := pend h.cbin h.bitShift

theorem drain_sim (dsize : Nat) (rev : Bool) : ∀ (fuel : Nat) (h : Rx) (src dst : List Byte) (s t : S) (es : List Event), Rel 0 h dst s →
    h.doBitreverse = rev → dsize ≤ dst.length → (ahead h ++ lineBits rev src).length + 2 ≤ fuel →
    srun dsize s (ahead h ++ lineBits rev src) = some (t, es) →
    ∃ (h' : Rx) (dst' : List Byte) (s' : S) (x : List Bool) (e1 e2 : List Event), drain dsize fuel h src dst = some (h', dst', e1.map seen) ∧
      Rel 0 h' dst' s' ∧ h'.doBitreverse = rev ∧ dst'.length = dst.length ∧ ahead h ++ lineBits rev src = x ++ ahead h' ∧
      srun dsize s x = some (s', e1) ∧ srun dsize s' (ahead h') = some (t, e2) ∧ es = e1 ++ e2 := by
  intro fuel
  induction fuel with
  | zero => intro h src dst s t es _ _ _ hf; omega
  | succ fuel ih =>
    intro h src dst s t es hR hrev hdd hf hrun
    unfold drain
    by_cases hs : src = []
    · rw [if_pos hs]
      subst hs
      rw [lineBits_nil, List.append_nil] at hrun ⊢
      exact ⟨h, dst, s, [], [], es, rfl, hR, hrev, rfl, rfl, rfl, hrun, rfl⟩
    · rw [if_neg hs]
      obtain ⟨h', src', dst', rc, x, s', ev, a1, a2, a3, a4, a5, a6, a7, a8⟩ := decode_sim dsize h src dst s hR hdd
        (by rw [hrev]; show srun dsize s (ahead h ++ lineBits rev src) ≠ none; rw [hrun]; simp)
      rw [hrev] at a2 a6
      have hsplit : ahead h ++ lineBits rev src = x ++ (ahead h' ++ lineBits rev src') := a2
      rw [a1, Option.bind_some]
      -- the rest of the run
      have hrest : ∃ es', srun dsize s' (ahead h' ++ lineBits rev src') = some (t, es') ∧ es = ev ++ es' := by
        rw [hsplit, srun_append, a3, Option.bind_some] at hrun
        cases h2 : srun dsize s' (ahead h' ++ lineBits rev src') with
        | none => rw [h2] at hrun; cases hrun
        | some q =>
          rw [h2, Option.map_some] at hrun
          cases hrun
          exact ⟨q.2, rfl, rfl⟩
      obtain ⟨es', r1, r2⟩ := hrest
      have hlen := congrArg List.length hsplit
      rw [List.length_append (as := x)] at hlen
      rcases a8 with ⟨b1, b2, b3⟩ | ⟨e, b1, b2, b3, b4⟩
      · subst b3
        have hfp : 0 < fuel := by omega
        obtain ⟨g, rfl⟩ : ∃ k, fuel = k + 1 := ⟨fuel - 1, by omega⟩
        have hd : drain dsize (g + 1) h' [] dst' = some (h', dst', []) := by
          unfold drain
          rw [if_pos rfl]
        rw [hd]
        rw [lineBits_nil, List.append_nil] at r1 hsplit
        refine ⟨h', dst', s', x, [], es', by rw [b1]; rfl, a4, a6, a5, hsplit, by rw [a3, b2], r1, by rw [r2, b2]⟩
      · have hx : 0 < x.length := by
          cases x with
          | nil =>
            rw [b1] at a3
            cases a3
          | cons _ _ => simp
        obtain ⟨h'', dst'', s'', y, e1, e2, c1, c2, c3, c4, c5, c6, c7, c8⟩ := ih h' src' dst' s' t es' a4 a6 (by omega) (by omega) r1
        rw [c1]
        have he : e.1.toNat ≤ e.2.length := srun_events x a3 e (by rw [b1]; simp)
        refine ⟨h'', dst'', s'', x ++ y, e :: e1, e2, ?_, c2, c3, by omega, ?_, ?_, c7, ?_⟩
        · rw [b2, Option.map_some]
          simp only [if_neg b3, List.map_cons, List.singleton_append]
          rw [seen, take_seen b4 he]
        · rw [hsplit, c5, List.append_assoc]
        · rw [srun_append, a3, Option.bind_some, c6, b1]
          rfl
        · rw [r2, b1, c8]
          rfl

theorem receive_sim (dsize : Nat) (rev : Bool) (chunks : List (List Byte)) : ∀ (h : Rx) (dst : List Byte) (s t : S) (es : List Event), Rel 0 h dst s →
    h.doBitreverse = rev → dsize ≤ dst.length → srun dsize s (ahead h ++ lineBits rev chunks.flatten) = some (t, es) →
    ∃ (h' : Rx) (dst' : List Byte) (s' : S) (x : List Bool) (e1 e2 : List Event), receive dsize h dst chunks = some (h', dst', e1.map seen) ∧
      Rel 0 h' dst' s' ∧ ahead h ++ lineBits rev chunks.flatten = x ++ ahead h' ∧
      srun dsize s x = some (s', e1) ∧ srun dsize s' (ahead h') = some (t, e2) ∧ es = e1 ++ e2 := by
  induction chunks with
  | nil =>
    intro h dst s t es hR hrev hdd hrun
    rw [List.flatten_nil, lineBits_nil, List.append_nil] at hrun ⊢
    exact ⟨h, dst, s, [], [], es, rfl, hR, rfl, rfl, hrun, rfl⟩
  | cons src chunks ih =>
    intro h dst s t es hR hrev hdd hrun
    rw [List.flatten_cons, lineBits_append, ← List.append_assoc] at hrun ⊢
    rw [srun_append] at hrun
    cases h1 : srun dsize s (ahead h ++ lineBits rev src) with
    | none => rw [h1] at hrun; cases hrun
    | some r =>
      rw [h1, Option.bind_some] at hrun
      cases h2 : srun dsize r.1 (lineBits rev chunks.flatten) with
      | none => rw [h2] at hrun; cases hrun
      | some q =>
        rw [h2, Option.map_some] at hrun
        cases hrun
        have hb := hR.2.1
        obtain ⟨h', dst', s', x, e1, e2, c1, c2, c3, c4, c5, c6, c7, c8⟩ := drain_sim dsize rev (8 * src.length + 10) h src dst s r.1 r.2 hR hrev hdd
          (by rw [List.length_append, lineBits_length, ahead, pend_length]; omega) h1
        have hrun2 : srun dsize s' (ahead h' ++ lineBits rev chunks.flatten) = some (q.1, e2 ++ q.2) := by
          rw [srun_append, c7, Option.bind_some, h2]
          rfl
        obtain ⟨h'', dst'', s'', y, f1, f2, d1, d2, d3, d4, d5, d6⟩ := ih h' dst' s' q.1 (e2 ++ q.2) c2 c3 (by omega) hrun2
        refine ⟨h'', dst'', s'', x ++ y, e1 ++ f1, f2, ?_, d2, ?_, ?_, d5, ?_⟩
        · simp only [receive, c1, Option.bind_some, d1, Option.map_some, List.map_append]
        · rw [c5, List.append_assoc, d3, List.append_assoc]
        · rw [srun_append, c6, Option.bind_some, d4]
          rfl
        · rw [c8, List.append_assoc, d6, List.append_assoc]

/-- The receiver before anything was received. -/
def unsynced : S := { ones := 0, nbits := 0, reg := 0, crc := 0, recv := false, data := [] }

theorem rcvInit_rel (rev : Bool) (dst : List Byte) : Rel 0 (rcvInit false rev) dst unsynced :=
  ⟨rfl, by simp [rcvInit], Or.inl ⟨rfl, rfl, rfl, rfl, rfl, rfl, rfl, rfl, fun _ => rfl, by decide⟩⟩

theorem line_events (dsize : Nat) {ps : List (List Byte)} {L : List Bool} (h : Line ps L) (hd : ∀ p ∈ ps, p.length + 2 ≤ dsize) :
    srun dsize unsynced L = some (fresh, ps.map (fun p => ((p.length : Int), p ++ fcs p))) := by
  induction h with
  | start =>
    have := srun_flag dsize unsynced rfl (by decide) []
    rw [List.append_nil] at this
    rw [this]
    rfl
  | idle _ ih =>
    rw [srun_append, ih hd, Option.bind_some]
    have := srun_fresh_flag dsize []
    rw [List.append_nil] at this
    rw [this]
    simp [srun]
  | frame p _ hp ih =>
    rw [srun_append, ih (fun q hq => hd q (by simp [hq])), Option.bind_some]
    have := srun_frame dsize p hp (hd p (by simp)) []
    rw [List.append_nil] at this
    rw [this]
    simp [srun]

theorem flags_quiet (dsize m : Nat) {T : List Bool} (h : T <+: flags m) : ∃ t, srun dsize fresh T = some (t, []) := by
  have hall : srun dsize fresh (flags m) = some (fresh, []) := by
    induction m generalizing T with
    | zero => rfl
    | succ m ih =>
      have : flags (m + 1) = flag ++ flags m := rfl
      rw [this, srun_fresh_flag]
      exact ih (List.prefix_refl _)
  obtain ⟨z, hz⟩ := h
  rw [← hz, srun_append] at hall
  cases h1 : srun dsize fresh T with
  | none => rw [h1] at hall; cases hall
  | some r =>
    rw [h1, Option.bind_some] at hall
    cases h2 : srun dsize r.1 z with
    | none => rw [h2] at hall; cases hall
    | some q =>
      rw [h2, Option.map_some] at hall
      simp only [Option.some.injEq, Prod.mk.injEq, List.append_eq_nil_iff] at hall
      exact ⟨r.1, by rw [← hall.2.1]⟩

/-- C45: whatever the alignment of the frames to octets and whatever the pieces the
octets come in, the decoder returns each frame, with its length and its octets, in
order, and nothing else, once eight more bits of flags were received. -/
theorem decoder_returns_frames (dsize : Nat) (rev : Bool) (chunks : List (List Byte)) (dst : List Byte) (ps : List (List Byte)) (L T : List Bool) (m : Nat)
    (hL : Line ps L) (hp : ∀ p ∈ ps, p.length + 2 ≤ dsize) (hdd : dsize ≤ dst.length) (hbits : lineBits rev chunks.flatten = L ++ T)
    (hT : T <+: flags m) (hT8 : 8 ≤ T.length) :
    ∃ h' dst', receive dsize (rcvInit false rev) dst chunks = some (h', dst', ps.map (fun p => ((p.length : Int), p))) := by
  have hl := line_events dsize hL hp
  obtain ⟨t, ht⟩ := flags_quiet dsize m hT
  have hrun : srun dsize unsynced (ahead (rcvInit false rev) ++ lineBits rev chunks.flatten) = some (t, ps.map (fun p => ((p.length : Int), p ++ fcs p))) := by
    rw [show ahead (rcvInit false rev) = [] from rfl, List.nil_append, hbits, srun_append, hl, Option.bind_some, ht]
    simp
  obtain ⟨h', dst', s', x, e1, e2, c1, c2, c3, c4, c5, c6⟩ := receive_sim dsize rev chunks (rcvInit false rev) dst unsynced t _ (rcvInit_rel rev dst) rfl hdd hrun
  -- nothing is left in the bits not used yet
  have he2 : e2 = [] := by
    rw [show ahead (rcvInit false rev) = [] from rfl, List.nil_append, hbits] at c3
    have hb := c2.2.1
    have hlen := congrArg List.length c3
    rw [List.length_append, List.length_append, show (ahead h').length = h'.bitShift from pend_length _ _] at hlen
    rcases List.append_eq_append_iff.mp c3 with ⟨as, h1, h2⟩ | ⟨bs, h1, h2⟩
    · rw [h1, srun_append, hl, Option.bind_some] at c4
      cases h3 : srun dsize fresh as with
      | none => rw [h3] at c4; cases c4
      | some r =>
        rw [h3, Option.map_some] at c4
        simp only [Option.some.injEq, Prod.mk.injEq] at c4
        rw [← c4.2] at c6
        have := congrArg List.length c6
        simp only [List.length_append, List.length_map] at this
        exact List.length_eq_zero_iff.mp (by omega)
    · have hbs : bs = [] := by
        have := congrArg List.length h1
        rw [List.length_append] at this
        exact List.length_eq_zero_iff.mp (by omega)
      rw [hbs, List.append_nil] at h1
      rw [← h1, hl] at c4
      cases c4
      have := congrArg List.length c6
      simp only [List.length_append] at this
      exact List.length_eq_zero_iff.mp (by omega)
  rw [he2, List.append_nil] at c6
  refine ⟨h', dst', ?_⟩
  rw [c1, ← c6, List.map_map]
  congr 3
  apply List.map_congr_left
  intro p _
  simp only [Function.comp_apply, seen, Int.toNat_natCast, List.take_left']

/-! ### Both -/

/-- What a sender does: hands a frame to the encoder, with calls of the given sizes, or
makes one call without a frame. -/
inductive Op where
  | frame (p : List Byte) (sizes : List Nat)
  | idle (n : Nat)

/-- The frames. -/
def payloads (ops : List Op) : List (List Byte) := ops.filterMap (fun op => match op with | .frame p _ => some p | .idle _ => none)

/-- All octets of the encoder. -/
def sendOps (fuel : Nat) : Tx → List Op → Option (Tx × List Byte)
  | h, [] => some (h, [])
  | h, .frame p sizes :: ops =>
    (sendAll fuel h p sizes).bind (fun r => if r.2.1 = [] then (sendOps fuel r.1 ops).map (fun q => (q.1, r.2.2 ++ q.2)) else none)
  | h, .idle n :: ops => (encode fuel h [] n).bind (fun r => (sendOps fuel r.1 ops).map (fun q => (q.1, r.2.2 ++ q.2)))

/-- Conditions on the calls: all have room; the room for a frame is enough for the frame;
a call without a frame as the very first one has room for two octets; a frame of one octet
does not come right after another frame. -/
def Allowed (fuel : Nat) : (first afterFrame : Bool) → List Op → Prop
  | _, _, [] => True
  | _, afterFrame, .frame p sizes :: ops =>
    p ≠ [] ∧ (afterFrame = true → p.length ≠ 1) ∧ (∀ n ∈ sizes, 1 ≤ n ∧ 8 * n + 20 ≤ fuel) ∧ 6 * (p.length + 2) + 11 ≤ 5 * sizes.sum ∧
      Allowed fuel false true ops
  | first, _, .idle n :: ops => 1 ≤ n ∧ (first = true → 2 ≤ n) ∧ 8 * n + 20 ≤ fuel ∧ Allowed fuel false false ops

theorem outInit_ready (rev : Bool) : Ready (outInit false false rev) 8 rev :=
  ⟨rfl, rfl, rfl, rfl, by omega, fun _ => rfl, rfl, rfl, rfl, fun h => by cases h⟩

theorem sendOps_line (fuel : Nat) (rev : Bool) (ops : List Op) : ∀ (h : Tx) (d : Nat) (first afterFrame : Bool) (out : List Byte) (ps : List (List Byte)),
    Ready h d rev → (first = false → d < 8) → (afterFrame = false → h.doClosing = false) → Allowed fuel first afterFrame ops →
    Line ps (lineBits rev out ++ flagEnd d) →
    ∃ (h' : Tx) (o : List Byte) (d' : Nat), sendOps fuel h ops = some (h', o) ∧ Ready h' d' rev ∧
      Line (ps ++ payloads ops) (lineBits rev (out ++ o) ++ flagEnd d') := by
  induction ops with
  | nil =>
    intro h d first afterFrame out ps hr _ _ _ hL
    exact ⟨h, [], d, rfl, hr, by simpa [payloads] using hL⟩
  | cons op ops ih =>
    intro h d first afterFrame out ps hr hf hc ha hL
    cases op with
    | frame p sizes =>
      obtain ⟨a1, a2, a3, a4, a5⟩ := ha
      obtain ⟨h', o, d', m, e1, e2, e3, e4⟩ := send_frame fuel rev sizes h p d hr a1
        (fun h1 => hc (by cases afterFrame with | false => rfl | true => exact absurd h1 (a2 rfl))) a3 a4
      have hL2 : Line (ps ++ [p]) (lineBits rev (out ++ o) ++ flagEnd d') := by
        rw [lineBits_append, List.append_assoc, e4]
        have := (hL.frame p a1).flags m
        simp only [List.append_assoc] at this ⊢
        exact this
      obtain ⟨h'', o', d'', f1, f2, f4⟩ := ih h' d' false true (out ++ o) (ps ++ [p]) e3 (fun _ => e2) (fun h => by cases h) a5 hL2
      refine ⟨h'', o ++ o', d'', ?_, f2, ?_⟩
      · simp only [sendOps, e1, Option.bind_some, f1, Option.map_some, if_true]
      · simp only [payloads, List.filterMap_cons, List.append_assoc, List.singleton_append] at f4 ⊢
        exact f4
    | idle n =>
      obtain ⟨a1, a2, a3, a4⟩ := ha
      obtain ⟨h', o, d', m, e1, e2, e3, e4, e5, e6, e7⟩ := encode_idle fuel n h d rev hr a1
        (fun h8 => a2 (by cases first with | false => have := hf rfl; omega | true => rfl)) a3
      have hL2 : Line ps (lineBits rev (out ++ o) ++ flagEnd d') := by
        rw [lineBits_append, List.append_assoc, e6, ← List.append_assoc]
        exact hL.flags m
      obtain ⟨h'', o', d'', f1, f2, f4⟩ := ih h' d' false false (out ++ o) ps e2 (fun _ => e3) (fun _ => e5) a4 hL2
      refine ⟨h'', o ++ o', d'', ?_, f2, ?_⟩
      · simp only [sendOps, e1, Option.bind_some, f1, Option.map_some]
      · simp only [payloads, List.filterMap_cons, List.append_assoc] at f4 ⊢
        exact f4

theorem sendOps_append (fuel : Nat) (a b : List Op) : ∀ h : Tx,
    sendOps fuel h (a ++ b) = (sendOps fuel h a).bind (fun r => (sendOps fuel r.1 b).map (fun q => (q.1, r.2 ++ q.2))) := by
  induction a with
  | nil => intro h; simp [sendOps]
  | cons op a ih =>
    intro h
    cases op with
    | frame p sizes =>
      simp only [List.cons_append, sendOps]
      cases sendAll fuel h p sizes with
      | none => rfl
      | some r =>
        simp only [Option.bind_some]
        by_cases h1 : r.2.1 = []
        · rw [if_pos h1, if_pos h1, ih]
          cases sendOps fuel r.1 a with
          | none => rfl
          | some q =>
            simp only [Option.bind_some, Option.map_some]
            cases sendOps fuel q.1 b with
            | none => rfl
            | some q => simp
        · rw [if_neg h1, if_neg h1]
          rfl
    | idle n =>
      simp only [List.cons_append, sendOps]
      cases encode fuel h [] n with
      | none => rfl
      | some r =>
        simp only [Option.bind_some, ih]
        cases sendOps fuel r.1 a with
        | none => rfl
        | some q =>
          simp only [Option.bind_some, Option.map_some]
          cases sendOps fuel q.1 b with
          | none => rfl
          | some q => simp

/-- C45: frames handed to the encoder, in calls of any sizes, with calls without a frame anywhere
between, come out of the decoder, fed with the octets in pieces of any size: the same
frames in the same order and nothing else. -/
theorem hdlc_roundtrip_partial (fuel dsize : Nat) (rev : Bool) (ops : List Op) (n : Nat) (chunks : List (List Byte)) (dst : List Byte)
    (ha : Allowed fuel true false ops) (hn : 3 ≤ n) (hnf : 8 * n + 20 ≤ fuel) (hp : ∀ p ∈ payloads ops, p.length + 2 ≤ dsize) (hdd : dsize ≤ dst.length) :
    ∃ (h' : Tx) (out : List Byte), sendOps fuel (outInit false false rev) (ops ++ [.idle n]) = some (h', out) ∧
      (chunks.flatten = out → ∃ g dst', receive dsize (rcvInit false rev) dst chunks = some (g, dst', (payloads ops).map (fun p => ((p.length : Int), p)))) := by
  obtain ⟨h1, o1, d1, e1, e2, e4⟩ := sendOps_line fuel rev ops (outInit false false rev) 8 true false [] [] (outInit_ready rev) (fun h => by cases h)
    (fun _ => rfl) ha (by simpa [lineBits_nil, flagEnd] using Line.start)
  obtain ⟨h2, o2, d2, m, f1, f2, f3, f4, f5, f6, f7⟩ := encode_idle fuel n h1 d1 rev e2 (by omega) (by omega) hnf
  refine ⟨h2, o1 ++ o2, ?_, ?_⟩
  · rw [sendOps_append, e1]
    simp only [Option.bind_some, sendOps, f1, Option.map_some, List.append_nil]
  · intro hch
    simp only [List.nil_append] at e4
    have hline : lineBits rev (o1 ++ o2) ++ flagEnd d2 = (lineBits rev o1 ++ flagEnd d1) ++ flags m := by
      rw [lineBits_append, List.append_assoc, f6, List.append_assoc]
    have hfl : flags m = (flags m).take (8 * m - d2) ++ flagEnd d2 := by
      obtain ⟨k, rfl⟩ : ∃ k, m = k + 1 := ⟨m - 1, by omega⟩
      have hk : (flags k).length = 8 * k := by
        clear f7 f6 hline
        induction k with
        | zero => rfl
        | succ k ih =>
          rw [show flags (k + 1) = flag ++ flags k from rfl, List.length_append, ih, show flag.length = 8 from rfl]
          omega
      rw [← flags_add k 1, show flags 1 = flag from by simp [flags], List.take_append, List.take_of_length_le (by omega), hk, List.append_assoc,
        show 8 * (k + 1) - d2 - 8 * k = 8 - d2 from by omega, show flag.take (8 - d2) ++ flagEnd d2 = flag from List.take_append_drop _ _]
    have hlen : (flags m).length = 8 * m := by
      clear f7 f6 hline hfl
      induction m with
      | zero => rfl
      | succ k ih =>
        rw [show flags (k + 1) = flag ++ flags k from rfl, List.length_append, ih, show flag.length = 8 from rfl]
        omega
    rw [hfl, ← List.append_assoc] at hline
    have hbits := List.append_cancel_right hline
    exact decoder_returns_frames dsize rev chunks dst (payloads ops) _ _ m e4 hp hdd (by rw [hch]; exact hbits) (List.take_prefix _ _)
      (by rw [List.length_take, hlen]; omega)

/-- Two frames, the first one in two calls, decoded in pieces of 3, 0 and 15 octets. -/
example :
    let ops : List Op := [.idle 2, .frame [0xff, 0x7e, 0x01] [3, 9], .frame [0x80, 0xfc] [20]]
    Allowed 1000 true false ops ∧
    (sendOps 1000 (outInit false false false) (ops ++ [.idle 3])).map (fun r => r.2.length) = some 18 ∧
    ((sendOps 1000 (outInit false false false) (ops ++ [.idle 3])).bind (fun r =>
      receive 8 (rcvInit false false) (List.replicate 8 0) [r.2.take 3, [], r.2.drop 3])).map (fun r => r.2.2) =
      some [(3, [0xff, 0x7e, 0x01]), (2, [0x80, 0xfc])] := by
  refine ⟨by simp [Allowed], by decide +kernel, by decide +kernel⟩

end Verif.IsdnHdlc
