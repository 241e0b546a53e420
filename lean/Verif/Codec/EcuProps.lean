import Verif.Codec.EcuLemmas
/-!
The error concealment unit for full rate (C148).
-/
namespace Verif.Codec
open Verif.Bitvec

/-- The state after `n` substitutions in a row. -/
def lost (s : Ecu) : Nat → Ecu
  | 0 => s
  | n + 1 => (frameOut (lost s n)).1

/-- The substitution for the `n`th frame lost in a row (the first is number 0). -/
def subst (s : Ecu) (n : Nat) : List Byte := (frameOut (lost s n)).2

/-- What the unit accepts: 33 octets with the signature, without bad frame indication. -/
def Accepts (bfi : Bool) (f : List Byte) : Prop := bfi = false ∧ f.length = 33 ∧ (f.getD 0 0).toNat / 16 = 0xD

instance (bfi : Bool) (f : List Byte) : Decidable (Accepts bfi f) := by unfold Accepts; infer_instance

theorem sig_iff : ∀ b : Byte, (b &&& 0xF0 ≠ 0xD0) ↔ ¬ b.toNat / 16 = 0xD := by decide +kernel

theorem frameIn_eq (s : Ecu) (bfi : Bool) (f : List Byte) :
    frameIn s bfi f = if Accepts bfi f then input s f else s := by
  unfold frameIn Accepts
  simp only [sig_iff]
  cases bfi with
  | true => simp
  | false =>
    by_cases h1 : f.length = 33
    · by_cases h2 : (f.getD 0 0).toNat / 16 = 0xD
      · simp [h1, h2]
      · simp only [h1, h2]; simp
    · simp [h1]

/-! ### Lost speech -/

/-- `g` is `f` with all block amplitudes lowered by `d` (down to zero), apart from bits marked by `P`. -/
def Lowered (P : Nat → Bool) (d : Nat) (f g : List Byte) : Prop :=
  SameBut (fun i => isAmp i || P i) f g ∧ ∀ t < 4, amp g t = amp f t - d

def none' (_ : Nat) : Bool := false

/-- The state before substitution number `n + 1` of a lost speech frame. -/
theorem muting_state {s : Ecu} {f : List Byte} (hf : f.length = 33) (hs : s.pr = .speech) (hsf : s.speechFrame = f) :
    ∀ n, ((n = 0 ∨ ∃ t < 4, amp f t > 4 * n) →
        (lost s (n + 1)).pr = .spMuting ∧ Lowered none' (4 * n) f (lost s (n + 1)).speechFrame) ∧
      (¬ (n = 0 ∨ ∃ t < 4, amp f t > 4 * n) → (lost s (n + 1)).pr = .noData) := by
  intro n
  induction n with
  | zero =>
    refine ⟨fun _ => ?_, fun h => absurd (Or.inl rfl) h⟩
    show (output s).1.pr = _ ∧ Lowered none' 0 f (output s).1.speechFrame
    unfold output
    simp only [hs]
    refine ⟨trivial, ?_⟩
    rw [hsf]
    exact ⟨SameBut.refl _ _, fun t _ => rfl⟩
  | succ n ih =>
    by_cases hn : n = 0 ∨ ∃ t < 4, amp f t > 4 * n
    · obtain ⟨h1, h2, h3⟩ := ih.1 hn
      have hlen : (lost s (n + 1)).speechFrame.length = 33 := h2.1.trans hf
      obtain ⟨r1, r2, r3⟩ := reduce_spec hlen
      have hout : (lost s (n + 2)).pr = (if (reduceXmaxc (lost s (n + 1)).speechFrame).2 then .noData else .spMuting) ∧
          (lost s (n + 2)).speechFrame = (reduceXmaxc (lost s (n + 1)).speechFrame).1 := by
        show (output (lost s (n + 1))).1.pr = _ ∧ (output (lost s (n + 1))).1.speechFrame = _
        unfold output
        simp only [h1]
        exact ⟨trivial, trivial⟩
      refine ⟨fun hm => ⟨?_, ?_, ?_⟩, fun hm => ?_⟩
      · rw [hout.1, if_neg]
        intro hc
        rw [r3] at hc
        obtain ⟨t, ht, hat⟩ := hm.resolve_left (by omega)
        have := hc t ht
        rw [h3 t ht] at this
        omega
      · rw [hout.2]
        exact h2.trans (r1.mono fun i hi => by
          cases h : isAmp i with
          | false => rfl
          | true => rw [h] at hi; exact absurd hi (by simp))
      · intro t ht
        rw [hout.2, r2 t ht, h3 t ht]
        omega
      · rw [hout.1, if_pos]
        rw [r3]
        intro t ht
        rw [h3 t ht]
        have : ¬ amp f t > 4 * (n + 1) := fun hc => hm (Or.inr ⟨t, ht, hc⟩)
        omega
    · have h1 := ih.2 hn
      have hno : (lost s (n + 2)).pr = .noData := by
        show (output (lost s (n + 1))).1.pr = _
        unfold output
        simp only [h1]
      refine ⟨fun hm => ?_, fun _ => hno⟩
      obtain ⟨t, ht, hat⟩ := hm.resolve_left (by omega)
      exact absurd (Or.inr ⟨t, ht, by omega⟩) hn

/-- C148: behind a good speech frame the first lost one is replaced by that frame
itself.  The `n`th after that is the same frame with every block amplitude lowered
by `4 * n` and nothing else changed but the grid positions, as long as the last
substitution was not silent; from then on it is the silence frame. -/
theorem lost_speech (e : Ecu) {f : List Byte} (hf : Accepts false f) (hc : frClassify f = .speech) :
    subst (frameIn e false f) 0 = f ∧
    ∀ n, (n = 0 ∨ (∃ t < 4, amp f t > 4 * n) →
        Lowered isGrid (4 * (n + 1)) f (subst (frameIn e false f) (n + 1))) ∧
      (¬ (n = 0 ∨ ∃ t < 4, amp f t > 4 * n) → subst (frameIn e false f) (n + 1) = silence) := by
  rw [frameIn_eq, if_pos hf]
  have hpr : (input e f).pr = .speech := by unfold input; simp only [hc]
  have hsf : (input e f).speechFrame = f := by unfold input; simp only [hc]
  have key := muting_state hf.2.1 hpr hsf
  refine ⟨?_, fun n => ⟨fun hn => ?_, fun hn => ?_⟩⟩
  · show (output (input e f)).2 = f
    unfold output
    simp only [hpr]
    exact hsf
  · obtain ⟨h1, h2, h3⟩ := (key n).1 hn
    have hlen : (lost (input e f) (n + 1)).speechFrame.length = 33 := h2.1.trans hf.2.1
    obtain ⟨r1, r2, _⟩ := reduce_spec hlen
    obtain ⟨g1, g2⟩ := grid_spec (lost (input e f) (n + 1)).prng (r1.1.trans hlen)
    have hout : subst (input e f) (n + 1) =
        (randomGrid (reduceXmaxc (lost (input e f) (n + 1)).speechFrame).1 (lost (input e f) (n + 1)).prng).1 := by
      show (output (lost (input e f) (n + 1))).2 = _
      unfold output
      simp only [h1]
    refine ⟨?_, fun t ht => ?_⟩
    · rw [hout]
      refine SameBut.trans (h2.mono ?_) (SameBut.trans (r1.mono ?_) (g1.mono ?_))
      · intro i hi; simp only [Bool.or_eq_false_iff] at hi; simp [hi.1, none']
      · intro i hi; simp only [Bool.or_eq_false_iff] at hi; exact hi.1
      · intro i hi; simp only [Bool.or_eq_false_iff] at hi; exact hi.2
    · rw [hout, g2, r2 t ht, h3 t ht]; omega
  · have h1 := (key n).2 hn
    show (output (lost (input e f) (n + 1))).2 = silence
    unfold output
    simp only [h1]

/-- C148: the grid positions of a muted frame are the next eight bits of the pseudo
random sequence, two for each subframe, and these bits are used up. -/
theorem random_grid {e : Ecu} (hp : e.pr = .spMuting) (hf : e.speechFrame.length = 33) :
    (∀ t < 4, msb (frameOut e).2 (56 * t + 49) = (Prbs.getUbits Prbs.prbs15 8 e.prng).1.getD (2 * t) false ∧
      msb (frameOut e).2 (56 * t + 50) = (Prbs.getUbits Prbs.prbs15 8 e.prng).1.getD (2 * t + 1) false) ∧
    (frameOut e).1.prng = (Prbs.getUbits Prbs.prbs15 8 e.prng).2 := by
  have hl : (reduceXmaxc e.speechFrame).1.length = 33 := (reduce_spec hf).1.1.trans hf
  obtain ⟨_, h2, h3⟩ := gridLoop_bits 4 0 (reduceXmaxc e.speechFrame).1 e.prng rfl hl
  have ho : (frameOut e).2 = (randomGrid (reduceXmaxc e.speechFrame).1 e.prng).1 ∧
      (frameOut e).1.prng = (randomGrid (reduceXmaxc e.speechFrame).1 e.prng).2 := by
    unfold frameOut output
    simp only [hp]
    exact ⟨trivial, trivial⟩
  rw [ho.1, ho.2]
  refine ⟨fun t ht => ?_, h3⟩
  have := h2 t ht
  rw [Nat.zero_add] at this
  exact this

/-- C148: after at most 17 substitutions of a speech frame there is silence. -/
theorem lost_speech_bound (e : Ecu) {f : List Byte} (hf : Accepts false f) (hc : frClassify f = .speech) {n : Nat}
    (hn : 17 ≤ n) : subst (frameIn e false f) n = silence := by
  obtain ⟨m, rfl⟩ : ∃ m, n = m + 1 := ⟨n - 1, by omega⟩
  apply ((lost_speech e hf hc).2 m).2
  rintro (h | ⟨t, _, h⟩)
  · omega
  · have := amp_le f t; omega

theorem classify_congr {f g : List Byte} (hf : f.length = 33) (hg : g.length = 33) (h : ∀ p ∈ frSid, msb g p = msb f p) :
    frClassify g = frClassify f := by
  have : frSid.filter (msb g) = frSid.filter (msb f) := List.filter_congr fun p hp => h p hp
  obtain ⟨a1, a2, a3⟩ := fr_classify hf
  obtain ⟨b1, b2, b3⟩ := fr_classify hg
  rw [this] at b1 b2 b3
  cases h : frClassify f with
  | speech => exact b1.mpr (a1.mp h)
  | invalid => exact b3.mpr (a3.mp h)
  | valid => exact b2.mpr (a2.mp h)

theorem frSid_plain : ∀ p ∈ frSid, (isAmp p || isGrid p) = false := by decide +kernel

/-- C148: what replaces lost speech is speech to the receiver, never a SID. -/
theorem lost_speech_is_speech (e : Ecu) {f : List Byte} (hf : Accepts false f) (hc : frClassify f = .speech) (n : Nat) :
    frClassify (subst (frameIn e false f) n) = .speech := by
  obtain ⟨h0, h⟩ := lost_speech e hf hc
  cases n with
  | zero => rw [h0]; exact hc
  | succ n =>
    by_cases hn : n = 0 ∨ ∃ t < 4, amp f t > 4 * n
    · obtain ⟨hb, _⟩ := (h n).1 hn
      rw [classify_congr hf.2.1 (hb.1.trans hf.2.1) fun p hp => hb.2 p (frSid_plain p hp)]
      exact hc
    · rw [(h n).2 hn]; decide +kernel

/-! ### Lost comfort noise -/

/-- A pristine SID: signature and LARc of `f`, `x` as block amplitude throughout, zeros elsewhere. -/
def IsSid (f : List Byte) (x : Nat) (g : List Byte) : Prop :=
  g.length = 33 ∧ (∀ i < 40, msb g i = msb f i) ∧ (∀ t < 4, amp g t = x) ∧
    ∀ i, 40 ≤ i → isAmp i = false → msb g i = false

theorem reemit_spec {s : Ecu} {f : List Byte} (hp : s.sidPrefix = f.take 5) (hf : 5 ≤ f.length) (hx : s.sidXmaxc < 64) :
    IsSid f s.sidXmaxc (reemitSid s) := by
  have hpl : s.sidPrefix.length = 5 := by rw [hp, List.length_take]; omega
  have hlen : (reemitSid s).length = 33 := by unfold reemitSid sidSub; simp [hpl]
  have hlow : ∀ j < 5, (reemitSid s).getD j 0 = f.getD j 0 := by
    intro j hj
    unfold reemitSid
    rw [List.getD_eq_getElem?_getD, List.getElem?_append_left (by omega), hp, List.getElem?_take, if_pos hj,
      List.getD_eq_getElem?_getD]
  have hhigh : ∀ j < 28, (reemitSid s).getD (5 + j) 0 =
      if j % 7 = 1 then BitVec.ofNat 8 (s.sidXmaxc / 2) else if j % 7 = 2 then BitVec.ofNat 8 (s.sidXmaxc % 2 * 128) else 0 := by
    intro j hj
    unfold reemitSid
    rw [List.getD_eq_getElem?_getD, List.getElem?_append_right (by omega), hpl, show 5 + j - 5 = j by omega]
    have : j = 0 ∨ j = 1 ∨ j = 2 ∨ j = 3 ∨ j = 4 ∨ j = 5 ∨ j = 6 ∨ j = 7 ∨ j = 8 ∨ j = 9 ∨ j = 10 ∨ j = 11 ∨ j = 12 ∨
      j = 13 ∨ j = 14 ∨ j = 15 ∨ j = 16 ∨ j = 17 ∨ j = 18 ∨ j = 19 ∨ j = 20 ∨ j = 21 ∨ j = 22 ∨ j = 23 ∨ j = 24 ∨
      j = 25 ∨ j = 26 ∨ j = 27 := by omega
    rcases this with rfl | rfl | rfl | rfl | rfl | rfl | rfl | rfl | rfl | rfl | rfl | rfl | rfl | rfl | rfl | rfl | rfl |
      rfl | rfl | rfl | rfl | rfl | rfl | rfl | rfl | rfl | rfl | rfl <;> rfl
  refine ⟨hlen, fun i hi => ?_, fun t ht => ?_, fun i hi ha => ?_⟩
  · rw [msb_def, msb_def, hlow _ (by omega)]
  · rw [← xmaxc_eq]
    unfold xmaxc
    rw [show t * 7 + 6 = 5 + (t * 7 + 1) by omega, show t * 7 + 7 = 5 + (t * 7 + 2) by omega, hhigh _ (by omega),
      hhigh _ (by omega), if_pos (by omega), if_neg (by omega), if_pos (by omega)]
    simp only [BitVec.toNat_ofNat]
    omega
  · by_cases hend : 264 ≤ i
    · exact msb_end (by rw [hlen]; omega)
    rw [msb_def, show i / 8 = 5 + (i / 8 - 5) by omega, hhigh _ (by omega)]
    unfold isAmp at ha
    simp only [Bool.and_eq_false_iff, decide_eq_false_iff_not] at ha
    by_cases h1 : (i / 8 - 5) % 7 = 1
    · rw [if_pos h1, ofNat_bit _ _ (by omega)]
      have hk : i % 8 = 0 ∨ i % 8 = 1 ∨ i % 8 = 2 := by omega
      rw [decide_eq_false_iff_not]
      rcases hk with h | h | h <;> rw [h] <;> simp only [Nat.reducePow, Nat.reduceSub] <;> omega
    · rw [if_neg h1]
      by_cases h2 : (i / 8 - 5) % 7 = 2
      · rw [if_pos h2, ofNat_bit _ _ (by omega)]
        rw [decide_eq_false_iff_not]
        have hk : i % 8 = 1 ∨ i % 8 = 2 ∨ i % 8 = 3 ∨ i % 8 = 4 ∨ i % 8 = 5 ∨ i % 8 = 6 ∨ i % 8 = 7 := by omega
        rcases hk with h | h | h | h | h | h | h <;> rw [h] <;> simp only [Nat.reducePow, Nat.reduceSub] <;> omega
      · rw [if_neg h2]; simp

/-- The state before substitution number `n` of a lost SID. -/
theorem sid_state {s : Ecu} (hs : s.pr = .sid) (hr : s.reemit = 0) :
    ∀ n, (n ≤ 47 → (lost s n).pr = .sid ∧ (lost s n).reemit = n ∧ (lost s n).sidXmaxc = s.sidXmaxc ∧
        (lost s n).sidPrefix = s.sidPrefix) ∧
      (48 ≤ n → (n = 48 ∨ s.sidXmaxc > 4 * (n - 47)) → (lost s n).pr = .sidMuting ∧
        (lost s n).sidXmaxc = s.sidXmaxc - 4 * (n - 47) ∧ (lost s n).sidPrefix = s.sidPrefix) ∧
      (48 ≤ n → ¬ (n = 48 ∨ s.sidXmaxc > 4 * (n - 47)) → (lost s n).pr = .noData) := by
  intro n
  induction n with
  | zero => exact ⟨fun _ => ⟨hs, hr, rfl, rfl⟩, fun h => absurd h (by decide), fun h => absurd h (by decide)⟩
  | succ n ih =>
    have hstep : lost s (n + 1) = (output (lost s n)).1 := rfl
    rw [hstep]
    obtain ⟨i1, i2, i3⟩ := ih
    by_cases h47 : n ≤ 47
    · obtain ⟨a, b, c, d⟩ := i1 h47
      unfold output
      simp only [a, b]
      by_cases h46 : n = 47
      · subst h46
        refine ⟨fun h => absurd h (by decide), fun _ _ => ?_, fun _ h => absurd (Or.inl rfl) h⟩
        rw [if_pos (by decide)]
        unfold reduceSid
        simp only [c, d]
        by_cases hx : s.sidXmaxc > 4
        · rw [if_pos hx]; exact ⟨trivial, rfl, rfl⟩
        · rw [if_neg hx]; exact ⟨trivial, show 0 = _ by omega, rfl⟩
      · rw [if_neg (by omega)]
        refine ⟨fun _ => ⟨rfl, by show (n + 1) % 256 = n + 1; omega, c, d⟩, fun h => by omega, fun h => by omega⟩
    · by_cases hm : n = 48 ∨ s.sidXmaxc > 4 * (n - 47)
      · obtain ⟨a, b, c⟩ := i2 (by omega) hm
        unfold output
        simp only [a]
        unfold reduceSid
        rw [b]
        by_cases hx : s.sidXmaxc - 4 * (n - 47) > 4
        · simp only [if_pos hx]
          refine ⟨fun h => by omega, fun _ _ => ⟨a, ?_, c⟩, fun _ h => ?_⟩
          · show s.sidXmaxc - 4 * (n - 47) - 4 = _; omega
          · exact absurd (Or.inr (by omega)) h
        · simp only [if_neg hx]
          refine ⟨fun h => by omega, fun _ h => ?_, fun _ _ => rfl⟩
          rcases h with h | h <;> omega
      · have a := i3 (by omega) hm
        unfold output
        simp only [a]
        refine ⟨fun h => by omega, fun _ h => ?_, fun _ _ => trivial⟩
        exact absurd (show n = 48 ∨ _ from Or.inr (by rcases h with h | h <;> omega)) hm

/-- C148: behind a valid SID the first 47 lost frames are replaced by that SID made
perfect, with the block amplitude of its last subframe throughout; the following
ones have it lowered by 4 each time, until nothing is left and the silence frame
follows for good. -/
theorem lost_sid (e : Ecu) {f : List Byte} (hf : Accepts false f) (hc : frClassify f = .valid) :
    (∀ n < 47, IsSid f (amp f 3) (subst (frameIn e false f) n)) ∧
    IsSid f (amp f 3 - 4) (subst (frameIn e false f) 47) ∧
    ∀ n, 48 ≤ n → (amp f 3 > 4 * (n - 46) → IsSid f (amp f 3 - 4 * (n - 46)) (subst (frameIn e false f) n)) ∧
      (amp f 3 ≤ 4 * (n - 46) → subst (frameIn e false f) n = silence) := by
  rw [frameIn_eq, if_pos hf]
  have hpr : (input e f).pr = .sid := by unfold input; simp only [hc]
  have hre : (input e f).reemit = 0 := by unfold input; simp only [hc]
  have hpx : (input e f).sidPrefix = f.take 5 := by unfold input; simp only [hc]
  have hxm : (input e f).sidXmaxc = amp f 3 := by
    rw [← xmaxc_eq]
    unfold input; simp only [hc]; rfl
  have hx := amp_le f 3
  have hl : 5 ≤ f.length := by have := hf.2.1; omega
  have key := sid_state hpr hre
  refine ⟨fun n hn => ?_, ?_, fun n hn => ?_⟩
  · obtain ⟨a, b, c, d⟩ := (key n).1 (by omega)
    have hout : subst (input e f) n = reemitSid { lost (input e f) n with reemit := (n + 1) % 256 } := by
      show (output (lost (input e f) n)).2 = _
      unfold output
      simp only [a, b]
      rw [if_neg (by omega)]
    rw [hout, ← hxm, ← c]
    exact reemit_spec (s := { lost (input e f) n with reemit := (n + 1) % 256 }) (d.trans hpx) hl
      (show (lost (input e f) n).sidXmaxc < 64 by rw [c, hxm]; exact hx)
  · obtain ⟨a, b, c, d⟩ := (key 47).1 (by omega)
    obtain ⟨a', b', d'⟩ := (key 48).2.1 (by omega) (Or.inl rfl)
    have hout : subst (input e f) 47 = reemitSid (lost (input e f) 48) := by
      show (output (lost (input e f) 47)).2 = reemitSid (output (lost (input e f) 47)).1
      unfold output
      simp only [a]
    rw [hout, ← hxm, show (4 : Nat) = 4 * (48 - 47) by decide, ← b']
    exact reemit_spec (d'.trans hpx) hl (by rw [b', hxm]; omega)
  · have hnext := key (n + 1)
    by_cases hm : n = 48 ∨ amp f 3 > 4 * (n - 47)
    · obtain ⟨a, b, d⟩ := (key n).2.1 hn (by rw [hxm]; exact hm)
      refine ⟨fun h => ?_, fun h => ?_⟩
      · obtain ⟨a', b', d'⟩ := hnext.2.1 (by omega) (Or.inr (by rw [hxm]; omega))
        have hout : subst (input e f) n = reemitSid (lost (input e f) (n + 1)) := by
          show (output (lost (input e f) n)).2 = reemitSid (output (lost (input e f) n)).1
          unfold output
          simp only [a]
          have hr : (reduceSid (lost (input e f) n)).2 = false := by
            unfold reduceSid
            rw [b, hxm, if_pos (by omega)]
          rw [hr]; rfl
        rw [hout, show amp f 3 - 4 * (n - 46) = (lost (input e f) (n + 1)).sidXmaxc by rw [b', hxm]; omega]
        exact reemit_spec (d'.trans hpx) hl (by rw [b', hxm]; omega)
      · show (output (lost (input e f) n)).2 = silence
        unfold output
        simp only [a]
        have hr : (reduceSid (lost (input e f) n)).2 = true := by
          unfold reduceSid
          rw [b, hxm, if_neg (by omega)]
        rw [hr]; rfl
    · have a := (key n).2.2 hn (by rw [hxm]; exact hm)
      refine ⟨fun h => absurd (Or.inr (by omega)) hm, fun _ => ?_⟩
      show (output (lost (input e f) n)).2 = silence
      unfold output
      simp only [a]

theorem sid_bits_unused : ∀ p ∈ frSid, 40 ≤ p ∧ isAmp p = false := by decide +kernel

/-- C148: such a substitution is a valid SID to the receiver. -/
theorem isSid_valid {f g : List Byte} {x : Nat} (h : IsSid f x g) : frClassify g = .valid := by
  rw [(fr_classify h.1).2.1]
  have : frSid.filter (msb g) = [] := by
    rw [List.filter_eq_nil_iff]; intro p hp
    rw [h.2.2.2 p (sid_bits_unused p hp).1 (sid_bits_unused p hp).2]; decide
  rw [this]; decide

/-! ### Any course of events -/

/-- What happens to the unit. -/
inductive Event where
  | recv (bfi : Bool) (f : List Byte)
  | lose

def step (s : Ecu) : Event → Ecu
  | .recv bfi f => frameIn s bfi f
  | .lose => (frameOut s).1

def run (evs : List Event) : Ecu := evs.foldl step init

/-- The last frame accepted. -/
def lastAccepted : List Event → Option (List Byte)
  | [] => none
  | .recv bfi f :: evs => (lastAccepted evs).or (if Accepts bfi f then some f else none)
  | .lose :: evs => lastAccepted evs

theorem output_lastSid (s : Ecu) : (output s).1.lastSid = s.lastSid := by
  unfold output reduceSid
  cases s.pr <;> simp only <;> (try split) <;> (try split) <;> rfl

theorem input_lastSid (s : Ecu) (f : List Byte) : (input s f).lastSid = decide (frClassify f ≠ SidClass.speech) := by
  unfold input
  cases frClassify f <;> simp

/-- C148: there is a DTX pause exactly when the last accepted frame was a SID, valid or not. -/
theorem dtx_pause (evs : List Event) :
    isDtxPause (run evs) = true ↔ ∃ f, lastAccepted evs = some f ∧ frClassify f ≠ .speech := by
  have key : ∀ (evs : List Event) (s : Ecu), (evs.foldl step s).lastSid =
      match lastAccepted evs with
      | none => s.lastSid
      | some f => decide (frClassify f ≠ SidClass.speech) := by
    intro evs
    induction evs with
    | nil => intro s; rfl
    | cons ev evs ih =>
      intro s
      rw [List.foldl_cons, ih]
      cases ev with
      | lose =>
        show _ = match lastAccepted evs with | none => s.lastSid | some f => decide (frClassify f ≠ SidClass.speech)
        rw [show (step s .lose).lastSid = s.lastSid from output_lastSid s]
      | recv bfi f =>
        show _ = match (lastAccepted evs).or (if Accepts bfi f then some f else none) with
          | none => s.lastSid | some f => decide (frClassify f ≠ SidClass.speech)
        cases h : lastAccepted evs with
        | some g => rfl
        | none =>
          show (frameIn s bfi f).lastSid = _
          rw [frameIn_eq]
          by_cases ha : Accepts bfi f
          · rw [if_pos ha, if_pos ha, input_lastSid]; rfl
          · rw [if_neg ha, if_neg ha]; rfl
  unfold isDtxPause run
  rw [key]
  cases h : lastAccepted evs with
  | none => simp [init]
  | some f => simp

/-- A full rate frame: 33 octets, the first four bits being 1101. -/
def Framed (g : List Byte) : Prop :=
  g.length = 33 ∧ msb g 0 = true ∧ msb g 1 = true ∧ msb g 2 = false ∧ msb g 3 = true

/-- Holds in every state. -/
def Inv (s : Ecu) : Prop :=
  (s.pr = .speech ∨ s.pr = .spMuting → Framed s.speechFrame) ∧
  (s.pr = .sid ∨ s.pr = .sidMuting → ∃ f, Framed f ∧ s.sidPrefix = f.take 5) ∧ s.sidXmaxc < 64

theorem sig_bits : ∀ b : Byte, b.toNat / 16 = 0xD →
    b.getLsbD 7 = true ∧ b.getLsbD 6 = true ∧ b.getLsbD 5 = false ∧ b.getLsbD 4 = true := by decide +kernel

theorem framed_of_accepts {bfi : Bool} {f : List Byte} (h : Accepts bfi f) : Framed f := ⟨h.2.1, sig_bits _ h.2.2⟩

theorem framed_same {P : Nat → Bool} {f g : List Byte} (h : SameBut P f g) (hP : ∀ i < 4, P i = false) (hf : Framed f) :
    Framed g :=
  ⟨h.1.trans hf.1, (h.2 0 (hP 0 (by decide))).trans hf.2.1, (h.2 1 (hP 1 (by decide))).trans hf.2.2.1,
    (h.2 2 (hP 2 (by decide))).trans hf.2.2.2.1, (h.2 3 (hP 3 (by decide))).trans hf.2.2.2.2⟩

theorem framed_sid {s : Ecu} {f : List Byte} (hf : Framed f) (hp : s.sidPrefix = f.take 5) (hx : s.sidXmaxc < 64) :
    Framed (reemitSid s) := by
  obtain ⟨h1, h2, _⟩ := reemit_spec hp (by rw [hf.1]; decide) hx
  exact ⟨h1, (h2 0 (by decide)).trans hf.2.1, (h2 1 (by decide)).trans hf.2.2.1, (h2 2 (by decide)).trans hf.2.2.2.1,
    (h2 3 (by decide)).trans hf.2.2.2.2⟩

theorem silence_framed : Framed silence := by unfold Framed; decide +kernel

theorem output_inv {s : Ecu} (h : Inv s) : Inv (output s).1 ∧ Framed (output s).2 := by
  obtain ⟨h1, h2, h3⟩ := h
  unfold output
  cases hp : s.pr with
  | noData =>
    exact ⟨⟨h1, h2, h3⟩, silence_framed⟩
  | speech =>
    have hf := h1 (Or.inl hp)
    refine ⟨⟨fun _ => hf, fun h => ?_, h3⟩, hf⟩
    rcases h with h | h <;> exact absurd h (by simp)
  | spMuting =>
    have hf := h1 (Or.inr hp)
    obtain ⟨r1, _, _⟩ := reduce_spec hf.1
    have hr : Framed (reduceXmaxc s.speechFrame).1 := framed_same r1 (by decide) hf
    obtain ⟨g1, _⟩ := grid_spec s.prng hr.1
    refine ⟨⟨fun _ => hr, fun h => ?_, h3⟩, framed_same g1 (by decide) hr⟩
    simp only at h
    split at h <;> rcases h with h | h <;> exact absurd h (by simp)
  | sid =>
    obtain ⟨f, hf, hpx⟩ := h2 (Or.inl hp)
    simp only
    by_cases hc : (s.reemit + 1) % 256 ≥ 48
    · rw [if_pos hc]
      unfold reduceSid
      simp only
      by_cases hx : s.sidXmaxc > 4
      · rw [if_pos hx]
        refine ⟨⟨fun h => ?_, fun _ => ⟨f, hf, hpx⟩, show s.sidXmaxc - 4 < 64 by omega⟩,
          framed_sid hf hpx (show s.sidXmaxc - 4 < 64 by omega)⟩
        rcases h with h | h <;> exact absurd h (by simp)
      · rw [if_neg hx]
        refine ⟨⟨fun h => ?_, fun _ => ⟨f, hf, hpx⟩, show 0 < 64 by omega⟩, framed_sid hf hpx (show 0 < 64 by omega)⟩
        rcases h with h | h <;> exact absurd h (by simp)
    · rw [if_neg hc]
      refine ⟨⟨fun h => ?_, fun _ => ⟨f, hf, hpx⟩, h3⟩, framed_sid hf hpx h3⟩
      rcases h with h | h <;> exact absurd h (by simp)
  | sidMuting =>
    obtain ⟨f, hf, hpx⟩ := h2 (Or.inr hp)
    unfold reduceSid
    simp only
    by_cases hx : s.sidXmaxc > 4
    · rw [if_pos hx]
      refine ⟨⟨fun h => ?_, fun _ => ⟨f, hf, hpx⟩, show s.sidXmaxc - 4 < 64 by omega⟩,
          framed_sid hf hpx (show s.sidXmaxc - 4 < 64 by omega)⟩
      rcases h with h | h <;> exact absurd (hp.symm.trans h) (by simp)
    · rw [if_neg hx]
      refine ⟨⟨fun h => ?_, fun h => ?_, show 0 < 64 by omega⟩, silence_framed⟩
      · rcases h with h | h <;> exact absurd h (by simp)
      · rcases h with h | h <;> exact absurd h (by simp)

theorem input_inv {s : Ecu} {f : List Byte} (h : Inv s) (hf : Framed f) : Inv (input s f) := by
  obtain ⟨h1, h2, h3⟩ := h
  unfold input
  cases frClassify f with
  | speech => exact ⟨fun _ => hf, fun h => by rcases h with h | h <;> exact absurd h (by simp), h3⟩
  | invalid => exact ⟨h1, h2, h3⟩
  | valid =>
    refine ⟨fun h => by rcases h with h | h <;> exact absurd h (by simp), fun _ => ⟨f, hf, rfl⟩, ?_⟩
    exact xmaxc_lt f 3

/-- C148: whatever is received and lost, in any order, every substitution is a full
rate frame of 33 octets with the signature. -/
theorem always_framed (evs : List Event) : Framed (frameOut (run evs)).2 := by
  have key : ∀ (evs : List Event) (s : Ecu), Inv s → Inv (evs.foldl step s) := by
    intro evs
    induction evs with
    | nil => intro s h; exact h
    | cons ev evs ih =>
      intro s h
      rw [List.foldl_cons]
      apply ih
      cases ev with
      | lose => exact (output_inv h).1
      | recv bfi f =>
        show Inv (frameIn s bfi f)
        rw [frameIn_eq]
        by_cases ha : Accepts bfi f
        · rw [if_pos ha]; exact input_inv h (framed_of_accepts ha)
        · rw [if_neg ha]; exact h
  refine (output_inv (key evs init ?_)).2
  refine ⟨fun h => ?_, fun h => ?_, by decide⟩ <;> rcases h with h | h <;> exact absurd h (by decide)

/-- C148: a unit which has accepted no speech and no valid SID puts out silence. -/
theorem silent_start (evs : List Event)
    (h : ∀ bfi f, Event.recv bfi f ∈ evs → Accepts bfi f → frClassify f = .invalid) :
    (frameOut (run evs)).2 = silence := by
  have key : ∀ (evs : List Event) (s : Ecu), s.pr = .noData →
      (∀ bfi f, Event.recv bfi f ∈ evs → Accepts bfi f → frClassify f = .invalid) → (evs.foldl step s).pr = .noData := by
    intro evs
    induction evs with
    | nil => intro s hs _; exact hs
    | cons ev evs ih =>
      intro s hs h
      rw [List.foldl_cons]
      refine ih _ ?_ fun bfi f hm => h bfi f (List.mem_cons_of_mem _ hm)
      cases ev with
      | lose =>
        show (output s).1.pr = _
        unfold output
        simp only [hs]
      | recv bfi f =>
        show (frameIn s bfi f).pr = _
        rw [frameIn_eq]
        by_cases ha : Accepts bfi f
        · rw [if_pos ha]
          unfold input
          simp only [h bfi f (List.mem_cons_self ..) ha]
          exact hs
        · rw [if_neg ha]; exact hs
  have := key evs init rfl h
  show (output (run evs)).2 = silence
  unfold output run
  simp only [this]

/-- C148: an invalid SID received between lost frames changes nothing about the
substitutions of speech; while a SID is repeated it starts the count of 47 anew. -/
theorem invalid_sid (e : Ecu) {f : List Byte} (hf : Accepts false f) (hc : frClassify f = .invalid) :
    (e.pr ≠ .sid → ∀ n, subst (frameIn e false f) n = subst e n) ∧
    (e.pr = .sid → ∀ n < 47, subst (frameIn e false f) n = reemitSid e) := by
  rw [frameIn_eq, if_pos hf]
  have hi : input e f = { e with reemit := 0, lastSid := true } := by unfold input; simp only [hc]
  rw [hi]
  constructor
  · intro hp n
    have key : ∀ n, ∃ r l, lost { e with reemit := 0, lastSid := true } n = { lost e n with reemit := r, lastSid := l } ∧
        (lost e n).pr ≠ .sid := by
      intro n
      induction n with
      | zero => exact ⟨0, true, rfl, hp⟩
      | succ n ih =>
        obtain ⟨r, l, h1, h2⟩ := ih
        refine ⟨r, l, ?_, ?_⟩
        · show (output (lost _ n)).1 = { (output (lost e n)).1 with reemit := r, lastSid := l }
          rw [h1]
          unfold output reduceSid
          cases hq : (lost e n).pr with
          | sid => exact absurd hq h2
          | noData => simp only [hq]
          | speech => rfl
          | spMuting => rfl
          | sidMuting => simp only; split <;> rfl
        · show (output (lost e n)).1.pr ≠ .sid
          unfold output reduceSid
          cases hq : (lost e n).pr with
          | sid => exact absurd hq h2
          | noData => simp [hq]
          | speech => simp
          | spMuting => simp only; split <;> simp
          | sidMuting => simp only; split <;> simp
    obtain ⟨r, l, h1, h2⟩ := key n
    show (output (lost _ n)).2 = (output (lost e n)).2
    rw [h1]
    unfold output reduceSid
    cases hq : (lost e n).pr with
    | sid => exact absurd hq h2
    | noData => rfl
    | speech => rfl
    | spMuting => rfl
    | sidMuting => simp only; split <;> rfl
  · intro hp n hn
    obtain ⟨a, b, c, d⟩ := (sid_state (s := { e with reemit := 0, lastSid := true }) hp rfl n).1 (by omega)
    show (output (lost _ n)).2 = _
    unfold output
    simp only [a, b]
    rw [if_neg (by omega)]
    unfold reemitSid
    simp only [c, d]

/-! Speech lost for good, and comfort noise lost for good. -/
def speechEx : List Byte := [0xDA, 0xA7, 0xAA, 0xA5, 0x1A] ++ ([0x50, 0x24, 0xB8, 0xE4, 0x6D, 0xB9, 0x1B] ++
  [0x50, 0x20, 0x38, 0xE4, 0x6D, 0xB9, 0x1B] ++ [0x50, 0x20, 0x38, 0xE4, 0x6D, 0xB9, 0x1B] ++ [0x50, 0x20, 0x38, 0xE4, 0x6D, 0xB9, 0x1B])

example : Accepts false speechEx ∧ frClassify speechEx = .speech ∧ amp speechEx 0 = 9 ∧ amp speechEx 1 = 0 ∧
    amp (subst (frameIn init false speechEx) 2) 0 = 1 ∧ amp (subst (frameIn init false speechEx) 3) 0 = 0 ∧
    subst (frameIn init false speechEx) 3 ≠ silence ∧ subst (frameIn init false speechEx) 4 = silence := by decide +kernel
example : Accepts false sidEx ∧ amp sidEx 3 = 43 ∧ subst (frameIn init false sidEx) 46 = sidEx ∧
    amp (subst (frameIn init false sidEx) 47) 0 = 39 ∧ subst (frameIn init false sidEx) 57 = silence := by decide +kernel
example : isDtxPause (run [.recv false sidEx, .lose, .recv true speechEx]) = true ∧
    isDtxPause (run [.recv false sidEx, .lose, .recv false speechEx, .lose]) = false := by decide +kernel
example : frClassify (sidEx.set 8 0xFF) = .invalid ∧ Accepts false (sidEx.set 8 0xFF) := by decide +kernel

end Verif.Codec
