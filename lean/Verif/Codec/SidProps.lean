import Verif.Codec.Model
import Verif.Bitvec.Lemmas
import Verif.Tch.Model
/-!
SID frames: classification, check, reset and preening (C147).
-/
namespace Verif.Codec
open Verif.Bitvec

/-- The number of positions at which the frame does not carry the bit `w`. -/
def wrong (f : List Byte) (w : Bool) (ps : List Nat) : Nat := (ps.filter fun p => msb f p != w).length

def bitOf (w : Bool) : BitVal := if w then .one else .zero

theorem getBit_ne {f : List Byte} {p : Nat} (w : Bool) (h : p < 8 * f.length) :
    (getBitPos ⟨0, f⟩ p ≠ some (bitOf w)) ↔ (msb f p != w) = true := by
  rw [getBitPos_ok (bv := ⟨0, f⟩) h]
  cases hm : msb f p <;> cases w <;> simp [hm, bitOf]

theorem classifyLoop_spec (f : List Byte) (w : Bool) : ∀ (ps : List Nat) (n : Nat), n < 16 → (∀ p ∈ ps, p < 8 * f.length) →
    classifyLoop f (bitOf w) ps n =
      if n + wrong f w ps ≥ 16 then .speech else if n + wrong f w ps ≥ 2 then .invalid else .valid := by
  intro ps
  induction ps with
  | nil => intro n hn _; simp [classifyLoop, wrong]; intro h; omega
  | cons p ps ih =>
    intro n hn h
    have hp := getBit_ne w (h p (List.mem_cons_self ..))
    have ht : ∀ q ∈ ps, q < 8 * f.length := fun q hq => h q (List.mem_cons_of_mem _ hq)
    unfold classifyLoop
    by_cases hb : (msb f p != w) = true
    · have hw : wrong f w (p :: ps) = wrong f w ps + 1 := by simp [wrong, hb]
      simp only [if_pos (hp.mpr hb)]
      by_cases hn16 : n + 1 ≥ 16
      · rw [if_pos hn16, if_pos (by omega)]
      · rw [if_neg hn16, ih (n + 1) (by omega) ht, hw]
        simp only [show n + 1 + wrong f w ps = n + (wrong f w ps + 1) by omega]
    · have hw : wrong f w (p :: ps) = wrong f w ps := by simp [wrong, hb]
      simp only [if_neg (fun h => hb (hp.mp h))]
      rw [if_neg (by omega), ih n hn ht, hw]

theorem frSid_lt : ∀ p ∈ frSid, p < 264 := by decide +kernel
theorem efrSid_lt : ∀ p ∈ efrSid.map (· + 4), p < 248 := by decide +kernel

/-- C147: a full rate frame is speech if 16 or more of the code word bits are
ones, a valid SID if at most one is, and an invalid SID otherwise. -/
theorem fr_classify {f : List Byte} (hf : f.length = 33) :
    (frClassify f = .speech ↔ 16 ≤ (frSid.filter (msb f)).length) ∧
    (frClassify f = .valid ↔ (frSid.filter (msb f)).length ≤ 1) ∧
    (frClassify f = .invalid ↔ 2 ≤ (frSid.filter (msb f)).length ∧ (frSid.filter (msb f)).length ≤ 15) := by
  have h := classifyLoop_spec f false frSid 0 (by decide) (fun p hp => by have := frSid_lt p hp; omega)
  have hw : wrong f false frSid = (frSid.filter (msb f)).length := by unfold wrong; congr 2; funext p; simp
  rw [hw] at h
  unfold frClassify
  rw [show (BitVal.zero) = bitOf false from rfl, h]
  generalize (frSid.filter (msb f)).length = n
  simp only [Nat.zero_add]
  by_cases h1 : n ≥ 16
  · simp [h1]; omega
  · by_cases h2 : n ≥ 2
    · simp [h1, h2]; omega
    · simp [h1, h2]; omega

/-- C147: likewise for enhanced full rate, with the zeros among the code word bits. -/
theorem efr_classify {f : List Byte} (hf : f.length = 31) :
    (efrClassify f = .speech ↔ 16 ≤ (efrSid.filter fun p => !msb f (p + 4)).length) ∧
    (efrClassify f = .valid ↔ (efrSid.filter fun p => !msb f (p + 4)).length ≤ 1) ∧
    (efrClassify f = .invalid ↔ 2 ≤ (efrSid.filter fun p => !msb f (p + 4)).length ∧
      (efrSid.filter fun p => !msb f (p + 4)).length ≤ 15) := by
  have h := classifyLoop_spec f true (efrSid.map (· + 4)) 0 (by decide) (fun p hp => by have := efrSid_lt p hp; omega)
  have hw : wrong f true (efrSid.map (· + 4)) = (efrSid.filter fun p => !msb f (p + 4)).length := by
    unfold wrong
    rw [List.filter_map, List.length_map]
    congr 2; funext p; simp
  rw [hw] at h
  unfold efrClassify
  rw [show (BitVal.one) = bitOf true from rfl, h]
  generalize (efrSid.filter fun p => !msb f (p + 4)).length = n
  simp only [Nat.zero_add]
  by_cases h1 : n ≥ 16
  · simp [h1]; omega
  · by_cases h2 : n ≥ 2
    · simp [h1, h2]; omega
    · simp [h1, h2]; omega

/-- C147: the code word of full rate consists of the bits of the RPE pulses
(behind the 17 bits of lag, gain, grid and block amplitude of each subframe)
which the channel coding protects, i.e. which are among the first 182 in the
order of importance. -/
theorem fr_positions (p : Nat) :
    p ∈ frSid ↔ 40 ≤ p ∧ p < 264 ∧ 17 ≤ (p - 40) % 56 ∧ (p - 4) ∈ Tch.frOrder.take 182 := by
  by_cases h : p < 264
  · revert p; decide +kernel
  · constructor
    · intro hp; exact absurd (frSid_lt p hp) h
    · intro hp; exact absurd hp.2.1 h

/-! ### Masks -/

theorem msb_def (f : List Byte) (i : Nat) : msb f i = (f.getD (i / 8) 0).getLsbD (7 - i % 8) := rfl

theorem msb_end {f : List Byte} {i : Nat} (h : 8 * f.length ≤ i) : msb f i = false := by
  rw [msb_def, List.getD_eq_getElem?_getD, List.getElem?_eq_none (by omega)]; simp

theorem msb_and (f m : List Byte) (i : Nat) (h : i < 8 * f.length) :
    msb (f.mapIdx fun j b => b &&& m.getD j 0xFF) i = (msb f i && (m.getD (i / 8) 0xFF).getLsbD (7 - i % 8)) := by
  have hi : i / 8 < f.length := by omega
  rw [msb_def, msb_def, List.getD_eq_getElem?_getD, List.getD_eq_getElem?_getD (l := f), List.getElem?_mapIdx,
    List.getElem?_eq_getElem hi]
  simp only [Option.map_some, Option.getD_some, BitVec.getLsbD_and]

theorem msb_or (f m : List Byte) (i : Nat) (h : i < 8 * f.length) :
    msb (f.mapIdx fun j b => b ||| m.getD j 0) i = (msb f i || msb m i) := by
  have hi : i / 8 < f.length := by omega
  rw [msb_def, msb_def, msb_def, List.getD_eq_getElem?_getD, List.getD_eq_getElem?_getD (l := f), List.getElem?_mapIdx,
    List.getElem?_eq_getElem hi]
  simp only [Option.map_some, Option.getD_some, BitVec.getLsbD_or]

/-- Frames of one length with the same bits are equal. -/
theorem eq_of_msb {f g : List Byte} (hl : f.length = g.length) (h : ∀ i, i < 8 * f.length → msb f i = msb g i) : f = g :=
  ext_bitAt hl h

/-- The bits of a full rate frame which a SID uses: signature and LARc, and the
block amplitudes of the subframes. -/
def frUsed (i : Nat) : Bool := decide (i < 40) || (decide (11 ≤ (i - 40) % 56) && decide ((i - 40) % 56 < 17))

theorem frReset_length (f : List Byte) : (frReset f).length = f.length := by unfold frReset; simp

theorem frKeep_bits : ∀ i < 264, (frKeep.getD (i / 8) 0xFF).getLsbD (7 - i % 8) = frUsed i := by decide +kernel

/-- C147: resetting a full rate SID keeps signature, LARc and block amplitudes and
clears every other bit. -/
theorem fr_reset_bits {f : List Byte} (hf : f.length = 33) {i : Nat} (hi : i < 264) :
    msb (frReset f) i = (msb f i && frUsed i) := by
  unfold frReset
  rw [msb_and f frKeep i (by omega), frKeep_bits i hi]

theorem efrReset_length (f : List Byte) : (efrReset f).length = f.length := by unfold efrReset; simp

theorem efrSet_bits : ∀ i < 248, msb efrSet i = decide (4 ≤ i ∧ i - 4 ∈ efrSid) := by decide +kernel

/-- C147: resetting an enhanced full rate SID sets the code word and nothing else. -/
theorem efr_reset_bits {f : List Byte} (hf : f.length = 31) {i : Nat} (hi : i < 248) :
    msb (efrReset f) i = (msb f i || decide (4 ≤ i ∧ i - 4 ∈ efrSid)) := by
  unfold efrReset
  rw [msb_or f efrSet i (by omega), efrSet_bits i hi]

theorem hrReset_length (f : List Byte) : (hrReset f).length = f.length := by unfold hrReset; simp

theorem hrSet_bits : ∀ i < 112, msb hrSet i = decide (33 ≤ i) := by decide +kernel

/-- C147: resetting a half rate SID sets the last 79 of the 112 bits and nothing else. -/
theorem hr_reset_bits {f : List Byte} (hf : f.length = 14) {i : Nat} (hi : i < 112) :
    msb (hrReset f) i = (msb f i || decide (33 ≤ i)) := by
  unfold hrReset
  rw [msb_or f hrSet i (by omega), hrSet_bits i hi]

/-! ### Checks -/

theorem frSid_unused : ∀ p ∈ frSid, frUsed p = false := by decide +kernel

theorem all_zero (f : List Byte) (w : Bool) (ps : List Nat) :
    (ps.all fun p => getBitPos ⟨0, f⟩ p = some (bitOf w)) = (ps.all fun p => decide (p < 8 * f.length) && (msb f p == w)) := by
  congr 1; funext p
  by_cases h : p < 8 * f.length
  · rw [getBitPos_ok (bv := ⟨0, f⟩) h]
    cases hm : msb f p <;> cases w <;> simp [hm, bitOf, h]
  · rw [getBitPos_end (bv := ⟨0, f⟩) (by simpa using h)]
    simp [h]

/-- C147: the full rate check accepts exactly what has the signature, at least 33
octets and no one in the code word. -/
theorem fr_check {f : List Byte} (hf : f ≠ []) :
    frCheckSid f = some true ↔ (f.headD 0).toNat / 16 = 0xD ∧ 33 ≤ f.length ∧ ∀ p ∈ frSid, msb f p = false := by
  obtain ⟨b, t, rfl⟩ : ∃ b t, f = b :: t := by cases f with
    | nil => exact absurd rfl hf
    | cons b t => exact ⟨b, t, rfl⟩
  unfold frCheckSid
  have hsig : (b >>> 4 ≠ 0xD) ↔ ¬ b.toNat / 16 = 0xD := by
    rw [← BitVec.toNat_inj.ne]; simp [Nat.shiftRight_eq_div_pow]
  simp only [hsig]
  by_cases h : b.toNat / 16 = 0xD
  · simp only [h, not_true_eq_false, if_false, List.headD_cons, true_and, Option.some.injEq]
    have := all_zero (b :: t) false frSid
    rw [show bitOf false = BitVal.zero from rfl] at this
    rw [this, List.all_eq_true]
    constructor
    · intro ha
      refine ⟨?_, fun p hp => ?_⟩
      · have := ha 261 (by decide)
        simp only [Bool.and_eq_true, decide_eq_true_eq] at this
        omega
      · have := ha p hp
        simp only [Bool.and_eq_true, beq_iff_eq] at this
        exact this.2
    · intro ha p hp
      have := frSid_lt p hp
      simp only [Bool.and_eq_true, decide_eq_true_eq, beq_iff_eq]
      exact ⟨by omega, ha.2 p hp⟩
  · simp [h]

/-- C147: the enhanced full rate check accepts exactly what has the signature, the
octets of the code word and only ones in it. -/
theorem efr_check {f : List Byte} (hf : f ≠ []) :
    efrCheckSid f = some true ↔
      (f.headD 0).toNat / 16 = 0xC ∧ 29 ≤ f.length ∧ ∀ p ∈ efrSid, msb f (p + 4) = true := by
  obtain ⟨b, t, rfl⟩ : ∃ b t, f = b :: t := by cases f with
    | nil => exact absurd rfl hf
    | cons b t => exact ⟨b, t, rfl⟩
  unfold efrCheckSid
  have hsig : (b >>> 4 ≠ 0xC) ↔ ¬ b.toNat / 16 = 0xC := by
    rw [← BitVec.toNat_inj.ne]; simp [Nat.shiftRight_eq_div_pow]
  simp only [hsig]
  by_cases h : b.toNat / 16 = 0xC
  · simp only [h, not_true_eq_false, if_false, List.headD_cons, true_and, Option.some.injEq]
    have := all_zero (b :: t) true (efrSid.map (· + 4))
    rw [show bitOf true = BitVal.one from rfl] at this
    rw [this, List.all_eq_true]
    constructor
    · intro ha
      refine ⟨?_, fun p hp => ?_⟩
      · have := ha 225 (by decide)
        simp only [Bool.and_eq_true, decide_eq_true_eq] at this
        omega
      · have := ha (p + 4) (List.mem_map.mpr ⟨p, hp, rfl⟩)
        simp only [Bool.and_eq_true, beq_iff_eq] at this
        exact this.2
    · intro ha p hp
      obtain ⟨q, hq, rfl⟩ := List.mem_map.mp hp
      have hlt : ∀ q ∈ efrSid, q + 4 < 232 := by decide +kernel
      have := hlt q hq
      simp only [Bool.and_eq_true, decide_eq_true_eq, beq_iff_eq]
      exact ⟨by omega, ha.2 q hq⟩
  · simp [h]

theorem and7f : ∀ b : Byte, (b &&& 0x7F ≠ 0x7F) ↔ ¬ ∀ k < 7, b.getLsbD k = true := by decide +kernel
theorem ff_iff : ∀ b : Byte, b = 0xFF ↔ ∀ k < 8, b.getLsbD k = true := by decide +kernel

/-- C147: the half rate check accepts exactly what has 14 octets and ones only from
bit 33 to bit 111. -/
theorem hr_check (f : List Byte) :
    hrCheckSid f = true ↔ 14 ≤ f.length ∧ ∀ i, 33 ≤ i → i < 112 → msb f i = true := by
  unfold hrCheckSid
  by_cases hl : f.length < 14
  · rw [if_pos hl]; simp; omega
  rw [if_neg hl]
  have key : (∀ i, 33 ≤ i → i < 112 → msb f i = true) ↔
      (∀ k < 7, (f.getD 4 0).getLsbD k = true) ∧ ∀ j, 5 ≤ j → j < 14 → f.getD j 0 = 0xFF := by
    constructor
    · intro h
      refine ⟨fun k hk => ?_, fun j h1 h2 => (ff_iff _).mpr fun k hk => ?_⟩
      · have := h (8 * 4 + (7 - k)) (by omega) (by omega)
        rwa [msb_def, show (8 * 4 + (7 - k)) / 8 = 4 by omega, show 7 - (8 * 4 + (7 - k)) % 8 = k by omega] at this
      · have := h (8 * j + (7 - k)) (by omega) (by omega)
        rwa [msb_def, show (8 * j + (7 - k)) / 8 = j by omega, show 7 - (8 * j + (7 - k)) % 8 = k by omega] at this
    · intro h i h1 h2
      rw [msb_def]
      by_cases h4 : i / 8 = 4
      · rw [h4]; exact h.1 _ (by omega)
      · rw [h.2 (i / 8) (by omega) (by omega)]
        exact (ff_iff 0xFF).mp rfl _ (by omega)
  have h9 : ((f.drop 5).take 9 = List.replicate 9 0xFF) ↔ ∀ j, 5 ≤ j → j < 14 → f.getD j 0 = 0xFF := by
    constructor
    · intro h j h1 h2
      have := congrArg (fun l => l.getD (j - 5) 0) h
      simp only [List.getD_eq_getElem?_getD, List.getElem?_take, List.getElem?_drop, List.getElem?_replicate] at this
      rw [if_pos (by omega), if_pos (by omega), show 5 + (j - 5) = j by omega] at this
      rw [List.getD_eq_getElem?_getD, this]; rfl
    · intro h
      apply List.ext_getElem
      · simp; omega
      · intro j h1 h2
        simp only [List.getElem_take, List.getElem_drop, List.getElem_replicate]
        have h1' : j < 9 := by simpa using h2
        have := h (5 + j) (by omega) (by omega)
        exact (getD_of_lt (show 5 + j < f.length by omega)).symm.trans this
  rw [key]
  by_cases h7 : ∀ k < 7, (f.getD 4 0).getLsbD k = true
  · rw [if_neg (fun h => (and7f _).mp h h7), decide_eq_true_eq, h9]
    exact ⟨fun h => ⟨by omega, h7, h⟩, fun h => h.2.2⟩
  · rw [if_pos ((and7f _).mpr h7)]
    exact ⟨fun h => absurd h (by decide), fun h => absurd h.2.1 h7⟩

/-! ### Reset and preening -/

/-- C147: a full rate frame after a reset is a valid SID, and passes the check if it
bears the signature. -/
theorem fr_reset_valid {f : List Byte} (hf : f.length = 33) :
    frClassify (frReset f) = .valid ∧ ((f.headD 0).toNat / 16 = 0xD → frCheckSid (frReset f) = some true) := by
  have hl : (frReset f).length = 33 := by rw [frReset_length, hf]
  have h0 : ∀ p ∈ frSid, msb (frReset f) p = false := by
    intro p hp
    rw [fr_reset_bits hf (frSid_lt p hp), frSid_unused p hp, Bool.and_false]
  constructor
  · rw [(fr_classify hl).2.1]
    have : frSid.filter (msb (frReset f)) = [] := by
      rw [List.filter_eq_nil_iff]; intro p hp; rw [h0 p hp]; decide
    rw [this]; decide
  · intro hs
    rw [fr_check (by intro h; rw [h] at hl; exact absurd hl (by decide))]
    refine ⟨?_, by omega, h0⟩
    cases f with
    | nil => exact absurd hf (by decide)
    | cons b t =>
      have hb : (frReset (b :: t)).headD 0 = b := by
        unfold frReset
        simp only [List.mapIdx_cons, List.headD_cons]
        show b &&& 0xFF#8 = b
        rw [show (0xFF#8 : Byte) = BitVec.allOnes 8 from rfl, BitVec.and_allOnes]
      rw [hb]; exact hs

theorem fr_reset_idem {f : List Byte} (hf : f.length = 33) : frReset (frReset f) = frReset f := by
  have hl : (frReset f).length = 33 := by rw [frReset_length, hf]
  apply eq_of_msb (by rw [frReset_length, hl])
  intro i hi
  rw [frReset_length, hl] at hi
  rw [fr_reset_bits hl hi, fr_reset_bits hf hi, Bool.and_assoc, Bool.and_self]

theorem efr_reset_valid {f : List Byte} (hf : f.length = 31) :
    efrClassify (efrReset f) = .valid ∧ ((f.headD 0).toNat / 16 = 0xC → efrCheckSid (efrReset f) = some true) := by
  have hl : (efrReset f).length = 31 := by rw [efrReset_length, hf]
  have h1 : ∀ p ∈ efrSid, msb (efrReset f) (p + 4) = true := by
    intro p hp
    rw [efr_reset_bits hf (efrSid_lt _ (List.mem_map.mpr ⟨p, hp, rfl⟩))]
    simp [hp]
  constructor
  · rw [(efr_classify hl).2.1]
    have : (efrSid.filter fun p => !msb (efrReset f) (p + 4)) = [] := by
      rw [List.filter_eq_nil_iff]; intro p hp; rw [h1 p hp]; decide
    rw [this]; decide
  · intro hs
    rw [efr_check (by intro h; rw [h] at hl; exact absurd hl (by decide))]
    refine ⟨?_, by omega, h1⟩
    cases f with
    | nil => exact absurd hf (by decide)
    | cons b t =>
      have hb : (efrReset (b :: t)).headD 0 = b := by
        unfold efrReset
        simp only [List.mapIdx_cons, List.headD_cons]
        show b ||| 0#8 = b
        exact BitVec.or_zero
      rw [hb]; exact hs

theorem efr_reset_idem {f : List Byte} (hf : f.length = 31) : efrReset (efrReset f) = efrReset f := by
  have hl : (efrReset f).length = 31 := by rw [efrReset_length, hf]
  apply eq_of_msb (by rw [efrReset_length, hl])
  intro i hi
  rw [efrReset_length, hl] at hi
  rw [efr_reset_bits hl hi, efr_reset_bits hf hi, Bool.or_assoc, Bool.or_self]

/-- C147: a half rate frame after a reset passes the check. -/
theorem hr_reset_check {f : List Byte} (hf : f.length = 14) : hrCheckSid (hrReset f) = true := by
  rw [hr_check]
  refine ⟨by rw [hrReset_length]; omega, fun i h1 h2 => ?_⟩
  rw [hr_reset_bits hf h2]; simp [h1]

/-- C147: preening a full rate frame fails exactly for an invalid SID; speech is left
alone and a valid SID becomes perfect, so that preening twice is preening once. -/
theorem fr_preen {f : List Byte} (hf : f.length = 33) :
    ((frPreen f).1 = false ↔ frClassify f = .invalid) ∧
    (frClassify f ≠ .valid → (frPreen f).2 = f) ∧
    (frClassify f = .valid → (frPreen f).2 = frReset f ∧ ∀ i < 264, frUsed i = false → msb (frPreen f).2 i = false) ∧
    frPreen (frPreen f).2 = frPreen f := by
  unfold frPreen
  cases h : frClassify f with
  | speech => simp [h]
  | invalid => simp [h]
  | valid =>
    simp only [(fr_reset_valid hf).1, fr_reset_idem hf]
    refine ⟨by simp, by simp, fun _ => ⟨trivial, fun i hi hu => ?_⟩, trivial⟩
    rw [fr_reset_bits hf hi, hu, Bool.and_false]

theorem efr_preen {f : List Byte} (hf : f.length = 31) :
    ((efrPreen f).1 = false ↔ efrClassify f = .invalid) ∧
    (efrClassify f ≠ .valid → (efrPreen f).2 = f) ∧
    (efrClassify f = .valid → (efrPreen f).2 = efrReset f ∧ ∀ p ∈ efrSid, msb (efrPreen f).2 (p + 4) = true) ∧
    efrPreen (efrPreen f).2 = efrPreen f := by
  unfold efrPreen
  cases h : efrClassify f with
  | speech => simp [h]
  | invalid => simp [h]
  | valid =>
    simp only [(efr_reset_valid hf).1, efr_reset_idem hf]
    refine ⟨by simp, by simp, fun _ => ⟨trivial, fun p hp => ?_⟩, trivial⟩
    rw [efr_reset_bits hf (efrSid_lt _ (List.mem_map.mpr ⟨p, hp, rfl⟩))]; simp [hp]

/-- C147: a perfect full rate SID is restored from any reception with at most one
wrong bit in the code word, whatever became of the other unused bits. -/
theorem fr_preen_restores {f g : List Byte} (hf : f.length = 33) (hg : g.length = 33)
    (hz : ∀ i < 264, frUsed i = false → msb f i = false) (hu : ∀ i < 264, frUsed i = true → msb g i = msb f i)
    (h1 : (frSid.filter (msb g)).length ≤ 1) : frPreen g = (true, f) := by
  have hv := (fr_classify hg).2.1.mpr h1
  unfold frPreen
  rw [hv]
  show (true, frReset g) = (true, f)
  congr 1
  apply eq_of_msb (by rw [frReset_length, hf, hg])
  intro i hi
  rw [frReset_length, hg] at hi
  rw [fr_reset_bits hg hi]
  cases h : frUsed i with
  | false => rw [Bool.and_false, hz i hi h]
  | true => rw [Bool.and_true, hu i hi h]

/-! A SID with one bit of the code word hit and garbage in the unused bits. -/
def sidEx : List Byte :=
  [0xDA, 0xA7, 0xAA, 0xA5, 0x1A] ++ ([0x00, 0x15, 0x80, 0, 0, 0, 0] ++ [0x00, 0x15, 0x80, 0, 0, 0, 0] ++
    [0x00, 0x15, 0x80, 0, 0, 0, 0] ++ [0x00, 0x15, 0x80, 0, 0, 0, 0])

example : frClassify sidEx = .valid ∧ frCheckSid sidEx = some true ∧ frPreen (sidEx.set 7 0xD0 |>.set 5 0xFF) = (true, sidEx) ∧
    frCheckSid (sidEx.set 7 0xC0) = some false ∧ frClassify (sidEx.set 8 0xFF) = .invalid ∧ frClassify silence = .speech := by
  decide +kernel
example : efrClassify (efrReset (0xC3 :: List.replicate 30 0x55)) = .valid ∧
    efrClassify (0xC3 :: List.replicate 30 0x55) = .speech ∧
    efrCheckSid (efrReset (0xC3 :: List.replicate 30 0x55)) = some true := by decide +kernel
example : hrCheckSid (hrReset (List.replicate 14 0x12)) = true ∧ hrCheckSid (List.replicate 14 0x12) = false := by decide +kernel

end Verif.Codec
