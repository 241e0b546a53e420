import Verif.GsmUtils.Model
import Mathlib.Tactic.ByContra
/-!
ARFCN and frequencies (C33).
-/
namespace Verif.GsmUtils
open Verif Verif.Utils

/-! ### C33 ARFCN and frequency -/

/-- TS 45.005 2: uplink frequency and distance of the downlink, in units of
100 kHz, for an ARFCN without flags (`pcs` = the PCS 1900 band). -/
def stdFreq (pcs : Bool) (n : Int) : Option (Int × Int) :=
  if pcs then (if 512 ≤ n ∧ n ≤ 810 then some (18502 + 2 * (n - 512), 800) else none)
  else if 0 ≤ n ∧ n ≤ 124 then some (8900 + 2 * n, 450)
  else if 955 ≤ n ∧ n ≤ 1023 then some (8900 + 2 * (n - 1024), 450)
  else if 128 ≤ n ∧ n ≤ 251 then some (8242 + 2 * (n - 128), 450)
  else if 512 ≤ n ∧ n ≤ 885 then some (17102 + 2 * (n - 512), 950)
  else if 259 ≤ n ∧ n ≤ 293 then some (4506 + 2 * (n - 259), 100)
  else if 306 ≤ n ∧ n ≤ 340 then some (4790 + 2 * (n - 306), 100)
  else if 350 ≤ n ∧ n ≤ 425 then some (8060 + 2 * (n - 350), 450)
  else if 438 ≤ n ∧ n ≤ 511 then some (7472 + 2 * (n - 438), 300)
  else none

/-- Frequency of an ARFCN with flags: only the PCS flag may be set. -/
def stdFreqOf (arfcn : Nat) (uplink : Bool) : Option Nat :=
  if arfcn / 4096 = 0 ∨ arfcn / 4096 = 8 then
    (stdFreq (arfcn / 4096 = 8) (arfcn % 4096 : Nat)).map fun p => (if uplink then p.1 else p.1 + p.2).toNat
  else none

theorem and_low (x : Nat) : x &&& 0x0fff = x % 4096 := Nat.and_two_pow_sub_one_eq_mod x 12

theorem and_flags (x : Nat) (h : x < 65536) : x &&& 0xf000 = x / 4096 * 4096 := by
  apply Nat.eq_of_testBit_eq
  intro i
  rw [Nat.testBit_and, show (4096 : Nat) = 2 ^ 12 from rfl, Nat.testBit_mul_two_pow, Nat.testBit_div_two_pow]
  by_cases h1 : i < 16
  · have : ∀ i < 16, (0xf000 : Nat).testBit i = decide (12 ≤ i) := by decide
    rw [this i h1]
    by_cases h2 : 12 ≤ i
    · rw [Nat.sub_add_cancel h2]; simp [h2]
    · simp [h2]
  · have hx : x.testBit i = false := Nat.testBit_lt_two_pow
      (Nat.lt_of_lt_of_le h (Nat.pow_le_pow_right (n := 2) (by decide) (show 16 ≤ i by omega)))
    rw [hx]
    by_cases h2 : 12 ≤ i
    · rw [Nat.sub_add_cancel h2, hx]; simp
    · simp [h2]

theorem ranges_bounds : ∀ r ∈ ranges, (r.flags = 0 ∨ r.flags = 0x8000) ∧ r.last ≤ 1023 := by decide

/-- Only PCS may be flagged and only ten bits are used. -/
theorem arfcn2freq10_out (arfcn : Nat) (uplink : Bool) (h : arfcn < 65536)
    (ho : ¬ ((arfcn / 4096 = 0 ∨ arfcn / 4096 = 8) ∧ arfcn % 4096 < 1024)) : arfcn2freq10 arfcn uplink = 0xffff := by
  unfold arfcn2freq10
  simp only [and_low, and_flags arfcn h]
  have : (ranges.find? fun r => decide (arfcn / 4096 * 4096 = r.flags) && decide (arfcn % 4096 ≥ r.first) &&
      decide (arfcn % 4096 ≤ r.last)) = none := by
    rw [List.find?_eq_none]
    intro r hr
    have := ranges_bounds r hr
    simp only [Bool.and_eq_true, decide_eq_true_eq]
    omega
  rw [this]

theorem stdFreqOf_out (arfcn : Nat) (uplink : Bool)
    (ho : ¬ ((arfcn / 4096 = 0 ∨ arfcn / 4096 = 8) ∧ arfcn % 4096 < 1024)) : stdFreqOf arfcn uplink = none := by
  unfold stdFreqOf
  split
  · rename_i hc
    have : stdFreq (decide (arfcn / 4096 = 8)) (arfcn % 4096 : Nat) = none := by
      unfold stdFreq
      split
      · rw [if_neg (by omega)]
      · rw [if_neg (by omega), if_neg (by omega), if_neg (by omega), if_neg (by omega), if_neg (by omega),
          if_neg (by omega), if_neg (by omega), if_neg (by omega)]
    rw [this]; rfl
  · rfl

theorem arfcn_small {P : Nat → Prop} (h : ∀ fl ∈ [0, 8], ∀ a < 1024, P (4096 * fl + a)) {x : Nat}
    (ho : (x / 4096 = 0 ∨ x / 4096 = 8) ∧ x % 4096 < 1024) : P x := by
  have := h (x / 4096) (by simpa using ho.1) (x % 4096) ho.2
  rwa [show 4096 * (x / 4096) + x % 4096 = x by omega] at this

/-- **C33**, from ARFCN to frequency: all 65536 arguments in both directions
give the frequency of TS 45.005, and 0xffff if there is none. -/
theorem arfcn2freq10_spec (arfcn : Nat) (h : arfcn < 65536) (uplink : Bool) :
    arfcn2freq10 arfcn uplink = (stdFreqOf arfcn uplink).getD 0xffff := by
  by_cases ho : (arfcn / 4096 = 0 ∨ arfcn / 4096 = 8) ∧ arfcn % 4096 < 1024
  · have : ∀ fl ∈ [0, 8], ∀ a < 1024, ∀ uplink,
        arfcn2freq10 (4096 * fl + a) uplink = (stdFreqOf (4096 * fl + a) uplink).getD 0xffff := by decide +kernel
    exact arfcn_small (P := fun x => ∀ uplink, arfcn2freq10 x uplink = (stdFreqOf x uplink).getD 0xffff) this ho uplink
  · rw [arfcn2freq10_out arfcn uplink h ho, stdFreqOf_out arfcn uplink ho]; rfl

/-- **C33**, back: the frequency of every valid ARFCN in either direction gives
the same ARFCN with its band flag; for the uplink `ARFCN_UPLINK` is set. -/
theorem freq102arfcn_arfcn2freq10 (arfcn : Nat) (uplink : Bool) (hv : stdFreqOf arfcn uplink ≠ none) :
    arfcn2freq10 arfcn uplink < 0xffff ∧
    freq102arfcn (arfcn2freq10 arfcn uplink) uplink = arfcn ||| (if uplink then 0x4000 else 0) := by
  have : ∀ fl ∈ [0, 8], ∀ a < 1024, ∀ uplink, stdFreqOf (4096 * fl + a) uplink ≠ none →
      arfcn2freq10 (4096 * fl + a) uplink < 0xffff ∧
      freq102arfcn (arfcn2freq10 (4096 * fl + a) uplink) uplink = (4096 * fl + a) ||| (if uplink then 0x4000 else 0) := by
    decide +kernel
  refine arfcn_small (P := fun x => ∀ uplink, stdFreqOf x uplink ≠ none → arfcn2freq10 x uplink < 0xffff ∧
      freq102arfcn (arfcn2freq10 x uplink) uplink = x ||| (if uplink then 0x4000 else 0)) this ?_ uplink hv
  by_contra hc
  exact hv (stdFreqOf_out arfcn uplink hc)

/-- Frequencies of a direction: those of an ARFCN. -/
def isChannel (f : Nat) (uplink : Bool) : Prop := ∃ arfcn, arfcn < 65536 ∧ stdFreqOf arfcn uplink = some f

/-- The ARFCN stored for the `k`-th channel of a range. -/
def rangeArfcn (r : FreqRange) (k : Nat) (uplink : Bool) : Nat :=
  if uplink then (((r.first + k) % 65536) ||| r.flags) ||| 0x4000 else ((r.first + k) % 65536) ||| r.flags

theorem range_channels : ∀ r ∈ ranges, ∀ uplink : Bool, ∀ k < 400, k ≤ r.last - r.first →
    (rangeArfcn r k uplink &&& 0x4000 ≠ 0 ↔ uplink = true) ∧
      arfcn2freq10 (rangeArfcn r k uplink &&& 0xbfff) uplink = freqLo r uplink + 2 * k := by
  decide +kernel

theorem range_hi : ∀ r ∈ ranges, ∀ uplink : Bool, freqHi r uplink = freqLo r uplink + 2 * (r.last - r.first) := by
  decide

/-- **C33**: an ARFCN found for a frequency is valid, and its frequency is the
one asked for, or 100 kHz below it if that lies between two channels. -/
theorem arfcn2freq10_freq102arfcn (f : Nat) (uplink : Bool) (h : freq102arfcn f uplink ≠ 0xffff) :
    (freq102arfcn f uplink &&& 0x4000 ≠ 0 ↔ uplink = true) ∧
    (arfcn2freq10 (freq102arfcn f uplink &&& 0xbfff) uplink = f ∨
      arfcn2freq10 (freq102arfcn f uplink &&& 0xbfff) uplink + 1 = f) := by
  have k400 : ∀ r ∈ ranges, r.last - r.first < 400 := by decide
  cases hf : ranges.find? fun r => decide (f ≥ freqLo r uplink) && decide (f ≤ freqHi r uplink) with
  | none =>
    exfalso
    apply h
    unfold freq102arfcn
    simp only [hf]
    cases uplink <;> rfl
  | some r =>
    have hval : freq102arfcn f uplink = rangeArfcn r ((f - freqLo r uplink) >>> 1) uplink := by
      unfold freq102arfcn rangeArfcn
      simp only [hf]
    have hr := List.mem_of_find?_eq_some hf
    have hp := List.find?_some hf
    simp only [Bool.and_eq_true, decide_eq_true_eq, ge_iff_le] at hp
    have k1 := range_hi r hr uplink
    have k2 := range_channels r hr uplink
    have k3 := k400 r hr
    have hs : (f - freqLo r uplink) >>> 1 = (f - freqLo r uplink) / 2 := by rw [Nat.shiftRight_eq_div_pow]
    have := k2 ((f - freqLo r uplink) / 2) (by omega) (by omega)
    rw [hval, hs]
    refine ⟨this.1, ?_⟩
    rw [this.2]
    omega

/-- **C33**: a frequency is refused (0xffff) only if it is not that of a
channel. -/
theorem freq102arfcn_refuse (f : Nat) (uplink : Bool) (h : freq102arfcn f uplink = 0xffff) : ¬ isChannel f uplink := by
  rintro ⟨a, ha, hs⟩
  have h1 := arfcn2freq10_spec a ha uplink
  rw [hs, Option.getD_some] at h1
  have h2 := (freq102arfcn_arfcn2freq10 a uplink (by rw [hs]; simp)).2
  rw [h1, h] at h2
  have ho : (a / 4096 = 0 ∨ a / 4096 = 8) ∧ a % 4096 < 1024 := by
    by_contra hc
    rw [stdFreqOf_out a uplink hc] at hs
    cases hs
  have : ∀ fl ∈ [0, 8], ∀ a < 1024, ∀ uplink : Bool, 0xffff ≠ (4096 * fl + a) ||| (if uplink then 0x4000 else 0) := by
    decide +kernel
  exact arfcn_small (P := fun x => ∀ uplink : Bool, 0xffff ≠ x ||| (if uplink then 0x4000 else 0)) this ho uplink h2

/-- **C33**, finding: a frequency between two channels is rounded down instead
of being refused. -/
theorem freq102arfcn_counterexample :
    freq102arfcn 9351 false = 0 ∧ arfcn2freq10 0 false = 9350 := by decide +kernel

/-- The band of every ARFCN which has a frequency; an ARFCN without flags and
without frequency has no band. -/
theorem arfcn2band_spec (arfcn : Nat) :
    (arfcn < 4096 → (arfcn2band arfcn = none ↔ stdFreqOf arfcn true = none)) ∧
    (∀ f, stdFreqOf arfcn true = some f → arfcn2band arfcn = some
      (if 18502 ≤ f then 8 else if 17102 ≤ f then 4 else if 8762 ≤ f then 2 else if 8242 ≤ f then 1
       else if 8060 ≤ f then 0x80 else if 7472 ≤ f then 0x40 else if 4790 ≤ f then 0x20 else 0x10)) := by
  have key : ∀ fl ∈ [0, 8], ∀ a < 1024,
    (4096 * fl + a < 4096 → (arfcn2band (4096 * fl + a) = none ↔ stdFreqOf (4096 * fl + a) true = none)) ∧
    (∀ f ∈ (stdFreqOf (4096 * fl + a) true).toList, arfcn2band (4096 * fl + a) = some
      (if 18502 ≤ f then 8 else if 17102 ≤ f then 4 else if 8762 ≤ f then 2 else if 8242 ≤ f then 1
       else if 8060 ≤ f then 0x80 else if 7472 ≤ f then 0x40 else if 4790 ≤ f then 0x20 else 0x10)) := by
    decide +kernel
  by_cases ho : (arfcn / 4096 = 0 ∨ arfcn / 4096 = 8) ∧ arfcn % 4096 < 1024
  · have := arfcn_small (P := fun x => (x < 4096 → (arfcn2band x = none ↔ stdFreqOf x true = none)) ∧
      (∀ f ∈ (stdFreqOf x true).toList, arfcn2band x = some
        (if 18502 ≤ f then 8 else if 17102 ≤ f then 4 else if 8762 ≤ f then 2 else if 8242 ≤ f then 1
         else if 8060 ≤ f then 0x80 else if 7472 ≤ f then 0x40 else if 4790 ≤ f then 0x20 else 0x10))) key ho
    exact ⟨this.1, fun f hf => this.2 f (by simp [hf])⟩
  · rw [stdFreqOf_out arfcn true ho]
    refine ⟨fun h => ?_, by simp⟩
    simp only [iff_true]
    have hz : arfcn &&& 0x8000 = 0 := by
      apply Nat.eq_of_testBit_eq
      intro i
      rw [Nat.testBit_and, show (0x8000 : Nat) = 2 ^ 15 from rfl, Nat.testBit_two_pow]
      by_cases hi : 15 = i
      · subst hi
        rw [Nat.testBit_lt_two_pow (Nat.lt_of_lt_of_le h (by decide))]; simp
      · simp [hi]
    unfold arfcn2band
    simp only [and_low, hz, Nat.mod_eq_of_lt h]
    have : 1024 ≤ arfcn := by omega
    rw [if_neg (by simp), if_neg (by omega), if_neg (by omega), if_neg (by omega), if_neg (by omega), if_neg (by omega),
      if_neg (by omega), if_neg (by omega), if_neg (by omega)]

/-- Finding: with the PCS flag every number is accepted as an ARFCN of the
PCS 1900 band. -/
theorem arfcn2band_counterexample : arfcn2band 0x8000 = some 8 ∧ stdFreqOf 0x8000 true = none := by decide +kernel

example : arfcn2freq10 (0x8000 + 512) true = 18502 ∧ freq102arfcn 18502 true = 0x8000 + 512 + 0x4000 ∧
    arfcn2freq10 (0x4000 + 1) true = 0xffff ∧ freq102arfcn 1000 true = 0xffff := by decide +kernel

end Verif.GsmUtils
