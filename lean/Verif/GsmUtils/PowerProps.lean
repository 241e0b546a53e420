import Verif.GsmUtils.Model
import Verif.Utils.FloatProps
import Verif.Gsm23003.NameProps
import Mathlib.Data.List.TakeWhile
/-!
Power levels (C65), bands and texts (C66).
-/
namespace Verif.GsmUtils
open Verif Verif.Utils

/-! ### C65 power levels -/

/-- The bands for which power levels are defined. -/
def bands : List Nat := [1, 2, 4, 8, 0x10, 0x20, 0x40, 0x80]

/-- Power levels which stand for a power: in the PCS band those from 16 to 29
are reserved. -/
def levelValid (band lvl : Nat) : Bool := lvl < 32 && (band ≠ 8 || lvl < 16 || 30 ≤ lvl)

/-- All powers up to 64 dBm. -/
theorem lvl_nearest_small : ∀ band ∈ bands, ∀ dbm < 64,
    0 ≤ msPwrCtlLvl band dbm ∧ levelValid band (msPwrCtlLvl band dbm).toNat = true ∧
    ∀ l < 32, levelValid band l = true →
      ((msPwrDbm band (msPwrCtlLvl band dbm).toNat - dbm).natAbs ≤ (msPwrDbm band l - dbm).natAbs) := by
  decide +kernel

theorem lvl_large {band : Nat} (hb : band ∈ bands) {dbm : Nat} (h : 64 ≤ dbm) :
    msPwrCtlLvl band dbm = msPwrCtlLvl band 63 := by
  unfold msPwrCtlLvl
  split
  · rw [if_pos (by omega), if_pos (by omega)]
  · split
    · rw [if_pos (by omega), if_pos (by omega)]
    · split
      · rw [if_pos (by omega), if_pos (by omega)]
      · rfl

theorem msPwrDbm_le : ∀ band ∈ bands, ∀ l < 32, msPwrDbm band l ≤ 39 := by decide +kernel

/-- **C65**: for every band and every power the level chosen is valid, and no
other level's power is nearer to the one asked for. -/
theorem lvl_nearest (band : Nat) (hb : band ∈ bands) (dbm : Nat) :
    0 ≤ msPwrCtlLvl band dbm ∧ levelValid band (msPwrCtlLvl band dbm).toNat = true ∧
    ∀ l < 32, levelValid band l = true →
      ((msPwrDbm band (msPwrCtlLvl band dbm).toNat - dbm).natAbs ≤ (msPwrDbm band l - dbm).natAbs) := by
  by_cases h : dbm < 64
  · exact lvl_nearest_small band hb dbm h
  · have h63 := lvl_nearest_small band hb 63 (by decide)
    rw [lvl_large hb (by omega)]
    refine ⟨h63.1, h63.2.1, fun l hl hv => ?_⟩
    have h1 := h63.2.2 l hl hv
    have h2 := msPwrDbm_le band hb l hl
    have h3 : (msPwrCtlLvl band 63).toNat < 32 := by
      have := h63.2.1
      simp only [levelValid, Bool.and_eq_true, decide_eq_true_eq] at this
      exact this.1
    have h4 := msPwrDbm_le band hb _ h3
    omega

/-- **C65**: in the bands below 1 GHz a power between two levels is rounded up:
the power of the level chosen is never below the one asked for (up to the
maximum of 39 dBm), and the next lower level would be. -/
theorem lvl_roundup : ∀ band ∈ lowBands, ∀ dbm : Nat, dbm < 40 →
    (dbm : Int) ≤ msPwrDbm band (msPwrCtlLvl band dbm).toNat ∧
    (5 ≤ dbm → msPwrDbm band (msPwrCtlLvl band dbm).toNat < dbm + 2) := by decide +kernel

/-- **C65**: the level for the power of a valid level stands for the same power. -/
theorem lvl_roundtrip : ∀ band ∈ bands, ∀ l < 32, levelValid band l = true → 0 ≤ msPwrDbm band l →
    msPwrDbm band (msPwrCtlLvl band (msPwrDbm band l).toNat).toNat = msPwrDbm band l := by decide +kernel

/-- **C65**: a higher power never gets a level of less power. -/
theorem lvl_mono (band : Nat) (hb : band ∈ bands) (a b : Nat) (h : a ≤ b) :
    msPwrDbm band (msPwrCtlLvl band a).toNat ≤ msPwrDbm band (msPwrCtlLvl band b).toNat := by
  have hs : ∀ band ∈ bands, ∀ a < 64, ∀ b < 64, a ≤ b →
      msPwrDbm band (msPwrCtlLvl band a).toNat ≤ msPwrDbm band (msPwrCtlLvl band b).toNat := by decide +kernel
  by_cases hb2 : b < 64
  · exact hs band hb a (by omega) b hb2 h
  · rw [lvl_large hb (show 64 ≤ b by omega)]
    by_cases ha : a < 64
    · exact hs band hb a ha 63 (by omega) (by omega)
    · rw [lvl_large hb (show 64 ≤ a by omega)]

/-- **C65**: reception levels and dBm, TS 45.008 8.1.4: inverse to each other
within the range, clamped outside. -/
theorem rxlev_roundtrip :
    (∀ r, r ≤ 63 → dbm2rxlev (rxlev2dbm r) = some r) ∧
    (∀ d : Int, -110 ≤ d → d ≤ -47 → ∃ r, dbm2rxlev d = some r ∧ rxlev2dbm r = d) ∧
    (∀ d : Int, d < -110 → dbm2rxlev d = some 0) ∧
    (∀ d : Int, -47 < d → d ≤ 2147483537 → dbm2rxlev d = some 63) ∧
    (∀ r, 63 ≤ r → rxlev2dbm r = -47) := by
  refine ⟨fun r h => ?_, fun d h1 h2 => ?_, fun d h => ?_, fun d h1 h2 => ?_, fun r h => ?_⟩
  · unfold dbm2rxlev rxlev2dbm
    rw [if_neg (show ¬ r > 63 by omega), if_neg (by omega), if_neg (by omega), if_neg (by omega)]
    congr 1; omega
  · refine ⟨(d + 110).toNat, ?_, ?_⟩
    · unfold dbm2rxlev
      rw [if_neg (by omega), if_neg (by omega), if_neg (by omega)]
    · unfold rxlev2dbm
      rw [if_neg (by omega)]; omega
  · unfold dbm2rxlev
    rw [if_neg (by omega), if_neg (by omega), if_pos (by omega)]
  · unfold dbm2rxlev
    rw [if_neg (by omega), if_pos (by omega)]
  · unfold rxlev2dbm
    split <;> omega

example : msPwrCtlLvl 2 33 = 5 ∧ msPwrDbm 2 5 = 33 ∧ msPwrCtlLvl 4 35 = 30 ∧ msPwrCtlLvl 8 4294967295 = 30 ∧
    dbm2rxlev (-60) = some 50 := by decide

/-! ### C66 texts -/

/-- **C66**: the name of every band is parsed to the band. -/
theorem bandParse_bandName : ∀ band ∈ bands,
    bandParse ((bandName band).toList.map fun c => BitVec.ofNat 8 c.toNat) = some band := by decide +kernel

theorem isDigit_iff (c : Byte) : isDigit c = true ↔ 0x30 ≤ c.toNat ∧ c.toNat ≤ 0x39 := by
  simp [isDigit]

/-- **C66**: what decides is the first run of digits in the text: its value in
MHz.  A text without digits is refused. -/
theorem bandParse_spec (pre ds post : List Byte) (hp : ∀ c ∈ pre, isDigit c = false) (hne : ds ≠ [])
    (hd : DecDigits ds) (hq : ∀ c ∈ post.head?, isDigit c = false) (band : Nat) :
    bandParse (pre ++ ds ++ post) = some band ↔
      (decValue ds, band) ∈ [(450, 0x10), (480, 0x20), (750, 0x40), (810, 0x80), (850, 1), (900, 2), (1800, 4), (1900, 8)] := by
  obtain ⟨d, ds', rfl⟩ : ∃ d ds', ds = d :: ds' := by
    cases ds with
    | nil => exact absurd rfl hne
    | cons d ds' => exact ⟨d, ds', rfl⟩
  have hd0 : isDigit d = true := (isDigit_iff d).2 (hd d (by simp))
  have e1 : (pre ++ (d :: ds') ++ post).dropWhile (fun c => !isDigit c) = (d :: ds') ++ post := by
    rw [List.append_assoc, List.dropWhile_append_of_pos (by intro c hc; simp [hp c hc])]
    simp [hd0]
  have hr : ∀ c ∈ post.head?, ¬ digit36 c < 10 := by
    have : ∀ c : Byte, isDigit c = false → ¬ digit36 c < 10 := by decide +kernel
    exact fun c hc => this c (hq c hc)
  have e2 := strtoll_digits hne hd hr
  unfold bandParse
  simp only [e1, e2]
  rw [if_neg (by simp)]
  have hmax : I64MAX = 9223372036854775807 := rfl
  generalize decValue (d :: ds') = v
  by_cases hv : (v : Int) > I64MAX
  · rw [if_pos hv]
    have : ∀ k ∈ [450, 480, 750, 810, 850, 900, 1800, 1900], v ≠ k := by
      intro k hk
      simp only [List.mem_cons, List.not_mem_nil, or_false] at hk
      omega
    simp only [List.mem_cons, List.not_mem_nil, or_false, forall_eq_or_imp, forall_eq] at this
    simp [hmax, this]
  · rw [if_neg hv]
    simp only [List.mem_cons, Prod.mk.injEq, List.not_mem_nil, or_false]
    have e : ∀ k : Nat, (v : Int) = (k : Int) ↔ v = k := fun k => by omega
    have e450 := e 450; have e480 := e 480; have e750 := e 750; have e810 := e 810
    have e850 := e 850; have e900 := e 900; have e1800 := e 1800; have e1900 := e 1900
    simp only [Nat.cast_ofNat] at e450 e480 e750 e810 e850 e900 e1800 e1900
    simp only [e450, e480, e750, e810, e850, e900, e1800, e1900]
    repeat' split
    all_goals (first | (simp only [reduceCtorEq, false_iff]; omega) | (simp only [Option.some.injEq]; omega))

theorem bandParse_nodigit (s : List Byte) (h : ∀ c ∈ s, isDigit c = false) : bandParse s = none := by
  unfold bandParse
  have : s.dropWhile (fun c => !isDigit c) = [] := by
    rw [List.dropWhile_eq_nil_iff]
    intro c hc
    simp [h c hc]
  simp only [this, if_true]

example : bandParse [0x47#8, 0x31#8, 0x38#8, 0x30#8, 0x30#8, 0x78#8] = some 4 := by decide +kernel

/-- **C66**: the text for a frame number: five decimal numbers separated by
slashes: frame number, T1, T2, T3 and the frame number modulo 256 modulo 52. -/
theorem dumpGsmtime_spec (fn : Nat) (h : fn < 2715648) :
    ∃ a b c d e, dumpGsmtimeText (fn2gsmtime fn) = a ++ [0x2f#8] ++ b ++ [0x2f#8] ++ c ++ [0x2f#8] ++ d ++ [0x2f#8] ++ e ∧
      (DecDigits a ∧ decValue a = fn ∧ 6 ≤ a.length) ∧ (DecDigits b ∧ decValue b = fn / 1326) ∧
      (DecDigits c ∧ decValue c = fn % 26 ∧ c.length = 2) ∧ (DecDigits d ∧ decValue d = fn % 51 ∧ d.length = 2) ∧
      (DecDigits e ∧ decValue e = fn % 256 % 52 ∧ e.length = 2) := by
  unfold dumpGsmtimeText
  have h1 : (fn2gsmtime fn).t1 = fn / 1326 := by simp only [fn2gsmtime]; omega
  have h2 : (fn2gsmtime fn).t2 = fn % 26 := by simp only [fn2gsmtime]; omega
  have h3 : (fn2gsmtime fn).t3 = fn % 51 := by simp only [fn2gsmtime]; omega
  have h0 : (fn2gsmtime fn).fn = fn := rfl
  rw [h0, h1, h2, h3]
  have hlen : 6 ≤ (decNatW 6 fn).length := by
    unfold decNatW
    simp only [List.length_append, List.length_replicate]
    omega
  have ha := Gsm23003.decNatW_all 6 fn
  have hb := Gsm23003.decNatW_all 2 (fn / 1326)
  exact ⟨_, _, _, _, _, rfl, ⟨ha.1, ha.2.1, hlen⟩, ⟨hb.1, hb.2.1⟩, decNatW_spec (by decide) (by omega),
    decNatW_spec (by decide) (by omega), decNatW_spec (by decide) (by omega)⟩

/-- **C66**, finding: the last number is meant to be the position in the
52-multiframe; the frame number is converted to eight bits before the division
(a cast binds tighter than `%`), so it is wrong from frame 256 on. -/
theorem dumpGsmtime_counterexample :
    (dumpGsmtimeText (fn2gsmtime 300)).drop 16 = [0x34#8, 0x34#8] ∧ 300 % 52 = 40 := by decide +kernel

end Verif.GsmUtils
