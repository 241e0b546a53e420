import Verif.GsmUtils.Model
import Mathlib.Tactic.NormNum
/-!
Frame numbers (C31, C32).
-/
namespace Verif.GsmUtils
open Verif Verif.Utils

/-! ### C31 frame number and T1/T2/T3 -/

theorem gsmtime2fn_value (t : GsmTime) (h1 : t.t1 < 65536) (h2 : t.t2 < 26) (h3 : t.t3 < 51) :
    ∃ k, k < 26 ∧ (t.t2 + k) % 26 = t.t3 % 26 ∧ gsmtime2fn t = some ((51 * k + t.t3 + 1326 * t.t1) % 2715648) := by
  have hm : modFlr ((t.t3 : Int) - t.t2) 26 = some (((t.t3 : Int) - t.t2) % 26) := by
    unfold modFlr
    rw [if_neg (by decide)]
    congr 1
    generalize hx : (t.t3 : Int) - t.t2 = x
    by_cases hn : x < 0
    · rw [if_pos (by omega), Int.tmod_eq_emod, if_neg (by omega)]
      norm_num
    · rw [if_neg (by omega), Int.tmod_eq_emod_of_nonneg (by omega)]
  obtain ⟨k, hk, hk2⟩ : ∃ k : Nat, ((t.t3 : Int) - t.t2) % 26 = k ∧ k < 26 :=
    ⟨(((t.t3 : Int) - t.t2) % 26).toNat, by omega, by omega⟩
  refine ⟨k, hk2, by omega, ?_⟩
  unfold gsmtime2fn
  rw [hm, hk]
  simp only [Option.some.injEq]
  clear hm hk
  rw [Int.emod_eq_of_lt (by omega) (by omega)]
  congr 1

/-- **C31**, to T1/T2/T3 and back: the identity on all frame numbers. -/
theorem gsmtime2fn_fn2gsmtime (fn : Nat) (h : fn < 2715648) : gsmtime2fn (fn2gsmtime fn) = some fn := by
  have h2 : (fn2gsmtime fn).t2 = fn % 26 := by simp only [fn2gsmtime]; omega
  have h3 : (fn2gsmtime fn).t3 = fn % 51 := by simp only [fn2gsmtime]; omega
  have h1 : (fn2gsmtime fn).t1 = fn / 1326 := by simp only [fn2gsmtime]; omega
  obtain ⟨k, hk, hc, he⟩ := gsmtime2fn_value (fn2gsmtime fn) (by rw [h1]; omega) (by rw [h2]; omega) (by rw [h3]; omega)
  rw [he]
  rw [h2, h3] at hc
  rw [h1, h3]
  congr 1
  obtain ⟨q, r, hr, rfl⟩ : ∃ q r, r < 1326 ∧ fn = 1326 * q + r := ⟨fn / 1326, fn % 1326, by omega, by omega⟩
  obtain ⟨j, u, hu, rfl⟩ : ∃ j u, u < 51 ∧ r = 51 * j + u := ⟨r / 51, r % 51, by omega, by omega⟩
  have hj : j < 26 := by omega
  have e1 : (1326 * q + (51 * j + u)) % 51 = u := by omega
  have e2 : (1326 * q + (51 * j + u)) / 1326 = q := by omega
  have e3 : (1326 * q + (51 * j + u)) % 26 = (51 * j + u) % 26 := by omega
  rw [e1, e3] at hc
  rw [e1, e2]
  have : k = j := by omega
  subst this
  omega

/-- The members are the quotient and the remainders of TS 45.002 4.3.3, and
`tc` the number of the 51-multiframe modulo 8. -/
theorem fn2gsmtime_spec (fn : Nat) (h : fn < 2715648) :
    fn2gsmtime fn = { fn := fn, t1 := fn / 1326, t2 := fn % 26, t3 := fn % 51, tc := fn / 51 % 8 } ∧
    fn / 1326 < 2048 := by
  constructor
  · simp only [fn2gsmtime, GsmTime.mk.injEq]
    refine ⟨trivial, ?_, ?_, ?_, ?_⟩ <;> omega
  · omega

/-- **C31**, the other direction: for every T1/T2/T3 in range there is exactly
one frame number with these values, and it is the one computed. -/
theorem fn2gsmtime_gsmtime2fn (t : GsmTime) (h1 : t.t1 < 2048) (h2 : t.t2 < 26) (h3 : t.t3 < 51) :
    ∃ fn, gsmtime2fn t = some fn ∧ fn < 2715648 ∧
      ((fn2gsmtime fn).t1 = t.t1 ∧ (fn2gsmtime fn).t2 = t.t2 ∧ (fn2gsmtime fn).t3 = t.t3) ∧
      ∀ fn', fn' < 2715648 → (fn2gsmtime fn').t1 = t.t1 → (fn2gsmtime fn').t2 = t.t2 →
        (fn2gsmtime fn').t3 = t.t3 → fn' = fn := by
  obtain ⟨k, hk, hc, he⟩ := gsmtime2fn_value t (by omega) h2 h3
  have e0 : (51 * k + t.t3 + 1326 * t.t1) % 2715648 = 51 * k + t.t3 + 1326 * t.t1 := Nat.mod_eq_of_lt (by omega)
  rw [e0] at he
  have e1 : (51 * k + t.t3 + 1326 * t.t1) / 1326 = t.t1 := by omega
  have e2 : (51 * k + t.t3 + 1326 * t.t1) % 26 = t.t2 := by omega
  have e3 : (51 * k + t.t3 + 1326 * t.t1) % 51 = t.t3 := by omega
  refine ⟨_, he, by omega, ?_, ?_⟩
  · simp only [fn2gsmtime, Nat.reduceMul]
    rw [e1, e2, e3]
    refine ⟨?_, ?_, ?_⟩ <;> omega
  · intro fn' hf g1 g2 g3
    have := gsmtime2fn_fn2gsmtime fn' hf
    have hk' : gsmtime2fn (fn2gsmtime fn') = gsmtime2fn t := by
      unfold gsmtime2fn
      rw [g1, g2, g3]
    rw [hk', he] at this
    exact (Option.some.inj this).symm

/-- **C31**: whatever the members hold, the result is a valid frame number. -/
theorem gsmtime2fn_lt (t : GsmTime) : ∃ fn, gsmtime2fn t = some fn ∧ fn < 2715648 := by
  unfold gsmtime2fn modFlr
  rw [if_neg (by decide)]
  exact ⟨_, rfl, Nat.mod_lt _ (by decide)⟩

example : fn2gsmtime 2715647 = { fn := 2715647, t1 := 2047, t2 := 25, t3 := 50, tc := 7 } ∧
    gsmtime2fn { fn := 0, t1 := 2047, t2 := 25, t3 := 50, tc := 0 } = some 2715647 ∧
    gsmtime2fn { fn := 0, t1 := 3, t2 := 20, t3 := 4, tc := 0 } = some 4492 := by decide +kernel

/-! ### C32 reduced frame number -/

theorem fnSub_value (a b : Nat) (ha : a ≤ 2715648) (hb : b < 2715648) :
    fnSub a b = (a + 2715648 - b) % 2715648 := by
  unfold fnSub HYPERFRAME
  omega

theorem fnSum_value (a b : Nat) (ha : a < 2715648) (hb : b < 2715648) :
    fnSum a b = (a + b) % 2715648 := by
  unfold fnSum HYPERFRAME
  omega

/-- Circular distance of two frame numbers. -/
def fnDist (a b : Nat) : Nat := min ((a + 2715648 - b) % 2715648) ((b + 2715648 - a) % 2715648)

/-- The frame numbers computed, in all three cases. -/
theorem rfn2fn_value (rfn cur : Nat) (hr : rfn < 42432) (hc : cur < 2715648) :
    rfn2fn rfn cur = some
      (if rfn ≤ cur % 42432 + 21216 ∧ cur % 42432 ≤ rfn + 21216 then cur - cur % 42432 + rfn
       else (cur - cur % 42432 + 2715648 - 42432 + rfn) % 2715648) := by
  unfold rfn2fn
  rw [if_pos hr]
  congr 1
  have e1 : fn2rfn cur = cur % 42432 := by unfold fn2rfn; omega
  have hq : ∃ q, q < 64 ∧ cur = 42432 * q + cur % 42432 := ⟨cur / 42432, by omega, by omega⟩
  have hlt : cur % 42432 < 42432 := Nat.mod_lt _ (by decide)
  unfold rfnRounded
  simp only [e1]
  generalize cur % 42432 = c at *
  obtain ⟨q, hq, rfl⟩ := hq
  have e2 : fnSub (42432 * q + c) c = 42432 * q := by
    rw [fnSub_value _ _ (by omega) (by omega)]; omega
  have e3 : fnDiff rfn c = if rfn ≤ c then c - rfn else rfn - c := by
    unfold fnDiff
    rw [fnSub_value _ _ (by omega) (by omega), fnSub_value _ _ (by omega) (by omega)]
    split <;> split <;> omega
  rw [e2, e3]
  by_cases hd : rfn ≤ c + 21216 ∧ c ≤ rfn + 21216
  · rw [if_neg (by split <;> omega), if_pos hd, fnSum_value _ _ (by omega) (by omega)]
    omega
  · rw [if_pos (by split <;> omega), if_neg hd]
    by_cases h0 : 42432 * q < 42432
    · have hq0 : q = 0 := by omega
      subst hq0
      rw [if_pos h0]
      have e4 : fnSub HYPERFRAME (fnSub 42432 (42432 * 0)) = 2715648 - 42432 := by decide +kernel
      rw [e4, fnSum_value _ _ (by omega) (by omega)]
      omega
    · rw [if_neg h0, fnSub_value _ _ (by omega) (by omega), fnSum_value _ _ (by omega) (by omega)]
      omega

/-- **C32**: the result is a frame number congruent to the reduced one. -/
theorem rfn2fn_congr (rfn cur : Nat) (hr : rfn < 42432) (hc : cur < 2715648) :
    ∃ fn, rfn2fn rfn cur = some fn ∧ fn < 2715648 ∧ fn2rfn fn = rfn := by
  refine ⟨_, rfn2fn_value rfn cur hr hc, ?_, ?_⟩
  · split <;> omega
  · unfold fn2rfn
    split <;> omega

/-- **C32**, missing part: the reduced frame number must not be more than half a
period behind that of the current frame (`cur % 42432 ≤ rfn + 21216`; see the
counterexample).  Then the result is within half a period of the current frame
number, and no other frame number congruent to `rfn` is closer. -/
theorem rfn2fn_partial (rfn cur : Nat) (hr : rfn < 42432) (hc : cur < 2715648)
    (h : cur % 42432 ≤ rfn + 21216) :
    ∃ fn, rfn2fn rfn cur = some fn ∧ fnDist fn cur ≤ 21216 ∧
      ∀ fn', fn' < 2715648 → fn' % 42432 = rfn → fnDist fn cur ≤ fnDist fn' cur := by
  refine ⟨_, rfn2fn_value rfn cur hr hc, ?_, ?_⟩
  · unfold fnDist
    split <;> omega
  · intro fn' hf hm
    have : fnDist (if rfn ≤ cur % 42432 + 21216 ∧ cur % 42432 ≤ rfn + 21216 then cur - cur % 42432 + rfn
       else (cur - cur % 42432 + 2715648 - 42432 + rfn) % 2715648) cur ≤ 21216 := by
      unfold fnDist
      split <;> omega
    have h2 : fnDist (if rfn ≤ cur % 42432 + 21216 ∧ cur % 42432 ≤ rfn + 21216 then cur - cur % 42432 + rfn
       else (cur - cur % 42432 + 2715648 - 42432 + rfn) % 2715648) cur =
       if rfn ≤ cur % 42432 then cur % 42432 - rfn else min (rfn - cur % 42432) (cur % 42432 + 42432 - rfn) := by
      unfold fnDist
      split <;> split <;> omega
    rw [h2] at this ⊢
    obtain ⟨q, hq, hq2⟩ : ∃ q, q < 64 ∧ cur = 42432 * q + cur % 42432 := ⟨cur / 42432, by omega, by omega⟩
    obtain ⟨p, hp, hp2⟩ : ∃ p, p < 64 ∧ fn' = 42432 * p + rfn := ⟨fn' / 42432, by omega, by omega⟩
    have hlt : cur % 42432 < 42432 := Nat.mod_lt _ (by decide)
    generalize cur % 42432 = c at *
    subst hq2 hp2
    unfold fnDist
    rcases Nat.lt_trichotomy p q with hpq | hpq | hpq <;> split <;> omega

/-- **C32**, finding: a reduced frame number more than half a period behind that
of the current frame is moved back by another period, to a frame more than 1.5
periods away, although frames of this and of the next period are closer. -/
theorem rfn2fn_counterexample :
    rfn2fn 0 84863 = some 0 ∧ fnDist 0 84863 = 84863 ∧ 84864 % 42432 = 0 ∧ fnDist 84864 84863 = 1 := by
  decide +kernel

example : rfn2fn 42400 42440 = some 42400 ∧ rfn2fn 42400 3 = some (2715648 - 32) ∧ rfn2fn 5 84864 = some 84869 := by
  decide +kernel

end Verif.GsmUtils
