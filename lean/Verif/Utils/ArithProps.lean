import Verif.Utils.ArithModel
import Mathlib.Tactic.Linarith
import Mathlib.Tactic.Ring
/-!
Properties C14 (integer square root), C15 (Luhn), C48 (modulus macros).
-/
namespace Verif.Utils

/-! ### C14 -/

theorem newton_ge {x g r : Nat} (hg : 0 < g) (hr : r * r ≤ x) : r ≤ (g + x / g) / 2 := by
  by_contra hc
  have h1 : g + x / g < 2 * r := by omega
  have h2 : x < (x / g + 1) * g := by
    have := Nat.div_add_mod x g
    have := Nat.mod_lt x hg
    nlinarith
  obtain ⟨k, hk⟩ : ∃ k, 2 * r = g + x / g + 1 + k := ⟨2 * r - (g + x / g + 1), by omega⟩
  generalize x / g = q at *
  have h3 : ((q : Int) + 1) * g > r * r := by exact_mod_cast lt_of_le_of_lt hr h2
  have h4 : (2 : Int) * r = g + q + 1 + k := by exact_mod_cast hk
  have h5 : (0 : Int) ≤ k := Int.natCast_nonneg k
  have h6 : (0 : Int) ≤ g := Int.natCast_nonneg g
  nlinarith [sq_nonneg ((r : Int) - g)]

theorem isqrtLoop_spec (x : Nat) (hx : 2 ≤ x) (hx32 : x < 2 ^ 32) (g0 g1 : Nat) (h0 : 0 < g0)
    (hg0 : g0 ≤ 65536)
    (hub : ∀ r, r * r ≤ x → r ≤ g0) (hg1 : g1 = (g0 + x / g0) / 2) :
    ∃ r, isqrtLoop x g0 g1 = some r ∧ r * r ≤ x ∧ x < (r + 1) * (r + 1) := by
  induction g0 using Nat.strongRecOn generalizing g1 with
  | _ g0 ih =>
    unfold isqrtLoop
    split
    · rename_i hlt
      have hg1pos : 1 ≤ g1 := by rw [hg1]; exact newton_ge h0 (by omega)
      rw [if_neg (by omega)]
      have hd : x / g1 ≤ x := Nat.div_le_self _ _
      have hsum : (g1 + x / g1) % 2 ^ 32 / 2 = (g1 + x / g1) / 2 := by
        rw [Nat.mod_eq_of_lt]
        by_cases h2 : g1 = 1
        · have h4 : g0 + x / g0 < 4 := by omega
          have h5 : x < (x / g0 + 1) * g0 := by
            have := Nat.div_add_mod x g0
            have := Nat.mod_lt x h0
            nlinarith
          have h6 : x < 16 := by
            have h7 : g0 ≤ 4 := by have := Nat.zero_le (x / g0); omega
            have : (x / g0 + 1) * g0 ≤ 4 * 4 := Nat.mul_le_mul (by omega) h7
            omega
          omega
        · have : x / g1 ≤ x / 2 := Nat.div_le_div_left (by omega) (by omega)
          omega
      rw [hsum]
      refine ih g1 hlt _ hg1pos (by omega) ?_ rfl
      intro r hr
      rw [hg1]; exact newton_ge h0 hr
    · rename_i hge
      refine ⟨g0, rfl, ?_, ?_⟩
      · have h1 : g0 ≤ x / g0 := by omega
        calc g0 * g0 ≤ (x / g0) * g0 := Nat.mul_le_mul_right _ h1
          _ ≤ x := Nat.div_mul_le_self x g0
      · by_contra hc
        have := hub (g0 + 1) (by omega)
        omega

theorem isqrtShift_spec (n : Nat) (h : n < 2 ^ 32) :
    isqrtShift n ≤ 16 ∧ n < 4 ^ isqrtShift n := by
  unfold isqrtShift
  simp only
  split <;> split <;> split <;> split <;> simp only at * <;> constructor <;> omega

/-- **C14.** `osmo_isqrt32` terminates without a division by zero and returns
the exact integer square root of every 32-bit value. -/
theorem isqrt32_exact (x : Nat) (hx : x < 2 ^ 32) :
    ∃ r, isqrt32 x = some r ∧ r * r ≤ x ∧ x < (r + 1) * (r + 1) := by
  unfold isqrt32
  split
  · refine ⟨x, rfl, ?_, ?_⟩ <;> nlinarith
  · rename_i h1
    obtain ⟨hs, hlt⟩ := isqrtShift_spec (x - 1) (by omega)
    generalize isqrtShift (x - 1) = s at *
    have h2 : 2 ^ s ≤ 2 ^ 16 := Nat.pow_le_pow_right (by omega) hs
    have hpos : 0 < 2 ^ s := Nat.pow_pos (by omega)
    have h4 : 4 ^ s = 2 ^ s * 2 ^ s := by
      rw [← Nat.mul_pow]
    simp only
    have hq : x / 2 ^ s ≤ 2 ^ s := by
      apply Nat.div_le_of_le_mul
      rw [← h4]; omega
    rw [Nat.mod_eq_of_lt (by omega)]
    refine isqrtLoop_spec x (by omega) hx _ _ hpos (by omega) ?_ rfl
    intro r hr
    by_contra hc
    have h5 : 2 ^ s + 1 ≤ r := by omega
    have h6 := Nat.mul_le_mul h5 h5
    have h7 : (2 ^ s + 1) * (2 ^ s + 1) = 2 ^ s * 2 ^ s + 2 * 2 ^ s + 1 := by ring
    omega

/-- non-vacuity: the largest argument, and a non-square -/
example : isqrt32 4294967295 = some 65535 ∧ isqrt32 99 = some 9 ∧ isqrt32 100 = some 10 := by
  decide +kernel

/-! ### C15 -/

/-- decimal digit sum of twice a digit -/
def dblDigitSum (d : Nat) : Nat := 2 * d / 10 + 2 * d % 10

/-- Luhn sum of a digit string given least significant digit first; `dbl` tells
whether the next digit is a doubled one (ISO/IEC 7812-1 annex B). -/
def luhnSum : Bool → List Nat → Nat
  | _, [] => 0
  | true, d :: ds => dblDigitSum d + luhnSum false ds
  | false, d :: ds => d + luhnSum true ds

/-- a number including its check digit (last) passes the Luhn test -/
def LuhnValid (ds : List Nat) : Prop := luhnSum false ds.reverse % 10 = 0

instance (ds : List Nat) : Decidable (LuhnValid ds) := by unfold LuhnValid; infer_instance

/-- digit values of an ASCII string -/
def digitsOf (s : List Byte) : List Nat := s.map fun c => c.toNat - 0x30

def AllDigits (s : List Byte) : Prop := ∀ c ∈ s, 0x30 ≤ c.toNat ∧ c.toNat ≤ 0x39

theorem all_isDigit {s : List Byte} : s.all isDigit = true ↔ AllDigits s := by
  simp [AllDigits, isDigit]

theorem digitAt_lt {s : List Byte} (h : AllDigits s) (i : Nat) : digitAt s i < 10 := by
  unfold digitAt
  by_cases hi : i < s.length
  · rw [show s.getD i 0#8 = s[i] by simp [List.getD, hi]]
    have := h s[i] (List.getElem_mem hi)
    omega
  · simp [List.getD, List.getElem?_eq_none (Nat.le_of_not_lt hi)]

theorem dbl_eq {d : Nat} (h : d < 10) :
    (if d * 2 > 9 then d * 2 - 9 else d * 2) = dblDigitSum d := by
  unfold dblDigitSum; split <;> omega

theorem digitsOf_take_succ {s : List Byte} {n : Nat} (h : n < s.length) :
    (digitsOf (s.take (n + 1))).reverse = digitAt s n :: (digitsOf (s.take n)).reverse := by
  have : s.take (n + 1) = s.take n ++ [s[n]] := by
    rw [List.take_add_one]; simp [h]
  rw [this, digitsOf, digitsOf, List.map_append, List.reverse_append]
  simp only [List.map_cons, List.map_nil, List.reverse_cons, List.reverse_nil, List.nil_append,
    List.cons_append, digitAt, List.getD, List.getElem?_eq_getElem h, Option.getD_some]

theorem luhn_loops (s : List Byte) (hs : AllDigits s) :
    ∀ n, n ≤ s.length → luhnDbl s n + luhnRest s n = luhnSum true (digitsOf (s.take n)).reverse
  | 0, _ => by simp [luhnDbl, luhnRest, digitsOf, luhnSum]
  | 1, h => by
    rw [digitsOf_take_succ (by omega)]
    simp only [luhnDbl, luhnRest, luhnSum]
    rw [dbl_eq (digitAt_lt hs 0)]
    simp [digitsOf, luhnSum]
  | n + 2, h => by
    have ih := luhn_loops s hs n (by omega)
    rw [digitsOf_take_succ (by omega), digitsOf_take_succ (by omega)]
    simp only [luhnDbl, luhnRest, luhnSum]
    rw [dbl_eq (digitAt_lt hs (n + 1)), ← ih]
    omega

theorem luhnSum_le (b : Bool) (ds : List Nat) (h : ∀ d ∈ ds, d < 10) :
    luhnSum b ds ≤ 9 * ds.length := by
  induction ds generalizing b with
  | nil => simp [luhnSum]
  | cons d ds ih =>
    have hd := h d (by simp)
    have ih1 := ih (!b) (fun x hx => h x (by simp [hx]))
    cases b <;> simp only [luhnSum, List.length_cons, dblDigitSum, Bool.not_true, Bool.not_false] at * <;> omega

theorem digitsOf_lt {s : List Byte} (h : AllDigits s) : ∀ d ∈ digitsOf s, d < 10 := by
  intro d hd
  simp only [digitsOf, List.mem_map] at hd
  obtain ⟨c, hc, rfl⟩ := hd
  have := h c hc
  omega

theorem luhn_eq {s : List Byte} (hs : AllDigits s) (hl : 81 * s.length < 2 ^ 31) :
    luhn s = .digit (BitVec.ofNat 8 (luhnSum true (digitsOf s).reverse * 9 % 10 + 0x30)) := by
  unfold luhn
  rw [if_pos (all_isDigit.2 hs)]
  have := luhn_loops s hs s.length (Nat.le_refl _)
  rw [List.take_length] at this
  simp only [this]
  have hle := luhnSum_le true (digitsOf s).reverse
    (fun d hd => digitsOf_lt hs d (by simpa using hd))
  rw [if_pos]
  simp [digitsOf] at hle
  simp [digitsOf]
  omega

/-- **C15a.** The digit computed by `osmo_luhn` is a decimal digit that, when
appended, makes the number pass the Luhn test, and it is the only such digit.
The length bound excludes `int` overflow of the sum. -/
theorem luhn_completes (s : List Byte) (hs : AllDigits s) (hl : 81 * s.length < 2 ^ 31) :
    ∃ c, luhn s = .digit c ∧ 0x30 ≤ c.toNat ∧ c.toNat ≤ 0x39 ∧
      LuhnValid (digitsOf (s ++ [c])) ∧
      ∀ c' : Byte, 0x30 ≤ c'.toNat → c'.toNat ≤ 0x39 → LuhnValid (digitsOf (s ++ [c'])) → c' = c := by
  refine ⟨_, luhn_eq hs hl, ?_⟩
  generalize hS : luhnSum true (digitsOf s).reverse = S
  have hval : ∀ c : Byte, LuhnValid (digitsOf (s ++ [c])) ↔ (c.toNat - 0x30 + S) % 10 = 0 := by
    intro c
    have : (digitsOf (s ++ [c])).reverse = (c.toNat - 0x30) :: (digitsOf s).reverse := by
      simp [digitsOf]
    simp only [LuhnValid, this, luhnSum, hS]
  have hn : (BitVec.ofNat 8 (S * 9 % 10 + 0x30)).toNat = S * 9 % 10 + 0x30 := by
    rw [BitVec.toNat_ofNat]; omega
  refine ⟨by omega, by omega, ?_, ?_⟩
  · rw [hval, hn]; omega
  · intro c' h1 h2 hv
    rw [hval] at hv
    apply BitVec.eq_of_toNat_eq
    rw [hn]; omega

theorem dblDigitSum_inj {a b : Nat} (ha : a < 10) (hb : b < 10)
    (h : dblDigitSum a % 10 = dblDigitSum b % 10) : a = b := by
  unfold dblDigitSum at h; omega

theorem luhnSum_set (b : Bool) (ds : List Nat) (i : Nat) (hi : i < ds.length) (d : Nat)
    (hlt : ∀ x ∈ ds, x < 10) (hd : d < 10)
    (h : luhnSum b (ds.set i d) % 10 = luhnSum b ds % 10) : ds[i] = d := by
  induction ds generalizing b i with
  | nil => simp at hi
  | cons x xs ih =>
    cases i with
    | zero =>
      have hx := hlt x (by simp)
      cases b <;> simp only [List.set_cons_zero, luhnSum, List.getElem_cons_zero] at *
      · omega
      · exact dblDigitSum_inj hx hd (by omega)
    | succ i =>
      simp only [List.getElem_cons_succ]
      have hi' : i < xs.length := by simpa using hi
      refine ih (!b) i hi' (fun y hy => hlt y (by simp [hy])) ?_
      cases b <;> simp only [List.set_cons_succ, luhnSum, Bool.not_true, Bool.not_false] at * <;> omega

/-- **C15b.** Replacing any single digit by a different one changes the
computed check digit, so every single-digit error is detected. -/
theorem luhn_detects_single_error (s : List Byte) (hs : AllDigits s)
    (hl : 81 * s.length < 2 ^ 31) (i : Nat) (hi : i < s.length) (c : Byte)
    (hc : 0x30 ≤ c.toNat ∧ c.toNat ≤ 0x39) (hne : s[i] ≠ c) :
    luhn (s.set i c) ≠ luhn s := by
  have hs' : AllDigits (s.set i c) := by
    intro x hx
    rcases List.mem_or_eq_of_mem_set hx with h | h
    · exact hs x h
    · exact h ▸ hc
  rw [luhn_eq hs hl, luhn_eq hs' (by simpa using hl)]
  intro h
  have h1 := congrArg BitVec.toNat (LuhnRes.digit.inj h)
  simp only [BitVec.toNat_ofNat] at h1
  have h2 : luhnSum true (digitsOf (s.set i c)).reverse % 10 =
      luhnSum true (digitsOf s).reverse % 10 := by
    generalize luhnSum true (digitsOf (s.set i c)).reverse = A at h1 ⊢
    generalize luhnSum true (digitsOf s).reverse = B at h1 ⊢
    have h9 : A * 9 % 10 = B * 9 % 10 := by omega
    omega
  have hrev : (digitsOf (s.set i c)).reverse =
      (digitsOf s).reverse.set (s.length - 1 - i) (c.toNat - 0x30) := by
    have : s.length - 1 - i < s.length := by omega
    unfold digitsOf
    rw [List.map_set]
    apply List.ext_getElem
    · simp
    · intro n h1 h2
      simp only [List.length_reverse, List.length_set, List.length_map] at h1
      rw [List.getElem_reverse, List.getElem_set, List.getElem_set, List.getElem_reverse]
      simp only [List.length_set, List.length_map]
      by_cases hn : n = s.length - 1 - i
      · rw [if_pos (by omega), if_pos (by omega)]
      · rw [if_neg (by omega), if_neg (by omega)]
  rw [hrev] at h2
  have h3 := luhnSum_set true (digitsOf s).reverse (s.length - 1 - i)
    (by simp [digitsOf]; omega) (c.toNat - 0x30)
    (fun d hd => digitsOf_lt hs d (by simpa using hd)) (by omega) h2
  rw [List.getElem_reverse] at h3
  have h4 : s[i].toNat - 0x30 = c.toNat - 0x30 := by
    have e : (digitsOf s).length - 1 - (s.length - 1 - i) = i := by simp [digitsOf]; omega
    simp only [e] at h3
    simpa [digitsOf] using h3
  have h5 := hs s[i] (List.getElem_mem hi)
  exact hne (BitVec.eq_of_toNat_eq (by omega))

/-- **C15c.** A string with any non-digit is refused. -/
theorem luhn_rejects (s : List Byte) (h : ¬ AllDigits s) : luhn s = .einval := by
  unfold luhn
  rw [if_neg]
  rw [all_isDigit]; exact h

theorem swap_digits : ∀ x, x < 10 → ∀ y, y < 10 →
    (dblDigitSum x + y) % 10 = (dblDigitSum y + x) % 10 →
    x = y ∨ (x = 0 ∧ y = 9) ∨ (x = 9 ∧ y = 0) := by decide

theorem luhnSum_swap (b : Bool) (ds : List Nat) (i : Nat) (hi : i + 1 < ds.length)
    (hlt : ∀ x ∈ ds, x < 10)
    (h : luhnSum b ((ds.set i ds[i + 1]).set (i + 1) ds[i]) % 10 = luhnSum b ds % 10) :
    ds[i] = ds[i + 1] ∨ (ds[i] = 0 ∧ ds[i + 1] = 9) ∨ (ds[i] = 9 ∧ ds[i + 1] = 0) := by
  induction ds generalizing b i with
  | nil => simp at hi
  | cons x xs ih =>
    cases i with
    | zero =>
      match xs, hi with
      | y :: ys, _ =>
        have hx := hlt x (by simp)
        have hy := hlt y (by simp)
        simp only [List.getElem_cons_zero, List.getElem_cons_succ]
        apply swap_digits x hx y hy
        cases b <;>
          simp only [List.set_cons_zero, List.set_cons_succ, luhnSum, List.getElem_cons_zero,
            List.getElem_cons_succ] at h <;> omega
    | succ i =>
      simp only [List.getElem_cons_succ]
      have hi' : i + 1 < xs.length := by simpa using hi
      refine ih (!b) i hi' (fun y hy => hlt y (by simp [hy])) ?_
      cases b <;>
        simp only [List.set_cons_succ, luhnSum, Bool.not_true, Bool.not_false,
          List.getElem_cons_succ] at * <;> omega

/-- **C15d.** Swapping two adjacent different digits invalidates the check
digit unless they are 0 and 9. -/
theorem luhn_detects_transposition (ds : List Nat) (hlt : ∀ d ∈ ds, d < 10)
    (hv : LuhnValid ds.reverse) (i : Nat) (hi : i + 1 < ds.length) (hne : ds[i] ≠ ds[i + 1])
    (h09 : ¬ (ds[i] = 0 ∧ ds[i + 1] = 9)) (h90 : ¬ (ds[i] = 9 ∧ ds[i + 1] = 0)) :
    ¬ LuhnValid ((ds.set i ds[i + 1]).set (i + 1) ds[i]).reverse := by
  intro h
  unfold LuhnValid at hv h
  rw [List.reverse_reverse] at hv h
  rcases luhnSum_swap false ds i hi hlt (by omega) with h1 | h1 | h1
  · exact hne h1
  · exact h09 h1
  · exact h90 h1

/-- non-vacuity: the IMEI 49015420323751 has check digit 8; a letter is refused -/
example : luhn [0x34,0x39,0x30,0x31,0x35,0x34,0x32,0x30,0x33,0x32,0x33,0x37,0x35,0x31] = .digit 0x38 ∧
    LuhnValid [4,9,0,1,5,4,2,0,3,2,3,7,5,1,8] ∧ luhn [0x34, 0x41] = .einval := by decide

/-! ### C48 -/

/-- **C48a.** `OSMO_MOD_EUC` is the Euclidean remainder: in `[0, |y|)` and
congruent to `x`. -/
theorem modEuc_spec (x y : Int) (hy : y ≠ 0) :
    ∃ r, modEuc x y = some r ∧ 0 ≤ r ∧ r < |y| ∧ ∃ q, x = y * q + r := by
  unfold modEuc
  rw [if_neg hy]
  have h1 := Int.mul_tdiv_add_tmod x y
  have h2 : |x.tmod y| < |y| := by
    rw [← Int.natCast_natAbs, ← Int.natCast_natAbs, Int.natAbs_tmod]
    exact_mod_cast Nat.mod_lt _ (by omega)
  have e1 : x = y * (x.tdiv y + 1) + (x.tmod y - y) := by rw [Int.mul_add]; omega
  have e2 : x = y * (x.tdiv y - 1) + (x.tmod y + y) := by rw [Int.mul_sub]; omega
  refine ⟨_, rfl, ?_⟩
  rcases lt_trichotomy y 0 with h | h | h
  · rw [abs_of_neg h] at *
    split
    · rename_i hn
      rw [abs_of_neg hn] at h2
      rw [if_neg (by omega)]
      exact ⟨by omega, by omega, x.tdiv y + 1, e1⟩
    · rename_i hn
      rw [abs_of_nonneg (by omega)] at h2
      exact ⟨by omega, by omega, x.tdiv y, h1.symm⟩
  · exact absurd h hy
  · rw [abs_of_pos h] at *
    split
    · rename_i hn
      rw [abs_of_neg hn] at h2
      exact ⟨by omega, by omega, x.tdiv y - 1, e2⟩
    · rename_i hn
      rw [abs_of_nonneg (by omega)] at h2
      exact ⟨by omega, by omega, x.tdiv y, h1.symm⟩

/-- **C48b** (false as stated): for operands of opposite sign where `y` divides
`x`, `OSMO_MOD_FLR` returns `y` and not 0. -/
theorem modFlr_counterexample : modFlr (-4) 2 = some 2 ∧ modFlr 6 (-3) = some (-3) := by decide

/-- the floored remainder: sign of the divisor and smaller than it -/
def IsFlooredMod (x y r : Int) : Prop :=
  (∃ q, x = y * q + r) ∧ (0 < y → 0 ≤ r ∧ r < y) ∧ (y < 0 → y < r ∧ r ≤ 0)

/-- **C48b, partial.** `OSMO_MOD_FLR` is the floored remainder whenever `y`
does not divide `x` or the operands do not have opposite signs.  Missing:
multiples with opposite sign, where the macro is wrong (see
`modFlr_counterexample`); it is still congruent to `x`. -/
theorem modFlr_partial (x y : Int) (hy : y ≠ 0) :
    ∃ r, modFlr x y = some r ∧ (∃ q, x = y * q + r) ∧
      ((¬ y ∣ x ∨ (0 ≤ x ∧ 0 < y) ∨ (x ≤ 0 ∧ y < 0)) → IsFlooredMod x y r) ∧
      (((0 < x ∧ y < 0) ∨ (x < 0 ∧ 0 < y)) → y ∣ x → r = y) := by
  unfold modFlr
  rw [if_neg hy]
  have h1 := Int.mul_tdiv_add_tmod x y
  have h2 : |x.tmod y| < |y| := by
    rw [← Int.natCast_natAbs, ← Int.natCast_natAbs, Int.natAbs_tmod]
    exact_mod_cast Nat.mod_lt _ (by omega)
  have hpos : 0 ≤ x → 0 ≤ x.tmod y := fun h => Int.tmod_nonneg y h
  have hneg : x ≤ 0 → x.tmod y ≤ 0 := fun h => by
    have : 0 ≤ (-x).tmod y := Int.tmod_nonneg y (by omega)
    rw [Int.neg_tmod] at this; omega
  have hdvd : x.tmod y = 0 ↔ y ∣ x := (Int.dvd_iff_tmod_eq_zero).symm
  have hq : x = y * (x.tdiv y) + x.tmod y := h1.symm
  have hq' : x = y * (x.tdiv y - 1) + (x.tmod y + y) := by
    rw [Int.mul_sub]; omega
  refine ⟨_, rfl, ?_, ?_, ?_⟩
  · split
    · exact ⟨_, hq'⟩
    · exact ⟨_, hq⟩
  · intro hcase
    refine ⟨?_, ?_, ?_⟩
    · split
      · exact ⟨_, hq'⟩
      · exact ⟨_, hq⟩
    · intro hy0
      rw [abs_of_pos hy0] at h2
      have := abs_lt.1 h2
      split
      · rename_i hc
        have hx : x < 0 := by omega
        have hne : x.tmod y ≠ 0 := by
          rw [Ne, hdvd]
          rcases hcase with h | h | h
          · exact h
          · omega
          · omega
        have := hneg (by omega)
        omega
      · have := hpos (by omega)
        omega
    · intro hy0
      rw [abs_of_neg hy0] at h2
      have := abs_lt.1 h2
      split
      · have hne : x.tmod y ≠ 0 := by
          rw [Ne, hdvd]
          rcases hcase with h | h | h
          · exact h
          · omega
          · omega
        have := hpos (by omega)
        omega
      · have := hneg (by omega)
        omega
  · intro hs hd
    rw [if_pos (by omega), hdvd.2 hd]; omega

example : modFlr (-5) 3 = some 1 ∧ modEuc (-5) (-3) = some 1 ∧ modEuc (-4) 2 = some 0 := by decide

end Verif.Utils
