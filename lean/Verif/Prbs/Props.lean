import Mathlib.Data.Nat.Prime.Basic
import Verif.Common
/-!
Model of src/core/prbs.c and its properties.
-/
namespace Verif.Prbs

/-! ### Model -/

/-- include/osmocom/core/prbs.h:6-10 `struct osmo_prbs`, without the name -/
structure Prbs where
  len : Nat
  coeff : BitVec 64
deriving Repr, DecidableEq

/-- src/core/prbs.c:14-19 -/
def prbs7 : Prbs := { len := 7, coeff := (1 <<< 6) ||| (1 <<< 5) }
/-- src/core/prbs.c:22-27 -/
def prbs9 : Prbs := { len := 9, coeff := (1 <<< 8) ||| (1 <<< 4) }
/-- src/core/prbs.c:30-35 -/
def prbs11 : Prbs := { len := 11, coeff := (1 <<< 10) ||| (1 <<< 8) }
/-- src/core/prbs.c:38-43 -/
def prbs15 : Prbs := { len := 15, coeff := (1 <<< 14) ||| (1 <<< 13) }

/-- src/core/prbs.c:46-51 `osmo_prbs_state_init`: the member `state` -/
def stateInit (_ : Prbs) : BitVec 64 := 1

/-- src/core/prbs.c:53-58 `osmo_prbs_process_bit` -/
def processBit (p : Prbs) (s : BitVec 64) (bit : Bool) : BitVec 64 :=
  let s := s >>> 1
  if bit then s ^^^ p.coeff else s

/-- src/core/prbs.c:61-67 `osmo_prbs_get_ubit` -/
def getUbit (p : Prbs) (s : BitVec 64) : Bool × BitVec 64 :=
  let result := s.getLsbD 0
  (result, processBit p s result)

/-- src/core/prbs.c:70-78 `osmo_prbs_get_ubits`: the bits and the state after them -/
def getUbits (p : Prbs) : Nat → BitVec 64 → List Bool × BitVec 64
  | 0, s => ([], s)
  | n + 1, s => let r := getUbit p s; let q := getUbits p n r.2; (r.1 :: q.1, q.2)

/-! ### Recurrence -/

/-- The state after `k` bits. -/
def after (p : Prbs) (s : BitVec 64) (k : Nat) : BitVec 64 := (getUbits p k s).2

theorem after_zero (p : Prbs) (s : BitVec 64) : after p s 0 = s := rfl

theorem after_succ' (p : Prbs) (s : BitVec 64) (k : Nat) : after p s (k + 1) = after p (getUbit p s).2 k := rfl

theorem after_add (p : Prbs) (j : Nat) : ∀ (s : BitVec 64) (k : Nat), after p s (j + k) = after p (after p s j) k := by
  induction j with
  | zero => intro s k; rw [Nat.zero_add]; rfl
  | succ j ih => intro s k; rw [show j + 1 + k = (j + k) + 1 by omega, after_succ', after_succ', ih]

theorem after_succ (p : Prbs) (s : BitVec 64) (k : Nat) : after p s (k + 1) = (getUbit p (after p s k)).2 := by
  rw [after_add]; rfl

/-- C74: the bits asked for in several calls are those of one. -/
theorem getUbits_append (p : Prbs) (j : Nat) : ∀ (s : BitVec 64) (k : Nat),
    (getUbits p (j + k) s).1 = (getUbits p j s).1 ++ (getUbits p k (getUbits p j s).2).1 ∧ (getUbits p (j + k) s).2 = (getUbits p k (getUbits p j s).2).2 := by
  induction j with
  | zero => intro s k; rw [Nat.zero_add]; exact ⟨rfl, rfl⟩
  | succ j ih =>
    intro s k
    rw [show j + 1 + k = (j + k) + 1 by omega]
    simp only [getUbits]
    obtain ⟨h1, h2⟩ := ih (getUbit p s).2 k
    exact ⟨by rw [h1]; rfl, h2⟩

/-- Bit number `n` of the sequence. -/
def bit (p : Prbs) (s : BitVec 64) (n : Nat) : Bool := (after p s n).getLsbD 0

/-- C74: `bit` is what the calls return. -/
theorem getUbits_bits (p : Prbs) (n : Nat) : ∀ s : BitVec 64, (getUbits p n s).1 = (List.range n).map (bit p s) := by
  induction n with
  | zero => intro s; rfl
  | succ n ih =>
    intro s
    obtain ⟨h1, _⟩ := getUbits_append p n s 1
    rw [h1, List.range_succ, List.map_append, ih]
    rfl

theorem process_bit (L t : Nat) (p : Prbs) (hc : ∀ i, p.coeff.getLsbD i = (decide (i + 1 = L) != decide (i + 1 = t))) (s : BitVec 64) (i : Nat) :
    (getUbit p s).2.getLsbD i = (s.getLsbD (i + 1) != ((decide (i + 1 = L) != decide (i + 1 = t)) && s.getLsbD 0)) := by
  unfold getUbit processBit
  dsimp only
  cases hb : s.getLsbD 0 with
  | true => rw [if_pos rfl, BitVec.getLsbD_xor, hc, BitVec.getLsbD_ushiftRight, Nat.add_comm 1 i, Bool.and_true]
  | false => rw [if_neg (by simp), BitVec.getLsbD_ushiftRight, Nat.add_comm 1 i, Bool.and_false, Bool.bne_false]

/-- The state has no bits from number `L` on. -/
def Short (L : Nat) (s : BitVec 64) : Prop := ∀ i, L ≤ i → s.getLsbD i = false

theorem short_step (L t : Nat) (p : Prbs) (hc : ∀ i, p.coeff.getLsbD i = (decide (i + 1 = L) != decide (i + 1 = t))) (htL : t < L) (s : BitVec 64) (h : Short L s) :
    Short L (getUbit p s).2 := by
  intro i hi
  rw [process_bit L t p hc, h (i + 1) (by omega)]
  rw [decide_eq_false (show ¬ i + 1 = L by omega), decide_eq_false (show ¬ i + 1 = t by omega)]
  rfl

/-- The bit `j` places up comes out `j` bits later, with the bit of `t` before that added if it passes the tap. -/
theorem bit_later (L t : Nat) (p : Prbs) (hc : ∀ i, p.coeff.getLsbD i = (decide (i + 1 = L) != decide (i + 1 = t))) (ht : 1 ≤ t) (j : Nat) : ∀ (s : BitVec 64), j < L →
    bit p s j = (s.getLsbD j != (decide (t ≤ j) && bit p s (j - t))) := by
  induction j with
  | zero =>
    intro s _
    rw [decide_eq_false (by omega), Bool.false_and, Bool.bne_false]
    rfl
  | succ j ih =>
    intro s hj
    have h1 : bit p s (j + 1) = bit p (getUbit p s).2 j := rfl
    rw [h1, ih _ (by omega), process_bit L t p hc, decide_eq_false (show ¬ j + 1 = L by omega), Bool.false_bne]
    by_cases h : t ≤ j
    · rw [decide_eq_true h, decide_eq_true (show t ≤ j + 1 by omega), decide_eq_false (show ¬ j + 1 = t by omega), show j + 1 - t = (j - t) + 1 by omega]
      simp only [Bool.false_and, Bool.bne_false, Bool.true_and]
      rfl
    · rw [decide_eq_false h]
      by_cases h2 : j + 1 = t
      · rw [decide_eq_true h2, decide_eq_true (show t ≤ j + 1 by omega), show j + 1 - t = 0 by omega]
        simp only [Bool.false_and, Bool.bne_false, Bool.true_and]
        rfl
      · rw [decide_eq_false h2, decide_eq_false (show ¬ t ≤ j + 1 by omega)]
        simp

theorem short_after (L t : Nat) (p : Prbs) (hc : ∀ i, p.coeff.getLsbD i = (decide (i + 1 = L) != decide (i + 1 = t))) (htL : t < L) (k : Nat) :
    ∀ (s : BitVec 64), Short L s → Short L (after p s k) := by
  induction k with
  | zero => intro s h; exact h
  | succ k ih => intro s h; rw [after_succ']; exact ih _ (short_step L t p hc htL s h)

theorem recurrence (L t : Nat) (p : Prbs) (hc : ∀ i, p.coeff.getLsbD i = (decide (i + 1 = L) != decide (i + 1 = t))) (ht : 1 ≤ t) (htL : t < L)
    (s : BitVec 64) (hs : Short L s) (n : Nat) : bit p s (n + L) = (bit p s n != bit p s (n + L - t)) := by
  have hb : ∀ m, bit p s (n + m) = bit p (after p s n) m := by
    intro m
    unfold bit
    rw [after_add]
  have hsn := short_after L t p hc htL n s hs
  rw [hb L, show bit p s n = bit p (after p s n) 0 from hb 0, show n + L - t = n + (L - t) by omega, hb]
  generalize after p s n = u at hsn
  obtain ⟨k, rfl⟩ : ∃ k, L = k + 1 := ⟨L - 1, by omega⟩
  have h1 : bit p u (k + 1) = bit p (getUbit p u).2 k := rfl
  rw [h1, bit_later (k + 1) t p hc ht k _ (by omega), process_bit (k + 1) t p hc, hsn (k + 1) (Nat.le_refl _), decide_eq_true (rfl : k + 1 = k + 1),
    decide_eq_false (show ¬ k + 1 = t by omega), decide_eq_true (show t ≤ k by omega)]
  have h2 : bit p u (k + 1 - t) = bit p (getUbit p u).2 (k - t) := by
    rw [show k + 1 - t = (k - t) + 1 by omega]; rfl
  rw [h2]
  simp only [Bool.false_bne, Bool.true_bne, Bool.not_false, Bool.true_and]
  rfl

theorem coeff_bits (a b : Nat) (hab : a ≠ b) (ha : a < 64) (hb : b < 64) (i : Nat) :
    (((1#64 <<< a) ||| (1#64 <<< b)).getLsbD i) = (decide (i + 1 = a + 1) != decide (i + 1 = b + 1)) := by
  rw [BitVec.getLsbD_or, BitVec.getLsbD_shiftLeft, BitVec.getLsbD_shiftLeft]
  have one : ∀ n, (1#64).getLsbD n = decide (n = 0) := by
    intro n
    cases n with
    | zero => rfl
    | succ n => simp [BitVec.getLsbD_one]
  rw [one, one]
  by_cases h1 : i = a
  · subst h1
    simp [ha, hab]
  · by_cases h2 : i = b
    · subst h2
      simp [hb, h1]
    · have e1 : decide (i + 1 = a + 1) = false := decide_eq_false (by omega)
      have e2 : decide (i + 1 = b + 1) = false := decide_eq_false (by omega)
      rw [e1, e2]
      simp
      omega

/-- The four generators: length, tap. -/
def tap (p : Prbs) : Nat := if p = prbs7 then 6 else if p = prbs9 then 5 else if p = prbs11 then 9 else 14

/-- The generators of the library. -/
def Known (p : Prbs) : Prop := p = prbs7 ∨ p = prbs9 ∨ p = prbs11 ∨ p = prbs15

theorem known_coeff (p : Prbs) (h : Known p) : (∀ i, p.coeff.getLsbD i = (decide (i + 1 = p.len) != decide (i + 1 = tap p))) ∧ 1 ≤ tap p ∧ tap p < p.len := by
  rcases h with rfl | rfl | rfl | rfl
  · exact ⟨coeff_bits 6 5 (by omega) (by omega) (by omega), by decide⟩
  · exact ⟨coeff_bits 8 4 (by omega) (by omega) (by omega), by decide⟩
  · exact ⟨coeff_bits 10 8 (by omega) (by omega) (by omega), by decide⟩
  · exact ⟨coeff_bits 14 13 (by omega) (by omega) (by omega), by decide⟩

theorem init_short (p : Prbs) (h : Known p) : Short p.len (stateInit p) := by
  intro i hi
  have : 1 ≤ p.len := by rcases h with rfl | rfl | rfl | rfl <;> decide
  unfold stateInit
  cases i with
  | zero => omega
  | succ i => simp [BitVec.getLsbD_one]

/-- C74: bits fulfil the recurrence of the polynomial given for the generator, x^7 + x^6 + 1 and so on. -/
theorem prbs_recurrence (n : Nat) :
    (bit prbs7 (stateInit prbs7) (n + 7) = (bit prbs7 (stateInit prbs7) (n + 1) != bit prbs7 (stateInit prbs7) n)) ∧
    (bit prbs9 (stateInit prbs9) (n + 9) = (bit prbs9 (stateInit prbs9) (n + 4) != bit prbs9 (stateInit prbs9) n)) ∧
    (bit prbs11 (stateInit prbs11) (n + 11) = (bit prbs11 (stateInit prbs11) (n + 2) != bit prbs11 (stateInit prbs11) n)) ∧
    (bit prbs15 (stateInit prbs15) (n + 15) = (bit prbs15 (stateInit prbs15) (n + 1) != bit prbs15 (stateInit prbs15) n)) := by
  have key : ∀ p, Known p → bit p (stateInit p) (n + p.len) = (bit p (stateInit p) (n + p.len - tap p) != bit p (stateInit p) n) := by
    intro p hp
    obtain ⟨h1, h2, h3⟩ := known_coeff p hp
    rw [recurrence p.len (tap p) p h1 h2 h3 _ (init_short p hp) n, bne_comm]
  exact ⟨key prbs7 (Or.inl rfl), key prbs9 (Or.inr (Or.inl rfl)), key prbs11 (Or.inr (Or.inr (Or.inl rfl))), key prbs15 (Or.inr (Or.inr (Or.inr rfl)))⟩

/-- The start of the sequences. -/
example : (getUbits prbs7 10 (stateInit prbs7)).1 = [true, false, false, false, false, false, true, true, false, false] := by decide +kernel

/-! ### Period -/

/-- States of PRBS-15 after every 217 bits. -/
def marks15 : List (BitVec 64) :=
  [1, 16767, 10921, 25864, 2894, 11488, 12412, 27040, 20647, 5790, 6975, 13738, 6480, 30675, 29948, 22150, 30741, 21487, 667, 8071, 1625,
   651, 18552, 11471, 20995, 15513, 25289, 21959, 26256, 26805, 31780, 21858, 12817, 26918, 26713, 15834, 330, 26883, 806, 10490, 4465,
   26294, 74, 5887, 10816, 8310, 8042, 1752, 31754, 30306, 19841, 15936, 8270, 27797, 27689, 26071, 28976, 30857, 13806, 17232, 30511, 25341,
   10296, 29583, 19726, 3134, 13544, 15276, 25022, 29762, 7559, 14752, 20551, 22880, 12537, 21214, 1048, 25586, 23108, 23292, 5885, 26815,
   29988, 5499, 4164, 9674, 5786, 24256, 24335, 3442, 23275, 1917, 22391, 24215, 20848, 22755, 29563, 4336, 26571, 5942, 32573, 18456, 23759,
   28022, 24491, 6284, 29137, 30216, 13441, 16684, 24873, 23100, 14076, 5717, 29505, 8688, 22632, 1274, 28403, 9424, 14233, 7465, 9566,
   15204, 2624, 8163, 13222, 22363, 16232, 31666, 1428, 11760, 6271, 27216, 2211, 27748, 13655, 20014, 9156, 6766, 17193, 23120, 18684,
   22222, 11285, 11517, 10492, 5745, 22849, 7801, 11611, 1]

theorem marks15_ok : ∀ i : Fin 151, after prbs15 (marks15.getD i 0) 217 = marks15.getD (i + 1) 0 := by decide +kernel

theorem after15 (i : Nat) (hi : i ≤ 151) : after prbs15 1 (217 * i) = marks15.getD i 0 := by
  induction i with
  | zero => rfl
  | succ i ih =>
    rw [show 217 * (i + 1) = 217 * i + 217 by omega, after_add, ih (by omega)]
    exact marks15_ok ⟨i, by omega⟩

/-- States of PRBS-11 after every 89 bits. -/
def marks11 : List (BitVec 64) :=
  [1, 1314, 1668, 1750, 1562, 103, 796, 569, 836, 932, 23, 1989, 464, 1358, 491, 1861, 1170, 1339, 154, 1595, 277, 1797, 1587, 1]

theorem marks11_ok : ∀ i : Fin 23, after prbs11 (marks11.getD i 0) 89 = marks11.getD (i + 1) 0 := by decide +kernel

theorem after11 (i : Nat) (hi : i ≤ 23) : after prbs11 1 (89 * i) = marks11.getD i 0 := by
  induction i with
  | zero => rfl
  | succ i ih =>
    rw [show 89 * (i + 1) = 89 * i + 89 by omega, after_add, ih (by omega)]
    exact marks11_ok ⟨i, by omega⟩

theorem after_mul (p : Prbs) (s : BitVec 64) (a : Nat) (h : after p s a = s) (k : Nat) : after p s (a * k) = s := by
  induction k with
  | zero => rfl
  | succ k ih => rw [Nat.mul_succ, after_add, ih, h]

/-- A return to the start after `a` and after `b` steps is one after the greatest common divisor. -/
theorem after_gcd (p : Prbs) (s : BitVec 64) (a b : Nat) (ha : after p s a = s) (hb : after p s b = s) : after p s (a.gcd b) = s := by
  induction a using Nat.strongRecOn generalizing b with
  | _ a ih =>
    by_cases h0 : a = 0
    · subst h0; rw [Nat.gcd_zero_left]; exact hb
    · rw [Nat.gcd_rec]
      refine ih (b % a) (Nat.mod_lt _ (by omega)) a ?_ ha
      have := Nat.div_add_mod b a
      rw [← this, after_add, after_mul p s a ha] at hb
      exact hb

theorem exact_period (p : Prbs) (s : BitVec 64) (N : Nat) (h : after p s N = s) (hq : ∀ q, q.Prime → q ∣ N → after p s (N / q) ≠ s) (d : Nat) :
    after p s d = s ↔ N ∣ d := by
  constructor
  · intro hd
    have hg := after_gcd p s d N hd h
    have h1 : d.gcd N ∣ N := Nat.gcd_dvd_right d N
    obtain ⟨m, hm⟩ := h1
    by_cases h1 : m = 1
    · subst h1
      rw [Nat.mul_one] at hm
      rw [hm]
      exact Nat.gcd_dvd_left d N
    · exfalso
      have hp := Nat.minFac_prime h1
      have hdv := Nat.minFac_dvd m
      obtain ⟨k, hk⟩ := hdv
      refine hq m.minFac hp ⟨d.gcd N * k, ?_⟩ ?_
      · rw [hm]
        conv => lhs; rw [hk]
        rw [← hm, Nat.mul_left_comm]
      · have : N / m.minFac = d.gcd N * k := by
          apply Nat.div_eq_of_eq_mul_right hp.pos
          conv => lhs; rw [hm, hk]
          rw [← hk, Nat.mul_left_comm, ← hk]
        rw [this]
        exact after_mul p s _ hg k
  · rintro ⟨k, rfl⟩
    exact after_mul p s N h k

theorem prime_of_mul {q a b : Nat} (hq : q.Prime) (ha : a.Prime) (h : q ∣ a * b) : q = a ∨ q ∣ b := by
  rcases (Nat.Prime.dvd_mul hq).mp h with h | h
  · exact Or.inl ((Nat.prime_dvd_prime_iff_eq hq ha).mp h)
  · exact Or.inr h

/-- The state returns to its start after 2^len - 1 bits and not before. -/
theorem state_period (p : Prbs) (hp : Known p) (d : Nat) : after p (stateInit p) d = stateInit p ↔ 2 ^ p.len - 1 ∣ d := by
  rcases hp with rfl | rfl | rfl | rfl
  · refine exact_period prbs7 1 127 (by decide +kernel) ?_ d
    intro q hq hd
    have : q = 127 := (Nat.prime_dvd_prime_iff_eq hq (by decide +kernel)).mp hd
    subst this
    decide +kernel
  · refine exact_period prbs9 1 511 (by decide +kernel) ?_ d
    intro q hq hd
    rcases prime_of_mul (a := 7) (b := 73) hq (by decide +kernel) hd with rfl | h
    · decide +kernel
    · have : q = 73 := (Nat.prime_dvd_prime_iff_eq hq (by decide +kernel)).mp h
      subst this
      decide +kernel
  · refine exact_period prbs11 1 2047 (after11 23 (by omega)) ?_ d
    intro q hq hd
    rcases prime_of_mul (a := 23) (b := 89) hq (by decide +kernel) hd with rfl | h
    · decide +kernel
    · have : q = 89 := (Nat.prime_dvd_prime_iff_eq hq (by decide +kernel)).mp h
      subst this
      decide +kernel
  · refine exact_period prbs15 1 32767 (after15 151 (by omega)) ?_ d
    intro q hq hd
    rcases prime_of_mul (a := 151) (b := 217) hq (by decide +kernel) hd with rfl | h
    · rw [show 32767 / 151 = 217 * 1 by decide, after15 1 (by omega)]
      decide +kernel
    · rcases prime_of_mul (a := 7) (b := 31) hq (by decide +kernel) h with rfl | h
      · rw [show 32767 / 7 = 217 * 21 + 124 by decide, after_add, after15 21 (by omega)]
        decide +kernel
      · have : q = 31 := (Nat.prime_dvd_prime_iff_eq hq (by decide +kernel)).mp h
        subst this
        rw [show 32767 / 31 = 217 * 4 + 189 by decide, after_add, after15 4 (by omega)]
        decide +kernel

/-- States with the same next bits are the same. -/
theorem state_of_bits (p : Prbs) (hp : Known p) (s u : BitVec 64) (hs : Short p.len s) (hu : Short p.len u) (h : ∀ j, j < p.len → bit p s j = bit p u j) : s = u := by
  obtain ⟨h1, h2, h3⟩ := known_coeff p hp
  apply BitVec.eq_of_getLsbD_eq
  intro i _
  by_cases hi : i < p.len
  · have a := bit_later p.len (tap p) p h1 h2 i s hi
    have b := bit_later p.len (tap p) p h1 h2 i u hi
    rw [h i hi, h (i - tap p) (by omega)] at a
    rw [a] at b
    generalize (decide (tap p ≤ i) && bit p u (i - tap p)) = z at b
    cases hx : s.getLsbD i <;> cases hy : u.getLsbD i <;> cases z <;> rw [hx, hy] at b <;> simp at b ⊢
  · rw [hs i (by omega), hu i (by omega)]

/-- C74: the sequence of bits repeats after 2^n - 1 bits, and no shorter period than that (or
a multiple of it) exists: it is a sequence of maximal length. -/
theorem prbs_period (p : Prbs) (hp : Known p) (d : Nat) : (∀ n, bit p (stateInit p) (n + d) = bit p (stateInit p) n) ↔ 2 ^ p.len - 1 ∣ d := by
  rw [← state_period p hp d]
  have hb : ∀ m, bit p (stateInit p) (d + m) = bit p (after p (stateInit p) d) m := by
    intro m; unfold bit; rw [after_add]
  constructor
  · intro h
    obtain ⟨h1, h2, h3⟩ := known_coeff p hp
    refine state_of_bits p hp _ _ (short_after p.len (tap p) p h1 h3 d _ (init_short p hp)) (init_short p hp) ?_
    intro j _
    rw [← hb, Nat.add_comm, h]
  · intro h n
    rw [Nat.add_comm, hb, h]

/-- C74: no run of `len` zeroes occurs. -/
theorem prbs_not_all_zero (p : Prbs) (hp : Known p) (n : Nat) : ∃ j, j < p.len ∧ bit p (stateInit p) (n + j) = true := by
  by_cases hall : ∃ j, j < p.len ∧ bit p (stateInit p) (n + j) = true
  · exact hall
  · exfalso
    obtain ⟨h1, h2, h3⟩ := known_coeff p hp
    have hb : ∀ m, bit p (stateInit p) (n + m) = bit p (after p (stateInit p) n) m := by
      intro m; unfold bit; rw [after_add]
    have zero : ∀ j, after p 0#64 j = 0#64 := by
      intro j
      induction j with
      | zero => rfl
      | succ j ih =>
        rw [after_succ, ih]
        rfl
    have h0 : after p (stateInit p) n = 0#64 := by
      refine state_of_bits p hp _ _ (short_after p.len (tap p) p h1 h3 n _ (init_short p hp)) (fun i _ => by simp) ?_
      intro j hj
      have : bit p (stateInit p) (n + j) ≠ true := fun h => hall ⟨j, hj, h⟩
      rw [← hb]
      unfold bit
      rw [zero]
      simpa [bit] using this
    -- and so it stays, but the sequence comes back to its start
    have hN := (state_period p hp ((2 ^ p.len - 1) * (n + 1))).mpr ⟨n + 1, rfl⟩
    have hpos : 1 ≤ 2 ^ p.len - 1 := by rcases hp with rfl | rfl | rfl | rfl <;> decide
    have hle : n ≤ (2 ^ p.len - 1) * (n + 1) := Nat.le_trans (Nat.le_succ n) (Nat.le_mul_of_pos_left _ hpos)
    obtain ⟨k, hk⟩ : ∃ k, (2 ^ p.len - 1) * (n + 1) = n + k := ⟨_, (Nat.add_sub_cancel' hle).symm⟩
    rw [hk, after_add, h0, zero] at hN
    exact absurd (show (0#64) = 1#64 from hN) (by decide)

/-- The last bits of a period of PRBS-7, and the first of the next. -/
example : (List.range 10).map (fun i => bit prbs7 (stateInit prbs7) (120 + i)) = [true, false, false, false, false, false, false, true, false, false] := by decide +kernel

end Verif.Prbs
