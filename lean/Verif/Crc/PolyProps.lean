import Verif.Crc.GenProps
import Mathlib.Algebra.Polynomial.Div
import Mathlib.Algebra.Polynomial.BigOperators
import Mathlib.Data.ZMod.Basic
import Mathlib.Tactic.LinearCombination
/-! C24, C25: the CRCs are remainders of polynomial division over GF(2). -/
namespace Verif.Crc
open Polynomial

/-- polynomials over the field with two elements -/
abbrev GF2X := Polynomial (ZMod 2)

/-- coefficient of a bit -/
noncomputable def coef (b : Bool) : GF2X := if b then 1 else 0

/-- the polynomial whose coefficients are the low `n` bits of a register -/
noncomputable def regPoly (n : Nat) {W : Nat} (s : BitVec W) : GF2X :=
  (List.range n).foldr (fun i p => coef (s.getLsbD i) * X ^ i + p) 0

/-- the polynomial of a sequence of bits, first bit the highest power -/
noncomputable def msgPoly (x : List Byte) : GF2X := x.foldl (fun p b => X * p + coef (bitOf b)) 0

/-- the generator: `x^n` and the terms of `poly` -/
noncomputable def genPoly {W : Nat} (code : Code W) : GF2X := X ^ code.bits + regPoly code.bits code.poly

theorem two_zero : (2 : GF2X) = 0 := by
  have : C (2 : ZMod 2) = (2 : GF2X) := C_ofNat 2
  rw [← this, show (2 : ZMod 2) = 0 from rfl, C_0]

theorem coef_xor (a b : Bool) : coef (a ^^ b) = coef a + coef b := by
  have h2 : (1 : GF2X) + 1 = 0 := by rw [one_add_one_eq_two, two_zero]
  cases a <;> cases b <;> simp [coef, h2]

theorem coef_and (a b : Bool) : coef (a && b) = coef a * coef b := by
  cases a <;> cases b <;> simp [coef]

/-- sum of the low n terms -/
noncomputable def psum (n : Nat) (f : Nat → Bool) : GF2X := ∑ i ∈ Finset.range n, coef (f i) * X ^ i

theorem foldr_sum (l : List Nat) (g : Nat → GF2X) : l.foldr (fun i p => g i + p) 0 = (l.map g).sum := by
  induction l with
  | nil => rfl
  | cons a l ih => simp [ih]

theorem regPoly_psum (n : Nat) {W : Nat} (s : BitVec W) : regPoly n s = psum n s.getLsbD := by
  unfold regPoly psum
  rw [foldr_sum (List.range n) fun i => coef (s.getLsbD i) * X ^ i]
  induction n with
  | zero => simp
  | succ n ih => rw [List.range_succ, List.map_append, List.sum_append, Finset.sum_range_succ, ih]; simp

theorem psum_deg (n : Nat) (f : Nat → Bool) : (psum n f).degree < n := by
  unfold psum
  rw [degree_lt_iff_coeff_zero]
  intro m hm
  rw [finsetSum_coeff]
  apply Finset.sum_eq_zero
  intro i hi
  have hi := Finset.mem_range.1 hi
  have : (coef (f i) * X ^ i : GF2X) = C (if f i then (1 : ZMod 2) else 0) * X ^ i := by
    cases f i <;> simp [coef]
  rw [this, coeff_C_mul, coeff_X_pow, if_neg (show ¬ m = i by omega), mul_zero]

theorem gen_monic {W : Nat} (code : Code W) : (genPoly code).Monic := by
  unfold genPoly
  rw [regPoly_psum]
  exact monic_X_pow_add (psum_deg _ _)

/-- one step multiplies by x, adds the bit at x^n and reduces by the generator -/
theorem step_poly {W : Nat} (code : Code W) (h1 : 1 ≤ code.bits) (h2 : code.bits ≤ W) (s : BitVec W) (b : Byte) :
    regPoly code.bits (crcStep code s b) =
      X * regPoly code.bits s + coef (bitOf b) * X ^ code.bits +
        coef (s.getLsbD (code.bits - 1) ^^ bitOf b) * genPoly code := by
  unfold genPoly
  rw [regPoly_psum, regPoly_psum, regPoly_psum]
  generalize hq : (s.getLsbD (code.bits - 1) ^^ bitOf b) = q
  have e1 : psum code.bits (crcStep code s b).getLsbD =
      psum code.bits (fun i => (decide (i ≠ 0) && s.getLsbD (i - 1))) + coef q * psum code.bits code.poly.getLsbD := by
    unfold psum
    rw [Finset.mul_sum, ← Finset.sum_add_distrib]
    apply Finset.sum_congr rfl
    intro i hi
    have hi := Finset.mem_range.1 hi
    rw [crcStep_bit code h1 h2, hq]
    simp only [hi, decide_true, Bool.true_and]
    rw [coef_xor, coef_and q]
    ring
  have e2 : psum code.bits (fun i => (decide (i ≠ 0) && s.getLsbD (i - 1))) + coef (s.getLsbD (code.bits - 1)) * X ^ code.bits =
      X * psum code.bits s.getLsbD := by
    obtain ⟨m, hm⟩ : ∃ m, code.bits = m + 1 := ⟨code.bits - 1, by omega⟩
    rw [hm]
    unfold psum
    rw [Finset.sum_range_succ' (fun i => coef (decide (i ≠ 0) && s.getLsbD (i - 1)) * X ^ i), Finset.mul_sum,
      Finset.sum_range_succ (fun i => X * (coef (s.getLsbD i) * X ^ i))]
    have e0 : coef (decide ((0 : Nat) ≠ 0) && s.getLsbD (0 - 1)) * (X : GF2X) ^ 0 = 0 := by simp [coef]
    have e3 : ∀ i ∈ Finset.range m, coef (decide (i + 1 ≠ 0) && s.getLsbD (i + 1 - 1)) * (X : GF2X) ^ (i + 1) =
        X * (coef (s.getLsbD i) * X ^ i) := by
      intro i _
      simp only [ne_eq, Nat.succ_ne_zero, not_false_eq_true, decide_true, Bool.true_and, Nat.add_sub_cancel]
      ring
    rw [e0, add_zero, Finset.sum_congr rfl e3, Nat.add_sub_cancel]
    ring
  rw [e1, ← e2, ← hq, coef_xor]
  have t := two_zero
  linear_combination (-(coef (s.getLsbD (code.bits - 1)) + coef (bitOf b)) * X ^ code.bits) * t

theorem fold_poly {W : Nat} (code : Code W) (h1 : 1 ≤ code.bits) (h2 : code.bits ≤ W) (x : List Byte) (s : BitVec W) (m : GF2X)
    (r : GF2X) (hr : ∃ q, regPoly code.bits s = X ^ code.bits * m + r + q * genPoly code) :
    ∃ q, regPoly code.bits (x.foldl (crcStep code) s) =
      X ^ code.bits * x.foldl (fun p b => X * p + coef (bitOf b)) m + X ^ x.length * r + q * genPoly code := by
  induction x generalizing s m r with
  | nil => simpa using hr
  | cons b x ih =>
    obtain ⟨q, hq⟩ := hr
    obtain ⟨q', hq'⟩ := ih (crcStep code s b) (X * m + coef (bitOf b)) (X * r)
      ⟨X * q + coef (s.getLsbD (code.bits - 1) ^^ bitOf b), by
        rw [step_poly code h1 h2, hq]; ring⟩
    refine ⟨q', ?_⟩
    rw [List.foldl_cons, List.foldl_cons, hq', List.length_cons]
    ring

/-- C24: the register after a block is the remainder of the division of
`init·x^len + data·x^n` by the generator -/
theorem crc_is_remainder {W : Nat} (code : Code W) (hd : shiftsDefined code) (x : List Byte) :
    ∃ s, computeBits code x = some (s ^^^ code.remainder) ∧
      regPoly code.bits s =
        (X ^ x.length * regPoly code.bits code.init + X ^ code.bits * msgPoly x) %ₘ genPoly code := by
  obtain ⟨h1, h2, h3⟩ := hd
  refine ⟨x.foldl (crcStep code) code.init, by unfold computeBits; rw [if_pos (.inr ⟨h1, h2, h3⟩)], ?_⟩
  obtain ⟨q, hq⟩ := fold_poly code h1 h2 x code.init 0 (regPoly code.bits code.init) ⟨0, by ring⟩
  have hdeg : (regPoly code.bits (x.foldl (crcStep code) code.init)).degree < (genPoly code).degree := by
    have hg : (genPoly code).degree = code.bits := by
      unfold genPoly
      rw [regPoly_psum, degree_add_eq_left_of_degree_lt, degree_X_pow]
      rw [degree_X_pow]
      exact psum_deg _ _
    rw [hg, regPoly_psum]
    exact psum_deg _ _
  have := (div_modByMonic_unique (f := X ^ x.length * regPoly code.bits code.init + X ^ code.bits * msgPoly x)
    (-q) (regPoly code.bits (x.foldl (crcStep code) code.init)) (gen_monic code) ⟨by
      rw [hq]; unfold msgPoly; ring, hdeg⟩).2
  exact this.symm

/-! ## crc16.c -/

/-- the 16 bits in opposite order -/
def rev16 (c : BitVec 16) : BitVec 16 := c.reverse

/-- the bits of a buffer as they go over a serial line, least significant first -/
def lsbFirst (buf : List Byte) : List Byte :=
  buf.flatMap fun d => (List.range 8).map fun i => if d.getLsbD i then 1#8 else 0#8

/-- CRC-16 with generator x^16 + x^15 + x^2 + 1 -/
def code8005 : Code 16 := { bits := 16, poly := 0x8005#16, init := 0, remainder := 0 }

/-- CRC-16 with generator x^16 + x^12 + x^5 + 1 -/
def code1021 : Code 16 := { bits := 16, poly := 0x1021#16, init := 0, remainder := 0 }

/-- eight steps of the serial division on one byte -/
def byteSteps (code : Code 16) (s : BitVec 16) (d : Byte) : BitVec 16 :=
  ((List.range 8).map fun i => if d.getLsbD i then 1#8 else 0#8).foldl (crcStep code) s

theorem rev16_bit (c : BitVec 16) {i : Nat} (h : i < 16) : (rev16 c).getLsbD i = c.getLsbD (15 - i) := by
  unfold rev16
  rw [BitVec.getLsbD_reverse, BitVec.getMsbD_eq_getLsbD]
  simp [h]

theorem rev16_rev16 (c : BitVec 16) : rev16 (rev16 c) = c := by
  apply BitVec.eq_of_getLsbD_eq
  intro i hi
  rw [rev16_bit _ hi, rev16_bit _ (by omega), show 15 - (15 - i) = i by omega]

theorem rev16_xor (a b : BitVec 16) : rev16 (a ^^^ b) = rev16 a ^^^ rev16 b := by
  apply BitVec.eq_of_getLsbD_eq
  intro i hi
  rw [rev16_bit _ hi, BitVec.getLsbD_xor, BitVec.getLsbD_xor, rev16_bit _ hi, rev16_bit _ hi]

theorem byteSteps_linear (code : Code 16) (h : code.bits = 16) (s t : BitVec 16) (d e : Byte) :
    byteSteps code (s ^^^ t) (d ^^^ e) = byteSteps code s d ^^^ byteSteps code t e := by
  have hx : xorBits ((List.range 8).map fun i => if d.getLsbD i then 1#8 else 0#8)
      ((List.range 8).map fun i => if e.getLsbD i then 1#8 else 0#8) =
      (List.range 8).map fun i => if (d ^^^ e).getLsbD i then 1#8 else 0#8 := by
    unfold xorBits
    rw [List.zipWith_map]
    simp only [List.zipWith_self]
    apply List.map_congr_left
    intro i _
    rw [BitVec.getLsbD_xor]
    cases d.getLsbD i <;> cases e.getLsbD i <;> rfl
  have := fold_linear code (by omega) (by omega) ((List.range 8).map fun i => if d.getLsbD i then 1#8 else 0#8)
    ((List.range 8).map fun i => if e.getLsbD i then 1#8 else 0#8) (by simp) s t (s ^^^ t) (fun _ _ => rfl)
  rw [hx] at this
  apply BitVec.eq_of_getLsbD_eq
  intro i hi
  exact (this i (by omega)).symm

/-- split of a register in its two bytes -/
theorem split16 (c : BitVec 16) : c = ((c >>> 8) <<< 8) ^^^ ((c.setWidth 8).setWidth 16) := by
  apply BitVec.eq_of_getLsbD_eq
  intro i hi
  rw [BitVec.getLsbD_xor, BitVec.getLsbD_shiftLeft, BitVec.getLsbD_ushiftRight, BitVec.getLsbD_setWidth, BitVec.getLsbD_setWidth]
  by_cases h : i < 8
  · simp [h, hi]
  · have : 8 + (i - 8) = i := by omega
    simp [h, hi, this]

/-- a table step equals eight serial steps, for a table that is right on each byte -/
theorem byte_step (code : Code 16) (h : code.bits = 16) (tab : List (BitVec 16))
    (h0 : ∀ d : Byte, byteSteps code (rev16 (d.setWidth 16)) d = 0)
    (hhi : ∀ d : Byte, byteSteps code (rev16 (d.setWidth 16 <<< 8)) 0#8 = rev16 (d.setWidth 16))
    (hlo : ∀ d : Byte, byteSteps code (rev16 (d.setWidth 16)) 0#8 = rev16 (tab.getD d.toNat 0#16))
    (c : BitVec 16) (d : Byte) :
    rev16 ((c >>> 8) ^^^ tab.getD ((c ^^^ d.setWidth 16) &&& 0xff#16).toNat 0#16) = byteSteps code (rev16 c) d := by
  have hidx : ((c ^^^ d.setWidth 16) &&& 0xff#16).toNat = (c.setWidth 8 ^^^ d : Byte).toNat := by
    have : ((c ^^^ d.setWidth 16) &&& 0xff#16) = (c.setWidth 8 ^^^ d : Byte).setWidth 16 := by
      apply BitVec.eq_of_getLsbD_eq
      intro i hi
      have hff : (0xff#16).getLsbD i = decide (i < 8) := by
        have : ∀ i : Fin 16, (0xff#16).getLsbD i.1 = decide (i.1 < 8) := by decide
        exact this ⟨i, hi⟩
      rw [BitVec.getLsbD_and, BitVec.getLsbD_xor, BitVec.getLsbD_setWidth, hff, BitVec.getLsbD_setWidth, BitVec.getLsbD_xor,
        BitVec.getLsbD_setWidth]
      by_cases h8 : i < 8
      · simp [h8, hi]
      · have hz : ∀ v : Byte, v.getLsbD i = false := fun v => BitVec.getLsbD_of_ge v i (by omega)
        simp [h8, hi, hz]
    rw [this, BitVec.toNat_setWidth, Nat.mod_eq_of_lt]
    have := (c.setWidth 8 ^^^ d : Byte).isLt
    omega
  have hc : rev16 c = rev16 (((c >>> 8).setWidth 8).setWidth 16 <<< 8) ^^^
      (rev16 ((c.setWidth 8 ^^^ d : Byte).setWidth 16) ^^^ rev16 (d.setWidth 16)) := by
    rw [← rev16_xor, ← rev16_xor]
    congr 1
    apply BitVec.eq_of_getLsbD_eq
    intro i hi
    simp only [BitVec.getLsbD_xor, BitVec.getLsbD_shiftLeft, BitVec.getLsbD_ushiftRight, BitVec.getLsbD_setWidth]
    by_cases h8 : i < 8
    · simp [h8, hi]
    · have e1 : 8 + (i - 8) = i := by omega
      have e2 : i - 8 < 8 := by omega
      have e3 : i - 8 < 16 := by omega
      have hz : ∀ v : Byte, v.getLsbD i = false := fun v => BitVec.getLsbD_of_ge v i (by omega)
      simp [h8, hi, e1, e2, e3, hz]
  have hcr : (c >>> 8) = ((c >>> 8).setWidth 8).setWidth 16 := by
    apply BitVec.eq_of_getLsbD_eq
    intro i hi
    simp only [BitVec.getLsbD_ushiftRight, BitVec.getLsbD_setWidth]
    by_cases h8 : i < 8
    · simp [h8, hi]
    · simp [h8, hi]
      exact BitVec.getLsbD_of_ge _ _ (by omega)
  rw [hidx, rev16_xor, hc]
  have hd : byteSteps code (rev16 (((c >>> 8).setWidth 8).setWidth 16 <<< 8) ^^^
      (rev16 ((c.setWidth 8 ^^^ d : Byte).setWidth 16) ^^^ rev16 (d.setWidth 16))) d =
      byteSteps code (rev16 (((c >>> 8).setWidth 8).setWidth 16 <<< 8) ^^^
      (rev16 ((c.setWidth 8 ^^^ d : Byte).setWidth 16) ^^^ rev16 (d.setWidth 16))) (0#8 ^^^ (0#8 ^^^ d)) := by
    congr 1; simp
  rw [hd, byteSteps_linear code h, byteSteps_linear code h, h0, hlo, hhi, ← hcr]
  simp

theorem steps_append (code : Code 16) (buf : List Byte) (s : BitVec 16) :
    (lsbFirst buf).foldl (crcStep code) s = buf.foldl (byteSteps code) s := by
  induction buf generalizing s with
  | nil => rfl
  | cons d buf ih =>
    unfold lsbFirst at ih ⊢
    rw [List.flatMap_cons, List.foldl_append, ih, List.foldl_cons]
    rfl

theorem crc16_serial (crc : BitVec 16) (buf : List Byte) :
    rev16 (crc16 crc buf) = (lsbFirst buf).foldl (crcStep code8005) (rev16 crc) := by
  rw [steps_append]
  induction buf generalizing crc with
  | nil => rfl
  | cons d buf ih =>
    rw [List.foldl_cons, ← byte_step code8005 rfl crc16Table (by decide +kernel) (by decide +kernel) (by decide +kernel)]
    exact ih _

theorem crc16Ccitt_serial (crc : BitVec 16) (buf : List Byte) :
    rev16 (crc16Ccitt crc buf) = (lsbFirst buf).foldl (crcStep code1021) (rev16 crc) := by
  rw [steps_append]
  induction buf generalizing crc with
  | nil => rfl
  | cons d buf ih =>
    rw [List.foldl_cons, ← byte_step code1021 rfl crc16CcittTable (by decide +kernel) (by decide +kernel) (by decide +kernel)]
    exact ih _

theorem psum_code8005 : genPoly code8005 = X ^ 16 + X ^ 15 + X ^ 2 + 1 := by
  have hb : ∀ i : Fin 16, (0x8005#16).getLsbD i.1 = decide (i.1 = 0 ∨ i.1 = 2 ∨ i.1 = 15) := by decide
  unfold genPoly
  rw [regPoly_psum]
  unfold psum code8005
  simp only [Finset.sum_range_succ, Finset.sum_range_zero]
  have e := fun (i : Nat) (h : i < 16) => hb ⟨i, h⟩
  simp only [e, Nat.reduceLT]
  simp [coef]
  ring

theorem psum_code1021 : genPoly code1021 = X ^ 16 + X ^ 12 + X ^ 5 + 1 := by
  have hb : ∀ i : Fin 16, (0x1021#16).getLsbD i.1 = decide (i.1 = 0 ∨ i.1 = 5 ∨ i.1 = 12) := by decide
  unfold genPoly
  rw [regPoly_psum]
  unfold psum code1021
  simp only [Finset.sum_range_succ, Finset.sum_range_zero]
  have e := fun (i : Nat) (h : i < 16) => hb ⟨i, h⟩
  simp only [e, Nat.reduceLT]
  simp [coef]
  ring

theorem serial_remainder (code : Code 16) (h : code.bits = 16) (s : BitVec 16) (x : List Byte) :
    regPoly 16 (x.foldl (crcStep code) s) = (X ^ x.length * regPoly 16 s + X ^ 16 * msgPoly x) %ₘ genPoly code := by
  obtain ⟨r, hr, hp⟩ := crc_is_remainder { code with init := s, remainder := 0 } ⟨by simp [h], by simp [h], by omega⟩ x
  unfold computeBits at hr
  rw [if_pos (.inr ⟨by simp [h], by simp [h], by omega⟩), Option.some.injEq] at hr
  have hf : crcStep ({ code with init := s, remainder := 0 } : Code 16) = crcStep code := rfl
  rw [hf] at hr
  have : r = x.foldl (crcStep code) s := by
    have h0 : ∀ v : BitVec 16, v ^^^ 0 = v := fun v => BitVec.xor_zero
    have := hr
    simp only [h0] at this
    exact this.symm
  rw [← this]
  have hg : genPoly ({ code with init := s, remainder := 0 } : Code 16) = genPoly code := rfl
  rw [hg] at hp
  simpa only [h] using hp

theorem lsbFirst_length (buf : List Byte) : (lsbFirst buf).length = 8 * buf.length := by
  induction buf with
  | nil => rfl
  | cons d buf ih =>
    unfold lsbFirst at ih ⊢
    rw [List.flatMap_cons, List.length_append, ih]
    simp; omega

/-- C25: osmo_crc16 is the division of the buffer, sent least significant bit
first, by x^16 + x^15 + x^2 + 1, the lowest bit of the value being the highest
power; and it can be continued over a split buffer. -/
theorem crc16_divides (crc : BitVec 16) (buf : List Byte) :
    regPoly 16 (rev16 (crc16 crc buf)) =
      (X ^ (8 * buf.length) * regPoly 16 (rev16 crc) + X ^ 16 * msgPoly (lsbFirst buf)) %ₘ (X ^ 16 + X ^ 15 + X ^ 2 + 1) := by
  rw [crc16_serial, serial_remainder code8005 rfl, lsbFirst_length, psum_code8005]

/-- C25: the same for osmo_crc16_ccitt and x^16 + x^12 + x^5 + 1 -/
theorem crc16Ccitt_divides (crc : BitVec 16) (buf : List Byte) :
    regPoly 16 (rev16 (crc16Ccitt crc buf)) =
      (X ^ (8 * buf.length) * regPoly 16 (rev16 crc) + X ^ 16 * msgPoly (lsbFirst buf)) %ₘ (X ^ 16 + X ^ 12 + X ^ 5 + 1) := by
  rw [crc16Ccitt_serial, serial_remainder code1021 rfl, lsbFirst_length, psum_code1021]

theorem coef_inj {a b : Bool} (h : coef a = coef b) : a = b := by
  cases a <;> cases b <;> simp [coef] at h <;> rfl

/-- a register is determined by its polynomial, so `crc16_divides` and
`crc16Ccitt_divides` determine the value -/
theorem regPoly_inj (n : Nat) (s t : BitVec n) (h : regPoly n s = regPoly n t) : s = t := by
  rw [regPoly_psum, regPoly_psum] at h
  apply BitVec.eq_of_getLsbD_eq
  intro i hi
  have hc : ∀ f : Nat → Bool, (psum n f).coeff i = if f i then 1 else 0 := by
    intro f
    unfold psum
    rw [finsetSum_coeff, Finset.sum_eq_single i]
    · cases f i <;> simp [coef]
    · intro j _ hj
      cases f j
      · simp [coef]
      · simp [coef, coeff_X_pow, Ne.symm hj]
    · intro h; exact absurd (Finset.mem_range.2 hi) h
  have := congrArg (fun p => coeff p i) h
  simp only [hc] at this
  cases h1 : s.getLsbD i <;> cases h2 : t.getLsbD i <;> rw [h1, h2] at this <;> simp at this <;> rfl

/-- C25: incremental computation over any split -/
theorem crc16_split (crc : BitVec 16) (a b : List Byte) :
    crc16 crc (a ++ b) = crc16 (crc16 crc a) b ∧ crc16Ccitt crc (a ++ b) = crc16Ccitt (crc16Ccitt crc a) b :=
  ⟨List.foldl_append, List.foldl_append⟩

/-- the check values of CRC-16/ARC and CRC-16/KERMIT for "123456789" -/
example : crc16 0 [0x31, 0x32, 0x33, 0x34, 0x35, 0x36, 0x37, 0x38, 0x39] = 0xbb3d#16 ∧
    crc16Ccitt 0 [0x31, 0x32, 0x33, 0x34, 0x35, 0x36, 0x37, 0x38, 0x39] = 0x2189#16 := by decide +kernel

end Verif.Crc
