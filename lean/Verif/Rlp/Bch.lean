import Verif.Rlp.Fcs
import Mathlib.FieldTheory.IsAlgClosed.AlgebraicClosure
import Mathlib.Algebra.Field.ZMod
import Mathlib.LinearAlgebra.Vandermonde
import Mathlib.GroupTheory.OrderOfElement
/-! C90: the frame check sequence notices up to six wrong bits in a frame of 240
bits: the generator has six consecutive powers of an element of order 255 as roots. -/
namespace Verif.Rlp
open Verif.Crc Polynomial

/-- a field with all roots of the generator -/
abbrev K := AlgebraicClosure (ZMod 2)

/-- x^8 + x^4 + x^3 + x^2 + 1, a factor of the generator -/
def code8 : Code 8 := { bits := 8, poly := 0x1d#8, init := 0, remainder := 0 }

/-- the powers of x modulo x^8 + x^4 + x^3 + x^2 + 1 -/
def pw : Nat → BitVec 8
  | 0 => 1#8
  | k + 1 => crcStep code8 (pw k) 0#8

theorem exists_root : ∃ α : K, aeval α (genPoly code8) = 0 := by
  apply IsAlgClosed.exists_aeval_eq_zero
  unfold genPoly
  rw [regPoly_psum, degree_add_eq_left_of_degree_lt, degree_X_pow]
  · decide
  · rw [degree_X_pow]; exact psum_deg _ _

theorem regPoly_xor (n : Nat) {W : Nat} (a b : BitVec W) : regPoly n (a ^^^ b) = regPoly n a + regPoly n b := by
  rw [regPoly_psum, regPoly_psum, regPoly_psum]
  unfold psum
  rw [← Finset.sum_add_distrib]
  apply Finset.sum_congr rfl
  intro i _
  rw [BitVec.getLsbD_xor, coef_xor, add_mul]

theorem regPoly_zero (n : Nat) {W : Nat} : regPoly n (0 : BitVec W) = 0 := by
  rw [regPoly_psum]; unfold psum; simp [coef]

theorem regPoly_one : regPoly 8 1#8 = 1 := by
  rw [regPoly_psum]
  unfold psum
  simp [Finset.sum_range_succ, coef]

section
variable {α : K} (hα : aeval α (genPoly code8) = 0)
include hα

theorem aeval_pw (k : Nat) : aeval α (regPoly 8 (pw k)) = α ^ k := by
  induction k with
  | zero => show aeval α (regPoly 8 1#8) = _; rw [regPoly_one]; simp
  | succ k ih =>
    have := step_poly code8 (by decide) (by decide) (pw k) 0#8
    have e : regPoly 8 (pw (k + 1)) = _ := this
    rw [e]
    have hz : coef (bitOf 0#8) = 0 := by simp [bitOf, coef]
    rw [hz]
    simp only [map_add, map_mul, aeval_X, hα, mul_zero, add_zero, zero_mul, map_zero]
    have ih' : aeval α (regPoly code8.bits (pw k)) = α ^ k := ih
    rw [ih', pow_succ]; ring

theorem pow_255 : α ^ 255 = 1 := by
  rw [← aeval_pw hα, show pw 255 = 1#8 by decide +kernel, regPoly_one]; simp

theorem ne_zero : α ≠ 0 := by
  intro h
  have := pow_255 hα
  rw [h] at this
  simp at this

theorem pow_ne (a b : Nat) (h : pw a ^^^ 1#8 = pw b) : α ^ a ≠ 1 := by
  intro h1
  have := aeval_pw hα b
  rw [← h, regPoly_xor, map_add, aeval_pw hα, regPoly_one, h1] at this
  have h2 : (1 : K) + 1 = 0 := by
    have h2 : (1 : GF2X) + 1 = 0 := by rw [one_add_one_eq_two, two_zero]
    have := congrArg (aeval α) h2
    rwa [map_add, map_one, map_zero] at this
  rw [map_one, h2] at this
  exact pow_ne_zero b (ne_zero hα) this.symm

theorem order_255 : orderOf α = 255 := by
  apply orderOf_eq_of_pow_and_pow_div_prime (by decide) (pow_255 hα)
  intro p hp hd
  have h : p = 3 ∨ p = 5 ∨ p = 17 := by
    have h1 : p ∣ 3 * (5 * 17) := hd
    rcases (Nat.Prime.dvd_mul hp).1 h1 with h | h
    · exact .inl ((Nat.prime_dvd_prime_iff_eq hp (by decide)).1 h)
    · rcases (Nat.Prime.dvd_mul hp).1 h with h | h
      · exact .inr (.inl ((Nat.prime_dvd_prime_iff_eq hp (by decide)).1 h))
      · exact .inr (.inr ((Nat.prime_dvd_prime_iff_eq hp (by decide)).1 h))
  rcases h with rfl | rfl | rfl
  · exact pow_ne hα 85 170 (by decide +kernel)
  · exact pow_ne hα 51 238 (by decide +kernel)
  · exact pow_ne hα 15 33 (by decide +kernel)

/-- the first six powers are roots of the generator -/
theorem roots (i : Nat) (h1 : 1 ≤ i) (h6 : i ≤ 6) : aeval (α ^ i) (genPoly code24) = 0 := by
  have key : ∀ i : Fin 6, pw ((i.1 + 1) * 24) ^^^ pw ((i.1 + 1) * 23) ^^^ pw ((i.1 + 1) * 21) ^^^ pw ((i.1 + 1) * 20) ^^^ pw ((i.1 + 1) * 19) ^^^
      pw ((i.1 + 1) * 17) ^^^ pw ((i.1 + 1) * 16) ^^^ pw ((i.1 + 1) * 15) ^^^ pw ((i.1 + 1) * 13) ^^^ pw ((i.1 + 1) * 8) ^^^
      pw ((i.1 + 1) * 7) ^^^ pw ((i.1 + 1) * 5) ^^^ pw ((i.1 + 1) * 4) ^^^ pw ((i.1 + 1) * 2) ^^^ 1#8 = 0 := by decide +kernel
  have k := key ⟨i - 1, by omega⟩
  simp only [show i - 1 + 1 = i by omega] at k
  have := congrArg (fun r => aeval α (regPoly 8 r)) k
  simp only [regPoly_xor, map_add, aeval_pw hα, regPoly_zero, regPoly_one, map_zero, map_one] at this
  rw [gen_code24]
  simp only [map_add, map_pow, aeval_X, map_one, ← pow_mul]
  exact this

end

/-- the polynomial of a sequence of bits is the sum of the powers of its ones -/
theorem msgPoly_sum (e : List Byte) :
    ∃ S : Finset Nat, S.card = e.countP bitOf ∧ (∀ k ∈ S, k < e.length) ∧ msgPoly e = ∑ k ∈ S, (X : GF2X) ^ k := by
  induction e using List.reverseRecOn with
  | nil => exact ⟨∅, rfl, by simp, by simp [msgPoly]⟩
  | append_singleton e b ih =>
    obtain ⟨S, h1, h2, h3⟩ := ih
    have hm : msgPoly (e ++ [b]) = X * msgPoly e + coef (bitOf b) := by
      unfold msgPoly; rw [List.foldl_append]; rfl
    have hinj : Function.Injective Nat.succ := fun a b h => by omega
    have hs : ∑ k ∈ S.map ⟨Nat.succ, hinj⟩, (X : GF2X) ^ k = X * ∑ k ∈ S, (X : GF2X) ^ k := by
      rw [Finset.sum_map, Finset.mul_sum]
      apply Finset.sum_congr rfl
      intro k _
      show (X : GF2X) ^ (k + 1) = _
      rw [pow_succ]; ring
    have h0 : 0 ∉ S.map ⟨Nat.succ, hinj⟩ := by simp
    rw [List.countP_append]
    cases hb : bitOf b with
    | true =>
      refine ⟨insert 0 (S.map ⟨Nat.succ, hinj⟩), ?_, ?_, ?_⟩
      · rw [Finset.card_insert_of_notMem h0, Finset.card_map, h1, List.countP_cons_of_pos hb]; rfl
      · intro k hk
        rw [List.length_append, List.length_singleton]
        rcases Finset.mem_insert.1 hk with rfl | hk
        · omega
        · obtain ⟨j, hj, rfl⟩ := Finset.mem_map.1 hk
          have := h2 j hj
          show j + 1 < _
          omega
      · rw [Finset.sum_insert h0, hs, hm, h3, hb]
        simp [coef]; ring
    | false =>
      refine ⟨S.map ⟨Nat.succ, hinj⟩, ?_, ?_, ?_⟩
      · rw [Finset.card_map, h1, List.countP_cons_of_neg (by simp [hb])]; rfl
      · intro k hk
        rw [List.length_append, List.length_singleton]
        obtain ⟨j, hj, rfl⟩ := Finset.mem_map.1 hk
        have := h2 j hj
        show j + 1 < _
        omega
      · rw [hs, hm, h3, hb]
        simp [coef]

/-- a sum of at most six different powers of an element of order 255 whose first
six power sums vanish is empty -/
theorem power_sums {α : K} (h0 : α ≠ 0) (ho : orderOf α = 255) (S : Finset Nat) (hS : ∀ k ∈ S, k < 255) (hc : S.card ≤ 6)
    (h : ∀ i, 1 ≤ i → i ≤ 6 → ∑ k ∈ S, (α ^ i) ^ k = 0) : S = ∅ := by
  have hv := Matrix.eq_zero_of_forall_pow_sum_mul_pow_eq_zero (n := S.card)
    (f := fun j => α ^ (S.equivFin.symm j : Nat)) (v := fun j => α ^ (S.equivFin.symm j : Nat)) ?_ ?_
  · by_contra hne
    have hpos : 0 < S.card := Finset.card_pos.2 (Finset.nonempty_iff_ne_empty.2 hne)
    have := congrFun hv ⟨0, hpos⟩
    exact pow_ne_zero _ h0 this
  · intro a b hab
    have hab' : α ^ (S.equivFin.symm a : Nat) = α ^ (S.equivFin.symm b : Nat) := hab
    have ha := hS _ (S.equivFin.symm a).2
    have hb := hS _ (S.equivFin.symm b).2
    have := pow_injOn_Iio_orderOf (x := α) (by rw [ho]; exact ha) (by rw [ho]; exact hb) hab'
    exact S.equivFin.symm.injective (Subtype.ext this)
  · intro i
    have hi := h (i.1 + 1) (by omega) (by omega)
    rw [← hi, ← Finset.sum_coe_sort S, ← Equiv.sum_comp S.equivFin.symm]
    apply Finset.sum_congr rfl
    intro j _
    rw [← pow_mul, ← pow_mul, ← pow_add]
    congr 1; ring

/-- C90: up to six wrong bits, anywhere in a frame of 240 bits (or less, or up to
31 octets), are noticed -/
theorem fcs_six_bits (f g : List Byte) (hl : f.length = g.length) (h31 : f.length ≤ 31) (hf : FcsOk f) (hne : f ≠ g)
    (hn : (xorBits (lsbFirst f) (lsbFirst g)).countP bitOf ≤ 6) : ¬ FcsOk g := by
  rw [fcs_syndrome f g hl hf]
  intro hz
  have hle : (xorBits (lsbFirst f) (lsbFirst g)).length < 255 := by
    simp only [xorBits, List.length_zipWith, lsbFirst_length]; omega
  have hpos : (xorBits (lsbFirst f) (lsbFirst g)).countP bitOf ≠ 0 := by
    intro h0
    apply hne
    have hb : ∀ (f g : List Byte), f.length = g.length → (xorBits (lsbFirst f) (lsbFirst g)).countP bitOf = 0 → f = g := by
      intro f
      induction f with
      | nil => intro g hl _; cases g with
        | nil => rfl
        | cons a g => simp at hl
      | cons a f ih =>
        intro g hl h
        cases g with
        | nil => simp at hl
        | cons b g =>
          have hx : xorBits (lsbFirst (a :: f)) (lsbFirst (b :: g)) =
              xorBits (lsbFirst [a]) (lsbFirst [b]) ++ xorBits (lsbFirst f) (lsbFirst g) := by
            rw [show a :: f = [a] ++ f from rfl, show b :: g = [b] ++ g from rfl, lsbFirst_append, lsbFirst_append]
            unfold xorBits
            rw [List.zipWith_append (by simp [lsbFirst_length])]
          rw [hx, List.countP_append] at h
          have hab : a = b := by
            have h1 : (xorBits (lsbFirst [a]) (lsbFirst [b])).countP bitOf = 0 := by omega
            rw [List.countP_eq_zero] at h1
            apply BitVec.eq_of_getLsbD_eq
            intro i hi
            have hm : (if a.getLsbD i then 1#8 else 0#8) ^^^ (if b.getLsbD i then 1#8 else 0#8) ∈ xorBits (lsbFirst [a]) (lsbFirst [b]) := by
              unfold xorBits lsbFirst
              simp only [List.flatMap_cons, List.flatMap_nil, List.append_nil, List.zipWith_map, List.zipWith_self]
              exact List.mem_map.2 ⟨i, List.mem_range.2 hi, rfl⟩
            have := h1 _ hm
            cases ha : a.getLsbD i <;> cases hb : b.getLsbD i <;> rw [ha, hb] at this <;> first | rfl | exact absurd rfl this
          rw [hab, ih g (by simpa using hl) (by omega)]
    exact hb f g hl h0
  generalize xorBits (lsbFirst f) (lsbFirst g) = e at *
  obtain ⟨α, hα⟩ := exists_root
  obtain ⟨S, h1, h2, h3⟩ := msgPoly_sum e
  obtain ⟨q, hq⟩ := fold_poly code24 (by decide) (by decide) e 0 0 0 ⟨0, by rw [regPoly_zero]; ring⟩
  have hreg : regPoly code24.bits (e.foldl (crcStep code24) 0) = 0 := by
    have : e.foldl (crcStep code24) 0 = 0 := by
      apply BitVec.eq_of_getLsbD_eq
      intro i hi
      rw [hz i hi]; simp
    rw [this, regPoly_zero]
  rw [hreg] at hq
  have hmsg : e.foldl (fun p b => X * p + coef (bitOf b)) (0 : GF2X) = msgPoly e := rfl
  rw [hmsg, h3] at hq
  have hS : S = ∅ := by
    refine power_sums (ne_zero hα) (order_255 hα) S (fun k hk => by have := h2 k hk; omega) (by omega) ?_
    intro i hi1 hi6
    have := congrArg (aeval (α ^ i)) hq
    simp only [map_add, map_mul, roots hα i hi1 hi6, map_zero, mul_zero, add_zero, map_pow, aeval_X, map_sum] at this
    rcases mul_eq_zero.1 this.symm with h | h
    · exact absurd h (pow_ne_zero _ (pow_ne_zero _ (ne_zero hα)))
    · exact h
  rw [hS] at h1
  exact hpos (by rw [← h1]; rfl)

/-- C90, what TS 24.022 does not give: in a frame of 576 bits two wrong bits, 255
bits apart, are not noticed -/
theorem fcs_two_bits_counterexample :
    ∃ f g : List Byte, f.length = 72 ∧ g.length = 72 ∧ FcsOk f ∧ FcsOk g ∧
      (xorBits (lsbFirst f) (lsbFirst g)).countP bitOf = 2 :=
  ⟨List.replicate 69 0#8 ++ [0x05#8, 0xb5#8, 0x55#8],
    (1#8 :: List.replicate 30 0#8 ++ 0x80#8 :: List.replicate 37 0#8) ++ [0x05#8, 0xb5#8, 0x55#8], rfl, rfl,
    ⟨_, _, _, _, rfl, by decide +kernel⟩, ⟨_, _, _, _, rfl, by decide +kernel⟩, by decide +kernel⟩

/-- frames that differ in the six bits of an octet -/
example : ¬ FcsOk [0x52#8 ^^^ 0x3f#8, 0x4c#8, 0x50#8, 0x89#8, 0x4a#8, 0xc9#8] :=
  fcs_six_bits [0x52#8, 0x4c#8, 0x50#8, 0x89#8, 0x4a#8, 0xc9#8] _ rfl (by decide)
    ⟨[0x52#8, 0x4c#8, 0x50#8], 0x89#8, 0x4a#8, 0xc9#8, rfl, by decide +kernel⟩ (by decide) (by decide)

end Verif.Rlp
