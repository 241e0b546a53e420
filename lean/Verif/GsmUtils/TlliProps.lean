import Verif.GsmUtils.Model
/-!
TLLI (C47).
-/
namespace Verif.GsmUtils
open Verif Verif.Utils

/-! ### C47 TLLI -/

theorem and_top (x : BitVec 32) (k : Nat) (hk : k ≤ 32) :
    (x &&& ((BitVec.allOnes 32) <<< k)).toNat = x.toNat / 2 ^ k * 2 ^ k := by
  apply Nat.eq_of_testBit_eq
  intro i
  rw [BitVec.toNat_and, Nat.testBit_and, Nat.testBit_mul_two_pow, Nat.testBit_div_two_pow]
  rw [← BitVec.getLsbD, ← BitVec.getLsbD, BitVec.getLsbD_shiftLeft, BitVec.getLsbD_allOnes]
  by_cases h1 : i < 32
  · by_cases h2 : k ≤ i
    · rw [Nat.sub_add_cancel h2, ← BitVec.getLsbD]
      simp [h1, h2]
      try omega
    · simp [h2]
  · have : x.getLsbD i = false := BitVec.getLsbD_of_ge _ _ (by omega)
    rw [this]
    by_cases h2 : k ≤ i
    · rw [Nat.sub_add_cancel h2, ← BitVec.getLsbD, this]; simp
    · simp [h2]

theorem mask_eq {x : BitVec 32} {k v : Nat} (hk : k ≤ 32) (m : BitVec 32) (hm : m = (BitVec.allOnes 32) <<< k)
    (w : BitVec 32) (hw : w.toNat = v * 2 ^ k) : (x &&& m = w) ↔ x.toNat / 2 ^ k = v := by
  constructor
  · intro h
    have := congrArg BitVec.toNat h
    rw [hm, and_top x k hk, hw] at this
    exact Nat.eq_of_mul_eq_mul_right (Nat.two_pow_pos k) this
  · intro h
    apply BitVec.eq_of_toNat_eq
    rw [hm, and_top x k hk, hw, h]

/-- **C47**, classification: every 32 bit value has the type given by its
leading bits in TS 23.003 2.6 (11, 10, 01111, 01110, 0000, 0001, otherwise
reserved). -/
theorem tlliType_spec (x : BitVec 32) :
    (tlliType x = .loc ↔ x.toNat / 2 ^ 30 = 3) ∧
    (tlliType x = .foreign ↔ x.toNat / 2 ^ 30 = 2) ∧
    (tlliType x = .random ↔ x.toNat / 2 ^ 27 = 15) ∧
    (tlliType x = .auxiliary ↔ x.toNat / 2 ^ 27 = 14) ∧
    (tlliType x = .gRnti ↔ x.toNat / 2 ^ 28 = 0) ∧
    (tlliType x = .randGRnti ↔ x.toNat / 2 ^ 28 = 1) ∧
    (tlliType x = .reserved ↔ 2 ≤ x.toNat / 2 ^ 28 ∧ x.toNat / 2 ^ 28 ≤ 6) := by
  have h := x.isLt
  have m1 := mask_eq (x := x) (k := 30) (v := 3) (by decide) 0xc0000000#32 (by decide) 0xc0000000#32 (by decide)
  have m2 := mask_eq (x := x) (k := 30) (v := 2) (by decide) 0xc0000000#32 (by decide) 0x80000000#32 (by decide)
  have m3 := mask_eq (x := x) (k := 27) (v := 15) (by decide) 0xf8000000#32 (by decide) 0x78000000#32 (by decide)
  have m4 := mask_eq (x := x) (k := 27) (v := 14) (by decide) 0xf8000000#32 (by decide) 0x70000000#32 (by decide)
  have m5 := mask_eq (x := x) (k := 28) (v := 0) (by decide) 0xf0000000#32 (by decide) 0x00000000#32 (by decide)
  have m6 := mask_eq (x := x) (k := 28) (v := 1) (by decide) 0xf0000000#32 (by decide) 0x10000000#32 (by decide)
  unfold tlliType
  simp only [m1, m2, m3, m4, m5, m6]
  clear m1 m2 m3 m4 m5 m6
  split
  · simp only [true_iff, reduceCtorEq, false_iff]; omega
  · split
    · simp only [true_iff, reduceCtorEq, false_iff]; omega
    · split
      · simp only [true_iff, reduceCtorEq, false_iff]; omega
      · split
        · simp only [true_iff, reduceCtorEq, false_iff]; omega
        · split
          · simp only [true_iff, reduceCtorEq, false_iff]; omega
          · split
            · simp only [true_iff, reduceCtorEq, false_iff]; omega
            · simp only [true_iff, reduceCtorEq, false_iff]; omega

/-- **C47**, derived TLLIs: of the type asked for, and with the low 30 bits of
the P-TMSI. -/
theorem tmsi2tlli_spec (p : BitVec 32) :
    (tmsi2tlli p .loc).toNat = 3 * 2 ^ 30 + p.toNat % 2 ^ 30 ∧
    (tmsi2tlli p .foreign).toNat = 2 * 2 ^ 30 + p.toNat % 2 ^ 30 ∧
    tlliType (tmsi2tlli p .loc) = .loc ∧ tlliType (tmsi2tlli p .foreign) = .foreign := by
  have h1 : (tmsi2tlli p .loc).toNat = 3 * 2 ^ 30 + p.toNat % 2 ^ 30 := by
    have : tmsi2tlli p .loc = 0b11#2 ++ (p.setWidth 30) := by
      simp only [tmsi2tlli]
      apply BitVec.eq_of_getLsbD_eq
      intro i hi
      rw [BitVec.getLsbD_or, BitVec.getLsbD_append, BitVec.getLsbD_setWidth]
      by_cases h : i < 30
      · have : (0xc0000000#32).getLsbD i = false := by
          have : ∀ i < 30, (0xc0000000#32).getLsbD i = false := by decide
          exact this i h
        simp [h, this]
      · have : i = 30 ∨ i = 31 := by omega
        rcases this with rfl | rfl <;> simp
    rw [this, BitVec.toNat_append, BitVec.toNat_setWidth, ← Nat.shiftLeft_add_eq_or_of_lt (Nat.mod_lt _ (by decide)),
      Nat.shiftLeft_eq]
    rfl
  have h2 : (tmsi2tlli p .foreign).toNat = 2 * 2 ^ 30 + p.toNat % 2 ^ 30 := by
    have : tmsi2tlli p .foreign = 0b10#2 ++ (p.setWidth 30) := by
      simp only [tmsi2tlli]
      apply BitVec.eq_of_getLsbD_eq
      intro i hi
      rw [BitVec.getLsbD_or, BitVec.getLsbD_and, BitVec.getLsbD_append, BitVec.getLsbD_setWidth]
      by_cases h : i < 30
      · have h1 : ∀ i < 30, (0x80000000#32).getLsbD i = false := by decide
        have h2 : ∀ i < 30, (0x3fffffff#32).getLsbD i = true := by decide
        simp [h, h1 i h, h2 i h]
      · have : i = 30 ∨ i = 31 := by omega
        rcases this with rfl | rfl <;> simp
    rw [this, BitVec.toNat_append, BitVec.toNat_setWidth, ← Nat.shiftLeft_add_eq_or_of_lt (Nat.mod_lt _ (by decide)),
      Nat.shiftLeft_eq]
    rfl
  refine ⟨h1, h2, ?_, ?_⟩
  · rw [(tlliType_spec _).1, h1]; omega
  · rw [(tlliType_spec _).2.1, h2]; omega

/-- **C47**, back to a P-TMSI: local and foreign TLLIs give the P-TMSI with
their low 30 bits and the two leading bits set; all other values are errors. -/
theorem tlli2tmsi_spec (x : BitVec 32) :
    tlli2tmsi x = if tlliType x = .loc ∨ tlliType x = .foreign then 0xc0000000#32 ||| x else 0xffffffff#32 := by
  unfold tlli2tmsi
  cases tlliType x <;> simp

/-- **C47**, round trip: a P-TMSI (leading bits 11, TS 23.003 2.4) survives the
way through a TLLI of either type. -/
theorem tlli2tmsi_tmsi2tlli (p : BitVec 32) (ty : TlliType) (hty : ty = .loc ∨ ty = .foreign) :
    tlli2tmsi (tmsi2tlli p ty) = 0xc0000000#32 ||| p ∧ (3 * 2 ^ 30 ≤ p.toNat → tlli2tmsi (tmsi2tlli p ty) = p) := by
  have hs := tmsi2tlli_spec p
  have h1 : tlli2tmsi (tmsi2tlli p ty) = 0xc0000000#32 ||| p := by
    rw [tlli2tmsi_spec]
    rcases hty with rfl | rfl
    · rw [if_pos (Or.inl hs.2.2.1)]
      simp only [tmsi2tlli]
      rw [BitVec.or_comm p, ← BitVec.or_assoc, BitVec.or_self]
    · rw [if_pos (Or.inr hs.2.2.2)]
      simp only [tmsi2tlli]
      apply BitVec.eq_of_getLsbD_eq
      intro i hi
      rw [BitVec.getLsbD_or, BitVec.getLsbD_or, BitVec.getLsbD_or, BitVec.getLsbD_and]
      have : ∀ i < 32, ((0xc0000000#32).getLsbD i = true) ∨
          ((0x3fffffff#32).getLsbD i = true ∧ (0x80000000#32).getLsbD i = false) := by decide
      rcases this i hi with h | ⟨h, h'⟩
      · rw [h]; simp only [Bool.true_or]
      · rw [h, h']; simp only [Bool.and_true, Bool.or_false]
  refine ⟨h1, fun hp => ?_⟩
  have h2 : 0xc0000000#32 ||| p = tmsi2tlli p .loc := by simp only [tmsi2tlli]; rw [BitVec.or_comm]
  rw [h1, h2]
  apply BitVec.eq_of_toNat_eq
  rw [hs.1]
  have := p.isLt
  omega

example : tmsi2tlli 0xc1234567#32 .foreign = 0x81234567#32 ∧ tlli2tmsi 0x81234567#32 = 0xc1234567#32 ∧
    tlliType 0x7fffffff#32 = .random ∧ tlliType 0x20000000#32 = .reserved := by decide

end Verif.GsmUtils
