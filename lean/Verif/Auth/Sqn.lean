import Verif.Auth.Milenage
import Mathlib.Tactic.Linarith
/-!
The sequence numbers of the home environment: SEQ goes up by one with every
vector, the lower bits are the IND asked for.
-/
namespace Verif.Auth
open Verif.Endian (beVal)

theorem mask_toNat (x : BitVec 64) (b : Nat) (hb : b < 64) :
    (x &&& ~~~((1#64 <<< b) - 1#64)).toNat = x.toNat / 2 ^ b * 2 ^ b := by
  have h1 : ((1#64 <<< b) - 1#64).toNat = 2 ^ b - 1 := by
    have hp : 2 ^ b < 2 ^ 64 := Nat.pow_lt_pow_right (by omega) hb
    have hp1 : 0 < 2 ^ b := Nat.two_pow_pos b
    have e : (1#64 <<< b).toNat = 2 ^ b := by
      rw [BitVec.toNat_shiftLeft]
      simp [Nat.shiftLeft_eq]
      omega
    rw [BitVec.toNat_sub_of_le (by rw [BitVec.le_def, e]; exact hp1), e]
    rfl
  have e : x &&& ~~~((1#64 <<< b) - 1#64) = (x >>> b) <<< b := by
    apply BitVec.eq_of_getLsbD_eq
    intro i hi
    have ht : ((1#64 <<< b) - 1#64).getLsbD i = decide (i < b) := by
      rw [BitVec.getLsbD, h1, Nat.testBit_two_pow_sub_one]
    rw [BitVec.getLsbD_and, BitVec.getLsbD_not, ht, BitVec.getLsbD_shiftLeft, BitVec.getLsbD_ushiftRight]
    by_cases h : i < b
    · simp [h]
    · have : b + (i - b) = i := by omega
      simp [h, hi, this]
  rw [e, BitVec.toNat_shiftLeft, BitVec.toNat_ushiftRight, Nat.shiftLeft_eq, Nat.shiftRight_eq_div_pow]
  apply Nat.mod_eq_of_lt
  exact Nat.lt_of_le_of_lt (Nat.div_mul_le_self _ _) x.isLt

/-- The next SQN: SEQ is one more than that of the SQN stored, IND the one asked
for (as long as the 64 bit counter does not run over). -/
theorem nextSqn_ok (a : Aud) (hb : a.indBitlen ≤ 28) (hi : a.ind.toNat < 2 ^ a.indBitlen)
    (hs : a.sqn.toNat + 2 ^ a.indBitlen < 2 ^ 64) :
    ∃ n, nextSqn a = .ok n ∧
      n.toNat = (a.sqn.toNat / 2 ^ a.indBitlen + 1) * 2 ^ a.indBitlen + a.ind.toNat := by
  have hp : 2 ^ a.indBitlen ≤ 2 ^ 28 := Nat.pow_le_pow_right (by omega) hb
  have e1 : (1#64 <<< a.indBitlen).toNat = 2 ^ a.indBitlen := by
    rw [BitVec.toNat_shiftLeft]
    simp [Nat.shiftLeft_eq]
    omega
  have e2 : (a.ind.setWidth 64).toNat = a.ind.toNat := by
    rw [BitVec.toNat_setWidth]
    exact Nat.mod_eq_of_lt (by omega)
  refine ⟨((a.sqn + (1#64 <<< a.indBitlen)) &&& ~~~((1#64 <<< a.indBitlen) - 1#64)) +
    a.ind.setWidth 64, ?_, ?_⟩
  · rw [nextSqn, if_neg (by omega)]
    simp only
    rw [if_neg]
    rw [ge_iff_le, BitVec.le_def, e1, e2]
    omega
  · have e3 : (a.sqn + (1#64 <<< a.indBitlen)).toNat = a.sqn.toNat + 2 ^ a.indBitlen := by
      rw [BitVec.toNat_add, e1]
      exact Nat.mod_eq_of_lt hs
    have e4 : (a.sqn.toNat + 2 ^ a.indBitlen) / 2 ^ a.indBitlen * 2 ^ a.indBitlen =
        (a.sqn.toNat / 2 ^ a.indBitlen + 1) * 2 ^ a.indBitlen := by
      rw [Nat.add_div_right _ (Nat.two_pow_pos _)]
    rw [BitVec.toNat_add, mask_toNat _ _ (by omega), e2, e3, e4]
    apply Nat.mod_eq_of_lt
    have hp0 : 0 < 2 ^ a.indBitlen := Nat.two_pow_pos _
    have hd := Nat.div_add_mod (a.sqn.toNat + 2 ^ a.indBitlen) (2 ^ a.indBitlen)
    -- the sum has the bits below IND clear, so adding IND cannot carry past 2^64
    have hdvd : 2 ^ 64 = 2 ^ (64 - a.indBitlen) * 2 ^ a.indBitlen := by
      rw [← Nat.pow_add]; congr 1; omega
    have hq : a.sqn.toNat / 2 ^ a.indBitlen + 1 < 2 ^ (64 - a.indBitlen) := by
      rw [← Nat.add_div_right _ hp0]
      exact Nat.div_lt_of_lt_mul (by rw [Nat.mul_comm, ← hdvd]; exact hs)
    have := Nat.mul_le_mul_right (2 ^ a.indBitlen) (show a.sqn.toNat / 2 ^ a.indBitlen + 1 + 1 ≤ _ from hq)
    rw [← hdvd, Nat.add_mul _ 1] at this
    omega

/-- Bad IND: too many bits is -2, an index that does not fit -3, and only these. -/
theorem nextSqn_error (a : Aud) (e : Int) :
    nextSqn a = .error e ↔ (28 < a.indBitlen ∧ e = -2) ∨
      (a.indBitlen ≤ 28 ∧ 2 ^ a.indBitlen ≤ a.ind.toNat ∧ e = -3) := by
  by_cases hb : a.indBitlen > 28
  · rw [nextSqn, if_pos hb]
    simp only [Except.error.injEq]
    constructor
    · intro h; exact Or.inl ⟨hb, h.symm⟩
    · rintro (⟨_, h⟩ | ⟨h, _⟩)
      · exact h.symm
      · omega
  · have hp : 2 ^ a.indBitlen ≤ 2 ^ 28 := Nat.pow_le_pow_right (by omega) (by omega)
    have e1 : (1#64 <<< a.indBitlen).toNat = 2 ^ a.indBitlen := by
      rw [BitVec.toNat_shiftLeft]
      simp [Nat.shiftLeft_eq]
      omega
    have e2 : (a.ind.setWidth 64).toNat = a.ind.toNat := by
      rw [BitVec.toNat_setWidth]
      exact Nat.mod_eq_of_lt (by omega)
    rw [nextSqn, if_neg hb]
    simp only
    by_cases hi : 2 ^ a.indBitlen ≤ a.ind.toNat
    · rw [if_pos (by rw [ge_iff_le, BitVec.le_def, e1, e2]; exact hi)]
      simp only [Except.error.injEq]
      constructor
      · intro h; exact Or.inr ⟨by omega, hi, h.symm⟩
      · rintro (⟨h, _⟩ | ⟨_, _, h⟩)
        · omega
        · exact h.symm
    · rw [if_neg (by rw [ge_iff_le, BitVec.le_def, e1, e2]; exact hi)]
      constructor
      · intro h; exact nomatch h
      · rintro (⟨h, _⟩ | ⟨_, h, _⟩)
        · omega
        · exact absurd h hi

/-- The bytes sent are the 48 low bits. -/
theorem store6_spec (x : BitVec 64) : (store6 x).length = 6 ∧ beVal (store6 x) = x.toNat % 2 ^ 48 := by
  obtain ⟨q, hq, hl, hv⟩ := Verif.Endian.storeBeExt_value x 6 (by omega)
  rw [store6, hq]
  exact ⟨hl, hv⟩

/-- The number taken out of an AUTS. -/
theorem load6_spec (p : List Byte) (h : p.length = 6) : (load6 p).toNat = beVal p := by
  obtain ⟨r, hr, hv⟩ := Verif.Endian.loadBeExt_value 64 p 6 (by omega) (by omega) (by omega)
  rw [load6, hr, Option.getD_some, BitVec.toNat_ushiftRight, hv, Nat.shiftRight_eq_div_pow,
    List.take_of_length_le (by omega)]
  exact Nat.mul_div_cancel _ (by decide)

end Verif.Auth
