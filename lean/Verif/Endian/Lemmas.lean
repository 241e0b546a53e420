import Verif.Endian.Model
import Verif.Endian.Spec
namespace Verif.Endian

theorem getLsbD_loadLeLoop (w : Nat) (q : List Byte) (n j : Nat) :
    (loadLeLoop w q n).getLsbD j =
      (decide (j < w) && decide (j < 8*n) && (q.getD (j/8) 0#8).getLsbD (j%8)) := by
  induction n with
  | zero => simp [loadLeLoop]
  | succ n ih =>
    simp only [loadLeLoop, BitVec.getLsbD_or, ih, BitVec.getLsbD_shiftLeft, BitVec.getLsbD_setWidth]
    by_cases hjw : j < w
    · by_cases h1 : j < 8*n
      · simp [hjw, h1, show j < 8*(n+1) by omega]
      · by_cases h2 : j < 8*(n+1)
        · have e1 : j/8 = n := by omega
          have e2 : j - 8*n = j%8 := by omega
          simp [hjw, h1, h2, e1, e2, show j%8 < w by omega]
        · have : (q.getD n 0#8).getLsbD (j - 8*n) = false :=
            BitVec.getLsbD_of_ge _ _ (by omega)
          simp only [hjw, h1, h2, decide_true, decide_false, Bool.not_false, Bool.true_and,
            Bool.false_and, Bool.false_or, this, Bool.and_false]
    · simp [hjw]

theorem getLsbD_loadBe2Loop (w n : Nat) (q : List Byte) (hn : 8*n ≤ w) (hw : w % 8 = 0)
    (m : Nat) (hm : m ≤ n) (j : Nat) :
    (loadBe2Loop w n q m).getLsbD j =
      (decide (j < 8*n) && decide (8*(n-m) ≤ j) && (q.getD (n-1-j/8) 0#8).getLsbD (j%8)) := by
  induction m with
  | zero =>
    simp only [loadBe2Loop, BitVec.getLsbD_zero, Nat.sub_zero]
    by_cases h : j < 8*n
    · simp [h, show ¬ 8*n ≤ j by omega]
    · simp [h]
  | succ m ih =>
    simp only [loadBe2Loop, BitVec.getLsbD_or, ih (by omega), BitVec.getLsbD_shiftLeft,
      BitVec.getLsbD_setWidth]
    have es : w - 8*(1 + m + (w/8 - n)) = 8*(n-1-m) := by omega
    rw [es]
    by_cases h0 : j < 8*n
    · by_cases h1 : 8*(n-m) ≤ j
      · have : (q.getD m 0#8).getLsbD (j - 8*(n-1-m)) = false :=
          BitVec.getLsbD_of_ge _ _ (by omega)
        simp only [this, Bool.and_false, Bool.or_false]
        simp [h0, h1, show 8*(n-(m+1)) ≤ j by omega]
      · by_cases h2 : 8*(n-(m+1)) ≤ j
        · have e1 : n-1-j/8 = m := by omega
          have e2 : j - 8*(n-1-m) = j%8 := by omega
          simp [h0, h1, h2, e1, e2, show j < w by omega, show j%8 < w by omega,
            show ¬ j < 8*(n-1-m) by omega]
        · simp [h0, h1, h2, show j < 8*(n-1-m) by omega]
    · have : (q.getD m 0#8).getLsbD (j - 8*(n-1-m)) = false :=
          BitVec.getLsbD_of_ge _ _ (by omega)
      simp only [this, Bool.and_false, Bool.or_false]
      simp [h0]

theorem getLsbD_loadBeLoop (w n : Nat) (q : List Byte) (hn : 8*n ≤ w) (j : Nat)
    (hw : w % 8 = 0) :
    (loadBeLoop w q n).getLsbD j =
      (decide (j < w) && decide (w - 8*n ≤ j) && (q.getD (w/8-1-j/8) 0#8).getLsbD (j%8)) := by
  induction n with
  | zero =>
    simp only [loadBeLoop, BitVec.getLsbD_zero]
    by_cases h : j < w
    · simp [h, show ¬ w ≤ j by omega]
    · simp [h]
  | succ n ih =>
    simp only [loadBeLoop, BitVec.getLsbD_or, ih (by omega), BitVec.getLsbD_shiftLeft,
      BitVec.getLsbD_setWidth]
    by_cases h0 : j < w
    · by_cases h1 : w - 8*n ≤ j
      · have : (q.getD n 0#8).getLsbD (j - (w - 8*(1+n))) = false :=
          BitVec.getLsbD_of_ge _ _ (by omega)
        simp only [this, Bool.and_false, Bool.or_false]
        simp [h0, h1, show w - 8*(n+1) ≤ j by omega]
      · by_cases h2 : w - 8*(n+1) ≤ j
        · have e1 : w/8-1-j/8 = n := by omega
          have e2 : j - (w - 8*(1+n)) = j%8 := by omega
          simp only [e1, e2]
          simp [h0, h1, h2, show j%8 < w by omega]
          intro _
          omega
        · simp [h0, h1, h2, show j < w - 8*(1+n) by omega]
    · simp [h0]

theorem getLsbD_FF (w j : Nat) : (0xFF#w).getLsbD j = (decide (j < w) && decide (j < 8)) := by
  rw [show (0xFF#w) = (BitVec.ofNat w (2^8-1)) from rfl, BitVec.getLsbD_ofNat,
    Nat.testBit_two_pow_sub_one]

theorem getLsbD_byteOf {w : Nat} (x : BitVec w) (s j : Nat) :
    (((x >>> s) &&& 0xFF#w).setWidth 8).getLsbD j = (decide (j < 8) && x.getLsbD (s + j)) := by
  rw [BitVec.getLsbD_setWidth, BitVec.getLsbD_and, getLsbD_FF, BitVec.getLsbD_ushiftRight]
  by_cases h : j < 8
  · by_cases hw : j < w
    · simp [h, hw]
    · simp [h, hw, BitVec.getLsbD_of_ge x (s+j) (by omega)]
  · simp [h]

theorem testBit_leVal (q : List Byte) (j : Nat) :
    (leVal q).testBit j = (q.getD (j/8) 0#8).getLsbD (j%8) := by
  induction q generalizing j with
  | nil => simp [leVal]
  | cons b q ih =>
    rw [leVal, show b.toNat + 256 * leVal q = 2^8 * leVal q + b.toNat by omega,
      Nat.testBit_two_pow_mul_add _ b.isLt]
    by_cases h : j < 8
    · rw [if_pos h, Nat.div_eq_of_lt h, Nat.mod_eq_of_lt h]
      rfl
    · rw [if_neg h, ih, show (j-8)/8 = j/8-1 by omega, show (j-8)%8 = j%8 by omega]
      obtain ⟨k, hk⟩ : ∃ k, j/8 = k+1 := ⟨j/8-1, by omega⟩
      simp [hk]

theorem beVal_append (q : List Byte) (b : Byte) : beVal (q ++ [b]) = beVal q * 256 + b.toNat := by
  simp [beVal]

theorem beVal_eq_leVal_reverse (q : List Byte) : beVal q = leVal q.reverse := by
  have : ∀ r : List Byte, beVal r.reverse = leVal r := by
    intro r
    induction r with
    | nil => rfl
    | cons b r ih => rw [List.reverse_cons, beVal_append, ih, leVal]; omega
  have h := this q.reverse
  rwa [List.reverse_reverse] at h

theorem leVal_lt (q : List Byte) : leVal q < 2^(8*q.length) := by
  induction q with
  | nil => simp [leVal]
  | cons b q ih =>
    have hb := b.isLt
    rw [leVal, List.length_cons, show 8*(q.length+1) = 8*q.length + 8 by omega, Nat.pow_add]
    omega

theorem beVal_lt (q : List Byte) : beVal q < 2^(8*q.length) := by
  rw [beVal_eq_leVal_reverse]
  simpa using leVal_lt q.reverse

theorem getD_take {q : List Byte} {n i : Nat} (h : i < n) : (q.take n).getD i 0#8 = q.getD i 0#8 := by
  simp [List.getD, h]

theorem testBit_beVal (q : List Byte) (j : Nat) :
    (beVal q).testBit j =
      (decide (j < 8*q.length) && (q.getD (q.length-1-j/8) 0#8).getLsbD (j%8)) := by
  rw [beVal_eq_leVal_reverse, testBit_leVal]
  by_cases h : j < 8*q.length
  · have h1 : j/8 < q.length := by omega
    simp [List.getD, List.getElem?_reverse h1, h]
  · have h1 : q.length ≤ j/8 := by omega
    simp [List.getD, h, h1]

theorem getD_map_range (f : Nat → Byte) (n i : Nat) :
    ((List.range n).map f).getD i 0#8 = if i < n then f i else 0#8 := by
  simp only [List.getD, List.getElem?_map]
  split
  · rename_i h
    rw [List.getElem?_range h]; rfl
  · rename_i h
    rw [List.getElem?_eq_none (by simp; omega)]; rfl

end Verif.Endian
