import Verif.Endian.Lemmas
/-!
Property C50: unaligned endian loads/stores compute the numeric value of the
byte string and are mutually inverse.

Specification vocabulary (`Spec.lean`, independent of the load/store loops): `leVal`, `beVal`
are the numeric values of a byte string in little/big endian order.
-/
namespace Verif.Endian

/-- `osmo_loadXXle_ext` succeeds exactly within its contract and returns the
little-endian value of the first `n` bytes. -/
theorem loadLeExt_value (w : Nat) (q : List Byte) (n : Nat) (hn : 8*n ≤ w) (hq : n ≤ q.length) :
    ∃ r, loadLeExt w q n = some r ∧ r.toNat = leVal (q.take n) := by
  refine ⟨loadLeLoop w q n, by simp [loadLeExt, hn, hq], ?_⟩
  apply Nat.eq_of_testBit_eq
  intro j
  rw [BitVec.testBit_toNat, getLsbD_loadLeLoop, testBit_leVal]
  by_cases h : j < 8*n
  · rw [getD_take (by omega)]; simp [h, show j < w by omega]
  · have : (q.take n).length ≤ j/8 := by simp; omega
    simp only [h, decide_false, Bool.and_false, Bool.false_and, List.getD,
      List.getElem?_eq_none this]
    simp

example : ∃ r, loadLeExt 32 [0x11#8, 0x22#8, 0x33#8] 3 = some r ∧ r.toNat = 0x332211 :=
  ⟨0x332211#32, by decide, by decide⟩

/-- `osmo_loadXXbe_ext_2` returns the big-endian value of the first `n` bytes
(in the least significant octets). -/
theorem loadBeExt2_value (w : Nat) (q : List Byte) (n : Nat) (hw : w % 8 = 0)
    (hn : 8*n ≤ w) (hq : n ≤ q.length) :
    ∃ r, loadBeExt2 w q n = some r ∧ r.toNat = beVal (q.take n) := by
  refine ⟨loadBe2Loop w n q n, by simp [loadBeExt2, hn, hq], ?_⟩
  apply Nat.eq_of_testBit_eq
  intro j
  rw [BitVec.testBit_toNat, getLsbD_loadBe2Loop w n q hn hw n (Nat.le_refl _), testBit_beVal]
  have hl : (q.take n).length = n := by simp; omega
  rw [hl]
  by_cases h : j < 8*n
  · rw [getD_take (by omega)]; simp [h]
  · simp [h]

example : ∃ r, loadBeExt2 32 [0x11#8, 0x22#8, 0x33#8] 3 = some r ∧ r.toNat = 0x112233 :=
  ⟨0x112233#32, by decide, by decide⟩

/-- `osmo_loadXXbe_ext` returns the big-endian value of the first `n` bytes in
the *most* significant octets, i.e. multiplied by 256^(unused octets). -/
theorem loadBeExt_value (w : Nat) (q : List Byte) (n : Nat) (hw : w % 8 = 0)
    (hn : 8*n ≤ w) (hq : n ≤ q.length) :
    ∃ r, loadBeExt w q n = some r ∧ r.toNat = beVal (q.take n) * 2^(w - 8*n) := by
  refine ⟨loadBeLoop w q n, by simp [loadBeExt, hn, hq], ?_⟩
  apply Nat.eq_of_testBit_eq
  intro j
  have hl : (q.take n).length = n := by simp; omega
  rw [BitVec.testBit_toNat, getLsbD_loadBeLoop w n q hn j hw, ← Nat.shiftLeft_eq,
    Nat.testBit_shiftLeft, testBit_beVal, hl]
  by_cases h : w - 8*n ≤ j
  · by_cases h2 : j < w
    · rw [getD_take (by omega)]
      have e1 : n - 1 - (j - (w - 8*n))/8 = w/8-1-j/8 := by omega
      have e2 : (j - (w - 8*n)) % 8 = j % 8 := by omega
      rw [e1, e2]
      simp [h, h2, show j - (w-8*n) < 8*n by omega]
    · simp [h2, show ¬ j - (w-8*n) < 8*n by omega]
  · simp [h]

example : ∃ r, loadBeExt 32 [0x11#8, 0x22#8] 2 = some r ∧ r.toNat = 0x11220000 :=
  ⟨0x11220000#32, by decide, by decide⟩

/-- Loading outside the contract (more octets than the type holds) never
returns a value: the code aborts. -/
theorem loads_reject (w : Nat) (q : List Byte) (n : Nat) (h : w < 8*n) :
    loadLeExt w q n = none ∧ loadBeExt w q n = none ∧ loadBeExt2 w q n = none := by
  simp [loadLeExt, loadBeExt, loadBeExt2, Nat.not_le.mpr h]

example : (16 : Nat) < 8*3 := by decide

/-- `osmo_storeXXle_ext` stores `n` bytes whose little-endian value is the
argument modulo 2^(8n). -/
theorem storeLeExt_value {w : Nat} (x : BitVec w) (n : Nat) (hn : 8*n ≤ w) :
    ∃ q, storeLeExt x n = some q ∧ q.length = n ∧ leVal q = x.toNat % 2^(8*n) := by
  refine ⟨_, by rw [storeLeExt, if_pos hn], by simp, ?_⟩
  apply Nat.eq_of_testBit_eq
  intro j
  rw [testBit_leVal, Nat.testBit_mod_two_pow, BitVec.testBit_toNat, getD_map_range]
  by_cases h : j < 8*n
  · rw [if_pos (by omega), getLsbD_byteOf]
    have e : j/8*8 + j%8 = j := by omega
    simp [h, e, Nat.mod_lt]
  · rw [if_neg (by omega)]; simp [h]

example : ∃ q, storeLeExt 0x332211#32 3 = some q ∧ leVal q = 0x332211 :=
  ⟨[0x11#8, 0x22#8, 0x33#8], by decide, by decide⟩

/-- `osmo_storeXXbe_ext` stores `n` bytes whose big-endian value is the
argument modulo 2^(8n). -/
theorem storeBeExt_value {w : Nat} (x : BitVec w) (n : Nat) (hn : 8*n ≤ w) :
    ∃ q, storeBeExt x n = some q ∧ q.length = n ∧ beVal q = x.toNat % 2^(8*n) := by
  refine ⟨_, by rw [storeBeExt, if_pos hn], by simp, ?_⟩
  apply Nat.eq_of_testBit_eq
  intro j
  rw [testBit_beVal, Nat.testBit_mod_two_pow, BitVec.testBit_toNat, getD_map_range]
  simp only [List.length_map, List.length_range]
  by_cases h : j < 8*n
  · rw [if_pos (by omega), getLsbD_byteOf]
    have e : (n-1-(n-1-j/8))*8 + j%8 = j := by omega
    simp [h, e, Nat.mod_lt]
  · simp [h]

example : ∃ q, storeBeExt 0x112233#32 3 = some q ∧ beVal q = 0x112233 :=
  ⟨[0x11#8, 0x22#8, 0x33#8], by decide, by decide⟩

/-- The value determines the byte string of a given length. -/
theorem leVal_inj {a b : List Byte} (hl : a.length = b.length) (h : leVal a = leVal b) : a = b := by
  induction a generalizing b with
  | nil => cases b with
    | nil => rfl
    | cons => simp at hl
  | cons x a ih => cases b with
    | nil => simp at hl
    | cons y b =>
      simp only [leVal] at h
      have hx := x.isLt; have hy := y.isLt
      have e1 : x.toNat = y.toNat := by omega
      have e2 : leVal a = leVal b := by omega
      rw [BitVec.eq_of_toNat_eq e1, ih (by simpa using hl) e2]

/-- Store then load (little endian, any width `n` octets) is the identity
modulo 2^(8n). -/
theorem load_store_le {w : Nat} (x : BitVec w) (n : Nat) (hn : 8*n ≤ w) :
    ∃ q r, storeLeExt x n = some q ∧ loadLeExt w q n = some r ∧ r.toNat = x.toNat % 2^(8*n) := by
  obtain ⟨q, h1, h2, h3⟩ := storeLeExt_value x n hn
  obtain ⟨r, h4, h5⟩ := loadLeExt_value w q n hn (by omega)
  refine ⟨q, r, h1, h4, ?_⟩
  rw [h5, List.take_of_length_le (by omega), h3]

/-- Load then store (little endian) gives back the bytes. -/
theorem store_load_le {w : Nat} (q : List Byte) (n : Nat) (hn : 8*n ≤ w) (hq : q.length = n) :
    ∃ r : BitVec w, loadLeExt w q n = some r ∧ storeLeExt r n = some q := by
  obtain ⟨r, h4, h5⟩ := loadLeExt_value w q n hn (by omega)
  obtain ⟨q', h1, h2, h3⟩ := storeLeExt_value r n hn
  refine ⟨r, h4, ?_⟩
  rw [h1]
  congr 1
  apply leVal_inj (by omega)
  rw [h3, h5, List.take_of_length_le (by omega), Nat.mod_eq_of_lt (hq ▸ leVal_lt q)]

/-- Full-width big-endian store then load is the identity. -/
theorem load_store_be {w : Nat} (x : BitVec w) (hw : w % 8 = 0) :
    ∃ q, storeBe x = some q ∧ q.length = w/8 ∧ loadBe w q = some x := by
  obtain ⟨q, h1, h2, h3⟩ := storeBeExt_value x (w/8) (by omega)
  obtain ⟨r, h4, h5⟩ := loadBeExt_value w q (w/8) hw (by omega) (by omega)
  refine ⟨q, h1, h2, ?_⟩
  have e : 8*(w/8) = w := by omega
  rw [List.take_of_length_le (by omega), h3, e, Nat.mod_eq_of_lt x.isLt] at h5
  rw [loadBe, h4]
  congr 1
  apply BitVec.eq_of_toNat_eq
  simpa using h5

/-- Partial-width big-endian store and `osmo_loadXXbe_ext_2` are inverse modulo 2^(8n). -/
theorem load2_store_be {w : Nat} (x : BitVec w) (n : Nat) (hw : w % 8 = 0) (hn : 8*n ≤ w) :
    ∃ q r, storeBeExt x n = some q ∧ loadBeExt2 w q n = some r ∧ r.toNat = x.toNat % 2^(8*n) := by
  obtain ⟨q, h1, h2, h3⟩ := storeBeExt_value x n hn
  obtain ⟨r, h4, h5⟩ := loadBeExt2_value w q n hw hn (by omega)
  refine ⟨q, r, h1, h4, ?_⟩
  rw [h5, List.take_of_length_le (by omega), h3]

example : storeBe 0xdeadbeef#32 = some [0xde#8, 0xad#8, 0xbe#8, 0xef#8] ∧
    loadBe 32 [0xde#8, 0xad#8, 0xbe#8, 0xef#8] = some 0xdeadbeef#32 := by decide

end Verif.Endian
