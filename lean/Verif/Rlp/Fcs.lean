import Verif.Rlp.Model
import Verif.Crc.PolyProps
/-! C90: the frame check sequence is the CRC-24 of 3GPP TS 24.022 section 4.4. -/
namespace Verif.Rlp
open Verif.Crc Polynomial

/-! ## Specification -/

/-- the generator of TS 24.022: 24 bits, register preset to all ones, result complemented -/
def code24 : Code 24 := { bits := 24, poly := 0xbba1b5#24, init := 0xffffff#24, remainder := 0xffffff#24 }

/-- 24 bits in opposite order -/
def rev24 (c : BitVec 24) : BitVec 24 := c.reverse

/-- the last three octets of a block hold the frame check sequence of the octets
before, lowest octet first -/
def FcsOk (frame : List Byte) : Prop :=
  ∃ (dat : List Byte) (a b c : Byte), frame = dat ++ [a, b, c] ∧
    (fcsCompute dat).toNat = a.toNat + 2 ^ 8 * b.toNat + 2 ^ 16 * c.toNat

/-! ## The table step is eight steps of the division -/

/-- the table of the register without complement -/
def linTable : List (BitVec 24) :=
  (List.range 256).map fun i => ((fcsTable.getD (255 - i) 0#32) ^^^ 0xff0000#32).setWidth 24

def byteSteps (s : BitVec 24) (d : Byte) : BitVec 24 :=
  ((List.range 8).map fun i => if d.getLsbD i then 1#8 else 0#8).foldl (crcStep code24) s

theorem rev24_bit (c : BitVec 24) {i : Nat} (h : i < 24) : (rev24 c).getLsbD i = c.getLsbD (23 - i) := by
  unfold rev24
  rw [BitVec.getLsbD_reverse, BitVec.getMsbD_eq_getLsbD]
  simp [h]

theorem rev24_rev24 (c : BitVec 24) : rev24 (rev24 c) = c := by
  apply BitVec.eq_of_getLsbD_eq
  intro i hi
  rw [rev24_bit _ hi, rev24_bit _ (by omega), show 23 - (23 - i) = i by omega]

theorem rev24_xor (a b : BitVec 24) : rev24 (a ^^^ b) = rev24 a ^^^ rev24 b := by
  apply BitVec.eq_of_getLsbD_eq
  intro i hi
  rw [rev24_bit _ hi, BitVec.getLsbD_xor, BitVec.getLsbD_xor, rev24_bit _ hi, rev24_bit _ hi]

theorem byteSteps_linear (s t : BitVec 24) (d e : Byte) :
    byteSteps (s ^^^ t) (d ^^^ e) = byteSteps s d ^^^ byteSteps t e := by
  have hx : xorBits ((List.range 8).map fun i => if d.getLsbD i then 1#8 else 0#8)
      ((List.range 8).map fun i => if e.getLsbD i then 1#8 else 0#8) =
      (List.range 8).map fun i => if (d ^^^ e).getLsbD i then 1#8 else 0#8 := by
    unfold xorBits
    rw [List.zipWith_map]
    simp only [List.zipWith_self]
    apply List.map_congr_left
    intro i _
    rw [BitVec.getLsbD_xor]
    cases d.getLsbD i <;> cases e.getLsbD i <;> rfl
  have := fold_linear code24 (by decide) (by decide) ((List.range 8).map fun i => if d.getLsbD i then 1#8 else 0#8)
    ((List.range 8).map fun i => if e.getLsbD i then 1#8 else 0#8) (by simp) s t (s ^^^ t) (fun _ _ => rfl)
  rw [hx] at this
  apply BitVec.eq_of_getLsbD_eq
  intro i hi
  exact (this i hi).symm

theorem steps_zero : ∀ d : Byte, byteSteps (rev24 (d.setWidth 24)) d = 0 := by decide +kernel
theorem steps_mid : ∀ d : Byte, byteSteps (rev24 (d.setWidth 24 <<< 8)) 0#8 = rev24 (d.setWidth 24) := by decide +kernel
theorem steps_high : ∀ d : Byte, byteSteps (rev24 (d.setWidth 24 <<< 16)) 0#8 = rev24 (d.setWidth 24 <<< 8) := by
  decide +kernel
theorem steps_low : ∀ d : Byte, byteSteps (rev24 (d.setWidth 24)) 0#8 = rev24 (linTable.getD d.toNat 0#24) := by
  decide +kernel

/-- a register is made of its three octets -/
theorem split24 (c : BitVec 24) :
    c = ((c >>> 16).setWidth 8).setWidth 24 <<< 16 ^^^ (((c >>> 8).setWidth 8).setWidth 24 <<< 8 ^^^ (c.setWidth 8).setWidth 24) := by
  apply BitVec.eq_of_getLsbD_eq
  intro i hi
  simp only [BitVec.getLsbD_xor, BitVec.getLsbD_shiftLeft, BitVec.getLsbD_ushiftRight, BitVec.getLsbD_setWidth]
  rcases Nat.lt_or_ge i 8 with h | h
  · have e1 : i < 16 := by omega
    simp [h, hi, e1]
  · rcases Nat.lt_or_ge i 16 with h' | h'
    · have e1 : 8 + (i - 8) = i := by omega
      have e2 : i - 8 < 8 := by omega
      have e3 : i - 8 < 24 := by omega
      have e4 : ¬ i < 8 := by omega
      simp [h', hi, e1, e2, e3, e4]
    · have e1 : 16 + (i - 16) = i := by omega
      have e2 : i - 16 < 8 := by omega
      have e3 : i - 16 < 24 := by omega
      have e4 : ¬ i < 8 := by omega
      have e5 : ¬ i - 8 < 8 := by omega
      have e6 : ¬ i < 16 := by omega
      simp [hi, e1, e2, e3, e4, e5, e6]

theorem shift24 (c : BitVec 24) :
    c >>> 8 = ((c >>> 16).setWidth 8).setWidth 24 <<< 8 ^^^ ((c >>> 8).setWidth 8).setWidth 24 := by
  apply BitVec.eq_of_getLsbD_eq
  intro i hi
  simp only [BitVec.getLsbD_xor, BitVec.getLsbD_shiftLeft, BitVec.getLsbD_ushiftRight, BitVec.getLsbD_setWidth]
  rcases Nat.lt_or_ge i 8 with h | h
  · simp [h, hi]
  · have e1 : 16 + (i - 8) = 8 + i := by omega
    have e3 : i - 8 < 24 := by omega
    have e4 : ¬ i < 8 := by omega
    rcases Nat.lt_or_ge i 16 with h' | h'
    · have e2 : i - 8 < 8 := by omega
      simp [hi, e1, e2, e3, e4]
    · have e2 : ¬ i - 8 < 8 := by omega
      have : c.getLsbD (8 + i) = false := BitVec.getLsbD_of_ge _ _ (by omega)
      simp [e2, e4, this]

/-- one step on a register without complement -/
def linStep (c : BitVec 24) (d : Byte) : BitVec 24 := (c >>> 8) ^^^ linTable.getD (c.setWidth 8 ^^^ d : Byte).toNat 0#24

theorem linStep_serial (c : BitVec 24) (d : Byte) : rev24 (linStep c d) = byteSteps (rev24 c) d := by
  have hc : rev24 c = rev24 (((c >>> 16).setWidth 8).setWidth 24 <<< 16) ^^^
      (rev24 (((c >>> 8).setWidth 8).setWidth 24 <<< 8) ^^^
        (rev24 ((c.setWidth 8 ^^^ d : Byte).setWidth 24) ^^^ rev24 (d.setWidth 24))) := by
    rw [← rev24_xor, ← rev24_xor, ← rev24_xor]
    congr 1
    conv => lhs; rw [split24 c]
    congr 2
    apply BitVec.eq_of_getLsbD_eq
    intro i hi
    simp only [BitVec.getLsbD_xor, BitVec.getLsbD_setWidth]
    generalize c.getLsbD i = p
    generalize d.getLsbD i = q
    cases decide (i < 24) <;> cases decide (i < 8) <;> cases p <;> cases q <;> rfl
  have hd : d = 0#8 ^^^ (0#8 ^^^ (0#8 ^^^ d)) := by simp
  unfold linStep
  conv => rhs; rw [hc]; arg 2; rw [hd]
  rw [byteSteps_linear, byteSteps_linear, byteSteps_linear, steps_high, steps_mid, steps_low, steps_zero, rev24_xor, shift24 c,
    rev24_xor]
  rw [BitVec.xor_assoc]
  simp

theorem lsbFirst_fold (buf : List Byte) (s : BitVec 24) :
    (lsbFirst buf).foldl (crcStep code24) s = buf.foldl byteSteps s := by
  induction buf generalizing s with
  | nil => rfl
  | cons d buf ih =>
    unfold lsbFirst at ih ⊢
    rw [List.flatMap_cons, List.foldl_append, ih, List.foldl_cons]
    rfl

theorem linStep_fold (buf : List Byte) (c : BitVec 24) :
    rev24 (buf.foldl linStep c) = (lsbFirst buf).foldl (crcStep code24) (rev24 c) := by
  rw [lsbFirst_fold]
  induction buf generalizing c with
  | nil => rfl
  | cons d buf ih => rw [List.foldl_cons, List.foldl_cons, ← linStep_serial, ih]

/-- the table of the code, from the table without complement -/
theorem table_entry : ∀ i : Byte, fcsTable.getD i.toNat 0#32 =
    (linTable.getD (i ^^^ 0xff#8).toNat 0#24 ^^^ 0xff0000#24).setWidth 32 := by decide +kernel

/-- the register of the code is the complement of that of the division -/
theorem fcsStep_lin (c : BitVec 24) (b : Byte) :
    fcsStep ((c ^^^ 0xffffff#24).setWidth 32) b = (linStep c b ^^^ 0xffffff#24).setWidth 32 := by
  unfold fcsStep linStep
  dsimp only
  rw [table_entry]
  have hi : (b ^^^ (((c ^^^ 0xffffff#24).setWidth 32 &&& 0xff#32).setWidth 8)) ^^^ 0xff#8 = c.setWidth 8 ^^^ b := by
    apply BitVec.eq_of_getLsbD_eq
    intro i hi
    have k1 : ∀ i : Fin 8, (0xff#32).getLsbD i.1 = true ∧ (0xffffff#24).getLsbD i.1 = true ∧ (0xff#8).getLsbD i.1 = true := by
      decide
    obtain ⟨k1, k2, k3⟩ := k1 ⟨i, hi⟩
    simp only at k1 k2 k3
    simp only [BitVec.getLsbD_xor, BitVec.getLsbD_setWidth, BitVec.getLsbD_and, k1, k2, k3, hi]
    have : decide (i < 32) = true := by simp; omega
    rw [this]
    generalize c.getLsbD i = p
    generalize b.getLsbD i = q
    cases p <;> cases q <;> rfl
  rw [hi]
  generalize linTable.getD (c.setWidth 8 ^^^ b : Byte).toNat 0#24 = t
  apply BitVec.eq_of_getLsbD_eq
  intro i hi
  have k1 : ∀ i : Fin 32, ((0xffffff#24).getLsbD i.1 = decide (i.1 < 24)) ∧ (0xff0000#24).getLsbD i.1 = (decide (i.1 < 24) && decide (16 ≤ i.1)) := by
    decide
  have k := fun (j : Nat) (h : j < 32) => k1 ⟨j, h⟩
  simp only at k
  simp only [BitVec.getLsbD_xor, BitVec.getLsbD_setWidth, BitVec.getLsbD_ushiftRight, (k i hi).1, (k i hi).2]
  rcases Nat.lt_or_ge i 24 with h | h
  · rw [(k (8 + i) (by omega)).1]
    have e1 : decide (i < 32) = true := by simp; omega
    have e2 : decide (8 + i < 32) = true := by simp; omega
    have e3 : decide (i < 24) = true := by simp; omega
    have e4 : decide (16 ≤ i) = !decide (8 + i < 24) := by
      rcases Nat.lt_or_ge i 16 with h' | h'
      · have a1 : ¬ 16 ≤ i := by omega
        have a2 : 8 + i < 24 := by omega
        simp [a1, a2]
      · have a2 : ¬ 8 + i < 24 := by omega
        simp [h', a2]
    rw [e1, e2, e3, e4]
    generalize c.getLsbD (8 + i) = p
    generalize t.getLsbD i = q
    cases decide (8 + i < 24) <;> cases p <;> cases q <;> rfl
  · have z : ∀ (v : BitVec 24) (j : Nat), 24 ≤ j → v.getLsbD j = false := fun v j hj => BitVec.getLsbD_of_ge v j hj
    rw [z t i h, z c (8 + i) (by omega), z _ (8 + i) (by omega)]
    have e3 : decide (i < 24) = false := by simp; omega
    rw [e3]; simp

theorem fcsCompute_lin (dat : List Byte) :
    fcsCompute dat = (dat.foldl linStep 0xffffff#24 ^^^ 0xffffff#24).setWidth 32 := by
  have gen : ∀ c : BitVec 24, dat.foldl fcsStep ((c ^^^ 0xffffff#24).setWidth 32) =
      (dat.foldl linStep c ^^^ 0xffffff#24).setWidth 32 := by
    induction dat with
    | nil => intro c; rfl
    | cons b dat ih => intro c; rw [List.foldl_cons, List.foldl_cons, fcsStep_lin, ih]
  have := gen 0xffffff#24
  simpa [fcsCompute] using this

/-- C90: the frame check sequence has 24 bits, and is, lowest bit the highest
power, the complement of the register of the CRC with the generator of TS 24.022
after the octets, each sent least significant bit first -/
theorem fcs_serial (dat : List Byte) :
    ∃ s, computeBits code24 (lsbFirst dat) = some s ∧ (fcsCompute dat).toNat = (rev24 s).toNat := by
  refine ⟨(lsbFirst dat).foldl (crcStep code24) 0xffffff#24 ^^^ 0xffffff#24, ?_, ?_⟩
  · unfold computeBits
    rw [if_pos (.inr (by decide))]; rfl
  · have hinit : rev24 0xffffff#24 = 0xffffff#24 := by decide
    have := linStep_fold dat 0xffffff#24
    rw [hinit] at this
    rw [← this, rev24_xor, rev24_rev24, hinit, fcsCompute_lin]
    rw [BitVec.toNat_setWidth, Nat.mod_eq_of_lt]
    have := (dat.foldl linStep 0xffffff#24 ^^^ 0xffffff#24).isLt
    omega

/-- C90: the frame check sequence does not exceed three octets -/
theorem fcs_lt (dat : List Byte) : (fcsCompute dat).toNat < 2 ^ 24 := by
  obtain ⟨s, -, h⟩ := fcs_serial dat
  rw [h]; exact (rev24 s).isLt

theorem gen_code24 : genPoly code24 = X ^ 24 + X ^ 23 + X ^ 21 + X ^ 20 + X ^ 19 + X ^ 17 + X ^ 16 + X ^ 15 + X ^ 13 + X ^ 8 +
    X ^ 7 + X ^ 5 + X ^ 4 + X ^ 2 + 1 := by
  have hb : ∀ i : Fin 24, (0xbba1b5#24).getLsbD i.1 = decide (i.1 ∈ [0, 2, 4, 5, 7, 8, 13, 15, 16, 17, 19, 20, 21, 23]) := by decide
  unfold genPoly
  rw [regPoly_psum]
  unfold psum code24
  simp only [Finset.sum_range_succ, Finset.sum_range_zero]
  have e := fun (i : Nat) (h : i < 24) => hb ⟨i, h⟩
  simp only [e, Nat.reduceLT]
  simp [coef]
  ring

/-- C90: the frame check sequence is the complement of the remainder of the
division of the octets (preset to ones) by the generator polynomial of TS 24.022 -/
theorem fcs_divides (dat : List Byte) :
    ∃ r : BitVec 24, (fcsCompute dat).toNat = 0xffffff - (rev24 r).toNat ∧
      regPoly 24 r = (X ^ (8 * dat.length) * regPoly 24 0xffffff#24 + X ^ 24 * msgPoly (lsbFirst dat)) %ₘ
        (X ^ 24 + X ^ 23 + X ^ 21 + X ^ 20 + X ^ 19 + X ^ 17 + X ^ 16 + X ^ 15 + X ^ 13 + X ^ 8 +
          X ^ 7 + X ^ 5 + X ^ 4 + X ^ 2 + 1) := by
  obtain ⟨s, hs, hp⟩ := crc_is_remainder code24 (by decide) (lsbFirst dat)
  obtain ⟨s', hs', hf⟩ := fcs_serial dat
  rw [hs, Option.some.injEq] at hs'
  refine ⟨s, ?_, ?_⟩
  · rw [hf, ← hs', rev24_xor, show rev24 code24.remainder = BitVec.allOnes 24 by decide, BitVec.xor_allOnes, BitVec.toNat_not]
  · rw [gen_code24, lsbFirst_length] at hp
    exact hp

/-! ## Error detection -/

theorem lsbFirst_append (a b : List Byte) : lsbFirst (a ++ b) = lsbFirst a ++ lsbFirst b := by
  unfold lsbFirst; rw [List.flatMap_append]

/-- the 24 bits sent for three octets -/
theorem lsbFirst_three (a b c : Byte) (i : Nat) (hi : i < 24) :
    bitOf ((lsbFirst [a, b, c]).getD i 0#8) = (a.toNat + 2 ^ 8 * b.toNat + 2 ^ 16 * c.toNat).testBit i := by
  have ha := a.isLt
  have hb := b.isLt
  have hc := c.isLt
  have h : ∀ d : Byte, ∀ j, j < 8 → bitOf (((List.range 8).map fun i => if d.getLsbD i then 1#8 else 0#8).getD j 0#8) = d.toNat.testBit j := by
    intro d j hj
    rw [List.getD_eq_getElem?_getD, List.getElem?_map, List.getElem?_range hj, Option.map_some, Option.getD_some, BitVec.testBit_toNat]
    cases d.getLsbD j <;> rfl
  unfold lsbFirst
  simp only [List.flatMap_cons, List.flatMap_nil, List.append_nil]
  rw [show a.toNat + 2 ^ 8 * b.toNat + 2 ^ 16 * c.toNat = 2 ^ 8 * (2 ^ 8 * c.toNat + b.toNat) + a.toNat by omega,
    Nat.testBit_two_pow_mul_add _ ha, Nat.testBit_two_pow_mul_add _ hb]
  rcases Nat.lt_or_ge i 8 with h1 | h1
  · rw [if_pos h1, ← h a i h1, List.getD_eq_getElem?_getD, List.getD_eq_getElem?_getD, List.getElem?_append_left (by simpa using h1)]
  · rw [if_neg (by omega), List.getD_eq_getElem?_getD, List.getElem?_append_right (by simpa using h1)]
    simp only [List.length_map, List.length_range]
    rcases Nat.lt_or_ge (i - 8) 8 with h2 | h2
    · rw [if_pos h2, ← h b _ h2, List.getD_eq_getElem?_getD, List.getElem?_append_left (by simpa using h2)]
    · rw [if_neg (by omega), List.getElem?_append_right (by simpa using h2)]
      simp only [List.length_map, List.length_range]
      rw [← h c _ (by omega), List.getD_eq_getElem?_getD]

/-- a block has the right check sequence exactly if the register of the division
ends in a fixed state: that of 24 ones -/
theorem fcsOk_iff (frame : List Byte) (hl : 3 ≤ frame.length) :
    FcsOk frame ↔ ∃ (dat c : List Byte), frame = dat ++ c ∧ c.length = 3 ∧
      Aligned 24 ((lsbFirst dat).foldl (crcStep code24) 0xffffff#24 ^^^ 0xffffff#24) (lsbFirst c) := by
  have key : ∀ (dat : List Byte) (a b c : Byte),
      (fcsCompute dat).toNat = a.toNat + 2 ^ 8 * b.toNat + 2 ^ 16 * c.toNat ↔
        Aligned 24 ((lsbFirst dat).foldl (crcStep code24) 0xffffff#24 ^^^ 0xffffff#24) (lsbFirst [a, b, c]) := by
    intro dat a b c
    obtain ⟨s, hs, hf⟩ := fcs_serial dat
    unfold computeBits at hs
    rw [if_pos (.inr (by decide)), Option.some.injEq] at hs
    have hs' : (lsbFirst dat).foldl (crcStep code24) 0xffffff#24 ^^^ 0xffffff#24 = s := hs
    rw [hs', hf]
    have ha := a.isLt
    have hb := b.isLt
    have hc := c.isLt
    unfold Aligned
    constructor
    · intro h i hi
      rw [lsbFirst_three a b c i hi, ← h, BitVec.testBit_toNat, rev24_bit _ hi]
    · intro h
      apply Nat.eq_of_testBit_eq
      intro i
      rcases Nat.lt_or_ge i 24 with hi | hi
      · rw [← lsbFirst_three a b c i hi, ← h i hi, BitVec.testBit_toNat, rev24_bit _ hi]
      · rw [Nat.testBit_lt_two_pow, Nat.testBit_lt_two_pow]
        · refine Nat.lt_of_lt_of_le ?_ (Nat.pow_le_pow_right (by decide) hi)
          omega
        · exact Nat.lt_of_lt_of_le (rev24 s).isLt (Nat.pow_le_pow_right (by decide) hi)
  constructor
  · rintro ⟨dat, a, b, c, rfl, h⟩
    exact ⟨dat, [a, b, c], rfl, rfl, (key dat a b c).1 h⟩
  · rintro ⟨dat, c, rfl, hc, h⟩
    match c, hc with
    | [a, b, c], _ => exact ⟨dat, a, b, c, rfl, (key dat a b c).2 h⟩

/-- C90: given one block with the right check sequence, another of the same
length has the right check sequence exactly if the generator divides the
difference of the two -/
theorem fcs_syndrome (f g : List Byte) (hl : f.length = g.length) (hf : FcsOk f) :
    FcsOk g ↔ Zero 24 ((xorBits (lsbFirst f) (lsbFirst g)).foldl (crcStep code24) 0) := by
  have h3 : 3 ≤ f.length := by obtain ⟨d, a, b, c, rfl, -⟩ := hf; simp
  obtain ⟨fd, fc, rfl, hfc, hfa⟩ := (fcsOk_iff f h3).1 hf
  obtain ⟨gd, gc, rfl, hgc⟩ : ∃ gd gc, g = gd ++ gc ∧ gc.length = 3 :=
    ⟨g.take (g.length - 3), g.drop (g.length - 3), (List.take_append_drop _ _).symm, by rw [List.length_drop]; omega⟩
  have hld : fd.length = gd.length := by simp at hl; omega
  have hlb : (lsbFirst fd).length = (lsbFirst gd).length := by rw [lsbFirst_length, lsbFirst_length, hld]
  have hx : xorBits (lsbFirst (fd ++ fc)) (lsbFirst (gd ++ gc)) =
      xorBits (lsbFirst fd) (lsbFirst gd) ++ xorBits (lsbFirst fc) (lsbFirst gc) := by
    rw [lsbFirst_append, lsbFirst_append]
    unfold xorBits
    rw [List.zipWith_append hlb]
  have hcl : (xorBits (lsbFirst fc) (lsbFirst gc)).length = 24 := by
    simp [xorBits, lsbFirst_length, hfc, hgc]
  have hz := fold_zero_iff code24 (by decide) (by decide) (by decide) (xorBits (lsbFirst fc) (lsbFirst gc))
    (by rw [hcl]; decide) ((xorBits (lsbFirst fd) (lsbFirst gd)).foldl (crcStep code24) 0)
  have hz' : Zero 24 ((xorBits (lsbFirst (fd ++ fc)) (lsbFirst (gd ++ gc))).foldl (crcStep code24) 0) ↔
      Aligned 24 ((xorBits (lsbFirst fd) (lsbFirst gd)).foldl (crcStep code24) 0) (xorBits (lsbFirst fc) (lsbFirst gc)) := by
    rw [hx, List.foldl_append]; exact hz
  rw [hz']
  have hlin := fold_linear code24 (by decide) (by decide) (lsbFirst fd) (lsbFirst gd) hlb 0xffffff#24 0xffffff#24 0
    (by intro i _; simp)
  have hbit : ∀ i, i < 24 → bitOf ((xorBits (lsbFirst fc) (lsbFirst gc)).getD i 0#8) =
      (bitOf ((lsbFirst fc).getD i 0#8) ^^ bitOf ((lsbFirst gc).getD i 0#8)) := by
    intro i hi
    have l1 : i < (lsbFirst fc).length := by rw [lsbFirst_length]; omega
    have l2 : i < (lsbFirst gc).length := by rw [lsbFirst_length]; omega
    rw [List.getD_eq_getElem?_getD, List.getD_eq_getElem?_getD, List.getD_eq_getElem?_getD,
      List.getElem?_eq_getElem (show i < (xorBits (lsbFirst fc) (lsbFirst gc)).length by omega),
      List.getElem?_eq_getElem l1, List.getElem?_eq_getElem l2]
    simp only [Option.getD_some, xorBits, List.getElem_zipWith, bitOf_xor]
  rw [fcsOk_iff _ (by simp [hgc])]
  have hone : ∀ i : Nat, i < 24 → (0xffffff#24).getLsbD (23 - i) = true := by
    have : ∀ i : Fin 24, (0xffffff#24).getLsbD (23 - i.1) = true := by decide
    intro i hi; exact this ⟨i, hi⟩
  have hal : Aligned 24 ((lsbFirst gd).foldl (crcStep code24) 0xffffff#24 ^^^ 0xffffff#24) (lsbFirst gc) ↔
      Aligned 24 ((xorBits (lsbFirst fd) (lsbFirst gd)).foldl (crcStep code24) 0) (xorBits (lsbFirst fc) (lsbFirst gc)) := by
    unfold Aligned at hfa ⊢
    have e : ∀ i, i < 24 → (((lsbFirst gd).foldl (crcStep code24) 0xffffff#24 ^^^ 0xffffff#24).getLsbD (24 - 1 - i) =
        bitOf ((lsbFirst gc).getD i 0#8) ↔
        ((xorBits (lsbFirst fd) (lsbFirst gd)).foldl (crcStep code24) 0).getLsbD (24 - 1 - i) =
        bitOf ((xorBits (lsbFirst fc) (lsbFirst gc)).getD i 0#8)) := by
      intro i hi
      have h1 := hfa i hi
      have h2 := hlin (24 - 1 - i) (by show 24 - 1 - i < 24; omega)
      rw [hbit i hi, ← h2, ← h1]
      simp only [BitVec.getLsbD_xor]
      rw [show 24 - 1 - i = 23 - i by omega, hone i hi]
      generalize ((lsbFirst fd).foldl (crcStep code24) 0xffffff#24).getLsbD (23 - i) = p
      generalize ((lsbFirst gd).foldl (crcStep code24) 0xffffff#24).getLsbD (23 - i) = q
      generalize bitOf ((lsbFirst gc).getD i 0#8) = r
      cases p <;> cases q <;> cases r <;> simp
    exact ⟨fun h i hi => (e i hi).1 (h i hi), fun h i hi => (e i hi).2 (h i hi)⟩
  rw [← hal]
  constructor
  · rintro ⟨d, c, hdc, hc, h⟩
    obtain ⟨rfl, rfl⟩ := List.append_inj' hdc (by omega)
    exact h
  · intro h; exact ⟨gd, gc, rfl, hgc, h⟩

/-- C90: every burst of errors of at most 24 bits is noticed -/
theorem fcs_burst (f g : List Byte) (hl : f.length = g.length) (hf : FcsOk f)
    (hb : Burst 24 (xorBits (lsbFirst f) (lsbFirst g))) : ¬ FcsOk g := by
  rw [fcs_syndrome f g hl hf]
  exact burst_nonzero code24 (by decide) (by decide) (by decide) hb

/-- the octets of "RLP" and their check sequence -/
example : FcsOk [0x52#8, 0x4c#8, 0x50#8, 0x89#8, 0x4a#8, 0xc9#8] :=
  ⟨[0x52#8, 0x4c#8, 0x50#8], 0x89#8, 0x4a#8, 0xc9#8, rfl, by decide +kernel⟩

end Verif.Rlp
