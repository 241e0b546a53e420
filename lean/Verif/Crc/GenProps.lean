import Verif.Crc.Model
import Mathlib.Tactic.Linarith
/-! C24: the generic CRC sets what it checks, is linear and detects bursts. -/
namespace Verif.Crc

/-- the bit a ubit_t stands for -/
def bitOf (b : Byte) : Bool := b.getLsbD 0

theorem mask_bit {W n i : Nat} (hn : n ≤ W) (h1 : 0 < W) : ((1#W <<< n) - 1#W).getLsbD i = decide (i < n) := by
  rcases Nat.lt_or_ge n W with h | h
  · have hlt : 2 ^ n < 2 ^ W := Nat.pow_lt_pow_right (by omega) h
    have hpos : 0 < 2 ^ n := Nat.two_pow_pos n
    have e : ((1#W <<< n) - 1#W).toNat = 2 ^ n - 1 := by
      rw [BitVec.toNat_sub, BitVec.toNat_shiftLeft]
      have h2 : 1 < 2 ^ W := Nat.one_lt_two_pow (by omega)
      rw [BitVec.toNat_ofNat, Nat.mod_eq_of_lt h2, Nat.shiftLeft_eq, Nat.one_mul, Nat.mod_eq_of_lt hlt]
      rw [show 2 ^ W - 1 + 2 ^ n = (2 ^ n - 1) + 2 ^ W by omega, Nat.add_mod_right, Nat.mod_eq_of_lt (by omega)]
    rw [BitVec.getLsbD, e, Nat.testBit_two_pow_sub_one]
  · have : n = W := by omega
    subst this
    have e : (1#n <<< n) - 1#n = BitVec.allOnes n := by
      have : (1#n <<< n) = 0#n := by
        apply BitVec.eq_of_getLsbD_eq
        intro j hj
        simp [hj]
      rw [this, BitVec.zero_sub, BitVec.neg_one_eq_allOnes]
    rw [e, BitVec.getLsbD_allOnes]

theorem one_bit {W k : Nat} (hk : k < W) (c : BitVec W) : (c &&& (1#W <<< k) ≠ 0) ↔ c.getLsbD k = true := by
  have hb : ∀ j, (1#W <<< k).getLsbD j = decide (j = k) := by
    intro j
    have hp : 0 < W := by omega
    rw [BitVec.getLsbD_shiftLeft, BitVec.getLsbD_one]
    by_cases hjk : j = k
    · subst hjk; simp [hk, hp]
    · by_cases h1 : j < k
      · simp [h1, hjk]
      · have : ¬ (j - k = 0) := by omega
        simp [this, hjk]
  constructor
  · intro h
    by_contra hc
    apply h
    apply BitVec.eq_of_getLsbD_eq
    intro j hj
    rw [BitVec.getLsbD_and, hb]
    by_cases hjk : j = k
    · subst hjk; simp at hc; simp [hc]
    · simp [hjk]
  · intro h h0
    have := congrArg (fun x => BitVec.getLsbD x k) h0
    simp only [BitVec.getLsbD_and, hb, h] at this
    simp at this

/-- effect of one step on every bit of the register -/
theorem crcStep_bit {W : Nat} (code : Code W) (h1 : 1 ≤ code.bits) (h2 : code.bits ≤ W) (crc : BitVec W) (b : Byte) (i : Nat) :
    (crcStep code crc b).getLsbD i =
      (decide (i < code.bits) && ((decide (i ≠ 0) && crc.getLsbD (i - 1)) ^^
        ((crc.getLsbD (code.bits - 1) ^^ bitOf b) && code.poly.getLsbD i))) := by
  have hbit : ∀ j, (((b &&& 1#8).setWidth W) <<< (code.bits - 1)).getLsbD j =
      (decide (j = code.bits - 1) && bitOf b) := by
    intro j
    rw [BitVec.getLsbD_shiftLeft, BitVec.getLsbD_setWidth, BitVec.getLsbD_and, BitVec.getLsbD_one]
    unfold bitOf
    by_cases hj : j = code.bits - 1
    · subst hj
      have : code.bits - 1 < W := by omega
      simp [this]
      omega
    · by_cases hlt : j < code.bits - 1
      · simp [hlt, hj]
      · have : ¬ (j - (code.bits - 1) = 0) := by omega
        simp [this, hj]
  unfold crcStep
  simp only
  set c := crc ^^^ (((b &&& 1#8).setWidth W) <<< (code.bits - 1)) with hc
  have hcb : ∀ j, c.getLsbD j = (crc.getLsbD j ^^ (decide (j = code.bits - 1) && bitOf b)) := by
    intro j; rw [hc, BitVec.getLsbD_xor, hbit]
  rw [BitVec.getLsbD_and, mask_bit h2 (by omega)]
  by_cases hi : i < code.bits
  · simp only [hi, decide_true, Bool.and_true, Bool.true_and]
    have hsh : (c <<< 1).getLsbD i = (decide (i ≠ 0) && crc.getLsbD (i - 1)) := by
      rw [BitVec.getLsbD_shiftLeft]
      by_cases hz : i = 0
      · simp [hz]
      · rw [hcb]
        have e1 : ¬ (i - 1 = code.bits - 1) := by omega
        have e2 : i < W := by omega
        have e3 : ¬ (i < 1) := by omega
        simp [e1, e2, e3, hz]
    have htop : c.getLsbD (code.bits - 1) = (crc.getLsbD (code.bits - 1) ^^ bitOf b) := by
      rw [hcb]; simp
    by_cases hcond : c &&& (1#W <<< (code.bits - 1)) ≠ 0
    · rw [if_pos hcond, BitVec.getLsbD_xor, hsh]
      have := (one_bit (by omega) c).1 hcond
      rw [htop] at this
      rw [this, Bool.true_and]
    · rw [if_neg hcond, hsh]
      have : ¬ (c.getLsbD (code.bits - 1) = true) := fun h => hcond ((one_bit (by omega) c).2 h)
      rw [htop] at this
      have : (crc.getLsbD (code.bits - 1) ^^ bitOf b) = false := by simpa using this
      rw [this]; simp
  · simp [hi]

/-! ## Linearity -/

/-- two registers that agree on the bits of the CRC -/
def SameLow (n : Nat) {W : Nat} (a b : BitVec W) : Prop := ∀ i, i < n → a.getLsbD i = b.getLsbD i

/-- bit-wise sum of two sequences of ubits -/
def xorBits (a b : List Byte) : List Byte := List.zipWith (· ^^^ ·) a b

theorem bitOf_xor (a b : Byte) : bitOf (a ^^^ b) = (bitOf a ^^ bitOf b) := by
  unfold bitOf; rw [BitVec.getLsbD_xor]

theorem fold_linear {W : Nat} (code : Code W) (h1 : 1 ≤ code.bits) (h2 : code.bits ≤ W) (x y : List Byte)
    (hl : x.length = y.length) (s t u : BitVec W) (hs : SameLow code.bits (s ^^^ t) u) :
    SameLow code.bits (x.foldl (crcStep code) s ^^^ y.foldl (crcStep code) t) ((xorBits x y).foldl (crcStep code) u) := by
  induction x generalizing y s t u with
  | nil =>
    cases y with
    | nil => exact hs
    | cons b y => simp at hl
  | cons a x ih =>
    cases y with
    | nil => simp at hl
    | cons b y =>
      simp only [xorBits, List.zipWith_cons_cons, List.foldl_cons]
      apply ih y (by simpa using hl)
      intro i hi
      rw [BitVec.getLsbD_xor, crcStep_bit code h1 h2, crcStep_bit code h1 h2, crcStep_bit code h1 h2, bitOf_xor]
      have e1 := hs (code.bits - 1) (by omega)
      rw [BitVec.getLsbD_xor] at e1
      have e2 : i - 1 < code.bits := by omega
      have e3 := hs (i - 1) e2
      rw [BitVec.getLsbD_xor] at e3
      rw [← e1, ← e3]
      generalize s.getLsbD (code.bits - 1) = p
      generalize t.getLsbD (code.bits - 1) = q
      generalize s.getLsbD (i - 1) = p'
      generalize t.getLsbD (i - 1) = q'
      generalize bitOf a = x1
      generalize bitOf b = x2
      generalize code.poly.getLsbD i = x3
      simp only [hi, decide_true, Bool.true_and]
      cases (decide (i ≠ 0)) <;> cases p <;> cases q <;> cases p' <;> cases q' <;> cases x1 <;> cases x2 <;> cases x3 <;> rfl

/-- register equality from the CRC bits, after at least one step -/
theorem crcStep_high {W : Nat} (code : Code W) (h1 : 1 ≤ code.bits) (h2 : code.bits ≤ W) (crc : BitVec W) (b : Byte) (i : Nat)
    (hi : code.bits ≤ i) : (crcStep code crc b).getLsbD i = false := by
  rw [crcStep_bit code h1 h2]
  simp; omega

/-- C24: the CRC is linear (affine): the sum of the CRCs of two blocks of equal
length is the CRC, with zero init and remainder, of the sum of the blocks. -/
theorem crc_linear {W : Nat} (code : Code W) (hd : shiftsDefined code) (x y : List Byte) (hl : x.length = y.length)
    (hne : x ≠ []) :
    ∃ cx cy, computeBits code x = some cx ∧ computeBits code y = some cy ∧
      computeBits { code with init := 0, remainder := 0 } (xorBits x y) = some (cx ^^^ cy) := by
  obtain ⟨h1, h2, h3⟩ := hd
  refine ⟨x.foldl (crcStep code) code.init ^^^ code.remainder, y.foldl (crcStep code) code.init ^^^ code.remainder, ?_, ?_, ?_⟩
  · unfold computeBits; rw [if_pos (.inr ⟨h1, h2, h3⟩)]
  · unfold computeBits; rw [if_pos (.inr ⟨h1, h2, h3⟩)]
  · unfold computeBits
    have hsd : shiftsDefined ({ code with init := 0, remainder := 0 } : Code W) := ⟨h1, h2, h3⟩
    rw [if_pos (.inr hsd)]
    congr 1
    have hstep : ∀ (s : BitVec W) b, crcStep ({ code with init := 0, remainder := 0 } : Code W) s b = crcStep code s b := fun _ _ => rfl
    have hfun : crcStep ({ code with init := 0, remainder := 0 } : Code W) = crcStep code := by
      funext s b; exact hstep s b
    rw [hfun]
    have hlow := fold_linear code h1 h2 x y hl code.init code.init 0 (by
      intro i _; simp)
    have hhigh : ∀ (z : List Byte) (s : BitVec W) i, z ≠ [] → code.bits ≤ i → (z.foldl (crcStep code) s).getLsbD i = false := by
      intro z s i hz hi
      rcases List.eq_nil_or_concat z with rfl | ⟨z', b, rfl⟩
      · exact absurd rfl hz
      · rw [List.concat_eq_append, List.foldl_append]
        exact crcStep_high code h1 h2 _ _ i hi
    have hney : y ≠ [] := by
      intro h; subst h; simp at hl; exact hne hl
    have hnex : xorBits x y ≠ [] := by
      intro h
      have := congrArg List.length h
      simp only [xorBits, List.length_zipWith, hl] at this
      simp at this
      exact hney this
    apply BitVec.eq_of_getLsbD_eq
    intro i _
    simp only [BitVec.getLsbD_xor]
    have hz : (0 : BitVec W).getLsbD i = false := by simp
    rw [hz]
    by_cases hi : i < code.bits
    · have := hlow i hi
      rw [BitVec.getLsbD_xor] at this
      rw [← this]
      generalize (x.foldl (crcStep code) code.init).getLsbD i = p
      generalize (y.foldl (crcStep code) code.init).getLsbD i = q
      cases p <;> cases q <;> cases code.remainder.getLsbD i <;> rfl
    · rw [hhigh _ _ i hnex (by omega), hhigh _ _ i hne (by omega), hhigh _ _ i hney (by omega)]
      simp

/-! ## Set and check -/

theorem setBits_some {W : Nat} (code : Code W) (inp : List Byte) (h : inp = [] ∨ shiftsDefined code) :
    ∃ c, setBits code inp = some c ∧ c.length = code.bits := by
  refine ⟨_, by unfold setBits computeBits; rw [if_pos h, Option.map_some], by simp⟩

theorem xor_eq_zero {a b : Byte} : a ^^^ b = 0#8 ↔ a = b := by
  constructor
  · intro h
    have : (a ^^^ b) ^^^ b = 0#8 ^^^ b := by rw [h]
    rwa [BitVec.xor_assoc, BitVec.xor_self, BitVec.xor_zero, BitVec.zero_xor] at this
  · rintro rfl; exact BitVec.xor_self

/-- C24: a block verifies exactly against the bits that set_bits writes for it -/
theorem check_iff_set {W : Nat} (code : Code W) (inp crcBits : List Byte) (h : inp = [] ∨ shiftsDefined code)
    (hl : crcBits.length = code.bits) :
    (checkBits code inp crcBits = some 0 ↔ setBits code inp = some crcBits) ∧
      (checkBits code inp crcBits = some 0 ∨ checkBits code inp crcBits = some 1) := by
  unfold checkBits setBits computeBits
  rw [if_pos h, Option.bind_some, Option.map_some]
  generalize inp.foldl (crcStep code) code.init ^^^ code.remainder = crc
  rw [if_neg (by omega)]
  constructor
  · rw [Option.some.injEq]
    constructor
    · intro hh
      split at hh
      · cases hh
      · rename_i hany
        apply List.ext_getElem
        · simp [hl]
        · intro i h1 h2
          simp only [List.any_eq_true, not_exists, not_and] at hany
          have := hany i (by simpa using h1)
          simp only [decide_eq_true_eq, ne_eq, not_not] at this
          rw [xor_eq_zero] at this
          simp only [List.getElem_map, List.getElem_range]
          rw [← this, List.getD_eq_getElem?_getD, List.getElem?_eq_getElem h2, Option.getD_some]
    · intro hh
      rw [if_neg]
      simp only [List.any_eq_true, not_exists, not_and]
      intro i hi
      simp only [List.mem_range] at hi
      simp only [decide_eq_true_eq, ne_eq, not_not]
      rw [xor_eq_zero, ← hh]
      rw [List.getD_eq_getElem?_getD, List.getElem?_eq_getElem (by simpa using hi)]
      simp
  · split
    · exact .inr rfl
    · exact .inl rfl

/-- C24: what set_bits writes verifies -/
theorem set_then_check {W : Nat} (code : Code W) (inp : List Byte) (h : inp = [] ∨ shiftsDefined code) :
    ∃ c, setBits code inp = some c ∧ checkBits code inp c = some 0 := by
  obtain ⟨c, h1, h2⟩ := setBits_some code inp h
  exact ⟨c, h1, (check_iff_set code inp c h h2).1.2 h1⟩

/-! ## Burst errors -/

/-- the CRC bits of the register are all zero -/
def Zero (n : Nat) {W : Nat} (s : BitVec W) : Prop := ∀ i, i < n → s.getLsbD i = false

/-- the register holds the bits `bs` at its top end, zeros below -/
def Aligned (n : Nat) {W : Nat} (s : BitVec W) (bs : List Byte) : Prop :=
  ∀ i, i < n → s.getLsbD (n - 1 - i) = bitOf (bs.getD i 0#8)

/-- reading as many bits as are aligned at the top clears the register, and
nothing else does -/
theorem fold_zero_iff {W : Nat} (code : Code W) (h1 : 1 ≤ code.bits) (h2 : code.bits ≤ W)
    (hodd : code.poly.getLsbD 0 = true) (bs : List Byte) (hl : bs.length ≤ code.bits) (s : BitVec W) :
    Zero code.bits (bs.foldl (crcStep code) s) ↔ Aligned code.bits s bs := by
  induction bs generalizing s with
  | nil =>
    unfold Zero Aligned
    simp only [List.foldl_nil, List.getD_nil]
    constructor
    · intro h i hi; rw [h _ (by omega)]; rfl
    · intro h i hi
      have := h (code.bits - 1 - i) (by omega)
      rw [show code.bits - 1 - (code.bits - 1 - i) = i by omega] at this
      rw [this]; rfl
  | cons b bs ih =>
    simp only [List.length_cons] at hl
    rw [List.foldl_cons, ih (by omega)]
    unfold Aligned
    constructor
    · intro h
      -- bit 0 of the new register
      have h0 := h (code.bits - 1) (by omega)
      rw [show code.bits - 1 - (code.bits - 1) = 0 by omega, crcStep_bit code h1 h2,
        List.getD_eq_getElem?_getD, List.getElem?_eq_none (by omega), Option.getD_none] at h0
      have htop : (s.getLsbD (code.bits - 1) ^^ bitOf b) = false := by
        have hb : decide (0 < code.bits) = true := by simp; omega
        rw [hb, hodd] at h0
        simpa [bitOf] using h0
      intro i hi
      rcases Nat.eq_zero_or_pos i with hz | hz
      · subst hz
        simp only [Nat.sub_zero, List.getD_cons_zero]
        generalize s.getLsbD (code.bits - 1) = p at htop ⊢
        cases p <;> cases hb : bitOf b <;> rw [hb] at htop <;> first | rfl | cases htop
      · have := h (i - 1) (by omega)
        rw [crcStep_bit code h1 h2, htop] at this
        have e : code.bits - 1 - (i - 1) - 1 = code.bits - 1 - i := by omega
        have e2 : decide (code.bits - 1 - (i - 1) < code.bits) = true := by simp; omega
        have e3 : decide (code.bits - 1 - (i - 1) ≠ 0) = true := by simp; omega
        rw [e, e2, e3] at this
        simp only [Bool.true_and, Bool.false_and, Bool.xor_false] at this
        rw [this]
        obtain ⟨k, rfl⟩ : ∃ k, i = k + 1 := ⟨i - 1, by omega⟩
        simp
    · intro h i hi
      have h0 := h 0 (by omega)
      simp only [Nat.sub_zero, List.getD_cons_zero] at h0
      rw [crcStep_bit code h1 h2, h0]
      simp only [Bool.xor_self, Bool.false_and, Bool.xor_false]
      have e2 : decide (code.bits - 1 - i < code.bits) = true := by simp; omega
      rw [e2, Bool.true_and]
      rcases Nat.lt_or_ge (i + 1) code.bits with hlt | hge
      · have := h (i + 1) hlt
        rw [List.getD_cons_succ] at this
        have e3 : decide (code.bits - 1 - i ≠ 0) = true := by simp; omega
        rw [e3, Bool.true_and, show code.bits - 1 - i - 1 = code.bits - 1 - (i + 1) by omega, this]
      · have e3 : decide (code.bits - 1 - i ≠ 0) = false := by simp; omega
        rw [e3, Bool.false_and, List.getD_eq_getElem?_getD, List.getElem?_eq_none (by omega)]
        rfl

/-- reading zero bits never clears a register that is not clear -/
theorem fold_zeros {W : Nat} (code : Code W) (h1 : 1 ≤ code.bits) (h2 : code.bits ≤ W)
    (hodd : code.poly.getLsbD 0 = true) (z : List Byte) (hz : ∀ b ∈ z, bitOf b = false) (s : BitVec W) :
    Zero code.bits (z.foldl (crcStep code) s) ↔ Zero code.bits s := by
  induction z generalizing s with
  | nil => rfl
  | cons b z ih =>
    rw [List.foldl_cons, ih fun b hb => hz b (by simp [hb])]
    have := fold_zero_iff code h1 h2 hodd [b] (by simpa using h1) s
    simp only [List.foldl_cons, List.foldl_nil] at this
    rw [this]
    have hb := hz b (by simp)
    have hall : ∀ i, bitOf (([b] : List Byte).getD i 0#8) = false := by
      intro i
      cases i with
      | zero => simpa using hb
      | succ i => simp; rfl
    unfold Aligned Zero
    simp only [hall]
    constructor
    · intro h i hi
      have := h (code.bits - 1 - i) (by omega)
      rwa [show code.bits - 1 - (code.bits - 1 - i) = i by omega] at this
    · intro h i hi; exact h _ (by omega)

/-- a burst of at most `bits` bits: zeros, then the burst with some bit set, then zeros -/
def Burst (n : Nat) (e : List Byte) : Prop :=
  ∃ a b c, e = a ++ b ++ c ∧ (∀ x ∈ a, bitOf x = false) ∧ (∀ x ∈ c, bitOf x = false) ∧ b.length ≤ n ∧
    ∃ x ∈ b, bitOf x = true

theorem burst_nonzero {W : Nat} (code : Code W) (h1 : 1 ≤ code.bits) (h2 : code.bits ≤ W)
    (hodd : code.poly.getLsbD 0 = true) {e : List Byte} (hb : Burst code.bits e) :
    ¬ Zero code.bits (e.foldl (crcStep code) 0) := by
  obtain ⟨a, b, c, rfl, ha, hc, hl, x, hx, hbx⟩ := hb
  rw [List.foldl_append, List.foldl_append, fold_zeros code h1 h2 hodd c hc, fold_zero_iff code h1 h2 hodd b hl]
  intro hal
  have hz : Zero code.bits (a.foldl (crcStep code) (0 : BitVec W)) :=
    (fold_zeros code h1 h2 hodd a ha 0).2 (by intro i _; simp)
  obtain ⟨i, hi, rfl⟩ := List.mem_iff_getElem.1 hx
  have := hal i (by omega)
  rw [hz _ (by omega), List.getD_eq_getElem?_getD, List.getElem?_eq_getElem hi, Option.getD_some, hbx] at this
  cases this

theorem crcBit_bitOf {W : Nat} (code : Code W) (c : BitVec W) (i : Nat) :
    bitOf (crcBit code c i) = c.getLsbD (code.bits - i - 1) := by
  unfold crcBit
  cases c.getLsbD (code.bits - i - 1) <;> rfl

/-- C24: burst detection.  If a block with its CRC is received with an error
pattern `e ++ f` (`e` on the data, `f` on the CRC bits) that is a burst of at
most as many bits as the CRC has, the check fails, for any generator with
non-zero constant term. -/
theorem burst_detected {W : Nat} (code : Code W) (hd : shiftsDefined code) (hodd : code.poly.getLsbD 0 = true)
    (x e f : List Byte) (hl : x.length = e.length) (hf : f.length = code.bits)
    (hb : Burst code.bits (e ++ f)) :
    ∃ c, setBits code x = some c ∧ checkBits code (xorBits x e) (xorBits c f) = some 1 := by
  obtain ⟨h1, h2, h3⟩ := hd
  have hd : shiftsDefined code := ⟨h1, h2, h3⟩
  obtain ⟨c, hc, hcl⟩ := setBits_some code x (.inr hd)
  refine ⟨c, hc, ?_⟩
  have hlx : (xorBits c f).length = code.bits := by simp [xorBits, hcl, hf]
  obtain ⟨hiff, hor⟩ := check_iff_set code (xorBits x e) (xorBits c f) (.inr hd) hlx
  rcases hor with h0 | h0
  · exfalso
    have hs := hiff.1 h0
    apply burst_nonzero code h1 h2 hodd hb
    rw [List.foldl_append]
    rw [fold_zero_iff code h1 h2 hodd f (by omega)]
    unfold setBits computeBits at hc hs
    rw [if_pos (.inr hd), Option.map_some, Option.some.injEq] at hc hs
    have hlin := fold_linear code h1 h2 (xorBits x e) x (by simp [xorBits, hl]) code.init code.init 0 (by intro i _; simp)
    have hxe : xorBits (xorBits x e) x = e := by
      clear hs hb hlin hc h0 hiff
      induction x generalizing e with
      | nil =>
        cases e with
        | nil => rfl
        | cons b e => simp at hl
      | cons a x ih =>
        cases e with
        | nil => simp at hl
        | cons b e =>
          simp only [xorBits, List.zipWith_cons_cons, List.cons.injEq]
          refine ⟨?_, ih e (by simpa using hl)⟩
          rw [BitVec.xor_comm a b, BitVec.xor_assoc, BitVec.xor_self, BitVec.xor_zero]
    rw [hxe] at hlin
    intro i hi
    rw [← hlin _ (by omega), BitVec.getLsbD_xor]
    have g1 : bitOf ((xorBits c f).getD i 0#8) = (bitOf (c.getD i 0#8) ^^ bitOf (f.getD i 0#8)) := by
      rw [List.getD_eq_getElem?_getD, List.getD_eq_getElem?_getD, List.getD_eq_getElem?_getD]
      rw [List.getElem?_eq_getElem (show i < (xorBits c f).length by omega),
        List.getElem?_eq_getElem (show i < c.length by omega), List.getElem?_eq_getElem (show i < f.length by omega)]
      simp only [Option.getD_some, xorBits, List.getElem_zipWith, bitOf_xor]
    have gen : ∀ (r : BitVec W) (l : List Byte), (List.range code.bits).map (crcBit code r) = l →
        bitOf (l.getD i 0#8) = r.getLsbD (code.bits - 1 - i) := by
      intro r l hrl
      rw [← hrl, List.getD_eq_getElem?_getD, List.getElem?_eq_getElem (by simpa using hi), Option.getD_some]
      simp only [List.getElem_map, List.getElem_range, crcBit_bitOf]
      rw [show code.bits - i - 1 = code.bits - 1 - i by omega]
    have g2 := gen _ _ hc
    have g3 := gen _ _ hs
    rw [g1, g2, BitVec.getLsbD_xor, BitVec.getLsbD_xor] at g3
    generalize (x.foldl (crcStep code) code.init).getLsbD (code.bits - 1 - i) = p at *
    generalize ((xorBits x e).foldl (crcStep code) code.init).getLsbD (code.bits - 1 - i) = q at *
    generalize code.remainder.getLsbD (code.bits - 1 - i) = r at *
    generalize bitOf (f.getD i 0#8) = t at *
    cases p <;> cases q <;> cases r <;> cases t <;> first | rfl | cases g3
  · exact h0

/-- C24: the code is not defined for 32 and 64 bit wide codes using all bits of
the type -/
theorem full_width_counterexample :
    computeBits (W := 32) { bits := 32, poly := 0x04c11db7#32, init := 0xffffffff#32, remainder := 0xffffffff#32 } [1#8] =
      none := by decide

/-- the bits 1011 are the generator x^3+x+1 itself: the CRC is the remainder mask -/
example : setBits (W := 16) { bits := 3, poly := 3#16, init := 0#16, remainder := 7#16 } [1#8, 0#8, 1#8, 1#8] =
    some [1#8, 1#8, 1#8] := by decide

example : Burst 3 [0#8, 1#8, 0#8, 1#8, 0#8] :=
  ⟨[0#8], [1#8, 0#8, 1#8], [0#8], rfl, by decide, by decide, by decide, 1#8, by decide, by decide⟩

end Verif.Crc
