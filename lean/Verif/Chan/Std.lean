import Verif.Chan.Facch
import Verif.Crc.PolyProps
/-!
C105: what is sent on control channels is what the standard says.
-/
namespace Verif.Chan
open Verif.Conv Verif.ConvAcc Verif.Interleave Verif.Crc Polynomial

/-- the polynomial of a block, first bit the highest power -/
noncomputable def bitsPoly (l : List Bool) : GF2X := l.foldl (fun p b => X * p + coef b) 0

theorem bitOf_ubit (b : Bool) : bitOf (ubit b) = b := by cases b <;> rfl

theorem bitsPoly_ubit (l : List Bool) : msgPoly (l.map ubit) = bitsPoly l := by
  unfold msgPoly bitsPoly
  rw [List.foldl_map]
  simp only [bitOf_ubit]

theorem foldl_poly (l : List Bool) (a : GF2X) : l.foldl (fun p b => X * p + coef b) a = X ^ l.length * a + bitsPoly l := by
  induction l generalizing a with
  | nil => simp [bitsPoly]
  | cons b l ih =>
    have h := ih (X * 0 + coef b)
    unfold bitsPoly at h ⊢
    rw [List.foldl_cons, List.foldl_cons, h, ih, List.length_cons]
    unfold bitsPoly
    ring

theorem bitsPoly_append (a b : List Bool) : bitsPoly (a ++ b) = X ^ b.length * bitsPoly a + bitsPoly b := by
  conv_lhs => rw [bitsPoly, List.foldl_append]
  rw [foldl_poly]
  rfl

/-- bits of a register, the highest first -/
theorem bitsPoly_psum (n : Nat) (f : Nat → Bool) : bitsPoly ((List.range n).map fun i => f (n - i - 1)) = psum n f := by
  induction n with
  | zero => rfl
  | succ n ih =>
    rw [List.range_succ_eq_map, List.map_cons, List.map_map]
    have e : ((fun i => f (n + 1 - i - 1)) ∘ Nat.succ) = fun i => f (n - i - 1) := by
      funext i
      show f _ = f _
      congr 1
      omega
    rw [e, show ∀ (x : Bool) l, x :: l = [x] ++ l from fun _ _ => rfl, bitsPoly_append, ih]
    unfold psum
    rw [Finset.sum_range_succ]
    simp [bitsPoly]
    ring

theorem regPoly_xor (n : Nat) {W : Nat} (s t : BitVec W) : regPoly n (s ^^^ t) = regPoly n s + regPoly n t := by
  rw [regPoly_psum, regPoly_psum, regPoly_psum]
  unfold psum
  rw [← Finset.sum_add_distrib]
  apply Finset.sum_congr rfl
  intro i _
  rw [BitVec.getLsbD_xor, coef_xor]
  ring

/-- **the parity bits**: block and parity, divided by the generator, leave the remainder of the code -/
theorem parity_standard {W : Nat} (code : Crc.Code W) (hs : Crc.shiftsDefined code) (hi : code.init = 0) (data : List Bool) :
    genPoly code ∣ bitsPoly (data ++ parityOf code data) - regPoly code.bits code.remainder := by
  obtain ⟨q, hq⟩ := fold_poly code hs.1 hs.2.1 (data.map ubit) code.init 0 0 ⟨0, by
    rw [hi, regPoly_psum]; simp [psum, coef]⟩
  have hp : bitsPoly (parityOf code data) =
      regPoly code.bits ((data.map ubit).foldl (crcStep code) code.init) + regPoly code.bits code.remainder := by
    rw [← regPoly_xor, regPoly_psum]
    exact bitsPoly_psum _ _
  refine ⟨q, ?_⟩
  rw [bitsPoly_append, hp, hq, parityOf_length, ← bitsPoly_ubit]
  unfold msgPoly
  have t := two_zero
  linear_combination (X ^ code.bits * List.foldl (fun p b => X * p + coef (bitOf b)) 0 (List.map ubit data)) * t

/-- all bits of the remainder set -/
theorem regPoly_ones (n : Nat) {W : Nat} (s : BitVec W) (h : ∀ i < n, s.getLsbD i = true) :
    regPoly n s = ∑ i ∈ Finset.range n, X ^ i := by
  rw [regPoly_psum]
  apply Finset.sum_congr rfl
  intro i hi
  rw [h i (Finset.mem_range.1 hi)]
  simp [coef]

theorem fire_poly : genPoly fireCrc40 = (X ^ 23 + 1) * (X ^ 17 + X ^ 3 + 1) := by
  have hb : ∀ i : Fin 40, fireCrc40.poly.getLsbD i.1 = decide (i.1 = 0 ∨ i.1 = 3 ∨ i.1 = 17 ∨ i.1 = 23 ∨ i.1 = 26) := by decide
  unfold genPoly
  rw [regPoly_psum]
  unfold psum
  rw [show fireCrc40.bits = 40 from rfl]
  simp only [Finset.sum_range_succ, Finset.sum_range_zero]
  have e := fun (i : Nat) (h : i < 40) => hb ⟨i, h⟩
  simp only [e, Nat.reduceLT]
  simp [coef]
  ring

theorem rachCrc_poly : genPoly rachCrc6 = X ^ 6 + X ^ 5 + X ^ 3 + X ^ 2 + X + 1 := by
  have hb : ∀ i : Fin 6, rachCrc6.poly.getLsbD i.1 = decide (i.1 = 0 ∨ i.1 = 1 ∨ i.1 = 2 ∨ i.1 = 3 ∨ i.1 = 5) := by decide
  unfold genPoly
  rw [regPoly_psum]
  unfold psum
  rw [show rachCrc6.bits = 6 from rfl]
  simp only [Finset.sum_range_succ, Finset.sum_range_zero]
  have e := fun (i : Nat) (h : i < 6) => hb ⟨i, h⟩
  simp only [e, Nat.reduceLT]
  simp [coef]
  ring

theorem schCrc_poly : genPoly schCrc10 = X ^ 10 + X ^ 8 + X ^ 6 + X ^ 5 + X ^ 4 + X ^ 2 + 1 := by
  have hb : ∀ i : Fin 10, schCrc10.poly.getLsbD i.1 = decide (i.1 = 0 ∨ i.1 = 2 ∨ i.1 = 4 ∨ i.1 = 5 ∨ i.1 = 6 ∨ i.1 = 8) := by decide
  unfold genPoly
  rw [regPoly_psum]
  unfold psum
  rw [show schCrc10.bits = 10 from rfl]
  simp only [Finset.sum_range_succ, Finset.sum_range_zero]
  have e := fun (i : Nat) (h : i < 10) => hb ⟨i, h⟩
  simp only [e, Nat.reduceLT]
  simp [coef]
  ring

/-! ### the convolutional code -/

/-- the bits of a block with `u(k) = 0` for `k < 0` and after its end -/
def uAt (l : List Bool) (k : Int) : Bool := if k < 0 then false else l.getD k.toNat false

/-- a state of the encoder: the last four bits -/
def st4 (a1 a2 a3 a4 : Bool) : Nat := a1.toNat + 2 * a2.toNat + 4 * a3.toNat + 8 * a4.toNat

theorem half_step : ∀ (b a1 a2 a3 a4 : Bool), symBits (pack (pyNextOutput [(G0, 1), (G1, 1)] (st4 a1 a2 a3 a4) b)) 2 =
      [b ^^ a3 ^^ a4, b ^^ a1 ^^ a3 ^^ a4] ∧
    pyNextState [(G0, 1), (G1, 1)] (st4 a1 a2 a3 a4) b = st4 b a1 a2 a3 := by decide +kernel

/-- symbols by the last bits -/
def half : Bool → Bool → Bool → Bool → List Bool → List Bool
  | _, _, _, _, [] => []
  | a1, a2, a3, a4, b :: bs => [b ^^ a3 ^^ a4, b ^^ a1 ^^ a3 ^^ a4] ++ half b a1 a2 a3 bs

theorem stream_half (len : Nat) (t : Term) (P : Option (List Nat)) (bits : List Bool) : ∀ a1 a2 a3 a4,
    stream (genCode [(G0, 1), (G1, 1)] len t P) (st4 a1 a2 a3 a4) bits = half a1 a2 a3 a4 bits := by
  induction bits with
  | nil => intros; rfl
  | cons b bs ih =>
    intro a1 a2 a3 a4
    obtain ⟨h1, h2⟩ := half_step b a1 a2 a3 a4
    show symBits (pack _) 2 ++ stream _ (pyNextState _ _ _) bs = _
    rw [h1, h2, ih]
    rfl

theorem flush_stream (len : Nat) (t : Term) (P : Option (List Nat)) (n s : Nat) :
    flushStream (genCode [(G0, 1), (G1, 1)] len t P) n s =
      stream (genCode [(G0, 1), (G1, 1)] len t P) s (List.replicate n false) := by
  have hd : (genCode [(G0, 1), (G1, 1)] len t P).nextTerm = none := by
    have hne : ¬ polyDiv [(G0, 1), (G1, 1)] ≠ 1 := by decide +kernel
    simp only [genCode, hne, if_false]
  induction n generalizing s with
  | zero => rfl
  | succ n ih =>
    rw [List.replicate_succ]
    unfold flushStream stream
    rw [ih]
    unfold termOut termNext
    rw [hd]

theorem stream_append (c : Code) (s : Nat) (a b : List Bool) : stream c s (a ++ b) = stream c s a ++ stream c (endState c s a) b := by
  induction a generalizing s with
  | nil => rfl
  | cons x a ih =>
    rw [List.cons_append, stream, stream, ih, List.append_assoc]
    rfl

theorem half_get (bits : List Bool) : ∀ (a1 a2 a3 a4 : Bool) (k : Nat), k < bits.length →
    (half a1 a2 a3 a4 bits)[2 * k]? = some ((a4 :: a3 :: a2 :: a1 :: bits).getD (k + 4) false ^^
      (a4 :: a3 :: a2 :: a1 :: bits).getD (k + 1) false ^^ (a4 :: a3 :: a2 :: a1 :: bits).getD k false) ∧
    (half a1 a2 a3 a4 bits)[2 * k + 1]? = some ((a4 :: a3 :: a2 :: a1 :: bits).getD (k + 4) false ^^
      (a4 :: a3 :: a2 :: a1 :: bits).getD (k + 3) false ^^
      (a4 :: a3 :: a2 :: a1 :: bits).getD (k + 1) false ^^ (a4 :: a3 :: a2 :: a1 :: bits).getD k false) := by
  induction bits with
  | nil => intro _ _ _ _ k h; simp at h
  | cons b bs ih =>
    intro a1 a2 a3 a4 k hk
    cases k with
    | zero => exact ⟨rfl, rfl⟩
    | succ k =>
      obtain ⟨h1, h2⟩ := ih b a1 a2 a3 k (by simpa using hk)
      exact ⟨h1, h2⟩

/-- **the code**: `c(2k) = u(k) + u(k-3) + u(k-4)` and `c(2k+1) = u(k) + u(k-1) + u(k-3) + u(k-4)` -/
theorem coded_standard (len : Nat) (P : Option (List Nat)) (bits : List Bool) (k : Nat) (hk : k < bits.length + 4) :
    (coded (genCode [(G0, 1), (G1, 1)] len .flush P) bits)[2 * k]? = some (uAt bits k ^^ uAt bits (k - 3) ^^ uAt bits (k - 4)) ∧
    (coded (genCode [(G0, 1), (G1, 1)] len .flush P) bits)[2 * k + 1]? =
      some (uAt bits k ^^ uAt bits (k - 1) ^^ uAt bits (k - 3) ^^ uAt bits (k - 4)) := by
  have hc : coded (genCode [(G0, 1), (G1, 1)] len .flush P) bits = half false false false false (bits ++ List.replicate 4 false) := by
    rw [← stream_half len .flush P, stream_append, ← flush_stream]
    rfl
  rw [hc]
  have hu : ∀ j, (false :: false :: false :: false :: (bits ++ List.replicate 4 false)).getD j false = uAt bits ((j : Int) - 4) := by
    intro j
    unfold uAt
    by_cases h4 : j < 4
    · rw [if_pos (by omega)]
      match j, h4 with
      | 0, _ => rfl
      | 1, _ => rfl
      | 2, _ => rfl
      | 3, _ => rfl
    · rw [if_neg (by omega)]
      obtain ⟨i, rfl⟩ : ∃ i, j = i + 4 := ⟨j - 4, by omega⟩
      rw [show (((i + 4 : Nat) : Int) - 4).toNat = i by omega]
      show (bits ++ List.replicate 4 false).getD i false = _
      rw [List.getD_eq_getElem?_getD, List.getD_eq_getElem?_getD]
      by_cases hi : i < bits.length
      · rw [List.getElem?_append_left hi]
      · rw [List.getElem?_append_right (by omega), List.getElem?_eq_none (by omega : bits.length ≤ i), List.getElem?_replicate]
        split <;> rfl
  obtain ⟨h1, h2⟩ := half_get (bits ++ List.replicate 4 false) false false false false k (by simp; omega)
  rw [h1, h2]
  simp only [hu]
  constructor
  · congr 2
    · congr 1
      · congr 1; omega
      · congr 1; omega
  · congr 2
    · congr 1
      · congr 1
        · congr 1; omega
        · congr 1; omega
      · congr 1; omega

/-- the length of the coded bits -/
theorem coded_len (len : Nat) (P : Option (List Nat)) (bits : List Bool) (hl : bits.length = len) :
    (coded (genCode [(G0, 1), (G1, 1)] len .flush P) bits).length = 2 * (len + 4) := by
  rw [coded_length _ _ rfl hl]
  show (len + (polyK [(G0, 1), (G1, 1)] - 1)) * 2 = _
  rw [show polyK [(G0, 1), (G1, 1)] = 5 by decide +kernel]
  omega

theorem code_standard (len : Nat) (bits sent : List Bool) (hl : bits.length = len)
    (he : encode (genCode [(G0, 1), (G1, 1)] len .flush none) bits = some sent) (k : Nat) (hk : k < len + 4) :
    sent[2 * k]? = some (uAt bits k ^^ uAt bits (k - 3) ^^ uAt bits (k - 4)) ∧
    sent[2 * k + 1]? = some (uAt bits k ^^ uAt bits (k - 1) ^^ uAt bits (k - 3) ^^ uAt bits (k - 4)) := by
  rw [encode_spec _ (by exact List.Pairwise.nil) bits hl (by exact (by decide +kernel : 1 ≤ polyK [(G0, 1), (G1, 1)])) (by intro h; cases h)] at he
  rw [show (genCode [(G0, 1), (G1, 1)] len .flush none).positions = [] from rfl, keep_nil] at he
  obtain rfl := Option.some.inj he
  exact coded_standard len none bits k (by omega)

/-- puncturing leaves the bits at the other positions, in their order -/
theorem keep_filter (P : List Nat) (a : List Bool) : ∀ r, keep P r a =
    ((List.range a.length).filter fun i => decide (r + i ∉ P)).map fun i => a.getD i false := by
  induction a with
  | nil => intro r; rfl
  | cons x a ih =>
    intro r
    rw [keep, ih, List.length_cons, List.range_succ_eq_map, List.filter_cons, List.filter_map]
    have e : (fun i => decide (r + i ∉ P)) ∘ Nat.succ = fun i => decide (r + 1 + i ∉ P) := by
      funext i
      simp only [Function.comp, Nat.succ_eq_add_one, show r + (i + 1) = r + 1 + i by omega]
    rw [e, Nat.add_zero]
    by_cases h : r ∈ P
    · simp [h]
    · simp [h]

theorem code_standard_punctured (len : Nat) (P : List Nat) (hs : P.Pairwise (· < ·)) (bits sent : List Bool) (hl : bits.length = len)
    (he : encode (genCode [(G0, 1), (G1, 1)] len .flush (some P)) bits = some sent) :
    ∃ c : Nat → Bool, (∀ k < len + 4, c (2 * k) = (uAt bits k ^^ uAt bits (k - 3) ^^ uAt bits (k - 4)) ∧
        c (2 * k + 1) = (uAt bits k ^^ uAt bits (k - 1) ^^ uAt bits (k - 3) ^^ uAt bits (k - 4))) ∧
      sent = ((List.range (2 * (len + 4))).filter fun i => decide (i ∉ P)).map c := by
  rw [encode_spec _ (by exact hs) bits hl (by exact (by decide +kernel : 1 ≤ polyK [(G0, 1), (G1, 1)])) (by intro h; cases h)] at he
  rw [show (genCode [(G0, 1), (G1, 1)] len .flush (some P)).positions = P from rfl, keep_filter, coded_len _ _ _ hl] at he
  obtain rfl := Option.some.inj he
  refine ⟨fun i => (coded (genCode [(G0, 1), (G1, 1)] len .flush (some P)) bits).getD i false, fun k hk => ?_, ?_⟩
  · obtain ⟨h1, h2⟩ := coded_standard len (some P) bits k (by omega)
    constructor
    · dsimp only; rw [List.getD_eq_getElem?_getD, h1]; rfl
    · dsimp only; rw [List.getD_eq_getElem?_getD, h2]; rfl
  · simp only [Nat.zero_add]

/-- what the 184 bits and 40 parity bits of a block are -/
structure FireBlock (l2 : List Byte) (u : List Bool) : Prop where
  len : u.length = 224
  data : ∀ k < 184, u[k]? = some ((l2.getD (k / 8) 0#8).getLsbD (k % 8))
  parity : (X ^ 23 + 1) * (X ^ 17 + X ^ 3 + 1) ∣ bitsPoly u - ∑ i ∈ Finset.range 40, X ^ i

theorem xcchBlock_fire (l2 : List Byte) : FireBlock l2 (xcchBlock l2) where
  len := xcchBlock_length l2
  data := by
    intro k hk
    unfold xcchBlock
    rw [List.getElem?_append_left (by rw [lsbBits_length]; exact hk)]
    simp [lsbBits, hk, bitAt, bitNum]
  parity := by
    have h := parity_standard fireCrc40 fire_shifts rfl (lsbBits 184 l2)
    rw [fire_poly, regPoly_ones _ _ (by decide)] at h
    exact h

/-- coded bits at their places -/
def CodedAt (u : List Bool) (place : Nat → Nat) (b : List Byte) : Prop :=
  ∀ k < 228, b[place (2 * k)]? = some (ubit (uAt u k ^^ uAt u (k - 3) ^^ uAt u (k - 4))) ∧
    b[place (2 * k + 1)]? = some (ubit (uAt u k ^^ uAt u (k - 1) ^^ uAt u (k - 3) ^^ uAt u (k - 4)))

theorem coded_at {place : Nat → Nat} {l2 b : List Byte} {sent : List Bool} (s2 : encode xcchCode (xcchBlock l2) = some sent)
    (hlt : ∀ k < 456, place k < b.length) (b3 : pick 0#8 ((List.range 456).map place) b = sent.map ubit) :
    CodedAt (xcchBlock l2) place b := by
  have key : ∀ k < 456, b[place k]? = (sent.map ubit)[k]? := by
    intro k hk
    rw [← b3]
    simp [pick, hk, List.getElem?_eq_getElem (hlt k hk)]
  intro k hk
  obtain ⟨c1, c2⟩ := code_standard 224 (xcchBlock l2) sent (xcchBlock_length l2) s2 k (by omega)
  rw [key _ (by omega), key _ (by omega), List.getElem?_map, List.getElem?_map, c1, c2]
  exact ⟨rfl, rfl⟩

theorem CodedAt.congr {u : List Bool} {p q : Nat → Nat} {b : List Byte} (h : CodedAt u p b) (hpq : ∀ k < 456, p k = q k) :
    CodedAt u q b := by
  intro k hk
  rw [← hpq _ (by omega), ← hpq _ (by omega)]
  exact h k hk

/-- C105: **as in TS 05.03**: the block is the bytes, the low bits first, and 40 parity bits such that it leaves the remainder
`1 + D + ... + D^39` by `(D^23 + 1)(D^17 + D^3 + 1)`; coded bit `k` is in burst `k mod 4` at `2((49k) mod 57) + ((k mod 8) div 4)`, not
counting the flags. -/
theorem xcch_standard (es : EncStack) (hes : es.Ok 456) (bursts l2 b : List Byte) (hb : bursts.length = 464) (h3 : l2.length = 23)
    (he : xcchEncode es bursts l2 = some b) :
    ∃ u, FireBlock l2 u ∧ CodedAt u (fun k => 116 * (k % 4) + mid (2 * (49 * k % 57) + k % 8 / 4)) b := by
  obtain ⟨sent, s1, s2, s3⟩ := xcchEncodeCB_spec es.conv es.cB l2 hes.conv hes.cB h3
  obtain ⟨b', b1, b2, b3, b4⟩ := xcchSend_pick es hes bursts sent s1 hb
  unfold xcchEncode at he
  rw [s3] at he
  obtain rfl : b = b' := Option.some.inj (he.symm.trans b1)
  have hlt : ∀ k < 456, xcchPos k < 464 := by decide +kernel
  have place : ∀ k < 456, xcchPos k = 116 * (k % 4) + mid (2 * (49 * k % 57) + k % 8 / 4) := by decide +kernel
  exact ⟨xcchBlock l2, xcchBlock_fire l2, (coded_at s2 (fun k hk => by have := hlt k hk; omega) b3).congr place⟩

/-- C105: FACCH/F: coded bit `k` is in burst `k mod 8`, which gives the even bits of the first four bursts and the odd ones of the others -/
theorem facchF_standard (es : EncStack) (hes : es.Ok 912) (bursts l2 b : List Byte) (hb : 928 ≤ bursts.length) (h3 : l2.length = 23)
    (he : facchFEncode es bursts l2 = some b) :
    ∃ u, FireBlock l2 u ∧ CodedAt u (fun k => 116 * (k % 8) + mid (2 * (49 * k % 57) + k % 8 / 4)) b := by
  obtain ⟨sent, s1, s2, s3⟩ := xcchEncodeCB_spec es.conv es.cB l2 hes.conv hes.cB h3
  obtain ⟨b', b1, b2, b3, b4⟩ := tchFrSend_pick 1#8 es.iB (sent.map ubit) bursts hes.iB (by simpa using s1) hb
  unfold facchFEncode at he
  rw [s3] at he
  obtain rfl : b = b' := Option.some.inj (he.symm.trans b1)
  have hlt : ∀ k < 456, tchFPos k < 928 := by decide +kernel
  have hco := coded_at s2 (fun k hk => by have := hlt k hk; omega) b3
  exact ⟨xcchBlock l2, xcchBlock_fire l2, hco⟩

/-- C105: FACCH/H: the same, but what would be in bursts 6 and 7 is in bursts 2 and 3 -/
theorem facchH_standard (es : EncStack) (hes : es.Ok 912) (bursts l2 b : List Byte) (hb : 696 ≤ bursts.length) (h3 : l2.length = 23)
    (he : facchHEncode es bursts l2 = some b) :
    ∃ u, FireBlock l2 u ∧
      CodedAt u (fun k => 116 * (if k % 8 < 6 then k % 8 else k % 8 - 4) + mid (2 * (49 * k % 57) + k % 8 / 4)) b := by
  obtain ⟨sent, s1, s2, s3⟩ := xcchEncodeCB_spec es.conv es.cB l2 hes.conv hes.cB h3
  obtain ⟨b', b1, b2, b3, b4⟩ := facchHSend_pick 1#8 es.iB (sent.map ubit) bursts hes.iB (by simpa using s1) hb
  unfold facchHEncode at he
  rw [s3] at he
  obtain rfl : b = b' := Option.some.inj (he.symm.trans b1)
  have hlt : ∀ k < 456, facchHPos k < 696 := by decide +kernel
  have hco := coded_at s2 (fun k hk => by have := hlt k hk; omega) b3
  exact ⟨xcchBlock l2, xcchBlock_fire l2, hco⟩

end Verif.Chan
