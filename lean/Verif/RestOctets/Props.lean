import Verif.RestOctets.Model
import Verif.Bitvec.Lemmas
/-!
Properties of the SI1 rest octets and the NCH position (C169).
-/
namespace Verif.RestOctets
open Verif.Bitvec (BV setBit setUint sparePadding)

/-- The number of positions with fewer than `num` blocks, of 7 blocks: with `k`
blocks there are `8 - k`. -/
def before (num : Nat) : Nat := ((List.range (num - 1)).map fun j => 7 - j).sum

theorem nchLoop_spec (num first : Nat) (ps : List (Nat × Nat)) (i k : Nat) (h : nchLoop num first ps i = some k) :
    i ≤ k ∧ ps[k - i]? = some (num, first) := by
  induction ps generalizing i with
  | nil => simp [nchLoop] at h
  | cons p ps ih =>
    simp only [nchLoop] at h
    by_cases e : p.1 = num ∧ p.2 = first
    · rw [if_pos e] at h
      cases h
      simp [← e.1, ← e.2]
    · rw [if_neg e] at h
      obtain ⟨h1, h2⟩ := ih (i + 1) h
      refine ⟨by omega, ?_⟩
      rw [show k - i = (k - (i + 1)) + 1 by omega, List.getElem?_cons_succ]
      exact h2

theorem nchLoop_none (num first : Nat) (ps : List (Nat × Nat)) (i : Nat) (h : (num, first) ∉ ps) :
    nchLoop num first ps i = none := by
  induction ps generalizing i with
  | nil => rfl
  | cons p ps ih =>
    simp only [nchLoop]
    rw [if_neg, ih _ (fun hh => h (List.mem_cons_of_mem _ hh))]
    rintro ⟨h1, h2⟩
    apply h
    rw [← h1, ← h2]
    simp

/-- **C169a.** A position of the NCH has a code if there is at least one block and
the last one is among the first seven; the codes number the positions by number
of blocks and first block. -/
theorem nchEncode_spec (num first : Nat) :
    nchEncode num first = if 1 ≤ num ∧ num + first ≤ 7 then some (before num + first) else none := by
  by_cases h : 1 ≤ num ∧ num + first ≤ 7
  · rw [if_pos h]
    have key : ∀ n : Fin 8, ∀ f : Fin 8, 1 ≤ n.val ∧ n.val + f.val ≤ 7 →
        nchEncode n.val f.val = some (before n.val + f.val) := by decide
    exact key ⟨num, by omega⟩ ⟨first, by omega⟩ h
  · rw [if_neg h]
    apply nchLoop_none
    intro hm
    have key : ∀ p ∈ positions, 1 ≤ p.1 ∧ p.1 + p.2 ≤ 7 := by decide
    exact h (key _ hm)

/-- **C169b.** Decoding is the inverse of encoding. -/
theorem nch_inverse (v num first : Nat) : nchDecode v = some (num, first) ↔ nchEncode num first = some v := by
  constructor
  · intro h
    unfold nchDecode at h
    split at h
    · cases h
    · rename_i hv
      have key : ∀ i : Fin 28, ∀ p, positions[i.val]? = some p → nchEncode p.1 p.2 = some i.val := by
        intro i p hp
        have k2 : ∀ i : Fin 28, (positions[i.val]?).all (fun p => decide (nchEncode p.1 p.2 = some i.val)) = true := by
          decide
        have := k2 i
        rw [hp] at this
        simpa using this
      have hl : positions.length = 28 := by decide
      exact key ⟨v, by omega⟩ (num, first) h
  · intro h
    obtain ⟨_, h2⟩ := nchLoop_spec num first positions 0 v h
    have hlt : v < positions.length := by
      have := (List.getElem?_eq_some_iff.mp h2).1
      simpa using this
    unfold nchDecode
    rw [if_neg (by omega)]
    exact h2

/-- The octet after a bit is set. -/
theorem setBit_one (b : Byte) (k : Nat) (hk : k < 8) (v : Bitvec.BitVal) :
    setBit { cur := k, data := [b] } v =
      (0, { cur := k + 1, data := [(b &&& ~~~ (1#8 <<< (7 - k))) ||| Bitvec.bitval2mask v (7 - k)] }) := by
  have h0 : k / 8 = 0 := by omega
  have h1 : k % 8 = k := by omega
  simp [setBit, Bitvec.setBitPos, h0, h1, Bitvec.bitval2mask]

/-- One step of the loop over the bits of a number. -/
theorem loop_one (v : BitVec 64) (k c : Nat) (b : Byte) (hc : c < 8) (hk : k < 64) :
    Bitvec.setU64Loop v false (k + 1) ⟨c, [b]⟩ =
      Bitvec.setU64Loop v false k
        ⟨c + 1, [(b &&& ~~~ (1#8 <<< (7 - c))) ||| (if v.getLsbD k then 1#8 <<< (7 - c) else 0#8)]⟩ := by
  have hv := Bitvec.and_bit64_ne_zero v hk
  by_cases h : v.getLsbD k = true
  · have h' := hv.mpr h
    simp only [Bitvec.setU64Loop, if_pos h', Bool.false_eq_true, if_false, setBit_one b c hc, Bitvec.bitval2mask, if_pos h]
    simp
  · have h' := mt hv.mp h
    simp only [Bitvec.setU64Loop, if_neg h', Bool.false_eq_true, if_false, setBit_one b c hc, Bitvec.bitval2mask, if_neg h]
    simp

/-- The octet for the bits of the position. -/
def octet (d : Byte) (b4 b3 b2 b1 b0 is1800 : Bool) : Byte :=
  let put (d : Byte) (k : Nat) (b : Bool) : Byte := (d &&& ~~~ (1#8 <<< k)) ||| (if b then 1#8 <<< k else 0#8)
  put (put (put (put (put (put (put d 7 true) 6 b4) 5 b3) 4 b2) 3 b1) 2 b0) 1 is1800

theorem octet_bits (d : Byte) (b4 b3 b2 b1 b0 is1800 : Bool) :
    (octet d b4 b3 b2 b1 b0 is1800).getLsbD 7 = true ∧ (octet d b4 b3 b2 b1 b0 is1800).getLsbD 6 = b4 ∧
    (octet d b4 b3 b2 b1 b0 is1800).getLsbD 5 = b3 ∧ (octet d b4 b3 b2 b1 b0 is1800).getLsbD 4 = b2 ∧
    (octet d b4 b3 b2 b1 b0 is1800).getLsbD 3 = b1 ∧ (octet d b4 b3 b2 b1 b0 is1800).getLsbD 2 = b0 ∧
    (octet d b4 b3 b2 b1 b0 is1800).getLsbD 1 = is1800 ∧ (octet d b4 b3 b2 b1 b0 is1800).getLsbD 0 = d.getLsbD 0 := by
  revert d b4 b3 b2 b1 b0 is1800
  decide +kernel

theorem si1_octet (d n : Byte) (is1800 : Bool) :
    si1 d (some n) is1800 = [octet d (n.getLsbD 4) (n.getLsbD 3) (n.getLsbD 2) (n.getLsbD 1) (n.getLsbD 0) is1800] := by
  have e : ∀ k : Fin 5, ((n.setWidth 32).setWidth 64 : BitVec 64).getLsbD k.val = n.getLsbD k.val := by
    intro k
    have := k.isLt
    simp only [BitVec.getLsbD_setWidth]
    have h1 : k.val < 64 := by omega
    have h2 : k.val < 32 := by omega
    simp [h1, h2]
  have e4' : ((n.setWidth 32).setWidth 64 : BitVec 64).getLsbD 4 = n.getLsbD 4 := e 4
  have e3' : ((n.setWidth 32).setWidth 64 : BitVec 64).getLsbD 3 = n.getLsbD 3 := e 3
  have e2' : ((n.setWidth 32).setWidth 64 : BitVec 64).getLsbD 2 = n.getLsbD 2 := e 2
  have e1' : ((n.setWidth 32).setWidth 64 : BitVec 64).getLsbD 1 = n.getLsbD 1 := e 1
  have e0' : ((n.setWidth 32).setWidth 64 : BitVec 64).getLsbD 0 = n.getLsbD 0 := e 0
  have h5 : setUint ⟨1, [(d &&& ~~~ (1#8 <<< 7)) ||| Bitvec.bitval2mask .H 7]⟩ (n.setWidth 32) 5 =
      Bitvec.setU64Loop ((n.setWidth 32).setWidth 64) false (4 + 1)
        ⟨1, [(d &&& ~~~ (1#8 <<< 7)) ||| Bitvec.bitval2mask .H 7]⟩ := rfl
  cases is1800 <;> (
    simp only [si1, setBit_one d 0 (by omega), h5]
    rw [loop_one _ 4 1 _ (by omega) (by omega), loop_one _ 3 2 _ (by omega) (by omega),
      loop_one _ 2 3 _ (by omega) (by omega), loop_one _ 1 4 _ (by omega) (by omega),
      loop_one _ 0 5 _ (by omega) (by omega)]
    simp only [Bitvec.setU64Loop, e4', e3', e2', e1', e0', Bool.false_eq_true, if_false, if_true]
    rw [setBit_one _ 6 (by omega)]
    generalize n.getLsbD 4 = b4
    generalize n.getLsbD 3 = b3
    generalize n.getLsbD 2 = b2
    generalize n.getLsbD 1 = b1
    generalize n.getLsbD 0 = b0
    simp only [sparePadding, octet]
    rfl)

/-- **C169c.** With a position for the NCH: a 1, the five low bits of the position,
1 for a network at 1800 MHz.  The last bit, which is spare, is what the octet had
before, not the padding. -/
theorem si1_nch_partial (d n : Byte) (is1800 : Bool) :
    ∃ r, si1 d (some n) is1800 = [r] ∧ r.getLsbD 7 = true ∧ (∀ i, i < 5 → r.getLsbD (2 + i) = n.getLsbD i) ∧
      r.getLsbD 1 = is1800 ∧ r.getLsbD 0 = d.getLsbD 0 := by
  obtain ⟨h7, h6, h5, h4, h3, h2, h1, h0⟩ :=
    octet_bits d (n.getLsbD 4) (n.getLsbD 3) (n.getLsbD 2) (n.getLsbD 1) (n.getLsbD 0) is1800
  refine ⟨_, si1_octet d n is1800, h7, ?_, h1, h0⟩
  intro i hi
  match i, hi with
  | 0, _ => exact h2
  | 1, _ => exact h3
  | 2, _ => exact h4
  | 3, _ => exact h5
  | 4, _ => exact h6

/-- **C169d.** Without: a 0, 0 for a network at 1800 MHz, and padding but for the
last bit. -/
theorem si1_no_nch_partial (d : Byte) (is1800 : Bool) :
    si1 d none is1800 = [(if is1800 then 0x2a#8 else 0x6a#8) ||| (d &&& 1#8)] := by
  cases is1800 <;> (revert d; decide +kernel)

/-- The last bit is not padded: an octet that was zero ends in 0, where the padding
is 1. -/
theorem si1_padding_counterexample : si1 0#8 none true = [0x2a#8] ∧ si1 0x2b#8 none true = [0x2b#8] := by
  constructor <;> decide

/-- On a buffer with the padding, the position of the NCH is recovered. -/
theorem si1_position (num first : Nat) (v : Nat) (h : nchEncode num first = some v) (is1800 : Bool) :
    ∃ r : Byte, si1 0x2b#8 (some (BitVec.ofNat 8 v)) is1800 = [r] ∧
      nchDecode (r.toNat / 4 % 32) = some (num, first) := by
  have hd := (nch_inverse v num first).mpr h
  have hv : v < 28 := by
    unfold nchDecode at hd
    split at hd
    · cases hd
    · rename_i hv
      have hl : positions.length = 28 := by decide
      omega
  have key : ∀ v : Fin 28, ∀ b : Bool, ((si1 0x2b#8 (some (BitVec.ofNat 8 v.val)) b).map fun r => r.toNat / 4 % 32) = [v.val] := by
    decide +kernel
  have := key ⟨v, hv⟩ is1800
  rw [si1_octet] at this ⊢
  refine ⟨_, rfl, ?_⟩
  simp only [List.map_cons, List.map_nil, List.cons.injEq, and_true] at this
  rw [this]
  exact hd

/-- Two blocks from the fourth on. -/
example : nchEncode 2 3 = some 10 ∧ nchDecode 10 = some (2, 3) ∧ nchEncode 4 4 = none := by decide
example : si1 0x2b#8 (some 10#8) true = [0xab#8] := by decide

end Verif.RestOctets
