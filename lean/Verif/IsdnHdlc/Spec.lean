import Verif.IsdnHdlc.Model
import Verif.Bits.Props
/-!
HDLC framing on the bit level, independent of src/core/isdnhdlc.c.
-/
namespace Verif.IsdnHdlc

open Verif.Bits (revbytebits8)
open Verif.Crc (crc16CcittByte)

/-- The bits of an octet, the lowest one first. -/
def lsbBits (b : Byte) : List Bool := (List.range 8).map (fun i => b.getLsbD i)

/-- The bits of an octet, the highest one first. -/
def msbBits (b : Byte) : List Bool := (List.range 8).map (fun i => b.getLsbD (7 - i))

/-- The bits of the octets of a buffer in the order of the line: lowest bit first, or
highest bit first with OSMO_HDLC_F_BITREVERSE. -/
def lineBits (rev : Bool) (bytes : List Byte) : List Bool := bytes.flatMap (if rev then msbBits else lsbBits)

/-- Bit stuffing: a zero after five ones in a row; `n` ones came before. -/
def stuff : Nat → List Bool → List Bool
  | _, [] => []
  | n, true :: bs => if n + 1 = 5 then true :: false :: stuff 0 bs else true :: stuff (n + 1) bs
  | _, false :: bs => false :: stuff 0 bs

/-- The flag. -/
def flag : List Bool := [false, true, true, true, true, true, true, false]

/-- The frame check sequence: complement of the CRC, low octet first. -/
def fcs (payload : List Byte) : List Byte :=
  let c := ~~~(payload.foldl crc16CcittByte 0xffff#16)
  [c.setWidth 8, (c >>> 8).setWidth 8]

/-- Payload and frame check sequence as they are on the line. -/
def frameBits (payload : List Byte) : List Bool := stuff 0 ((payload ++ fcs payload).flatMap lsbBits)

theorem stuff_runs (bits : List Bool) : ∀ n, n < 5 →
    (∀ i, ∃ k, k < 6 ∧ (stuff n bits)[i + k]? ≠ some true) ∧ ∃ k, k ≤ 5 - n ∧ (stuff n bits)[k]? ≠ some true := by
  induction bits with
  | nil => exact fun n h => ⟨fun i => ⟨0, by omega, by simp [stuff]⟩, 0, by omega, by simp [stuff]⟩
  | cons b bits ih =>
    intro n h
    cases b with
    | false =>
      refine ⟨fun i => ?_, 0, by omega, by simp [stuff]⟩
      cases i with
      | zero => exact ⟨0, by omega, by simp [stuff]⟩
      | succ i =>
        obtain ⟨k, h1, h2⟩ := (ih 0 (by omega)).1 i
        refine ⟨k, h1, ?_⟩
        rw [show i + 1 + k = (i + k) + 1 from by omega]
        simpa [stuff] using h2
    | true =>
      by_cases h5 : n + 1 = 5
      · simp only [stuff, if_pos h5]
        refine ⟨fun i => ?_, 1, by omega, by simp⟩
        match i with
        | 0 => exact ⟨1, by omega, by simp⟩
        | 1 => exact ⟨0, by omega, by simp⟩
        | i + 2 =>
          obtain ⟨k, h1, h2⟩ := (ih 0 (by omega)).1 i
          refine ⟨k, h1, ?_⟩
          rw [show i + 2 + k = (i + k) + 2 from by omega]
          simpa using h2
      · simp only [stuff, if_neg h5]
        obtain ⟨ih1, k0, hk0, hk1⟩ := ih (n + 1) (by omega)
        refine ⟨fun i => ?_, k0 + 1, by omega, by simpa using hk1⟩
        cases i with
        | zero => exact ⟨k0 + 1, by omega, by simpa using hk1⟩
        | succ i =>
          obtain ⟨k, h1, h2⟩ := ih1 i
          refine ⟨k, h1, ?_⟩
          rw [show i + 1 + k = (i + k) + 1 from by omega]
          simpa using h2

/-- C45: a frame never has six ones in a row between its flags. -/
theorem frame_no_six_ones (payload : List Byte) (i : Nat) : ∃ k, k < 6 ∧ (frameBits payload)[i + k]? ≠ some true :=
  (stuff_runs _ 0 (by omega)).1 i

example : frameBits [0xff] =
    [true, true, true, true, true, false, true, true, true] ++
    [false, false, false, false, false, false, false, false] ++
    [true, true, true, true, true, false, true, true, true] := by decide +kernel

/-! ### Octets and bits of the C code -/

/-- The first `n` bits of `cbin`, as the decoder takes them. -/
def pend (c : Byte) : Nat → List Bool
  | 0 => []
  | n + 1 => c.getLsbD 7 :: pend (c <<< 1) n

/-- The octet as the code sees it. -/
def conv (rev : Bool) (b : Byte) : Byte := if rev then b else revbytebits8 b

theorem conv_conv (rev : Bool) (b : Byte) : conv rev (conv rev b) = b := by
  cases rev
  · exact Bits.revbytebits_8_involutive b
  · rfl

theorem pend_length (c : Byte) (n : Nat) : (pend c n).length = n := by
  induction n generalizing c with
  | zero => rfl
  | succ n ih => simp [pend, ih]

theorem byte_forall {p : Byte → Prop} [DecidablePred p] (h : ∀ x : Fin 256, p (BitVec.ofFin (w := 8) x)) (b : Byte) : p b :=
  h b.toFin

theorem pend_eq (rev : Bool) (b : Byte) : pend (conv rev b) 8 = if rev then msbBits b else lsbBits b := by
  cases rev
  · have := byte_forall (p := fun b => pend (conv false b) 8 = lsbBits b) (by decide +kernel) b
    simpa using this
  · have := byte_forall (p := fun b => pend (conv true b) 8 = msbBits b) (by decide +kernel) b
    simpa using this

theorem lineBits_nil (rev : Bool) : lineBits rev [] = [] := rfl

theorem lineBits_cons (rev : Bool) (b : Byte) (l : List Byte) : lineBits rev (b :: l) = pend (conv rev b) 8 ++ lineBits rev l := by
  rw [pend_eq]
  cases rev <;> rfl

theorem lineBits_append (rev : Bool) (l m : List Byte) : lineBits rev (l ++ m) = lineBits rev l ++ lineBits rev m := by
  simp [lineBits]

theorem lineBits_length (rev : Bool) (l : List Byte) : (lineBits rev l).length = 8 * l.length := by
  induction l with
  | nil => rfl
  | cons b l ih => rw [lineBits_cons, List.length_append, pend_length, ih, List.length_cons]; omega

/-- The residue of the CRC after the frame check sequence. -/
theorem crc_residue (payload : List Byte) : (payload ++ fcs payload).foldl crc16CcittByte 0xffff#16 = 0xf0b8#16 := by
  rw [List.foldl_append]
  unfold fcs
  generalize payload.foldl crc16CcittByte 0xffff#16 = c
  simp only [List.foldl_cons, List.foldl_nil]
  have h1 : (c ^^^ ((~~~c).setWidth 8).setWidth 16) &&& 0xff#16 = 0xff#16 := by
    ext i hi
    by_cases h : i < 8
    · simp only [BitVec.getElem_and, BitVec.getElem_xor, BitVec.getElem_setWidth, BitVec.getLsbD_setWidth, h]
      have h2 : (0xff#16)[i] = true := by
        have := (by decide : ∀ j : Fin 8, (0xff#16).getLsbD j.val = true) ⟨i, h⟩
        rwa [BitVec.getLsbD_eq_getElem hi] at this
      rw [h2]
      simp [hi]
    · have h2 : (0xff#16)[i] = false := by
        have := (by decide : ∀ j : Fin 16, 8 ≤ j.val → (0xff#16).getLsbD j.val = false) ⟨i, hi⟩ (by simpa using h)
        rwa [BitVec.getLsbD_eq_getElem hi] at this
      simp only [BitVec.getElem_and, h2, Bool.and_false]
  have h3 : crc16CcittByte c ((~~~c).setWidth 8) = (c >>> 8) ^^^ 0x0f78#16 := by
    unfold crc16CcittByte; rw [h1]; rfl
  rw [h3]
  have h4 : (((c >>> 8) ^^^ 0x0f78#16) ^^^ ((~~~c >>> 8).setWidth 8).setWidth 16) &&& 0xff#16 = 0x87#16 := by
    ext i hi
    by_cases h : i < 8
    · have h2 : (0xff#16)[i] = true := by
        have := (by decide : ∀ j : Fin 8, (0xff#16).getLsbD j.val = true) ⟨i, h⟩
        rwa [BitVec.getLsbD_eq_getElem hi] at this
      have h5 : (0x0f78#16)[i] = !(0x87#16)[i] := by
        have := (by decide : ∀ j : Fin 8, (0x0f78#16).getLsbD j.val = !(0x87#16).getLsbD j.val) ⟨i, h⟩
        rwa [BitVec.getLsbD_eq_getElem hi, BitVec.getLsbD_eq_getElem hi] at this
      have h6 : 8 + i < 16 := by omega
      simp [h2, h5, h, h6]
      generalize c[8 + i] = x
      generalize (135#16)[i] = y
      cases x <;> cases y <;> rfl
    · have h2 : (0xff#16)[i] = false := by
        have := (by decide : ∀ j : Fin 16, 8 ≤ j.val → (0xff#16).getLsbD j.val = false) ⟨i, hi⟩ (by simpa using h)
        rwa [BitVec.getLsbD_eq_getElem hi] at this
      have h5 : (0x87#16)[i] = false := by
        have := (by decide : ∀ j : Fin 16, 8 ≤ j.val → (0x87#16).getLsbD j.val = false) ⟨i, hi⟩ (by simpa using h)
        rwa [BitVec.getLsbD_eq_getElem hi] at this
      simp only [BitVec.getElem_and, h2, h5, Bool.and_false]
  have h5 : ((c >>> 8) ^^^ 0x0f78#16) >>> 8 = 0x0f#16 := by
    ext i hi
    have h6 : (0x0f78#16).getLsbD (8 + i) = (0x0f#16)[i] := by
      have := (by decide : ∀ j : Fin 16, (0x0f78#16).getLsbD (8 + j.val) = (0x0f#16).getLsbD j.val) ⟨i, hi⟩
      rwa [BitVec.getLsbD_eq_getElem hi] at this
    rw [BitVec.getElem_ushiftRight, BitVec.getLsbD_xor, h6, BitVec.getLsbD_ushiftRight, BitVec.getLsbD_of_ge c _ (by omega)]
    simp
  unfold crc16CcittByte
  rw [h4, h5]
  rfl

end Verif.IsdnHdlc
