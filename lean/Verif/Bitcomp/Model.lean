import Verif.Bitvec.Model
/-!
Model of src/core/bitcomp.c: run length coding of a bit vector with the code
words of 3GPP TS 44.060 table 9.1.10.2 ("modified T.4").  The vectors are those
of `Verif.Bitvec`.  Reads outside the constant tables are `none`.
-/
namespace Verif.Bitcomp
open Verif.Bitvec

/-- src/core/bitcomp.c:39-172 `t4_term` -/
def t4Term : Bool → List Nat
  | false =>
    [0b0000110111, 0b10, 0b11, 0b010, 0b011, 0b0011, 0b0010, 0b00011, 0b000101, 0b000100,
     0b0000100, 0b0000101, 0b0000111, 0b00000100, 0b00000111, 0b000011000, 0b0000010111,
     0b0000011000, 0b0000001000, 0b00001100111, 0b00001101000, 0b00001101100, 0b00000110111,
     0b00000101000, 0b00000010111, 0b00000011000, 0b000011001010, 0b000011001011, 0b000011001100,
     0b000011001101, 0b000001101000, 0b000001101001, 0b000001101010, 0b000001101011,
     0b000011010010, 0b000011010011, 0b000011010100, 0b000011010101, 0b000011010110,
     0b000011010111, 0b000001101100, 0b000001101101, 0b000011011010, 0b000011011011,
     0b000001010100, 0b000001010101, 0b000001010110, 0b000001010111, 0b000001100100,
     0b000001100101, 0b000001010010, 0b000001010011, 0b000000100100, 0b000000110111,
     0b000000111000, 0b000000100111, 0b000000101000, 0b000001011000, 0b000001011001,
     0b000000101011, 0b000000101100, 0b000001011010, 0b000001100110, 0b000001100111]
  | true =>
    [0b00110101, 0b000111, 0b0111, 0b1000, 0b1011, 0b1100, 0b1110, 0b1111, 0b10011, 0b10100,
     0b00111, 0b01000, 0b001000, 0b000011, 0b110100, 0b110101, 0b101010, 0b101011, 0b0100111,
     0b0001100, 0b0001000, 0b0010111, 0b0000011, 0b0000100, 0b0101000, 0b0101011, 0b0010011,
     0b0100100, 0b0011000, 0b00000010, 0b00000011, 0b00011010, 0b00011011, 0b00010010, 0b00010011,
     0b00010100, 0b00010101, 0b00010110, 0b00010111, 0b00101000, 0b00101001, 0b00101010,
     0b00101011, 0b00101100, 0b00101101, 0b00000100, 0b00000101, 0b00001010, 0b00001011,
     0b01010010, 0b01010011, 0b01010100, 0b01010101, 0b00100100, 0b00100101, 0b01011000,
     0b01011001, 0b01011010, 0b01011011, 0b01001010, 0b01001011, 0b00110010, 0b00110011, 0b00110100]

/-- src/core/bitcomp.c:174-177 `t4_term_length` -/
def t4TermLength : Bool → List Nat
  | false =>
    [10, 2, 2, 3, 3, 4, 4, 5, 6, 6, 7, 7, 7, 8, 8, 9, 10, 10, 10, 11, 11, 11, 11, 11, 11, 11, 12,
     12, 12, 12, 12, 12, 12, 12, 12, 12, 12, 12, 12, 12, 12, 12, 12, 12, 12, 12, 12, 12, 12, 12,
     12, 12, 12, 12, 12, 12, 12, 12, 12, 12, 12, 12, 12, 12]
  | true =>
    [8, 6, 4, 4, 4, 4, 4, 4, 5, 5, 5, 5, 6, 6, 6, 6, 6, 6, 7, 7, 7, 7, 7, 7, 7, 7, 7, 7, 7, 8, 8,
     8, 8, 8, 8, 8, 8, 8, 8, 8, 8, 8, 8, 8, 8, 8, 8, 8, 8, 8, 8, 8, 8, 8, 8, 8, 8, 8, 8, 8, 8, 8,
     8, 8]

/-- src/core/bitcomp.c:184-219 `t4_make_up` -/
def t4MakeUp : Bool → List Nat
  | false =>
    [0b0000001111, 0b000011001000, 0b000011001001, 0b000001011011, 0b000000110011, 0b000000110100,
     0b000000110101, 0b0000001101100, 0b0000001101101, 0b0000001001010, 0b0000001001011,
     0b0000001001100, 0b0000001001101, 0b0000001110010, 0b0000001110011]
  | true =>
    [0b11011, 0b10010, 0b010111, 0b0110111, 0b00110110, 0b00110111, 0b01100100, 0b01100101,
     0b01101000, 0b01100111, 0b011001100, 0b011001101, 0b011010010, 0b011010011, 0b011010100]

/-- src/core/bitcomp.c:179-182 `t4_make_up_length` -/
def t4MakeUpLength : Bool → List Nat
  | false =>
    [10, 12, 12, 12, 12, 12, 12, 13, 13, 13, 13, 13, 13, 13, 13]
  | true =>
    [5, 5, 6, 7, 8, 8, 8, 8, 8, 8, 9, 9, 9, 9, 9]

/-- one `bitvec_set_uint(bv, tab[b][i], len[b][i])` as in src/core/bitcomp.c:229-230;
the return code is not looked at by any caller -/
def put (bv : BV) (tab len : List Nat) (i : Nat) : Option BV :=
  match tab[i]?, len[i]? with
  | some v, some n => some (setUint bv (BitVec.ofNat 32 v) n).2
  | _, _ => none

/-- src/core/bitcomp.c:228-301: index of the make-up code; the fifteen tests
`len >= 960`, `len >= 896`, … `len >= 64` are written as one division -/
def makeUpIdx (len : Nat) : Nat := if len ≥ 960 then 14 else len / 64 - 1

/-- src/core/bitcomp.c:226-304 `t4_rle` -/
def t4Rle (bv : BV) (len : Nat) (b : Bool) : Option BV :=
  if len ≥ 64 then
    (put bv (t4MakeUp b) (t4MakeUpLength b) (makeUpIdx len)).bind fun bv' =>
      put bv' (t4Term b) (t4TermLength b) (len - 64 * (makeUpIdx len + 1))
  else put bv (t4Term b) (t4TermLength b) len

/-- src/core/bitcomp.c:327-341: loop of `osmo_t4_encode`, result is `comp`.
`fuel` bounds the number of rounds (each takes at least one bit off `vec`);
running out of it counts as not terminating. -/
def t4Loop : Nat → BV → BV → Nat → Nat → Option BV
  | fuel, vec, comp, rl0, rl1 =>
    if vec.cur > 0 then
      match fuel with
      | 0 => none
      | fuel + 1 =>
        (shiftl vec (if rl0 > rl1 then rl0 else rl1)).bind fun vec' =>
        (t4Rle comp (if rl0 > rl1 then rl0 else rl1) (!decide (rl0 > rl1))).bind fun comp' =>
        (rl vec' false).bind fun r0 =>
        (rl vec' true).bind fun r1 => t4Loop fuel vec' comp' r0 r1
    else some comp

/-- src/core/bitcomp.c:312-348 `osmo_t4_encode`: return value and the vector -/
def t4Encode (bv : BV) : Option (Int × BV) :=
  (rl bv false).bind fun rl0 =>
  (rl bv true).bind fun rl1 =>
  (t4Loop bv.cur bv ⟨0, List.replicate (2 * bv.data.length) 0#8⟩ rl0 rl1).map fun comp =>
    if comp.cur < bv.cur then
      (if rl0 > rl1 then 0 else 1, ⟨comp.cur, comp.data.take bv.data.length⟩)
    else (-1, bv)

end Verif.Bitcomp
