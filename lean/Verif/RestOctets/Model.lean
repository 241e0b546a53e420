import Verif.Bitvec.Model
/-!
Model of the SI1 rest octets and the position of the NCH,
`src/gsm/gsm48_rest_octets.c`.
-/
namespace Verif.RestOctets
open Verif.Bitvec (BV setBit setUint sparePadding)

/-- gsm48_rest_octets.c:38-60, `osmo_gsm48_rest_octets_si1_encode`: the octet at
`data`, which is `d` before; the results of the calls are not checked. -/
def si1 (d : Byte) (nch : Option Byte) (is1800 : Bool) : List Byte :=
  let bv : BV := { cur := 0, data := [d] }
  let bv := match nch with
    | some n => (setUint (setBit bv .H).2 (n.setWidth 32) 5).2
    | none => (setBit bv .L).2
  let bv := if is1800 then (setBit bv .L).2 else (setBit bv .H).2
  (sparePadding bv 6).2.data

/-- gsm48_rest_octets.c:68-103, `si1ro_nch_positions`. -/
def positions : List (Nat × Nat) :=
  [(1, 0), (1, 1), (1, 2), (1, 3), (1, 4), (1, 5), (1, 6),
   (2, 0), (2, 1), (2, 2), (2, 3), (2, 4), (2, 5),
   (3, 0), (3, 1), (3, 2), (3, 3), (3, 4),
   (4, 0), (4, 1), (4, 2), (4, 3),
   (5, 0), (5, 1), (5, 2),
   (6, 0), (6, 1),
   (7, 0)]

/-- gsm48_rest_octets.c:110-119, `osmo_gsm48_si1ro_nch_pos_decode`; `none` is -EINVAL. -/
def nchDecode (value : Nat) : Option (Nat × Nat) :=
  if value ≥ positions.length then none else positions[value]?

/-- gsm48_rest_octets.c:129-134, the loop over the table from index `i` on. -/
def nchLoop (num first : Nat) : List (Nat × Nat) → Nat → Option Nat
  | [], _ => none
  | p :: ps, i => if p.1 = num ∧ p.2 = first then some i else nchLoop num first ps (i + 1)

/-- gsm48_rest_octets.c:125-136, `osmo_gsm48_si1ro_nch_pos_encode`; `none` is -EINVAL. -/
def nchEncode (num first : Nat) : Option Nat := nchLoop num first positions 0

end Verif.RestOctets
