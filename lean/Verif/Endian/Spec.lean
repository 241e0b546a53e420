import Verif.Common
/-! Specification vocabulary for C50: numeric value of a byte string. -/
namespace Verif.Endian

/-- Numeric value of a byte string, least significant byte first. -/
def leVal : List Byte → Nat
  | [] => 0
  | b :: q => b.toNat + 256 * leVal q

/-- Numeric value of a byte string, most significant byte first. -/
def beVal (q : List Byte) : Nat := q.foldl (fun acc b => acc * 256 + b.toNat) 0

end Verif.Endian
