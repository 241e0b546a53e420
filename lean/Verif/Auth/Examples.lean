import Verif.Auth.Resync
import Verif.Auth.TuakClaims
/-!
The hypotheses of the claims on authentication vectors can be met: a toy cipher,
a subscriber, a vector, a resynchronisation.
-/
namespace Verif.Auth

/-- A toy cipher with blocks of 16 bytes. -/
def toyCipher : Cipher := fun k b =>
  (List.range 16).map fun i => k.getD i 0#8 + (b.getD i 0#8 ^^^ b.getD ((i + 5) % 16) 0#8) * 3#8 + BitVec.ofNat 8 i

theorem toyCipher_ok : IsCipher toyCipher := fun k b => by simp [toyCipher]

/-- A subscriber for Milenage, stored with OP. -/
def toyAud : Aud :=
  { type := .umts, opc := (List.range 32).map (BitVec.ofNat 8), opcLen := 16
    k := (List.range 32).map fun i => BitVec.ofNat 8 (7 * i), kLen := 16, amf := [0x80#8, 0#8]
    sqn := 95#64, opcIsOp := true, indBitlen := 5, ind := 3#32, sqnMs := 0#64, ki := [] }

theorem toyAud_ok : toyAud.Milenage := ⟨by decide, by decide, rfl, rfl, rfl⟩

/-- A RAND. -/
def toyRand : List Byte := (List.range 16).map fun i => BitVec.ofNat 8 (200 - 9 * i)

/-- An empty vector asking for a RES of 8 bytes. -/
def toyVec : Vec :=
  { rand := List.replicate 16 0#8, autn := List.replicate 16 0#8, ck := List.replicate 16 0#8
    ik := List.replicate 16 0#8, res := List.replicate 16 0#8, resLen := 8, kc := List.replicate 8 0#8
    sres := List.replicate 4 0#8, authTypes := 0 }

/-- The SQN after 95 = 2 * 32 + 31 in slot 3 is 3 * 32 + 3. -/
example : nextSqn toyAud = .ok 99#64 := by decide +kernel

example : ∃ v', osmoAuthGenVec2 (some (milenageGenVec toyCipher noFaults)) toyVec toyAud toyRand =
    (0, v', { toyAud with sqn := 99#64 }) ∧ (v'.autn.drop 6).take 2 = [0x80#8, 0#8] ∧
    v'.autn.take 6 ≠ [0#8, 0#8, 0#8, 0#8, 0#8, 99#8] := by
  refine ⟨_, rfl, ?_, ?_⟩ <;> decide +kernel

/-- The USIM takes the vector, and asks for resynchronisation when it has seen
SQN 99 before; the AUTS is accepted, and a changed AUTS is not. -/
example :
    let A := milenage toyCipher (toyAud.opcOf toyCipher) toyAud.key
    let v := (osmoAuthGenVec2 (some (milenageGenVec toyCipher noFaults)) toyVec toyAud toyRand).2.1
    A.usim [0#8, 0#8, 0#8, 0#8, 0#8, 98#8] toyRand v.autn = .ok (v.res.take 8) v.ck v.ik ∧
    A.usim [0#8, 0#8, 0#8, 0#8, 0#8, 99#8] toyRand v.autn =
      .syncFailure (A.auts [0#8, 0#8, 0#8, 0#8, 0#8, 99#8] toyRand) ∧
    ((osmoAuthGenVecAuts2 (some (milenageGenVecAuts toyCipher noFaults noFaults)) toyVec toyAud
      (A.auts [0#8, 0#8, 0#8, 0#8, 0#8, 99#8] toyRand) toyRand toyRand).map fun r => (r.1, r.2.2.sqn, r.2.2.sqnMs)) =
      some (0, 131#64, 99#64) ∧
    ((osmoAuthGenVecAuts2 (some (milenageGenVecAuts toyCipher noFaults noFaults)) toyVec toyAud
      ((A.auts [0#8, 0#8, 0#8, 0#8, 0#8, 99#8] toyRand).take 13 ++ [0x55#8]) toyRand toyRand).map fun r => r.1) =
      some (-1) := by
  decide +kernel

/-- A toy permutation for TUAK: rotation of the buffer. -/
def toyPerm : Perm := fun b => b.drop 67 ++ b.take 67

theorem toyPerm_ok : Computes toyPerm fun N => Verif.Endian.leVal (toyPerm (be N 200).reverse) := by
  intro b hb
  refine ⟨by simp [toyPerm]; omega, ?_⟩
  congr 2
  apply List.ext_getElem
  · simp [be_length, hb]
  · intro i h1 h2
    have := leVal_byte b i
    rw [List.getD_eq_getElem?_getD, List.getElem?_eq_getElem h1, Option.getD_some] at this
    rw [this, List.getElem_reverse]
    simp only [be, List.getElem_map, List.getElem_range, List.length_map, List.length_range]
    congr 3
    omega

/-- A subscriber for TUAK with a K of 32 bytes. -/
def toyTuakAud : Aud := { toyAud with opcLen := 32, kLen := 32 }

example : toyTuakAud.Tuak := ⟨by decide, by decide, rfl, .inr rfl, rfl⟩

example : (osmoAuthGenVec2 (some (tuakGenVec toyPerm 1)) toyVec toyTuakAud toyRand).1 = 0 ∧
    (osmoAuthGenVec2 (some (tuakGenVec toyPerm 1)) { toyVec with resLen := 5 } toyTuakAud toyRand).1 = -22 := by
  decide +kernel

end Verif.Auth
