import Verif.Common
import Verif.Endian.Spec
/-!
What authentication and key agreement is to be, after 3GPP TS 33.102 (the
protocol between home environment and USIM) and TS 35.206 (Milenage), written
without looking at the code: exclusive or of byte strings, rotation of a byte
string, the value of a byte string.
-/
namespace Verif.Auth
open Verif.Endian (beVal)

/-- Exclusive or of two byte strings. -/
def bx (a b : List Byte) : List Byte := List.zipWith (· ^^^ ·) a b

/-- TS 35.206 rot(x, r): cyclic rotation by `n` = r/8 bytes towards the most
significant bit. -/
def rot (x : List Byte) (n : Nat) : List Byte := x.drop n ++ x.take n

/-- TS 35.206: the constants c1..c5, 128 bits with one low bit set. -/
def cst (c : Byte) : List Byte := List.replicate 15 0#8 ++ [c]

/-- The seven functions of TS 33.102 for one subscriber. -/
structure Aka where
  /-- f1: SQN, AMF, RAND to MAC-A -/
  f1 : List Byte → List Byte → List Byte → List Byte
  /-- f1*: SQN, AMF, RAND to MAC-S -/
  f1s : List Byte → List Byte → List Byte → List Byte
  /-- f2: RAND to RES -/
  f2 : List Byte → List Byte
  /-- f3: RAND to CK -/
  f3 : List Byte → List Byte
  /-- f4: RAND to IK -/
  f4 : List Byte → List Byte
  /-- f5: RAND to AK -/
  f5 : List Byte → List Byte
  /-- f5*: RAND to AK of the resynchronisation -/
  f5s : List Byte → List Byte

/-- TS 33.102 6.3.2: the AUTN of a vector. -/
def Aka.autn (A : Aka) (sqn amf rand : List Byte) : List Byte :=
  bx sqn (A.f5 rand) ++ amf ++ A.f1 sqn amf rand

/-- TS 33.102 6.3.3: the AUTS of a USIM with the given SQN_MS. -/
def Aka.auts (A : Aka) (sqnMs rand : List Byte) : List Byte :=
  bx sqnMs (A.f5s rand) ++ A.f1s sqnMs [0#8, 0#8] rand

/-- What a USIM answers. -/
inductive Answer
  | macFailure
  | syncFailure (auts : List Byte)
  | ok (res ck ik : List Byte)
deriving DecidableEq

/-- TS 33.102 6.3.3: the USIM verifies MAC-A first, then the freshness of SQN
(here: greater than the SQN_MS it has accepted last). -/
def Aka.usim (A : Aka) (sqnMs rand autn : List Byte) : Answer :=
  let sqn := bx (autn.take 6) (A.f5 rand)
  let amf := (autn.drop 6).take 2
  if A.f1 sqn amf rand ≠ autn.drop 8 then .macFailure
  else if beVal sqn ≤ beVal sqnMs then .syncFailure (A.auts sqnMs rand)
  else .ok (A.f2 rand) (A.f3 rand) (A.f4 rand)

/-- TS 35.206 4.1: TEMP. -/
def mTemp (E : List Byte → List Byte → List Byte) (opc k rand : List Byte) : List Byte :=
  E k (bx rand opc)

/-- TS 35.206 4.1: OUT1, with r1 = 64 and c1 = 0. -/
def mOut1 (E : List Byte → List Byte → List Byte) (opc k rand sqn amf : List Byte) : List Byte :=
  bx (E k (bx (bx (mTemp E opc k rand) (rot (bx (sqn ++ amf ++ sqn ++ amf) opc) 8)) (cst 0#8))) opc

/-- TS 35.206 4.1: OUT2..OUT5 with their rotation and constant. -/
def mOut (E : List Byte → List Byte → List Byte) (opc k rand : List Byte) (r : Nat) (c : Byte) :
    List Byte :=
  bx (E k (bx (rot (bx (mTemp E opc k rand) opc) r) (cst c))) opc

/-- TS 35.206 4.1: the Milenage algorithms with OPc and K. -/
def milenage (E : List Byte → List Byte → List Byte) (opc k : List Byte) : Aka where
  f1 sqn amf rand := (mOut1 E opc k rand sqn amf).take 8
  f1s sqn amf rand := (mOut1 E opc k rand sqn amf).drop 8
  f2 rand := (mOut E opc k rand 0 1#8).drop 8
  f3 rand := mOut E opc k rand 4 2#8
  f4 rand := mOut E opc k rand 8 4#8
  f5 rand := (mOut E opc k rand 0 1#8).take 6
  f5s rand := (mOut E opc k rand 12 8#8).take 6

/-- TS 35.206 4.1: OPc = OP xor E[OP]_K. -/
def mOpc (E : List Byte → List Byte → List Byte) (k op : List Byte) : List Byte := bx (E k op) op

end Verif.Auth
