import Verif.Common
/-!
Model of `src/gsm/tuak/KeccakP-1600-3gpp.c`, the 64 bit version (the one
`tuak.c:75` uses), as it stands: in place on 25 lanes.
-/
namespace Verif.Auth

/-- A lane, `uint64_t`. -/
abbrev Lane := BitVec 64

/-- KeccakP-1600-3gpp.c:12-13 `Rho`. -/
def kRho : List Nat :=
  [0, 1, 62, 28, 27, 36, 44, 6, 55, 20, 3, 10, 43, 25, 39, 41, 45, 15, 21, 8, 18, 2, 61, 56, 14]

/-- KeccakP-1600-3gpp.c:15-16 `Pi`. -/
def kPi : List Nat :=
  [0, 6, 12, 18, 24, 3, 9, 10, 16, 22, 1, 7, 13, 19, 20, 4, 5, 11, 17, 23, 2, 8, 14, 15, 21]

/-- KeccakP-1600-3gpp.c:18-19 `Iota`. -/
def kIota : List Nat :=
  [1, 146, 218, 112, 155, 33, 241, 89, 138, 136, 57, 42, 187, 203, 217, 83, 82, 192, 26, 106, 241,
   208, 33, 120]

/-- KeccakP-1600-3gpp.c:21-22 `ROTATE64`. -/
def rotate64 (v : Lane) (n : Nat) : Lane := (v <<< n) ||| (v >>> (64 - n))

/-- `s[i]`. -/
def lane (s : List Lane) (i : Nat) : Lane := s.getD i 0#64

/-- KeccakP-1600-3gpp.c:34-35: the column sums `t`. -/
def thetaT (s : List Lane) : List Lane :=
  (List.range 5).map fun i =>
    lane s i ^^^ lane s (5 + i) ^^^ lane s (10 + i) ^^^ lane s (15 + i) ^^^ lane s (20 + i)

/-- KeccakP-1600-3gpp.c:33-43: theta. -/
def kTheta (s : List Lane) : List Lane :=
  let t := thetaT s
  (List.range 5).foldl (fun s r =>
    let s := s.set (5 * r + 0) (lane s (5 * r + 0) ^^^ (lane t 4 ^^^ rotate64 (lane t 1) 1))
    let s := s.set (5 * r + 1) (lane s (5 * r + 1) ^^^ (lane t 0 ^^^ rotate64 (lane t 2) 1))
    let s := s.set (5 * r + 2) (lane s (5 * r + 2) ^^^ (lane t 1 ^^^ rotate64 (lane t 3) 1))
    let s := s.set (5 * r + 3) (lane s (5 * r + 3) ^^^ (lane t 2 ^^^ rotate64 (lane t 4) 1))
    s.set (5 * r + 4) (lane s (5 * r + 4) ^^^ (lane t 3 ^^^ rotate64 (lane t 0) 1))) s

/-- KeccakP-1600-3gpp.c:45-47: rho. -/
def kRhoStep (s : List Lane) : List Lane :=
  (List.range 24).foldl (fun s i => s.set (i + 1) (rotate64 (lane s (i + 1)) (kRho.getD (i + 1) 0))) s

/-- KeccakP-1600-3gpp.c:50: the loop along the cycle of pi, from lane `i`. -/
def kPiLoop : Nat → List Lane → Nat → List Lane × Nat
  | 0, s, i => (s, i)
  | fuel + 1, s, i =>
    let j := kPi.getD i 0
    if j > 1 then kPiLoop fuel (s.set i (lane s j)) j else (s, i)

/-- KeccakP-1600-3gpp.c:49-51: pi. -/
def kPiStep (s : List Lane) : List Lane :=
  let t1 := lane s 1
  let (s, i) := kPiLoop 25 s 1
  s.set i t1

/-- KeccakP-1600-3gpp.c:55-60: chi on the row at `b`. -/
def kChiRow (s : List Lane) (b : Nat) : List Lane :=
  let t0 := ~~~(lane s (b + 1)) &&& lane s (b + 2)
  let t1 := ~~~(lane s (b + 2)) &&& lane s (b + 3)
  let t2 := ~~~(lane s (b + 3)) &&& lane s (b + 4)
  let t3 := ~~~(lane s (b + 4)) &&& lane s (b + 0)
  let t4 := ~~~(lane s (b + 0)) &&& lane s (b + 1)
  let t := [t0, t1, t2, t3, t4]
  (List.range 5).foldl (fun s j => s.set (b + j) (lane s (b + j) ^^^ lane t j)) s

/-- KeccakP-1600-3gpp.c:53-62: chi. -/
def kChi (s : List Lane) : List Lane :=
  (List.range 5).foldl (fun s r => kChiRow s (5 * r)) s

/-- KeccakP-1600-3gpp.c:65-67: the constant of a round. -/
def kIotaConst (round : Nat) : Lane :=
  let t0 : Lane := BitVec.ofNat 64 (kIota.getD round 0)
  (t0 ||| (t0 <<< 11) ||| (t0 <<< 26) ||| (t0 <<< 57)) &&& 0x800000008000808B#64

/-- KeccakP-1600-3gpp.c:64-67: iota. -/
def kIotaStep (round : Nat) (s : List Lane) : List Lane :=
  s.set 0 (lane s 0 ^^^ kIotaConst round)

/-- KeccakP-1600-3gpp.c:33-67: one round. -/
def kRound (s : List Lane) (round : Nat) : List Lane :=
  kIotaStep round (kChi (kPiStep (kRhoStep (kTheta s))))

/-- KeccakP-1600-3gpp.c:28-69 `Keccak_f_64`. -/
def keccakF64 (s : List Lane) : List Lane := (List.range 24).foldl kRound s

/-! ### FIPS 202 -/

/-- FIPS 202 3.1.2: a state is an array of lanes, `A x y`. -/
abbrev State := Nat → Nat → Lane

/-- FIPS 202 3.2.1: theta, on whole lanes. -/
def sTheta (A : State) : State := fun x y =>
  let C := fun x => A x 0 ^^^ A x 1 ^^^ A x 2 ^^^ A x 3 ^^^ A x 4
  A x y ^^^ (C ((x + 4) % 5) ^^^ (C ((x + 1) % 5)).rotateLeft 1)

/-- FIPS 202 3.2.2: the offsets of rho, by walking (x, y) := (y, 2x + 3y) from
(1, 0); offset (t+1)(t+2)/2 at step t. -/
def rhoWalk (X Y : Nat) : Nat → Nat → Nat → Nat → Nat
  | 0, _, _, _ => 0
  | n + 1, t, x, y =>
    if x = X ∧ y = Y then ((t + 1) * (t + 2) / 2) % 64 else rhoWalk X Y n (t + 1) y ((2 * x + 3 * y) % 5)

/-- FIPS 202 3.2.2: the offset of a lane. -/
def rhoOffset (x y : Nat) : Nat := rhoWalk x y 24 0 1 0

/-- FIPS 202 3.2.2: rho. -/
def sRho (A : State) : State := fun x y => (A x y).rotateLeft (rhoOffset x y)

/-- FIPS 202 3.2.3: pi. -/
def sPi (A : State) : State := fun x y => A ((x + 3 * y) % 5) x

/-- FIPS 202 3.2.4: chi. -/
def sChi (A : State) : State := fun x y =>
  A x y ^^^ ((A ((x + 1) % 5) y ^^^ BitVec.allOnes 64) &&& A ((x + 2) % 5) y)

/-- FIPS 202 3.2.5 algorithm 5: the shift register of rc, after `t` steps (bit i
of the number is R[i]). -/
def rcReg : Nat → Nat
  | 0 => 1
  | t + 1 =>
    let r := 2 * rcReg t
    if r.testBit 8 then (r ^^^ 0x171) % 256 else r

/-- FIPS 202 3.2.5: the round constant, bit 2^j - 1 is rc(j + 7 i). -/
def roundConst (i : Nat) : Lane :=
  (List.range 7).foldl (fun acc j => if (rcReg ((j + 7 * i) % 255)).testBit 0 then acc ||| (1#64 <<< (2 ^ j - 1)) else acc) 0#64

/-- FIPS 202 3.2.5: iota. -/
def sIota (i : Nat) (A : State) : State := fun x y =>
  if x = 0 ∧ y = 0 then A x y ^^^ roundConst i else A x y

/-- FIPS 202 3.3: a round of Keccak-p[1600]. -/
def sRound (A : State) (i : Nat) : State := sIota i (sChi (sPi (sRho (sTheta A))))

/-- FIPS 202 3.4: Keccak-f[1600], 24 rounds. -/
def keccakF (A : State) : State := (List.range 24).foldl sRound A

/-- Lane (x, y) is `s[x + 5 y]`. -/
def stateOf (s : List Lane) : State := fun x y => lane s (x + 5 * y)

end Verif.Auth
