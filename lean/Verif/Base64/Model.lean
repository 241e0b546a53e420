import Verif.Common
/-!
Model of src/core/base64.c.

Lengths are natural numbers: `slen << 3` and `n * 6` do not wrap for any object
that fits into memory (below 2^61 bytes).
-/
namespace Verif.Base64

/-- src/core/base64.c:25-33 `base64_enc_map`. -/
def base64_enc_map : List Byte :=
  [65, 66, 67, 68, 69, 70, 71, 72, 73, 74, 75, 76, 77, 78, 79, 80, 81, 82, 83, 84, 85, 86, 87, 88, 89, 90,
   97, 98, 99, 100, 101, 102, 103, 104, 105, 106, 107, 108, 109, 110, 111, 112, 113, 114, 115, 116, 117, 118, 119,
   120, 121, 122, 48, 49, 50, 51, 52, 53, 54, 55, 56, 57, 43, 47]

/-- src/core/base64.c:35-49 `base64_dec_map`. -/
def base64_dec_map : List Nat :=
  [127, 127, 127, 127, 127, 127, 127, 127, 127, 127,
   127, 127, 127, 127, 127, 127, 127, 127, 127, 127,
   127, 127, 127, 127, 127, 127, 127, 127, 127, 127,
   127, 127, 127, 127, 127, 127, 127, 127, 127, 127,
   127, 127, 127, 62, 127, 127, 127, 63, 52, 53,
   54, 55, 56, 57, 58, 59, 60, 61, 127, 127,
   127, 64, 127, 127, 127, 0, 1, 2, 3, 4,
   5, 6, 7, 8, 9, 10, 11, 12, 13, 14,
   15, 16, 17, 18, 19, 20, 21, 22, 23, 24,
   25, 127, 127, 127, 127, 127, 127, 26, 27, 28,
   29, 30, 31, 32, 33, 34, 35, 36, 37, 38,
   39, 40, 41, 42, 43, 44, 45, 46, 47, 48,
   49, 50, 51, 127, 127, 127, 127, 127]

/-- A look-up in the first table, always below 64. -/
def enc (i : Nat) : Byte := base64_enc_map.getD (i &&& 0x3F) 0

/-- A look-up in the second table; 127 for indices outside, which the code
excludes before. -/
def dec (c : Byte) : Nat := base64_dec_map.getD c.toNat 127

/-- Return value; `*olen`, `none` if it is not assigned; the bytes stored at
`dst`, in order from the start. -/
structure Out where
  rc : Int
  olen : Option Nat
  dst : List Byte
deriving Repr, DecidableEq

/-- src/core/base64.c:84-110: the characters, three bytes at a time and the rest. -/
def encChars : List Byte → List Byte
  | c1 :: c2 :: c3 :: src =>
    enc (c1.toNat >>> 2) :: enc (((c1.toNat &&& 3) <<< 4) + (c2.toNat >>> 4)) ::
      enc (((c2.toNat &&& 15) <<< 2) + (c3.toNat >>> 6)) :: enc c3.toNat :: encChars src
  | [c1, c2] =>
    [enc (c1.toNat >>> 2), enc (((c1.toNat &&& 3) <<< 4) + (c2.toNat >>> 4)), enc ((c2.toNat &&& 15) <<< 2), 61]
  | [c1] => [enc (c1.toNat >>> 2), enc (((c1.toNat &&& 3) <<< 4) + (0 >>> 4)), 61, 61]
  | [] => []

/-- src/core/base64.c:66-77: the length. -/
def encLen (slen : Nat) : Nat :=
  let n := (slen <<< 3) / 6
  let r := (slen <<< 3) - n * 6
  if r = 2 then n + 3 else if r = 4 then n + 2 else n

/-- src/core/base64.c:54-116 `osmo_base64_encode`; -105 is `-ENOBUFS`. -/
def osmo_base64_encode (dlen : Nat) (src : List Byte) : Out :=
  if src.length = 0 then ⟨0, some 0, []⟩
  else
    let n := encLen src.length
    if dlen < n + 1 then ⟨-105, some (n + 1), []⟩
    else ⟨0, some (encChars src).length, encChars src ++ [0]⟩

/-- src/core/base64.c:129-161: the first pass over the rest of the input, after
`x` spaces, `j` padding characters and `n` characters; `none` is `-EINVAL`. -/
def check : List Byte → (x j n : Nat) → Option (Nat × Nat)
  | [], _, j, n => some (j, n)
  | c :: src, x, j, n =>
    if c = 32 then check src (x + 1) j n
    else if c = 13 ∧ src.head? = some 10 then check src 0 j n
    else if c = 10 then check src 0 j n
    else if x ≠ 0 then none
    else if c = 61 ∧ j + 1 > 2 then none
    else
      let j := if c = 61 then j + 1 else j
      if c.toNat > 127 ∨ dec c = 127 then none
      else if dec c < 64 ∧ j ≠ 0 then none
      else check src 0 j (n + 1)

/-- src/core/base64.c:174-190: the second pass; `x` is 32 bits wide. -/
def store : List Byte → (j n : Nat) → (x : BitVec 32) → List Byte
  | [], _, _, _ => []
  | c :: src, j, n, x =>
    if c = 13 ∨ c = 10 ∨ c = 32 then store src j n x
    else
      let j := j - (if dec c = 64 then 1 else 0)
      let x := (x <<< 6) ||| BitVec.ofNat 32 (dec c &&& 0x3F)
      if n + 1 = 4 then
        (if j > 0 then [(x >>> 16).setWidth 8] else []) ++ (if j > 1 then [(x >>> 8).setWidth 8] else []) ++
          (if j > 2 then [x.setWidth 8] else []) ++ store src j 0 x
      else store src j (n + 1) x

/-- src/core/base64.c:121-195 `osmo_base64_decode`; `dlen = none` is `dst == NULL`. -/
def osmo_base64_decode (dlen : Option Nat) (src : List Byte) : Out :=
  match check src 0 0 0 with
  | none => ⟨-22, none, []⟩
  | some (j, n) =>
    if n = 0 then ⟨0, none, []⟩
    else
      let n := ((n * 6) + 7) >>> 3 - j
      match dlen with
      | none => ⟨-105, some n, []⟩
      | some d =>
        if d < n then ⟨-105, some n, []⟩
        else ⟨0, some (store src 3 0 0).length, store src 3 0 0⟩

end Verif.Base64
