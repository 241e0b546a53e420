import Verif.Common
/-!
Model of src/gsm/gsm48_arfcn_range_encode.c and of `gsm48_decode_freq_list`,
src/gsm/gsm48_ie.c: the range formats of 3GPP TS 44.018, annex J.

`none` stands for an access outside of an array.  `int` does not overflow: all
values are below 2^12.
-/
namespace Verif.ArfcnRange

/-! ### Encoder -/

/-- src/gsm/gsm48_arfcn_range_encode.c:30-40 `greatest_power_of_2_lesser_or_equal_to`:
the loop, `fuel` steps at most. -/
def gpLoop (index : Nat) : Nat → Nat → Nat
  | 0, p => p
  | fuel + 1, p => let p := p * 2; if p ≤ index then gpLoop index fuel p else p

/-- src/gsm/gsm48_arfcn_range_encode.c:30-40 `greatest_power_of_2_lesser_or_equal_to`. -/
def greatestPow2 (index : Nat) : Nat := gpLoop index (index + 1) 1 / 2

/-- src/gsm/gsm48_arfcn_range_encode.c:42-48 `mod`; the loop is entered once at
most, as the remainder is above -range. -/
def mod (data : Int) (range : Nat) : Int :=
  let res := data.tmod range
  if res < 0 then res + range else res

/-- src/gsm/gsm48_arfcn_range_encode.c:62-66: the number of frequencies in the half
range that begins at `f`. -/
def inHalf (range : Nat) (freqs : List Int) (f : Int) : Nat :=
  freqs.countP (fun g => decide (mod (g - f) range ≤ ((range - 1) / 2 : Nat)))

/-- src/gsm/gsm48_arfcn_range_encode.c:55-73 `osmo_gsm48_range_enc_find_index`;
`none` for -1. -/
def findIndex (range : Nat) (freqs : List Int) : Option Nat :=
  freqs.findIdx? (fun f => inHalf range freqs f - 1 == (freqs.length - 1) / 2)

/-- Store into an array. -/
def store (out : List Int) (i : Nat) (v : Int) : Option (List Int) :=
  if i < out.length then some (out.set i v) else none

/-- src/gsm/gsm48_arfcn_range_encode.c:132-145 `osmo_gsm48_range_enc_arfcns` with its
worker `_range_enc_arfcns`, src/gsm/gsm48_arfcn_range_encode.c:76-123: return value and `out`.  The size of the list
bounds the depth of the recursion. -/
def encArfcns : Nat → Nat → List Int → List Int → Nat → Option (Int × List Int)
  | 0, _, _, out, _ => some (0, out)
  | fuel + 1, range, arfcns, out, index =>
    match arfcns with
    | [] => some (0, out)
    | [a] => (store out index (1 + a)).map (fun o => (0, o))
    | arfcns =>
      match findIndex range arfcns with
      | none => some (-22, out)
      | some splitAt =>
        let a := arfcns.getD splitAt 0
        let lOrigin := mod (a + ((range - 1) / 2 : Nat) + 1) range
        let rOrigin := mod (a + 1) range
        let left := (arfcns.filter (fun x => decide (mod (x - lOrigin) range < (range / 2 : Nat)))).map
          (fun x => mod (x - lOrigin) range)
        let right := (arfcns.filter (fun x => decide (mod (x - rOrigin) range < (range / 2 : Nat)))).map
          (fun x => mod (x - rOrigin) range)
        if arfcns.length / 2 < left.length ∨ arfcns.length / 2 < right.length then none
        else
          (store out index (1 + a)).bind (fun out =>
            (if left = [] then some (0, out)
              else encArfcns fuel (range / 2) left out (index + greatestPow2 (index + 1))).bind (fun r =>
              (if right = [] then some (0, r.2)
                else encArfcns fuel ((range - 1) / 2) right r.2 (index + 2 * greatestPow2 (index + 1))).map
                (fun r => (0, r.2))))

/-- src/gsm/gsm48_arfcn_range_encode.c:165-191 `osmo_gsm48_range_enc_determine_range`:
the range and `*f0` (`none` if it is not assigned); -1 for the invalid range. -/
def determineRange (arfcns : List Int) : Int × Option Int :=
  if arfcns.length = 0 then (127, none)
  else
    let f0 := arfcns.getD 0 0
    let max := arfcns.getD (arfcns.length - 1) 0 - f0
    if max < 128 ∧ arfcns.length ≤ 29 then (127, some f0)
    else if max < 256 ∧ arfcns.length ≤ 22 then (255, some f0)
    else if max < 512 ∧ arfcns.length ≤ 18 then (511, some f0)
    else if max < 1024 ∧ arfcns.length ≤ 17 then (1023, some 0)
    else (-1, some f0)

/-- src/gsm/gsm48_arfcn_range_encode.c:305-325 `osmo_gsm48_range_enc_filter_arfcns`:
the list left in the array and `*f0_included`. -/
def filterArfcns (arfcns : List Int) (f0 : Int) : List Int × Bool :=
  ((arfcns.filter (fun a => decide (a ≠ f0))).map (fun a => mod (a - (f0 + 1)) 1024),
    arfcns.any (fun a => decide (a = f0)))

/-- src/gsm/gsm48_arfcn_range_encode.c:214-257: the bits of one `w[k]`, `fuel`
rounds at most; `off` is the place of `chan_list` in the message.  Result:
message, `octet_offs`, `bit_offs`. -/
def writeWk (off : Nat) (wk : Int) : Nat → List Byte → Nat → Nat → Nat → Option (List Byte × Nat × Nat)
  | 0, cl, octet, bitOffs, _ => some (cl, octet, bitOffs)
  | fuel + 1, cl, octet, bitOffs, wkLeft =>
    if wkLeft = 0 then some (cl, octet, bitOffs)
    else
      let curBits := if 8 - bitOffs > wkLeft then wkLeft else 8 - bitOffs
      let curMask := 2 ^ curBits - 1
      let wkLeft := wkLeft - curBits
      let bitOffs := bitOffs + curBits
      let slice := (wk >>> wkLeft % 2 ^ curBits).toNat
      match cl[off + octet]? with
      | none => none
      | some b =>
        let b := b &&& ~~~(BitVec.ofNat 8 (curMask <<< (8 - bitOffs)))
        let b := b ||| BitVec.ofNat 8 (slice <<< (8 - bitOffs))
        let cl := cl.set (off + octet) b
        if bitOffs = 8 then writeWk off wk fuel cl (octet + 1) 0 wkLeft
        else writeWk off wk fuel cl octet bitOffs wkLeft

/-- src/gsm/gsm48_arfcn_range_encode.c:200-268 `write_all_wn`: the outer loop, for
the remaining `w` and `n` rounds. -/
def writeAllWn (off : Nat) : Nat → List Int → List Byte → Nat → Nat → Nat → Nat → Nat → Option (List Byte)
  | 0, _, cl, _, _, _, _, _ => some cl
  | _ + 1, [], _, _, _, _, _, _ => none
  | n + 1, wk :: w, cl, octet, bitOffs, wkLen, level, lvlLeft =>
    match writeWk off wk wkLen cl octet bitOffs wkLen with
    | none => none
    | some (cl, octet, bitOffs) =>
      if lvlLeft - 1 = 0 then writeAllWn off n w cl octet bitOffs (wkLen - 1) (level + 1) (2 ^ (level + 1))
      else writeAllWn off n w cl octet bitOffs wkLen level (lvlLeft - 1)

/-- src/gsm/gsm48_arfcn_range_encode.c:193-198 `write_orig_arfcn`, after the first
octet was set to `id`. -/
def writeOrig (id : Byte) (f0 : Int) : List Byte → Option (List Byte)
  | _ :: _ :: _ :: cl =>
    some ((id ||| BitVec.ofNat 8 ((f0 >>> 9 % 2).toNat)) :: BitVec.ofInt 8 (f0 >>> 1) ::
      BitVec.ofNat 8 ((f0 % 2).toNat <<< 7) :: cl)
  | _ => none

/-- src/gsm/gsm48_arfcn_range_encode.c:270-277 `osmo_gsm48_range_enc_128`. -/
def enc128 (cl : List Byte) (f0 : Int) (w : List Int) : Option (List Byte) :=
  (writeOrig 0x8C f0 cl).bind (fun cl => writeAllWn 2 28 w cl 0 1 7 0 1)

/-- src/gsm/gsm48_arfcn_range_encode.c:279-286 `osmo_gsm48_range_enc_256`. -/
def enc256 (cl : List Byte) (f0 : Int) (w : List Int) : Option (List Byte) :=
  (writeOrig 0x8A f0 cl).bind (fun cl => writeAllWn 2 21 w cl 0 1 8 0 1)

/-- src/gsm/gsm48_arfcn_range_encode.c:288-295 `osmo_gsm48_range_enc_512`. -/
def enc512 (cl : List Byte) (f0 : Int) (w : List Int) : Option (List Byte) :=
  (writeOrig 0x88 f0 cl).bind (fun cl => writeAllWn 2 17 w cl 0 1 9 0 1)

/-- src/gsm/gsm48_arfcn_range_encode.c:297-303 `osmo_gsm48_range_enc_1024`. -/
def enc1024 (cl : List Byte) (f0Included : Bool) (w : List Int) : Option (List Byte) :=
  match cl with
  | [] => none
  | _ :: cl => writeAllWn 0 16 w ((0x80#8 ||| (if f0Included then 4#8 else 0#8)) :: cl) 0 6 10 0 1

/-! ### Decoder -/

/-- src/gsm/gsm48_ie.c:886-896 `smod`. -/
def smod (n m : Int) : Int :=
  let res := n.tmod m
  if res ≤ 0 then res + m else res

/-- What the decoder does with one `w[k]`: the length from which on it is read;
the bit fields it is put together from, high part first (octet, lowest bit,
width); the nested `smod` around it, outermost first (index into `w`, number
subtracted, modulus). -/
structure Node where
  minLen : Nat
  pieces : List (Nat × Nat × Nat)
  path : List (Nat × Nat × Nat)
deriving Repr, DecidableEq

/-- A bit field in an octet of the message. -/
def readPiece (cd : List Byte) (p : Nat × Nat × Nat) : Option Nat :=
  cd[p.1]?.map (fun b => (b.toNat >>> p.2.1) % 2 ^ p.2.2)

/-- `(hi << n) | lo` and so on. -/
def readField (cd : List Byte) : Nat → List (Nat × Nat × Nat) → Option Nat
  | acc, [] => some acc
  | acc, p :: ps => (readPiece cd p).bind (fun v => readField cd ((acc <<< p.2.2) ||| v) ps)

def readNode (cd : List Byte) (len : Nat) (n : Node) : Option Nat :=
  if n.minLen ≤ len then readField cd 0 n.pieces else some 0

/-- All `w[k]`, the first one at index 0. -/
def readNodes (cd : List Byte) (len : Nat) : List Node → Option (List Nat)
  | [] => some []
  | n :: ns => (readNode cd len n).bind (fun v => (readNodes cd len ns).map (fun vs => v :: vs))

/-- The nested `smod`. -/
def applyPath (w : List Nat) : List (Nat × Nat × Nat) → Int → Int
  | [], v => v
  | p :: ps, v => smod ((w.getD (p.1 - 1) 0 : Nat) - (p.2.1 : Nat) + applyPath w ps v) (p.2.2 : Nat)

/-- The values of all `w[k]` that are not zero. -/
def nodeValues (w : List Nat) (ns : List Node) : List Int :=
  (ns.zip w).filterMap (fun p => if p.2 ≠ 0 then some (applyPath w p.1.path (p.2 : Nat)) else none)

/-- src/gsm/gsm48_ie.c:940-1013 with include/osmocom/gsm/protocol/gsm_04_08.h:249-281
`struct gsm48_range_1024` (the little endian part; the other one has the same
layout in memory). -/
def nodes1024 : List Node :=
  [{ minLen := 2, pieces := [(0, 0, 2), (1, 0, 8)], path := [] },
   { minLen := 4, pieces := [(2, 0, 8), (3, 7, 1)], path := [(1, 512, 1023)] },
   { minLen := 5, pieces := [(3, 0, 7), (4, 6, 2)], path := [(1, 0, 1023)] },
   { minLen := 6, pieces := [(4, 0, 6), (5, 6, 2)], path := [(1, 512, 1023), (2, 256, 511)] },
   { minLen := 7, pieces := [(5, 0, 6), (6, 6, 2)], path := [(1, 0, 1023), (3, 256, 511)] },
   { minLen := 8, pieces := [(6, 0, 6), (7, 6, 2)], path := [(1, 512, 1023), (2, 0, 511)] },
   { minLen := 9, pieces := [(7, 0, 6), (8, 6, 2)], path := [(1, 0, 1023), (3, 0, 511)] },
   { minLen := 10, pieces := [(8, 0, 6), (9, 7, 1)], path := [(1, 512, 1023), (2, 256, 511), (4, 128, 255)] },
   { minLen := 10, pieces := [(9, 0, 7)], path := [(1, 0, 1023), (3, 256, 511), (5, 128, 255)] },
   { minLen := 11, pieces := [(10, 1, 7)], path := [(1, 512, 1023), (2, 0, 511), (6, 128, 255)] },
   { minLen := 12, pieces := [(10, 0, 1), (11, 2, 6)], path := [(1, 0, 1023), (3, 0, 511), (7, 128, 255)] },
   { minLen := 13, pieces := [(11, 0, 2), (12, 3, 5)], path := [(1, 512, 1023), (2, 256, 511), (4, 0, 255)] },
   { minLen := 14, pieces := [(12, 0, 3), (13, 4, 4)], path := [(1, 0, 1023), (3, 256, 511), (5, 0, 255)] },
   { minLen := 15, pieces := [(13, 0, 4), (14, 5, 3)], path := [(1, 512, 1023), (2, 0, 511), (6, 0, 255)] },
   { minLen := 16, pieces := [(14, 0, 5), (15, 6, 2)], path := [(1, 0, 1023), (3, 0, 511), (7, 0, 255)] },
   { minLen := 16, pieces := [(15, 0, 6)], path := [(1, 512, 1023), (2, 256, 511), (4, 128, 255), (8, 64, 127)] }]

/-- src/gsm/gsm48_ie.c:1015-1095 with include/osmocom/gsm/protocol/gsm_04_08.h:304-336
`struct gsm48_range_512` (the little endian part; the other one has the same
layout in memory). -/
def nodes512 : List Node :=
  [{ minLen := 4, pieces := [(2, 0, 7), (3, 6, 2)], path := [] },
   { minLen := 5, pieces := [(3, 0, 6), (4, 6, 2)], path := [(1, 256, 511)] },
   { minLen := 6, pieces := [(4, 0, 6), (5, 6, 2)], path := [(1, 0, 511)] },
   { minLen := 7, pieces := [(5, 0, 6), (6, 7, 1)], path := [(1, 256, 511), (2, 128, 255)] },
   { minLen := 7, pieces := [(6, 0, 7)], path := [(1, 0, 511), (3, 128, 255)] },
   { minLen := 8, pieces := [(7, 1, 7)], path := [(1, 256, 511), (2, 0, 255)] },
   { minLen := 9, pieces := [(7, 0, 1), (8, 2, 6)], path := [(1, 0, 511), (3, 0, 255)] },
   { minLen := 10, pieces := [(8, 0, 2), (9, 4, 4)], path := [(1, 256, 511), (2, 128, 255), (4, 64, 127)] },
   { minLen := 11, pieces := [(9, 0, 4), (10, 6, 2)], path := [(1, 0, 511), (3, 128, 255), (5, 64, 127)] },
   { minLen := 11, pieces := [(10, 0, 6)], path := [(1, 256, 511), (2, 0, 255), (6, 64, 127)] },
   { minLen := 12, pieces := [(11, 2, 6)], path := [(1, 0, 511), (3, 0, 255), (7, 64, 127)] },
   { minLen := 13, pieces := [(11, 0, 2), (12, 4, 4)], path := [(1, 256, 511), (2, 128, 255), (4, 0, 127)] },
   { minLen := 14, pieces := [(12, 0, 4), (13, 6, 2)], path := [(1, 0, 511), (3, 128, 255), (5, 0, 127)] },
   { minLen := 14, pieces := [(13, 0, 6)], path := [(1, 256, 511), (2, 0, 255), (6, 0, 127)] },
   { minLen := 15, pieces := [(14, 2, 6)], path := [(1, 0, 511), (3, 0, 255), (7, 0, 127)] },
   { minLen := 16, pieces := [(14, 0, 2), (15, 5, 3)], path := [(1, 256, 511), (2, 128, 255), (4, 64, 127), (8, 32, 63)] },
   { minLen := 16, pieces := [(15, 0, 5)], path := [(1, 0, 511), (3, 128, 255), (5, 64, 127), (9, 32, 63)] }]

/-- src/gsm/gsm48_ie.c:1096-1192 with include/osmocom/gsm/protocol/gsm_04_08.h:359-397
`struct gsm48_range_256` (the little endian part; the other one has the same
layout in memory). -/
def nodes256 : List Node :=
  [{ minLen := 4, pieces := [(2, 0, 7), (3, 7, 1)], path := [] },
   { minLen := 4, pieces := [(3, 0, 7)], path := [(1, 128, 255)] },
   { minLen := 5, pieces := [(4, 1, 7)], path := [(1, 0, 255)] },
   { minLen := 6, pieces := [(4, 0, 1), (5, 3, 5)], path := [(1, 128, 255), (2, 64, 127)] },
   { minLen := 7, pieces := [(5, 0, 3), (6, 5, 3)], path := [(1, 0, 255), (3, 64, 127)] },
   { minLen := 8, pieces := [(6, 0, 5), (7, 7, 1)], path := [(1, 128, 255), (2, 0, 127)] },
   { minLen := 8, pieces := [(7, 1, 6)], path := [(1, 0, 255), (3, 0, 127)] },
   { minLen := 9, pieces := [(7, 0, 1), (8, 4, 4)], path := [(1, 128, 255), (2, 64, 127), (4, 32, 63)] },
   { minLen := 10, pieces := [(8, 0, 4), (9, 7, 1)], path := [(1, 0, 255), (3, 64, 127), (5, 32, 63)] },
   { minLen := 10, pieces := [(9, 2, 5)], path := [(1, 128, 255), (2, 0, 127), (6, 32, 63)] },
   { minLen := 11, pieces := [(9, 0, 2), (10, 5, 3)], path := [(1, 0, 255), (3, 0, 127), (7, 32, 63)] },
   { minLen := 11, pieces := [(10, 0, 5)], path := [(1, 128, 255), (2, 64, 127), (4, 0, 63)] },
   { minLen := 12, pieces := [(11, 3, 5)], path := [(1, 0, 255), (3, 64, 127), (5, 0, 63)] },
   { minLen := 13, pieces := [(11, 0, 3), (12, 6, 2)], path := [(1, 128, 255), (2, 0, 127), (6, 0, 63)] },
   { minLen := 13, pieces := [(12, 1, 5)], path := [(1, 0, 255), (3, 0, 127), (7, 0, 63)] },
   { minLen := 14, pieces := [(12, 0, 1), (13, 5, 3)], path := [(1, 128, 255), (2, 64, 127), (4, 32, 63), (8, 16, 31)] },
   { minLen := 14, pieces := [(13, 1, 4)], path := [(1, 0, 255), (3, 64, 127), (5, 32, 63), (9, 16, 31)] },
   { minLen := 15, pieces := [(13, 0, 1), (14, 5, 3)], path := [(1, 128, 255), (2, 0, 127), (6, 32, 63), (10, 16, 31)] },
   { minLen := 15, pieces := [(14, 1, 4)], path := [(1, 0, 255), (3, 0, 127), (7, 32, 63), (11, 16, 31)] },
   { minLen := 16, pieces := [(14, 0, 1), (15, 5, 3)], path := [(1, 128, 255), (2, 64, 127), (4, 0, 63), (12, 16, 31)] },
   { minLen := 16, pieces := [(15, 1, 4)], path := [(1, 0, 255), (3, 64, 127), (5, 0, 63), (13, 16, 31)] }]

/-- src/gsm/gsm48_ie.c:1193-1317 with include/osmocom/gsm/protocol/gsm_04_08.h:420-460
`struct gsm48_range_128` (the little endian part; the other one has the same
layout in memory). -/
def nodes128 : List Node :=
  [{ minLen := 3, pieces := [(2, 0, 7)], path := [] },
   { minLen := 4, pieces := [(3, 2, 6)], path := [(1, 64, 127)] },
   { minLen := 5, pieces := [(3, 0, 2), (4, 4, 4)], path := [(1, 0, 127)] },
   { minLen := 6, pieces := [(4, 0, 4), (5, 7, 1)], path := [(1, 64, 127), (2, 32, 63)] },
   { minLen := 6, pieces := [(5, 2, 5)], path := [(1, 0, 127), (3, 32, 63)] },
   { minLen := 7, pieces := [(5, 0, 2), (6, 5, 3)], path := [(1, 64, 127), (2, 0, 63)] },
   { minLen := 7, pieces := [(6, 0, 5)], path := [(1, 0, 127), (3, 0, 63)] },
   { minLen := 8, pieces := [(7, 4, 4)], path := [(1, 64, 127), (2, 32, 63), (4, 16, 31)] },
   { minLen := 8, pieces := [(7, 0, 4)], path := [(1, 0, 127), (3, 32, 63), (5, 16, 31)] },
   { minLen := 9, pieces := [(8, 4, 4)], path := [(1, 64, 127), (2, 0, 63), (6, 16, 31)] },
   { minLen := 9, pieces := [(8, 0, 4)], path := [(1, 0, 127), (3, 0, 63), (7, 16, 31)] },
   { minLen := 10, pieces := [(9, 4, 4)], path := [(1, 64, 127), (2, 32, 63), (4, 0, 31)] },
   { minLen := 10, pieces := [(9, 0, 4)], path := [(1, 0, 127), (3, 32, 63), (5, 0, 31)] },
   { minLen := 11, pieces := [(10, 4, 4)], path := [(1, 64, 127), (2, 0, 63), (6, 0, 31)] },
   { minLen := 11, pieces := [(10, 0, 4)], path := [(1, 0, 127), (3, 0, 63), (7, 0, 31)] },
   { minLen := 12, pieces := [(11, 5, 3)], path := [(1, 64, 127), (2, 32, 63), (4, 16, 31), (8, 8, 15)] },
   { minLen := 12, pieces := [(11, 2, 3)], path := [(1, 0, 127), (3, 32, 63), (5, 16, 31), (9, 8, 15)] },
   { minLen := 13, pieces := [(11, 0, 2), (12, 7, 1)], path := [(1, 64, 127), (2, 0, 63), (6, 16, 31), (10, 8, 15)] },
   { minLen := 13, pieces := [(12, 4, 3)], path := [(1, 0, 127), (3, 0, 63), (7, 16, 31), (11, 8, 15)] },
   { minLen := 13, pieces := [(12, 1, 3)], path := [(1, 64, 127), (2, 32, 63), (4, 0, 31), (12, 8, 15)] },
   { minLen := 14, pieces := [(12, 0, 1), (13, 6, 2)], path := [(1, 0, 127), (3, 32, 63), (5, 0, 31), (13, 8, 15)] },
   { minLen := 14, pieces := [(13, 3, 3)], path := [(1, 64, 127), (2, 0, 63), (6, 0, 31), (14, 8, 15)] },
   { minLen := 14, pieces := [(13, 0, 3)], path := [(1, 0, 127), (3, 0, 63), (7, 0, 31), (15, 8, 15)] },
   { minLen := 15, pieces := [(14, 5, 3)], path := [(1, 64, 127), (2, 32, 63), (4, 16, 31), (8, 0, 15)] },
   { minLen := 15, pieces := [(14, 2, 3)], path := [(1, 0, 127), (3, 32, 63), (5, 16, 31), (9, 0, 15)] },
   { minLen := 16, pieces := [(14, 0, 2), (15, 7, 1)], path := [(1, 64, 127), (2, 0, 63), (6, 16, 31), (10, 0, 15)] },
   { minLen := 16, pieces := [(15, 4, 3)], path := [(1, 0, 127), (3, 0, 63), (7, 16, 31), (11, 0, 15)] },
   { minLen := 16, pieces := [(15, 1, 3)], path := [(1, 64, 127), (2, 32, 63), (4, 0, 31), (12, 0, 15)] }]

/-- `orig_arfcn_hi`, `orig_arfcn_mid`, `orig_arfcn_lo` of the structures. -/
def origPieces : List (Nat × Nat × Nat) := [(0, 0, 1), (1, 0, 8), (2, 7, 1)]

/-- The three formats with an origin: the indices at which `frqt` is set. -/
def decodeOrig (ns : List Node) (minLen : Nat) (cd : List Byte) (len : Nat) : Option (Int × List Int) :=
  if len < minLen then some (-22, [])
  else
    (readField cd 0 origPieces).bind (fun w0 =>
      (readNodes cd len ns).map (fun w =>
        (0, (w0 : Int) :: (nodeValues w ns).map (fun v => ((w0 : Int) + v).tmod 1024))))

/-- src/gsm/gsm48_ie.c:1328-1330: the loop over the variable bit map from bit `i` on. -/
def varLoop (cd : List Byte) (len orig : Nat) : Nat → Nat → Option (List Int)
  | 0, _ => some []
  | fuel + 1, i =>
    if 2 + (i >>> 3) < len then
      cd[2 + (i >>> 3)]?.bind (fun b =>
        (varLoop cd len orig fuel (i + 1)).map (fun l =>
          if b &&& (0x80#8 >>> (i &&& 7)) ≠ 0 then (((orig + i) % 1024 : Nat) : Int) :: l else l))
    else some []

/-- src/gsm/gsm48_ie.c:931-933: the loop over bit map 0 from `i` on. -/
def bitmapLoop (cd : List Byte) : Nat → Nat → Option (List Int)
  | 0, _ => some []
  | fuel + 1, i =>
    cd[15 - ((i - 1) >>> 3)]?.bind (fun b =>
      (bitmapLoop cd fuel (i + 1)).map (fun l =>
        if b &&& (1#8 <<< ((i - 1) &&& 7)) ≠ 0 then (i : Int) :: l else l))

/-- src/gsm/gsm48_ie.c:903-1336 `gsm48_decode_freq_list`: return value and the
indices of `f` at which the bits `frqt` are set. -/
def decodeMarks (cd : List Byte) (len : Nat) (mask : Byte) : Option (Int × List Int) :=
  match cd[0]? with
  | none => none
  | some c0 =>
    if c0 &&& 0xc0 &&& mask = 0x00#8 then
      if len < 16 then some (-22, []) else (bitmapLoop cd 124 1).map (fun l => (0, l))
    else if c0 &&& 0xc8 &&& mask = 0x80#8 then
      if len < 2 then some (-22, [])
      else
        (readField cd 0 [(0, 2, 1)]).bind (fun f0 =>
          (readNodes cd len nodes1024).map (fun w => (0, (if f0 ≠ 0 then [0] else []) ++ nodeValues w nodes1024)))
    else if c0 &&& 0xce &&& mask = 0x88#8 then decodeOrig nodes512 4 cd len
    else if c0 &&& 0xce &&& mask = 0x8a#8 then decodeOrig nodes256 4 cd len
    else if c0 &&& 0xce &&& mask = 0x8c#8 then decodeOrig nodes128 3 cd len
    else if c0 &&& 0xce &&& mask = 0x8e#8 then
      if len < 3 then some (-22, [])
      else
        (readField cd 0 origPieces).bind (fun w0 =>
          (varLoop cd len w0 (8 * len) 1).map (fun l => (0, (w0 : Int) :: l)))
    else some (0, [])

/-- src/gsm/gsm48_ie.c:903-1336 `gsm48_decode_freq_list`: return value and the new
array, 1024 elements; `none` also if an index is outside of it. -/
def decodeFreqList (f : Nat → Byte) (cd : List Byte) (len : Nat) (mask frqt : Byte) : Option (Int × (Nat → Byte)) :=
  match decodeMarks cd len mask with
  | none => none
  | some (rc, marks) =>
    if marks.all (fun i => decide (0 ≤ i ∧ i < 1024)) then
      some (rc, fun i => (f i &&& ~~~frqt) ||| (if (i : Int) ∈ marks then frqt else 0))
    else none

end Verif.ArfcnRange
