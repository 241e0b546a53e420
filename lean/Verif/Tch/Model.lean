import Verif.Chan.Model
import Verif.BitBuf
/-!
Model of the channel coding of speech with the full rate, enhanced full rate and half rate codecs in src/coding/gsm0503_coding.c.
What is in an array on the stack before it is written is a parameter.  `none`: access outside of an array or of a table.
-/
namespace Verif.Tch
open Verif.Conv Verif.ConvAcc Verif.Interleave Verif.Chan

/-- src/codec/gsm610.c:36-297 `gsm610_bitorder` -/
def frOrder : List Nat :=
  [0, 47, 103, 159, 215, 1, 6, 12, 2, 7, 13, 17, 36, 92, 148, 204, 48, 104,
   160, 216, 8, 22, 26, 37, 93, 149, 205, 38, 94, 150, 206, 39, 95, 151, 207, 40,
   96, 152, 208, 49, 105, 161, 217, 3, 18, 30, 41, 97, 153, 209, 23, 27, 43, 99,
   155, 211, 42, 98, 154, 210, 45, 101, 157, 213, 4, 9, 14, 33, 19, 24, 31, 44,
   100, 156, 212, 50, 106, 162, 218, 53, 56, 59, 62, 65, 68, 71, 74, 77, 80, 83,
   86, 89, 109, 112, 115, 118, 121, 124, 127, 130, 133, 136, 139, 142, 145, 165, 168, 171,
   174, 177, 180, 183, 186, 189, 192, 195, 198, 201, 221, 224, 227, 230, 233, 236, 239, 242,
   245, 248, 251, 254, 257, 46, 102, 158, 214, 51, 107, 163, 219, 54, 57, 60, 63, 66,
   69, 72, 75, 78, 81, 84, 87, 90, 110, 113, 116, 119, 122, 125, 128, 131, 134, 137,
   140, 143, 146, 166, 169, 172, 175, 178, 181, 184, 187, 190, 193, 196, 199, 202, 222, 225,
   228, 231, 234, 237, 240, 243, 246, 249, 252, 255, 258, 5, 10, 15, 28, 32, 34, 35,
   16, 20, 21, 25, 52, 108, 164, 220, 55, 58, 61, 64, 67, 70, 73, 76, 79, 82,
   85, 88, 91, 111, 114, 117, 120, 123, 126, 129, 132, 135, 138, 141, 144, 147, 167, 170,
   173, 176, 179, 182, 185, 188, 191, 194, 197, 200, 203, 223, 226, 229, 232, 235, 238, 241,
   244, 247, 250, 253, 256, 259, 11, 29]

/-- src/codec/gsm660.c:38-259 `gsm660_bitorder` -/
def efrOrder : List Nat :=
  [38, 39, 40, 41, 42, 43, 145, 146, 147, 148, 149, 150, 93, 94, 200, 201, 47, 88,
   99, 140, 44, 151, 95, 202, 1, 2, 7, 9, 17, 18, 23, 45, 46, 152, 153, 96,
   203, 3, 4, 10, 11, 15, 8, 5, 6, 12, 16, 19, 97, 204, 0, 13, 14, 20,
   24, 25, 27, 154, 206, 195, 247, 89, 141, 196, 248, 252, 253, 254, 255, 256, 257, 258,
   259, 48, 100, 155, 207, 21, 22, 26, 28, 51, 55, 59, 63, 67, 103, 107, 111, 115,
   119, 158, 162, 166, 170, 174, 210, 214, 218, 222, 226, 90, 142, 197, 249, 49, 101, 156,
   208, 29, 30, 31, 32, 33, 34, 35, 98, 205, 52, 56, 60, 64, 68, 104, 108, 112,
   116, 120, 159, 163, 167, 171, 175, 211, 215, 219, 223, 227, 53, 57, 61, 65, 105, 109,
   113, 117, 160, 164, 168, 172, 212, 220, 224, 91, 143, 198, 250, 50, 102, 157, 209, 92,
   144, 199, 251, 54, 58, 62, 66, 106, 110, 114, 118, 161, 165, 169, 173, 213, 221, 225,
   36, 37, 69, 71, 72, 121, 123, 124, 176, 178, 179, 228, 230, 231, 216, 217, 70, 122,
   177, 229, 73, 76, 79, 82, 85, 125, 128, 131, 134, 137, 180, 183, 186, 189, 192, 232,
   235, 238, 241, 244, 74, 77, 80, 83, 86, 126, 129, 132, 135, 138, 181, 184, 187, 190,
   193, 233, 236, 239, 242, 245, 75, 78, 81, 84, 87, 127, 130, 133, 136, 139, 182, 185,
   188, 191, 194, 234, 237, 240, 243, 246]

/-- src/codec/gsm620.c:32-145 `gsm620_unvoiced_bitorder` -/
def hrUnvoiced : List Nat :=
  [3, 25, 52, 71, 90, 109, 15, 19, 20, 21, 22, 23, 26, 27, 28, 29, 30, 31,
   61, 62, 63, 64, 65, 66, 67, 68, 74, 75, 76, 77, 78, 79, 80, 81, 82, 83,
   84, 32, 4, 33, 60, 59, 58, 57, 56, 55, 49, 48, 47, 46, 45, 44, 43, 42,
   41, 40, 39, 38, 37, 36, 111, 92, 73, 54, 24, 110, 91, 72, 53, 14, 13, 12,
   11, 10, 108, 89, 70, 51, 16, 17, 18, 107, 88, 69, 50, 9, 8, 7, 6, 2,
   5, 1, 0, 35, 34, 106, 105, 104, 103, 102, 101, 100, 99, 98, 97, 96, 95, 94,
   93, 87, 86, 85]

/-- src/codec/gsm620.c:151-264 `gsm620_voiced_bitorder` -/
def hrVoiced : List Nat :=
  [13, 14, 18, 19, 20, 53, 71, 89, 107, 54, 72, 90, 108, 55, 73, 91, 109, 44,
   45, 46, 47, 48, 49, 50, 51, 52, 62, 63, 64, 65, 68, 69, 70, 80, 66, 67,
   56, 74, 92, 110, 57, 75, 93, 111, 33, 24, 32, 97, 31, 23, 96, 79, 61, 43,
   95, 78, 60, 42, 30, 29, 28, 22, 27, 26, 21, 4, 25, 15, 94, 77, 59, 41,
   3, 76, 58, 40, 39, 17, 16, 12, 11, 10, 9, 2, 38, 37, 36, 8, 7, 6,
   5, 1, 0, 35, 34, 106, 105, 104, 103, 102, 101, 100, 99, 98, 88, 87, 86, 85,
   84, 83, 82, 81]

/-- src/coding/gsm0503_tables.c:1646-1651 `gsm0503_gsm_fr_map` -/
def frMap : List Nat :=
  [6, 6, 5, 5, 4, 4, 3, 3, 7, 2, 2, 6, 3, 3, 3, 3, 3, 3,
   3, 3, 3, 3, 3, 3, 3, 7, 2, 2, 6, 3, 3, 3, 3, 3, 3, 3,
   3, 3, 3, 3, 3, 3, 7, 2, 2, 6, 3, 3, 3, 3, 3, 3, 3, 3,
   3, 3, 3, 3, 3, 7, 2, 2, 6, 3, 3, 3, 3, 3, 3, 3, 3, 3,
   3, 3, 3, 3]

/-- src/coding/gsm0503_tables.c:1655-1663 `gsm0503_gsm_efr_protected_bits` -/
def efrProtectedBits : List Nat :=
  [39, 40, 41, 42, 43, 44, 48, 87, 45, 2, 3, 8, 10, 18, 19, 24, 46, 47,
   142, 143, 144, 145, 146, 147, 92, 93, 195, 196, 98, 137, 148, 94, 197, 149, 150, 95,
   198, 4, 5, 11, 12, 16, 9, 6, 7, 13, 17, 20, 96, 199, 1, 14, 15, 21,
   25, 26, 28, 151, 201, 190, 240, 88, 138, 191, 241]

/-- utils/conv_codes_gsm.py:486-491 `tch_fr` -/
def tchFrCode : Code := genCode [(G0, 1), (G1, 1)] 185 .flush none

/-- src/coding/gsm0503_parity.c:104-109 `gsm0503_tch_fr_crc3` -/
def frCrc3 : Crc.Code 8 := { bits := 3, poly := 0x3#8, init := 0x0#8, remainder := 0x7#8 }

/-- src/coding/gsm0503_parity.c:115-120 `gsm0503_tch_efr_crc8` -/
def efrCrc8 : Crc.Code 8 := { bits := 8, poly := 0x1d#8, init := 0x00#8, remainder := 0x00#8 }

/-! ### Codec frames -/

/-- src/coding/gsm0503_coding.c:1575-1577, 1608-1614 and 1628-1634: `for (i = 0, j = ofs; i < n; i++, j++) b_bits[i] = (tch_data[j >> 3] >> (7 - (j & 7))) & 1` -/
def unpackMsb (n ofs : Nat) (data b : List Byte) : Option (List Byte) := do
  let l ← (List.range n).mapM fun i => (data[(ofs + i) >>> 3]?).map fun (x : Byte) => (x >>> (7 - ((ofs + i) &&& 7))) &&& 1#8
  writeAt b 0 l

/-- src/coding/gsm0503_coding.c:1546-1548, 1599-1606 and 1617-1626: `for (i = 0, j = ofs; i < n; i++, j++) tch_data[j >> 3] |= (b_bits[i] << (7 - (j & 7)))` -/
def packMsb (n ofs : Nat) (b data : List Byte) : Option (List Byte) :=
  (List.range n).foldlM (fun d i => (b[i]?).bind fun x => (d[(ofs + i) >>> 3]?).map fun y =>
    d.set ((ofs + i) >>> 3) (y ||| (x <<< (7 - ((ofs + i) &&& 7))))) data

/-- src/coding/gsm0503_coding.c:1553-1567 and 1582-1595: the index `k + o` in `n` more rounds of the loop; `map` is
`gsm0503_gsm_fr_map` and what is behind it in memory -/
def frWalk (map : List Nat) : Nat → Int → Nat → Nat → Option (List Nat)
  | 0, _, _, _ => some []
  | n + 1, k, l, o =>
    if k + o < 0 then none
    else if k - 1 < 0 then
      (map[l]?).bind fun (w : Nat) => (map[l + 1]?).bind fun (w' : Nat) => (frWalk map n ((w' : Int) - 1) (l + 1) (o + w)).map ((k + o).toNat :: ·)
    else (frWalk map n (k - 1) l o).map ((k + o).toNat :: ·)

/-- the same, from the start -/
def frIndices (map : List Nat) : Option (List Nat) := (map[0]?).bind fun (w : Nat) => frWalk map 260 ((w : Int) - 1) 0 0

/-- src/coding/gsm0503_coding.c:1570-1596 `tch_fr_disassemble` -/
def frDisassemble (map : List Nat) (b data : List Byte) (net : Bool) : Option (List Byte) :=
  if net then unpackMsb 260 4 data b
  else do
    let l ← unpackMsb 260 4 data (List.replicate 260 0#8)
    let ix ← frIndices map
    copy l ((List.range 260).zip ix) b

/-- src/coding/gsm0503_coding.c:1538-1568 `tch_fr_reassemble` -/
def frReassemble (map : List Nat) (data b : List Byte) (net : Bool) : Option (List Byte) := do
  let data ← writeAt data 0 (0xd0#8 :: List.replicate 32 0#8)
  if net then packMsb 260 4 b data
  else do
    let ix ← frIndices map
    let l ← copy b (ix.zip (List.range 260)) (List.replicate 260 0#8)
    packMsb 260 4 l data

/-- src/coding/gsm0503_coding.c:1628-1634 `tch_efr_disassemble` -/
def efrDisassemble (b data : List Byte) : Option (List Byte) := unpackMsb 244 4 data b

/-- src/coding/gsm0503_coding.c:1617-1626 `tch_efr_reassemble` -/
def efrReassemble (data b : List Byte) : Option (List Byte) := do
  let data ← writeAt data 0 (0xc0#8 :: List.replicate 30 0#8)
  packMsb 244 4 b data

/-- src/coding/gsm0503_coding.c:1608-1614 `tch_hr_disassemble` -/
def hrDisassemble (b data : List Byte) : Option (List Byte) := unpackMsb 112 0 data b

/-- src/coding/gsm0503_coding.c:1599-1606 `tch_hr_reassemble` -/
def hrReassemble (data b : List Byte) : Option (List Byte) := do
  let data ← writeAt data 0 (List.replicate 14 0#8)
  packMsb 112 0 b data

/-! ### Order of the bits -/

/-- src/coding/gsm0503_coding.c:1689-1695 `tch_fr_d_to_b` -/
def frDtoB (b d : List Byte) : Option (List Byte) := copy d ((List.range 260).zip frOrder) b

/-- src/coding/gsm0503_coding.c:1698-1704 `tch_fr_b_to_d` -/
def frBtoD (d b : List Byte) : Option (List Byte) := copy b (frOrder.zip (List.range 260)) d

/-- src/coding/gsm0503_coding.c:1738-1744 `tch_efr_d_to_w` -/
def efrDtoW (w d : List Byte) : Option (List Byte) := copy d ((List.range 260).zip efrOrder) w

/-- src/coding/gsm0503_coding.c:1747-1753 `tch_efr_w_to_d` -/
def efrWtoD (d w : List Byte) : Option (List Byte) := copy w (efrOrder.zip (List.range 260)) d

/-- src/coding/gsm0503_coding.c:1756-1762 `tch_efr_protected` -/
def efrProtected (s b : List Byte) : Option (List Byte) := copy s ((efrProtectedBits.map (· - 1)).zip (List.range 65)) b

/-- src/coding/gsm0503_coding.c:1777-1788 `tch_fr_reorder` -/
def frReorder (u d p : List Byte) : Option (List Byte) := do
  let u ← copy d ((List.range 91).flatMap fun i => [(i <<< 1, i), ((i <<< 1) + 1, 184 - i)]) u
  copy p (loop 3 1 0 91) u

/-- src/coding/gsm0503_coding.c:1764-1775 `tch_fr_unreorder`: `d` and `p` -/
def frUnreorder (d p u : List Byte) : Option (List Byte × List Byte) := do
  let d ← copy u ((List.range 91).flatMap fun i => [(i, i <<< 1), (184 - i, (i <<< 1) + 1)]) d
  let p ← copy u (loop 3 1 91 0) p
  some (d, p)

/-- src/coding/gsm0503_coding.c:1802-1814 `tch_efr_reorder` -/
def efrReorder (w s p : List Byte) : Option (List Byte) := do
  let w ← copy s (loop 71 1 0 0 ++ [(69, 72), (69, 71)] ++ loop 50 1 71 73 ++ [(119, 124), (119, 123)] ++ loop 53 1 121 125 ++
    [(172, 179), (172, 178)] ++ loop 50 1 174 180 ++ [(222, 231), (222, 230)] ++ loop 20 1 224 232) w
  copy p (loop 8 1 0 252) w

/-- src/coding/gsm0503_coding.c:1821-1822: `sum = s[i] + w[j] + w[j + 1]; s[i] = (sum >= 2)` -/
def majority (i j : Nat) (s w : List Byte) : Option (List Byte) := do
  let a ← s[i]?
  let b ← w[j]?
  let c ← w[j + 1]?
  some (s.set i (if 2 ≤ a.toNat + b.toNat + c.toNat then 1#8 else 0#8))

/-- src/coding/gsm0503_coding.c:1816-1834 `tch_efr_unreorder`: `s` and `p` -/
def efrUnreorder (s p w : List Byte) : Option (List Byte × List Byte) := do
  let s ← copy w (loop 71 1 0 0) s
  let s ← majority 69 71 s w
  let s ← copy w (loop 50 1 73 71) s
  let s ← majority 119 123 s w
  let s ← copy w (loop 53 1 125 121) s
  let s ← majority 172 178 s w
  let s ← copy w (loop 50 1 180 174) s
  let s ← majority 222 230 s w
  let s ← copy w (loop 20 1 232 224) s
  let p ← copy w (loop 8 1 252 0) p
  some (s, p)

/-- src/coding/gsm0503_coding.c:1728-1731 and 1713-1716: which table, by two bits -/
def hrOrder (x y : Byte) : List Nat := if x = 0#8 ∧ y = 0#8 then hrUnvoiced else hrVoiced

/-- src/coding/gsm0503_coding.c:1723-1735 `tch_hr_b_to_d` -/
def hrBtoD (d b : List Byte) : Option (List Byte) :=
  (b[34]?).bind fun x => (b[35]?).bind fun y => copy b ((hrOrder x y).zip (List.range 112)) d

/-- src/coding/gsm0503_coding.c:1707-1720 `tch_hr_d_to_b` -/
def hrDtoB (b d : List Byte) : Option (List Byte) :=
  (d[93]?).bind fun x => (d[94]?).bind fun y => copy d ((List.range 112).zip (hrOrder x y)) b

/-! ### TCH/FS and TCH/EFS -/

/-- src/coding/gsm0503_coding.c:1953, 1961 and 2122: `osmo_crc8gen_set_bits(code, in + ofs, n, p)` -/
def setP (code : Crc.Code 8) (inp : List Byte) (ofs n : Nat) (p : List Byte) : Option (List Byte) := do
  let l ← readAt inp ofs n
  let c ← Crc.setBits code l
  writeAt p 0 c

/-- src/coding/gsm0503_coding.c:1897, 1916 and 2063: `osmo_crc8gen_check_bits(code, in + ofs, n, p)` -/
def checkP (code : Crc.Code 8) (inp : List Byte) (ofs n : Nat) (p : List Byte) : Option Nat := do
  let l ← readAt inp ofs n
  let c ← readAt p 0 code.bits
  Crc.checkBits code l c

/-- the arrays on the stack of src/coding/gsm0503_coding.c:1945-1946 and of `_xcch_encode_cB` -/
structure EncF where
  x : EncStack
  conv : List Byte
  w : List Byte
  b : List Byte
  s : List Byte
  d : List Byte
  p : List Byte

/-- the arrays on the stack of src/coding/gsm0503_coding.c:1861-1862, of `_xcch_decode_cB` and of `osmo_conv_decode_ber_punctured` -/
structure DecF where
  x : DecStack
  conv : List Byte
  s : List Byte
  w : List Byte
  b : List Byte
  d : List Byte
  p : List Byte

/-- src/coding/gsm0503_coding.c:1951-1955: `d` and `p` for an EFR frame -/
def efrToD (s : EncF) (tch : List Byte) : Option (List Byte × List Byte) := do
  let sb ← efrDisassemble s.s tch
  let b ← efrProtected sb s.b
  let p ← setP efrCrc8 b 0 65 s.p
  let w ← efrReorder s.w sb p
  let d ← efrWtoD s.d w
  some (d, p)

/-- src/coding/gsm0503_coding.c:1958-1959: `d` for a FR frame -/
def frToD (map : List Nat) (s : EncF) (tch : List Byte) (net : Bool) : Option (List Byte) := do
  let w ← frDisassemble map s.w tch net
  frBtoD s.d w

/-- src/coding/gsm0503_coding.c:1961-1964: `cB` -/
def frCode (s : EncF) (d p : List Byte) : Option (List Byte) := do
  let p ← setP frCrc3 d 0 50 p
  let conv ← frReorder s.conv d p
  let c2 ← readAt d 182 78
  let cB ← writeAt s.x.cB 378 c2
  let r ← convEncode tchFrCode conv cB
  some r.1

/-- src/coding/gsm0503_coding.c:1976-1978: `cB` if there is no data -/
def frNoData (s : EncF) : Option (List Byte) := do
  let cB ← writeAt s.x.cB 378 (List.replicate 78 0#8)
  let r ← convEncode tchFrCode (List.replicate 185 0#8) cB
  some r.1

/-- src/coding/gsm0503_coding.c:1942-1997 `gsm0503_tch_fr_encode`: the return value and the bursts -/
def tchFEncode (map : List Nat) (s : EncF) (bursts tch : List Byte) (len : Int) (net : Bool) : Option (Int × List Byte) :=
  if len = 31 then
    (efrToD s tch).bind fun dp => (frCode s dp.1 dp.2).bind fun cB => (tchFrSend 0 0#8 s.x.iB cB bursts).map fun b => (0, b)
  else if len = 33 then
    (frToD map s tch net).bind fun d => (frCode s d s.p).bind fun cB => (tchFrSend 0 0#8 s.x.iB cB bursts).map fun b => (0, b)
  else if len = 0 then (frNoData s).bind fun cB => (tchFrSend 0 0#8 s.x.iB cB bursts).map fun b => (0, b)
  else if len = 23 then
    (xcchEncodeCB s.x.conv s.x.cB tch).bind fun cB => (tchFrSend 0 1#8 s.x.iB cB bursts).map fun b => (0, b)
  else some (-1, bursts)

/-- src/coding/gsm0503_coding.c:1887-1897: the result of the parity check, `d`, `p`, and the numbers of errors and bits -/
def frDecodeD (s : DecF) (cB : List Int) : Option (Nat × List Byte × List Byte × Nat × Nat) := do
  let r ← decodeBer tchFrCode cB s.conv s.x.recoded
  let dp ← frUnreorder s.d s.p r.1
  let hard ← (List.range 78).mapM fun i => (cB[i + 378]?).map fun x => if x < 0 then 1#8 else 0#8
  let d ← writeAt dp.1 182 hard
  let rv ← checkP frCrc3 d 0 50 dp.2
  some (rv, d, dp.2, r.2)

/-- src/coding/gsm0503_coding.c:1904-1924: the return value and `tch_data` -/
def efrFromD (s : DecF) (tch d p : List Byte) : Option (Int × List Byte) := do
  let w ← efrDtoW s.w d
  let sp ← efrUnreorder s.s p w
  let b ← efrProtected sp.1 s.b
  let rv ← checkP efrCrc8 b 0 65 sp.2
  if rv ≠ 0 then some (-1, tch) else (efrReassemble tch sp.1).map fun t => (31, t)

/-- src/coding/gsm0503_coding.c:1926-1930 -/
def frFromD (map : List Nat) (s : DecF) (tch d : List Byte) (net : Bool) : Option (Int × List Byte) := do
  let w ← frDtoB s.w d
  (frReassemble map tch w net).map fun t => (33, t)

/-- src/coding/gsm0503_coding.c:1858-1934 `gsm0503_tch_fr_decode` -/
def tchFDecode (map : List Nat) (s : DecF) (tch : List Byte) (bursts : List Int) (net efr : Bool) : Option Decoded := do
  let fl ← tchFrFlags 0 bursts
  let cB ← tchFrReceive 0 s.x.cB s.x.iB bursts
  if 0 < -fl.sum then (xcchDecodeCB s.x.conv s.x.recoded tch cB).map fun r => if r.rv ≠ 0 then { r with rv := -1 } else { r with rv := 23 }
  else (frDecodeD s cB).bind fun r =>
    if r.1 ≠ 0 then some { rv := -1, data := tch, errors := r.2.2.2.1, total := r.2.2.2.2 }
    else (if efr then efrFromD s tch r.2.1 r.2.2.1 else frFromD map s tch r.2.1 net).map fun t =>
      { rv := t.1, data := t.2, errors := r.2.2.2.1, total := r.2.2.2.2 }

/-! ### TCH/HS -/

/-- the arrays on the stack of src/coding/gsm0503_coding.c:2111-2112 and of `_xcch_encode_cB` -/
structure EncH where
  x : EncStack
  conv : List Byte
  b : List Byte
  d : List Byte
  p : List Byte

/-- the arrays on the stack of src/coding/gsm0503_coding.c:2009-2010, of `_xcch_decode_cB` and of `osmo_conv_decode_ber_punctured` -/
structure DecH where
  x : DecStack
  conv : List Byte
  b : List Byte
  d : List Byte
  p : List Byte

/-- src/coding/gsm0503_coding.c:2120-2124: `conv` and `cB` -/
def hrToConv (s : EncH) (tch : List Byte) : Option (List Byte × List Byte) := do
  let b ← hrDisassemble s.b tch
  let d ← hrBtoD s.d b
  let p ← setP frCrc3 d 73 22 s.p
  let d1 ← readAt d 0 95
  let conv ← writeAt s.conv 0 d1
  let p1 ← readAt p 0 3
  let conv ← writeAt conv 95 p1
  let c2 ← readAt d 95 17
  let cB ← writeAt s.x.cB 211 c2
  some (conv, cB)

/-- src/coding/gsm0503_coding.c:2126-2132; of `cB` the first 228 and of `iB` the first 456 elements are for speech -/
def hrSend (s : EncH) (bursts conv cB : List Byte) : Option (List Byte) := do
  let r ← convEncode tchHr.code conv cB
  tchHrSend 0 0#8 (s.x.iB.take 456) (r.1.take 228) bursts

/-- src/coding/gsm0503_coding.c:2109-2157 `gsm0503_tch_hr_encode`: the return value and the bursts -/
def tchHEncode (s : EncH) (bursts tch : List Byte) (len : Int) : Option (Int × List Byte) :=
  if len = 15 then (hrToConv s (tch.drop 1)).bind fun c => (hrSend s bursts c.1 c.2).map fun b => (0, b)
  else if len = 14 then (hrToConv s tch).bind fun c => (hrSend s bursts c.1 c.2).map fun b => (0, b)
  else if len = 0 then
    (writeAt s.x.cB 211 (List.replicate 17 0#8)).bind fun cB => (hrSend s bursts (List.replicate 98 0#8) cB).map fun b => (0, b)
  else if len = 23 then
    (xcchEncodeCB s.x.conv s.x.cB tch).bind fun cB => (facchHSend 0 1#8 s.x.iB cB bursts).map fun b => (0, b)
  else some (-1, bursts)

/-- src/coding/gsm0503_coding.c:2056-2073, of `cB` the first 228 elements -/
def hrDecodeCB (s : DecH) (tch : List Byte) (cB : List Int) : Option Decoded := do
  let r ← decodeBer tchHr.code cB s.conv s.x.recoded
  let d1 ← readAt r.1 0 95
  let d ← writeAt s.d 0 d1
  let p1 ← readAt r.1 95 3
  let p ← writeAt s.p 0 p1
  let hard ← (List.range 17).mapM fun i => (cB[i + 211]?).map fun x => if x < 0 then 1#8 else 0#8
  let d ← writeAt d 95 hard
  let rv ← checkP frCrc3 d 73 22 p
  if rv ≠ 0 then some { rv := -1, data := tch, errors := r.2.1, total := r.2.2 }
  else (hrDtoB s.b d).bind fun b => (hrReassemble tch b).map fun t => { rv := 14, data := t, errors := r.2.1, total := r.2.2 }

/-- src/coding/gsm0503_coding.c:2014-2024: the sum of soft bits -/
def hrSteal (odd : Bool) (bursts : List Int) : Option Int :=
  if odd then some 0 else steal ([0, 1, 2, 3].map (fun i => i * 116 + 58) ++ [2, 3, 4, 5].map fun i => i * 116 + 57) bursts

/-- src/coding/gsm0503_coding.c:2006-2074 `gsm0503_tch_hr_decode2`; of `cB` the first 228 and of `iB` the first 456 elements are for speech -/
def tchHDecode2 (s : DecH) (tch : List Byte) (bursts : List Int) (odd : Bool) : Option Decoded := do
  let st ← hrSteal odd bursts
  if 0 < st then
    (facchHReceive 0 s.x.cB s.x.iB bursts).bind fun cB => (xcchDecodeCB s.x.conv s.x.recoded tch cB).map fun r =>
      if r.rv ≠ 0 then { r with rv := -1 } else { r with rv := 23 }
  else (tchHrReceive 0 (s.x.cB.take 228) (s.x.iB.take 456) bursts).bind fun cB => hrDecodeCB s tch cB

/-- src/coding/gsm0503_coding.c:2090-2102 `gsm0503_tch_hr_decode` -/
def tchHDecode (s : DecH) (tch : List Byte) (bursts : List Int) (odd : Bool) : Option Decoded := do
  let r ← tchHDecode2 s tch bursts odd
  if r.rv ≠ 14 then some r
  else do
    let l ← readAt r.data 0 14
    let t ← writeAt r.data 1 l
    let t ← writeAt t 0 [0#8]
    some { r with rv := 15, data := t }

end Verif.Tch
