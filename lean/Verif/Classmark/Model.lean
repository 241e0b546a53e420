import Verif.Common
import Verif.Utils.StrbufModel
/-!
Model of the classmark and DTX functions of src/gsm/gsm48.c.  The structures of
bit fields are the octets they overlay on a little endian host
(include/osmocom/gsm/protocol/gsm_04_08.h:17-28,
include/osmocom/gsm/protocol/gsm_04_08.h:31-59 and
include/osmocom/gsm/protocol/gsm_04_08.h:1019-1030).
-/
namespace Verif.Classmark
open Verif.Utils

/-- include/osmocom/gsm/protocol/gsm_04_08.h:230-237 `struct osmo_gsm48_classmark`:
`cm2` are the three octets of `classmark2`, `cm3` the 14 of `classmark3` -/
structure Cm where
  cm1Set : Bool
  cm1 : Byte
  cm2Len : Byte
  cm2 : List Byte
  cm3Len : Byte
  cm3 : List Byte
  deriving DecidableEq, Repr

/-- src/gsm/gsm48.c:1926-1929 `osmo_gsm48_classmark1_is_r99`: `rev_lev` are bits 5 and 6 -/
def cm1IsR99 (cm1 : Byte) : Bool := decide ((cm1 >>> 5) &&& 3#8 ≥ 2#8)

/-- src/gsm/gsm48.c:1931-1936 `osmo_gsm48_classmark2_is_r99`, `rev_lev` being in the same
place; `none` = read outside -/
def cm2IsR99 (cm2 : List Byte) (len : Byte) : Option Bool :=
  if len = 0#8 then some false else (cm2[0]?).map cm1IsR99

/-- src/gsm/gsm48.c:1942-1947 `osmo_gsm48_classmark_is_r99` -/
def isR99 (cm : Cm) : Option Bool := if cm.cm1Set then some (cm1IsR99 cm.cm1) else cm2IsR99 cm.cm2 cm.cm2Len

/-- src/gsm/gsm48.c:2012-2026 `osmo_gsm48_classmark_update` -/
def update (dst src : Cm) : Option Cm :=
  let dst := if src.cm1Set then { dst with cm1 := src.cm1, cm1Set := true } else dst
  let dst := if src.cm2Len ≠ 0#8 then { dst with cm2Len := src.cm2Len, cm2 := src.cm2 } else dst
  if src.cm3Len ≠ 0#8 then
    let n := min dst.cm3.length src.cm3Len.toNat
    if src.cm3.length < n then none
    else (writeAt dst.cm3 0 (src.cm3.take n)).map fun c => { dst with cm3Len := src.cm3Len, cm3 := c }
  else some dst

/-- src/gsm/gsm48.c:2037-2073 `osmo_gsm48_classmark_supports_a5` -/
def supportsA5 (cm : Cm) (a5 : Byte) : Option Int :=
  if a5 = 0#8 then some 1
  else if a5 = 1#8 then
    if ¬ cm.cm1Set then some (-1) else some (if cm.cm1 &&& 8#8 ≠ 0#8 then 0 else 1)
  else if a5 = 2#8 then
    if cm.cm2Len < 3#8 then some (-2) else (cm.cm2[2]?).map fun b => if b &&& 1#8 ≠ 0#8 then 1 else 0
  else if a5 = 3#8 then
    if cm.cm2Len < 3#8 then some (-2) else (cm.cm2[2]?).map fun b => if b &&& 2#8 ≠ 0#8 then 1 else 0
  else if a5 = 4#8 ∨ a5 = 5#8 ∨ a5 = 6#8 ∨ a5 = 7#8 then
    if cm.cm3Len = 0#8 then some (-3)
    else (cm.cm3[0]?).map fun b => if b &&& (1#8 <<< (a5.toNat - 4)) ≠ 0#8 then 1 else 0
  else some 0

/-- src/gsm/gsm48.c:2080-2093 `osmo_gsm48_rfpowercap2powerclass`; `high` = the band is 1800 or 1900 -/
def powerClass (high : Bool) (cap : Byte) : Int :=
  if high then (if cap > 2#8 then -1 else cap.toNat + 1) else (if cap > 4#8 then -1 else cap.toNat + 1)

/-- include/osmocom/gsm/protocol/gsm_04_08.h:1011-1015 `enum gsm48_dtx_mode` -/
inductive Dtx
  | may
  | shall
  | shallNot
  deriving DecidableEq, Repr

/-- assignment to the field `dtx` of `gsm48_cell_options` -/
def setDtxField (op : Byte) (v : Byte) : Byte := (op &&& 0xcf#8) ||| (v <<< 4)

/-- assignment to the field `d` -/
def setD (op : Byte) (v : Bool) : Byte := (op &&& 0x7f#8) ||| (if v then 0x80#8 else 0#8)

/-- src/gsm/gsm48.c:1234-1265 `gsm48_set_dtx`: new value of the octet -/
def setDtx (op : Byte) (full half : Dtx) (isBcch : Bool) : Byte :=
  if isBcch then
    match full with
    | .may => setDtxField op 0#8
    | .shall => setDtxField op 1#8
    | .shallNot => setDtxField op 2#8
  else
    match full with
    | .may => setD (setDtxField op (if half = .shall then 3#8 else 0#8)) (half ≠ .shallNot)
    | .shall => setD (setDtxField op (if half = .may then 3#8 else 1#8)) (half = .shall)
    | .shallNot => setD (setDtxField op 2#8) (half = .shall)

/-- a C string literal -/
def txt (s : List Nat) : List Byte := s.map (BitVec.ofNat 8)

/-- `"%x"` of an octet -/
def hexSmall (n : Nat) : List Byte :=
  let dig (d : Nat) : Byte := if d < 10 then BitVec.ofNat 8 (0x30 + d) else BitVec.ofNat 8 (0x57 + d)
  if n < 16 then [dig n] else [dig (n / 16), dig (n % 16)]

/-- src/gsm/gsm48.c:1959-1961: the text printed into `cm1` (before it is cut to 41 characters) -/
def cm1Text (cm : Cm) : List Byte :=
  if cm.cm1Set then
    txt [0x63, 0x6d, 0x31, 0x7b, 0x61, 0x35, 0x2f, 0x31, 0x3d] ++
      (if cm.cm1 &&& 8#8 ≠ 0#8 then
        txt [0x6e, 0x6f, 0x74, 0x2d, 0x73, 0x75, 0x70, 0x70, 0x6f, 0x72, 0x74, 0x65, 0x64]
       else txt [0x73, 0x75, 0x70, 0x70, 0x6f, 0x72, 0x74, 0x65, 0x64]) ++ txt [0x7d]
  else txt [0x6e, 0x6f, 0x2d, 0x63, 0x6d, 0x31]

/-- `" A5/n"` or nothing -/
def a5Text (b : Bool) (n : Nat) : List Byte := if b then txt [0x20, 0x41, 0x35, 0x2f, 0x30 + n] else []

/-- src/gsm/gsm48.c:1963-1967: the text of `cm2` -/
def cm2Text (cm : Cm) : Option (List Byte) :=
  if cm.cm2Len ≥ 3#8 then
    (cm.cm2[2]?).map fun b =>
      let a2 := b &&& 1#8 ≠ 0#8
      let a3 := b &&& 2#8 ≠ 0#8
      txt [0x20, 0x63, 0x6d, 0x32, 0x7b, 0x30, 0x78] ++
        hexSmall ((if a2 then 1 else 0) + (if a3 then 2 else 0)) ++ txt [0x3d] ++ a5Text a2 2 ++ a5Text a3 3 ++ txt [0x7d]
  else some (txt [0x20, 0x6e, 0x6f, 0x2d, 0x63, 0x6d, 0x32])

/-- src/gsm/gsm48.c:1969-1975: the text of `cm3` -/
def cm3Text (cm : Cm) : Option (List Byte) :=
  if cm.cm3Len ≥ 1#8 then
    (cm.cm3[0]?).map fun b =>
      txt [0x20, 0x63, 0x6d, 0x33, 0x7b, 0x30, 0x78] ++ hexSmall b.toNat ++ txt [0x3d] ++
        a5Text (b &&& 1#8 ≠ 0#8) 4 ++ a5Text (b &&& 2#8 ≠ 0#8) 5 ++ a5Text (b &&& 4#8 ≠ 0#8) 6 ++
        a5Text (b &&& 8#8 ≠ 0#8) 7 ++ txt [0x7d]
  else some (txt [0x20, 0x6e, 0x6f, 0x2d, 0x63, 0x6d, 0x33])

/-- src/gsm/gsm48.c:1953-1979 `osmo_gsm48_classmark_a5_name_buf`: new content of
`buf`; the three parts go through arrays of 42 bytes -/
def a5NameBuf (buf : List Byte) (cm : Cm) : Option (List Byte) :=
  (cm2Text cm).bind fun t2 =>
    (cm3Text cm).bind fun t3 =>
      (snprintfText ((cm1Text cm).take 41 ++ t2.take 41 ++ t3.take 41) buf).map (·.1)

end Verif.Classmark
