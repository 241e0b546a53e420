import Verif.Utils.ArithModel
import Verif.Utils.NumModel
/-!
Model of src/gsm/gsm_utils.c: 7 bit character coding, power levels, bands and
frequencies, frame numbers, TLLI.

Octets (`uint8_t`, `char` seen as `unsigned char`) are natural numbers; every
conversion to a narrower type is written out as a remainder.  A read outside of
the array passed by the caller, or of a table, is `none`.
-/
namespace Verif.GsmUtils
open Verif Verif.Utils

/-! ### 7 bit alphabet -/

/-- src/gsm/gsm_utils.c:154-172 `gsm_7bit_alphabet`.  The table has 255
entries: there is none for character 0xff. -/
def alphabet : List Nat :=
  [
   0xff, 0xff, 0xff, 0xff, 0xff, 0xff, 0xff, 0xff, 0xff, 0xff, 0x0a, 0xff, 0xff, 0x0d, 0xff,
   0xff, 0xff, 0xff, 0xff, 0xff, 0xff, 0xff, 0xff, 0xff, 0xff, 0xff, 0xff, 0xff, 0xff, 0xff,
   0xff, 0xff, 0x20, 0x21, 0x22, 0x23, 0x02, 0x25, 0x26, 0x27, 0x28, 0x29, 0x2a, 0x2b, 0x2c,
   0x2d, 0x2e, 0x2f, 0x30, 0x31, 0x32, 0x33, 0x34, 0x35, 0x36, 0x37, 0x38, 0x39, 0x3a, 0x3b,
   0x3c, 0x3d, 0x3e, 0x3f, 0x00, 0x41, 0x42, 0x43, 0x44, 0x45, 0x46, 0x47, 0x48, 0x49, 0x4a,
   0x4b, 0x4c, 0x4d, 0x4e, 0x4f, 0x50, 0x51, 0x52, 0x53, 0x54, 0x55, 0x56, 0x57, 0x58, 0x59,
   0x5a, 0x3c, 0x2f, 0x3e, 0x14, 0x11, 0xff, 0x61, 0x62, 0x63, 0x64, 0x65, 0x66, 0x67, 0x68,
   0x69, 0x6a, 0x6b, 0x6c, 0x6d, 0x6e, 0x6f, 0x70, 0x71, 0x72, 0x73, 0x74, 0x75, 0x76, 0x77,
   0x78, 0x79, 0x7a, 0x28, 0x40, 0x29, 0x3d, 0xff, 0xff, 0xff, 0xff, 0xff, 0xff, 0xff, 0xff,
   0xff, 0xff, 0x0c, 0xff, 0xff, 0xff, 0xff, 0xff, 0xff, 0xff, 0xff, 0xff, 0x5e, 0xff, 0xff,
   0xff, 0xff, 0xff, 0xff, 0xff, 0xff, 0xff, 0xff, 0xff, 0xff, 0xff, 0x40, 0xff, 0x01, 0xff,
   0x03, 0xff, 0x7b, 0x7d, 0xff, 0xff, 0xff, 0xff, 0xff, 0x5c, 0xff, 0xff, 0xff, 0xff, 0xff,
   0xff, 0xff, 0xff, 0xff, 0xff, 0xff, 0xff, 0x5b, 0x7e, 0x5d, 0xff, 0x7c, 0xff, 0xff, 0xff,
   0xff, 0x5b, 0x0e, 0x1c, 0x09, 0xff, 0x1f, 0xff, 0xff, 0xff, 0xff, 0xff, 0xff, 0xff, 0x5d,
   0xff, 0xff, 0xff, 0xff, 0x5c, 0xff, 0x0b, 0xff, 0xff, 0xff, 0x5e, 0xff, 0xff, 0x1e, 0x7f,
   0xff, 0xff, 0xff, 0x7b, 0x0f, 0x1d, 0xff, 0x04, 0x05, 0xff, 0xff, 0x07, 0xff, 0xff, 0xff,
   0xff, 0x7d, 0x08, 0xff, 0xff, 0xff, 0x7c, 0xff, 0x0c, 0x06, 0xff, 0xff, 0x7e, 0xff, 0xff]

/-- src/gsm/gsm_utils.c:175-183 `gsm_septet_lookup`: the index of the first
entry equal to `ch`; the result -1 is stored into a `uint8_t` by the only
caller (line 250), hence 255. -/
def septetLookup (ch : Nat) : Nat :=
  if alphabet.idxOf ch < alphabet.length then alphabet.idxOf ch else 255

/-- src/gsm/gsm_utils.c:189-195 `gsm_get_octet_len`, the result converted to
`uint8_t`. -/
def getOctetLen (septLen : Nat) : Nat :=
  (if (septLen * 7) % 8 ≠ 0 then septLen * 7 / 8 + 1 else septLen * 7 / 8) % 256

/-- src/gsm/gsm_utils.c:226-240, the septet number `j` (= `i + shift`) of
`user_data`: `lu | ru`, seven bits. -/
def septetAt (ud : List Nat) (maxlen j : Nat) : Option Nat :=
  let l := (j * 7 + 7) >>> 3
  let r := (j * 7) >>> 3
  match (if l ≥ maxlen then some 0 else ud[l]?.map fun b => (b <<< (7 - ((j * 7 + 7) &&& 7))) % 256), ud[r]? with
  | some lu, some b => some ((lu ||| (b >>> ((j * 7) &&& 7))) &&& 0x7f)
  | _, _ => none

/-- src/gsm/gsm_utils.c:224-254, the loop of `gsm_7bit_decode_n_hdr`; `k` is
the number of septets still to read (`septet_l - i`), `room` the number of
characters which still fit before the terminating NUL.  The result are the
characters stored. -/
def decodeLoop (ud : List Nat) (maxlen shift septetL : Nat) : Nat → Nat → Bool → Option (List Nat)
  | 0, _, _ => some []
  | _ + 1, 0, _ => some []
  | k + 1, room + 1, ext =>
    match septetAt ud maxlen (septetL - (k + 1) + shift) with
    | none => none
    | some c7 =>
      if ext then
        match alphabet[0x7f + c7]? with
        | none => none
        | some c8 => (decodeLoop ud maxlen shift septetL k room false).map (c8 :: ·)
      else if c7 = 0x1b ∧ k ≠ 0 then decodeLoop ud maxlen shift septetL k (room + 1) true
      else (decodeLoop ud maxlen shift septetL k room false).map (septetLookup c7 :: ·)

/-- src/gsm/gsm_utils.c:214-221, number of septets taken by the user data
header whose length octet is `hl`. -/
def hdrSeptets (hl : Nat) : Nat :=
  if ((hl + 1) * 8) % 7 ≠ 0 then ((hl + 1) * 8) / 7 + 1 else ((hl + 1) * 8) / 7

/-- src/gsm/gsm_utils.c:204-259 `gsm_7bit_decode_n_hdr`: the characters stored
in `text` (followed by a NUL, the return value is their number); `none` = read
outside of `user_data` or failed assertion `n > 0`.  `septet_l - shift` wraps in
`uint8_t` (line 220). -/
def decodeNHdr (n : Nat) (ud : List Nat) (septetL : Nat) (hdr : Bool) : Option (List Nat) :=
  if n = 0 then none
  else if hdr then
    match ud[0]? with
    | none => none
    | some hl =>
      let sl := ((septetL : Int) - hdrSeptets hl) % 256
      decodeLoop ud (getOctetLen septetL) (hdrSeptets hl) sl.toNat sl.toNat (n - 1) false
  else decodeLoop ud (getOctetLen septetL) 0 septetL septetL (n - 1) false

/-- src/gsm/gsm_utils.c:262-265 `gsm_7bit_decode_n`. -/
def decodeN (n : Nat) (ud : List Nat) (septetL : Nat) : Option (List Nat) := decodeNHdr n ud septetL false

/-- src/gsm/gsm_utils.c:268-278 `gsm_7bit_decode_n_ussd`: the characters of
`text`. -/
def decodeNUssd (n : Nat) (ud : List Nat) (length : Nat) : Option (List Nat) :=
  match decodeNHdr n ud length false with
  | none => none
  | some t =>
    if t = [] then some t
    else match ud[getOctetLen length - 1]? with
      | none => none
      | some b => if b >>> 1 = 0x0d then some t.dropLast else some t

/-- src/gsm/gsm_utils.c:295-306, the characters sent with an escape septet. -/
def isExtChar (ch : Nat) : Bool :=
  ch ∈ [0x0c, 0x5e, 0x7b, 0x7d, 0x5c, 0x5b, 0x7e, 0x5d, 0x7c]

/-- src/gsm/gsm_utils.c:289-316 `gsm_septet_encode`: the octets stored in
`result`; `data` is the string without its NUL; `none` = read beyond the table
(character 0xff). -/
def septetEncode : List Nat → Option (List Nat)
  | [] => some []
  | ch :: s =>
    match alphabet[ch]?, septetEncode s with
    | some v, some r => some (if isExtChar ch then 0x1b :: v :: r else v :: r)
    | _, _ => none

/-- src/gsm/gsm_utils.c:340-363, the loop of `gsm_septet_pack` on what is left
of `data` (from index `i` on). -/
def packLoop : Nat → List Nat → List Nat
  | _, [] => []
  | shift, [a] => if shift = 7 then [] else [(a &&& 0x7f) >>> shift]
  | shift, a :: b :: rest =>
    if shift = 7 then packLoop 0 (b :: rest)
    else (((a &&& 0x7f) >>> shift) ||| (((b &&& 0x7f) <<< (7 - shift)) % 256)) :: packLoop (shift + 1) (b :: rest)

/-- src/gsm/gsm_utils.c:324-368 `gsm_septet_pack`: the octets stored in
`result`; more than seven bits of padding shift by a negative amount
(undefined), `none`.  The allocation is assumed to succeed. -/
def septetPack (rdata : List Nat) (padding : Nat) : Option (List Nat) :=
  if padding > 7 then none
  else if padding ≠ 0 then some (packLoop (7 - padding) (0 :: rdata))
  else some (packLoop 0 rdata)

/-- src/gsm/gsm_utils.c:382-418 `gsm_7bit_encode_n`: the return value and the
octets stored (`*octets` is their number).  The product `n * 8` is assumed not
to wrap. -/
def encodeN (n : Nat) (data : List Nat) : Option (Nat × List Nat) :=
  match septetEncode data with
  | none => none
  | some rdata =>
    let y := if rdata.length > n * 8 / 7 then n * 8 / 7 else rdata.length
    (septetPack (rdata.take y) 0).map fun o => (y, o)

/-- `result[octets - 1] |= v` on the octets stored. -/
def orLast (os : List Nat) (v : Nat) : List Nat := os.modify (os.length - 1) (· ||| v)

/-- src/gsm/gsm_utils.c:426-442 `gsm_7bit_encode_n_ussd`, `octets` non-NULL. -/
def encodeNUssd (n : Nat) (data : List Nat) : Option (Nat × List Nat) :=
  match encodeN n data with
  | none => none
  | some (y, os) =>
    let os := if (y * 7) &&& 7 = 1 then orLast os (0x0d <<< 1) else os
    if y ≠ 0 ∧ (y * 7) &&& 7 = 0 ∧ (os.getLast?.getD 0) >>> 1 = 0x0d ∧ os.length < n - 1 then
      some (y + 1, os ++ [0x0d])
    else some (y, os)

/-! ### Power levels -/

/-- include/osmocom/gsm/gsm_utils.h:49-58 `gsm_band`: the six bands which share
one branch in the power level functions. -/
def lowBands : List Nat := [0x10, 0x20, 0x40, 2, 0x80, 1]

/-- src/gsm/gsm_utils.c:554-600 `ms_pwr_ctl_lvl`; `dbm` is unsigned. -/
def msPwrCtlLvl (band dbm : Nat) : Int :=
  if band ∈ lowBands then
    if dbm ≥ 39 then 0 else if dbm < 5 then 19 else 2 + ((39 - dbm) / 2 : Nat)
  else if band = 4 then
    if dbm ≥ 36 then 29 else if dbm ≥ 34 then 30 else if dbm ≥ 32 then 31 else if dbm = 31 then 0
    else ((30 - dbm) / 2 : Nat)
  else if band = 8 then
    if dbm ≥ 33 then 30 else if dbm ≥ 32 then 31 else if dbm = 31 then 0 else ((30 - dbm) / 2 : Nat)
  else -22

/-- src/gsm/gsm_utils.c:606-642 `ms_pwr_dbm`; `lvl` is a `uint8_t`. -/
def msPwrDbm (band lvl : Nat) : Int :=
  let l : Int := (lvl &&& 0x1f : Nat)
  if band ∈ lowBands then
    if l < 2 then 39 else if l < 20 then 39 - (l - 2) * 2 else 5
  else if band = 4 then
    if l < 16 then 30 - l * 2 else if l < 29 then 0 else 36 - (l - 29) * 2
  else if band = 8 then
    if l < 16 then 30 - l * 2 else if l < 30 then -22 else 33 - (l - 30)
  else -22

/-- src/gsm/gsm_utils.c:647-653 `rxlev2dbm`. -/
def rxlev2dbm (rxlev : Nat) : Int := -110 + (if rxlev > 63 then 63 else rxlev : Nat)

/-- src/gsm/gsm_utils.c:658-668 `dbm2rxlev`; `none` = the sum overflows `int`. -/
def dbm2rxlev (dbm : Int) : Option Nat :=
  if dbm + 110 > 2147483647 then none
  else some (if dbm + 110 > 63 then 63 else if dbm + 110 < 0 then 0 else (dbm + 110).toNat)

/-! ### Bands and frequencies -/

/-- src/gsm/gsm_utils.c:671-692 `gsm_band_name`. -/
def bandName (band : Nat) : String :=
  if band = 0x10 then "GSM450" else if band = 0x20 then "GSM480" else if band = 0x40 then "GSM750"
  else if band = 0x80 then "GSM810" else if band = 1 then "GSM850" else if band = 2 then "GSM900"
  else if band = 4 then "DCS1800" else if band = 8 then "PCS1900" else "invalid"

/-- src/gsm/gsm_utils.c:695-723 `gsm_band_parse`, `none` = -EINVAL.  `strtol`
is `strtoll` (64 bit `long`), in the C locale. -/
def bandParse (mhz : List Byte) : Option Nat :=
  let s := mhz.dropWhile fun c => !isDigit c
  if s = [] then none
  else
    let v := (strtoll s 10).val
    if v = 450 then some 0x10 else if v = 480 then some 0x20 else if v = 750 then some 0x40
    else if v = 810 then some 0x80 else if v = 850 then some 1 else if v = 900 then some 2
    else if v = 1800 then some 4 else if v = 1900 then some 8 else none

/-- src/gsm/gsm_utils.c:730-765 `gsm_arfcn2band_rc`, the band stored; `none` =
-1. -/
def arfcn2band (arfcn : Nat) : Option Nat :=
  let a := arfcn &&& 0x0fff
  if arfcn &&& 0x8000 ≠ 0 then some 8
  else if a ≤ 124 then some 2
  else if a ≥ 955 ∧ a ≤ 1023 then some 2
  else if a ≥ 128 ∧ a ≤ 251 then some 1
  else if a ≥ 512 ∧ a ≤ 885 then some 4
  else if a ≥ 259 ∧ a ≤ 293 then some 0x10
  else if a ≥ 306 ∧ a ≤ 340 then some 0x20
  else if a ≥ 350 ∧ a ≤ 425 then some 0x80
  else if a ≥ 438 ∧ a ≤ 511 then some 0x40
  else none

/-- src/gsm/gsm_utils.c:782-788 `gsm_freq_range`. -/
structure FreqRange where
  first : Nat
  last : Nat
  ulFirst : Nat
  dlOffset : Nat
  flags : Nat
deriving Repr, DecidableEq

/-- src/gsm/gsm_utils.c:790-801 `gsm_ranges` without the guard entry at which
both loops stop. -/
def ranges : List FreqRange :=
  [⟨512, 810, 18502, 800, 0x8000⟩, ⟨0, 124, 8900, 450, 0⟩, ⟨955, 1023, 8762, 450, 0⟩,
   ⟨128, 251, 8242, 450, 0⟩, ⟨512, 885, 17102, 950, 0⟩, ⟨259, 293, 4506, 100, 0⟩,
   ⟨306, 340, 4790, 100, 0⟩, ⟨350, 425, 8060, 450, 0⟩, ⟨438, 511, 7472, 300, 0⟩]

/-- src/gsm/gsm_utils.c:807-828 `gsm_arfcn2freq10`. -/
def arfcn2freq10 (arfcn : Nat) (uplink : Bool) : Nat :=
  let fl := arfcn &&& 0xf000
  let a := arfcn &&& 0x0fff
  match ranges.find? fun r => fl = r.flags && a ≥ r.first && a ≤ r.last with
  | none => 0xffff
  | some r =>
    let ul := (r.ulFirst + 2 * (a - r.first)) % 65536
    if uplink then ul else (ul + r.dlOffset) % 65536

/-- src/gsm/gsm_utils.c:842-847, lowest frequency of a range. -/
def freqLo (r : FreqRange) (uplink : Bool) : Nat :=
  if uplink then r.ulFirst else (r.ulFirst + r.dlOffset) % 65536

/-- src/gsm/gsm_utils.c:842-847, highest frequency of a range. -/
def freqHi (r : FreqRange) (uplink : Bool) : Nat :=
  let hi := (r.ulFirst + 2 * (r.last - r.first)) % 65536
  if uplink then hi else (hi + r.dlOffset) % 65536

/-- src/gsm/gsm_utils.c:834-861 `gsm_freq102arfcn`. -/
def freq102arfcn (freq10 : Nat) (uplink : Bool) : Nat :=
  let a := match ranges.find? fun r => freq10 ≥ freqLo r uplink && freq10 ≤ freqHi r uplink with
    | none => 0xffff
    | some r => ((r.first + ((freq10 - freqLo r uplink) >>> 1)) % 65536) ||| r.flags
  if uplink then a ||| 0x4000 else a

/-! ### Frame numbers -/

/-- include/osmocom/gsm/gsm_utils.h:41-47 `gsm_time`. -/
structure GsmTime where
  fn : Nat
  t1 : Nat
  t2 : Nat
  t3 : Nat
  tc : Nat
deriving Repr, DecidableEq

/-- src/gsm/gsm_utils.c:866-873 `gsm_fn2gsmtime`, with the conversions to the
types of the members. -/
def fn2gsmtime (fn : Nat) : GsmTime :=
  { fn := fn, t1 := fn / (26 * 51) % 65536, t2 := fn % 26 % 256, t3 := fn % 51 % 256, tc := fn / 51 % 8 % 256 }

/-- src/gsm/gsm_utils.c:889-904 `gsm_gsmtime2fn`; the sum is an `int` (no
overflow for members of the declared types) and is converted to `uint32_t`. -/
def gsmtime2fn (t : GsmTime) : Option Nat :=
  match modFlr ((t.t3 : Int) - t.t2) 26 with
  | none => none
  | some m => some (((51 * m + t.t3 + 51 * 26 * t.t1) % 4294967296).toNat % (26 * 51 * 2048))

/-- src/gsm/gsm_utils.c:906-912 `osmo_dump_gsmtime_buf`, the text printed
(before truncation to the buffer). -/
def dumpGsmtimeText (t : GsmTime) : List Byte :=
  decNatW 6 t.fn ++ [0x2f#8] ++ decNatW 2 t.t1 ++ [0x2f#8] ++ decNatW 2 t.t2 ++ [0x2f#8] ++ decNatW 2 t.t3
    ++ [0x2f#8] ++ decNatW 2 (t.fn % 256 % 52)

/-- include/osmocom/gsm/gsm0502.h:17-18 `GSM_TDMA_HYPERFRAME`. -/
def HYPERFRAME : Nat := 2048 * (26 * 51)

/-- include/osmocom/gsm/gsm0502.h:21-22 `GSM_TDMA_FN_SUM` on `uint32_t`. -/
def fnSum (a b : Nat) : Nat := (a + b) % 4294967296 % HYPERFRAME

/-- include/osmocom/gsm/gsm0502.h:24-25 `GSM_TDMA_FN_SUB` on `uint32_t`. -/
def fnSub (a b : Nat) : Nat := (((a : Int) + HYPERFRAME - b) % 4294967296).toNat % HYPERFRAME

/-- include/osmocom/gsm/gsm0502.h:27-28 `GSM_TDMA_FN_DIFF` on `uint32_t`. -/
def fnDiff (a b : Nat) : Nat := if fnSub a b < fnSub b a then fnSub a b else fnSub b a

/-- include/osmocom/gsm/gsm_utils.h:194-197 `gsm_fn2rfn`. -/
def fn2rfn (fn : Nat) : Nat := fn % 42432 % 65536

/-- src/gsm/gsm_utils.c:945-960, the multiple of the RFN period to which the
RFN is added. -/
def rfnRounded (rfn currFn : Nat) : Nat :=
  let rounded := fnSub currFn (fn2rfn currFn)
  if fnDiff rfn (fn2rfn currFn) > 42432 / 2 then
    if rounded < 42432 then fnSub HYPERFRAME (fnSub 42432 rounded) else fnSub rounded 42432
  else rounded

/-- src/gsm/gsm_utils.c:929-965 `gsm_rfn2fn`; `none` = failed assertion. -/
def rfn2fn (rfn currFn : Nat) : Option Nat :=
  if rfn < 42432 then some (fnSum (rfnRounded rfn currFn) rfn) else none

/-! ### TLLI -/

/-- include/osmocom/gsm/gsm_utils.h:200-208 `gprs_tlli_type`. -/
inductive TlliType where
  | loc | foreign | random | auxiliary | reserved | gRnti | randGRnti
deriving Repr, DecidableEq

/-- src/gsm/gsm_utils.c:1004-1020 `gprs_tlli_type`. -/
def tlliType (tlli : BitVec 32) : TlliType :=
  if tlli &&& 0xc0000000#32 = 0xc0000000#32 then .loc
  else if tlli &&& 0xc0000000#32 = 0x80000000#32 then .foreign
  else if tlli &&& 0xf8000000#32 = 0x78000000#32 then .random
  else if tlli &&& 0xf8000000#32 = 0x70000000#32 then .auxiliary
  else if tlli &&& 0xf0000000#32 = 0x00000000#32 then .gRnti
  else if tlli &&& 0xf0000000#32 = 0x10000000#32 then .randGRnti
  else .reserved

/-- src/gsm/gsm_utils.c:1027-1041 `gprs_tlli2tmsi`. -/
def tlli2tmsi (tlli : BitVec 32) : BitVec 32 :=
  match tlliType tlli with
  | .loc | .foreign => 0xc0000000#32 ||| tlli
  | _ => 0xffffffff#32

/-- src/gsm/gsm_utils.c:1047-1062 `gprs_tmsi2tlli`. -/
def tmsi2tlli (ptmsi : BitVec 32) (type : TlliType) : BitVec 32 :=
  match type with
  | .loc => ptmsi ||| 0xc0000000#32
  | .foreign => (ptmsi &&& 0x3fffffff#32) ||| 0x80000000#32
  | _ => 0#32

end Verif.GsmUtils
