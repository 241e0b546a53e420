import Verif.Bitvec.Model
import Verif.Prbs.Props
/-!
Silence descriptor frames (SID) of the full rate, enhanced full rate and half
rate codecs, src/codec/gsm610.c, gsm660.c and gsm620.c, and the error
concealment unit for full rate, src/codec/ecu_fr.c.

A frame is the list of its octets; the functions without a length argument are
given frames of their fixed size (`GSM_FR_BYTES` = 33, `GSM_EFR_BYTES` = 31,
`GSM_HR_BYTES` = 14).
-/
namespace Verif.Codec
open Verif.Bitvec

/-- src/codec/gsm610.c:313-326 `sid_code_word_bits` -/
def frSid : List Nat :=
  [57, 58, 60, 61, 63, 64, 66, 67, 69, 70, 72, 73, 75, 76, 78, 79, 81, 82, 84, 85, 87, 88, 90, 91,
   93, 94, 113, 114, 116, 117, 119, 120, 122, 123, 125, 126, 128, 129, 131, 132, 134, 135, 137,
   138, 140, 141, 143, 144, 146, 147, 149, 150, 169, 170, 172, 173, 175, 176, 178, 179, 181, 182,
   184, 185, 187, 188, 190, 191, 193, 194, 196, 197, 199, 200, 202, 203, 205, 206, 225, 226, 228,
   229, 231, 232, 234, 235, 237, 240, 243, 246, 249, 252, 255, 258, 261]

/-- src/codec/gsm660.c:261-274 `sid_code_word_bits`, without the signature -/
def efrSid : List Nat :=
  [45, 46, 48, 49, 50, 51, 52, 53, 54, 55, 56, 57, 58, 59, 60, 61, 62, 63, 64, 65, 66, 67, 68, 94,
   95, 96, 98, 99, 100, 101, 102, 103, 104, 105, 106, 107, 108, 109, 110, 111, 112, 113, 114, 115,
   116, 117, 118, 148, 149, 150, 151, 152, 153, 154, 155, 156, 157, 158, 159, 160, 161, 162, 163,
   164, 165, 166, 167, 168, 169, 170, 171, 196, 197, 198, 199, 200, 201, 202, 203, 204, 205, 206,
   207, 208, 209, 212, 213, 214, 215, 216, 217, 218, 219, 220, 221]

/-- include/osmocom/codec/codec.h:91-95 `enum osmo_gsm631_sid_class` -/
inductive SidClass where
  | speech | invalid | valid
  deriving DecidableEq, Repr

/-- the loop of src/codec/gsm610.c:395-400 and src/codec/gsm660.c:343-348:
positions left, count; `want` is ZERO or ONE -/
def classifyLoop (f : List Byte) (want : BitVal) : List Nat → Nat → SidClass
  | [], n => if n ≥ 2 then .invalid else .valid
  | p :: ps, n =>
    let n := if getBitPos ⟨0, f⟩ p ≠ some want then n + 1 else n
    if n ≥ 16 then .speech else classifyLoop f want ps n

/-- src/codec/gsm610.c:385-405 `osmo_fr_sid_classify` -/
def frClassify (f : List Byte) : SidClass := classifyLoop f .zero frSid 0

/-- src/codec/gsm660.c:333-353 `osmo_efr_sid_classify` -/
def efrClassify (f : List Byte) : SidClass := classifyLoop f .one (efrSid.map (· + 4)) 0

/-- src/codec/gsm610.c:334-353 `osmo_fr_check_sid`; `none`: no octet to read -/
def frCheckSid (f : List Byte) : Option Bool :=
  match f with
  | [] => none
  | b :: _ =>
    if b >>> 4 ≠ 0xD then some false
    else some (frSid.all fun p => getBitPos ⟨0, f⟩ p = some .zero)

/-- src/codec/gsm660.c:282-301 `osmo_efr_check_sid` -/
def efrCheckSid (f : List Byte) : Option Bool :=
  match f with
  | [] => none
  | b :: _ =>
    if b >>> 4 ≠ 0xC then some false
    else some ((efrSid.map (· + 4)).all fun p => getBitPos ⟨0, f⟩ p = some .one)

/-- src/codec/gsm620.c:278-297 `osmo_hr_check_sid` -/
def hrCheckSid (f : List Byte) : Bool :=
  if f.length < 14 then false
  else if f.getD 4 0 &&& 0x7F ≠ 0x7F then false
  else (f.drop 5).take 9 = List.replicate 9 0xFF

/-- src/codec/gsm610.c:424-433: what is kept of each octet behind the first five -/
def frKeep : List Byte :=
  [0xFF, 0xFF, 0xFF, 0xFF, 0xFF] ++
    ([0x00, 0x1F, 0x80, 0x00, 0x00, 0x00, 0x00] ++ [0x00, 0x1F, 0x80, 0x00, 0x00, 0x00, 0x00] ++
     [0x00, 0x1F, 0x80, 0x00, 0x00, 0x00, 0x00] ++ [0x00, 0x1F, 0x80, 0x00, 0x00, 0x00, 0x00])

/-- src/codec/gsm610.c:420-434 `osmo_fr_sid_reset` -/
def frReset (f : List Byte) : List Byte := f.mapIdx fun j b => b &&& frKeep.getD j 0xFF

/-- src/codec/gsm660.c:374-388: the bits set in each octet (0xFF where the octet
is assigned) -/
def efrSet : List Byte :=
  [0, 0, 0, 0, 0, 0, 0x6F, 0xFF, 0xFF, 0x80, 0, 0, 0x3B, 0xFF, 0xFF, 0xE0, 0, 0, 0, 0xFF, 0xFF, 0xFF,
   0, 0, 0, 0xFF, 0xFC, 0xFF, 0xC0]

/-- src/codec/gsm660.c:371-389 `osmo_efr_sid_reset` -/
def efrReset (f : List Byte) : List Byte := f.mapIdx fun j b => b ||| efrSet.getD j 0

/-- src/codec/gsm620.c:323-324: the bits set in each octet -/
def hrSet : List Byte := [0, 0, 0, 0, 0x7F, 0xFF, 0xFF, 0xFF, 0xFF, 0xFF, 0xFF, 0xFF, 0xFF, 0xFF]

/-- src/codec/gsm620.c:320-325 `osmo_hr_sid_reset` -/
def hrReset (f : List Byte) : List Byte := f.mapIdx fun j b => b ||| hrSet.getD j 0

/-- src/codec/gsm610.c:442-462 `osmo_fr_sid_preen`: return value and frame -/
def frPreen (f : List Byte) : Bool × List Byte :=
  match frClassify f with
  | .speech => (true, f)
  | .invalid => (false, f)
  | .valid => (true, frReset f)

/-- src/codec/gsm660.c:397-417 `osmo_efr_sid_preen` -/
def efrPreen (f : List Byte) : Bool × List Byte :=
  match efrClassify f with
  | .speech => (true, f)
  | .invalid => (false, f)
  | .valid => (true, efrReset f)

/-! ### src/codec/ecu_fr.c -/

/-- src/codec/ecu_fr.c:84-90 `enum ecu_principal_state` -/
inductive PrState where
  | noData | speech | spMuting | sid | sidMuting
  deriving DecidableEq, Repr

/-- src/codec/ecu_fr.c:92-101 `struct fr_ecu_state` -/
structure Ecu where
  pr : PrState
  speechFrame : List Byte
  sidPrefix : List Byte
  sidXmaxc : Nat
  reemit : Nat
  prng : BitVec 64
  lastSid : Bool
  deriving DecidableEq, Repr

/-- src/codec/gsm610.c:305-311 `osmo_gsm611_silence_frame` -/
def silence : List Byte :=
  [0xDA, 0xA7, 0xAA, 0xA5, 0x1A,
   0x50, 0x20, 0x38, 0xE4, 0x6D, 0xB9, 0x1B, 0x50, 0x20, 0x38, 0xE4, 0x6D, 0xB9, 0x1B,
   0x50, 0x20, 0x38, 0xE4, 0x6D, 0xB9, 0x1B, 0x50, 0x20, 0x38, 0xE4, 0x6D, 0xB9, 0x1B]

/-- src/codec/ecu_fr.c:171: `Xmaxc` of subframe `sub`, the bit operations as arithmetic -/
def xmaxc (f : List Byte) (sub : Nat) : Nat :=
  (f.getD (sub * 7 + 6) 0).toNat % 32 * 2 + (f.getD (sub * 7 + 7) 0).toNat / 128

/-- src/codec/ecu_fr.c:177-180: `Xmaxc` of subframe `sub` set to `x` -/
def putXmaxc (f : List Byte) (sub x : Nat) : List Byte :=
  (f.modify (sub * 7 + 6) fun b => BitVec.ofNat 8 (b.toNat / 32 * 32 + x / 2)).modify (sub * 7 + 7)
    fun b => BitVec.ofNat 8 (b.toNat % 128 + x % 2 * 128)

/-- the loop of src/codec/ecu_fr.c:170-181, `n` subframes left -/
def reduceLoop : Nat → Nat → List Byte → Bool → List Byte × Bool
  | 0, _, f, mute => (f, mute)
  | n + 1, sub, f, mute =>
    if xmaxc f sub > 4 then reduceLoop n (sub + 1) (putXmaxc f sub (xmaxc f sub - 4)) false
    else reduceLoop n (sub + 1) (putXmaxc f sub 0) mute

/-- src/codec/ecu_fr.c:165-183 `reduce_xmaxc` -/
def reduceXmaxc (f : List Byte) : List Byte × Bool := reduceLoop 4 0 f true

/-- the loop of src/codec/ecu_fr.c:195-199, `n` subframes left -/
def gridLoop : Nat → Nat → List Byte → BitVec 64 → List Byte × BitVec 64
  | 0, _, f, s => (f, s)
  | n + 1, sub, f, s =>
    let (u, s) := Prbs.getUbit Prbs.prbs15 s
    let (v, s) := Prbs.getUbit Prbs.prbs15 s
    gridLoop n (sub + 1)
      (f.modify (sub * 7 + 6) fun b =>
        BitVec.ofNat 8 (b.toNat / 128 * 128 + u.toNat * 64 + v.toNat * 32 + b.toNat % 32)) s

/-- src/codec/ecu_fr.c:191-200 `random_grid_pos` -/
def randomGrid (f : List Byte) (s : BitVec 64) : List Byte × BitVec 64 := gridLoop 4 0 f s

/-- src/codec/ecu_fr.c:107-160 `fr_ecu_input`; 149 with the bit operations as arithmetic -/
def input (s : Ecu) (f : List Byte) : Ecu :=
  match frClassify f with
  | .speech => { s with speechFrame := f, pr := .speech, lastSid := false }
  | .invalid => { s with reemit := 0, lastSid := true }
  | .valid =>
    { s with sidPrefix := f.take 5, pr := .sid, reemit := 0, lastSid := true
             sidXmaxc := (f.getD 27 0).toNat % 32 * 2 + (f.getD 28 0).toNat / 128 }

/-- src/codec/ecu_fr.c:225-231: one subframe of a repeated SID -/
def sidSub (x : Nat) : List Byte := [0, BitVec.ofNat 8 (x / 2), BitVec.ofNat 8 (x % 2 * 128), 0, 0, 0, 0]

/-- src/codec/ecu_fr.c:218-233 `reemit_sid` -/
def reemitSid (s : Ecu) : List Byte :=
  s.sidPrefix ++ (sidSub s.sidXmaxc ++ sidSub s.sidXmaxc ++ sidSub s.sidXmaxc ++ sidSub s.sidXmaxc)

/-- src/codec/ecu_fr.c:203-211 `reduce_xmaxc_sid` -/
def reduceSid (s : Ecu) : Ecu × Bool :=
  if s.sidXmaxc > 4 then ({ s with sidXmaxc := s.sidXmaxc - 4 }, false) else ({ s with sidXmaxc := 0 }, true)

/-- src/codec/ecu_fr.c:239-280 `fr_ecu_output`: state and frame -/
def output (s : Ecu) : Ecu × List Byte :=
  match s.pr with
  | .noData => (s, silence)
  | .speech => ({ s with pr := .spMuting }, s.speechFrame)
  | .spMuting =>
    let r := reduceXmaxc s.speechFrame
    let g := randomGrid r.1 s.prng
    ({ s with speechFrame := r.1, prng := g.2, pr := if r.2 then .noData else .spMuting }, g.1)
  | .sid =>
    let s := { s with reemit := (s.reemit + 1) % 256 }
    let s := if s.reemit ≥ 48 then { (reduceSid s).1 with pr := .sidMuting } else s
    (s, reemitSid s)
  | .sidMuting =>
    let r := reduceSid s
    if r.2 then ({ r.1 with pr := .noData }, silence) else (r.1, reemitSid r.1)

/-- src/codec/ecu_fr.c:286-296 `ecu_fr_init` -/
def init : Ecu :=
  { pr := .noData, speechFrame := List.replicate 33 0, sidPrefix := List.replicate 5 0, sidXmaxc := 0, reemit := 0,
    prng := Prbs.stateInit Prbs.prbs15, lastSid := false }

/-- src/codec/ecu_fr.c:303-317 `ecu_fr_frame_in` -/
def frameIn (s : Ecu) (bfi : Bool) (f : List Byte) : Ecu :=
  if bfi then s
  else if f.length ≠ 33 then s
  else if f.getD 0 0 &&& 0xF0 ≠ 0xD0 then s
  else input s f

/-- src/codec/ecu_fr.c:319-325 `ecu_fr_frame_out` -/
def frameOut (s : Ecu) : Ecu × List Byte := output s

/-- src/codec/ecu_fr.c:327-332 `ecu_fr_is_dtx_pause` -/
def isDtxPause (s : Ecu) : Bool := s.lastSid

end Verif.Codec
