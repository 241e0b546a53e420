import Verif.RaId.Model
/-!
Model of the speech codec elements of `src/gsm/gsm0808_utils.c` (3GPP TS 48.008
3.2.2.103 and 3.2.2.104).

Simplifications: the message buffer is the list of octets appended, room is
assumed; an encoder that fails yields its error code only (the octets already
appended are of no use); NULL arguments are left out; the only error of the
decoders, -EINVAL, is `none`.  The decoders check the length left before every
read, which the patterns mirror.
-/
namespace Verif.SpeechCodec
open Verif.RaId

/-- `-EINVAL` of gsm0808_utils.c:243, 280, 285. -/
def EINVAL : Int := -22
/-- `-EOVERFLOW` of gsm0808_utils.c:430. -/
def EOVERFLOW : Int := -75

/-- gsm_08_08.h:593-606, `struct gsm0808_speech_codec`. -/
structure Codec where
  fi : Bool
  pi : Bool
  pt : Bool
  tf : Bool
  type : Byte
  cfg : BitVec 16
deriving DecidableEq, Repr

/-- gsm0808_utils.c:226-244: is the type extended?  `none` = not a type. -/
def extended (type : Byte) : Option Bool :=
  if type ∈ [0x0#8, 0x2#8, 0x3#8, 0xc#8, 0x9#8, 0x1#8, 0x4#8, 0xd#8, 0xb#8] then some false
  else if type = 0xfd#8 then some true
  else none

/-- gsm0808_utils.c:248-255, the upper half of the header. -/
def flags (sc : Codec) : Byte :=
  (if sc.fi then 0x80#8 else 0#8) ||| (if sc.pi then 0x40#8 else 0#8) |||
  (if sc.pt then 0x20#8 else 0#8) ||| (if sc.tf then 0x10#8 else 0#8)

/-- `osmo_ntohs` (gsm0808_utils.c:273) on a host of the given endianness. -/
def ntohs (be : Bool) (v : BitVec 16) : BitVec 16 :=
  if be then v else (v <<< 8) ||| (v >>> 8)

/-- gsm0808_utils.c:269-287, the octets of the configuration. -/
def cfgOctets (be : Bool) (sc : Codec) : Except Int (List Byte) :=
  if sc.type = 0x3#8 ∨ sc.type = 0x4#8 ∨ sc.type = 0xb#8 then .ok (be16 (ntohs be sc.cfg))
  else if sc.type = 0xc#8 ∨ sc.type = 0x9#8 ∨ sc.type = 0xd#8 ∨ sc.type = 0xfd#8 then
    if sc.cfg >>> 8 ≠ 0#16 then .error EINVAL else .ok [sc.cfg.setWidth 8 &&& 0xff#8]
  else if sc.cfg ≠ 0#16 then .error EINVAL else .ok []

/-- gsm0808_utils.c:214-290, `enc_speech_codec`: the octets appended. -/
def encOne (be : Bool) (sc : Codec) : Except Int (List Byte) :=
  match extended sc.type with
  | none => .error EINVAL
  | some ext =>
    let head := if ext then [flags sc ||| 0x0f#8, sc.type] else [flags sc ||| sc.type]
    match cfgOctets be sc with
    | .error e => .error e
    | .ok c => .ok (head ++ c)

/-- gsm0808_utils.c:296-312, `gsm0808_enc_speech_codec2`: octets and return
value. -/
def enc (be : Bool) (sc : Codec) : Except Int (List Byte × Nat) :=
  match encOne be sc with
  | .error e => .error e
  | .ok b => .ok (0x7e#8 :: BitVec.ofNat 8 b.length :: b, b.length % 256 + 2)

/-- gsm0808_utils.c:424-431, the loop of `gsm0808_enc_speech_codec_list2` with
`bytes_used` octets so far. -/
def encLoop (be : Bool) : List Codec → Nat → Except Int (List Byte)
  | [], _ => .ok []
  | sc :: scs, used =>
    match encOne be sc with
    | .error e => .error e
    | .ok b =>
      if used + b.length > 0xff then .error EOVERFLOW
      else match encLoop be scs (used + b.length) with
        | .error e => .error e
        | .ok r => .ok (b ++ r)

/-- gsm0808_utils.c:411-435, `gsm0808_enc_speech_codec_list2`. -/
def encList (be : Bool) (scs : List Codec) : Except Int (List Byte × Nat) :=
  match encLoop be scs 0 with
  | .error e => .error e
  | .ok b => .ok (0x7d#8 :: BitVec.ofNat 8 b.length :: b, b.length % 256 + 2)

/-- gsm0808_utils.c:356-363: a codec with the flags of the header. -/
def withFlags (h type : Byte) (cfg : BitVec 16) : Codec :=
  ⟨h.getLsbD 7, h.getLsbD 6, h.getLsbD 5, h.getLsbD 4, type, cfg⟩

/-- gsm0808_utils.c:376-404: the configuration after the header and type of `k`
octets; `osmo_load16le` has the least significant octet first. -/
def decCfg (h type : Byte) (k : Nat) (l : List Byte) : Option (Codec × Nat) :=
  if type = 0x0#8 ∨ type = 0x2#8 ∨ type = 0x1#8 then some (withFlags h type 0#16, k)
  else if type = 0xd#8 ∨ type = 0xfd#8 ∨ type = 0xc#8 ∨ type = 0x9#8 then
    match l with
    | c :: _ => some (withFlags h type (c.setWidth 16), k + 1)
    | [] => none
  else if type = 0x3#8 ∨ type = 0x4#8 ∨ type = 0xb#8 then
    match l with
    | a :: b :: _ => some (withFlags h type (ld16 b a), k + 2)
    | _ => none
  else none

/-- gsm0808_utils.c:332-405, `gsm0808_dec_speech_codec`: codec and octets
parsed; `none` = -EINVAL. -/
def dec : List Byte → Option (Codec × Nat)
  | [] => none
  | h :: l =>
    if h &&& 0x0f#8 = 0x0f#8 then
      match l with
      | [] => none
      | t :: l => decCfg h t 2 l
    else decCfg h (h &&& 0x0f#8) 1 l

/-- gsm0808_utils.c:469-480, the loop of `gsm0808_dec_speech_codec_list` with
room for `n` more codecs. -/
def decLoop : Nat → List Byte → Option (List Codec × Nat)
  | 0, _ => some ([], 0)
  | n + 1, l =>
    if l = [] then some ([], 0)
    else match dec l with
      | none => none
      | some (c, k) =>
        match decLoop n (l.drop k) with
        | none => none
        | some (cs, m) => some (c :: cs, k + m)

/-- gsm0808_utils.c:455-485, `gsm0808_dec_speech_codec_list`; the array has 255
elements (gsm_08_08.h:724-728). -/
def decList (l : List Byte) : Option (List Codec × Nat) := decLoop 255 l

end Verif.SpeechCodec
