import Verif.Tlv.EncodeProps
/-!
Model of `src/gsm/bsslap.c`: messages of the BSS LCS assistance protocol (3GPP TS
48.071).

Simplifications: the message buffer is the list of octets appended, room is
assumed; causes are octets (the C type is an enumeration of which the encoder
takes the low 8 bits); a channel description is its three octets
(gsm_04_08.h:501-531); the description of errors for logging is left out.
-/
namespace Verif.Bsslap
open Verif.Tlv (TlvType Definition Parsed Run)

/-- `-EINVAL` of bsslap.c:99-277. -/
def EINVAL : Int := -22
/-- `-ENOTSUP` of bsslap.c:199. -/
def ENOTSUP : Int := -95

/-- gsm_48_071.h:84-116, `struct bsslap_pdu`: the message types with their
members; `other` is any other message type. -/
inductive Pdu where
  | taRequest
  | taResponse (cell : BitVec 16) (ta : Byte)
  | reject (cause : Byte)
  | reset (cell : BitVec 16) (ta : Byte) (chan : Byte × Byte × Byte) (cause : Byte)
  | abort (cause : Byte)
  | taLayer3 (ta : Byte)
  | other (type : Byte)
deriving DecidableEq, Repr

/-- bsslap.c:36-65, `osmo_bsslap_tlvdef`, with the tags of gsm_48_071.h:56-81. -/
def tlvdef : Definition := fun t =>
  match t.toNat with
  | 0x01 => ⟨.tv, 0⟩
  | 0x09 => ⟨.fixed, 2⟩
  | 0x10 => ⟨.fixed, 3⟩
  | 0x14 => ⟨.tlv, 0⟩
  | 0x18 => ⟨.tv, 0⟩
  | 0x19 => ⟨.tv, 0⟩
  | 0x1b => ⟨.tlv, 0⟩
  | 0x1c => ⟨.tlv, 0⟩
  | 0x1d => ⟨.tlv, 0⟩
  | 0x1e => ⟨.tlv, 0⟩
  | 0x21 => ⟨.tlv, 0⟩
  | 0x22 => ⟨.tv, 0⟩
  | 0x23 => ⟨.tv, 0⟩
  | 0x24 => ⟨.tlv, 0⟩
  | 0x25 => ⟨.fixed, 8⟩
  | 0x26 => ⟨.tv, 0⟩
  | 0x27 => ⟨.tv, 2⟩
  | 0x28 => ⟨.tlv, 0⟩
  | 0x29 => ⟨.tv, 0⟩
  | 0x2a => ⟨.fixed, 4⟩
  | 0x2b => ⟨.fixed, 4⟩
  | 0x2c => ⟨.tlv, 0⟩
  | 0x2d => ⟨.fixed, 2⟩
  | 0x2e => ⟨.tlv, 0⟩
  | 0x2f => ⟨.fixed, 16⟩
  | 0x30 => ⟨.tv, 0⟩
  | _ => ⟨.none, 0⟩

/-- bsslap.c:87-91, `osmo_bsslap_ie_enc_cell_id`. -/
def encCellId (c : BitVec 16) : List Byte := [0x09#8, (c >>> 8).setWidth 8, c.setWidth 8]
/-- bsslap.c:93-102, `osmo_bsslap_ie_dec_cell_id`. -/
def decCellId : List Byte → Except Int (BitVec 16)
  | [a, b] => .ok ((a.setWidth 16 <<< 8) ||| b.setWidth 16)
  | _ => .error EINVAL
/-- bsslap.c:104-108, `osmo_bsslap_ie_enc_ta`. -/
def encTa (t : Byte) : List Byte := [0x01#8, t]
/-- bsslap.c:110-119, `osmo_bsslap_ie_dec_ta`. -/
def decTa : List Byte → Except Int Byte
  | [a] => .ok a
  | _ => .error EINVAL
/-- bsslap.c:121-125, `osmo_bsslap_ie_enc_cause`. -/
def encCause (c : Byte) : List Byte := [0x18#8, c]
/-- bsslap.c:127-136, `osmo_bsslap_ie_dec_cause`. -/
def decCause : List Byte → Except Int Byte
  | [a] => .ok a
  | _ => .error EINVAL
/-- bsslap.c:138-144, `osmo_bsslap_ie_enc_chan_desc`. -/
def encChan (c : Byte × Byte × Byte) : List Byte := [0x10#8, c.1, c.2.1, c.2.2]
/-- bsslap.c:146-156, `osmo_bsslap_ie_dec_chan_desc`. -/
def decChan : List Byte → Except Int (Byte × Byte × Byte)
  | [a, b, c] => .ok (a, b, c)
  | _ => .error EINVAL

/-- bsslap.c:163-202, `osmo_bsslap_enc`: the octets appended, whose number is
returned. -/
def enc : Pdu → Except Int (List Byte)
  | .taRequest => .ok [0x01#8]
  | .taResponse cell ta => .ok (0x02#8 :: (encCellId cell ++ encTa ta))
  | .reject c => .ok (0x0a#8 :: encCause c)
  | .reset cell ta chan c => .ok (0x0b#8 :: (encCellId cell ++ encTa ta ++ encChan chan ++ encCause c))
  | .abort c => .ok (0x0c#8 :: encCause c)
  | .taLayer3 ta => .ok (0x0d#8 :: encTa ta)
  | .other _ => .error ENOTSUP

/-- bsslap.c:224-232, `DEC_IE_MANDATORY` for the values `val` parsed. -/
def mandatory {α : Type} (val : Byte → Option (List Byte)) (iei : Byte) (f : List Byte → Except Int α) :
    Except Int α :=
  match val iei with
  | none => .error EINVAL
  | some v => f v

/-- bsslap.c:250-278, the message by type. -/
def decMsg (type : Byte) (val : Byte → Option (List Byte)) : Except Int Pdu :=
  match type.toNat with
  | 0x02 => do
    let cell ← mandatory val 0x09#8 decCellId
    let ta ← mandatory val 0x01#8 decTa
    return .taResponse cell ta
  | 0x0a => do
    let c ← mandatory val 0x18#8 decCause
    return .reject c
  | 0x0b => do
    let cell ← mandatory val 0x09#8 decCellId
    let ta ← mandatory val 0x01#8 decTa
    let chan ← mandatory val 0x10#8 decChan
    let c ← mandatory val 0x18#8 decCause
    return .reset cell ta chan c
  | 0x0c => do
    let c ← mandatory val 0x18#8 decCause
    return .abort c
  | 0x0d => do
    let ta ← mandatory val 0x01#8 decTa
    return .taLayer3 ta
  | _ => .error EINVAL

/-- bsslap.c:212-279, `osmo_bsslap_dec`; `none` = a read outside of the data. -/
def dec : List Byte → Option (Except Int Pdu)
  | [] => some (.error EINVAL)
  | type :: ies =>
    if type = 0x01#8 then some (.ok .taRequest)
    else match Tlv.parse2 1 tlvdef ies (ies.length : Nat) 0#8 0#8 with
      | .done rc (p :: _) =>
        if rc ≤ 0 then some (.error EINVAL)
        else some (decMsg type fun t => (p t).map fun w => (ies.drop w.1).take w.2)
      | .done rc [] => if rc ≤ 0 then some (.error EINVAL) else none
      | _ => none

end Verif.Bsslap
