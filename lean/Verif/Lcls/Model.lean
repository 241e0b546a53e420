import Verif.Tlv.EncodeProps
import Verif.Gcr.Props
/-!
Model of the local call local switch (LCLS) parameters of BSSMAP (3GPP TS 48.008
3.2.2.115-3.2.2.118): `src/gsm/gsm0808_utils.c` and the element definitions and
the notification of `src/gsm/gsm0808.c`.

Simplifications: the message buffer is the list of octets appended, room is
assumed; `config` and `control` are octets (enumerations in C, of which the
encoder takes the low 8 bits); the BSSAP header in front of messages is left out.
-/
namespace Verif.Lcls
open Verif.Gcr (Gcr)

/-- gsm0808_utils.h:226-232, `struct osmo_lcls`. -/
structure Lcls where
  config : Byte
  control : Byte
  gcr : Gcr
  gcrAvailable : Bool
  corrNeeded : Bool
deriving DecidableEq, Repr

/-- gsm0808.c:2177-2318, `bss_att_tlvdef`, with the tags of gsm_08_08.h:193-345. -/
def tlvdef : Tlv.Definition := fun t =>
  if t.toNat ∈ [0x1b, 0x35, 0x6b, 0x85, 0x8f, 0x90, 0x92, 0x97, 0xf0] then ⟨.t, 0⟩
  else if t.toNat ∈ [0xc, 0xd, 0xe, 0x14, 0x15, 0x18, 0x19, 0x1c, 0x1d, 0x21, 0x23, 0x24, 0x25, 0x27, 0x2b, 0x2c,
    0x2d, 0x2f, 0x31, 0x32, 0x33, 0x36, 0x38, 0x39, 0x3f, 0x40, 0x67, 0x6a, 0x81, 0x86, 0x87, 0x88, 0x8a, 0x8b,
    0x8c, 0x8d, 0x8e, 0xf1] then ⟨.tv, 0⟩
  else if t.toNat ∈ [0x4, 0x5, 0x6, 0x7, 0x8, 0x9, 0xa, 0xb, 0x12, 0x13, 0x17, 0x1a, 0x1e, 0x1f, 0x20, 0x26, 0x28,
    0x29, 0x2a, 0x2e, 0x30, 0x37, 0x3a, 0x3b, 0x3c, 0x3d, 0x3e, 0x43, 0x44, 0x45, 0x46, 0x47, 0x48, 0x49, 0x4a,
    0x4b, 0x4c, 0x4d, 0x4e, 0x4f, 0x50, 0x51, 0x52, 0x53, 0x54, 0x55, 0x61, 0x63, 0x64, 0x65, 0x66, 0x68, 0x69,
    0x6c, 0x6d, 0x6e, 0x6f, 0x70, 0x71, 0x72, 0x73, 0x74, 0x75, 0x76, 0x77, 0x78, 0x79, 0x7a, 0x7b, 0x7c, 0x7d,
    0x7e, 0x80, 0x84, 0x89, 0x91, 0x93, 0xf2] then ⟨.tlv, 0⟩
  else if t.toNat = 0x01 then ⟨.fixed, 2⟩
  else if t.toNat = 0x03 then ⟨.fixed, 21⟩
  else if t.toNat = 0x22 then ⟨.fixed, 4⟩
  else if t.toNat = 0x7f then ⟨.fixed, 4⟩
  else if t.toNat = 0x83 then ⟨.fixed, 16⟩
  else if t.toNat = 0x96 then ⟨.fixed, 5⟩
  else if t.toNat ∈ [0x94, 0x95, 0x98, 0x99, 0x9a] then ⟨.fixed, 3⟩
  else ⟨.none, 0⟩

/-- gsm0808_utils.c:638-648, `gsm0808_enc_gcr`: the octets appended and the
return value; `msgb_tl_put` (tlv.h:399-407) writes 0 for the length at first. -/
def encGcr (g : Gcr) : Option (List Byte × Byte) := do
  let (b, r) ← Gcr.enc [] g
  if r = 0#8 then some (0x89#8 :: 0#8 :: b, 0#8)
  else some (0x89#8 :: r :: b, r + 2#8)

/-- gsm0808_utils.c:654-666, `gsm0808_dec_gcr`, for the values `val` parsed. -/
def decGcr (g : Gcr) (val : Byte → Option (List Byte)) : Option (Gcr × Int) :=
  match val 0x89#8 with
  | none => some (g, -22)
  | some v =>
    if v.length < 13 then some (g, -22)
    else do
      let (g, ret) ← Gcr.dec g v
      if ret < 0 then some (g, -2) else some (g, 2 + ret)

/-- gsm0808_utils.c:672-699, `gsm0808_enc_lcls`: the octets appended and the
return value. -/
def enc (l : Lcls) : Option (List Byte × Byte) :=
  let first := if l.gcrAvailable then encGcr l.gcr else some ([], 0#8)
  first.map fun (b, n) =>
    let (b, n) := if l.config ≠ 0xff#8 then (b ++ [0x8a#8, l.config], n + 2#8) else (b, n)
    let (b, n) := if l.control ≠ 0xff#8 then (b ++ [0x8b#8, l.control], n + 2#8) else (b, n)
    if l.corrNeeded = false then (b ++ [0x8c#8], n + 1#8) else (b, n)

/-- tlv.h:600-608, `tlvp_val8`. -/
def val8 (val : Byte → Option (List Byte)) (tag dflt : Byte) : Byte :=
  match val tag with
  | some (b :: _) => b
  | _ => dflt

/-- gsm0808_utils.c:705-715, `gsm0808_dec_lcls`; `g` is what the structure has
before. -/
def dec (g : Gcr) (val : Byte → Option (List Byte)) : Option (Lcls × Int) := do
  let (g, ret) ← decGcr g val
  some (⟨val8 val 0x8a#8 0xff#8, val8 val 0x8b#8 0xff#8, g, !decide (ret < 0), (val 0x8c#8).isNone⟩, ret)

/-- gsm0808.c:411-425, `gsm0808_create_lcls_notification`: the elements after the
message type. -/
def notification (status : Byte) (breakReq : Bool) : List Byte :=
  [0x8d#8, status] ++ if breakReq then [0x8e#8] else []

end Verif.Lcls
