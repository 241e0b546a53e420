import Verif.Gsup.Loop
/-!
Model of the Osmocom Authentication Protocol, src/gsm/oap.c.  The loop over
the IEs and the calls of the encoder are those of `Verif.Gsup.Model`.
-/
namespace Verif.Oap

open Verif.Gsup (Res Piece EncRes ieLoop decodeBe deref run tlv)

/-- include/osmocom/gsm/oap.h:66-79 `struct osmo_oap_message`: an array with
its `_present` flag is an option; without the flag the array is not looked at -/
structure Msg where
  messageType : Nat := 0
  cause : Nat := 0
  clientId : Nat := 0
  rand : Option (List Byte) := none
  autn : Option (List Byte) := none
  xres : Option (List Byte) := none
  auts : Option (List Byte) := none
  deriving DecidableEq, Repr

/-- `GMM_CAUSE_PROTO_ERR_UNSPEC`, `GMM_CAUSE_INV_MAND_INFO` -/
def PROTO_ERR_UNSPEC : Int := 111
def INV_MAND_INFO : Int := 96

/-- the `switch` of src/gsm/oap.c:74-150; `after` are the octets behind the value -/
def topIe (m : Msg) (tag : Byte) (v after : List Byte) : Res Msg :=
  match tag.toNat with
  | 0x30 =>
    if v.length ≠ 2 then .err (-PROTO_ERR_UNSPEC)
    else
      let id := decodeBe v % 2 ^ 16
      if id = 0 then .err (-PROTO_ERR_UNSPEC) else .ok { m with clientId := id }
  | 0x23 => if v.length ≠ 16 then .err (-PROTO_ERR_UNSPEC) else .ok { m with autn := some v }
  | 0x20 => if v.length ≠ 16 then .err (-PROTO_ERR_UNSPEC) else .ok { m with rand := some v }
  | 0x24 => if v.length ≠ 8 then .err (-PROTO_ERR_UNSPEC) else .ok { m with xres := some v }
  | 0x25 => if v.length ≠ 14 then .err (-PROTO_ERR_UNSPEC) else .ok { m with auts := some v }
  | 0x02 =>
    if v.length > 1 then .err (-PROTO_ERR_UNSPEC)
    else
      match deref v after with
      | none => .undef
      | some b => .ok { m with cause := b.toNat }
  | _ => .ok m

/-- src/gsm/oap.c:43-154 `osmo_oap_decode` -/
def decode (data : List Byte) : Res Msg :=
  let s := Tlv.shiftVFixed data 1
  if s.rc < 0 then .err (-INV_MAND_INFO)
  else ieLoop topIe s.rest.length s.rest { messageType := decodeBe (data.take 1) }

/-- an array with its flag: `msgb_tlv_put(msg, tag, sizeof(array), array)` -/
def putArray (tag : Byte) : Option (List Byte) → List Piece
  | none => []
  | some v => [.put (tlv tag v)]

/-- src/gsm/oap.c:166-187: what is appended -/
def pieces (m : Msg) : List Piece :=
  .put [BitVec.ofNat 8 m.messageType] ::
  ((if (BitVec.ofNat 8 m.cause : Byte) ≠ 0 then [.put (tlv 0x02 [BitVec.ofNat 8 m.cause])] else []) ++
   ((if m.clientId > 0 then [.put (tlv 0x30 [BitVec.ofNat 8 (m.clientId / 256), BitVec.ofNat 8 m.clientId])] else []) ++
    (putArray 0x20 m.rand ++ (putArray 0x23 m.autn ++ (putArray 0x25 m.auts ++ putArray 0x24 m.xres)))))

/-- src/gsm/oap.c:160-190 `osmo_oap_encode` into an empty message buffer with
`room` octets of tailroom; `OSMO_ASSERT` of the message type first -/
def encode (room : Nat) (m : Msg) : EncRes :=
  if m.messageType = 0 then .abort else run room [] (pieces m)

end Verif.Oap
