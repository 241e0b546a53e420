import Verif.Gsm23003.Model
import Verif.Msgb.Model
import Verif.MobileId.Model
/-!
Model of the location and routing area identities of src/gsm/gsm48.c (3GPP TS
24.008 10.5.1.3 and 10.5.5.15).  The packed structures `gsm48_loc_area_id`
(include/osmocom/gsm/protocol/gsm_04_08.h:898-901) and `gsm48_ra_id`
(include/osmocom/gsm/protocol/gsm_04_08.h:2261-2265) are the octets of the
memory they overlay.
-/
namespace Verif.RaId
open Verif.Gsm23003 Verif.Msgb

def ENOSPC : Int := 28

/-- include/osmocom/gsm/gsm48.h:26-32 `struct gprs_ra_id` -/
structure GprsRa where
  mcc : BitVec 16
  mnc : BitVec 16
  mnc3 : Bool
  lac : BitVec 16
  rac : Byte
  deriving DecidableEq, Repr

/-- `osmo_htons` and a store: most significant octet first -/
def be16 (v : BitVec 16) : List Byte := [(v >>> 8).setWidth 8, v.setWidth 8]

/-- a load and `osmo_ntohs`, `osmo_load16be` -/
def ld16 (a b : Byte) : BitVec 16 := (a.setWidth 16 <<< 8) ||| b.setWidth 16

/-- src/gsm/gsm48.c:1186-1190 `gsm48_generate_lai2`: the five octets written -/
def generateLai2 (l : Lai) : List Byte :=
  let d := plmnToBcd l.plmn
  [d.1, d.2.1, d.2.2] ++ be16 l.lac

/-- src/gsm/gsm48.c:1169-1181 `gsm48_generate_lai` -/
def generateLai (mcc mnc lac : BitVec 16) : List Byte :=
  generateLai2 { plmn := { mcc := mcc, mnc := mnc, mnc3 := false }, lac := lac }

/-- src/gsm/gsm48.c:1217-1221 `gsm48_decode_lai2`; `none` = read outside -/
def decodeLai2 : List Byte → Option Lai
  | a :: b :: c :: d :: e :: _ => some { plmn := plmnFromBcd (a, b, c), lac := ld16 d e }
  | _ => none

/-- src/gsm/gsm48.c:1201-1210 `gsm48_decode_lai`: MCC, MNC, LAC -/
def decodeLai (m : List Byte) : Option (BitVec 16 × BitVec 16 × BitVec 16) :=
  (decodeLai2 m).map fun l => (l.plmn.mcc, l.plmn.mnc, l.lac)

/-- src/gsm/gsm48.c:1142-1150 `gsm48_mcc_mnc_to_bcd` -/
def mccMncToBcd (mcc mnc : BitVec 16) : BitVec 8 × BitVec 8 × BitVec 8 :=
  plmnToBcd { mcc := mcc, mnc := mnc, mnc3 := false }

/-- src/gsm/gsm48.c:1155-1161 `gsm48_mcc_mnc_from_bcd` -/
def mccMncFromBcd (b : BitVec 8 × BitVec 8 × BitVec 8) : BitVec 16 × BitVec 16 :=
  let p := plmnFromBcd b
  (p.mcc, p.mnc)

/-- src/gsm/gsm48.c:1385-1397 `osmo_routing_area_id_decode` with `ra_data_len =
m.length`; the structure (if decoded) and the return value.  `none`: read outside. -/
def raiDecode (m : List Byte) : Option (Option Rai × Int) :=
  if m.length < 6 then some (none, -ENOSPC)
  else (decodeLai2 m).bind fun l => (m[5]?).map fun r => (some { lai := l, rac := r }, 6)

/-- src/gsm/gsm48.c:1405-1417 `osmo_routing_area_id_encode_buf` with `buflen =
buf.length` -/
def raiEncodeBuf (buf : List Byte) (r : Rai) : Option (List Byte × Int) :=
  if buf.length < 6 then some (buf, -ENOSPC)
  else (writeAt buf 0 (generateLai2 r.lai)).bind fun buf => (writeAt buf 5 [r.rac]).map fun buf => (buf, 6)

/-- appending what an encoder writes into the tail room, with `msgb_put` of the
value it returns if this is positive; src/gsm/gsm48.c:1425-1432 and (the test is
`rc < 0` there; an encoder never returns 0) src/gsm/gsm48.c:882-889 -/
def encodeMsgb (enc : List Byte → Option (List Byte × Int)) (m : Msgb) : Option (Msgb × Int) :=
  if m.tail < 0 ∨ m.tail > m.mem.length then none
  else
    (enc (m.mem.drop m.tail.toNat)).bind fun r =>
      if r.2 ≤ 0 then some (m, r.2)
      else some ((({ m with mem := m.mem.take m.tail.toNat ++ r.1 } : Msgb).put r.2.toNat).2, r.2)

/-- src/gsm/gsm48.c:1425-1432 `osmo_routing_area_id_encode_msgb` -/
def raiEncodeMsgb (m : Msgb) (r : Rai) : Option (Msgb × Int) := encodeMsgb (raiEncodeBuf · r) m

/-- src/gsm/gsm48.c:882-889 `osmo_mobile_identity_encode_msgb` -/
def miEncodeMsgb (m : Msgb) (mi : Option MobileId.MobId) (hex : Bool) : Option (Msgb × Int) :=
  encodeMsgb (MobileId.encodeBuf · mi hex) m

/-- src/gsm/gsm48.c:1439-1460 `gsm48_parse_ra` -/
def parseRa : List Byte → Option GprsRa
  | b0 :: b1 :: b2 :: b3 :: b4 :: b5 :: _ =>
    let mcc := u16 (b0 &&& 0x0f#8) * 100#16 + u16 (b0 >>> 4) * 10#16 + u16 (b1 &&& 0x0f#8) * 1#16
    let p := if b1 >>> 4 = 0x0f#8 then (u16 (b2 &&& 0x0f#8) * 10#16 + u16 (b2 >>> 4) * 1#16, false)
      else (u16 (b2 &&& 0x0f#8) * 100#16 + u16 (b2 >>> 4) * 10#16 + u16 (b1 >>> 4) * 1#16, true)
    some { mcc := mcc, mnc := p.1, mnc3 := p.2, lac := ld16 b3 b4, rac := b5 }
  | _ => none

/-- the low octet of an `int` expression of a `uint16_t` -/
def u8 (v : BitVec 16) : Byte := v.setWidth 8

/-- src/gsm/gsm48.c:1466-1481 `gsm48_encode_ra`, and src/gsm/gsm48.c:1487-1492
`gsm48_construct_ra` which returns 6: the octets written -/
def encodeRa (g : GprsRa) : List Byte :=
  let d0 := u8 (g.mcc / 100#16 % 10#16) ||| u8 ((g.mcc / 10#16 % 10#16) <<< 4)
  let d1 := u8 (g.mcc % 10#16)
  let d := if g.mnc < 100#16 ∧ g.mnc3 = false then
      (d1 ||| 0xf0#8, u8 (g.mnc / 10#16 % 10#16) ||| u8 ((g.mnc % 10#16) <<< 4))
    else (d1 ||| u8 ((g.mnc % 10#16) <<< 4), u8 (g.mnc / 100#16 % 10#16) ||| u8 ((g.mnc / 10#16 % 10#16) <<< 4))
  [d0, d.1, d.2] ++ be16 g.lac ++ [g.rac]

/-- src/gsm/gsm48.c:1498-1511 `gsm48_ra_equal` -/
def raEqual (a b : GprsRa) : Bool :=
  if a.mcc ≠ b.mcc then false
  else if a.mnc ≠ b.mnc then false
  else if a.mnc3 ≠ b.mnc3 then false
  else if a.lac ≠ b.lac then false
  else if a.rac ≠ b.rac then false
  else true

end Verif.RaId
