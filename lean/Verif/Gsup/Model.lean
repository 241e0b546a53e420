import Verif.Common
import Verif.Tlv.Model
import Verif.Bcd.Model
/-!
GSUP messages, src/gsm/gsup.c and src/gsm/gsup_sms.c.

Simplifications: an enum is a natural number (of an `unsigned int`); an `int`
used as a flag is a `Bool`; a pointer with its length is `none` (NULL, length 0)
or the octets it points to; a pointer to a single octet (`sm_rp_mr`,
`sm_rp_mms`, `sm_rp_cause`) is `none` (NULL), `some (some b)`, or `some none`
when it points behind the end of the message; of `supported_rat_types` the
entries in use are kept.  Nothing is said of the message on an error.
-/
namespace Verif.Gsup

/-- errno.h; include/osmocom/gsm/protocol/gsm_04_08_gprs.h:259, 263 and 265 `GMM_CAUSE_...` -/
def EINVAL : Int := 22
def INV_MAND_INFO : Int := 96
def COND_IE_ERR : Int := 100
def PROTO_ERR_UNSPEC : Int := 111

/-- a `struct osmo_sockaddr` as used here: by its family, `AF_UNSPEC`,
`AF_INET` or `AF_INET6`, and the address in network order -/
inductive Addr where
  | unspec
  | inet (a : List Byte)
  | inet6 (a : List Byte)
  deriving DecidableEq, Repr

/-- include/osmocom/gsm/gsup.h:265-297 `struct osmo_gsup_pdp_info` -/
structure PdpInfo where
  contextId : Nat := 0
  haveInfo : Bool := false
  typeOrg : Byte := 0
  typeNr : Byte := 0
  addr0 : Addr := .unspec
  addr1 : Addr := .unspec
  apn : Option (List Byte) := none
  qos : Option (List Byte) := none
  charg : Option (List Byte) := none
  deriving DecidableEq, Repr

/-- include/osmocom/crypt/auth.h:89-99 `struct osmo_auth_vector` -/
structure AuthVec where
  rand : List Byte := List.replicate 16 0
  autn : List Byte := List.replicate 16 0
  ck : List Byte := List.replicate 16 0
  ik : List Byte := List.replicate 16 0
  res : List Byte := List.replicate 16 0
  resLen : Nat := 0
  kc : List Byte := List.replicate 8 0
  sres : List Byte := List.replicate 4 0
  gsm : Bool := false
  umts : Bool := false
  deriving DecidableEq, Repr

/-- include/osmocom/gsm/gsup.h:324-417 `struct osmo_gsup_message` -/
structure Msg where
  messageType : Nat := 0
  imsi : List Byte := []
  msisdn : Option (List Byte) := none
  hlr : Option (List Byte) := none
  cause : Nat := 0
  cancelType : Nat := 0
  pdpInfoCompl : Bool := false
  freezePtmsi : Bool := false
  pdpInfos : List PdpInfo := List.replicate 10 {}
  numPdp : Nat := 0
  authVecs : List AuthVec := List.replicate 5 {}
  numAuth : Nat := 0
  auts : Option (List Byte) := none
  rand : Option (List Byte) := none
  pco : Option (List Byte) := none
  cnDomain : Nat := 0
  pdpCharg : Option (List Byte) := none
  sessionId : Nat := 0
  sessionState : Nat := 0
  ssInfo : Option (List Byte) := none
  smRpMr : Option (Option Byte) := none
  smRpDaType : Nat := 0
  smRpDa : Option (List Byte) := none
  smRpOaType : Nat := 0
  smRpOa : Option (List Byte) := none
  smRpUi : Option (List Byte) := none
  smRpMms : Option (Option Byte) := none
  smRpCause : Option (Option Byte) := none
  smAlertRsn : Nat := 0
  imei : Option (List Byte) := none
  imeiResult : Nat := 0
  messageClass : Nat := 0
  sourceName : Option (List Byte) := none
  destName : Option (List Byte) := none
  anProto : Nat := 0
  anData : List Byte := []
  causeRr : Nat := 0
  causeRrSet : Bool := false
  causeBssap : Nat := 0
  causeBssapSet : Bool := false
  causeSm : Nat := 0
  supportedRats : List Nat := []
  currentRat : Nat := 0
  deriving DecidableEq, Repr

/-- include/osmocom/gsm/gsup.h:145 `OSMO_GSUP_MSGT_SEND_AUTH_INFO_REQUEST` -/
def SEND_AUTH_INFO_REQUEST : Nat := 8

/-! ## Decoding -/

/-- outcome of a decoder: undefined behaviour (a read out of bounds), an error, success -/
inductive Res (α : Type) where
  | undef
  | err (rc : Int)
  | ok (a : α)
  deriving DecidableEq, Repr

/-- src/core/utils.c:534-545 `osmo_decode_big_endian` -/
def decodeBe (v : List Byte) : Nat := v.foldl (fun a b => (a * 256 + b.toNat) % 2 ^ 64) 0

/-- conversion to an `unsigned int` -/
def u32 (n : Nat) : Nat := n % 2 ^ 32

/-- src/gsm/gsup.c:129-183 `decode_pdp_address` -/
def decodePdpAddress (v : List Byte) (p : PdpInfo) : Res PdpInfo :=
  let p := { p with addr0 := .unspec, addr1 := .unspec }
  match v with
  | o :: t :: a =>
    let p := { p with typeOrg := o &&& 0x0f, typeNr := t }
    if p.typeOrg ≠ 1 then .err (-PROTO_ERR_UNSPEC)
    else if t = 0x21 then
      if a.length = 0 then .ok p
      else if a.length ≠ 4 then .err (-PROTO_ERR_UNSPEC)
      else .ok { p with addr0 := .inet a }
    else if t = 0x57 then
      if a.length = 0 then .ok p
      else if a.length ≠ 16 then .err (-PROTO_ERR_UNSPEC)
      else .ok { p with addr0 := .inet6 a }
    else if t = 0x8d then
      if a.length = 0 then .ok p
      else if a.length ≠ 20 then .err (-PROTO_ERR_UNSPEC)
      else .ok { p with addr0 := .inet (a.take 4), addr1 := .inet6 (a.drop 4) }
    else .ok p
  | _ => .err (-PROTO_ERR_UNSPEC)

/-- the `switch` of src/gsm/gsup.c:203-232, for the value of an IE -/
def pdpInfoIe (p : PdpInfo) (tag : Byte) (v : List Byte) : Res PdpInfo :=
  match tag.toNat with
  | 0x10 => .ok { p with contextId := u32 (decodeBe v) }
  | 0x11 => decodePdpAddress v p
  | 0x12 => .ok { p with apn := some v }
  | 0x13 => .ok { p with qos := some v }
  | 0x14 => .ok { p with charg := some v }
  | _ => .ok p

/-- src/gsm/gsup.c:248-314 without the flags: the fields of the vector, and
`presence` (which of RAND, SRES, KC; which of IK, CK, AUTN, RES, were seen) -/
def authInfoIe (a : AuthVec) (tag : Byte) (v : List Byte) : Res AuthVec :=
  match tag.toNat with
  | 0x20 => if v.length ≠ 16 then .err (-1) else .ok { a with rand := v, gsm := true }
  | 0x21 => if v.length ≠ 4 then .err (-1) else .ok { a with sres := v, gsm := true }
  | 0x22 => if v.length ≠ 8 then .err (-1) else .ok { a with kc := v, gsm := true }
  | 0x23 => if v.length ≠ 16 then .err (-1) else .ok { a with ik := v, umts := true }
  | 0x24 => if v.length ≠ 16 then .err (-1) else .ok { a with ck := v, umts := true }
  | 0x25 => if v.length ≠ 16 then .err (-1) else .ok { a with autn := v, umts := true }
  | 0x27 =>
    if v.length > 16 then .err (-1)
    else .ok { a with res := v ++ a.res.drop v.length, resLen := v.length, umts := true }
  | _ => .ok a

/-- the loops `while (data_len > 0)` over the IEs, src/gsm/gsup.c:194-233,
249-314 and 403-647: `f` is the `switch`, which gets the tag, the value and
the octets of the message behind it -/
def ieLoop {α : Type} (f : α → Byte → List Byte → List Byte → Res α) : Nat → List Byte → α → Res α
  | _, [], a => .ok a
  | 0, _ :: _, _ => .undef
  | fuel + 1, b :: data, a =>
    match Tlv.shiftTlv (b :: data) with
    | (some tag, s) =>
      match s.window with
      | none => .undef
      | some (off, len) =>
        match f a tag (((b :: data).drop off).take len) s.rest with
        | .ok a => ieLoop f fuel s.rest a
        | r => r
    | (none, _) => .err (-PROTO_ERR_UNSPEC)

/-- src/gsm/gsup.c:185-236 `decode_pdp_info` -/
def decodePdpInfo (v : List Byte) : Res PdpInfo :=
  ieLoop (fun p t v _ => pdpInfoIe p t v) v.length v {}

/-- src/gsm/gsup.c:238-328 `decode_auth_info`; `auth_types` is the pair of flags -/
def decodeAuthInfo (v : List Byte) : Res AuthVec :=
  ieLoop (fun a t v _ => authInfoIe a t v) v.length v {}

/-- `*value`: the first octet of the value, or of what is behind it -/
def deref (v after : List Byte) : Option Byte := (v ++ after).head?

/-- a field set from `*value` -/
def setFirst (v after : List Byte) (f : Byte → Msg) : Res Msg :=
  match deref v after with
  | none => .undef
  | some b => .ok (f b)

/-- src/gsm/gsup_sms.c:90-145 and 199-254 `osmo_gsup_sms_decode_sm_rp_da`
and `osmo_gsup_sms_decode_sm_rp_oa`, which are the same -/
def decodeSmRp (v : List Byte) : Res (Nat × Option (List Byte)) :=
  match v with
  | [] => .err (-EINVAL)
  | t :: id =>
    if t = 1 ∨ t = 2 ∨ t = 3 then
      if id = [] then .err (-EINVAL) else .ok (t.toNat, some id)
    else if t = 0xff then
      if id ≠ [] then .err (-EINVAL) else .ok (t.toNat, none)
    else .err (-EINVAL)

/-- the `switch` of src/gsm/gsup.c:414-646 -/
def topIe (m : Msg) (tag : Byte) (v after : List Byte) : Res Msg :=
  match tag.toNat with
  | 0x02 => .ok { m with cause := u32 (decodeBe v) }
  | 0x06 => .ok { m with cancelType := u32 (decodeBe v + 1) }
  | 0x04 => .ok { m with pdpInfoCompl := true }
  | 0x07 => .ok { m with freezePtmsi := true }
  | 0x10 =>
    if m.numPdp ≥ 10 then .err (-COND_IE_ERR)
    else .ok { m with pdpInfos := m.pdpInfos.set m.numPdp { contextId := u32 (decodeBe v) }, numPdp := m.numPdp + 1 }
  | 0x05 =>
    if m.numPdp ≥ 10 then .err (-COND_IE_ERR)
    else
      match decodePdpInfo v with
      | .undef => .undef
      | .err rc => .err rc
      | .ok p => .ok { m with pdpInfos := m.pdpInfos.set m.numPdp { p with haveInfo := true }, numPdp := m.numPdp + 1 }
  | 0x03 =>
    if m.numAuth ≥ 5 then .err (-INV_MAND_INFO)
    else
      match decodeAuthInfo v with
      | .undef => .undef
      | .err rc => .err rc
      | .ok a => .ok { m with authVecs := m.authVecs.set m.numAuth a, numAuth := m.numAuth + 1 }
  | 0x26 => if v.length ≠ 14 then .err (-COND_IE_ERR) else .ok { m with auts := some v }
  | 0x20 => if v.length ≠ 16 then .err (-COND_IE_ERR) else .ok { m with rand := some v }
  | 0x15 => .ok { m with pco := some v }
  | 0x08 => .ok { m with msisdn := some v }
  | 0x09 => .ok { m with hlr := some v }
  | 0x28 => setFirst v after fun b => { m with cnDomain := b.toNat }
  | 0x29 => if v.length > 8 then .err (-COND_IE_ERR) else .ok { m with supportedRats := v.map BitVec.toNat }
  | 0x2a => setFirst v after fun b => { m with currentRat := b.toNat }
  | 0x14 => .ok { m with pdpCharg := some v }
  | 0x30 => .ok { m with sessionId := u32 (decodeBe v) }
  | 0x31 => setFirst v after fun b => { m with sessionState := b.toNat }
  | 0x35 => .ok { m with ssInfo := some v }
  | 0x40 => .ok { m with smRpMr := some (deref v after) }
  | 0x41 =>
    match decodeSmRp v with
    | .undef => .undef
    | .err rc => .err rc
    | .ok (t, id) => .ok { m with smRpDaType := t, smRpDa := id }
  | 0x42 =>
    match decodeSmRp v with
    | .undef => .undef
    | .err rc => .err rc
    | .ok (t, id) => .ok { m with smRpOaType := t, smRpOa := id }
  | 0x43 => .ok { m with smRpUi := some v }
  | 0x45 => .ok { m with smRpMms := some (deref v after) }
  | 0x44 => .ok { m with smRpCause := some (deref v after) }
  | 0x46 => setFirst v after fun b => { m with smAlertRsn := b.toNat }
  | 0x50 => .ok { m with imei := some v }
  | 0x51 => .ok { m with imeiResult := u32 (decodeBe v + 1) }
  | 0x0a => setFirst v after fun b => { m with messageClass := b.toNat }
  | 0x60 => .ok { m with sourceName := some v }
  | 0x61 => .ok { m with destName := some v }
  | 0x62 =>
    match v with
    | [] => .err (-EINVAL)
    | p :: d => .ok { m with anProto := p.toNat, anData := d }
  | 0x63 => setFirst v after fun b => { m with causeRr := b.toNat, causeRrSet := true }
  | 0x64 => setFirst v after fun b => { m with causeBssap := b.toNat, causeBssapSet := true }
  | 0x65 => setFirst v after fun b => { m with causeSm := b.toNat }
  | 0x52 =>
    if m.messageType = SEND_AUTH_INFO_REQUEST then setFirst v after fun b => { m with numAuth := b.toNat }
    else .ok m
  | _ => .ok m

/-- src/gsm/gsup.c:356-650 `osmo_gsup_decode` -/
def decode (data : List Byte) : Res Msg :=
  let s := Tlv.shiftVFixed data 1
  if s.rc < 0 then .err (-INV_MAND_INFO)
  else
    let m : Msg := { messageType := decodeBe (data.take 1) }
    let data := s.rest
    let s := Tlv.matchShiftTlv data 0x01
    if s.rc ≤ 0 then .err (-INV_MAND_INFO)
    else
      match s.window with
      | none => .undef
      | some (off, len) =>
        if len * 2 + 1 > 17 then .err (-INV_MAND_INFO)
        else
          match Bcd.decodeNumber2 17 ((data.drop (off - 1)).take (len + 1)) 0 with
          | none => .undef
          | some (rc, out) =>
            if rc ≠ 0 then .err (-INV_MAND_INFO)
            else ieLoop topIe s.rest.length s.rest { m with imsi := Bcd.cstr out }

/-! ## Encoding: the calls that append to the message buffer -/

/-- what the encoder does next: append octets (`msgb_put`), return an error,
return an error if there are not that many octets of tailroom, or read memory
that it should not -/
inductive Piece where
  | put (bs : List Byte)
  | fail (rc : Int)
  | need (n : Nat) (rc : Int)
  | undef
  deriving DecidableEq, Repr

/-- outcome: `msgb_put` ran out of room (it aborts the program), undefined
behaviour, or the return code and the octets in the buffer -/
inductive EncRes where
  | abort
  | undef
  | done (rc : Int) (out : List Byte)
  deriving DecidableEq, Repr

/-- run the calls on a buffer of `room` octets that has `out` in it -/
def run (room : Nat) : List Byte → List Piece → EncRes
  | out, [] => .done 0 out
  | out, .put bs :: ps => if out.length + bs.length ≤ room then run room (out ++ bs) ps else .abort
  | out, .fail rc :: _ => .done rc out
  | out, .need n rc :: ps => if room < out.length + n then .done rc out else run room out ps
  | _, .undef :: _ => .undef

/-- include/osmocom/gsm/tlv.h:366-370 `msgb_tlv_put`, with 111-124 `tlv_put`: the length is a `uint8_t` -/
def tlv (tag : Byte) (v : List Byte) : List Byte :=
  tag :: BitVec.ofNat 8 v.length :: v.take (v.length % 256)

/-- `if (ptr) msgb_tlv_put(...)` -/
def putOpt (tag : Byte) : Option (List Byte) → List Piece
  | none => []
  | some v => [.put (tlv tag v)]

/-- `if ((u8 = field)) msgb_tlv_put(...)` -/
def putU8 (tag : Byte) (n : Nat) : List Piece :=
  if (BitVec.ofNat 8 n : Byte) ≠ 0 then [.put (tlv tag [BitVec.ofNat 8 n])] else []

/-- `if ((u8 = field)) { u8 -= 1; msgb_tlv_put(...) }` -/
def putU8Dec (tag : Byte) (n : Nat) : List Piece :=
  if (BitVec.ofNat 8 n : Byte) ≠ 0 then [.put (tlv tag [BitVec.ofNat 8 n - 1])] else []

/-- `if (field) { u8 = field; msgb_tlv_put(...) }` -/
def putEnum (tag : Byte) (n : Nat) : List Piece :=
  if n ≠ 0 then [.put (tlv tag [BitVec.ofNat 8 n])] else []

/-- `if (ptr) msgb_tlv_put(..., sizeof(*ptr), ptr)` -/
def putPtr (tag : Byte) : Option (Option Byte) → List Piece
  | none => []
  | some none => [.undef]
  | some (some b) => [.put (tlv tag [b])]

/-- src/gsm/gsup.c:665-704: the PDP address; `none`: octets of `pdp_addr` that were never set -/
def pdpAddressValue (p : PdpInfo) : Option (List Byte) :=
  if p.typeNr = 0x21 then
    match p.addr0 with
    | .inet a => some (0xf1 :: p.typeNr :: a)
    | _ => some [0xf1, p.typeNr]
  else if p.typeNr = 0x57 then
    match p.addr0 with
    | .inet6 a => some (0xf1 :: p.typeNr :: a)
    | _ => some [0xf1, p.typeNr]
  else if p.typeNr = 0x8d then
    match p.addr0 with
    | .inet a => some (0xf1 :: p.typeNr :: a)
    | .inet6 _ => none
    | .unspec => some [0xf1, p.typeNr]
  else some [0xf1, p.typeNr]

/-- `if (ptr) msgb_tlv_put(...)`, as octets -/
def optBytes (tag : Byte) : Option (List Byte) → List Byte
  | none => []
  | some v => tlv tag v

/-- src/gsm/gsup.c:652-723 `encode_pdp_info`; the length is a `uint8_t` -/
def encodePdpInfo (p : PdpInfo) : Piece :=
  let tail := optBytes 0x12 p.apn ++ optBytes 0x13 p.qos ++ optBytes 0x14 p.charg
  let head := tlv 0x10 [BitVec.ofNat 8 p.contextId]
  if p.typeOrg = 1 then
    match pdpAddressValue p with
    | none => .undef
    | some a =>
      let inner := head ++ tlv 0x11 a ++ tail
      .put (0x05 :: BitVec.ofNat 8 inner.length :: inner)
  else
    let inner := head ++ tail
    .put (0x05 :: BitVec.ofNat 8 inner.length :: inner)

/-- src/gsm/gsup.c:843-858: the entries `idx`, `idx + 1`, ... -/
def encodePdpInfos (arr : List PdpInfo) : Nat → Nat → List Piece
  | 0, _ => []
  | n + 1, idx =>
    match arr[idx]? with
    | none => [.undef]
    | some p =>
      (if p.contextId = 0 then []
       else if p.haveInfo then [encodePdpInfo p]
       else [.put (tlv 0x10 [BitVec.ofNat 8 p.contextId])]) ++ encodePdpInfos arr n (idx + 1)

/-- src/gsm/gsup.c:725-761 `encode_auth_info` -/
def encodeAuthInfo (a : AuthVec) : Piece :=
  let g := if a.gsm then tlv 0x20 a.rand ++ tlv 0x21 a.sres ++ tlv 0x22 a.kc else []
  if a.umts ∧ a.resLen > 16 then .undef
  else
    let u := if a.umts then tlv 0x23 a.ik ++ tlv 0x24 a.ck ++ tlv 0x25 a.autn ++ tlv 0x27 (a.res.take a.resLen) else []
    .put (0x03 :: BitVec.ofNat 8 (g ++ u).length :: (g ++ u))

/-- src/gsm/gsup.c:865-871 -/
def encodeAuthInfos (arr : List AuthVec) : Nat → Nat → List Piece
  | 0, _ => []
  | n + 1, idx =>
    match arr[idx]? with
    | none => [.undef]
    | some a => encodeAuthInfo a :: encodeAuthInfos arr n (idx + 1)

/-- src/gsm/gsup_sms.c:42-82 `osmo_gsup_sms_encode_sm_rp_da` with
`imsi = true`, 152-191 `osmo_gsup_sms_encode_sm_rp_oa` with `imsi = false` -/
def encodeSmRp (tag : Byte) (imsi : Bool) (type : Nat) (id : Option (List Byte)) : List Piece :=
  let id := id.getD []
  if (type = 1 ∧ imsi) ∨ type = 2 ∨ type = 3 then
    if id.length = 0 then [.fail (-EINVAL)]
    else [.put (tag :: BitVec.ofNat 8 (id.length + 1) :: BitVec.ofNat 8 type :: id)]
  else if type = 0xff then [.put [tag, BitVec.ofNat 8 (id.length + 1), BitVec.ofNat 8 type]]
  else [.fail (-EINVAL)]

/-- src/gsm/gsup.c:994-1002: the entries left, and how many of the eight of the array are left -/
def encodeRats : List Nat → Nat → List Piece
  | [], _ => []
  | _ :: _, 0 => [.undef]
  | r :: rs, n + 1 =>
    if r = 0 ∨ r ≥ 4 then [.fail (-EINVAL)]
    else .put [BitVec.ofNat 8 r] :: encodeRats rs n

/-- src/core/utils.c:555-561 `osmo_encode_big_endian` of a `uint32_t` in 4 octets -/
def encodeBe32 (n : Nat) : List Byte :=
  [BitVec.ofNat 8 (n / 2 ^ 24), BitVec.ofNat 8 (n / 2 ^ 16), BitVec.ofNat 8 (n / 2 ^ 8), BitVec.ofNat 8 n]

/-- src/gsm/gsup.c:805-819: the message type and the IMSI -/
def encHead (m : Msg) : List Piece :=
  if m.messageType = 0 then [.fail (-EINVAL)]
  else
    .put [BitVec.ofNat 8 m.messageType] ::
      match Bcd.encodeNumber (List.replicate 32 0) 32 0 m.imsi with
      | none => [.undef]
      | some (rc, buf) =>
        if rc ≤ 0 ∨ rc > 32 then [.fail (-EINVAL)]
        else [.put (tlv 0x01 ((buf.drop 1).take (rc.toNat - 1)))]

/-- a pointer to `n` octets -/
def putFixed (tag : Byte) (n : Nat) : Option (List Byte) → List Piece
  | none => []
  | some v => if v.length < n then [.undef] else [.put (tlv tag (v.take n))]

/-- src/gsm/gsup.c:860-872: the vectors, or how many are asked for -/
def encAuth (m : Msg) : List Piece :=
  if m.messageType = SEND_AUTH_INFO_REQUEST then putU8 0x52 m.numAuth
  else encodeAuthInfos m.authVecs m.numAuth 0

/-- src/gsm/gsup.c:880-884 -/
def encPco (m : Msg) : List Piece :=
  match m.pco with
  | none => []
  | some v =>
    if v.length > 0 then
      if v.length > 251 then [.fail (-EINVAL)] else [.put (tlv 0x15 v)]
    else []

/-- src/gsm/gsup.c:895-901 -/
def encSession (m : Msg) : List Piece :=
  if (BitVec.ofNat 8 m.sessionState : Byte) ≠ 0 then
    [.put (tlv 0x30 (encodeBe32 m.sessionId)), .put (tlv 0x31 [BitVec.ofNat 8 m.sessionState])]
  else []

/-- src/gsm/gsup.c:969-975 with 768-790 `osmo_gsup_encode_an_apdu` -/
def encAnApdu (m : Msg) : List Piece :=
  if m.anProto ≠ 0 ∨ m.anData.length ≠ 0 then
    [.need (2 + m.anData.length) (-EINVAL),
     .put (0x62 :: BitVec.ofNat 8 (1 + m.anData.length) :: BitVec.ofNat 8 m.anProto :: m.anData)]
  else []

/-- src/gsm/gsup.c:990-1003 -/
def encRats (m : Msg) : List Piece :=
  if m.supportedRats.length ≠ 0 then
    .put [0x29, BitVec.ofNat 8 m.supportedRats.length] :: encodeRats m.supportedRats 8
  else []

/-- src/gsm/gsup.c:821-1009: the IEs behind the IMSI, in order -/
def encTail (m : Msg) : List (List Piece) :=
  [putOpt 0x08 m.msisdn,
   putOpt 0x09 m.hlr,
   putU8 0x02 m.cause,
   putU8Dec 0x06 m.cancelType,
   if m.pdpInfoCompl then [.put (tlv 0x04 [])] else [],
   if m.freezePtmsi then [.put (tlv 0x07 [])] else [],
   encodePdpInfos m.pdpInfos m.numPdp 0,
   encAuth m,
   putFixed 0x26 14 m.auts,
   putFixed 0x20 16 m.rand,
   encPco m,
   putEnum 0x28 m.cnDomain,
   putOpt 0x14 m.pdpCharg,
   encSession m,
   putOpt 0x35 m.ssInfo,
   putPtr 0x40 m.smRpMr,
   if m.smRpDaType ≠ 0 then encodeSmRp 0x41 true m.smRpDaType m.smRpDa else [],
   if m.smRpOaType ≠ 0 then encodeSmRp 0x42 false m.smRpOaType m.smRpOa else [],
   putOpt 0x43 m.smRpUi,
   putPtr 0x45 m.smRpMms,
   putPtr 0x44 m.smRpCause,
   putU8 0x46 m.smAlertRsn,
   putOpt 0x50 m.imei,
   putU8Dec 0x51 m.imeiResult,
   putEnum 0x0a m.messageClass,
   putOpt 0x60 m.sourceName,
   putOpt 0x61 m.destName,
   encAnApdu m,
   if m.causeRrSet then [.put (tlv 0x63 [BitVec.ofNat 8 m.causeRr])] else [],
   if m.causeBssapSet then [.put (tlv 0x64 [BitVec.ofNat 8 m.causeBssap])] else [],
   putU8 0x65 m.causeSm,
   encRats m,
   putEnum 0x2a m.currentRat]

/-- src/gsm/gsup.c:797-1010 `osmo_gsup_encode` into an empty message buffer with `room` octets of tailroom -/
def encode (room : Nat) (m : Msg) : EncRes := run room [] (encHead m ++ (encTail m).flatten)

end Verif.Gsup
