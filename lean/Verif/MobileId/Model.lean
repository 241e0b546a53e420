import Verif.Utils.HexModel
import Verif.Utils.NumModel
import Verif.Endian.Model
/-!
Model of the mobile identity functions of src/gsm/gsm48.c (3GPP TS 24.008
10.5.1.4).

`struct osmo_mobile_identity` is its type octet and the 17 bytes of its union
(the largest member is `imeisv[17]`); `tmsi` is the first four of them in host
byte order, taken to be little endian.  Buffers are byte lists whose length is
the size of the memory; an access outside is `none`.
-/
namespace Verif.MobileId
open Verif.Utils

def EBADMSG : Int := 74
def ENOTSUP : Int := 95
def ENOSPC : Int := 28
def EIO : Int := 5

/-- include/osmocom/gsm/gsm48.h:81-96 `struct osmo_mobile_identity` -/
structure MobId where
  type : Byte
  u : List Byte
  deriving DecidableEq, Repr

/-- the union after initialization without a member named (C11 6.7.9) -/
def zeroU : List Byte := List.replicate 17 0#8

/-- src/gsm/gsm48.c:760-764: the structure and return code of a failed decoding -/
def failed (rc : Int) : Option (MobId × Int) := some ({ type := 0#8, u := zeroU }, -rc)

/-- the `tmsi` member -/
def getTmsi (m : MobId) : Option (BitVec 32) := Endian.loadLe 32 m.u

/-- assignment to the `tmsi` member -/
def putTmsi (m : MobId) (v : BitVec 32) : Option MobId :=
  (Endian.storeLe v).bind fun b => (writeAt m.u 0 b).map fun u => { m with u := u }

/-- src/gsm/gsm48.c:684-723: the length checks; the error, or the size of the
string member (0 for a TMSI) -/
def lengthCheck (t : Byte) (nibbles : Nat) : Int ⊕ Nat :=
  if t = 4#8 then
    if nibbles ≠ 8 then .inl EBADMSG else .inr 0
  else if t = 1#8 then
    if nibbles < 6 ∨ nibbles > 15 then .inl EBADMSG else .inr 16
  else if t = 2#8 then
    if nibbles ≠ 15 ∧ nibbles ≠ 14 then .inl EBADMSG else .inr 16
  else if t = 3#8 then
    if nibbles ≠ 16 then .inl EBADMSG else .inr 17
  else .inl EINVAL

/-- src/gsm/gsm48.c:664-765 `osmo_mobile_identity_decode` of `mi_len = len`
octets at the start of `mem` (`mi_data` not NULL) -/
def decode (mem : List Byte) (len : Nat) (hex : Bool) : Option (MobId × Int) :=
  if len < 1 then failed EBADMSG
  else
    (mem[0]?).bind fun b0 =>
      let odd := b0 &&& 8#8 ≠ 0#8
      let nibbles := (len - 1) * 2 + if odd then 1 else 0
      let mi : MobId := { type := b0 &&& 7#8, u := zeroU }
      match lengthCheck mi.type nibbles with
      | .inl e => failed e
      | .inr size =>
        if mi.type = 4#8 then
          if b0 &&& 0xf0#8 ≠ 0xf0#8 then failed EBADMSG
          else (Endian.loadBe 32 (mem.drop 1)).bind fun v => (putTmsi mi v).map fun mi => (mi, 0)
        else
          (mem[len - 1]?).bind fun last =>
            if ¬ odd ∧ last &&& 0xf0#8 ≠ 0xf0#8 then failed EBADMSG
            else
              (bcd2str (mi.u.take size) mem 1 (1 + nibbles) hex).bind fun r =>
                if r.2 < 1 ∨ r.2 ≥ size then failed EBADMSG
                else some ({ mi with u := r.1 ++ mi.u.drop size }, 0)

/-- `strlen` of a string member of `size` bytes; `none` = not terminated -/
def memberLen (m : MobId) (size : Nat) : Option Nat := (m.u.take size).findIdx? (· = 0#8)

/-- src/gsm/gsm48.c:773-810 `osmo_mobile_identity_encoded_len`; the argument
`none` is a NULL pointer; the result: return value and `*mi_digits` (0 when not set) -/
def encodedLen (mi : Option MobId) : Option (Int × Nat) :=
  match mi with
  | none => some (-EINVAL, 0)
  | some m =>
    if m.type = 4#8 then some (((8 + 2) / 2 : Nat), 8)
    else if m.type = 1#8 then
      (memberLen m 16).map fun n => if n < 6 ∨ n > 15 then (-EINVAL, 0) else (((n + 2) / 2 : Nat), n)
    else if m.type = 2#8 then
      (memberLen m 16).map fun n => if n < 14 ∨ n > 15 then (-EINVAL, 0) else (((n + 2) / 2 : Nat), n)
    else if m.type = 3#8 then
      (memberLen m 17).map fun n => if n ≠ 16 then (-EINVAL, 0) else (((n + 2) / 2 : Nat), n)
    else some (-ENOTSUP, 0)

/-- src/gsm/gsm48.c:820-860 `osmo_mobile_identity_encode_buf` with `buflen =
buf.length`; new content of the buffer and return value.  The buffer and its
size are given; a NULL buffer behaves like one of size 0. -/
def encodeBuf (buf : List Byte) (mi : Option MobId) (hex : Bool) : Option (List Byte × Int) :=
  if buf.length = 0 then some (buf, -EIO)
  else
    (encodedLen mi).bind fun l =>
      if l.1 < 0 then some (buf, l.1)
      else if l.1 > buf.length then some (buf, -ENOSPC)
      else
        mi.bind fun m =>
          let b0 := (m.type &&& 7#8) ||| (if l.2 % 2 = 1 then 8#8 else 0#8)
          if m.type = 4#8 then
            (writeAt buf 0 [b0 ||| 0xf0#8]).bind fun buf =>
              (getTmsi m).bind fun v =>
                (Endian.storeBe v).bind fun b => (writeAt buf 1 b).map fun buf => (buf, l.1)
          else
            (writeAt buf 0 [b0]).bind fun buf =>
              (str2bcd buf (m.u.take l.2) 1 (-1) hex).map fun r =>
                (r.1, if r.2 ≠ l.1 then -EINVAL else l.1)

/-- include/osmocom/gsm/protocol/gsm_04_08.h:1460-1470 `gsm48_hdr_pdisc` -/
def hdrPdisc (b : Byte) : Byte := if b &&& 0x0f#8 = 0x0e#8 then b else b &&& 0x0f#8

/-- include/osmocom/gsm/protocol/gsm_04_08.h:1523-1542 `gsm48_hdr_msg_type_r99` -/
def hdrMsgType (pd mt : Byte) : Byte :=
  if hdrPdisc pd ∈ [0x05#8, 0x03#8, 0x0b#8, 0x00#8, 0x01#8, 0x0c#8] then mt &&& 0x3f#8 else mt

/-- src/gsm/gsm48.c:917-920: the structure before anything is decoded -/
def untouched : MobId := { type := 0#8, u := List.replicate 4 0xff#8 ++ List.replicate 13 0#8 }

/-- the memory `mi->tmsi = GSM_RESERVED_TMSI` leaves -/
def l3Failed (rc : Int) : Option (MobId × Int) := some (untouched, -rc)

/-- src/gsm/gsm48.c:1018-1023: label `got_mi`, `off` is the offset of `mi_data` -/
def gotMi (l3 : List Byte) (off len : Nat) (hex : Bool) : Option (MobId × Int) :=
  if off + len > l3.length then l3Failed EBADMSG else decode (l3.drop off) len hex

/-- src/gsm/gsm48.c:1007-1016: label `got_cm2`, `off` is the offset of `cm2_buf`.
Simplification: the pointers formed do not wrap. -/
def gotCm2 (l3 : List Byte) (off len : Nat) (hex : Bool) : Option (MobId × Int) :=
  if off + len + 1 > l3.length then l3Failed EBADMSG
  else (l3[off + len]?).bind fun n => gotMi l3 (off + len + 1) n.toNat hex

/-- src/gsm/gsm48.c:902-1024 `osmo_mobile_identity_decode_from_l3_buf` with
`l3_len = l3.length`; the offsets are those of the packed structures
`gsm48_hdr` (2 octets), `gsm48_loc_upd_req` (8), `gsm48_imsi_detach_ind` (2),
`gsm48_pag_resp` (6) of include/osmocom/gsm/protocol/gsm_04_08.h:869-945 and
include/osmocom/gsm/protocol/gsm_04_08.h:1219-1223. -/
def decodeFromL3 (l3 : List Byte) (hex : Bool) : Option (MobId × Int) :=
  if l3.length < 2 then l3Failed EBADMSG
  else
    (l3[0]?).bind fun pd => (l3[1]?).bind fun mt =>
      let mtype := hdrMsgType pd mt
      if hdrPdisc pd = 5#8 then
        if mtype = 0x08#8 then
          if l3.length < 2 + 8 then l3Failed EBADMSG
          else (l3[9]?).bind fun n =>
            if l3.length < 2 + 8 + n.toNat then l3Failed EBADMSG else gotMi l3 10 n.toNat hex
        else if mtype = 0x24#8 ∨ mtype = 0x28#8 then
          if l3.length < 2 + 2 then l3Failed EBADMSG
          else (l3[3]?).bind fun n => gotCm2 l3 4 n.toNat hex
        else if mtype = 0x01#8 then
          if l3.length < 2 + 2 then l3Failed EBADMSG
          else (l3[3]?).bind fun n => gotMi l3 4 n.toNat hex
        else if mtype = 0x19#8 then
          if l3.length < 2 + 2 then l3Failed EBADMSG
          else (l3[2]?).bind fun n => gotMi l3 3 n.toNat hex
        else l3Failed ENOTSUP
      else if hdrPdisc pd = 6#8 then
        if mtype = 0x27#8 then
          if l3.length < 2 + 6 then l3Failed EBADMSG
          else (l3[3]?).bind fun n => gotCm2 l3 4 n.toNat hex
        else if mtype = 0x11#8 then
          if l3.length < 2 + 4 + 2 then l3Failed EBADMSG
          else (l3[2]?).bind fun n =>
            if n ≠ 3#8 then l3Failed EBADMSG else gotCm2 l3 3 n.toNat hex
        else l3Failed ENOTSUP
      else l3Failed ENOTSUP

/-- `"%08" PRIX32`, and `"%x"` of an octet: hexadecimal digits, most significant first -/
def hexUp : Nat → Nat → List Byte
  | 0, _ => []
  | k + 1, n => hexUp k (n / 16) ++ [bcd2char (BitVec.ofNat 8 (n % 16))]

/-- src/gsm/gsm48.c:559-572 `gsm48_mi_type_name` -/
def typeName (t : Byte) : List Byte :=
  if t = 0#8 then [0x4e, 0x4f, 0x4e, 0x45]
  else if t = 1#8 then [0x49, 0x4d, 0x53, 0x49]
  else if t = 2#8 then [0x49, 0x4d, 0x45, 0x49]
  else if t = 3#8 then [0x49, 0x4d, 0x45, 0x49, 0x2d, 0x53, 0x56]
  else if t = 4#8 then [0x54, 0x4d, 0x53, 0x49]
  else [0x75, 0x6e, 0x6b, 0x6e, 0x6f, 0x77, 0x6e, 0x20, 0x30, 0x78] ++
    (Nat.toDigits 16 t.toNat).map fun ch => BitVec.ofNat 8 ch.toNat

/-- the C string in a member of `size` bytes -/
def memberStr (m : MobId) (size : Nat) : Option (List Byte) :=
  (memberLen m size).map fun n => m.u.take n

/-- src/gsm/gsm48.c:1054-1069: what is printed behind the name of the type -/
def toStrTail (m : MobId) : Option (List (List Byte)) :=
  if m.type = 4#8 then (getTmsi m).map fun v => [[0x2d#8, 0x30#8, 0x78#8] ++ hexUp 8 v.toNat]
  else if m.type = 1#8 ∨ m.type = 2#8 then (memberStr m 16).map fun s => [0x2d#8 :: s]
  else if m.type = 3#8 then (memberStr m 17).map fun s => [0x2d#8 :: s]
  else some []

/-- src/gsm/gsm48.c:1048-1071 `osmo_mobile_identity_to_str_buf`; new content of
the buffer and return value -/
def toStrBuf (mi : Option MobId) (buf : List Byte) : Option (List Byte × Int) :=
  match mi with
  | none => snprintfText [0x4e#8, 0x55#8, 0x4c#8, 0x4c#8] buf
  | some m =>
    (toStrTail m).bind fun t =>
      (printAll { buf := buf, pos := none, needed := 0 } (typeName m.type :: t)).map fun sb =>
        (sb.buf, (sb.needed : Int))

/-- `strncmp(a, b, n)` (C11 7.24.4.4): the sign is given by the first differing
byte of the two strings, as `unsigned char`; `none` = read outside.
The magnitude is left open by the standard: `mag` is the magnitude the C
library chooses for a pair of differing bytes. -/
def strncmp (mag : Byte → Byte → Nat) : Nat → List Byte → List Byte → Option Int
  | 0, _, _ => some 0
  | n + 1, a :: as, b :: bs =>
    if a.toNat < b.toNat then some (-(mag a b + 1 : Nat))
    else if b.toNat < a.toNat then some (mag a b + 1 : Nat)
    else if a = 0#8 then some 0
    else strncmp mag n as bs
  | _ + 1, _, _ => none

/-- include/osmocom/core/utils.h:26 `OSMO_CMP` -/
def osmoCmp (a b : Nat) : Int := if a < b then -1 else if a > b then 1 else 0

/-- src/gsm/gsm48.c:1088-1113 `osmo_mobile_identity_cmp`; `none` is a NULL
pointer.  The shortcut for identical pointers is not modelled separately: it
gives 0 as the comparison of an identity with itself does. -/
def cmp (mag : Byte → Byte → Nat) (a b : Option MobId) : Option Int :=
  match a, b with
  | none, none => some 0
  | none, some _ => some (-1)
  | some _, none => some 1
  | some a, some b =>
    let c := osmoCmp a.type.toNat b.type.toNat
    if c ≠ 0 then some c
    else if a.type = 4#8 then
      (getTmsi a).bind fun x => (getTmsi b).map fun y => osmoCmp x.toNat y.toNat
    else if a.type = 1#8 then strncmp mag 16 a.u b.u
    else if a.type = 2#8 then strncmp mag 16 a.u b.u
    else if a.type = 3#8 then strncmp mag 17 a.u b.u
    else some 0

/-! ## The functions deprecated in favour of `osmo_mobile_identity` -/

/-- src/gsm/gsm48.c:1272-1282 `gsm48_generate_mid_from_tmsi` -/
def generateMidFromTmsi (buf : List Byte) (tmsi : BitVec 32) : Option (List Byte × Nat) :=
  (Endian.storeBe tmsi).bind fun b =>
    (writeAt buf 0 ([0x17#8, 5#8, 0xf0#8 ||| 4#8] ++ b)).map fun buf => (buf, 7)

/-- src/gsm/gsm48.c:1303-1311: the loop, `n` iterations left, writing at `pos`;
`id` includes its terminating NUL -/
def midLoop (id : List Byte) (length : Nat) (odd : Bool) :
    Nat → Nat → Nat → List Byte → Option (List Byte)
  | 0, _, _, buf => some buf
  | n + 1, pos, off, buf =>
    (id[off + 1]?).bind fun c =>
      let lower := char2bcd c
      if !odd && off + 2 = length then
        (writeAt buf pos [(0x0f#8 <<< 4) ||| lower]).bind fun buf =>
          midLoop id length odd n (pos + 1) (off + 1) buf
      else
        (id[off + 2]?).bind fun d =>
          (writeAt buf pos [((char2bcd d &&& 0x0f#8) <<< 4) ||| lower]).bind fun buf =>
            midLoop id length odd n (pos + 1) (off + 2) buf

/-- src/gsm/gsm48.c:1290-1315 `gsm48_generate_mid`; `id` is the string without
its NUL.  `none` also stands for the failing assertion. -/
def generateMid (buf : List Byte) (id : List Byte) (miType : Byte) : Option (List Byte × Nat) :=
  let length := min id.length 16
  let odd := length % 2 = 1
  ((id ++ [0#8])[0]?).bind fun c =>
    let l := (length + (if odd then 1 else 2)) / 2
    if l ≤ 9 then
      (writeAt buf 0 [0x17#8, BitVec.ofNat 8 l,
          (char2bcd c <<< 4) ||| (miType &&& 7#8) ||| (if odd then 8#8 else 0#8)]).bind fun buf =>
        (midLoop (id ++ [0#8]) length odd (l - 1) 3 0 buf).map fun buf => (buf, 2 + l)
    else none

/-- src/gsm/gsm48.c:1340-1377 `gsm48_mi_to_string` with `str_len = str.length`
and `mi_len = mi.length` (`mi` not NULL); new content of `str` and return value -/
def miToString (str mi : List Byte) : Option (List Byte × Int) :=
  let t := match mi with
    | [] => 0#8
    | b0 :: _ => b0 &&& 7#8
  let fallback : Option (List Byte × Int) :=
    if str.length < 1 then some (str, 0) else (writeAt str 0 [0#8]).map fun s => (s, 1)
  if t = 4#8 then
    if mi.length = 5 ∧ mi[0]? = some 0xf4#8 then
      (Endian.loadBe 32 (mi.drop 1)).bind fun v => snprintfText (decNat v.toNat) str
    else fallback
  else if t = 1#8 ∨ t = 2#8 ∨ t = 3#8 then
    (mi[0]?).bind fun b0 =>
      (bcd2str str mi 1 (mi.length * 2 - (if b0 &&& 8#8 ≠ 0#8 then 0 else 1)) true).bind fun r =>
        if r.2 < 0 then some (r.1, 0)
        else if r.2 < str.length then some (r.1, r.2 + 1)
        else (r.1.findIdx? (· = 0#8)).map fun (n : Nat) => (r.1, (n : Int) + 1)
  else fallback

end Verif.MobileId
