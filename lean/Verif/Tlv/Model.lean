import Verif.Common
/-!
Models of src/gsm/tlv_parser.c and the encoders of include/osmocom/gsm/tlv.h it uses.
-/
namespace Verif.Tlv

/-- include/osmocom/gsm/tlv.h:508-518 `tlv_type`; `other` is any number not in the enum -/
inductive TlvType
  | none | fixed | t | tv | tlv | tl16v | tvlv | singleTv | vtvlvGan | other
  deriving DecidableEq, Repr

/-- include/osmocom/gsm/tlv.h:521-524 `tlv_def` -/
structure Def where
  type : TlvType
  fixedLen : Byte
  deriving DecidableEq, Repr

/-- include/osmocom/gsm/tlv.h:527-529 `tlv_definition`: one entry for each of the 256 tags -/
abbrev Definition := Byte → Def

/-- what tlv_parse_one returns: an error code, or the tag, the offset of the
value from `buf`, the length of the value and the number of bytes consumed -/
inductive One
  | err (rc : Int)
  | ok (tag : Byte) (off len consumed : Nat)
  deriving DecidableEq, Repr

/-- src/gsm/tlv_parser.c:325-329: the final length check -/
def finish (bufLen : Int) (tag : Byte) (off len consumed : Nat) : One :=
  if bufLen < consumed then .err (-2) else .ok tag off len consumed

/-- src/gsm/tlv_parser.c:280-286: label `tlv` -/
def parseTlv (mem : List Byte) (bufLen : Int) (tag : Byte) : Option One :=
  if bufLen < 2 then some (.err (-1)) else
  mem[1]?.map fun (l : Byte) => finish bufLen tag 2 l.toNat (l.toNat + 2)

/-- src/gsm/tlv_parser.c:314-320: case TLV_TYPE_TL16V -/
def parseTl16v (mem : List Byte) (bufLen : Int) (tag : Byte) : Option One :=
  if bufLen < 3 then some (.err (-1)) else
  mem[1]?.bind fun (h : Byte) => mem[2]?.map fun (l : Byte) =>
    finish bufLen tag 3 (h.toNat <<< 8 ||| l.toNat) ((h.toNat <<< 8 ||| l.toNat) + 3)

/-- src/gsm/tlv_parser.c:234-330 `tlv_parse_one`.  `mem` is the memory from `buf`
on to the end of the allocation.  A read outside of it is `none`.  Stores through
the output pointers in the error cases are not modelled. -/
def parseOne (d : Definition) (mem : List Byte) (bufLen : Int) : Option One :=
  if bufLen < 1 then some (.err (-1)) else
  mem[0]?.bind fun (tag : Byte) =>
  if (d (tag >>> 4)).type = .singleTv then some (.ok (tag >>> 4) 0 1 1)
  else if tag.toNat > 0x0f ∧ (d (tag &&& 0xf0#8)).type = .singleTv then some (.ok (tag &&& 0xf0#8) 0 1 1)
  else match (d tag).type with
  | .t => some (finish bufLen tag 0 0 1)
  | .tv => some (finish bufLen tag 1 1 2)
  | .fixed => some (finish bufLen tag 1 (d tag).fixedLen.toNat ((d tag).fixedLen.toNat + 1))
  | .tlv => parseTlv mem bufLen tag
  | .vtvlvGan =>
    if bufLen < 2 then some (.err (-1)) else
    mem[1]?.bind fun (h : Byte) =>
    if h &&& 0x80#8 ≠ 0#8 then
      if bufLen < 3 then some (.err (-1)) else
      mem[2]?.map fun (l : Byte) =>
        finish bufLen tag 3 ((h &&& 0x7f#8).toNat <<< 8 ||| l.toNat) (((h &&& 0x7f#8).toNat <<< 8 ||| l.toNat) + 3)
    else parseTlv mem bufLen tag
  | .tvlv =>
    if bufLen < 2 then some (.err (-1)) else
    mem[1]?.bind fun (h : Byte) =>
    if h &&& 0x80#8 ≠ 0#8 then
      some (finish bufLen tag 2 (h &&& 0x7f#8).toNat ((h &&& 0x7f#8).toNat + 2))
    else parseTl16v mem bufLen tag
  | .tl16v => parseTl16v mem bufLen tag
  | .none | .singleTv | .other => some (.err (-3))

/-- include/osmocom/gsm/tlv.h:532-534 `tlv_parsed`: for each tag the offset of
the value in the parsed buffer and its length, `none` for a NULL value -/
abbrev Parsed := Byte → Option (Nat × Nat)

/-- one assignment to an entry -/
def setEntry (p : Parsed) (tag : Byte) (v : Nat × Nat) : Parsed := fun t => if t = tag then some v else p t

/-- src/gsm/tlv_parser.c:432-438: store in the first element of `dec` that has no value for the tag -/
def store (tag : Byte) (v : Nat × Nat) : List Parsed → List Parsed
  | [] => []
  | p :: ps => if (p tag).isSome then p :: store tag v ps else setEntry p tag v :: ps

/-- src/gsm/tlv_parser.c:393-399: if some element has no value for the tag, store in the FIRST element -/
def storeLv (tag : Byte) (v : Nat × Nat) (dec : List Parsed) : List Parsed :=
  match dec with
  | [] => []
  | p :: ps => if (p :: ps).any fun q => (q tag).isNone then setEntry p tag v :: ps else p :: ps

/-- outcome of tlv_parse2; `fuel` marks an unfinished loop -/
inductive Run
  | ub
  | fuel
  | done (rc : Int) (dec : List Parsed)

/-- src/gsm/tlv_parser.c:423-441: the loop over the elements -/
def parseLoop (d : Definition) (mem : List Byte) (bufLen : Int) : Nat → Nat → Nat → List Parsed → Run
  | 0, _, _, _ => .fuel
  | f + 1, ofs, num, dec =>
    if (ofs : Int) < bufLen then
      match parseOne d (mem.drop ofs) (bufLen - ofs) with
      | none => .ub
      | some (.err rc) => .done rc dec
      | some (.ok tag off len n) => parseLoop d mem bufLen f (ofs + n) (num + 1) (store tag (ofs + off, len) dec)
    else .done num dec

/-- outcome of the handling of an initial LV -/
inductive LvOut
  | ub
  | err (rc : Int)
  | ok (ofs num : Nat) (dec : List Parsed)

/-- src/gsm/tlv_parser.c:380-400: one initial LV, if a tag is given -/
def parseLv (mem : List Byte) (bufLen : Int) (lvTag : Byte) (ofs num : Nat) (dec : List Parsed) : LvOut :=
  if lvTag = 0#8 then .ok ofs num dec
  else if (ofs : Int) > bufLen then .err (-1)
  else match mem[ofs]? with
    | none => .ub
    | some (l : Byte) =>
      if (ofs : Int) + (l.toNat + 1) > bufLen then .err (-2)
      else .ok (ofs + (l.toNat + 1)) (num + 1) (storeLv lvTag (ofs + 1, l.toNat) dec)

/-- src/gsm/tlv_parser.c:369-444 `tlv_parse2` -/
def parse2 (multiples : Nat) (d : Definition) (mem : List Byte) (bufLen : Int) (lvTag lvTag2 : Byte) : Run :=
  match parseLv mem bufLen lvTag 0 0 (List.replicate multiples fun _ => none) with
  | .ub => .ub
  | .err rc => .done rc (List.replicate multiples fun _ => none)
  | .ok ofs num dec =>
    match parseLv mem bufLen lvTag2 ofs num dec with
    | .ub => .ub
    | .err rc => .done rc dec
    | .ok ofs num dec => parseLoop d mem bufLen (bufLen.toNat + 1) ofs num dec

/-! ## Encoding -/

/-- a message buffer: its content and the room behind it -/
structure Msg where
  data : List Byte
  tailroom : Nat
  deriving DecidableEq, Repr

/-- result of an encoder; `abort` is the panic of msgb_put, `ub` a value read or
written outside of its memory -/
inductive EncRes
  | ok (m : Msg)
  | abort
  | ub
  | err (rc : Int)
  deriving DecidableEq, Repr

/-- msgb_put(msg, reserve) followed by storing `bytes` there; storing more or
less than reserved has no defined result -/
def msgPut (m : Msg) (reserve : Nat) (bytes : List Byte) : EncRes :=
  if m.tailroom < reserve then .abort
  else if bytes.length = reserve then .ok { data := m.data ++ bytes, tailroom := m.tailroom - reserve }
  else .ub

/-- include/osmocom/gsm/tlv.h:366-370 `msgb_tlv_put` with :111-123 tlv_put; the
length argument is a uint8_t -/
def msgTlvPut (m : Msg) (tag : Byte) (val : List Byte) : EncRes :=
  let len := val.length % 256
  msgPut m (len + 2) ([tag, BitVec.ofNat 8 len] ++ val.take len)

/-- include/osmocom/gsm/tlv.h:250-255 `msgb_tl16v_put` with :144-152 tl16v_put; the length is a uint16_t -/
def msgTl16vPut (m : Msg) (tag : Byte) (val : List Byte) : EncRes :=
  let len := val.length % 65536
  msgPut m (len + 3) ([tag, BitVec.ofNat 8 (len >>> 8), BitVec.ofNat 8 (len &&& 0xff)] ++ val.take len)

/-- include/osmocom/gsm/tlv.h:55-61 `TVLV_GROSS_LEN` -/
def tvlvGrossLen (len : Nat) : Nat := if len ≤ 0x7f then (len + 2) % 65536 else (len + 3) % 65536

/-- include/osmocom/gsm/tlv.h:275-280 `msgb_tvlv_put` with :175-187 tvlv_put -/
def msgTvlvPut (m : Msg) (tag : Byte) (val : List Byte) : EncRes :=
  let len := val.length % 65536
  if len ≤ 0x7f then
    msgPut m (tvlvGrossLen len) ([tag, BitVec.ofNat 8 len ||| 0x80#8] ++ val.take len)
  else
    msgPut m (tvlvGrossLen len) ([tag, BitVec.ofNat 8 (len >>> 8), BitVec.ofNat 8 (len &&& 0xff)] ++ val.take len)

/-- include/osmocom/gsm/tlv.h:78-91 `VTVLV_GAN_GROSS_LEN` -/
def vtvlvGanGrossLen (tag len : Nat) : Nat :=
  let ret := if len ≤ 0x7f then (len + 2) % 65536 else (len + 3) % 65536
  if tag > 0x7f then (ret + 1) % 65536 else ret

/-- include/osmocom/gsm/tlv.h:207-217 `vt_gan_put` -/
def vtGanPut (tag : Nat) : List Byte :=
  if tag > 0x7f then [BitVec.ofNat 8 (0x80 ||| (tag >>> 8)), BitVec.ofNat 8 (tag &&& 0xff)] else [BitVec.ofNat 8 tag]

/-- include/osmocom/gsm/tlv.h:297-302 `msgb_vtvlv_gan_put` with :229-240 vtvlv_gan_put -/
def msgVtvlvGanPut (m : Msg) (tag : Nat) (val : List Byte) : EncRes :=
  let len := val.length % 65536
  msgPut m (vtvlvGanGrossLen tag len) (vtGanPut tag ++ vtGanPut len ++ val.take len)

/-- src/gsm/tlv_parser.c:132-166 `tlv_encode_one`; `val` is the array of `len` bytes at `val` -/
def encodeOne (m : Msg) (type : TlvType) (tag : Byte) (val : List Byte) : EncRes :=
  match type with
  | .none => .ok m
  | .fixed => msgPut m (1 + val.length) (tag :: val)
  | .t => msgPut m 1 [tag]
  | .tv => match val with
    | [] => .ub
    | v :: _ => msgPut m 2 [tag, v]
  | .tlv => msgTlvPut m tag val
  | .tl16v => msgTl16vPut m tag val
  | .tvlv => msgTvlvPut m tag val
  | .singleTv => match val with
    | [] => .ub
    | v :: _ => msgPut m 1 [(tag <<< 4) ||| (v &&& 0xf#8)]
  | .vtvlvGan => msgVtvlvGanPut m tag.toNat val
  | .other => .err (-22)

/-- the values of a `tlv_parsed`, for each tag the bytes or `none` -/
abbrev Values := Byte → Option (List Byte)

/-- src/gsm/tlv_parser.c:199-219 `tlv_encode_ordered`: the loop -/
def encodeLoop (d : Definition) (tp : Values) (m : Msg) : List Byte → EncRes
  | [] => .ok m
  | tag :: tags => match tp tag with
    | none => encodeLoop d tp m tags
    | some val => match encodeOne m (d tag).type tag val with
      | .ok m' => encodeLoop d tp m' tags
      | r => r

/-- src/gsm/tlv_parser.c:173-190 `tlv_encode`: all tags in ascending order -/
def encode (m : Msg) (d : Definition) (tp : Values) : EncRes :=
  encodeLoop d tp m ((List.range 256).map (BitVec.ofNat 8))

/-- the returned number of bytes, src/gsm/tlv_parser.c:189 -/
def encodeRc (before : Msg) : EncRes → Int
  | .ok m => before.tailroom - m.tailroom
  | .err rc => rc
  | _ => 0

/-- src/gsm/tlv_parser.c:449-459 `tlv_def_patch` -/
def defPatch (dst src : Definition) : Definition := fun i =>
  if (src i).type = .none then dst i
  else if (dst i).type = .none then src i
  else dst i

/-! ## Cursor functions: `data` is the memory from `*data` on, of `*data_len` bytes -/

/-- result: return code, remaining data, and the window (offset from the old
`*data`, length) that is reported, if any -/
structure Shift where
  rc : Int
  rest : List Byte
  window : Option (Nat × Nat)
  deriving DecidableEq, Repr

/-- the fail labels -/
def shiftFail : Shift := { rc := -1, rest := [], window := none }

/-- src/gsm/tlv_parser.c:478-496 `osmo_shift_v_fixed` -/
def shiftVFixed (data : List Byte) (len : Nat) : Shift :=
  if len > data.length then shiftFail else { rc := len, rest := data.drop len, window := some (0, len) }

/-- src/gsm/tlv_parser.c:506-534 `osmo_match_shift_tv_fixed` -/
def matchShiftTvFixed (data : List Byte) (tag : Byte) (len : Nat) : Shift :=
  match data with
  | [] => shiftFail
  | b :: tl =>
    if b ≠ tag then { rc := 0, rest := data, window := none }
    else if len > (b :: tl).length - 1 then shiftFail
    else { rc := (len + 1 : Nat), rest := data.drop (len + 1), window := some (1, len) }

/-- src/gsm/tlv_parser.c:572-603 `osmo_shift_tlv`; the first component is the tag stored, if any -/
def shiftTlv (data : List Byte) : Option Byte × Shift :=
  match data with
  | b :: l :: tl =>
    if l.toNat > (b :: l :: tl).length - 2 then (none, shiftFail)
    else (some b, { rc := (l.toNat + 2 : Nat), rest := data.drop (l.toNat + 2), window := some (2, l.toNat) })
  | _ => (none, shiftFail)

/-- src/gsm/tlv_parser.c:544-562 `osmo_match_shift_tlv` -/
def matchShiftTlv (data : List Byte) (tag : Byte) : Shift :=
  match shiftTlv data with
  | (some t, s) => if s.rc > 0 ∧ t ≠ tag then { rc := 0, rest := data, window := s.window } else s
  | (none, s) => s

/-- src/gsm/tlv_parser.c:612-640 `osmo_shift_lv` -/
def shiftLv (data : List Byte) : Shift :=
  match data with
  | [] => shiftFail
  | l :: tl =>
    if l.toNat > (l :: tl).length - 1 then shiftFail
    else { rc := (l.toNat + 1 : Nat), rest := data.drop (l.toNat + 1), window := some (1, l.toNat) }

/-! ## Validation, copy, merge -/

/-- src/gsm/tlv_parser.c:700-710: the length check of one IE -/
def shortStep (minLen : Byte → Nat) (len : Byte → Option Nat) (err : Int) (i : Byte) : Int :=
  match len i with
  | none => err
  | some l => if l < minLen i ∧ err = 0 then -51 else err

/-- src/gsm/tlv_parser.c:677-714 `osmo_tlv_prot_validate_tp`; `mand` is the list
of mandatory IEs of the message type (empty for NULL), `minLen` the minimum
length of each IE, `len` the length of each IE that is present.  Logging is left out. -/
def validate (mand : List Byte) (minLen : Byte → Nat) (len : Byte → Option Nat) : Int :=
  let err : Int := mand.foldl (fun err iei => if (len iei).isNone ∧ err = 0 then -50 else err) 0
  ((List.range 256).map (BitVec.ofNat 8)).foldl (shortStep minLen len) err

/-- an entry of a `tlv_parsed` with its own memory: length and value, `none` = NULL -/
structure Entry where
  len : Nat
  val : Option (List Byte)
  deriving DecidableEq, Repr

/-- src/gsm/tlv_parser.c:70-98 `osmo_tlvp_copy` for one entry: `tp_out` comes
zeroed, the test is on `tp_out->lv[i].val`.  Allocations succeed. -/
def copyEntry (orig : Entry) : Entry :=
  let out : Entry := { len := orig.len, val := none }
  if orig.len ≠ 0 ∧ out.val.isSome then { out with val := orig.val } else out

/-- src/gsm/tlv_parser.c:105-122 `osmo_tlvp_merge` for one entry.  Allocations succeed. -/
def mergeEntry (dst src : Entry) : Entry :=
  if src.len = 0 ∨ src.val.isNone then dst
  else
    let dst := if dst.val.isSome then { len := 0, val := none } else dst
    { dst with val := src.val }

end Verif.Tlv
