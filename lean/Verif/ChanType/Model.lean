import Verif.SpeechCodec.Props
/-!
Model of further elements of `src/gsm/gsm0808_utils.c`: channel type and
encryption information (3GPP TS 48.008 3.2.2.11 and 3.2.2.10), and the
conversions of AMR configurations.

Simplifications: the message buffer is the list of octets appended, room is
assumed; NULL arguments are left out; what an erroneous element leaves in the
structure is left out; a failing assertion or access outside of an array is
`none`.
-/
namespace Verif.ChanType

/-- `-EINVAL` of gsm0808_utils.c:570, 589, 839. -/
def EINVAL : Int := -22
/-- `-EOVERFLOW` of gsm0808_utils.c:591, 601, 614. -/
def EOVERFLOW : Int := -75
/-- `-ENOTSUP` of gsm0808_utils.c:628. -/
def ENOTSUP : Int := -95

/-- gsm_08_08.h:741-756, `struct gsm0808_channel_type`; `spch` is an array of 9
octets (line 740), `asym` an enumeration (732-737). -/
structure CT where
  ind : Byte
  rateType : Byte
  spch : List Byte
  spchLen : Nat
  transparent : Bool
  dataRate : Byte
  allowedSet : Bool
  allowed : Byte
  asymSet : Bool
  asym : Nat
deriving DecidableEq, Repr

/-- gsm0808_utils.c:511-530, the octets of a data channel. -/
def encData (c : CT) : Option (List Byte) :=
  let byte := if c.transparent then c.dataRate else c.dataRate ||| 0x40#8
  if c.allowedSet then
    if c.transparent then none
    else if c.asymSet then
      some [byte ||| 0x80#8, c.allowed ||| 0x80#8, BitVec.ofNat 8 (c.asym <<< 5)]
    else some [byte ||| 0x80#8, c.allowed]
  else some [byte]

/-- gsm0808_utils.c:534-540, the loop over the speech versions. -/
def encSpch : List Byte → List Byte
  | [] => []
  | [b] => [b]
  | b :: bs => (b ||| 0x80#8) :: encSpch bs

/-- gsm0808_utils.c:509-548, the octets by channel indicator. -/
def encBody (c : CT) : Option (List Byte) :=
  if c.ind = 2#8 then encData c
  else if c.ind = 1#8 ∨ c.ind = 4#8 then
    if c.spchLen ≤ c.spch.length then some (encSpch (c.spch.take c.spchLen)) else none
  else if c.ind = 3#8 then some [0#8]
  else none

/-- gsm0808_utils.c:491-552, `gsm0808_enc_channel_type`: octets and return value. -/
def enc (c : CT) : Option (List Byte × Nat) :=
  if c.spchLen > 9 then none
  else do
    let b ← encBody c
    let n := (2 + b.length) % 256
    some (11#8 :: BitVec.ofNat 8 n :: (c.ind &&& 0x0f#8) :: c.rateType :: b, n + 2)

/-- gsm0808_utils.c:572-577: all else zero. -/
def blank (ind rateType : Byte) : CT :=
  ⟨ind, rateType, List.replicate 9 0#8, 0, false, 0#8, false, 0#8, false, 0⟩

/-- gsm0808_utils.c:580-609.  `byte & 0x60 >> 5` is `byte & 3` in C. -/
def decData (c : CT) : List Byte → Except Int (CT × Nat)
  | [] => .error EINVAL
  | b :: t =>
    let c := { c with transparent := !b.getLsbD 6, dataRate := b &&& 0x3f#8 }
    if b.getLsbD 7 then
      if c.transparent then .error EINVAL
      else match t with
        | [] => .error EOVERFLOW
        | a :: t =>
          let c := { c with allowedSet := true, allowed := a &&& 0x7f#8 }
          if a.getLsbD 7 then
            match t with
            | [] => .error EOVERFLOW
            | p :: _ => .ok ({ c with asymSet := true, asym := (p &&& (0x60#8 >>> 5)).toNat }, 3)
          else .ok (c, 2)
    else .ok (c, 1)

/-- gsm0808_utils.c:612-622, the loop over the speech versions with `n` elements
of the array left: the elements written and what is added to `perm_spch_len`;
after the last element of the array `i` is its size and one is added to it. -/
def decSpch : Nat → List Byte → Except Int (List Byte × Nat)
  | 0, _ => .ok ([], 1)
  | _ + 1, [] => .error EOVERFLOW
  | n + 1, b :: t =>
    if b.getLsbD 7 = false then .ok ([b &&& 0x7f#8], 1)
    else match decSpch n t with
      | .error e => .error e
      | .ok (l, k) => .ok ((b &&& 0x7f#8) :: l, k + 1)

/-- gsm0808_utils.c:559-632, `gsm0808_dec_channel_type`: structure and octets
parsed. -/
def dec (elem : List Byte) : Except Int (CT × Nat) :=
  if elem.length < 3 ∨ elem.length > 11 then .error EINVAL
  else match elem with
    | i :: r :: t =>
      let c := blank (i &&& 0x0f#8) r
      if c.ind = 2#8 then
        match decData c t with
        | .error e => .error e
        | .ok (c, k) => .ok (c, 2 + k)
      else if c.ind = 1#8 ∨ c.ind = 4#8 then
        match decSpch 9 t with
        | .error e => .error e
        | .ok (l, k) =>
          .ok ({ c with spch := l ++ List.replicate (9 - l.length) 0#8, spchLen := k }, 2 + l.length)
      else if c.ind = 3#8 then .ok (c, 2)
      else .error ENOTSUP
    | _ => .error EINVAL

/-- gsm_08_08.h:759-766, `struct gsm0808_encrypt_info`: the first `perm_algo_len`
algorithms and the first `key_len` octets of the key; the arrays have 8 and 252
elements. -/
structure EI where
  algos : List Byte
  key : List Byte
deriving DecidableEq, Repr

/-- gsm0808_utils.c:805-811, the loop over the algorithms. -/
def algoMask : List Byte → Byte → Option Byte
  | [], m => some m
  | a :: as, m =>
    if a = 0#8 ∨ a > 8#8 then none else algoMask as (m ||| (1#8 <<< (a.toNat - 1)))

/-- gsm0808_utils.c:789-821, `gsm0808_enc_encrypt_info`. -/
def encEi (e : EI) : Option (List Byte × Nat) :=
  if e.key.length > 252 then none
  else if e.algos.length > 8 then none
  else do
    let m ← algoMask e.algos 0#8
    let n := (1 + e.key.length) % 256
    some (10#8 :: BitVec.ofNat 8 n :: m :: e.key, (n + 2) % 256)

/-- gsm0808_utils.c:846-852, the loop over the bits from `i` on, `n` of them. -/
def algoList (m : Byte) : Nat → Nat → List Byte
  | _, 0 => []
  | i, n + 1 =>
    if m.getLsbD i then BitVec.ofNat 8 (i + 1) :: algoList m (i + 1) n else algoList m (i + 1) n

/-- gsm0808_utils.c:828-861, `gsm0808_dec_encrypt_info`; `none` = writes beyond
the array of the key. -/
def decEi : List Byte → Option (Except Int (EI × Nat))
  | [] => some (.error EINVAL)
  | m :: key =>
    if key.length > 252 then none
    else some (.ok (⟨algoList m 0 8, key⟩, 1 + key.length))

/-- gsm0808_utils.c:1574-1604, `gsm0808_chan_type_to_speech_codec`, with the
values of gsm_08_08.h:494-505 and 548-559. -/
def toCodecType (perm : Byte) : Option Byte :=
  if perm = 0x01#8 then some 0x0#8
  else if perm = 0x11#8 then some 0x2#8
  else if perm = 0x21#8 then some 0x3#8
  else if perm = 0x41#8 then some 0xc#8
  else if perm = 0x42#8 then some 0x9#8
  else if perm = 0x05#8 then some 0x1#8
  else if perm = 0x25#8 then some 0x4#8
  else if perm = 0x46#8 then some 0xd#8
  else if perm = 0x45#8 then some 0xb#8
  else none

/-- gsm0808_utils.c:1612-1658, `gsm0808_speech_codec_from_chan_type`, with the
defaults of gsm_08_08.h:657-664. -/
def codecFrom (perm : Byte) : Option SpeechCodec.Codec :=
  (toCodecType perm).map fun t =>
    let cfg : BitVec 16 :=
      if t = 0x3#8 then 0x57ff#16
      else if t = 0xc#8 then 0x15#16
      else if t = 0x9#8 then 0x01#16
      else if t = 0x4#8 then 0x073f#16
      else if t = 0xd#8 then 0x01#16
      else if t = 0xb#8 then 0x57ff#16
      else 0#16
    ⟨true, false, false, false, t, cfg⟩

/-- gsm_04_08.h:603-623, the rates of `struct gsm48_multi_rate_conf`. -/
structure MrCfg where
  m4_75 : Bool
  m5_15 : Bool
  m5_90 : Bool
  m6_70 : Bool
  m7_40 : Bool
  m7_95 : Bool
  m10_2 : Bool
  m12_2 : Bool
deriving DecidableEq, Repr

/-- `if (b) s |= v` of gsm0808_utils.c:1673-1688. -/
def orIf (s : BitVec 16) (b : Bool) (v : BitVec 16) : BitVec 16 := if b then s ||| v else s

/-- gsm0808_utils.c:1665-1711, `gsm0808_sc_cfg_from_gsm48_mr_cfg`, with the values
of gsm_08_08.h:658-659, 673-680, 691. -/
def scFromMr (c : MrCfg) (fr : Bool) : BitVec 16 :=
  let s := orIf 0#16 c.m4_75 0xff03#16
  let s := orIf s c.m5_15 0x0000#16
  let s := orIf s c.m5_90 0xff06#16
  let s := orIf s c.m6_70 0x3e08#16
  let s := orIf s c.m7_40 0x0c12#16
  let s := orIf s c.m7_95 0xc020#16
  let s := orIf s c.m10_2 0x3040#16
  let s := orIf s c.m12_2 0xc082#16
  let s := if fr then s &&& 0x57ff#16 else s &&& 0x073f#16
  if !(c.m12_2 && c.m7_40 && c.m5_90 && c.m4_75) && fr then s &&& ~~~0x0002#16
  else if !(c.m7_40 && c.m5_90 && c.m4_75) then s &&& ~~~0x0002#16
  else s

/-- One of the blocks of gsm0808_utils.c:1757-1798: the count so far and whether
the rate is already set; yields both. -/
def rate (s : BitVec 16) (bit : BitVec 16) (was : Bool) (count : Nat) : Option (Bool × Nat) :=
  if s &&& bit ≠ 0#16 ∧ was = false then
    if count ≥ 4 then none else some (true, count + 1)
  else some (was, count)

/-- gsm0808_utils.c:1718-1804, `gsm48_mr_cfg_from_gsm0808_sc_cfg`: the rates; `none` = -EINVAL.
The other fields of the configuration are constant (1732-1733) and left out. -/
def mrFromSc (s : BitVec 16) : Option MrCfg := do
  let s := s &&& 0x00ff#16
  let four := decide (s &&& 0x0002#16 ≠ 0#16)
  let count := if four then 4 else 0
  let (m4_75, count) ← rate s 0x0001#16 four count
  let (m5_90, count) ← rate s 0x0004#16 four count
  let (m6_70, count) ← rate s 0x0008#16 false count
  let (m7_40, count) ← rate s 0x0010#16 four count
  let (m7_95, count) ← rate s 0x0020#16 false count
  let (m10_2, count) ← rate s 0x0040#16 false count
  let (m12_2, count) ← rate s 0x0080#16 four count
  if count = 0 then none
  else some ⟨m4_75, false, m5_90, m6_70, m7_40, m7_95, m10_2, m12_2⟩

end Verif.ChanType
