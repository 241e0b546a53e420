import Verif.BitBuf
/-!
Model of src/core/bitvec.c.  `struct bitvec` is the byte list `data`
(`data_len` is its length) and the cursor `cur`.  Positions and lengths are
naturals: wrap-around of `unsigned int` at 2^32 is not modelled.  Reads and
writes outside `data` are `none` where the code does not check.
-/
namespace Verif.Bitvec

/-- include/osmocom/core/bitvec.h:38-42 `struct bitvec` -/
structure BV where
  cur : Nat
  data : List Byte
deriving DecidableEq, Repr

/-- include/osmocom/core/bitvec.h:45-50 `enum bit_value` -/
inductive BitVal | zero | one | L | H
deriving DecidableEq, Repr

def EINVAL : Int := 22
def E2BIG : Int := 7

/-- src/core/bitvec.c:56-70 `bitval2mask` -/
def bitval2mask (v : BitVal) (bn : Nat) : Byte :=
  match v with
  | .zero => 0#8 <<< bn
  | .one => 1#8 <<< bn
  | .L => (0x2b#8 ^^^ (0#8 <<< bn)) &&& (1#8 <<< bn)
  | .H => (0x2b#8 ^^^ (1#8 <<< bn)) &&& (1#8 <<< bn)

/-- src/core/bitvec.c:77-92 `bitvec_get_bit_pos`; `none` is the -EINVAL return -/
def getBitPos (bv : BV) (bitnr : Nat) : Option BitVal :=
  let bn := 7 - bitnr % 8
  match bv.data[bitnr / 8]? with
  | none => none
  | some b => some (if b &&& bitval2mask .one bn ≠ 0#8 then .one else .zero)

/-- src/core/bitvec.c:99-115 `bitvec_get_bit_pos_high`; `none` is -EINVAL -/
def getBitPosHigh (bv : BV) (bitnr : Nat) : Option BitVal :=
  let bn := 7 - bitnr % 8
  match bv.data[bitnr / 8]? with
  | none => none
  | some b => some (if b &&& (1#8 <<< bn) = bitval2mask .H bn then .H else .L)

/-- src/core/bitvec.c:143-162 `bitvec_set_bit_pos` -/
def setBitPos (bv : BV) (bitnr : Nat) (v : BitVal) : Int × BV :=
  let bn := 7 - bitnr % 8
  match bv.data[bitnr / 8]? with
  | none => (-EINVAL, bv)
  | some b =>
    let b' := (b &&& ~~~ bitval2mask .one bn) ||| bitval2mask v bn
    (0, { bv with data := bv.data.set (bitnr / 8) b' })

/-- src/core/bitvec.c:169-178 `bitvec_set_bit` -/
def setBit (bv : BV) (v : BitVal) : Int × BV :=
  match setBitPos bv bv.cur v with
  | (rc, bv') => if rc = 0 then (0, { bv' with cur := bv'.cur + 1 }) else (rc, bv')

/-- src/core/bitvec.c:198-210 `bitvec_set_bits` -/
def setBits : BV → List BitVal → Int × BV
  | bv, [] => (0, bv)
  | bv, v :: vs =>
    match setBit bv v with
    | (rc, bv') => if rc ≠ 0 then (rc, bv') else setBits bv' vs

/-- src/core/bitvec.c:225-235: loop of `bitvec_set_u64`, `k` bits left
(`num_bits - i = k`). -/
def setU64Loop (v : BitVec 64) (lh : Bool) : Nat → BV → Int × BV
  | 0, bv => (0, bv)
  | k + 1, bv =>
    let bit := if v &&& (1#64 <<< k) ≠ 0#64 then (if lh then .H else .one)
               else (if lh then BitVal.L else .zero)
    match setBit bv bit with
    | (rc, bv') => if rc ≠ 0 then (rc, bv') else setU64Loop v lh k bv'

/-- src/core/bitvec.c:218-238 `bitvec_set_u64`; `num_bits` is a `uint8_t`. -/
def setU64 (bv : BV) (v : BitVec 64) (n : Nat) (lh : Bool) : Int × BV :=
  if n % 256 > 64 then (-E2BIG, bv) else setU64Loop v lh (n % 256) bv

/-- src/core/bitvec.c:242-245 `bitvec_set_uint` -/
def setUint (bv : BV) (ui : BitVec 32) (n : Nat) : Int × BV := setU64 bv (ui.setWidth 64) n false

/-- result of `bitvec_get_uint`: error code, value, or undefined behaviour
(shift by 32 or more) -/
inductive UintRes | err (e : Int) | val (i : Int) | ub
deriving DecidableEq, Repr

/-- src/core/bitvec.c:267-276: loop of `bitvec_get_uint`, `k` bits left -/
def getUintLoop : Nat → BitVec 32 → BV → UintRes × BV
  | 0, ui, bv => (.val ui.toInt, bv)
  | k + 1, ui, bv =>
    match getBitPos bv bv.cur with
    | none => (.err (-EINVAL), bv)
    | some b =>
      if b ≠ .zero ∧ 32 ≤ k then (.ub, bv)
      else getUintLoop k (if b ≠ .zero then ui ||| (1#32 <<< k) else ui) { bv with cur := bv.cur + 1 }

/-- src/core/bitvec.c:262-277 `bitvec_get_uint` -/
def getUint (bv : BV) (n : Nat) : UintRes × BV := getUintLoop n 0#32 bv

/-- src/core/bitvec.c:285-287: loop of `bitvec_fill` -/
def fill : Nat → BV → BitVal → Int × BV
  | 0, bv, _ => (0, bv)
  | n + 1, bv, v =>
    match setBit bv v with
    | (rc, bv') => if rc < 0 then (-EINVAL, bv') else fill n bv' v

/-- src/core/bitvec.c:294-301 `bitvec_spare_padding` -/
def sparePadding (bv : BV) (upTo : Nat) : Int × BV :=
  let n : Int := (upTo : Int) - bv.cur + 1
  if n < 1 then (0, bv) else fill n.toNat bv .L

/-- src/core/bitvec.c:310-315: loop of `bitvec_find_bit_pos`, `n` positions left -/
def findLoop (bv : BV) (v : BitVal) : Nat → Nat → Int
  | 0, _ => -1
  | n + 1, i => if getBitPos bv i = some v then (i : Int) else findLoop bv v n (i + 1)

/-- src/core/bitvec.c:305-316 `bitvec_find_bit_pos` -/
def findBitPos (bv : BV) (n : Nat) (v : BitVal) : Int := findLoop bv v (bv.data.length * 8 - n) n

/-- src/core/bitvec.c:126-134: loop of `bitvec_get_nth_set_bit`; `m` positions
left, `k` hits so far -/
def nthLoop (bv : BV) (n : Nat) : Nat → Nat → Nat → Nat
  | 0, _, _ => 0
  | m + 1, i, k =>
    if getBitPos bv i = some .one then
      if k + 1 = n then i else nthLoop bv n m (i + 1) (k + 1)
    else nthLoop bv n m (i + 1) k

/-- src/core/bitvec.c:122-135 `bitvec_get_nth_set_bit` -/
def getNthSetBit (bv : BV) (n : Nat) : Nat := nthLoop bv n (bv.data.length * 8) 0 0

/-- src/core/bitvec.c:341-347: loop of `bitvec_get_bytes` with bit offset `bo` -/
def getBytesLoop (data : List Byte) (bo : Nat) : Nat → Nat → Byte → Option (List Byte)
  | 0, _, _ => some []
  | n + 1, src, last =>
    match data[src]? with
    | none => none
    | some c => (getBytesLoop data bo n (src + 1) c).map
        fun r => ((last <<< bo) ||| (c >>> (8 - bo))) :: r

/-- src/core/bitvec.c:325-352 `bitvec_get_bytes`: return code, bytes written,
vector; `none` = access outside `data`. -/
def getBytes (bv : BV) (count : Nat) : Option (Int × List Byte × BV) :=
  let byo := bv.cur / 8
  let bo := bv.cur % 8
  if byo + count + (if bo ≠ 0 then 1 else 0) > bv.data.length then some (-EINVAL, [], bv)
  else
    let out := if bo = 0 then readAt bv.data byo count
      else match bv.data[byo]? with
        | none => none
        | some last => getBytesLoop bv.data bo count (byo + 1) last
    out.map fun o => (0, o, { bv with cur := bv.cur + count * 8 })

/-- src/core/bitvec.c:378-387: loop of `bitvec_set_bytes` with bit offset `bo`
and the final store to the byte after the last. -/
def setBytesLoop (bo : Nat) : List Byte → Nat → Byte → List Byte → Option (List Byte)
  | [], dst, last, data =>
    match data[dst]? with
    | none => none
    | some d => some (data.set dst ((d &&& ((1#8 <<< (8 - bo)) - 1#8)) ||| (last <<< (8 - bo))))
  | c :: cs, dst, last, data =>
    if dst < data.length then
      setBytesLoop bo cs (dst + 1) c (data.set dst ((last <<< (8 - bo)) ||| (c >>> bo)))
    else none

/-- src/core/bitvec.c:361-392 `bitvec_set_bytes` -/
def setBytes (bv : BV) (bytes : List Byte) : Option (Int × BV) :=
  let byo := bv.cur / 8
  let bo := bv.cur % 8
  let count := bytes.length
  if byo + count + (if bo ≠ 0 then 1 else 0) > bv.data.length then some (-EINVAL, bv)
  else
    let data' := if bo = 0 then writeAt bv.data byo bytes
      else if bytes = [] then some bv.data
      else match bv.data[byo]? with
        | none => none
        | some d => setBytesLoop bo bytes byo (d >>> (8 - bo)) bv.data
    data'.map fun d => (0, { cur := bv.cur + count * 8, data := d })

/-- src/core/bitvec.c:490-497: loop of `bitvec_read_field`, `k` bits left;
`none` = out-of-bounds read or shift by 64 or more. -/
def readFieldLoop (data : List Byte) : Nat → Nat → BitVec 64 → Option (BitVec 64)
  | 0, _, ui => some ui
  | k + 1, cur, ui =>
    match data[cur / 8]? with
    | none => none
    | some b =>
      if b &&& (1#8 <<< (7 - cur % 8)) ≠ 0#8 then
        if 64 ≤ k then none else readFieldLoop data k (cur + 1) (ui ||| (1#64 <<< k))
      else readFieldLoop data k (cur + 1) ui

/-- result of `bitvec_read_field`: value (0 and `errno = EOVERFLOW` reported as
`overflow := true`), new read index, vector -/
structure ReadRes where
  val : BitVec 64
  overflow : Bool
  idx : Nat
  bv : BV
deriving DecidableEq, Repr

/-- src/core/bitvec.c:476-500 `bitvec_read_field` -/
def readField (bv : BV) (idx len : Nat) : Option ReadRes :=
  if len ≠ 0 ∧ (idx + len - 1) / 8 ≥ bv.data.length then some ⟨0#64, true, idx, bv⟩
  else (readFieldLoop bv.data len idx 0#64).map fun ui =>
    ⟨ui, false, idx + len, { bv with cur := idx + len }⟩

/-- src/core/bitvec.c:508-521 `bitvec_write_field`: return code, write index, vector -/
def writeField (bv : BV) (idx : Nat) (v : BitVec 64) (len : Nat) : Int × Nat × BV :=
  match setU64 { bv with cur := idx } v len false with
  | (rc, bv') => if rc ≠ 0 then (rc, idx, bv') else (0, idx + len, bv')

/-- src/core/bitvec.c:553-573 `leading_bits` -/
def leadingBits (x : Byte) (b : Bool) : Nat :=
  let x := x.toNat
  if b then
    if x < 0x80 then 0 else if x < 0xC0 then 1 else if x < 0xE0 then 2 else if x < 0xF0 then 3
    else if x < 0xF8 then 4 else if x < 0xFC then 5 else if x < 0xFE then 6 else 7
  else
    if x > 0x7F then 0 else if x > 0x3F then 1 else if x > 0x1F then 2 else if x > 0xF then 3
    else if x > 7 then 4 else if x > 3 then 5 else if x > 1 then 6 else 7

/-- src/core/bitvec.c:590 `b ? 0xFF : 0` -/
def fullByte (b : Bool) : Byte := if b then 0xFF#8 else 0#8

/-- src/core/bitvec.c:589-594: loop of `bitvec_rl`, `n` bytes left -/
def rlLoop (bv : BV) (b : Bool) : Nat → Nat → Option Nat
  | 0, _ => some bv.cur
  | n + 1, i =>
    match bv.data[i]? with
    | none => none
    | some d => if fullByte b ≠ d then some (i * 8 + leadingBits d b) else rlLoop bv b n (i + 1)

/-- src/core/bitvec.c:586-595 `bitvec_rl` -/
def rl (bv : BV) (b : Bool) : Option Nat :=
  rlLoop bv b (if bv.cur % 8 ≠ 0 then bv.cur / 8 + 1 else bv.cur / 8) 0

/-- src/core/bitvec.c:617-624: bitwise loop of `bitvec_rl_curbit`; `j` bits left
in the first byte. `inl` = early return value. -/
def rlCurHead (b : Bool) (maxBits : Nat) : Nat → Nat → Nat → BV → Option ((Nat × BV) ⊕ (Nat × Nat × BV))
  | 0, readIdx, res, bv => some (.inr (readIdx, res, bv))
  | j + 1, readIdx, res, bv =>
    if readIdx < maxBits then
      match readField bv readIdx 1 with
      | none => none
      | some r =>
        if r.val = (if b then 1#64 else 0#64) then rlCurHead b maxBits j r.idx (res + 1) r.bv
        else some (.inl (res, { r.bv with cur := r.bv.cur - 1 }))
    else some (.inl (res, { bv with cur := bv.cur - 1 }))

/-- src/core/bitvec.c:626-639: byte loop of `bitvec_rl_curbit`, `n` bytes left -/
def rlCurBytes (b : Bool) (maxBits readIdx res : Nat) : Nat → Nat → Nat → BV → Option (Nat × BV)
  | 0, _, count, bv =>
    let c := res + count * 8 + readIdx
    let c := if c > maxBits then maxBits else c
    some (c - readIdx + res, { bv with cur := c })
  | n + 1, i, count, bv =>
    match bv.data[i]? with
    | none => none
    | some d =>
      if fullByte b ≠ d then
        some (count * 8 + leadingBits d b + res, { bv with cur := count * 8 + leadingBits d b + readIdx })
      else rlCurBytes b maxBits readIdx res n (i + 1) (count + 1) bv

/-- src/core/bitvec.c:605-640 `bitvec_rl_curbit`: run length and vector -/
def rlCurbit (bv : BV) (b : Bool) (maxBits : Nat) : Option (Nat × BV) :=
  let head := if bv.cur % 8 ≠ 0 then rlCurHead b maxBits (8 - bv.cur % 8) bv.cur 0 bv
              else some (.inr (bv.cur, 0, bv))
  match head with
  | none => none
  | some (.inl r) => some r
  | some (.inr (readIdx, res, bv')) =>
    rlCurBytes b maxBits readIdx res
      ((if maxBits % 8 ≠ 0 then maxBits / 8 + 1 else maxBits / 8) - readIdx / 8) (readIdx / 8) 0 bv'

/-- src/core/bitvec.c:656-660: loop of `bitvec_shiftl`; `s = n % 8`.
`load16be(data+i) << s`, most significant octet stored. -/
def shiftlLoop (s : Nat) : Nat → Nat → List Byte → Option (List Byte)
  | 0, _, data => some data
  | n + 1, i, data =>
    match data[i]?, data[i + 1]? with
    | some a, some c =>
      let t : BitVec 16 := (a.setWidth 16 <<< 8 ||| c.setWidth 16) <<< s
      shiftlLoop s n (i + 1) (data.set i ((t >>> 8).setWidth 8))
    | _, _ => none

/-- src/core/bitvec.c:656 `bv->data_len - 2` in `unsigned int`: for
`data_len < 2` the loop bound is near 2^32. -/
@[irreducible] def shiftlCount (len : Nat) : Nat := (len + (2 ^ 32 - 2)) % 2 ^ 32

/-- src/core/bitvec.c:643-664 `bitvec_shiftl`. -/
def shiftl (bv : BV) (n : Nat) : Option BV :=
  if n = 0 then some bv
  else if n ≥ bv.cur then some { cur := 0, data := List.replicate bv.data.length 0#8 }
  else
    let len := bv.data.length
    (readAt bv.data (n / 8 : Nat) (len - n / 8)).bind fun src =>
    (writeAt bv.data 0 src).bind fun d =>
    (shiftlLoop (n % 8) (shiftlCount len) 0 d).bind fun d' =>
    (d'[len - 1]?).map fun (l : Byte) =>
      { cur := bv.cur - n, data := d'.set (len - 1) (l <<< (n % 8)) }

/-- src/core/bitvec.c:690-697: array loop of `bitvec_add_array` (not dry-run);
return codes are ignored by the code. -/
def addArrayLoop (nb : Nat) : List (BitVec 32) → BV → BV
  | [], bv => bv
  | a :: as, bv => addArrayLoop nb as (setUint (setBit bv .one).2 a nb).2

/-- src/core/bitvec.c:685-704 `bitvec_add_array` with `dry_run = false` -/
def addArray (bv : BV) (arr : List (BitVec 32)) (nb : Nat) : BV :=
  (setBit (addArrayLoop nb arr bv) .zero).2

/-- src/core/bitvec.c:689-700: `bitvec_add_array` with `dry_run = true` -/
def addArrayDry (arr : List (BitVec 32)) (nb : Nat) : Nat :=
  arr.foldl (fun bits _ => bits + (1 + nb)) 1

end Verif.Bitvec
