import Verif.Bcd.Model
import Verif.GsmUtils.Model
/-!
Model of src/gsm/gsm0411_utils.c:58-324: semi-octets, time stamps, validity
periods and addresses of short messages.  `localtime` and `mktime` are not
modelled: time stamps are followed as far as the broken down time.  Reads and
stores outside of the memory given are `none`.
-/
namespace Verif.Sms.Utils

/-- src/gsm/gsm0411_utils.c:61-69 `gsm411_bcdify`; the argument is a `uint8_t` -/
def bcdify (value : Int) : Byte :=
  let v := (value % 256).toNat
  BitVec.ofNat 8 (v / 10) ||| BitVec.ofNat 8 (v % 10 * 16)

/-- src/gsm/gsm0411_utils.c:74-86 `gsm411_unbcdify` -/
def unbcdify (b : Byte) : Nat := (b.toNat % 16 * 10 + b.toNat / 16) % 256

/-- the members of `struct tm` used; the year counts from 1900, months from 0 -/
structure Tm where
  year : Int
  mon : Int
  mday : Int
  hour : Int
  min : Int
  sec : Int
  gmtoff : Int
  deriving DecidableEq, Repr

/-- src/gsm/gsm0411_utils.c:91-107 `gsm340_gen_scts` behind `localtime`; `has`:
HAVE_TM_GMTOFF_IN_TM is defined.  `/` on the offset truncates towards zero. -/
def genScts (has : Bool) (tm : Tm) : List Byte :=
  [bcdify (tm.year.tmod 100), bcdify (tm.mon + 1), bcdify tm.mday, bcdify tm.hour, bcdify tm.min,
   bcdify tm.sec, if has then bcdify (tm.gmtoff.tdiv (60 * 15)) else 0]

/-- src/gsm/gsm0411_utils.c:112-138 `gsm340_scts` up to `mktime`: the broken
down time and `ofs`, which is subtracted from what `mktime` returns -/
def decScts (has : Bool) (scts : List Byte) : Option (Tm × Int) :=
  match scts with
  | y :: mo :: d :: h :: mi :: s :: rest =>
    let yr : Nat := unbcdify y
    let tm : Tm := { year := if yr ≤ 80 then 100 + yr else yr, mon := (unbcdify mo : Int) - 1,
                     mday := unbcdify d, hour := unbcdify h, min := unbcdify mi, sec := unbcdify s, gmtoff := 0 }
    if has then
      match rest with
      | o :: o2 :: _ => some ({ tm with gmtoff := unbcdify o * 15 * 60 }, unbcdify o2 * 15 * 60)
      | _ => none
    else
      match rest with
      | o :: _ => some (tm, unbcdify o * 15 * 60)
      | _ => none
  | _ => none

/-- src/gsm/gsm0411_utils.c:141-147 `gsm340_vp_default` -/
def vpDefault : Nat := 24 * 60 * 2

/-- src/gsm/gsm0411_utils.c:150-166 `gsm340_vp_relative` -/
def vpRelative (vp : Nat) : Nat :=
  if vp ≤ 143 then (vp + 1) * 5
  else if vp ≤ 167 then 12 * 60 + (vp - 143) * 30
  else if vp ≤ 196 then (vp - 166) * 60 * 24
  else (vp - 192) * 60 * 24 * 7

/-- src/gsm/gsm0411_utils.c:169-182 `gsm340_vp_absolute`; `mktime` and the
present time are given -/
def vpAbsolute (has : Bool) (mktime : Tm → Int) (now : Int) (vp : List Byte) : Option Nat :=
  (decScts has vp).map fun (tm, ofs) =>
    if mktime tm - ofs ≤ now then 0 else ((mktime tm - ofs - now).tdiv 60).toNat

/-- src/gsm/gsm0411_utils.c:185-197 `gsm340_vp_relative_integer` -/
def vpInteger (vp : Nat) : Nat := if vp = 0 then vpDefault else vp / 60

/-- src/gsm/gsm0411_utils.c:200-207 `gsm340_vp_relative_semioctet` -/
def vpSemioctet : List Byte → Option Nat
  | h :: m :: s :: _ => some (unbcdify h * 60 + unbcdify m + unbcdify s / 60)
  | _ => none

/-- src/gsm/gsm0411_utils.c:222-243: the enhanced format; `vp` behind the
functionality indicator `fi` -/
def vpEnhanced (fi : Byte) (vp : List Byte) : Option Nat :=
  let vp := if fi.toNat / 128 % 2 = 1 then vp.drop 1 else vp
  match fi.toNat % 8 with
  | 1 => vp.head?.map fun b => vpRelative b.toNat
  | 2 => vp.head?.map fun b => vpInteger b.toNat
  | 3 => vpSemioctet vp
  | _ => some vpDefault

/-- include/osmocom/gsm/protocol/gsm_04_11.h:144-146 -/
def VPF_RELATIVE : Nat := 2
def VPF_ENHANCED : Nat := 1
def VPF_ABSOLUTE : Nat := 3

/-- src/gsm/gsm0411_utils.c:213-248 `gsm340_validity_period`; `vp` is the
memory at `sms_vp` -/
def validityPeriod (has : Bool) (mktime : Tm → Int) (now : Int) (vpf : Nat) (vp : List Byte) : Option Nat :=
  if vpf = VPF_RELATIVE then vp.head?.map fun b => vpRelative b.toNat
  else if vpf = VPF_ABSOLUTE then vpAbsolute has mktime now vp
  else if vpf = VPF_ENHANCED then
    match vp with
    | [] => none
    | fi :: rest => vpEnhanced fi rest
  else some vpDefault

/-- include/osmocom/gsm/gsm_utils.h `enum sms_alphabet`; `failed` is the return of -1 -/
inductive Alphabet where
  | none | default7 | ucs2 | data8 | failed
  deriving DecidableEq, Repr

/-- src/gsm/gsm0411_utils.c:253-288 `gsm338_get_sms_alphabet` -/
def alphabet (dcs : Byte) : Alphabet :=
  let cg := dcs.toNat / 16
  if cg / 4 = 0 then
    if cg / 2 % 2 = 1 then .failed
    else match dcs.toNat / 4 % 4 with
      | 0 => .default7
      | 1 => .data8
      | 2 => .ucs2
      | _ => .none
  else if cg = 0xc ∨ cg = 0xd then .default7
  else if cg = 0xe then .ucs2
  else if cg = 0xf then (if dcs.toNat / 4 % 2 = 1 then .data8 else .default7)
  else .none

/-- src/gsm/gsm0411_utils.c:302: the type of address octet -/
def toa (type plan : Byte) : Byte := 0x80 ||| type <<< 4 ||| plan

/-- src/gsm/gsm0411_utils.c:315-321: the number is encoded behind `oa[1]` as
stored before, `oa[0]` is the number of its characters -/
def genNumeric (oa : List Byte) (oaLen : Nat) (number : List Byte) : Option (Int × List Byte) :=
  let number := if number.length > 20 then [] else number
  (Bcd.encodeNumber oa (BitVec.ofNat 8 oaLen) 1 number).map fun (rc, mem) =>
    (rc, mem.set 0 (BitVec.ofNat 8 number.length))

/-- src/gsm/gsm0411_utils.c:311-313: text in the seven bit alphabet; the room
`oa_len - 2` is computed in `unsigned int` -/
def genAlpha (oa : List Byte) (oaLen : Nat) (number : List Byte) : Option (Int × List Byte) :=
  match GsmUtils.encodeN ((oaLen + (2 ^ 32 - 2)) % 2 ^ 32) (number.map BitVec.toNat) with
  | none => none
  | some (_, os) =>
    if 2 + os.length ≤ oa.length then
      some ((os.length : Int) + 2,
        BitVec.ofNat 8 (os.length * 2) :: (oa.take 2).drop 1 ++ os.map (BitVec.ofNat 8) ++ oa.drop (2 + os.length))
    else none

/-- src/gsm/gsm0411_utils.c:297-324 `gsm340_gen_oa`: `oa` is the memory given;
return value and memory -/
def genOa (oa : List Byte) (oaLen : Nat) (type plan : Byte) (number : List Byte) : Option (Int × List Byte) :=
  if oa.length < 2 then none
  else
    let oa := oa.set 1 (toa type plan)
    if type = 5 then genAlpha oa oaLen number else genNumeric oa oaLen number

end Verif.Sms.Utils
