import Verif.Endian.Props
/-!
Model of `src/gsm/gad.c`: universal geographical area descriptions of 3GPP TS
23.032.  Degrees are integers in millionths of a degree, encoded values are
naturals (`uint32_t`).

Simplifications: the `osmo_gad_err` allocated for an error is its return code
(an `Except.error`); a raw PDU is the list of its octets; `msgb_put` appends
(room in the message buffer is assumed); the printing functions are left out.
-/
namespace Verif.Gad

/-- Conversion of an `int64_t` or `uint32_t` to `int32_t` (gcc: modulo 2^32),
as done by the returns of gad.c:93, 146 and the assignments of 139, 141. -/
def wrap32 (x : Int) : Int := (BitVec.ofInt 32 x).toInt

/-- gad.c:63 and 110: `OSMO_MAX(-m, OSMO_MIN(m, deg_1e6))`. -/
def clamp (m x : Int) : Int := max (-m) (min m x)

/-- gad.c:55-73, `osmo_gad_enc_lat`.  The magnitude is not negative, so the
shift of line 69 is a product and the division a floor; `sign | (x & 0x7fffff)`
is the sum since the bits are disjoint. -/
def encLat (deg : Int) : Nat :=
  let d := clamp 90000000 deg
  let sign := if d < 0 then 2 ^ 23 else 0
  let a := d.natAbs
  let x := (a * 2 ^ 23 + (2 ^ 23 - 1)) / 90000000
  sign + x % 2 ^ 23

/-- gad.c:81-94, `osmo_gad_dec_lat`.  `lat & 0x800000` is bit 23. -/
def decLat (lat : Nat) : Int :=
  if lat.testBit 23 then wrap32 (-((lat % 2 ^ 23 * 90000000 / 2 ^ 23 : Nat) : Int))
  else wrap32 ((lat * 90000000 / 2 ^ 23 : Nat) : Int)

/-- gad.c:102-119, `osmo_gad_enc_lon`.  C division truncates (`Int.tdiv`);
`x & 0xffffff` of a two's complement number is the residue modulo 2^24. -/
def encLon (deg : Int) : Nat :=
  let d := clamp 180000000 deg
  let x := d * 2 ^ 24
  let x := if d ≥ 0 then x + (2 ^ 24 - 1) else x - (2 ^ 24 - 1)
  (x.tdiv 360000000 % 2 ^ 24).toNat

/-- gad.c:128-147, `osmo_gad_dec_lon`.  `lon | 0xff000000` of a number with bit 23
set, as an `int32_t`, is its residue modulo 2^24 less 2^24. -/
def decLon (lon : Nat) : Int :=
  let slon : Int := if lon.testBit 23 then ((lon % 2 ^ 24 : Nat) : Int) - 2 ^ 24 else wrap32 lon
  wrap32 ((slon * 360000000).tdiv (2 ^ 24))

/-- gad.c:158-170, `table_uncertainty_1e3`. -/
def uncTable : List Nat :=
  [0, 1000, 2100, 3310, 4641, 6105, 7715, 9487, 11435, 13579, 15937, 18531,
   21384, 24522, 27974, 31772, 35949, 40544, 45599, 51159, 57274, 64002, 71402, 79543,
   88497, 98347, 109181, 121099, 134209, 148630, 164494, 181943, 201137, 222251, 245476, 271024,
   299126, 330039, 364043, 401447, 442592, 487851, 537636, 592400, 652640, 718904, 791795, 871974,
   960172, 1057189, 1163908, 1281299, 1410429, 1552472, 1708719, 1880591, 2069650, 2277615, 2506377, 2758014,
   3034816, 3339298, 3674227, 4042650, 4447915, 4893707, 5384077, 5923485, 6516834, 7169517, 7887469, 8677216,
   9545938, 10501531, 11552685, 12708953, 13980849, 15379933, 16918927, 18611820, 20474002, 22522402, 24775642, 27254206,
   29980627, 32979690, 36278659, 39907525, 43899277, 48290205, 53120226, 58433248, 64277573, 70706330, 77777964, 85556760,
   94113436, 103525780, 113879358, 125268293, 137796123, 151576735, 166735409, 183409950, 201751945, 221928139, 244121953, 268535149,
   295389664, 324929630, 357423593, 393166952, 432484648, 475734112, 523308524, 575640376, 633205414, 696526955, 766180651, 842799716,
   927080688, 1019789756, 1121769732, 1233947705, 1357343476, 1493078824, 1642387706, 1806627477]

/-- gad.c:178-181, `osmo_gad_dec_unc`. -/
def decUnc (unc : Byte) : Nat := uncTable.getD (unc &&& 0x7f#8).toNat 0

/-- gad.c:193-197, the loop of `osmo_gad_enc_unc` over the entries from index
`k` on; `unc - 1` is computed in `int` and returned as `uint8_t`. -/
def encUncLoop (mm k : Nat) : List Nat → Byte
  | [] => 127#8
  | t :: ts => if t > mm then BitVec.ofInt 8 ((k : Int) - 1) else encUncLoop mm (k + 1) ts

/-- gad.c:190-198, `osmo_gad_enc_unc`. -/
def encUnc (mm : Nat) : Byte := encUncLoop mm 0 uncTable

/-- gad.h:42-49, `struct osmo_gad_ell_point_unc_circle`. -/
structure Circle where
  lat : Int
  lon : Int
  unc : Nat
deriving DecidableEq, Repr

/-- `-EINVAL`, used at gad.c:265, 267, 286, 303, 357, 362, 364. -/
def EINVAL : Int := -22
/-- `-ENOTSUP`, used at gad.c:317, 382, 404. -/
def ENOTSUP : Int := -95

/-- gsm_23_032.h:52-60, `h.type` of the first octet (upper half). -/
def typeOf (b : Byte) : Nat := (b >>> 4).toNat

/-- gsm_23_032.h:108-117, `polygon.h.num_points` of the first octet (lower half). -/
def numPoints (b : Byte) : Nat := (b &&& 0x0f#8).toNat

/-- gad.c:262-275, `osmo_gad_enc_ell_point_unc_circle`: the octets of the raw
PDU (gsm_23_032.h:68-82) and the return value `sizeof(raw)`, the size `ptr` of a
pointer. -/
def encCircle (ptr : Nat) (v : Circle) : Except Int (List Byte × Nat) :=
  if v.lat < -90000000 ∨ v.lat > 90000000 then .error EINVAL
  else if v.lon < -180000000 ∨ v.lon > 180000000 then .error EINVAL
  else
    match Endian.storeBeExt (BitVec.ofNat 32 (encLat v.lat)) 3,
          Endian.storeBeExt (BitVec.ofNat 32 (encLon v.lon)) 3 with
    | some la, some lo => .ok ((1#8 <<< 4) :: (la ++ lo ++ [encUnc v.unc &&& 0x7f#8]), ptr)
    | _, _ => .error 0

/-- gad.c:277-290, `osmo_gad_dec_ell_point_unc_circle`; `none` = reads beyond
the PDU. -/
def decCircle (raw : List Byte) : Option (Except Int Circle) := do
  let la ← Endian.loadBeExt2 32 (raw.drop 1) 3
  let lo ← Endian.loadBeExt2 32 (raw.drop 4) 3
  let u ← raw[7]?
  if u.msb then some (.error EINVAL)
  else some (.ok ⟨decLat la.toNat, decLon lo.toNat, decUnc (u &&& 0x7f#8)⟩)

/-- gad.c:292-319, `osmo_gad_raw_len`, by the first octet of the PDU; the sizes
are those of the structures of gsm_23_032.h:62-236. -/
def rawLen (b : Byte) : Except Int Nat :=
  match typeOf b with
  | 0 => .ok 7
  | 1 => .ok 8
  | 3 => .ok 11
  | 5 => if numPoints b < 3 then .error EINVAL else .ok (1 + numPoints b * 6)
  | 8 => .ok 9
  | 9 => .ok 14
  | 10 => .ok 13
  | 11 => .ok 16
  | 12 => .ok 18
  | _ => .error ENOTSUP

/-- gad.c:327-337, `osmo_gad_raw_write`: appends to `msg`; `none` = reads beyond
the raw PDU. -/
def rawWrite (msg raw : List Byte) : Option (Except Int (List Byte × Nat)) := do
  let b ← raw.head?
  match rawLen b with
  | .error e => some (.error e)
  | .ok len => if len ≤ raw.length then some (.ok (msg ++ raw.take len, len)) else none

/-- gad.c:350-369, `osmo_gad_raw_read` of a buffer of `data.length` octets;
yields the octets copied. -/
def rawRead (data : List Byte) : Except Int (List Byte) :=
  match data with
  | [] => .error EINVAL
  | b :: _ =>
    match rawLen b with
    | .error _ => .error EINVAL
    | .ok len => if len ≠ data.length then .error EINVAL else .ok (data.take len)

/-- gad.c:376-384, `osmo_gad_enc`; a value is given by its type and, for the
only type supported, its circle. -/
def enc (ptr : Nat) (type : Nat) (v : Circle) : Except Int (List Byte × Nat) :=
  if type = 1 then encCircle ptr v else .error ENOTSUP

/-- gad.c:394-406, `osmo_gad_dec`. -/
def dec (raw : List Byte) : Option (Except Int Circle) := do
  let b ← raw.head?
  if typeOf b = 1 then decCircle raw else some (.error ENOTSUP)

end Verif.Gad
