import Verif.GsmUtils.Model
/-!
Model of src/gsm/gsm0502.c and include/osmocom/gsm/gsm0502.h: comparison of
frame numbers, remapping of block ends, hopping sequences, paging groups, CCCH
blocks.  (The modular arithmetic macros of the header are in
`Verif.GsmUtils.Model`.)

Unsigned C integers are natural numbers with explicit reductions; `none` is a
division by zero, a failed assertion or an access outside of an array.
-/
namespace Verif.Gsm0502
open Verif Verif.GsmUtils

/-- include/osmocom/gsm/gsm0502.h:73-84 `gsm0502_fncmp` (the differences are
taken under their guards and do not wrap). -/
def fncmp (a b : Nat) : Int :=
  if a = b then 0
  else if (a < b ∧ b - a < HYPERFRAME / 2) ∨ (a > b ∧ a - b > HYPERFRAME / 2) then -1
  else 1

/-! ### Remapping of block ends -/

/-- src/gsm/gsm0502.c:58-62 `gsm0502_tch_f_traffic_block_map`. -/
def tchFMap : List (List Nat) :=
  [[0, 1, 2, 3, 4, 5, 6, 7], [4, 5, 6, 7, 8, 9, 10, 11], [8, 9, 10, 11, 0, 1, 2, 3]]

/-- src/gsm/gsm0502.c:64-68 `gsm0502_tch_h0_traffic_block_map`. -/
def tchH0Map : List (List Nat) := [[0, 2, 4, 6], [4, 6, 8, 10], [8, 10, 0, 2]]

/-- src/gsm/gsm0502.c:70-74 `gsm0502_tch_h1_traffic_block_map`. -/
def tchH1Map : List (List Nat) := [[1, 3, 5, 7], [5, 7, 9, 11], [9, 11, 1, 3]]

/-- src/gsm/gsm0502.c:76-80 `gsm0502_tch_f_facch_block_map`. -/
def facchFMap : List (List Nat) :=
  [[0, 1, 2, 3, 4, 5, 6, 7], [4, 5, 6, 7, 8, 9, 10, 11], [8, 9, 10, 11, 0, 1, 2, 3]]

/-- src/gsm/gsm0502.c:82-86 `gsm0502_tch_h0_facch_block_map`. -/
def facchH0Map : List (List Nat) :=
  [[0, 2, 4, 6, 8, 10], [8, 10, 13, 15, 17, 19], [17, 19, 21, 23, 0, 2]]

/-- src/gsm/gsm0502.c:88-92 `gsm0502_tch_h1_facch_block_map`. -/
def facchH1Map : List (List Nat) :=
  [[1, 3, 5, 7, 9, 11], [9, 11, 14, 16, 18, 20], [18, 20, 22, 24, 1, 3]]

/-- src/gsm/gsm0502.c:102-107 `struct fn_remap_table`; the two arrays (first
`len` elements) as a list of pairs (`blockend`, `distance`). -/
structure RemapTable where
  cycle : Nat
  rows : List (Nat × Nat)
deriving Repr, DecidableEq

/-- src/gsm/gsm0502.c:126-135 `fn_remap_table_from_traffic_block_map`, one row;
`distance` is a `uint8_t`. -/
def remapRow (cols rep : Nat) (row : List Nat) : Nat × Nat :=
  let first := row.getD 0 0
  let last := row.getD (cols - 1) 0
  (last, (if first ≤ last then last - first else rep - first + last) % 256)

/-- src/gsm/gsm0502.c:126-135 `fn_remap_table_from_traffic_block_map`. -/
def remapTable (map : List (List Nat)) (cols rep : Nat) : RemapTable :=
  { cycle := rep, rows := map.map (remapRow cols rep) }

/-- src/gsm/gsm0502.c:139-170 `fn_remap_tables_build`: the contents of
`fn_remap_table_ptr`, in the order of `enum gsm0502_fn_remap_channel`
(include/osmocom/gsm/gsm0502.h:115-123). -/
def remapTables : List RemapTable :=
  [remapTable tchFMap 8 13, remapTable tchH0Map 4 13, remapTable tchH1Map 4 13,
   remapTable facchFMap 8 13, remapTable facchH0Map 6 26, remapTable facchH1Map 6 26]

/-- include/osmocom/gsm/gsm0502.h:115-123 `enum gsm0502_fn_remap_channel`. -/
inductive Chan where
  | tchF | tchH0 | tchH1 | facchF | facchH0 | facchH1
deriving Repr, DecidableEq

/-- The value of the enumerator. -/
def Chan.toNat : Chan → Nat
  | .tchF => 0 | .tchH0 => 1 | .tchH1 => 2 | .facchF => 3 | .facchH0 => 4 | .facchH1 => 5

/-- src/gsm/gsm0502.c:177-202 `gsm0502_fn_remap`; `none` is the failed
assertion on the channel number. -/
def fnRemap (fn chan : Nat) : Option Nat :=
  match remapTables[chan]? with
  | none => none
  | some tab =>
    let c := fn % tab.cycle % 256
    match tab.rows.find? (fun r => r.1 == c) with
    | none => some fn
    | some r => some (fnSub fn r.2)

/-! ### Frequency hopping -/

/-- src/gsm/gsm0502.c:205-218 `rn_table`. -/
def rnTable : List Nat :=
  [48, 98, 63, 1, 36, 95, 78, 102, 94, 73,
   0, 64, 25, 81, 76, 59, 124, 23, 104, 100,
   101, 47, 118, 85, 18, 56, 96, 86, 54, 2,
   80, 34, 127, 13, 6, 89, 57, 103, 12, 74,
   55, 111, 75, 38, 109, 71, 112, 29, 11, 88,
   87, 19, 3, 68, 110, 26, 33, 31, 8, 45,
   82, 58, 40, 107, 32, 5, 106, 92, 62, 67,
   77, 108, 122, 37, 60, 66, 121, 42, 51, 126,
   117, 114, 4, 90, 43, 52, 53, 113, 120, 72,
   16, 49, 7, 79, 119, 61, 22, 84, 9, 97,
   91, 15, 21, 24, 46, 39, 93, 105, 65, 70,
   125, 99, 17, 123]

/-- src/gsm/gsm0502.c:243-246, the mask `pnm` (`n` assumed to fit an `int`). -/
def pnm (n : Nat) : Nat :=
  (n >>> 0) ||| (n >>> 1) ||| (n >>> 2) ||| (n >>> 3) ||| (n >>> 4) ||| (n >>> 5) ||| (n >>> 6)

/-- src/gsm/gsm0502.c:236-259, the mobile allocation index.  All the values are
non negative, so the conversions between `int` and `size_t` are the identity
(`n` below 2^31). -/
def hopMai (t : GsmTime) (hsn maio n : Nat) : Option Nat :=
  if n = 0 then none
  else if hsn = 0 then some ((t.fn + maio) % 4294967296 % n)
  else
    match rnTable[(hsn ^^^ (t.t1 &&& 63)) + t.t3]? with
    | none => none
    | some r =>
      let m := t.t2 + r
      let mp := m &&& pnm n
      let s := if mp < n then mp else (mp + (t.t3 &&& pnm n)) % n
      some ((s + maio) % n)

/-- src/gsm/gsm0502.c:230-262 `gsm0502_hop_seq_gen`. -/
def hopSeqGen (t : GsmTime) (hsn maio n : Nat) (ma : Option (List Nat)) : Option Nat :=
  match hopMai t hsn maio n with
  | none => none
  | some mai =>
    match ma with
    | none => some (mai % 65536)
    | some l => l[mai]?

/-! ### CCCH blocks and paging groups -/

/-- src/gsm/gsm0502.c:264-287 `ccch_block_table` (-1 FCCH, -2 SCH, -3 BCCH,
-4 idle). -/
def ccchBlockTable : List Int :=
  [-1, -2, -3, -3, -3, -3, 0, 0, 0, 0,
   -1, -2, 1, 1, 1, 1, 2, 2, 2, 2,
   -1, -2, 3, 3, 3, 3, 4, 4, 4, 4,
   -1, -2, 5, 5, 5, 5, 6, 6, 6, 6,
   -1, -2, 7, 7, 7, 7, 8, 8, 8, 8, -4]

/-- src/gsm/gsm0502.c:294-297 `gsm0502_fn2ccch_block`. -/
def fn2ccchBlock (fn : Nat) : Option Int := ccchBlockTable[fn % 51]?

/-- include/osmocom/gsm/protocol/gsm_04_08.h:992-1009 `struct
gsm48_control_channel_descr`, the members used for paging (3 bits each). -/
structure ChanDescr where
  ccchConf : Nat
  bsAgBlksRes : Nat
  bsPaMfrms : Nat
deriving Repr, DecidableEq

/-- The members are 3 bit fields. -/
def ChanDescr.Ok (d : ChanDescr) : Prop := d.ccchConf < 8 ∧ d.bsAgBlksRes < 8 ∧ d.bsPaMfrms < 8

/-- src/gsm/rsl.c:484-500 `rsl_ccch_conf_to_bs_cc_chans`. -/
def ccchConfToCcChans (conf : Nat) : Int :=
  if conf = 0 then 1 else if conf = 1 then 1 else if conf = 2 then 2
  else if conf = 4 then 3 else if conf = 6 then 4 else -1

/-- include/osmocom/gsm/gsm0502.h:88-94 `gsm0502_get_n_pag_blocks`: an `int`
difference converted to `unsigned int`. -/
def nPagBlocks (d : ChanDescr) : Nat :=
  (((if d.ccchConf = 1 then 3 else 9 : Int) - d.bsAgBlksRes) % 4294967296).toNat

/-- src/gsm/gsm48.c:1520-1528 `gsm48_number_of_paging_subchannels`, the
`unsigned int` before its conversion to the `int` returned. -/
def nPagSubchans (d : ChanDescr) : Nat :=
  (if d.ccchConf = 1 then max 1 (nPagBlocks d) else nPagBlocks d) * (d.bsPaMfrms + 2) % 4294967296

/-- Conversion of an `unsigned int` to `int` and of this to `uint64_t`. -/
def sext (n : Nat) : Nat := if n < 2147483648 then n else n + (18446744073709551616 - 4294967296)

/-- include/osmocom/gsm/gsm0502.h:97-102 `gsm0502_get_ccch_group`. -/
def ccchGroup (imsi ccChans n : Nat) : Option Nat :=
  if n = 0 ∨ ccChans * n % 4294967296 = 0 then none
  else some (imsi % 1000 % (ccChans * n % 4294967296) / n)

/-- include/osmocom/gsm/gsm0502.h:105-110 `gsm0502_get_paging_group`; the last
remainder is taken with the `int` argument converted to `uint64_t`. -/
def pagingGroup (imsi ccChans n : Nat) : Option Nat :=
  if n = 0 ∨ ccChans * n % 4294967296 = 0 then none
  else some (imsi % 1000 % (ccChans * n % 4294967296) % sext n)

/-- src/gsm/gsm0502.c:36-51 `gsm0502_calc_paging_group`. -/
def calcPagingGroup (d : ChanDescr) (imsi : Nat) : Option Nat :=
  pagingGroup imsi (ccchConfToCcChans d.ccchConf % 4294967296).toNat (nPagSubchans d)

end Verif.Gsm0502
