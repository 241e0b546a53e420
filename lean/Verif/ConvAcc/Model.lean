import Verif.Conv.Model
/-!
Model of the accelerated Viterbi decoder, src/core/conv_acc.c with the units of
src/core/conv_acc_generic.c.  `osmo_conv_decode` uses it for all codes with
`N ≤ 4` and `K` 5 or 7 (src/core/conv.c:648-650).

The vector units (conv_acc_sse.c, conv_acc_sse_avx.c, conv_acc_neon.c) are not
modelled.  Allocations succeed.  Arrays are lists of exactly the allocated
number of entries (the stride of 4 for `N = 3` is not modelled: an entry of
`outputs` is a list of `N`); `none` is a read behind the input.
-/
namespace Verif.ConvAcc
open Verif.Conv

/-- conversion to `int16_t`, which wraps -/
def i16 (x : Int) : Int := (x + 32768) % 65536 - 32768

/-- src/core/conv_acc.c:30 `NUM_STATES` -/
def numStates (K : Nat) : Nat := if K = 7 then 64 else 16

/-- src/core/conv_acc.c:29 `BIT2NRZ` -/
def bit2nrz (reg n : Nat) : Int := if reg.testBit n then -1 else 1

/-- src/core/conv_acc.c:199-211 `vstate_lshift` -/
def lshift (reg K val : Nat) : Nat :=
  ((reg <<< 1) &&& (if K = 5 then 0x0e else if K = 7 then 0x3e else 0)) ||| val

/-- src/core/conv_acc.c:214-217 `bitswap2` -/
def bitswap2 (v : Nat) : Nat := ((v &&& 0x02) >>> 1) ||| ((v &&& 0x01) <<< 1)

/-- src/core/conv_acc.c:219-223 `bitswap3` -/
def bitswap3 (v : Nat) : Nat := ((v &&& 0x04) >>> 2) ||| ((v &&& 0x02) >>> 0) ||| ((v &&& 0x01) <<< 2)

/-- src/core/conv_acc.c:225-229 `bitswap4` -/
def bitswap4 (v : Nat) : Nat :=
  ((v &&& 0x08) >>> 3) ||| ((v &&& 0x04) >>> 1) ||| ((v &&& 0x02) <<< 1) ||| ((v &&& 0x01) <<< 3)

/-- src/core/conv_acc.c:231-235 `bitswap5` -/
def bitswap5 (v : Nat) : Nat :=
  ((v &&& 0x10) >>> 4) ||| ((v &&& 0x08) >>> 2) ||| ((v &&& 0x04) >>> 0) ||| ((v &&& 0x02) <<< 2) ||| ((v &&& 0x01) <<< 4)

/-- src/core/conv_acc.c:237-241 `bitswap6` -/
def bitswap6 (v : Nat) : Nat :=
  ((v &&& 0x20) >>> 5) ||| ((v &&& 0x10) >>> 3) ||| ((v &&& 0x08) >>> 1) ||| ((v &&& 0x04) <<< 1) |||
    ((v &&& 0x02) <<< 3) ||| ((v &&& 0x01) <<< 5)

/-- src/core/conv_acc.c:243-261 `bitswap` -/
def bitswap (v n : Nat) : Nat :=
  match n with
  | 1 => v
  | 2 => bitswap2 v
  | 3 => bitswap3 v
  | 4 => bitswap4 v
  | 5 => bitswap5 v
  | 6 => bitswap6 v
  | _ => 0

/-- src/core/conv_acc.c:270-280 `gen_output` -/
def genOutput (c : Code) (prev0 val : Nat) : Nat :=
  bitswap (c.nextOutput (bitswap prev0 (c.K - 1)) (val == 1)) c.N

/-- src/core/conv_acc.c:305-306 and src/core/conv_acc.c:378-379: the output symbol as signs -/
def nrz (N out : Nat) : List Int := (List.range N).map (bit2nrz out)

/-- src/core/conv_acc.c:287-309 `gen_state_info`: `*val` and `output` -/
def genStateInfo (c : Code) (reg : Nat) : Nat × List Int :=
  let val := (reg >>> (c.K - 2)) &&& 1
  (val, nrz c.N (genOutput c (lshift reg c.K 0) val))

/-- src/core/conv_acc.c:357-368: the first output bit which is 0 for the input 0
in all states -/
def findPos (c : Code) : Option Nat :=
  (List.range c.N).find? fun i =>
    (List.range (numStates c.K)).all fun j => ((c.nextOutput j false >>> i) &&& 1) == 0

/-- src/core/conv_acc.c:312-336 `gen_recursive_output`: `*val` and the result -/
def genRecursiveOutput (c : Code) (termOutput : Nat → Nat) (reg pos : Nat) : Nat × Nat :=
  let prev := bitswap (lshift reg c.K 0) (c.K - 1)
  let val0 := (reg >>> (c.K - 2)) &&& 1
  let val1 := (termOutput prev >>> pos) &&& 1
  let val := if val0 = val1 then 0 else 1
  (val, bitswap (c.nextOutput prev (val == 1)) c.N)

/-- src/core/conv_acc.c:344-382 `gen_recursive_state_info`; `none` is -EPROTO -/
def genRecursiveStateInfo (c : Code) (termOutput : Nat → Nat) (reg : Nat) : Option (Nat × List Int) :=
  (findPos c).map fun pos =>
    let r := genRecursiveOutput c termOutput reg pos
    (r.1, nrz c.N r.2)

/-- src/core/conv_acc.c:421-434: `vals` and `outputs` of all states; `none` is -EPROTO -/
def genTrellis (c : Code) : Option (List (Nat × List Int)) :=
  match c.nextTerm with
  | some t => (List.range (numStates c.K)).mapM (genRecursiveStateInfo c t.1)
  | none => some ((List.range (numStates c.K)).map (genStateInfo c))

/-- src/core/conv_acc.c:436-445: the sums to begin with -/
def initSums (c : Code) : List Int :=
  (if c.term ≠ .tailBiting then i16 (127 * c.N * c.K) else 0) :: List.replicate (numStates c.K - 1) 0

/-- src/core/conv_acc_generic.c:32-62 `acs_butterfly`, given the two old sums:
new sum and path (one more than stored) of the lower state, and of the upper -/
def acs (m s0 s1 : Int) : (Int × Nat) × (Int × Nat) :=
  (if s0 + m ≥ s1 - m then (i16 (s0 + m), 0) else (i16 (s1 - m), 1),
   if s0 - m ≥ s1 + m then (i16 (s0 - m), 0) else (i16 (s1 + m), 1))

/-- src/core/conv_acc_generic.c:65-74, src/core/conv_acc_generic.c:77-87
and src/core/conv_acc_generic.c:90-101: branch metrics for `N` 2, 3, 4 -/
def branch (seq out : List Int) : Int := i16 ((seq.zip out).map fun p => p.1 * p.2).sum

/-- src/core/conv_acc_generic.c:104-127 `gen_path_metrics`, with
the branch metrics computed on the way: new sums and paths -/
def pathMetrics (ns : Nat) (outs : List (List Int)) (seq : List Int) (sums : List Int) (norm : Bool) :
    List Int × List Nat :=
  let r := (List.range (ns / 2)).map fun i =>
    acs (branch seq (outs.getD i [])) (sums.getD (2 * i) 0) (sums.getD (2 * i + 1) 0)
  let new := r.map (·.1.1) ++ r.map (·.2.1)
  let paths := r.map (·.1.2) ++ r.map (·.2.2)
  if norm then
    let mn := new.tail.foldl (fun m x => if x < m then x else m) (new.headD 0)
    (new.map fun x => i16 (x - mn), paths)
  else (new, paths)

/-- src/core/conv_acc.c:649-660 `forward_traverse` from step `i` on: the sums and
the rows of paths -/
def forward (ns intrvl : Nat) (outs : List (List Int)) : Nat → List (List Int) → List Int → List Int × List (List Nat)
  | _, [], sums => (sums, [])
  | i, y :: ys, sums =>
    let r := pathMetrics ns outs y sums (i % intrvl == 0)
    let q := forward ns intrvl outs (i + 1) ys r.1
    (q.1, r.2 :: q.2)

/-- the steps back over rows of paths, last row first: src/core/conv_acc.c:519-522
and (in the loop for tail biting) src/core/conv_acc.c:492-495 -/
def back (K : Nat) : List (List Nat) → Nat → Nat
  | [], s => s
  | row :: rows, s => back K rows (lshift s K (row.getD s 0))

/-- src/core/conv_acc.c:454-465 `_traceback` and src/core/conv_acc.c:467-478
`_traceback_rec`, rows last first; the bits in the order of the output array
are put in front of `acc` -/
def trace (K : Nat) (recursive : Bool) (vals : List Nat) : List (List Nat) → Nat → List Bool → List Bool
  | [], _, acc => acc
  | row :: rows, s, acc =>
    let path := row.getD s 0
    let v := vals.getD s 0
    trace K recursive vals rows (lshift s K path) (((if recursive then path ^^^ v else v) == 1) :: acc)

/-- src/core/conv_acc.c:507-513: largest sum above `max` and its first state -/
def maxState : List Int → Nat → Int × Nat → Int × Nat
  | [], _, r => r
  | x :: xs, i, r => maxState xs (i + 1) (if x > r.1 then (x, i) else r)

/-- src/core/conv_acc.c:490-503: the same among the states which lead back to themselves -/
def maxCircular (K : Nat) (rows : List (List Nat)) : List Int → Nat → Int × Nat → Int × Nat
  | [], _, r => r
  | x :: xs, i, r =>
    if back K rows i ≠ i then maxCircular K rows xs (i + 1) r
    else maxCircular K rows xs (i + 1) (if x > r.1 then (x, i) else r)

def EPROTO : Int := 71
def EINVAL : Int := 22

/-- src/core/conv_acc.c:484-530 `traceback`: return value and output -/
def traceback (c : Code) (vals : List Nat) (sums : List Int) (rows : List (List Nat)) : Int × List Bool :=
  let rec_ := c.nextTerm.isSome
  let rev := rows.reverse
  let r := if c.term = .tailBiting then maxCircular c.K rev sums 0 (-1, 0) else (-1, 0)
  let r := if r.1 < 0 ∧ c.term ≠ .flush then maxState sums 0 r else r
  if r.1 < 0 ∧ c.term ≠ .flush then (-EPROTO, [])
  else
    let skip := rows.length - c.len
    (0, trace c.K rec_ vals (rev.drop skip) (back c.K (rev.take skip) r.2) [])

/-- src/core/conv_acc.c:627-642 `depuncture` from position `i` and entry `n` on,
`k` positions left -/
def depuncture (punc : List Nat) : Nat → Nat → Nat → List Int → Option (List Int)
  | 0, _, _, _ => some []
  | k + 1, i, n, input =>
    if punc[n]? = some i then (depuncture punc k (i + 1) (n + 1) input).map (0 :: ·)
    else
      match input with
      | [] => none
      | x :: xs => (depuncture punc k (i + 1) n xs).map (x :: ·)

/-- `&seq[dec->n * i]` for `len` steps -/
def symbols (N : Nat) : Nat → List Int → List (List Int)
  | 0, _ => []
  | k + 1, seq => seq.take N :: symbols N k (seq.drop N)

/-- src/core/conv_acc.c:599-602: number of steps -/
def decLen (c : Code) : Nat := if c.term = .flush then c.len + c.K - 1 else c.len

/-- src/core/conv_acc.c:672-675: the soft bits of all coded positions; `none` is
a read behind the input -/
def softBits (c : Code) (input : List Int) : Option (List Int) :=
  match c.puncture with
  | some p => depuncture p (decLen c * c.N) 0 0 input
  | none => if input.length < decLen c * c.N then none else some (input.take (decLen c * c.N))

/-- src/core/conv_acc.c:559: normalization interval -/
def interval (c : Code) : Nat := 32767 / (c.N * 127) - c.K

/-- src/core/conv_acc.c:677-683 -/
def convDecode (c : Code) (tr : List (Nat × List Int)) (seq : List Int) : Int × List Bool :=
  let outs := tr.map (·.2)
  let ys := symbols c.N (decLen c) seq
  let f := forward (numStates c.K) (interval c) outs 0 ys (initSums c)
  let f := if c.term = .tailBiting then forward (numStates c.K) (interval c) outs 0 ys f.1 else f
  traceback c (tr.map (·.1)) f.1 f.2

/-- src/core/conv_acc.c:731-754 `osmo_conv_decode_acc` (with src/core/conv_acc.c:550-624
`vdec_init` and src/core/conv_acc.c:667-684 `conv_decode`): return value and output -/
def decodeAcc (c : Code) (input : List Int) : Option (Int × List Bool) :=
  if c.N < 2 ∨ c.N > 4 ∨ c.len < 1 ∨ (c.K ≠ 5 ∧ c.K ≠ 7) then some (-EINVAL, [])
  else
    match genTrellis c with
    | none => some (-EPROTO, [])
    | some tr => (softBits c input).map (convDecode c tr)

end Verif.ConvAcc
