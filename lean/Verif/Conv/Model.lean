import Verif.Common
/-!
Model of src/core/conv.c, the generic convolutional encoder and Viterbi decoder.

The tables of a code are functions; which arguments they are called with is
subject of the theorems (states below 2^(K-1)).  `ubit_t` is `Bool` (a `ubit_t`
other than 0 or 1 would index beyond the tables), `sbit_t` an integer.  `N` is
at most 8, since one output symbol is a `uint8_t`, and so is `K - 1`; under
these bounds none of the `int` computations overflows, and no value is negative
where it is compared as `unsigned int`.  `none` is an access outside of the
input or of an allocated array, or a use of memory never written.
-/
namespace Verif.Conv

/-- include/osmocom/core/conv.h:36-40 `enum osmo_conv_term`. -/
inductive Term where
  | flush | truncation | tailBiting
deriving Repr, DecidableEq

/-- include/osmocom/core/conv.h:48-62 `struct osmo_conv_code`.  The puncture
table holds the entries before the negative one that ends it. -/
structure Code where
  N : Nat
  K : Nat
  len : Nat
  term : Term
  nextOutput : Nat → Bool → Nat
  nextState : Nat → Bool → Nat
  nextTerm : Option ((Nat → Nat) × (Nat → Nat))
  puncture : Option (List Nat)

/-- src/core/conv.c:44-48 `osmo_conv_get_input_length`. -/
def inputLength (c : Code) (len : Int) : Int := if len ≤ 0 then c.len else len

/-- src/core/conv.c:50-71 `osmo_conv_get_output_length`. -/
def outputLength (c : Code) (len : Int) : Int :=
  let out := inputLength c len * c.N
  let out := if c.term = .flush then out + c.N * ((c.K : Int) - 1) else out
  match c.puncture with
  | none => out
  | some p => out - p.length

/-! ### Encoder -/

/-- include/osmocom/core/conv.h:76-81 `struct osmo_conv_encoder`. -/
structure Enc where
  iIdx : Nat
  pIdx : Nat
  state : Nat
deriving Repr, DecidableEq

/-- src/core/conv.c:82-89 `osmo_conv_encode_init`. -/
def encInit : Enc := { iIdx := 0, pIdx := 0, state := 0 }

/-- src/core/conv.c:91-102 `osmo_conv_encode_load_state` with the `K - 1` bits
at `input`; the state is a `uint8_t`. -/
def loadState (e : Enc) (bits : List Bool) : Enc :=
  { e with state := bits.foldl (fun s b => (s * 2 % 256) ||| b.toNat) 0 }

/-- src/core/conv.c:104-130 `_conv_encode_do_output`, with `k` bits left to
output: `j = N - k`.  Gives the bits written and the new `p_idx`. -/
def doOutput (punct : Option (List Nat)) (N iIdx out : Nat) : Nat → Nat → List Bool × Nat
  | 0, p => ([], p)
  | k + 1, p =>
    match punct with
    | some tab =>
      if tab[p]? = some (iIdx * N + (N - (k + 1))) then doOutput punct N iIdx out k (p + 1)
      else
        let r := doOutput punct N iIdx out k p
        (out.testBit k :: r.1, r.2)
    | none =>
      let r := doOutput punct N iIdx out k p
      (out.testBit k :: r.1, r.2)

/-- One turn of the loops in `osmo_conv_encode_raw` and
`osmo_conv_encode_flush`, src/core/conv.c:148-153 and 186-188, given output and
next state. -/
def encStep (c : Code) (e : Enc) (out next : Nat) : Enc × List Bool :=
  let r := doOutput c.puncture c.N e.iIdx out c.N e.pIdx
  ({ iIdx := e.iIdx + 1, pIdx := r.2, state := next }, r.1)

/-- src/core/conv.c:132-159 `osmo_conv_encode_raw`. -/
def encodeRaw (c : Code) : Enc → List Bool → Enc × List Bool
  | e, [] => (e, [])
  | e, b :: bs =>
    let r := encStep c e (c.nextOutput e.state b) (c.nextState e.state b)
    let q := encodeRaw c r.1 bs
    (q.1, r.2 ++ q.2)

/-- src/core/conv.c:178-184, output and state of a termination step. -/
def termOut (c : Code) (s : Nat) : Nat :=
  match c.nextTerm with
  | some t => t.1 s
  | none => c.nextOutput s false

@[inherit_doc termOut]
def termNext (c : Code) (s : Nat) : Nat :=
  match c.nextTerm with
  | some t => t.2 s
  | none => c.nextState s false

/-- src/core/conv.c:161-194 `osmo_conv_encode_flush`, `n` steps. -/
def encodeFlush (c : Code) : Nat → Enc → Enc × List Bool
  | 0, e => (e, [])
  | n + 1, e =>
    let r := encStep c e (termOut c e.state) (termNext c e.state)
    let q := encodeFlush c n r.1
    (q.1, r.2 ++ q.2)

/-- src/core/conv.c:206-226 `osmo_conv_encode`; `none` if the input has less
than `len` bits, or less than the `K - 1` bits loaded for tail biting. -/
def encode (c : Code) (input : List Bool) : Option (List Bool) :=
  if input.length < c.len then none
  else if c.term = .tailBiting ∧ c.len < c.K - 1 then none
  else
    let e := if c.term = .tailBiting then
        loadState encInit ((input.drop (c.len + 1 - c.K)).take (c.K - 1)) else encInit
    let r := encodeRaw c e (input.take c.len)
    some (if c.term = .flush then r.2 ++ (encodeFlush c (c.K - 1) r.1).2 else r.2)

/-! ### Decoder -/

/-- src/core/conv.c:233 `MAX_AE`. -/
def MAX_AE : Nat := 0xffffff

/-- A possible step from one state to another, with its output symbol. -/
structure Edge where
  src : Nat
  dst : Nat
  out : Nat
deriving Repr, DecidableEq

/-- Number of states, src/core/conv.c:251. -/
def nStates (c : Code) : Nat := 2 ^ (c.K - 1)

/-- The steps tried for an input bit, in the order of the loops of
src/core/conv.c:374-382. -/
def scanEdges (c : Code) : List Edge :=
  (List.range (nStates c)).flatMap fun s =>
    [⟨s, c.nextState s false, c.nextOutput s false⟩, ⟨s, c.nextState s true, c.nextOutput s true⟩]

/-- The steps tried for a termination step, src/core/conv.c:470-484. -/
def flushEdges (c : Code) : List Edge :=
  (List.range (nStates c)).map fun s => ⟨s, termNext c s, termOut c s⟩

/-- src/core/conv.c:388-396: what the symbol received adds to the error of a
path with output `out`; the bits of `out` are taken from the top of `N`. -/
def metric (out : Nat) : List Int → Nat
  | [] => 0
  | x :: xs =>
    (if x ≠ 0 then
      let ov : Int := if out.testBit xs.length then -127 else 127
      (((x - ov) * (x - ov)) / 512).toNat
     else 0) + metric out xs

/-- src/core/conv.c:384-402, one step tried: survivor if strictly better. -/
def relax (ae : Nat → Nat) (sym : List Int) (acc : (Nat → Nat) × (Nat → Option Nat)) (e : Edge) :
    (Nat → Nat) × (Nat → Option Nat) :=
  let nae := ae e.src + metric e.out sym
  if acc.1 e.dst > nae then
    (fun t => if t = e.dst then nae else acc.1 t, fun t => if t = e.dst then some e.src else acc.2 t)
  else acc

/-- src/core/conv.c:350-407, one symbol: `row` is the row of the state history
before. -/
def step (edges : List Edge) (ae : Nat → Nat) (row : Nat → Option Nat) (sym : List Int) :
    (Nat → Nat) × (Nat → Option Nat) :=
  edges.foldl (relax ae sym) (fun _ => MAX_AE, row)

/-- include/osmocom/core/conv.h:101-113 `struct osmo_conv_decoder`: `rows` is the
number of rows allocated for `state_history`; an entry never written is `none`. -/
structure Dec where
  ae : Nat → Nat
  hist : Nat → Nat → Option Nat
  rows : Nat
  oIdx : Nat
  pIdx : Nat

/-- src/core/conv.c:269-288 `osmo_conv_decode_reset`. -/
def decReset (d : Dec) (start : Int) : Dec :=
  { d with oIdx := 0, pIdx := 0,
           ae := fun s => if start < 0 then 0 else if (s : Int) = start then 0 else MAX_AE }

/-- src/core/conv.c:240-267 `osmo_conv_decode_init`. -/
def decInit (c : Code) (len start : Int) : Dec :=
  let len := if len ≤ 0 then c.len else len.toNat
  decReset { ae := fun _ => 0, hist := fun _ _ => none, rows := len + c.K - 1, oIdx := 0, pIdx := 0 } start

/-- src/core/conv.c:290-308 `osmo_conv_decode_rewind`. -/
def decRewind (c : Code) (d : Dec) : Dec :=
  let m := (List.range (nStates c)).foldl (fun m s => if d.ae s < m then d.ae s else m) MAX_AE
  { d with oIdx := 0, pIdx := 0, ae := fun s => d.ae s - m }

/-- src/core/conv.c:355-359, entry `p` of the puncturing table, if there is one. -/
def punctAt (punct : Option (List Nat)) (p : Nat) : Option Nat :=
  match punct with
  | some tab => tab[p]?
  | none => none

/-- src/core/conv.c:355-371, the next symbol: `k` bits left, `j = N - k`.  Gives
the symbol, the rest of the input and the new `p_idx`. -/
def getSym (punct : Option (List Nat)) (N o : Nat) : Nat → Nat → List Int → Option (List Int × List Int × Nat)
  | 0, p, input => some ([], input, p)
  | k + 1, p, input =>
    if punctAt punct p = some (o * N + (N - (k + 1))) then
      match getSym punct N o k (p + 1) input with
      | none => none
      | some (s, rest, p') => some (0 :: s, rest, p')
    else
      match input with
      | [] => none
      | x :: xs =>
        match getSym punct N o k p xs with
        | none => none
        | some (s, rest, p') => some (x :: s, rest, p')

/-- src/core/conv.c:320-415 `osmo_conv_decode_scan` and 417-516
`osmo_conv_decode_flush`, which differ in the steps they try: `n` symbols.
Gives the rest of the input. -/
def scan (c : Code) (edges : List Edge) : Nat → Dec → List Int → Option (Dec × List Int)
  | 0, d, input => some (d, input)
  | n + 1, d, input =>
    if d.rows ≤ d.oIdx then none
    else
      match getSym c.puncture c.N d.oIdx c.N d.pIdx input with
      | none => none
      | some (sym, rest, p) =>
        let r := step edges d.ae (d.hist d.oIdx) sym
        scan c edges n
          { d with ae := r.1, hist := fun i => if i = d.oIdx then r.2 else d.hist i,
                   oIdx := d.oIdx + 1, pIdx := p } rest

/-- src/core/conv.c:546-549, `n` steps back in the history from row `n - 1`. -/
def traceBack (hist : Nat → Nat → Option Nat) : Nat → Nat → Option Nat
  | 0, t => some t
  | n + 1, t =>
    match hist n t with
    | none => none
    | some s => traceBack hist n s

/-- src/core/conv.c:566-572, the first state of smallest error below `m`. -/
def minState (ae : Nat → Nat) : List Nat → Nat × Int → Nat × Int
  | [], r => r
  | s :: ss, r => minState ae ss (if ae s < r.1 then (ae s, s) else r)

/-- src/core/conv.c:540-559: as before, among the states which trace back to
themselves. -/
def minCircular (ae : Nat → Nat) (hist : Nat → Nat → Option Nat) (n : Nat) :
    List Nat → Nat × Int → Option (Nat × Int)
  | [], r => some r
  | s :: ss, r =>
    match traceBack hist n s with
    | none => none
    | some t =>
      if s ≠ t then minCircular ae hist n ss r
      else minCircular ae hist n ss (if ae s < r.1 then (ae s, (s : Int)) else r)

/-- src/core/conv.c:518-575 `osmo_conv_decode_get_best_end_state`. -/
def bestEndState (c : Code) (d : Dec) : Option Int :=
  if c.term = .flush then some 0
  else if c.term = .tailBiting then
    match minCircular d.ae d.hist d.oIdx (List.range (nStates c)) (MAX_AE, -1) with
    | none => none
    | some r => if r.1 < MAX_AE then some r.2 else some (minState d.ae (List.range (nStates c)) r).2
  else some (minState d.ae (List.range (nStates c)) (MAX_AE, -1)).2

/-- src/core/conv.c:615-626: the bits of rows `n - 1` to 0, ending in state `t`;
the list is in the order of the output array. -/
def outLoop (c : Code) (hist : Nat → Nat → Option Nat) : Nat → Nat → List Bool → Option (List Bool)
  | 0, _, acc => some acc
  | n + 1, t, acc =>
    match hist n t with
    | none => none
    | some s => outLoop c hist n s ((if c.nextState s false = t then false else true) :: acc)

/-- src/core/conv.c:607-613, skipping `k` rows back from row `n - 1`. -/
def skipBack (hist : Nat → Nat → Option Nat) : Nat → Nat → Nat → Option Nat
  | 0, _, t => some t
  | k + 1, n, t =>
    match hist (n - 1) t with
    | none => none
    | some s => skipBack hist k (n - 1) s

/-- src/core/conv.c:577-629 `osmo_conv_decode_get_output`: the return value and
the bits written. -/
def getOutput (c : Code) (d : Dec) (hasFlush : Bool) (endState : Int) : Option (Int × List Bool) :=
  match (if endState < 0 then bestEndState c d else some endState) with
  | none => none
  | some e =>
    if e < 0 then some (-1, [])
    else
      let t := e.toNat
      match skipBack d.hist (if hasFlush then c.K - 1 else 0) d.oIdx t with
      | none => none
      | some s =>
        match outLoop c d.hist (d.oIdx - (if hasFlush then c.K - 1 else 0)) s [] with
        | none => none
        | some bits => some (d.ae t, bits)

/-- src/core/conv.c:641-672 `osmo_conv_decode`, without the dispatch to the
accelerated decoder (lines 648-650). -/
def decode (c : Code) (input : List Int) : Option (Int × List Bool) :=
  let d := decInit c 0 0
  match (if c.term = .tailBiting then
      match scan c (scanEdges c) c.len d input with
      | none => none
      | some (d, _) => some (decRewind c d)
    else some d) with
  | none => none
  | some d =>
    match scan c (scanEdges c) c.len d input with
    | none => none
    | some (d, rest) =>
      match (if c.term = .flush then scan c (flushEdges c) (c.K - 1) d rest else some (d, rest)) with
      | none => none
      | some (d, _) => getOutput c d (c.term = .flush) (-1)

end Verif.Conv
