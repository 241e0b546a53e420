import Verif.Bits.Model
/-!
Model of src/isdn/i460_mux.c: the I.460 multiplexer and demultiplexer.  `none`: an assertion fails or something undefined happens.
-/
namespace Verif.I460
open Verif.Bits

/-- include/osmocom/isdn/i460_mux.h:28-34 `enum osmo_i460_rate`; `off` is OSMO_I460_RATE_NONE -/
inductive Rate
  | off | k64 | k32 | k16 | k8
  deriving DecidableEq, Repr

/-- include/osmocom/isdn/i460_mux.h:43-70 `struct osmo_i460_subchan` without user data.  `pending` are the first `out_idx` elements of
`out_bitbuf`, `size` is `out_bitbuf_size`; `bits` and `bytes` tell which of the two callbacks is set; `queue` is `tx_queue`, each message
with its bytes (one bit each); `refill` stands for the callback `in_cb_queue_empty`: the messages it will put into the queue in its next
calls (nothing after the end of the list).  `ts`, which nobody reads, is left out. -/
structure Sub where
  rate : Rate
  offset : Nat
  pending : List Byte
  size : Nat
  bits : Bool
  bytes : Bool
  queue : List (List Byte)
  refill : List (List (List Byte))
  deriving DecidableEq, Repr

/-- A call of `out_cb_bits` or `out_cb_bytes` -/
inductive Call
  | bits (l : List Byte)
  | bytes (l : List Byte)
  deriving DecidableEq, Repr

/-- src/isdn/i460_mux.c:315-332 `subchan_reset`: the state it leaves -/
def idle : Sub := ⟨.off, 0, [], 0, false, false, [], []⟩

/-- src/isdn/i460_mux.c:29-39 `osmo_i460_subchan_count` -/
def count (ts : List Sub) : Nat := ts.countP fun s => s.rate ≠ .off

/-- src/isdn/i460_mux.c:42-51 `osmo_i460_has_single_64k_schan` -/
def single64k (ts : List Sub) : Bool := count ts = 1 ∧ ts.head?.map (·.rate) = some .k64

/-- src/isdn/i460_mux.c:67-79: the end of `demux_subchan_append_bit`; callbacks leave the time slot alone -/
def flush (s : Sub) : Option (Sub × List Call) :=
  if s.size ≤ s.pending.length then
    if s.bits then some ({ s with pending := [] }, [.bits s.pending])
    else if s.pending.length % 8 = 0 ∧ s.bytes then some ({ s with pending := [] }, [.bytes (ubit2pbit s.pending)])
    else none
  else some (s, [])

/-- src/isdn/i460_mux.c:58-80 `demux_subchan_append_bit` -/
def appendBit (s : Sub) (bit : Bool) : Option (Sub × List Call) :=
  if s.pending.length < s.size then flush { s with pending := s.pending ++ [if bit then 1#8 else 0#8] } else none

/-- appending one bit after the other -/
def appendBits : Sub → List Bool → Option (Sub × List Call)
  | s, [] => some (s, [])
  | s, b :: bs => do
    let (s, c) ← appendBit s b
    let (s, c') ← appendBits s bs
    some (s, c ++ c')

/-- src/isdn/i460_mux.c:94-120: the masks of the bits taken, in order -/
def masks : Rate → List Byte
  | .off => []
  | .k8 => [0x80#8]
  | .k16 => [0x80#8, 0x40#8]
  | .k32 => [0x80#8, 0x40#8, 0x20#8, 0x10#8]
  | .k64 => [0x80#8, 0x40#8, 0x20#8, 0x10#8, 0x08#8, 0x04#8, 0x02#8, 0x01#8]

/-- src/isdn/i460_mux.c:83-122 `demux_subchan_extract_bits`; the shift of an `int` is undefined when too far -/
def extractBits : Sub → List Byte → Option (Sub × List Call)
  | s, [] => some (s, [])
  | s, inbyte :: data =>
    if s.rate = .off ∨ 23 < s.offset then none
    else do
      let (s, c) ← appendBits s ((masks s.rate).map fun m => (inbyte <<< s.offset) &&& m ≠ 0#8)
      let (s, c') ← extractBits s data
      some (s, c ++ c')

/-- src/isdn/i460_mux.c:149-154: all sub-channels; a call is given with the index of its sub-channel -/
def demuxAll : Nat → List Sub → List Byte → Option (List Sub × List (Nat × Call))
  | _, [], _ => some ([], [])
  | i, s :: ts, data =>
    if s.rate = .off then do
      let (ts, c) ← demuxAll (i + 1) ts data
      some (s :: ts, c)
    else do
      let (s, c) ← extractBits s data
      let (ts, c') ← demuxAll (i + 1) ts data
      some (s :: ts, c.map (i, ·) ++ c')

/-- src/isdn/i460_mux.c:138-144: the fast path -/
def demuxFast (s : Sub) (data : List Byte) : Option (List (Nat × Call)) :=
  if s.bytes then some [(0, .bytes data)]
  else if s.bits then (pbit2ubit data (data.length * 8)).map fun l => [(0, .bits l)]
  else none

/-- src/isdn/i460_mux.c:128-155 `osmo_i460_demux_in` -/
def demuxIn (ts : List Sub) (data : List Byte) : Option (List Sub × List (Nat × Call)) :=
  if single64k ts then do
    let s ← ts.head?
    let c ← demuxFast s data
    some (ts, c)
  else demuxAll 0 ts data

/-- src/isdn/i460_mux.c:163-167 `osmo_i460_mux_enqueue` -/
def enqueue (s : Sub) (msg : List Byte) : Option Sub :=
  if msg.length > 0 then some { s with queue := s.queue ++ [msg] } else none

/-- src/isdn/i460_mux.c:179-180: the callback has its chance to enqueue -/
def askMore (s : Sub) : Option Sub :=
  match s.refill with
  | [] => some s
  | r :: rs => r.foldlM enqueue { s with refill := rs }

/-- src/isdn/i460_mux.c:183-195: the rest of `mux_schan_provide_bit` -/
def takeBit (s : Sub) : Option (Byte × Sub) :=
  match s.queue with
  | [] => some (0x01#8, s)
  | [] :: _ => none
  | (b :: bs) :: q => some (b, { s with queue := if bs.length = 0 then q else bs :: q })

/-- src/isdn/i460_mux.c:170-196 `mux_schan_provide_bit` -/
def provideBit (s : Sub) : Option (Byte × Sub) :=
  if s.queue = [] then (askMore s).bind takeBit else takeBit s

/-- src/isdn/i460_mux.c:210-240: the bits are or-ed to these places -/
def shifts : Rate → List Nat
  | .off => []
  | .k8 => [7]
  | .k16 => [7, 6]
  | .k32 => [7, 6, 5, 4]
  | .k64 => [7, 6, 5, 4, 3, 2, 1, 0]

/-- src/isdn/i460_mux.c:210-240: `outmask` -/
def outmask : Rate → Byte
  | .off => 0x00#8
  | .k8 => 0x80#8
  | .k16 => 0xC0#8
  | .k32 => 0xF0#8
  | .k64 => 0xFF#8

/-- `outbits |= mux_schan_provide_bit(schan) << n` for all places -/
def collect : List Nat → Byte → Sub → Option (Byte × Sub)
  | [], outbits, s => some (outbits, s)
  | n :: ns, outbits, s => do
    let (b, s) ← provideBit s
    collect ns (outbits ||| (b <<< n)) s

/-- src/isdn/i460_mux.c:202-243 `mux_subchan_provide_bits`: bits, mask and the new state -/
def provideBits (s : Sub) : Option (Byte × Byte × Sub) :=
  if s.rate = .off ∨ 31 < s.offset then none
  else do
    let (outbits, s') ← collect (shifts s.rate) 0#8 s
    some (outbits >>> s.offset, outmask s.rate >>> s.offset, s')

/-- src/isdn/i460_mux.c:250-259: the loop of `mux_timeslot_provide_bits` -/
def muxByteLoop : List Sub → Byte → Option (Byte × List Sub)
  | [], ret => some (ret, [])
  | s :: ts, ret =>
    if s.rate = .off then do
      let (ret, ts) ← muxByteLoop ts ret
      some (ret, s :: ts)
    else do
      let (bits, mask, s) ← provideBits s
      let (ret, ts) ← muxByteLoop ts ((ret &&& ~~~mask) ||| bits)
      some (ret, s :: ts)

/-- src/isdn/i460_mux.c:246-262 `mux_timeslot_provide_bits` -/
def muxByte (ts : List Sub) : Option (Byte × List Sub) := muxByteLoop ts 0xff#8

/-- src/isdn/i460_mux.c:269-280 `osmo_i460_mux_out` -/
def muxOut : Nat → List Sub → Option (List Byte × List Sub)
  | 0, ts => some ([], ts)
  | n + 1, ts => do
    let (b, ts) ← muxByte ts
    let (out, ts) ← muxOut n ts
    some (b :: out, ts)

/-- include/osmocom/isdn/i460_mux.h:77-103 `struct osmo_i460_schan_desc` -/
structure Desc where
  rate : Rate
  offset : Nat
  size : Nat
  bits : Bool
  bytes : Bool
  refill : List (List (List Byte))

/-- src/isdn/i460_mux.c:302-312 `find_unused_subchan_idx` -/
def findUnused (ts : List Sub) : Option Nat := ts.findIdx? fun s => s.rate = .off

/-- src/isdn/i460_mux.c:352-379 `osmo_i460_subchan_add`: the index of the sub-channel, or `none` for NULL; `mem`: talloc_zero_size succeeds.
What an unused sub-channel has in its queue and `out_idx` is kept. -/
def add (ts : List Sub) (d : Desc) (mem : Bool) : Option Nat × List Sub :=
  match findUnused ts with
  | none => (none, ts)
  | some i =>
    let old := ts.getD i idle
    if mem then (some i, ts.set i ⟨d.rate, d.offset, old.pending, d.size, d.bits, d.bytes, old.queue, d.refill⟩)
    else (none, ts.set i idle)

/-- src/isdn/i460_mux.c:382-385 `osmo_i460_subchan_del` -/
def del (ts : List Sub) (i : Nat) : List Sub := ts.set i idle

/-- src/isdn/i460_mux.c:335-344 `osmo_i460_ts_init`; include/osmocom/isdn/i460_mux.h:25 OSMO_I460_NUM_SUBCHAN -/
def init : List Sub := List.replicate 8 idle

end Verif.I460
