import Verif.Common
import Verif.Endian.Model
/-!
Model of `struct msgb` (include/osmocom/core/msgb.h, src/core/msgb.c).

Pointers into the message storage are integers relative to `_data`
(msgb.h:54); they may leave the storage, exactly as the C pointers do when the
library is built without `MSGB_DEBUG` (msgb.h:120-127: `MSGB_ABORT` is empty).
An access to memory outside `_data[0..data_len)` is `none`.

Simplifications: the `lchan`/`trx`/`cb` members and the talloc context are not
modelled; allocation always succeeds; the name is dropped.
-/
namespace Verif.Msgb

/-- msgb.h:36-56 `struct msgb`.  `mem` is `_data[]`, whose length is
`data_len` (msgb.h:50, a `uint16_t`).  `len` is msgb.h:51 (`uint16_t`). -/
structure Msgb where
  mem  : List Byte
  head : Int
  data : Int
  tail : Int
  len  : Nat
  l1h  : Option Int := none
  l2h  : Option Int := none
  l3h  : Option Int := none
  l4h  : Option Int := none
deriving DecidableEq, Repr

/-- `data_len` of a message (set by msgb.c:87 to the size of `_data`). -/
def Msgb.dataLen (m : Msgb) : Int := m.mem.length

/-- store an integer into the `uint16_t len` member. -/
def toU16 (i : Int) : Nat := (i % 65536).toNat

/-- msgb.c:73-94 `msgb_alloc_c`: zeroed storage, all pointers at `_data`.
`size` is a `uint16_t`. -/
def alloc (size : Nat) : Msgb :=
  { mem := List.replicate (size % 65536) 0#8, head := 0, data := 0, tail := 0, len := 0 }

/-- msgb.h:211-214 `msgb_tailroom`. -/
def Msgb.tailroom (m : Msgb) : Int := (m.head + m.dataLen) - m.tail
/-- msgb.h:223-226 `msgb_headroom`. -/
def Msgb.headroom (m : Msgb) : Int := m.data - m.head
/-- msgb.c:285-288 `msgb_length`. -/
def Msgb.length (m : Msgb) : Nat := m.len

/-- msgb.h:240-253 `msgb_put(msgb, len)`; the returned pointer is the old
`tail`. -/
def Msgb.put (m : Msgb) (n : Nat) : Int × Msgb :=
  (m.tail, { m with tail := m.tail + n, len := toU16 (m.len + n) })

/-- msgb.h:289-297 `msgb_get(msgb, len)`; returns the new `tail`. -/
def Msgb.get (m : Msgb) (n : Nat) : Int × Msgb :=
  (m.tail - n, { m with tail := m.tail - n, len := toU16 (m.len - n) })

/-- msgb.h:341-354 `msgb_push(msgb, len)`; returns the new `data`. -/
def Msgb.push (m : Msgb) (n : Nat) : Int × Msgb :=
  (m.data - n, { m with data := m.data - n, len := toU16 (m.len + n) })

/-- msgb.h:404-411 `msgb_pull(msgb, len)`; returns the new `data`. -/
def Msgb.pull (m : Msgb) (n : Nat) : Int × Msgb :=
  (m.data + n, { m with data := m.data + n, len := toU16 (m.len - n) })

/-- msgb.h:484-488 `msgb_reserve(msg, len)`. -/
def Msgb.reserve (m : Msgb) (n : Int) : Msgb :=
  { m with data := m.data + n, tail := m.tail + n }

/-- msgb.h:529-538 `msgb_alloc_headroom_c`; `none` = failed
`OSMO_ASSERT(size >= headroom)`. -/
def allocHeadroom (size headroom : Nat) : Option Msgb :=
  if size ≥ headroom then some ((alloc size).reserve headroom) else none

/-- msgb.h:495-506 `msgb_trim(msg, len)`: return code and message.  Only the
total size of the storage is checked, not `data`'s position in it. A negative
`len` is `MSGB_ABORT` (a no-op without MSGB_DEBUG). -/
def Msgb.trim (m : Msgb) (n : Int) : Int × Msgb :=
  if n > m.dataLen then (-1, m)
  else (0, { m with len := toU16 n, tail := m.data + n })

/-- msgb.c:164-178 `msgb_reset`.  Note that `l1h` is not reset by the code. -/
def Msgb.reset (m : Msgb) : Msgb :=
  { m with len := 0, data := 0, head := 0, tail := 0, l2h := none, l3h := none, l4h := none }

/-- `memcpy(msgb_put(msg, n), bs, n)`: the idiom behind msgb_put_u8/u16/u32
(msgb.h:259-283). `none` = write outside the storage. -/
def Msgb.putBytes (m : Msgb) (bs : List Byte) : Option Msgb :=
  let (p, m') := m.put bs.length
  (writeAt m.mem p bs).map fun mem => { m' with mem := mem }

/-- `memcpy(msgb_push(msg, n), bs, n)`: the idiom behind msgb_push_u8/u16/u32
(msgb.h:360-384). -/
def Msgb.pushBytes (m : Msgb) (bs : List Byte) : Option Msgb :=
  let (p, m') := m.push bs.length
  (writeAt m.mem p bs).map fun mem => { m' with mem := mem }

/-- reading the `n` bytes at the pointer returned by `msgb_get`: the idiom of
msgb_get_u8/u16/u32 (msgb.h:303-327). -/
def Msgb.getBytes (m : Msgb) (n : Nat) : Option (List Byte × Msgb) :=
  let (p, m') := m.get n
  (readAt m.mem p n).map fun bs => (bs, m')

/-- reading the `n` bytes just before the pointer returned by `msgb_pull`: the
idiom of msgb_pull_u8/u16/u32 (msgb.h:447-471). -/
def Msgb.pullBytes (m : Msgb) (n : Nat) : Option (List Byte × Msgb) :=
  let (p, m') := m.pull n
  (readAt m.mem (p - n) n).map fun bs => (bs, m')

/-- msgb.h:259-263 `msgb_put_u8`. -/
def Msgb.putU8 (m : Msgb) (w : BitVec 8) : Option Msgb := m.putBytes [w]
/-- msgb.h:269-273 `msgb_put_u16`. -/
def Msgb.putU16 (m : Msgb) (w : BitVec 16) : Option Msgb :=
  (Endian.storeBe w).bind m.putBytes
/-- msgb.h:279-283 `msgb_put_u32`. -/
def Msgb.putU32 (m : Msgb) (w : BitVec 32) : Option Msgb :=
  (Endian.storeBe w).bind m.putBytes
/-- msgb.h:360-364 `msgb_push_u8`. -/
def Msgb.pushU8 (m : Msgb) (w : BitVec 8) : Option Msgb := m.pushBytes [w]
/-- msgb.h:370-374 `msgb_push_u16`. -/
def Msgb.pushU16 (m : Msgb) (w : BitVec 16) : Option Msgb :=
  (Endian.storeBe w).bind m.pushBytes
/-- msgb.h:380-384 `msgb_push_u32`. -/
def Msgb.pushU32 (m : Msgb) (w : BitVec 32) : Option Msgb :=
  (Endian.storeBe w).bind m.pushBytes
/-- msgb.h:303-307 `msgb_get_u8`. -/
def Msgb.getU8 (m : Msgb) : Option (BitVec 8 × Msgb) :=
  (m.getBytes 1).bind fun (bs, m') => (bs.head?).map fun b => (b, m')
/-- msgb.h:313-317 `msgb_get_u16`. -/
def Msgb.getU16 (m : Msgb) : Option (BitVec 16 × Msgb) :=
  (m.getBytes 2).bind fun (bs, m') => (Endian.loadBe 16 bs).map fun w => (w, m')
/-- msgb.h:323-327 `msgb_get_u32`. -/
def Msgb.getU32 (m : Msgb) : Option (BitVec 32 × Msgb) :=
  (m.getBytes 4).bind fun (bs, m') => (Endian.loadBe 32 bs).map fun w => (w, m')
/-- msgb.h:447-451 `msgb_pull_u8`. -/
def Msgb.pullU8 (m : Msgb) : Option (BitVec 8 × Msgb) :=
  (m.pullBytes 1).bind fun (bs, m') => (bs.head?).map fun b => (b, m')
/-- msgb.h:457-461 `msgb_pull_u16`. -/
def Msgb.pullU16 (m : Msgb) : Option (BitVec 16 × Msgb) :=
  (m.pullBytes 2).bind fun (bs, m') => (Endian.loadBe 16 bs).map fun w => (w, m')
/-- msgb.h:467-471 `msgb_pull_u32`. -/
def Msgb.pullU32 (m : Msgb) : Option (BitVec 32 × Msgb) :=
  (m.pullBytes 4).bind fun (bs, m') => (Endian.loadBe 32 bs).map fun w => (w, m')

/-- msgb.h:386-393 `msgb_push_tl`: prepends tag and the (8-bit truncated)
length of what was in the message. -/
def Msgb.pushTl (m : Msgb) (tag : Byte) : Option Msgb :=
  m.pushBytes [tag, BitVec.ofNat 8 (toU16 (m.len + 2) - 2)]

/-- msgb.c:439-446: `if (msg->lNh >= post_start) msg->lNh += delta`
(a NULL pointer compares below). -/
def adjL (l : Option Int) (postStart delta : Int) : Option Int :=
  l.map fun p => if p ≥ postStart then p + delta else p

/-- msgb.c:414-452 `msgb_resize_area(msg, area, old_size, new_size)`; `area` as
offset relative to `_data`. `none` = memmove outside of the storage. -/
def Msgb.resizeArea (m : Msgb) (area : Int) (oldSize newSize : Nat) : Option (Int × Msgb) :=
  let postStart := area + oldSize
  let preLen := area - m.data
  let postLen := (m.len : Int) - oldSize - preLen
  let delta := (newSize : Int) - oldSize
  if delta = 0 then some (0, m)
  else
    let (rc, m1) := if delta > 0 then m.trim (m.len + delta) else (0, m)
    if rc < 0 then some (rc, m1)
    else
      match readAt m1.mem (area + oldSize) postLen.toNat with
      | none => none
      | some post =>
        match writeAt m1.mem (area + newSize) post with
        | none => none
        | some mem =>
          let m2 := { m1 with
            mem := mem
            l1h := adjL m1.l1h postStart delta
            l2h := adjL m1.l2h postStart delta
            l3h := adjL m1.l3h postStart delta
            l4h := adjL m1.l4h postStart delta }
          let m3 := if delta < 0 then (m2.trim (m2.len + delta)).2 else m2
          some (0, m3)

/-- Outcome of a copy: `ub` = memory access outside of a buffer. -/
inductive CopyRes where
  | null            -- the function returned NULL
  | ok (m : Msgb)
  | ub
deriving DecidableEq, Repr

/-- msgb.c:326-360 `msgb_copy_resize_c(ctx, msg, new_len, name)`. -/
def Msgb.copyResize (m : Msgb) (newLen : Nat) : CopyRes :=
  if newLen % 65536 < m.len then .null
  else
    let n := alloc newLen
    let n := { n with len := m.len, data := n.data + m.data, head := n.head + m.head,
                      tail := n.tail + m.tail }
    match readAt m.mem m.data m.len with
    | none => .ub
    | some bs =>
      match writeAt n.mem n.data bs with
      | none => .ub
      | some mem => .ok { n with mem := mem, l1h := m.l1h, l2h := m.l2h, l3h := m.l3h, l4h := m.l4h }

/-- msgb.c:383-386 `msgb_copy_c`. -/
def Msgb.copy (m : Msgb) : CopyRes := m.copyResize m.mem.length

/-- msgb.c:579-605 `msgb_printf`: `str` is what the format renders to
(vsnprintf writes at most `tailroom` bytes including the NUL; the renderer is
libc and not modelled; it is assumed not to fail). Returns the code and the
message. -/
def Msgb.printf (m : Msgb) (str : List Byte) : Option (Int × Msgb) :=
  if m.tailroom < 1 then some (-22, m)
  else
    let out := str.take (m.tailroom.toNat - 1) ++ [0#8]
    match writeAt m.mem m.tail out with
    | none => none
    | some mem =>
      let m1 := { m with mem := mem }
      if (str.length : Int) ≥ m.tailroom then some (-22, m1)
      else some (0, (m1.put str.length).2)

/-- msgb.h:566-599 `msgb_test_invariant` without the layer pointers. -/
def Msgb.testInvariantCore (m : Msgb) : Bool :=
  !(decide (m.data + m.len ≠ m.tail) || decide (m.data < m.head) ||
    decide (m.tail > m.head + m.dataLen))

/-- msgb.h:577-596: one `if (msg->lNh) {...}` step; `none` = `return 0`. -/
def lboundStep (lbound : Option Int) (l : Option Int) : Option Int :=
  match lbound, l with
  | none, _ => none
  | some b, none => some b
  | some b, some p => if p < b then none else some p

/-- msgb.h:566-599 `msgb_test_invariant` (non-NULL `msg`, `data`, `tail`). -/
def Msgb.testInvariant (m : Msgb) : Bool :=
  m.testInvariantCore &&
  match lboundStep (lboundStep (lboundStep (lboundStep (some m.head) m.l1h) m.l2h) m.l3h) m.l4h with
  | none => false
  | some b => decide (b ≤ m.head + m.dataLen)

/-! Message queues: msgb.c:129-155 and msgb.h:95-118.  The linked list is
modelled as a `List` (the pointer level of linuxlist.h is modelled in
`Verif/Llist`); a message is identified by an arbitrary value. -/

/-- msgb.c:129-132 `msgb_enqueue` (llist_add_tail). -/
def enqueue {α} (q : List α) (x : α) : List α := q ++ [x]
/-- msgb.c:141-155 `msgb_dequeue`. -/
def dequeue {α} : List α → Option α × List α
  | [] => (none, [])
  | x :: q => (some x, q)
/-- msgb.h:95-100 `msgb_enqueue_count`; `unsigned int` counter wraps at 2^32. -/
def enqueueCount {α} (s : List α × BitVec 32) (x : α) : List α × BitVec 32 :=
  (enqueue s.1 x, s.2 + 1#32)
/-- msgb.h:111-118 `msgb_dequeue_count`. -/
def dequeueCount {α} (s : List α × BitVec 32) : Option α × (List α × BitVec 32) :=
  match dequeue s.1 with
  | (none, q) => (none, (q, s.2))
  | (some x, q) => (some x, (q, s.2 - 1#32))

end Verif.Msgb
