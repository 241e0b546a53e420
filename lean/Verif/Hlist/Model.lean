/-!
# Lists with a single pointer as head, and hash tables (include/osmocom/core/linuxlist.h, hashtable.h, hash.h, log2.h)

Memory is a set of addresses at which a `struct hlist_head` lives and another at which a `struct hlist_node` lives. A pointer to a node is `none` if NULL. A pointer to
a pointer is a `Slot`: it leads to the pointer in a head or to the `next` pointer of a node. Reading or writing where nothing lives is `none` (undefined behaviour).
`container_of` and the `_entry` macros built on it only add a constant to addresses and are left out.
-/
namespace Verif.Hlist

/-- include/osmocom/core/linuxlist.h:410-416: what a `struct hlist_node **` may lead to: `&h->first` or `&n->next` -/
inductive Slot
  | first (h : Nat) | next (n : Nat)
  deriving DecidableEq, Repr

/-- include/osmocom/core/linuxlist.h:410-416: the memory of all `struct hlist_head` and `struct hlist_node` -/
structure Mem where
  liveH : Nat → Bool
  liveN : Nat → Bool
  ptr : Slot → Option Nat
  pprev : Nat → Option Slot

/-- whether there is memory for a pointer -/
def Mem.liveS (m : Mem) : Slot → Bool
  | .first h => m.liveH h
  | .next n => m.liveN n

/-- a store to one cell -/
def upd {α β : Type} [DecidableEq α] (f : α → β) (a : α) (v : β) : α → β := fun x => if x = a then v else f x

/-- *s -/
def get (m : Mem) (s : Slot) : Option (Option Nat) := if m.liveS s then some (m.ptr s) else none
/-- *s = v -/
def set (m : Mem) (s : Slot) (v : Option Nat) : Option Mem := if m.liveS s then some { m with ptr := upd m.ptr s v } else none
/-- n->pprev -/
def getPprev (m : Mem) (n : Nat) : Option (Option Slot) := if m.liveN n then some (m.pprev n) else none
/-- n->pprev = v -/
def setPprev (m : Mem) (n : Nat) (v : Option Slot) : Option Mem := if m.liveN n then some { m with pprev := upd m.pprev n v } else none

/-- if (p) p->pprev = v -/
def setPprevIf (m : Mem) (p : Option Nat) (v : Option Slot) : Option Mem :=
  match p with
  | none => some m
  | some x => setPprev m x v

/-- include/osmocom/core/linuxlist.h:42-43 -/
def poison1 : Nat := 0x00100100
/-- include/osmocom/core/linuxlist.h:42-43; as `struct hlist_node **` -/
def poison2 : Slot := .next 0x00200200

/-- include/osmocom/core/linuxlist.h:420: `INIT_HLIST_HEAD` -/
def initHead (m : Mem) (h : Nat) : Option Mem := set m (.first h) none

/-- include/osmocom/core/linuxlist.h:421-425: `INIT_HLIST_NODE` -/
def initNode (m : Mem) (n : Nat) : Option Mem := do
  let m ← set m (.next n) none
  setPprev m n none

/-- include/osmocom/core/linuxlist.h:438-441: `hlist_unhashed` -/
def unhashed (m : Mem) (n : Nat) : Option Bool := (getPprev m n).map (·.isNone)

/-- include/osmocom/core/linuxlist.h:460-463: `hlist_empty` -/
def empty (m : Mem) (h : Nat) : Option Bool := (get m (.first h)).map (·.isNone)

/-- include/osmocom/core/linuxlist.h:465-473: `__hlist_del`; a write through NULL is undefined -/
def rawDel (m : Mem) (n : Nat) : Option Mem := do
  let next ← get m (.next n)
  let pprev ← getPprev m n
  let s ← pprev
  let m ← set m s next
  setPprevIf m next (some s)

/-- include/osmocom/core/linuxlist.h:481-486: `hlist_del` -/
def del (m : Mem) (n : Nat) : Option Mem := do
  let m ← rawDel m n
  let m ← set m (.next n) (some poison1)
  setPprev m n (some poison2)

/-- include/osmocom/core/linuxlist.h:493-499: `hlist_del_init` -/
def delInit (m : Mem) (n : Nat) : Option Mem := do
  if ← unhashed m n then return m
  let m ← rawDel m n
  initNode m n

/-- include/osmocom/core/linuxlist.h:508-516: `hlist_add_head` -/
def addHead (m : Mem) (n h : Nat) : Option Mem := do
  let first ← get m (.first h)
  let m ← set m (.next n) first
  let m ← setPprevIf m first (some (.next n))
  let m ← set m (.first h) (some n)
  setPprev m n (some (.first h))

/-- include/osmocom/core/linuxlist.h:522-529: `hlist_add_before` -/
def addBefore (m : Mem) (n next : Nat) : Option Mem := do
  let m ← setPprev m n (← getPprev m next)
  let m ← set m (.next n) (some next)
  let m ← setPprev m next (some (.next n))
  let s ← (← getPprev m n)
  set m s (some n)

/-- include/osmocom/core/linuxlist.h:535-544: `hlist_add_behind` -/
def addBehind (m : Mem) (n prev : Nat) : Option Mem := do
  let m ← set m (.next n) (← get m (.next prev))
  let m ← set m (.next prev) (some n)
  let m ← setPprev m n (some (.next prev))
  setPprevIf m (← get m (.next n)) (some (.next n))

/-- include/osmocom/core/linuxlist.h:553-556: `hlist_add_fake` -/
def addFake (m : Mem) (n : Nat) : Option Mem := setPprev m n (some (.next n))

/-- include/osmocom/core/linuxlist.h:561-564: `hlist_fake` -/
def isFake (m : Mem) (n : Nat) : Option Bool := (getPprev m n).map (· == some (.next n))

/-- include/osmocom/core/linuxlist.h:573-577: `hlist_is_singular_node` -/
def isSingular (m : Mem) (n h : Nat) : Option Bool := do
  let next ← get m (.next n)
  if next.isSome then return false
  return (← getPprev m n) == some (.first h)

/-- include/osmocom/core/linuxlist.h:586-593: `hlist_move_list` -/
def moveList (m : Mem) (old new : Nat) : Option Mem := do
  let m ← set m (.first new) (← get m (.first old))
  let m ← setPprevIf m (← get m (.first new)) (some (.first new))
  set m (.first old) none

/-- include/osmocom/core/linuxlist.h:597-598: the nodes `hlist_for_each` visits from `pos` on; at most `fuel` -/
def forEach (m : Mem) : Nat → Option Nat → Option (List Nat)
  | _, none => some []
  | 0, some _ => none
  | fuel + 1, some pos => do
    let xs ← forEach m fuel (← get m (.next pos))
    return pos :: xs

/-- include/osmocom/core/linuxlist.h:600-602: `hlist_for_each_safe` with a body; the next node is known before the body runs -/
def forEachSafe (m : Mem) (body : Mem → Nat → Option Mem) : Nat → Option Nat → Option (Mem × List Nat)
  | _, none => some (m, [])
  | 0, some _ => none
  | fuel + 1, some pos => do
    let n ← get m (.next pos)
    let m ← body m pos
    let (m, xs) ← forEachSafe m body fuel n
    return (m, pos :: xs)

/-- the operations -/
inductive Op
  | initHead (h : Nat) | initNode (n : Nat) | del (n : Nat) | delInit (n : Nat) | addHead (n h : Nat) | addBefore (n x : Nat) | addBehind (n x : Nat)
  | addFake (n : Nat) | moveList (old new : Nat)
  deriving DecidableEq, Repr

/-- what they do -/
def exec (m : Mem) : Op → Option Mem
  | .initHead h => initHead m h
  | .initNode n => initNode m n
  | .del n => del m n
  | .delInit n => delInit m n
  | .addHead n h => addHead m n h
  | .addBefore n x => addBefore m n x
  | .addBehind n x => addBehind m n x
  | .addFake n => addFake m n
  | .moveList old new => moveList m old new

/-- one after the other -/
def execAll (m : Mem) : List Op → Option Mem
  | [] => some m
  | o :: os => (exec m o).bind (execAll · os)

/-! ## Hash tables -/

/-- include/osmocom/core/log2.h:21-48: `fls` of 32 bits: in each round the upper part is looked at, and the rest moved up -/
def fls (x : Nat) : Nat :=
  if x = 0 then 0
  else
    let round (k : Nat) (xr : Nat × Nat) : Nat × Nat := if xr.1 / 2 ^ (32 - k) = 0 then (xr.1 * 2 ^ k % 2 ^ 32, xr.2 - k) else xr
    (round 1 (round 2 (round 4 (round 8 (round 16 (x, 32)))))).2

/-- include/osmocom/core/log2.h:61-67: `fls64` -/
def fls64 (x : Nat) : Nat := if x / 2 ^ 32 ≠ 0 then fls (x / 2 ^ 32) + 32 else fls (x % 2 ^ 32)

/-- include/osmocom/core/log2.h:83-88, 177-184: `ilog2` of a value of 64 bits that is not a constant -/
def ilog2 (n : Nat) : Int := (fls64 n : Int) - 1

/-- include/osmocom/core/log2.h:98-165: `const_ilog2`: the highest bit from 63 down to 2 that is set -/
def constIlog2 (n : Nat) : Nat := if n < 2 then 0 else (((List.range 62).map (63 - ·)).find? (n.testBit ·)).getD 1

/-- include/osmocom/core/hash.h:59-71: `hash_32`; a shift by 32 or a negative count is undefined -/
def hash32 (val bits : Nat) : Option Nat :=
  if bits = 0 ∨ 32 < bits then none else some (val * 0x61C88647 % 2 ^ 32 / 2 ^ (32 - bits))

/-- include/osmocom/core/hash.h:76-85: `hash_64` with longs of 64 bits; the result is cut to 32 bits -/
def hash64 (val bits : Nat) : Option Nat :=
  if bits = 0 ∨ 64 < bits then none else some (val * 0x61C8864680B583EB % 2 ^ 64 / 2 ^ (64 - bits) % 2 ^ 32)

/-- include/osmocom/core/hashtable.h:23-24: `hash_min`; a key is of 32 bits or of 64 -/
def hashMin : BitVec 32 ⊕ BitVec 64 → Nat → Option Nat
  | .inl k, bits => hash32 k.toNat bits
  | .inr k, bits => hash64 k.toNat bits

/-- include/osmocom/core/hashtable.h:12-17: an array of heads, from address `base` on; heads are counted, not bytes -/
structure Table where
  base : Nat
  bits : Nat

/-- include/osmocom/core/hashtable.h:19-20: `HASH_SIZE` -/
def Table.size (t : Table) : Nat := 2 ^ t.bits

/-- include/osmocom/core/hashtable.h:20, 53: where the nodes of a key are (the size is a constant); `none` if a shift is undefined -/
def Table.bucket (t : Table) (key : BitVec 32 ⊕ BitVec 64) : Option Nat := (hashMin key (constIlog2 t.size)).map (t.base + ·)

/-- include/osmocom/core/hashtable.h:26-32: `__hash_init`, of the first `sz` -/
def hashInit (t : Table) : Nat → Mem → Option Mem
  | 0, m => some m
  | sz + 1, m => (hashInit t sz m).bind fun m => initHead m (t.base + sz)

/-- include/osmocom/core/hashtable.h:52-53: `hash_add` -/
def hashAdd (t : Table) (m : Mem) (n : Nat) (key : BitVec 32 ⊕ BitVec 64) : Option Mem := do
  addHead m n (← t.bucket key)

/-- include/osmocom/core/hashtable.h:88-91: `hash_del` -/
def hashDel (m : Mem) (n : Nat) : Option Mem := delInit m n

/-- include/osmocom/core/hashtable.h:64-73: `__hash_empty`, from bucket `i` on with `sz` to go -/
def hashEmpty (t : Table) (m : Mem) : Nat → Nat → Option Bool
  | 0, _ => some true
  | sz + 1, i => do
    if ← empty m (t.base + i) then hashEmpty t m sz (i + 1) else return false

/-- include/osmocom/core/linuxlist.h:614-617: `hlist_for_each_entry` with a body that may `break`: the nodes visited, and what `obj` is in the end -/
def forEachUntil (m : Mem) (stop : Nat → Bool) : Nat → Option Nat → Option (List Nat × Option Nat)
  | _, none => some ([], none)
  | 0, some _ => none
  | fuel + 1, some pos =>
    if stop pos then some ([pos], some pos)
    else do
      let (xs, e) ← forEachUntil m stop fuel (← get m (.next pos))
      return (pos :: xs, e)

/-- include/osmocom/core/hashtable.h:100-103: `hash_for_each` with such a body, from bucket `i` on with `sz` to go -/
def hashForEach (t : Table) (m : Mem) (stop : Nat → Bool) (fuel : Nat) : Nat → Nat → Option (List Nat × Option Nat)
  | 0, _ => some ([], none)
  | sz + 1, i => do
    let (xs, e) ← forEachUntil m stop fuel (← get m (.first (t.base + i)))
    if e.isSome then return (xs, e)
    let (ys, e) ← hashForEach t m stop fuel sz (i + 1)
    return (xs ++ ys, e)

/-- include/osmocom/core/hashtable.h:127-128: `hash_for_each_possible` with such a body -/
def hashPossible (t : Table) (m : Mem) (stop : Nat → Bool) (fuel : Nat) (key : BitVec 32 ⊕ BitVec 64) : Option (List Nat × Option Nat) := do
  let h ← t.bucket key
  forEachUntil m stop fuel (← get m (.first h))

end Verif.Hlist
