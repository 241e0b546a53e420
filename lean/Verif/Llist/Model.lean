/-!
# Doubly linked lists in memory (include/osmocom/core/linuxlist.h)

Memory is a set of addresses at which a `struct llist_head` lives, with two pointers each. Reading or writing one that does not live is `none`
(undefined behaviour). `container_of` and the `_entry` macros built on it only add a constant to addresses and are left out, as is `prefetch`, apart from
the read of its argument.
-/
namespace Verif.Llist

/-- include/osmocom/core/linuxlist.h:46-49: the memory of all `struct llist_head` -/
structure Mem where
  live : Nat → Bool
  next : Nat → Nat
  prev : Nat → Nat

/-- a store to one cell -/
def upd (f : Nat → Nat) (a v : Nat) : Nat → Nat := fun x => if x = a then v else f x

/-- a->next -/
def getNext (m : Mem) (a : Nat) : Option Nat := if m.live a then some (m.next a) else none
/-- a->prev -/
def getPrev (m : Mem) (a : Nat) : Option Nat := if m.live a then some (m.prev a) else none
/-- a->next = v -/
def setNext (m : Mem) (a v : Nat) : Option Mem := if m.live a then some { m with next := upd m.next a v } else none
/-- a->prev = v -/
def setPrev (m : Mem) (a v : Nat) : Option Mem := if m.live a then some { m with prev := upd m.prev a v } else none

/-- include/osmocom/core/linuxlist.h:42-43 -/
def poison1 : Nat := 0x00100100
def poison2 : Nat := 0x00200200

/-- include/osmocom/core/linuxlist.h:65-67: `INIT_LLIST_HEAD` -/
def initHead (m : Mem) (p : Nat) : Option Mem := do
  let m ← setNext m p p
  setPrev m p p

/-- include/osmocom/core/linuxlist.h:75-83: `__llist_add` -/
def rawAdd (m : Mem) (new prev next : Nat) : Option Mem := do
  let m ← setPrev m next new
  let m ← setNext m new next
  let m ← setPrev m new prev
  setNext m prev new

/-- include/osmocom/core/linuxlist.h:92-95: `llist_add` -/
def add (m : Mem) (new head : Nat) : Option Mem := do
  let n ← getNext m head
  rawAdd m new head n

/-- include/osmocom/core/linuxlist.h:104-107: `llist_add_tail` -/
def addTail (m : Mem) (new head : Nat) : Option Mem := do
  let p ← getPrev m head
  rawAdd m new p head

/-- include/osmocom/core/linuxlist.h:116-120: `__llist_del` -/
def rawDel (m : Mem) (prev next : Nat) : Option Mem := do
  let m ← setPrev m next prev
  setNext m prev next

/-- include/osmocom/core/linuxlist.h:128-133: `llist_del` -/
def del (m : Mem) (entry : Nat) : Option Mem := do
  let p ← getPrev m entry
  let n ← getNext m entry
  let m ← rawDel m p n
  let m ← setNext m entry poison1
  setPrev m entry poison2

/-- include/osmocom/core/linuxlist.h:138-142: `llist_del_init` -/
def delInit (m : Mem) (entry : Nat) : Option Mem := do
  let p ← getPrev m entry
  let n ← getNext m entry
  let m ← rawDel m p n
  initHead m entry

/-- include/osmocom/core/linuxlist.h:148-152: `llist_move` -/
def move (m : Mem) (entry head : Nat) : Option Mem := do
  let p ← getPrev m entry
  let n ← getNext m entry
  let m ← rawDel m p n
  add m entry head

/-- include/osmocom/core/linuxlist.h:158-163: `llist_move_tail` -/
def moveTail (m : Mem) (entry head : Nat) : Option Mem := do
  let p ← getPrev m entry
  let n ← getNext m entry
  let m ← rawDel m p n
  addTail m entry head

/-- include/osmocom/core/linuxlist.h:169-172: `llist_empty` -/
def empty (m : Mem) (head : Nat) : Option Bool := (getNext m head).map (· == head)

/-- include/osmocom/core/linuxlist.h:174-186: `__llist_splice` -/
def rawSplice (m : Mem) (list head : Nat) : Option Mem := do
  let first ← getNext m list
  let last ← getPrev m list
  let at' ← getNext m head
  let m ← setPrev m first head
  let m ← setNext m head first
  let m ← setNext m last at'
  setPrev m at' last

/-- include/osmocom/core/linuxlist.h:192-196: `llist_splice` -/
def splice (m : Mem) (list head : Nat) : Option Mem := do
  if ← empty m list then return m
  rawSplice m list head

/-- include/osmocom/core/linuxlist.h:204-211: `llist_splice_init` -/
def spliceInit (m : Mem) (list head : Nat) : Option Mem := do
  if ← empty m list then return m
  let m ← rawSplice m list head
  initHead m list

/-- include/osmocom/core/linuxlist.h:228-229, 254-255: `llist_first_entry_or_null` -/
def firstOrNull (m : Mem) (head : Nat) : Option (Option Nat) := do
  if ← empty m head then return none
  return some (← getNext m head)

/-- include/osmocom/core/linuxlist.h:245: `llist_last` -/
def last (m : Mem) (head : Nat) : Option Nat := getPrev m head

/-- include/osmocom/core/linuxlist.h:261-263: the entries `llist_for_each` visits from `pos` on; at most `fuel` -/
def forEach (m : Mem) (head : Nat) : Nat → Nat → Option (List Nat)
  | 0, _ => none
  | fuel + 1, pos =>
    if pos = head then some []
    else do
      let n ← getNext m pos
      let xs ← forEach m head fuel n
      return pos :: xs

/-- include/osmocom/core/linuxlist.h:281-283: those of `llist_for_each_prev` -/
def forEachPrev (m : Mem) (head : Nat) : Nat → Nat → Option (List Nat)
  | 0, _ => none
  | fuel + 1, pos =>
    if pos = head then some []
    else do
      let n ← getPrev m pos
      let xs ← forEachPrev m head fuel n
      return pos :: xs

/-- include/osmocom/core/linuxlist.h:393-400: `llist_count` counts the entries visited -/
def count (m : Mem) (head fuel : Nat) : Option Nat := do
  let xs ← forEach m head fuel (← getNext m head)
  return xs.length

/-- include/osmocom/core/linuxlist.h:290-292: `llist_for_each_safe` with a body; the next entry is known before the body runs -/
def forEachSafe (m : Mem) (head : Nat) (body : Mem → Nat → Option Mem) : Nat → Nat → Nat → Option (Mem × List Nat)
  | 0, _, _ => none
  | fuel + 1, pos, n =>
    if pos = head then some (m, [])
    else do
      let m ← body m pos
      let n' ← getNext m n
      let (m, xs) ← forEachSafe m head body fuel n n'
      return (m, pos :: xs)

/-- the operations -/
inductive Op
  | init (h : Nat) | add (n h : Nat) | addTail (n h : Nat) | del (n : Nat) | delInit (n : Nat) | move (n h : Nat) | moveTail (n h : Nat)
  | splice (l h : Nat) | spliceInit (l h : Nat)
  deriving DecidableEq, Repr

/-- what they do -/
def exec (m : Mem) : Op → Option Mem
  | .init h => initHead m h
  | .add n h => add m n h
  | .addTail n h => addTail m n h
  | .del n => del m n
  | .delInit n => delInit m n
  | .move n h => move m n h
  | .moveTail n h => moveTail m n h
  | .splice l h => splice m l h
  | .spliceInit l h => spliceInit m l h

/-- one after the other -/
def execAll (m : Mem) : List Op → Option Mem
  | [] => some m
  | o :: os => (exec m o).bind (execAll · os)

end Verif.Llist
