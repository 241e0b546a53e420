/-!
Shared vocabulary of the model: bytes and bounds-checked access to a block of
memory.  A block of memory of `n` bytes (a C array or an allocation) is a
`List Byte` of length `n`; an access outside of it is `none` (undefined
behaviour in C).
-/
namespace Verif

/-- `uint8_t` / `unsigned char`. -/
abbrev Byte := BitVec 8

/-- Read `n` bytes at offset `off` of a memory block; `none` = out of bounds. -/
def readAt (mem : List Byte) (off : Int) (n : Nat) : Option (List Byte) :=
  if 0 ≤ off ∧ off + n ≤ mem.length then some ((mem.drop off.toNat).take n) else none

/-- Write `bs` at offset `off` of a memory block; `none` = out of bounds.
Models `memcpy`/indexed stores into a buffer. -/
def writeAt (mem : List Byte) (off : Int) (bs : List Byte) : Option (List Byte) :=
  if 0 ≤ off ∧ off + bs.length ≤ mem.length then
    some (mem.take off.toNat ++ bs ++ mem.drop (off.toNat + bs.length))
  else none

theorem writeAt_eq_some {mem bs : List Byte} {o : Nat} (h : o + bs.length ≤ mem.length) :
    writeAt mem (o : Int) bs = some (mem.take o ++ bs ++ mem.drop (o + bs.length)) := by
  unfold writeAt
  rw [if_pos (by omega)]
  simp

theorem readAt_eq_some {mem : List Byte} {o n : Nat} (h : o + n ≤ mem.length) :
    readAt mem (o : Int) n = some ((mem.drop o).take n) := by
  unfold readAt
  rw [if_pos (by omega)]
  simp

theorem length_of_writeAt {mem bs mem' : List Byte} {o : Int}
    (h : writeAt mem o bs = some mem') : mem'.length = mem.length := by
  unfold writeAt at h
  split at h
  · rename_i hc
    cases h
    simp
    omega
  · cases h

end Verif
