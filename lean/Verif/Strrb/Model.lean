import Verif.Common
/-! Model of src/core/strrb.c, the ring buffer of log strings. -/
namespace Verif.Strrb

/-- include/osmocom/core/strrb.h: RB_MAX_MESSAGE_SIZE -/
def RB_MAX_MESSAGE_SIZE : Nat := 240

/-- `struct osmo_strrb`; a slot is the string in it, without the terminator -/
structure Rb where
  start : Nat
  fin : Nat
  size : Nat
  buffer : List (List Byte)

/-- src/core/strrb.c:55-82 `osmo_strrb_create`; `size` is a uint16_t.
Allocations succeed. -/
def create (rbSize : Nat) : Rb :=
  { start := 0, fin := 0, size := rbSize % 65536, buffer := List.replicate (rbSize % 65536) [] }

/-- src/core/strrb.c:88-91 `osmo_strrb_is_empty` -/
def isEmpty (rb : Rb) : Bool := rb.fin == rb.start

/-- src/core/strrb.c:115-125 `_osmo_strrb_is_bufindex_valid` -/
def bufindexValid (rb : Rb) (bufi : Nat) : Bool :=
  if isEmpty rb then false
  else if bufi ≥ rb.size then false
  else if rb.start < rb.fin then bufi ≥ rb.start && bufi < rb.fin
  else bufi < rb.fin || bufi ≥ rb.start

/-- src/core/strrb.c:107-108: the wrapped index -/
def wrapOffset (rb : Rb) (offset : Nat) : Nat :=
  if offset ≥ rb.size ∧ rb.start > rb.fin then offset - rb.size else offset

/-- src/core/strrb.c:109-112: NULL inside, or an access outside
of the array -/
def getAt (rb : Rb) (offset : Nat) : Option (Option (List Byte)) :=
  if bufindexValid rb offset then (rb.buffer[offset]?).map some else some none

/-- src/core/strrb.c:102-113 `osmo_strrb_get_nth`: `unsigned int` arithmetic -/
def getNth (rb : Rb) (stringIndex : Nat) : Option (Option (List Byte)) :=
  getAt rb (wrapOffset rb ((stringIndex + rb.start) % 2 ^ 32))

/-- src/core/strrb.c:132-138 `osmo_strrb_elements` -/
def elements (rb : Rb) : Nat :=
  if rb.fin < rb.start then rb.fin + (rb.size - rb.start) else rb.fin - rb.start

/-- src/core/strrb.c:148-170 `osmo_strrb_add`; `data` is the string without its
terminator.  `none` = write outside of the array or division by zero. -/
def add (rb : Rb) (data : List Byte) : Option (Rb × Int) :=
  let len := data.length
  let (len, ret) : Nat × Int := if len ≥ RB_MAX_MESSAGE_SIZE then (RB_MAX_MESSAGE_SIZE - 1, 1) else (len, 0)
  if rb.fin < rb.buffer.length ∧ rb.size ≠ 0 then
    let buffer := rb.buffer.set rb.fin (data.take len)
    let fin := (rb.fin + 1) % 65536 % rb.size
    let start := if fin = rb.start then (rb.start + 1) % 65536 % rb.size else rb.start
    some ({ rb with buffer := buffer, fin := fin, start := start }, ret)
  else none

end Verif.Strrb
