import Verif.Stats.Ident
/-!
Rate counters (C96, C97): src/core/rate_ctr.c.
-/
namespace Verif.Stats

abbrev U64 := BitVec 64

/-- include/osmocom/core/rate_ctr.h:23-26 -/
structure PerIntv where
  last : U64
  rate : U64
deriving DecidableEq, Repr

/-- include/osmocom/core/rate_ctr.h:29-34; the array of four intervals is one field each -/
structure Ctr where
  current : U64
  previous : U64
  sec : PerIntv
  min : PerIntv
  hour : PerIntv
  day : PerIntv
deriving DecidableEq, Repr

/-- all bytes zero: src/core/rate_ctr.c:233 (allocation) and src/core/rate_ctr.c:481-484 `rate_ctr_reset` -/
def Ctr.zero : Ctr := ⟨0, 0, ⟨0, 0⟩, ⟨0, 0⟩, ⟨0, 0⟩, ⟨0, 0⟩⟩

/-- src/core/rate_ctr.c:286-289 `rate_ctr_add`: the `int` is converted to `uint64_t` -/
def Ctr.add (c : Ctr) (inc : BitVec 32) : Ctr := { c with current := c.current + inc.signExtend 64 }

/-- src/core/rate_ctr.c:292-298 `rate_ctr_difference` -/
def Ctr.difference (c : Ctr) : Ctr × BitVec 64 :=
  let result := c.current - c.previous
  ({ c with previous := c.current }, result)

/-- src/core/rate_ctr.c:303-309 `interval_expired` -/
def expired (cur : U64) (p : PerIntv) : PerIntv := ⟨cur, cur - p.last⟩

/-- src/core/rate_ctr.c:319-329, the body of the loop in `rate_ctr_group_intv` -/
def Ctr.intv (ticks : U64) (c : Ctr) : Ctr :=
  let c := { c with sec := expired c.current c.sec }
  let c := if ticks.toNat % 60 = 0 then { c with min := expired c.current c.min } else c
  let c := if ticks.toNat % (60 * 60) = 0 then { c with hour := expired c.current c.hour } else c
  if ticks.toNat % (24 * 60 * 60) = 0 then { c with day := expired c.current c.day } else c

/-- include/osmocom/core/rate_ctr.h:43-68: a group with the strings of its
descriptor; `id` stands for the address, `ctrs` has `num_ctr` elements. -/
structure Group where
  id : Nat
  name : Name
  ctrNames : List Name
  idx : BitVec 32
  ctrs : List Ctr
deriving DecidableEq, Repr

/-- src/core/rate_ctr.c:70 `rate_ctr_groups`, src/core/rate_ctr.c:312 `timer_ticks`; `next` is the
address the next allocation gets: addresses are not reused here. -/
structure Sys where
  ticks : U64
  groups : List Group
  next : Nat
deriving DecidableEq, Repr

def Sys.init : Sys := ⟨0, [], 0⟩

/-- src/core/rate_ctr.c:75-104 `rate_ctrl_group_desc_validate`; `none` is a NULL name -/
def descValid (name : Name) (ctrNames : List (Option Name)) : Bool :=
  if ¬ identValid (some name) then false else ctrNames.all identValid

/-- src/core/rate_ctr.c:108-135 `mangle_identifier_ifneeded` -/
def mangle (n : Name) : Name := n.map fun c => if c = 0x2e#8 then 0x3a#8 else c

/-- src/core/rate_ctr.c:139-184 `rate_ctr_group_desc_mangle`; `none` is the return of NULL -/
def descMangle (name : Name) (ctrNames : List (Option Name)) : Option (Name × List (Option Name)) :=
  if ctrNames.any Option.isNone then none
  else if descValid (mangle name) (ctrNames.map (Option.map mangle)) then
    some (mangle name, ctrNames.map (Option.map mangle))
  else none

/-- src/core/rate_ctr.c:397-411 `rate_ctr_get_group_by_name_idx` -/
def byNameIdx (gs : List Group) (name : Name) (idx : BitVec 32) : Option Group :=
  gs.find? fun g => g.name = name && g.idx = idx

/-- src/core/rate_ctr.c:189-205 `rate_ctr_get_unused_name_idx`, the loop over the list -/
def unusedFrom (name : Name) : List Group → BitVec 32 → BitVec 32
  | [], idx => idx
  | g :: gs, idx =>
    if g.name ≠ name then unusedFrom name gs idx
    else if idx.toNat ≤ g.idx.toNat then unusedFrom name gs (g.idx + 1)
    else unusedFrom name gs idx

/-- src/core/rate_ctr.c:189-205 -/
def unusedIdx (gs : List Group) (name : Name) : BitVec 32 := unusedFrom name gs 0

/-- src/core/rate_ctr.c:212-252 `rate_ctr_group_alloc`; the address or `none` for
NULL.  Memory does not run out. -/
def alloc (s : Sys) (name : Name) (ctrNames : List (Option Name)) (idx : BitVec 32) : Sys × Option Nat :=
  let idx := if (byNameIdx s.groups name idx).isSome then unusedIdx s.groups name else idx
  let desc := if ¬ descValid name ctrNames then descMangle name ctrNames else some (name, ctrNames)
  match desc with
  | none => (s, none)
  | some (nm, cn) =>
    ({ s with
        groups := ⟨s.next, nm, cn.filterMap id, idx, List.replicate ctrNames.length Ctr.zero⟩ :: s.groups
        next := s.next + 1 }, some s.next)

/-- src/core/rate_ctr.c:418-434 `rate_ctr_get_by_name`: the number of the counter -/
def ctrByName (g : Group) (name : Name) : Option Nat := g.ctrNames.findIdx? (· = name)

/-- src/core/rate_ctr.c:353-358, one round of the loop in `rate_ctr_timer_cb` -/
def tick (s : Sys) : Sys :=
  let t := s.ticks + 1
  { s with ticks := t, groups := s.groups.map fun g => { g with ctrs := g.ctrs.map (Ctr.intv t) } }

/-- src/core/rate_ctr.c:353-358, the loop -/
def ticksN : Nat → Sys → Sys
  | 0, s => s
  | n + 1, s => ticksN n (tick s)

/-- what the program does with the module -/
inductive Op where
  | alloc (name : Name) (ctrNames : List (Option Name)) (idx : BitVec 32)
  | free (id : Nat)
  | updIdx (id : Nat) (idx : BitVec 32)
  | add (id i : Nat) (inc : BitVec 32)
  | diff (id i : Nat)
  | reset (id i : Nat)
  | groupReset (id : Nat)
  | timer (expirations : Nat)
deriving DecidableEq, Repr

/-- change the group at address `id`; `none` when there is no such group -/
def onGroup (s : Sys) (id : Nat) (f : Group → Option Group) : Option Sys := do
  let g ← s.groups.find? (·.id = id)
  let g' ← f g
  some { s with groups := s.groups.map fun h => if h.id = id then g' else h }

/-- change counter `i` of the group (src/core/rate_ctr.c:270-273 `rate_ctr_group_get_ctr`); `none` out of bounds -/
def onCtr (i : Nat) (f : Ctr → Ctr) (g : Group) : Option Group := do
  let c ← g.ctrs[i]?
  some { g with ctrs := g.ctrs.set i (f c) }

/-- One call.  The second part is what it returns: an address, or a difference.
* `free`: src/core/rate_ctr.c:255-263
* `updIdx`: include/osmocom/core/rate_ctr.h:74-77
* `groupReset`: src/core/rate_ctr.c:489-497
* `timer`: src/core/rate_ctr.c:332-361, with the number read from the timer
  (never zero: `read` would fail with EAGAIN). -/
def step (s : Sys) : Op → Option (Sys × Option Int)
  | .alloc n cn idx => some ((alloc s n cn idx).1, (alloc s n cn idx).2.map Int.ofNat)
  | .free id => if s.groups.any (·.id = id) then some ({ s with groups := s.groups.filter (·.id ≠ id) }, none) else none
  | .updIdx id idx => (onGroup s id fun g => some { g with idx := idx }).map (·, none)
  | .add id i inc => (onGroup s id (onCtr i (·.add inc))).map (·, none)
  | .diff id i => do
    let g ← s.groups.find? (·.id = id)
    let c ← g.ctrs[i]?
    let s' ← onGroup s id (onCtr i fun c => c.difference.1)
    some (s', some c.difference.2.toInt)
  | .reset id i => (onGroup s id (onCtr i fun _ => Ctr.zero)).map (·, none)
  | .groupReset id => (onGroup s id fun g => some { g with ctrs := g.ctrs.map fun _ => Ctr.zero }).map (·, none)
  | .timer n => if n = 0 then none else some (ticksN n s, none)

/-- a run of the program: `none` as soon as one call is undefined -/
def run : List Op → Sys → Option Sys
  | [], s => some s
  | o :: os, s => (step s o).bind fun r => run os r.1

end Verif.Stats
