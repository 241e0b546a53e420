import Verif.Common
/-!
Model of src/core/logging.c: which targets a message is logged to, the cache of
log levels, and the mask of categories.  Output itself, mutexes and the shape of
messages are left out; `!EMBEDDED` is assumed.
-/
namespace Verif.Logging

/-- include/osmocom/core/logging.h:180-183 `struct log_category`; both members are octets -/
structure Cat where
  level : Nat
  enabled : Nat
  deriving DecidableEq, Repr

/-- include/osmocom/core/logging.h `struct log_target`, what matters here: `id` stands for its
address, `all` is LOG_FLT_ALL in `filter_map` -/
structure Target where
  id : Nat
  level : Nat
  cats : List Cat
  all : Bool
  deriving DecidableEq, Repr

/-- include/osmocom/core/logging.h:128-158: the number of library categories -/
def numLib : Nat := 29

/-- The `struct log_info` made by src/core/logging.c:1533-1588 `log_init`: the first `user`
categories are the application's.  `filter` is `filter_fn` for the log context at the moment. -/
structure Info where
  user : Nat
  names : List (Option (List Byte))
  dflt : List Cat
  filter : Option (Target → Bool)

/-- `num_cat`, src/core/logging.c:1549-1555 -/
def Info.num (I : Info) : Nat := I.user + numLib

/-- `log_level_lookup_cache`; `freed`: the memory was given back -/
structure Cache where
  mem : List Nat
  freed : Bool
  deriving DecidableEq, Repr

/-- `osmo_log_target_list`, the targets not in it, and the cache -/
structure St where
  reg : List Target
  free : List Target
  cache : Option Cache
  deriving DecidableEq, Repr

/-- category `i` of a target -/
def Target.cat (t : Target) (i : Nat) : Cat := t.cats.getD i ⟨0, 0⟩

/-- one target in the loops of src/core/logging.c:116-119 and 143-146: enabled, level -/
def acc (i : Nat) (p : Nat × Nat) (t : Target) : Nat × Nat :=
  (max p.1 (t.cat i).enabled,
   if t.level ≠ 0 then min (min p.2 (t.cat i).level) t.level else min p.2 (t.cat i).level)

/-- src/core/logging.c:124 and 151: the value cached -/
def entry (p : Nat × Nat) : Nat := if p.1 ≠ 0 then p.2 else 255

/-- src/core/logging.c:101-125 `log_cache_update_all`; `none`: the memory was given back -/
def updateAll (I : Info) (s : St) : Option St :=
  match s.cache with
  | none => some s
  | some c =>
    if c.freed then none
    else some { s with cache := some { c with mem := (List.range I.num).map fun i => entry (s.reg.foldl (acc i) (0, 255)) } }

/-- src/core/logging.c:133-152 `log_cache_update` -/
def update (i en lv : Nat) (s : St) : Option St :=
  match s.cache with
  | none => some s
  | some c =>
    if c.freed then none
    else
      let p := s.reg.foldl (acc i) (0, 255)
      some { s with cache := some { c with mem := c.mem.set i (entry (max p.1 en, min p.2 lv)) } }

/-- src/core/logging.c:160-168 `log_cache_check` -/
def check (i : Nat) (level : Int) (s : St) : Option Bool :=
  match s.cache with
  | none => some true
  | some c => if c.freed then none else some (decide (¬ level < c.mem.getD i 0))

/-- src/core/logging.c:408-411 `subsys_lib2index` -/
def libIndex (I : Info) (subsys : Int) : Int := subsys * -1 + ((I.user : Int) - 1)

/-- src/core/logging.c:695-711 `map_subsys`; `none`: the assertion.  The smallest `int` cannot be
negated and is left out. -/
def mapSubsys (I : Info) (subsys : Int) : Option Nat :=
  let s := if subsys > 0 ∧ subsys ≥ I.user then -1 else subsys
  let s := if s < 0 then libIndex I s else s
  let s := if s < 0 ∨ s ≥ I.num then libIndex I (-1) else s
  if s < 0 ∨ s ≥ I.num then none else some s.toNat

/-- src/core/logging.c:713-744 `should_log_to_target` -/
def shouldLog (I : Info) (t : Target) (i : Nat) (level : Int) : Bool :=
  if (t.cat i).enabled = 0 then false
  else if t.level ≠ 0 ∧ level < t.level then false
  else if t.level = 0 ∧ (t.cat i).level ≠ 0 ∧ level < (t.cat i).level then false
  else if t.all then true
  else match I.filter with
    | some f => f t
    | none => true

/-- src/core/logging.c:754-786 `osmo_vlogp`: the targets told to put the message out, in order -/
def vlogp (I : Info) (s : St) (subsys level : Int) : Option (List Nat) :=
  match mapSubsys I subsys with
  | none => none
  | some i =>
    match check i level s with
    | none => none
    | some false => some []
    | some true => some ((s.reg.filter fun t => shouldLog I t i level).map (·.id))

/-- src/core/logging.c:1611-1640 `log_check_level` -/
def checkLevel (I : Info) (s : St) (subsys level : Int) : Option Bool :=
  match mapSubsys I subsys with
  | none => none
  | some i =>
    match check i level s with
    | none => none
    | some false => some false
    | some true => some (s.reg.any fun t => shouldLog I t i level)

/-- a change to the target `id` -/
def change (id : Nat) (f : Target → Target) (s : St) : St :=
  { s with reg := s.reg.map fun t => if t.id = id then f t else t
           free := s.free.map fun t => if t.id = id then f t else t }

/-- category `i` of a target set -/
def Target.put (t : Target) (i : Nat) (c : Cat) : Target := { t with cats := t.cats.set i c }

/-- src/core/logging.c:837-843 `log_add_target`, for a target not in the list; `none` otherwise -/
def add (I : Info) (id : Nat) (s : St) : Option St :=
  match s.free.find? (·.id = id) with
  | none => none
  | some t => updateAll I { s with reg := s.reg ++ [t], free := s.free.filter (·.id ≠ id) }

/-- src/core/logging.c:848-854 `log_del_target`, for a target in the list -/
def del (I : Info) (id : Nat) (s : St) : Option St :=
  match s.reg.find? (·.id = id) with
  | none => none
  | some t => updateAll I { s with reg := s.reg.filter (·.id ≠ id), free := s.free ++ [t] }

/-- src/core/logging.c:1108-1155 `log_target_create`, at the address `id` -/
def create (I : Info) (id : Nat) (s : St) : Option St :=
  (List.range I.num).foldlM (fun s i => update i (I.dflt.getD i ⟨0, 0⟩).enabled (I.dflt.getD i ⟨0, 0⟩).level s)
    { s with free := s.free ++ [⟨id, 0, I.dflt, false⟩] }

/-- src/core/logging.c:1011-1017 `log_set_log_level` -/
def setLevel (I : Info) (id : Nat) (level : Int) (s : St) : Option St :=
  updateAll I (change id (fun t => { t with level := (level % 256).toNat }) s)

/-- src/core/logging.c:1031-1035, and src/vty/logging_vty.c:382-386 with `en` = 1 -/
def putCat (id i en : Nat) (level : Int) (s : St) : Option St :=
  update i en (level % 256).toNat (change id (·.put i ⟨(level % 256).toNat, en⟩) s)

/-- src/core/logging.c:1025-1037 `log_set_category_filter` with a target -/
def setCategory (I : Info) (id : Nat) (category : Int) (enable : Bool) (level : Int) (s : St) : Option St :=
  match mapSubsys I category with
  | none => none
  | some i => putCat id i enable.toNat level s

/-- src/vty/logging_vty.c:405-416: "logging level set-all" -/
def setAll (I : Info) (id : Nat) (level : Int) (s : St) : Option St :=
  (List.range I.num).foldlM (fun s i => if (I.names.getD i none).isNone then some s else putCat id i 1 level s) s

/-- src/core/logging.c:891-897 `log_set_all_filter` -/
def setAllFilter (id : Nat) (all : Bool) (s : St) : St := change id (fun t => { t with all := all }) s

/-- src/core/logging.c:1504-1523 `log_cache_enable`; without effect if there is a cache -/
def cacheEnable (I : Info) (s : St) : Option St :=
  match s.cache with
  | some _ => some s
  | none => updateAll I { s with cache := some ⟨List.replicate I.num 0, false⟩ }

/-- src/core/logging.c:1592-1607 `log_fini`: the targets are deleted one by one and the memory of
`osmo_log_info`, of which the cache is a part, is given back -/
def fini (I : Info) (s : St) : Option St :=
  match s.reg.foldlM (fun (s : St) t => updateAll I { s with reg := s.reg.filter (·.id ≠ t.id) }) s with
  | none => none
  | some s => some { s with cache := s.cache.map fun c => { c with freed := true } }

/-! ### src/core/logging.c:458-508 `log_parse_category_mask` -/

/-- `tolower` in the C locale -/
def lower (b : Byte) : Byte := if 0x41 ≤ b.toNat ∧ b.toNat ≤ 0x5A then b + 0x20 else b

/-- `strncasecmp(a, b, n) == 0`, for strings without nul -/
def sameCase (a b : List Byte) (n : Nat) : Bool := (a.take n).map lower = (b.take n).map lower

/-- `strtok` with ":" -/
def tokens : List Byte → List Byte → List (List Byte)
  | [], cur => if cur = [] then [] else [cur.reverse]
  | c :: cs, cur =>
    if c = 0x3A then (if cur = [] then tokens cs [] else cur.reverse :: tokens cs []) else tokens cs (c :: cur)

/-- src/core/logging.c:474-491: does the token name the category? -/
def names (tok name : List Byte) : Bool :=
  match tok.findIdx? (· = 0x2C) with
  | none => sameCase name tok (max name.length tok.length)
  | some k => sameCase name tok k

/-- src/core/logging.c:492-495: the level; `atoi` is given -/
def tokLevel (atoi : List Byte → Int) (tok : List Byte) : Nat :=
  match tok.findIdx? (· = 0x2C) with
  | none => 0
  | some k => (atoi (tok.drop (k + 1)) % 256).toNat

/-- src/core/logging.c:473-500: one token on category `i` -/
def applyTok (I : Info) (atoi : List Byte → Int) (tok : List Byte) (i : Nat) (c : Cat) : Cat :=
  match I.names.getD i none with
  | none => c
  | some name => if names tok name then ⟨tokLevel atoi tok, 1⟩ else c

/-- src/core/logging.c:466-501: the categories of the target -/
def maskCats (I : Info) (atoi : List Byte → Int) (toks : List (List Byte)) (cats : List Cat) : List Cat :=
  toks.foldl (fun cats tok => cats.mapIdx fun i c => applyTok I atoi tok i c) (cats.map fun c => { c with enabled := 0 })

/-- src/core/logging.c:458-508; `none`: the assertion that there is a token -/
def parseMask (I : Info) (atoi : List Byte → Int) (id : Nat) (mask : List Byte) (s : St) : Option St :=
  if tokens mask [] = [] then none
  else
    updateAll I (change id (fun t =>
      { t with cats := maskCats I atoi (tokens mask []) t.cats }) s)

end Verif.Logging
