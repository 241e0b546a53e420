import Verif.Fsm.Props
/-!
Terminating a tree of instances (C41) when the callbacks involved make no
calls.
-/
namespace Verif.Fsm
open Verif

variable {U : Type}

/-- The callbacks of a termination make no calls. -/
def QuietTerm (user : User U) : Prop := ∀ u f w,
  (match f with
    | .preTerm _ _ | .cleanup _ _ | .action _ _ _ | .allstate _ _ => True
    | _ => False) → ∃ u' rc, user u f w = (u', .inl rc)

/-- A list of trees of instances: first child, next sibling. -/
inductive Forest where
  | nil
  | cons (id : Nat) (kids rest : Forest)
deriving Repr, DecidableEq

/-- All instances. -/
def Forest.ids : Forest → List Nat
  | .nil => []
  | .cons id kids rest => id :: (kids.ids ++ rest.ids)

/-- The roots. -/
def Forest.roots : Forest → List Nat
  | .nil => []
  | .cons id _ rest => id :: rest.roots

/-- The instances below `par` in the world are this forest, and live. -/
def IsForest (w : World U) (par : Nat) : Forest → Prop
  | .nil => True
  | .cons id kids rest => (∃ fi, w.insts id = some fi ∧ fi.parent = some par ∧ fi.terminating = false ∧
      fi.linked = true ∧ fi.children = kids.roots) ∧ IsForest w id kids ∧ IsForest w par rest

/-- An event that only happens if there is such a callback. -/
def sel (b : Bool) (e : Ev) : List Ev := if b then [e] else []

/-- Whether an instance of a world has these callbacks. -/
def hasPre (w : World U) (id : Nat) : Bool := (w.insts id).elim false fun fi => fi.fsm.hasPreTerm
def hasClean (w : World U) (id : Nat) : Bool := (w.insts id).elim false fun fi => fi.fsm.hasCleanup

/-- What happens when the instances of a forest are terminated because of
their parent: each begins, its children come, it leaves its parent, cleans up
and is released. -/
def forestLog (w : World U) (par : Nat) : Forest → List Ev
  | .nil => []
  | .cons id kids rest =>
    [.terminating id .parent] ++ sel (hasPre w id) (.called (.preTerm id .parent)) ++ forestLog w id kids ++
      [.unlinked id par] ++ sel (hasClean w id) (.called (.cleanup id .parent)) ++ [.released id] ++
      forestLog w par rest

/-- All but the giving back of memory, whose moment depends on the mode. -/
def seen (L : List Ev) : List Ev := L.filter fun e => match e with
  | .freed _ => false
  | _ => true

/-- Released, but in memory. -/
def Released (w : World U) (i : Nat) : Prop :=
  ∃ fi, w.insts i = some fi ∧ fi.linked = false ∧ fi.terminating = true

/-- What is left of the instances `ids`. -/
structure After (ids : List Nat) (w w' : World U) : Prop where
  next : w'.next = w.next
  safely : w'.safely = w.safely
  dealloc : w'.dealloc = w.dealloc
  depth : w'.depth = w.depth
  gone : ∀ i ∈ ids, (w.depth = 0 ∧ w.dealloc = false → w'.insts i = none) ∧
    (w.depth ≠ 0 ∨ w.dealloc = true → Released w' i)
  coll : (w.depth = 0 → w'.collected = []) ∧
    (w.depth ≠ 0 → ∀ i, i ∈ w'.collected ↔ i ∈ w.collected ∨ i ∈ ids)

/-- Steps enough. -/
def Forest.need : Forest → Nat
  | .nil => 1
  | .cons _ kids rest => kids.need + rest.need + 4

theorem seen_append (a b : List Ev) : seen (a ++ b) = seen a ++ seen b := List.filter_append ..

theorem exec_quiet {user : User U} (hq : QuietTerm user) (n : Nat) (f : Frame)
    (hf : match f with
      | .preTerm _ _ | .cleanup _ _ | .action _ _ _ | .allstate _ _ => True
      | _ => False) (w : World U) :
    ∃ u' rc, exec user (n + 1) (.user f) w = (.ok rc, { w with u := u' }) := by
  obtain ⟨u', rc, h⟩ := hq w.u f w hf
  refine ⟨u', rc, ?_⟩
  unfold exec
  rw [h]

/-- A callback that may not be there. -/
theorem exec_opt {user : User U} (hq : QuietTerm user) (n : Nat) (f : Frame) (b : Bool)
    (hf : match f with
      | .preTerm _ _ | .cleanup _ _ | .action _ _ _ | .allstate _ _ => True
      | _ => False) (w : World U) :
    ∃ u' rc, (if b = true then exec user (n + 1) (.user f) (w.emit (.called f)) else (Status.ok 0, w)) =
      (Status.ok rc, { w with u := u', log := w.log ++ sel b (.called f) }) := by
  cases b
  · exact ⟨w.u, 0, by simp [sel]⟩
  · obtain ⟨u', rc, h⟩ := exec_quiet hq n f hf (w.emit (.called f))
    refine ⟨u', rc, ?_⟩
    rw [if_pos rfl, h]
    rfl

/-- Releasing an instance. -/
theorem free_spec {w : World U} {id : Nat} {fi : Inst} (hi : w.insts id = some fi) (hl : fi.linked = true) :
    ∃ w', w.free id = some w' ∧ w'.next = w.next ∧ w'.safely = w.safely ∧ w'.dealloc = w.dealloc ∧
      w'.depth = w.depth ∧ seen w'.log = seen w.log ++ [.released id] ∧
      (w.depth ≠ 0 → w'.collected = id :: w.collected) ∧ (w.depth = 0 → w'.collected = []) ∧
      (∀ i, w'.insts i = if w.depth = 0 ∧ w.dealloc = false ∧ i ∈ id :: w.collected then none
        else if i = id then some { fi with timer := none, linked := false } else w.insts i) := by
  have key : ∀ ids : List Nat, ∀ w : World U, (w.freeOrSteal ids).safely = w.safely ∧
      (w.freeOrSteal ids).dealloc = w.dealloc := by
    intro ids
    induction ids with
    | nil => intro w; exact ⟨rfl, rfl⟩
    | cons a l ih =>
      intro w
      simp only [World.freeOrSteal]
      split
      · exact ih w
      · exact ih _
  unfold World.free
  rw [hi]
  simp only [hl, if_true]
  by_cases hd : w.depth = 0
  · rw [if_neg (by simpa [World.emit, World.put] using hd)]
    refine ⟨_, rfl, ?_⟩
    obtain ⟨s1, s2, s3, s4, s5⟩ := freeOrSteal_spec
      (id :: ((w.put id { fi with timer := none, linked := false }).emit (.released id)).collected)
      ({ (w.put id { fi with timer := none, linked := false }).emit (.released id) with collected := [] } : World U)
    obtain ⟨k1, k2⟩ := key
      (id :: ((w.put id { fi with timer := none, linked := false }).emit (.released id)).collected)
      ({ (w.put id { fi with timer := none, linked := false }).emit (.released id) with collected := [] } : World U)
    refine ⟨s3, k1, k2, s4, ?_, fun h => absurd hd h, fun _ => s5, ?_⟩
    · rw [s2, seen_append]
      have : seen (if (({ (w.put id { fi with timer := none, linked := false }).emit (.released id) with collected := [] } : World U).dealloc) = true then []
          else (id :: ((w.put id { fi with timer := none, linked := false }).emit (.released id)).collected).map Ev.freed) = [] := by
        split
        · rfl
        · unfold seen
          rw [List.filter_eq_nil_iff]
          intro e he
          obtain ⟨x, _, rfl⟩ := List.mem_map.mp he
          simp
      rw [this, List.append_nil]
      simp only [World.emit, World.put]
      rw [seen_append]
      rfl
    · intro i
      rw [s1]
      simp only [World.emit, World.put, hd, true_and]
  · rw [if_pos (by simpa [World.emit, World.put] using hd)]
    refine ⟨_, rfl, rfl, rfl, rfl, rfl, ?_, fun _ => rfl, fun h => absurd h hd, ?_⟩
    · simp only [World.emit, World.put]
      rw [seen_append]
      rfl
    · intro i
      rw [if_neg (fun h => hd h.1)]
      rfl

theorem isForest_congr {w w' : World U} : ∀ (f : Forest) (par : Nat),
    (∀ i ∈ f.ids, w'.insts i = w.insts i) → IsForest w par f → IsForest w' par f
  | .nil, _, _, _ => trivial
  | .cons id kids rest, par, h, hf => by
    obtain ⟨⟨fi, h1, h2⟩, hk, hr⟩ := hf
    refine ⟨⟨fi, by rw [h id (by simp [Forest.ids])]; exact h1, h2⟩, ?_, ?_⟩
    · exact isForest_congr kids id (fun i hi => h i (by simp [Forest.ids, hi])) hk
    · exact isForest_congr rest par (fun i hi => h i (by simp [Forest.ids, hi])) hr

theorem forestLog_congr {w w' : World U} : ∀ (f : Forest) (par : Nat),
    (∀ i ∈ f.ids, w'.insts i = w.insts i) → forestLog w' par f = forestLog w par f
  | .nil, _, _ => rfl
  | .cons id kids rest, par, h => by
    have h1 : hasPre w' id = hasPre w id := by unfold hasPre; rw [h id (by simp [Forest.ids])]
    have h2 : hasClean w' id = hasClean w id := by unfold hasClean; rw [h id (by simp [Forest.ids])]
    simp only [forestLog, h1, h2]
    rw [forestLog_congr kids id (fun i hi => h i (by simp [Forest.ids, hi])),
      forestLog_congr rest par (fun i hi => h i (by simp [Forest.ids, hi]))]

end Verif.Fsm
