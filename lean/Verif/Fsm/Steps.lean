import Verif.Fsm.Model
import Mathlib.Tactic.ByContra
/-!
Every execution is a sequence of elementary steps, whatever the user does.
-/
namespace Verif.Fsm
open Verif

variable {U : Type}

/-- State `new` is permitted in state `s`. -/
def permits (fsm : Fsm) (s new : Nat) : Prop :=
  ∃ st, fsm.states[s]? = some st ∧ st.outMask.getLsbD new = true ∧ new < 32

/-- Events without a condition. -/
def Ev.neutral : Ev → Prop
  | .called (.preTerm _ _) | .called (.timerCb _) | .unlinked _ _ | .notified _ _ _ => True
  | _ => False

/-- `onleave` callbacks make no calls. -/
def QuietLeave (user : User U) : Prop := ∀ u id next w, ∃ u' rc, user u (.onleave id next) w = (u', .inl rc)

/-- The elementary steps.  `q` is the assumption `QuietLeave`. -/
inductive Prim (q : Prop) : World U → World U → Prop
  | user (w u rc) : Prim q w { w with u := u, rc := rc }
  | flags (w a b) : Prim q w { w with safely := a, dealloc := b }
  | alloc (w fsm) :
      Prim q w { (w.put w.next (newInst fsm)).emit (.allocated w.next fsm) with next := w.next + 1 }
  | leave (w id fi new) (keep : Bool) (hi : w.insts id = some fi) (ht : fi.terminating = false)
      (hp : permits fi.fsm fi.state new) :
      Prim q w ((if keep then w else w.put id { fi with timer := none }).emit (.leaving id fi.state new keep))
  | change (w id fi chk new keep ms T) (hi : w.insts id = some fi) (hp : permits fi.fsm chk new)
      (hn : new < fi.fsm.states.length)
      (hq : q → chk = fi.state ∧ fi.terminating = false ∧ (keep = false → fi.timer = none)) :
      Prim q w ((w.put id (enter fi new keep ms T)).emit (.changed id chk fi.state new keep ms T))
  | neutral (w e) (h : e.neutral) : Prim q w (w.emit e)
  | action (w id fi fs event) (hi : w.insts id = some fi) (ht : fi.terminating = false)
      (hs : fi.fsm.states[fi.state]? = some fs) (hm : fs.inMask.getLsbD event = true)
      (hna : ¬(fi.fsm.allMask.getLsbD event = true ∧ fi.fsm.hasAllstate = true)) (he : event < 32) :
      Prim q w (w.emit (.called (.action id fi.state event)))
  | allstate (w id fi event) (hi : w.insts id = some fi) (ht : fi.terminating = false)
      (hm : fi.fsm.allMask.getLsbD event = true) (he : event < 32) :
      Prim q w (w.emit (.called (.allstate id event)))
  | mark (w id fi cause) (hi : w.insts id = some fi) (ht : fi.terminating = false) : Prim q w (w.mark id fi cause)
  | delChild (w id p w') (h : w.delChild id p = some w') : Prim q w w'
  | free (w id w') (h : w.free id = some w') : Prim q w w'
  | unlinkParent (w id w') (h : w.unlinkParent id = some w') : Prim q w w'
  | changeParent (w id p e w') (h : w.changeParent id p e = some w') : Prim q w w'
  | fire (w id fi) (hi : w.insts id = some fi) (ht : fi.timer ≠ none) :
      Prim q w ((w.put id { fi with timer := none }).emit (.fired id))

/-- Sequences of steps; the call of `cleanup` and the end of a termination
belong to the beginning of the termination. -/
inductive Steps (q : Prop) : World U → World U → Prop
  | refl (w) : Steps q w w
  | prim {w w'} (h : Prim q w w') : Steps q w w'
  | trans {w w' w''} (h : Steps q w w') (h' : Steps q w' w'') : Steps q w w''
  | cleanup {w id fi cause w1 w2} (hi : w.insts id = some fi) (ht : fi.terminating = false)
      (h : Steps q (w.mark id fi cause) w1) (h' : Steps q (w1.emit (.called (.cleanup id cause))) w2) : Steps q w w2
  | undepth {w w'} (h : Steps q w w') (hd : w'.depth = w.depth + 1) : Steps q w { w' with depth := w.depth }

/-! ### Instances keep their FSM, numbers are not reused -/

/-- Only numbers below `next` are instances. -/
def Wf (w : World U) : Prop := ∀ id, w.insts id ≠ none → id < w.next

/-- An old instance is the same one still, or gone for good. -/
def Keeps (w w' : World U) : Prop :=
  w.next ≤ w'.next ∧ ∀ id fi', id < w.next → w'.insts id = some fi' →
    ∃ fi, w.insts id = some fi ∧ fi'.fsm = fi.fsm ∧ (fi.terminating = true → fi'.terminating = true)

theorem Keeps.refl (w : World U) : Keeps w w := ⟨Nat.le_refl _, fun _ fi' _ h => ⟨fi', h, rfl, id⟩⟩

theorem Keeps.trans {a b c : World U} (h : Keeps a b) (h' : Keeps b c) : Keeps a c := by
  refine ⟨Nat.le_trans h.1 h'.1, ?_⟩
  intro id fi' hid hc
  obtain ⟨fi1, h1, h2, h3⟩ := h'.2 id fi' (Nat.lt_of_lt_of_le hid h.1) hc
  obtain ⟨fi0, g1, g2, g3⟩ := h.2 id fi1 hid h1
  exact ⟨fi0, g1, h2.trans g2, fun ht => h3 (g3 ht)⟩

/-- Replacing an instance by one of the same FSM. -/
theorem keeps_put {w : World U} {id : Nat} {fi fi' : Inst} (hi : w.insts id = some fi) (hf : fi'.fsm = fi.fsm)
    (ht : fi.terminating = true → fi'.terminating = true) (hw : Wf w) :
    Wf (w.put id fi') ∧ Keeps w (w.put id fi') := by
  refine ⟨?_, Nat.le_refl _, ?_⟩
  · intro i h
    simp only [World.put] at h ⊢
    split at h
    · rename_i he; rw [he]; exact hw id (by rw [hi]; simp)
    · exact hw i h
  · intro i fi'' hid h
    simp only [World.put] at h
    split at h
    · rename_i he
      rw [he]
      refine ⟨fi, hi, ?_, ?_⟩
      · rw [← Option.some.inj h]; exact hf
      · rw [← Option.some.inj h]; exact ht
    · exact ⟨fi'', h, rfl, fun h => h⟩

theorem keeps_congr {w w1 w2 : World U} (hw : Wf w1) (hk : Keeps w w1) (hi : w2.insts = w1.insts)
    (hn : w2.next = w1.next) : Wf w2 ∧ Keeps w w2 := by
  refine ⟨?_, ?_, ?_⟩
  · intro i h; rw [hi] at h; rw [hn]; exact hw i h
  · rw [hn]; exact hk.1
  · intro i fi hid h; rw [hi] at h; exact hk.2 i fi hid h

theorem delChild_eq {w w' : World U} {id p : Nat} (h : w.delChild id p = some w') :
    ∃ pi, w.insts p = some pi ∧ id ∈ pi.children ∧
      w' = w.put p { pi with children := pi.children.erase id } := by
  unfold World.delChild at h
  split at h
  · cases h
  · rename_i pi hpi
    split at h
    · rename_i hm
      exact ⟨pi, hpi, hm, (Option.some.inj h).symm⟩
    · cases h

theorem freeOrSteal_spec (ids : List Nat) : ∀ w : World U,
    (∀ i, (w.freeOrSteal ids).insts i = if w.dealloc = false ∧ i ∈ ids then none else w.insts i) ∧
    (w.freeOrSteal ids).log = w.log ++ (if w.dealloc then [] else ids.map Ev.freed) ∧
    (w.freeOrSteal ids).next = w.next ∧ (w.freeOrSteal ids).depth = w.depth ∧
    (w.freeOrSteal ids).collected = w.collected := by
  induction ids with
  | nil => intro w; simp [World.freeOrSteal]
  | cons a l ih =>
    intro w
    simp only [World.freeOrSteal]
    by_cases hd : w.dealloc = true
    · rw [if_pos hd]
      obtain ⟨h1, h2, h3⟩ := ih w
      refine ⟨?_, ?_, h3⟩
      · intro i; rw [h1]; simp [hd]
      · rw [h2]; simp [hd]
    · rw [if_neg hd]
      have hd' : w.dealloc = false := by simpa using hd
      obtain ⟨h1, h2, h3, h4, h5⟩ := ih (({ w with insts := fun i => if i = a then none else w.insts i } : World U).emit (.freed a))
      refine ⟨?_, ?_, h3, h4, h5⟩
      · intro i
        rw [h1]
        simp only [World.emit, hd', true_and, List.mem_cons]
        by_cases hi : i ∈ l
        · simp [hi]
        · by_cases ha : i = a <;> simp [hi, ha]
      · rw [h2]; simp [World.emit, hd']

theorem free_eq {w w' : World U} {id : Nat} (h : w.free id = some w') :
    ∃ fi, w.insts id = some fi ∧ fi.linked = true ∧
      ((w.depth ≠ 0 ∧ w' = { (w.put id { fi with timer := none, linked := false }).emit (.released id) with
          collected := id :: w.collected }) ∨
       (w.depth = 0 ∧ w' = ({ (w.put id { fi with timer := none, linked := false }).emit (.released id) with
          collected := [] } : World U).freeOrSteal (id :: w.collected))) := by
  unfold World.free at h
  split at h
  · cases h
  · rename_i fi hfi
    split at h
    · rename_i hl
      refine ⟨fi, hfi, hl, ?_⟩
      simp only [] at h
      split at h
      · rename_i hd
        left
        exact ⟨hd, (Option.some.inj h).symm⟩
      · rename_i hd
        right
        exact ⟨by simpa [World.put, World.emit] using hd, (Option.some.inj h).symm⟩
    · cases h

theorem keeps_free {w w' : World U} {id : Nat} (hw : Wf w) (h : w.free id = some w') : Wf w' ∧ Keeps w w' := by
  obtain ⟨fi, hi, _, h | h⟩ := free_eq h
  · obtain ⟨_, rfl⟩ := h
    obtain ⟨h1, h2⟩ := keeps_put (fi' := { fi with timer := none, linked := false }) hi rfl (fun h => h) hw
    exact keeps_congr h1 h2 rfl rfl
  · obtain ⟨_, rfl⟩ := h
    obtain ⟨h1, h2⟩ := keeps_put (fi' := { fi with timer := none, linked := false }) hi rfl (fun h => h) hw
    obtain ⟨g1, _, g3, _, _⟩ := freeOrSteal_spec (id :: w.collected)
      ({ (w.put id { fi with timer := none, linked := false }).emit (.released id) with collected := [] } : World U)
    refine ⟨?_, ?_, ?_⟩
    · intro i hne
      rw [g1] at hne
      rw [g3]
      split at hne
      · exact absurd rfl hne
      · exact h1 i hne
    · rw [g3]; exact Nat.le_refl _
    · intro i fi' hid hs
      rw [g1] at hs
      split at hs
      · cases hs
      · exact h2.2 i fi' hid hs

theorem keeps_delChild {w w' : World U} {id p : Nat} (hw : Wf w) (h : w.delChild id p = some w') :
    Wf w' ∧ Keeps w w' := by
  obtain ⟨pi, h1, _, rfl⟩ := delChild_eq h
  exact keeps_put h1 rfl (fun h => h) hw

theorem unlinkParent_eq {w w' : World U} {id : Nat} (h : w.unlinkParent id = some w') :
    ∃ fi, w.insts id = some fi ∧ ((fi.parent = none ∧ w' = w) ∨
      ∃ p, fi.parent = some p ∧
        (w.put id { fi with parent := none, parentTermEvent := 0 }).delChild id p = some w') := by
  unfold World.unlinkParent at h
  split at h
  · cases h
  · rename_i fi hfi
    refine ⟨fi, hfi, ?_⟩
    split at h
    · rename_i hp; left; exact ⟨hp, (Option.some.inj h).symm⟩
    · rename_i p hp; right; exact ⟨p, hp, h⟩

theorem keeps_unlinkParent {w w' : World U} {id : Nat} (hw : Wf w) (h : w.unlinkParent id = some w') :
    Wf w' ∧ Keeps w w' := by
  obtain ⟨fi, hi, ⟨_, rfl⟩ | ⟨p, _, hd⟩⟩ := unlinkParent_eq h
  · exact ⟨hw, .refl _⟩
  · obtain ⟨h1, h2⟩ := keeps_put (fi' := { fi with parent := none, parentTermEvent := 0 }) hi rfl (fun h => h) hw
    obtain ⟨h3, h4⟩ := keeps_delChild h1 hd
    exact ⟨h3, h2.trans h4⟩

theorem changeParent_eq {w w' : World U} {id : Nat} {p : Option Nat} {e : Nat}
    (h : w.changeParent id p e = some w') :
    ∃ w1, w.unlinkParent id = some w1 ∧ (w' = w1 ∨
      ∃ p' fi pi, p = some p' ∧ w1.insts id = some fi ∧
        (w1.put id { fi with parent := some p', parentTermEvent := e }).insts p' = some pi ∧
        w' = (w1.put id { fi with parent := some p', parentTermEvent := e }).put p'
          { pi with children := id :: pi.children }) := by
  unfold World.changeParent at h
  split at h
  · cases h
  · rename_i w1 hw1
    refine ⟨w1, hw1, ?_⟩
    split at h
    · left; exact (Option.some.inj h).symm
    · rename_i p'
      split at h
      · cases h
      · rename_i fi hfi
        simp only at h
        split at h
        · cases h
        · rename_i pi hpi
          right
          exact ⟨p', fi, pi, rfl, hfi, hpi, (Option.some.inj h).symm⟩

theorem keeps_changeParent {w w' : World U} {id : Nat} {p : Option Nat} {e : Nat} (hw : Wf w)
    (h : w.changeParent id p e = some w') : Wf w' ∧ Keeps w w' := by
  obtain ⟨w1, h1, h2 | ⟨p', fi, pi, _, hfi, hpi, rfl⟩⟩ := changeParent_eq h
  · rw [h2]; exact keeps_unlinkParent hw h1
  · obtain ⟨a1, a2⟩ := keeps_unlinkParent hw h1
    obtain ⟨b1, b2⟩ := keeps_put (fi' := { fi with parent := some p', parentTermEvent := e }) hfi rfl (fun h => h) a1
    obtain ⟨c1, c2⟩ := keeps_put (fi' := { pi with children := id :: pi.children }) hpi rfl (fun h => h) b1
    exact ⟨c1, (a2.trans b2).trans c2⟩

theorem mark_eq (w : World U) (id : Nat) (fi : Inst) (cause : Cause) :
    (w.mark id fi cause).insts = (w.put id { fi with terminating := true }).insts ∧
    (w.mark id fi cause).next = w.next ∧ (w.mark id fi cause).log = w.log ++ [.terminating id cause] ∧
    (w.mark id fi cause).collected = w.collected ∧
    ((w.mark id fi cause).depth = w.depth ∧ w.depth = 0 ∨ (w.mark id fi cause).depth = w.depth + 1) := by
  unfold World.mark
  simp only []
  split
  · exact ⟨rfl, rfl, rfl, rfl, Or.inr rfl⟩
  · rename_i h
    refine ⟨rfl, rfl, rfl, rfl, Or.inl ⟨rfl, ?_⟩⟩
    by_contra hne
    exact h (Or.inr hne)

theorem prim_keeps {q : Prop} {w w' : World U} (h : Prim q w w') (hw : Wf w) : Wf w' ∧ Keeps w w' := by
  cases h with
  | user => exact keeps_congr hw (.refl w) rfl rfl
  | flags => exact keeps_congr hw (.refl w) rfl rfl
  | alloc fsm =>
    refine ⟨?_, Nat.le_succ _, ?_⟩
    · intro i h
      simp only [World.put, World.emit] at h ⊢
      split at h
      · omega
      · have := hw i h; omega
    · intro i fi hid h
      simp only [World.put, World.emit] at h
      rw [if_neg (by omega)] at h
      exact ⟨fi, h, rfl, fun h => h⟩
  | leave id fi new keep hi =>
    cases keep
    · obtain ⟨h1, h2⟩ := keeps_put (fi' := { fi with timer := none }) hi rfl (fun h => h) hw
      exact keeps_congr h1 h2 rfl rfl
    · exact keeps_congr hw (.refl w) rfl rfl
  | change id fi chk new keep ms T hi =>
    have hf : (enter fi new keep ms T).fsm = fi.fsm := by unfold enter; split <;> rfl
    have ht : (enter fi new keep ms T).terminating = fi.terminating := by unfold enter; split <;> rfl
    obtain ⟨h1, h2⟩ := keeps_put hi hf (by rw [ht]; exact fun h => h) hw
    exact keeps_congr h1 h2 rfl rfl
  | neutral => exact keeps_congr hw (.refl w) rfl rfl
  | action => exact keeps_congr hw (.refl w) rfl rfl
  | allstate => exact keeps_congr hw (.refl w) rfl rfl
  | mark id fi cause hi ht =>
    obtain ⟨h1, h2⟩ := keeps_put (fi' := { fi with terminating := true }) hi rfl (fun _ => rfl) hw
    obtain ⟨m1, m2, _⟩ := mark_eq w id fi cause
    exact keeps_congr h1 h2 m1 m2
  | delChild id p w' h => exact keeps_delChild hw h
  | free id w' h => exact keeps_free hw h
  | unlinkParent id w' h => exact keeps_unlinkParent hw h
  | changeParent id p e w' h => exact keeps_changeParent hw h
  | fire id fi hi =>
    obtain ⟨h1, h2⟩ := keeps_put (fi' := { fi with timer := none }) hi rfl (fun h => h) hw
    exact keeps_congr h1 h2 rfl rfl

theorem steps_keeps {q : Prop} {w w' : World U} (h : Steps q w w') : Wf w → Wf w' ∧ Keeps w w' := by
  induction h with
  | refl w => intro hw; exact ⟨hw, .refl w⟩
  | prim h => exact prim_keeps h
  | trans _ _ ih ih' =>
    intro hw
    obtain ⟨a, b⟩ := ih hw
    obtain ⟨c, d⟩ := ih' a
    exact ⟨c, b.trans d⟩
  | cleanup hi ht _ _ ih ih' =>
    intro hw
    obtain ⟨a, b⟩ := prim_keeps (q := q) (.mark _ _ _ _ hi ht) hw
    obtain ⟨c, d⟩ := ih a
    obtain ⟨c', d'⟩ := keeps_congr (w2 := _) c d rfl rfl
    obtain ⟨e, f⟩ := ih' c'
    exact ⟨e, (b.trans d').trans f⟩
  | undepth _ _ ih =>
    intro hw
    obtain ⟨a, b⟩ := ih hw
    exact keeps_congr a b rfl rfl

/-! ### Executions are sequences of steps -/

/-- Steps, and the depth of termination is balanced if the call returns. -/
def Good (q : Prop) (w : World U) (r : Res U) : Prop :=
  Steps q w r.2 ∧ ∀ rc, r.1 = .ok rc → r.2.depth = w.depth

theorem Good.ok {q : Prop} {w : World U} (rc : Int) : Good q w (.ok rc, w) := ⟨.refl _, fun _ _ => rfl⟩

theorem Good.bad {q : Prop} {w w' : World U} {s : Status} (h : Steps q w w') (hs : ∀ rc, s ≠ .ok rc) :
    Good q w (s, w') := ⟨h, fun rc e => absurd e (hs rc)⟩

theorem Good.andThen {q : Prop} {w : World U} {r : Res U} {k : Int → World U → Res U} (h : Good q w r)
    (hk : ∀ rc w', r = (.ok rc, w') → Steps q w w' → w'.depth = w.depth → Good q w (k rc w')) :
    Good q w (r.andThen k) := by
  obtain ⟨s, w'⟩ := r
  unfold Res.andThen
  cases s with
  | ok rc => exact hk rc w' rfl h.1 (h.2 rc rfl)
  | steps => exact h
  | ub => exact h

theorem Good.pre {q : Prop} {w w1 : World U} {r : Res U} (h : Steps q w w1) (hd : w1.depth = w.depth)
    (hr : Good q w1 r) : Good q w r := ⟨.trans h hr.1, fun rc e => (hr.2 rc e).trans hd⟩

theorem Good.cont {q : Prop} {w : World U} {o : Option (World U)} {k : World U → Res U}
    (h : ∀ w', o = some w' → Good q w (k w')) : Good q w (cont w o k) := by
  unfold Fsm.cont
  cases o with
  | none => exact .bad (.refl w) (by intro rc h; cases h)
  | some w' => exact h w' rfl

theorem andThen_elim {P : Res U → Prop} {r : Res U} {k : Int → World U → Res U}
    (hbad : ∀ s w', r = (s, w') → (∀ rc, s ≠ .ok rc) → P (s, w'))
    (hok : ∀ rc w', r = (.ok rc, w') → P (k rc w')) : P (r.andThen k) := by
  obtain ⟨s, w'⟩ := r
  unfold Res.andThen
  cases s with
  | ok rc => exact hok rc w' rfl
  | steps => exact hbad _ _ rfl (by intro rc h; cases h)
  | ub => exact hbad _ _ rfl (by intro rc h; cases h)

theorem free_depth {w w' : World U} {id : Nat} (h : w.free id = some w') : w'.depth = w.depth := by
  obtain ⟨fi, _, _, ⟨_, rfl⟩ | ⟨_, rfl⟩⟩ := free_eq h
  · rfl
  · rw [(freeOrSteal_spec _ _).2.2.2.1]; rfl

theorem exec_steps (user : User U) (n : Nat) : ∀ (c : Call) (w : World U), Wf w →
    Good (QuietLeave user) w (exec user n c w) := by
  induction n with
  | zero => intro c w _; exact .bad (.refl w) (by intro rc h; cases h)
  | succ n ih =>
    intro c w hw
    have ub : ∀ {w' : World U}, Steps (QuietLeave user) w w' → Good (QuietLeave user) w (.ub, w') :=
      fun h => .bad h (by intro rc h; cases h)
    cases c with
    | user f =>
      simp only [exec]
      have hu : ∀ u, Steps (QuietLeave user) w { w with u := u } := fun u => .prim (.user w u w.rc)
      rcases hr : user w.u f w with ⟨u, rc | o⟩
      · exact ⟨hu u, fun _ _ => rfl⟩
      · have hg := ih (.op o) { w with u := u } hw
        refine Good.andThen (.pre (hu u) rfl hg) ?_
        intro rc w' _ hs hd
        refine .pre (.trans hs (.prim (.user w' w'.u rc))) hd ?_
        exact ih _ _ (steps_keeps hs hw).1
    | children id cause last =>
      simp only [exec]
      cases hi : w.insts id with
      | none => exact ub (.refl w)
      | some fi =>
        simp only []
        cases hc : fi.children with
        | nil => exact .ok 0
        | cons c l =>
          simp only []
          split
          · exact .ok 0
          · refine Good.andThen (ih _ _ hw) ?_
            intro rc w' _ hs hd
            exact .pre hs hd (ih _ _ (steps_keeps hs hw).1)
    | op o =>
      cases o with
      | alloc fsm => exact ⟨.prim (.alloc w fsm), fun _ _ => rfl⟩
      | free id =>
        simp only [exec]
        refine .cont fun w' h => ?_
        have hp : Prim (QuietLeave user) w w' := .free w id w' h
        refine ⟨.prim hp, fun _ _ => ?_⟩
        obtain ⟨fi, _, _, ⟨_, rfl⟩ | ⟨_, rfl⟩⟩ := free_eq h
        · rfl
        · show (World.freeOrSteal _ _).depth = _
          rw [(freeOrSteal_spec _ _).2.2.2.1]; rfl
      | unlinkParent id =>
        simp only [exec]
        refine .cont fun w' h => ⟨.prim (.unlinkParent w id w' h), fun _ _ => ?_⟩
        obtain ⟨fi, hi, ⟨_, rfl⟩ | ⟨p, _, hd⟩⟩ := unlinkParent_eq h
        · rfl
        · obtain ⟨_, _, _, rfl⟩ := delChild_eq hd
          rfl
      | changeParent id p e =>
        simp only [exec]
        refine .cont fun w' h => ⟨.prim (.changeParent w id p e w' h), fun _ _ => ?_⟩
        obtain ⟨w1, h1, h2 | ⟨p', fi, pi, _, hfi, hpi, rfl⟩⟩ := changeParent_eq h
        · rw [h2]
          obtain ⟨fi, hi, ⟨_, rfl⟩ | ⟨p, _, hd⟩⟩ := unlinkParent_eq h1
          · rfl
          · obtain ⟨_, _, _, rfl⟩ := delChild_eq hd
            rfl
        · obtain ⟨fi', hi, ⟨_, rfl⟩ | ⟨p, _, hd⟩⟩ := unlinkParent_eq h1
          · rfl
          · obtain ⟨_, _, _, rfl⟩ := delChild_eq hd
            rfl
      | termSafely on => exact ⟨.prim (.flags w on w.dealloc), fun _ _ => rfl⟩
      | setDealloc on => exact ⟨.prim (.flags w w.safely on), fun _ _ => rfl⟩
      | termChildren id cause => exact ih _ _ hw
      | timeout id =>
        simp only [exec]
        cases hi : w.insts id with
        | none => exact ub (.refl w)
        | some fi =>
          simp only []
          split
          · exact .ok 0
          · rename_i ht
            have h1 : Steps (QuietLeave user) w ((w.put id { fi with timer := none }).emit (.fired id)) :=
              .prim (.fire w id fi hi ht)
            split
            · have h2 := Steps.trans h1 (.prim (.neutral _ (.called (.timerCb id)) trivial))
              refine Good.andThen (.pre h2 rfl (ih _ _ (steps_keeps h2 hw).1)) ?_
              intro rc w' _ hs hd
              split
              · exact .pre hs hd (ih _ _ (steps_keeps hs hw).1)
              · exact ⟨hs, fun _ _ => hd⟩
            · exact .pre h1 rfl (ih _ _ (steps_keeps h1 hw).1)
      | dispatch id event =>
        simp only [exec]
        cases id with
        | none => exact .ok (-19)
        | some id =>
          simp only []
          cases hi : w.insts id with
          | none => exact ub (.refl w)
          | some fi =>
            simp only []
            split
            · exact .ok (-22)
            · rename_i ht
              have ht' : fi.terminating = false := by simpa using ht
              cases hs : fi.fsm.states[fi.state]? with
              | none => exact ub (.refl w)
              | some fs =>
                simp only []
                split
                · exact ub (.refl w)
                · rename_i he
                  split
                  · rename_i ha
                    have h1 : Steps (QuietLeave user) w (w.emit (.called (.allstate id event))) :=
                      .prim (.allstate w id fi event hi ht' ha.1 (by omega))
                    refine Good.andThen (.pre h1 rfl (ih _ _ (steps_keeps h1 hw).1)) ?_
                    intro rc w' _ hs' hd
                    exact ⟨hs', fun _ _ => hd⟩
                  · rename_i hna
                    split
                    · exact .ok (-1)
                    · rename_i hm
                      split
                      · have h1 : Steps (QuietLeave user) w (w.emit (.called (.action id fi.state event))) :=
                          .prim (.action w id fi fs event hi ht' hs (by simpa using hm) hna (by omega))
                        refine Good.andThen (.pre h1 rfl (ih _ _ (steps_keeps h1 hw).1)) ?_
                        intro rc w' _ hs' hd
                        exact ⟨hs', fun _ _ => hd⟩
                      · exact .ok 0
      | stateChg id new keep ms T =>
        simp only [exec]
        cases hi : w.insts id with
        | none => exact ub (.refl w)
        | some fi =>
          simp only []
          split
          · exact .ok (-22)
          · rename_i ht
            have ht' : fi.terminating = false := by simpa using ht
            cases hs : fi.fsm.states[fi.state]? with
            | none => exact ub (.refl w)
            | some st =>
              simp only []
              split
              · exact ub (.refl w)
              · rename_i hn
                split
                · exact .ok (-1)
                · rename_i hm
                  have hperm : permits fi.fsm fi.state new := ⟨st, hs, by simpa using hm, by omega⟩
                  have h1 : Steps (QuietLeave user) w
                      ((if keep = true then w else w.put id { fi with timer := none }).emit (.leaving id fi.state new keep)) :=
                    .prim (.leave w id fi new keep hi ht' hperm)
                  have hd1 : ((if keep = true then w else w.put id { fi with timer := none }).emit
                      (.leaving id fi.state new keep)).depth = w.depth := by cases keep <;> rfl
                  generalize hw1 : (if keep = true then w else w.put id { fi with timer := none }).emit
                    (.leaving id fi.state new keep) = w1 at *
                  have hi1 : w1.insts id = some (if keep = true then fi else { fi with timer := none }) := by
                    rw [← hw1]
                    cases keep <;> simp [World.put, World.emit, hi]
                  refine Good.andThen (?_ : Good (QuietLeave user) w (if st.hasOnleave = true then
                      exec user n (.user (.onleave id new)) w1 else (.ok 0, w1))) ?_
                  · split
                    · exact .pre h1 hd1 (ih _ _ (steps_keeps h1 hw).1)
                    · exact ⟨h1, fun _ _ => hd1⟩
                  · intro rc w2 hr hs2 hd2
                    have hq : QuietLeave user → w2.insts = w1.insts := by
                      intro hq
                      split at hr
                      · cases n with
                        | zero => simp [exec] at hr
                        | succ n =>
                          obtain ⟨u', rc', hu⟩ := hq w1.u id new w1
                          simp only [exec, hu] at hr
                          rw [← (Prod.mk.inj hr).2]
                      · rw [← (Prod.mk.inj hr).2]
                    split
                    · rename_i fi2 st2 hi2 hst2
                      have hk2 := (steps_keeps hs2 hw).2
                      obtain ⟨fi0, hf1, hf2, _⟩ := hk2.2 id fi2 (hw id (by rw [hi]; simp)) hi2
                      have hfsm : fi2.fsm = fi.fsm := by
                        rw [hi] at hf1
                        rw [hf2, ← Option.some.inj hf1]
                      have h3 : Steps (QuietLeave user) w ((w2.put id (enter fi2 new keep ms T)).emit
                          (.changed id fi.state fi2.state new keep ms T)) := by
                        refine .trans hs2 (.prim (.change w2 id fi2 fi.state new keep ms T hi2
                          (by rw [hfsm]; exact hperm) ?_ ?_))
                        · rw [hfsm]
                          exact (List.getElem?_eq_some_iff.mp hst2).1
                        · intro hql
                          have := hq hql
                          rw [this, hi1] at hi2
                          have := Option.some.inj hi2
                          rw [← this]
                          cases keep <;> simp [ht']
                      refine Good.andThen (?_ : Good (QuietLeave user) w (if st2.hasOnenter = true then
                          exec user n (.user (.onenter id fi.state)) ((w2.put id (enter fi2 new keep ms T)).emit
                          (.changed id fi.state fi2.state new keep ms T)) else (.ok 0, (w2.put id (enter fi2 new keep ms T)).emit
                          (.changed id fi.state fi2.state new keep ms T)))) ?_
                      · split
                        · exact .pre h3 hd2 (ih _ _ (steps_keeps h3 hw).1)
                        · exact ⟨h3, fun _ _ => hd2⟩
                      · intro rc w' _ hs' hd'
                        exact ⟨hs', fun _ _ => hd'⟩
                    · exact ub hs2
      | term id cause =>
        simp only [exec]
        cases hi : w.insts id with
        | none => exact ub (.refl w)
        | some fi =>
          simp only []
          split
          · exact .ok 0
          · rename_i ht
            have ht' : fi.terminating = false := by simpa using ht
            have hmk : Steps (QuietLeave user) w (w.mark id fi cause) := .prim (.mark w id fi cause hi ht')
            have hmd := (mark_eq w id fi cause).2.2.2.2
            have hmw := (steps_keeps hmk hw).1
            generalize hm : w.mark id fi cause = w1 at *
            -- pre_term
            have g1 : Good (QuietLeave user) w1 (if fi.fsm.hasPreTerm = true then
                exec user n (.user (.preTerm id cause)) (w1.emit (.called (.preTerm id cause))) else (.ok 0, w1)) := by
              split
              · have h2 : Steps (QuietLeave user) w1 (w1.emit (.called (.preTerm id cause))) :=
                  .prim (.neutral _ _ trivial)
                exact .pre h2 rfl (ih _ _ (steps_keeps h2 hmw).1)
              · exact .ok 0
            refine andThen_elim (fun s w' hr hs => .bad (.trans hmk (by have := g1.1; rwa [hr] at this)) hs) ?_
            intro rc2 w2 hr2
            rw [hr2] at g1
            have hs2 : Steps (QuietLeave user) w1 w2 := g1.1
            have hd2 : w2.depth = w1.depth := g1.2 rc2 rfl
            have g2 := ih (.children id .parent none) w2 (steps_keeps hs2 hmw).1
            refine andThen_elim (fun s w' hr hs => .bad (.trans hmk (.trans hs2 (by have := g2.1; rwa [hr] at this))) hs) ?_
            intro rc3 w3 hr3
            rw [hr3] at g2
            have hs3 : Steps (QuietLeave user) w1 w3 := .trans hs2 g2.1
            have hd3 : w3.depth = w1.depth := (g2.2 rc3 rfl).trans hd2
            cases hi3 : w3.insts id with
            | none => exact ub (.trans hmk hs3)
            | some fi3 =>
              simp only []
              unfold Fsm.cont
              split
              case h_2 => exact ub (.trans hmk hs3)
              rename_i w4 h4
              have h4' : Steps (QuietLeave user) w1 w4 ∧ w4.depth = w1.depth := by
                cases hp3 : fi3.parent with
                | none => rw [hp3] at h4; rw [← Option.some.inj h4]; exact ⟨hs3, hd3⟩
                | some p =>
                  rw [hp3] at h4
                  simp only [Option.elim] at h4
                  cases hdc : w3.delChild id p with
                  | none => rw [hdc] at h4; cases h4
                  | some w4' =>
                    rw [hdc] at h4
                    simp only [Option.map_some, Option.some.injEq] at h4
                    rw [← h4]
                    refine ⟨.trans hs3 (.trans (.prim (.delChild w3 id p w4' hdc)) (.prim (.neutral _ _ trivial))), ?_⟩
                    obtain ⟨_, _, _, rfl⟩ := delChild_eq hdc
                    exact hd3
              obtain ⟨hs4, hd4⟩ := h4'
              have g5 : Steps (QuietLeave user) w (if fi.fsm.hasCleanup = true then
                  exec user n (.user (.cleanup id cause)) (w4.emit (.called (.cleanup id cause))) else (.ok 0, w4)).2 ∧
                  ∀ rc w5, (if fi.fsm.hasCleanup = true then
                  exec user n (.user (.cleanup id cause)) (w4.emit (.called (.cleanup id cause))) else (.ok 0, w4)) =
                    (.ok rc, w5) → w5.depth = w1.depth := by
                split
                · have hw4 : Wf (w4.emit (.called (.cleanup id cause))) :=
                    (keeps_congr (w2 := w4.emit _) (steps_keeps hs4 hmw).1 (steps_keeps hs4 hmw).2 rfl rfl).1
                  have hg := ih (.user (.cleanup id cause)) _ hw4
                  refine ⟨.cleanup hi ht' (by rw [hm]; exact hs4) hg.1, ?_⟩
                  intro rc w5 h5
                  have := hg.2 rc (by rw [h5])
                  rw [h5] at this
                  exact this.trans hd4
                · refine ⟨.trans hmk hs4, ?_⟩
                  intro rc w5 h5
                  rw [← (Prod.mk.inj h5).2]
                  exact hd4
              refine andThen_elim (fun s w' hr hs => .bad (by have := g5.1; rwa [hr] at this) hs) ?_
              intro rc5 w5 hr5
              have hs5 : Steps (QuietLeave user) w w5 := by have := g5.1; rwa [hr5] at this
              have hd5 := g5.2 rc5 w5 hr5
              cases hi5 : w5.insts id with
              | none => exact ub hs5
              | some fi5 =>
                simp only []
                split
                case h_2 => exact ub hs5
                rename_i w6 h6
                have h6' : Steps (QuietLeave user) w w6 ∧ w6.depth = w1.depth := by
                  split at h6
                  · exact ⟨.trans hs5 (.prim (.free w5 id w6 h6)), (free_depth h6).trans hd5⟩
                  · rw [← Option.some.inj h6]; exact ⟨hs5, hd5⟩
                obtain ⟨hs6, hd6⟩ := h6'
                have hw6 := (steps_keeps hs6 hw).1
                have g7 : Good (QuietLeave user) w6 (fi5.parent.elim (.ok 0, w6) fun p =>
                    if cause ≠ .parent then
                      exec user n (.op (.dispatch (some p) fi.parentTermEvent))
                        (w6.emit (.notified id p fi.parentTermEvent))
                    else (.ok 0, w6)) := by
                  cases fi5.parent with
                  | none => exact .ok 0
                  | some p =>
                    simp only [Option.elim_some]
                    split
                    · have h7 : Steps (QuietLeave user) w6 (w6.emit (.notified id p fi.parentTermEvent)) :=
                        .prim (.neutral _ _ trivial)
                      exact .pre h7 rfl (ih _ _ (steps_keeps h7 hw6).1)
                    · exact .ok 0
                refine andThen_elim (fun s w' hr hs => .bad (.trans hs6 (by have := g7.1; rwa [hr] at this)) hs) ?_
                intro rc7 w7 hr7
                rw [hr7] at g7
                have hs7 : Steps (QuietLeave user) w w7 := .trans hs6 g7.1
                have hd7 : w7.depth = w1.depth := (g7.2 rc7 rfl).trans hd6
                split
                case h_2 => exact ub hs7
                rename_i w8 h8
                split at h8
                · rename_i hne
                  have hd8 : w7.depth = w.depth + 1 := by
                    rcases hmd with ⟨a, b⟩ | a
                    · exact absurd (hd7.trans (a.trans b)) hne
                    · exact hd7.trans a
                  have hs8 := Steps.undepth hs7 hd8
                  rw [show w.depth = w7.depth - 1 by omega] at hs8
                  refine ⟨.trans hs8 (.prim (.free _ id w8 h8)), fun _ _ => ?_⟩
                  rw [show (w8.depth = w7.depth - 1) from free_depth h8]
                  omega
                · rename_i hz
                  rw [← Option.some.inj h8]
                  refine ⟨hs7, fun _ _ => ?_⟩
                  have hz' : w7.depth = 0 := by simpa using hz
                  rcases hmd with ⟨a, b⟩ | a
                  · show w7.depth = w.depth
                    omega
                  · omega

end Verif.Fsm
