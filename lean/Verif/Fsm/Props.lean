import Verif.Fsm.Steps
import Mathlib.Data.List.Induction
/-!
What every execution does (C39, C40, and the part of C41 that holds whatever
the callbacks do).
-/
namespace Verif.Fsm
open Verif

variable {U : Type}

/-! ### Reading the log -/

/-- The state an instance is in after the changes recorded. -/
def lastState (L : List Ev) (id : Nat) : Nat :=
  L.foldl (fun s e => match e with
    | .changed i _ _ new _ _ _ => if i = id then new else s
    | _ => s) 0

/-- What an event does to the timer of `id` and its number. -/
def timerStep (id : Nat) (t : Option (Int × Nat) × Int) : Ev → Option (Int × Nat) × Int
  | .leaving i _ _ keep => if i = id ∧ keep = false then (none, t.2) else t
  | .changed i _ _ _ keep ms T =>
    if i = id ∧ (keep = false ∨ t.1 = none) then (if ms ≠ 0 then some (sched ms) else t.1, T) else t
  | .fired i => if i = id then (none, t.2) else t
  | .released i => if i = id then (none, t.2) else t
  | _ => t

/-- Timer and number after the events recorded. -/
def timerOf (L : List Ev) (id : Nat) : Option (Int × Nat) × Int := L.foldl (timerStep id) (none, 0)

/-- The termination of `id` has begun. -/
def Terminated (L : List Ev) (id : Nat) : Prop := ∃ c, Ev.terminating id c ∈ L

/-- The instance an event changes. -/
def Ev.subject : Ev → Option Nat
  | .allocated id _ => some id
  | .leaving id _ _ _ => some id
  | .changed id _ _ _ _ _ _ => some id
  | .terminating id _ => some id
  | .fired id => some id
  | .released id => some id
  | .freed id => some id
  | _ => none

/-- What holds when an event happens, after the events `pre`. -/
def EvAt (q : Prop) (pre : List Ev) : Ev → Prop
  | .allocated id _ => ∀ e ∈ pre, e.subject ≠ some id
  | .leaving id old new _ => ∃ fsm, .allocated id fsm ∈ pre ∧ .freed id ∉ pre ∧ ¬ Terminated pre id ∧
      old = lastState pre id ∧ permits fsm old new
  | .changed id checked old new keep _ _ => ∃ fsm, .allocated id fsm ∈ pre ∧ .freed id ∉ pre ∧
      permits fsm checked new ∧ new < fsm.states.length ∧ old = lastState pre id ∧
      (q → checked = old ∧ ¬ Terminated pre id ∧ (keep = false → (timerOf pre id).1 = none))
  | .called (.action id s event) => ∃ fsm fs, .allocated id fsm ∈ pre ∧ .freed id ∉ pre ∧ ¬ Terminated pre id ∧
      s = lastState pre id ∧ fsm.states[s]? = some fs ∧ fs.inMask.getLsbD event = true ∧ event < 32 ∧
      ¬ (fsm.allMask.getLsbD event = true ∧ fsm.hasAllstate = true)
  | .called (.allstate id event) => ∃ fsm, .allocated id fsm ∈ pre ∧ .freed id ∉ pre ∧ ¬ Terminated pre id ∧
      fsm.allMask.getLsbD event = true ∧ event < 32
  | .terminating id _ => (∃ fsm, .allocated id fsm ∈ pre) ∧ .freed id ∉ pre ∧ ¬ Terminated pre id
  | .fired id => .freed id ∉ pre ∧ (timerOf pre id).1 ≠ none
  | .released id => .freed id ∉ pre ∧ .released id ∉ pre
  | .freed id => .freed id ∉ pre ∧ .released id ∈ pre
  | _ => True

/-- Every event of a log is as it should be. -/
def LogOk (q : Prop) (L : List Ev) : Prop := ∀ pre e post, L = pre ++ e :: post → EvAt q pre e

theorem logOk_nil (q : Prop) : LogOk q [] := by
  intro pre e post h
  simp at h

theorem logOk_snoc {q : Prop} {L : List Ev} {e : Ev} (h : LogOk q L) (he : EvAt q L e) : LogOk q (L ++ [e]) := by
  intro pre e' post heq
  rcases List.append_eq_append_iff.mp heq with ⟨a, h1, h2⟩ | ⟨a, h1, h2⟩
  · cases a with
    | nil =>
      simp only [List.append_nil] at h1
      simp only [List.nil_append, List.cons.injEq] at h2
      rw [h1, ← h2.1]
      exact he
    | cons x xs =>
      simp at h2
  · cases a with
    | nil =>
      simp only [List.append_nil] at h1
      simp only [List.nil_append, List.cons.injEq] at h2
      rw [← h1, h2.1]
      exact he
    | cons x xs =>
      simp only [List.cons_append, List.cons.injEq] at h2
      rw [h2.1]
      exact h pre x xs h1

/-! ### The invariant -/

/-- An instance is as the log says. -/
structure InstOk (L : List Ev) (id : Nat) (fi : Inst) : Prop where
  alloc : .allocated id fi.fsm ∈ L
  state : fi.state = lastState L id
  term : fi.terminating = true ↔ Terminated L id
  timer : fi.timer = (timerOf L id).1
  num : fi.T = (timerOf L id).2
  live : .freed id ∉ L
  linked : fi.linked = true ↔ .released id ∉ L

structure Inv (q : Prop) (w : World U) : Prop where
  wf : Wf w
  fresh : ∀ id, w.next ≤ id → ∀ e ∈ w.log, e.subject ≠ some id
  inst : ∀ id fi, w.insts id = some fi → InstOk w.log id fi
  log : LogOk q w.log
  nodup : w.collected.Nodup
  coll : ∀ id ∈ w.collected, .released id ∈ w.log ∧ w.insts id ≠ none

theorem lastState_snoc (L : List Ev) (e : Ev) (id : Nat) :
    lastState (L ++ [e]) id = match e with
      | .changed i _ _ new _ _ _ => if i = id then new else lastState L id
      | _ => lastState L id := by
  simp only [lastState, List.foldl_append, List.foldl_cons, List.foldl_nil]

theorem timerOf_snoc (L : List Ev) (e : Ev) (id : Nat) : timerOf (L ++ [e]) id = timerStep id (timerOf L id) e := by
  simp only [timerOf, List.foldl_append, List.foldl_cons, List.foldl_nil]

theorem terminated_snoc (L : List Ev) (e : Ev) (id : Nat) :
    Terminated (L ++ [e]) id ↔ Terminated L id ∨ ∃ c, e = .terminating id c := by
  simp only [Terminated, List.mem_append, List.mem_singleton]
  constructor
  · rintro ⟨c, h | h⟩
    · exact Or.inl ⟨c, h⟩
    · exact Or.inr ⟨c, h.symm⟩
  · rintro (⟨c, h⟩ | ⟨c, h⟩)
    · exact ⟨c, Or.inl h⟩
    · exact ⟨c, Or.inr h.symm⟩

/-- Events of other instances do not matter. -/
theorem InstOk.other {L : List Ev} {id : Nat} {fi : Inst} {e : Ev} (h : InstOk L id fi)
    (he : e.subject ≠ some id) : InstOk (L ++ [e]) id fi := by
  have hst : lastState (L ++ [e]) id = lastState L id := by
    rw [lastState_snoc]
    cases e <;> simp only [Ev.subject, ne_eq, Option.some.injEq] at he ⊢
    rw [if_neg he]
  have htm : timerOf (L ++ [e]) id = timerOf L id := by
    rw [timerOf_snoc]
    cases e <;> simp only [Ev.subject, ne_eq, Option.some.injEq] at he <;> simp only [timerStep]
    · rw [if_neg (fun h => he h.1)]
    · rw [if_neg (fun h => he h.1)]
    · rw [if_neg he]
    · rw [if_neg he]
  refine ⟨List.mem_append_left _ h.alloc, by rw [hst]; exact h.state, ?_, by rw [htm]; exact h.timer,
    by rw [htm]; exact h.num, ?_, ?_⟩
  · rw [terminated_snoc, h.term]
    constructor
    · exact Or.inl
    · rintro (h' | ⟨c, rfl⟩)
      · exact h'
      · simp [Ev.subject] at he
  · intro hm
    rcases List.mem_append.mp hm with hm | hm
    · exact h.live hm
    · rw [List.mem_singleton] at hm
      subst hm
      simp [Ev.subject] at he
  · rw [h.linked]
    constructor
    · intro hn hm
      rcases List.mem_append.mp hm with hm | hm
      · exact hn hm
      · rw [List.mem_singleton] at hm
        subst hm
        simp [Ev.subject] at he
    · intro hn hm
      exact hn (List.mem_append_left _ hm)

theorem Inv.congr {q : Prop} {w w' : World U} (h : Inv q w) (h1 : w'.insts = w.insts) (h2 : w'.next = w.next)
    (h3 : w'.log = w.log) (h4 : w'.collected = w.collected) : Inv q w' := by
  refine ⟨?_, ?_, ?_, ?_, ?_, ?_⟩
  · intro i hi; rw [h1] at hi; rw [h2]; exact h.wf i hi
  · rw [h2, h3]; exact h.fresh
  · rw [h1, h3]; exact h.inst
  · rw [h3]; exact h.log
  · rw [h4]; exact h.nodup
  · rw [h4, h3, h1]; exact h.coll

/-- An event without subject. -/
theorem Inv.emit {q : Prop} {w : World U} (h : Inv q w) {e : Ev} (he : e.subject = none) (hat : EvAt q w.log e) :
    Inv q (w.emit e) where
  wf := h.wf
  fresh := by
    intro id hid e' he'
    rcases List.mem_append.mp he' with h' | h'
    · exact h.fresh id hid e' h'
    · rw [List.mem_singleton.mp h', he]; simp
  inst := fun id fi hi => (h.inst id fi hi).other (by rw [he]; simp)
  log := logOk_snoc h.log hat
  nodup := h.nodup
  coll := fun id hid => ⟨List.mem_append_left _ (h.coll id hid).1, (h.coll id hid).2⟩

/-- An event of an instance, and the instance after it. -/
theorem Inv.putEmit {q : Prop} {w : World U} (h : Inv q w) {id : Nat} {fi fi' : Inst} {e : Ev}
    (hi : w.insts id = some fi) (he : e.subject = some id) (hat : EvAt q w.log e)
    (hok : InstOk (w.log ++ [e]) id fi') : Inv q ((w.put id fi').emit e) where
  wf := by
    intro i hne
    simp only [World.put, World.emit] at hne ⊢
    split at hne
    · rename_i hx; rw [hx]; exact h.wf id (by rw [hi]; simp)
    · exact h.wf i hne
  fresh := by
    intro i hid e' he'
    rcases List.mem_append.mp he' with h' | h'
    · exact h.fresh i hid e' h'
    · rw [List.mem_singleton.mp h', he]
      have : id < w.next := h.wf id (by rw [hi]; simp)
      have hid' : w.next ≤ i := hid
      intro hx
      have := Option.some.inj hx
      omega
  inst := by
    intro i fj hj
    simp only [World.put, World.emit] at hj ⊢
    split at hj
    · rename_i hx
      rw [hx, ← Option.some.inj hj]
      exact hok
    · rename_i hx
      exact (h.inst i fj hj).other (by rw [he]; intro h'; exact hx (Option.some.inj h').symm)
  log := logOk_snoc h.log hat
  nodup := h.nodup
  coll := by
    intro i hid
    refine ⟨List.mem_append_left _ (h.coll i hid).1, ?_⟩
    simp only [World.put, World.emit]
    split
    · simp
    · exact (h.coll i hid).2

/-- A change of an instance the log does not speak about. -/
theorem Inv.put {q : Prop} {w : World U} (h : Inv q w) {id : Nat} {fi fi' : Inst}
    (hi : w.insts id = some fi) (hok : InstOk w.log id fi → InstOk w.log id fi') : Inv q (w.put id fi') where
  wf := by
    intro i hne
    simp only [World.put] at hne ⊢
    split at hne
    · rename_i hx; rw [hx]; exact h.wf id (by rw [hi]; simp)
    · exact h.wf i hne
  fresh := h.fresh
  inst := by
    intro i fj hj
    simp only [World.put] at hj ⊢
    split at hj
    · rename_i hx
      rw [hx, ← Option.some.inj hj]
      exact hok (h.inst id fi hi)
    · exact h.inst i fj hj
  log := h.log
  nodup := h.nodup
  coll := by
    intro i hid
    refine ⟨(h.coll i hid).1, ?_⟩
    simp only [World.put]
    split
    · simp
    · exact (h.coll i hid).2

theorem Inv.delChild {q : Prop} {w w' : World U} (h : Inv q w) {id p : Nat} (hd : w.delChild id p = some w') :
    Inv q w' := by
  obtain ⟨pi, h1, _, rfl⟩ := delChild_eq hd
  exact h.put h1 fun k => ⟨k.alloc, k.state, k.term, k.timer, k.num, k.live, k.linked⟩

theorem Inv.unlinkParent {q : Prop} {w w' : World U} (h : Inv q w) {id : Nat} (hd : w.unlinkParent id = some w') :
    Inv q w' := by
  obtain ⟨fi, hi, ⟨_, rfl⟩ | ⟨p, _, hd⟩⟩ := unlinkParent_eq hd
  · exact h
  · exact (h.put (fi' := { fi with parent := none, parentTermEvent := 0 }) hi
      fun k => ⟨k.alloc, k.state, k.term, k.timer, k.num, k.live, k.linked⟩).delChild hd

/-- Giving back memory. -/
theorem Inv.freeList {q : Prop} (ids : List Nat) : ∀ {w : World U}, Inv q w → ids.Nodup →
    (∀ id ∈ ids, .released id ∈ w.log ∧ w.insts id ≠ none ∧ id ∉ w.collected) → Inv q (w.freeOrSteal ids) := by
  induction ids with
  | nil => intro w h _ _; exact h
  | cons a l ih =>
    intro w h hn hr
    simp only [World.freeOrSteal]
    split
    · exact ih h (List.nodup_cons.mp hn).2 fun id hid => hr id (List.mem_cons_of_mem _ hid)
    · obtain ⟨r1, r2, r3⟩ := hr a List.mem_cons_self
      obtain ⟨fa, hfa⟩ := Option.ne_none_iff_exists'.mp r2
      have hla := (h.inst a fa hfa).live
      refine ih ?_ (List.nodup_cons.mp hn).2 ?_
      · refine ⟨?_, ?_, ?_, ?_, h.nodup, ?_⟩
        · intro i hne
          simp only [World.emit] at hne ⊢
          split at hne
          · exact absurd rfl hne
          · exact h.wf i hne
        · intro i hid e' he'
          rcases List.mem_append.mp he' with h' | h'
          · exact h.fresh i hid e' h'
          · rw [List.mem_singleton.mp h']
            have h1 : a < w.next := h.wf a r2
            have h2 : w.next ≤ i := hid
            intro hx
            have := Option.some.inj hx
            omega
        · intro i fj hj
          simp only [World.emit] at hj ⊢
          split at hj
          · cases hj
          · rename_i hx
            exact (h.inst i fj hj).other (by intro h'; exact hx (Option.some.inj h').symm)
        · exact logOk_snoc h.log ⟨hla, r1⟩
        · intro i hid
          refine ⟨List.mem_append_left _ (h.coll i hid).1, ?_⟩
          simp only [World.emit]
          rw [if_neg (by intro hx; rw [hx] at hid; exact r3 hid)]
          exact (h.coll i hid).2
      · intro i hid
        obtain ⟨s1, s2, s3⟩ := hr i (List.mem_cons_of_mem _ hid)
        refine ⟨List.mem_append_left _ s1, ?_, s3⟩
        simp only [World.emit]
        rw [if_neg (by intro hx; rw [hx] at hid; exact (List.nodup_cons.mp hn).1 hid)]
        exact s2

theorem Inv.free {q : Prop} {w w' : World U} (h : Inv q w) {id : Nat} (hf : w.free id = some w') : Inv q w' := by
  obtain ⟨fi, hi, hl, hx⟩ := free_eq hf
  have hk := h.inst id fi hi
  have hnr := hk.linked.mp hl
  have hnc : id ∉ w.collected := fun hc => hnr (h.coll id hc).1
  have h1 : Inv q ((w.put id { fi with timer := none, linked := false }).emit (.released id)) := by
    refine h.putEmit hi rfl ⟨hk.live, hnr⟩ ?_
    refine ⟨List.mem_append_left _ hk.alloc, ?_, ?_, ?_, ?_, ?_, ?_⟩
    · rw [lastState_snoc]; exact hk.state
    · rw [terminated_snoc]
      simp only [reduceCtorEq, exists_false, or_false]
      exact hk.term
    · rw [timerOf_snoc]; simp [timerStep]
    · rw [timerOf_snoc]; simp only [timerStep, if_true]; exact hk.num
    · simp only [List.mem_append, List.mem_singleton, reduceCtorEq, or_false]
      exact hk.live
    · simp
  rcases hx with ⟨_, rfl⟩ | ⟨_, rfl⟩
  · refine ⟨h1.wf, h1.fresh, h1.inst, h1.log, List.nodup_cons.mpr ⟨hnc, h.nodup⟩, ?_⟩
    intro i hid
    rcases List.mem_cons.mp hid with rfl | hid
    · exact ⟨by simp [World.emit, World.put], by simp [World.emit, World.put]⟩
    · exact h1.coll i hid
  · refine Inv.freeList _ ⟨h1.wf, h1.fresh, h1.inst, h1.log, List.nodup_nil, fun i hid => absurd hid (by simp)⟩
      (List.nodup_cons.mpr ⟨hnc, h.nodup⟩) ?_
    intro i hid
    rcases List.mem_cons.mp hid with rfl | hid
    · exact ⟨by simp [World.emit, World.put], by simp [World.emit, World.put], by simp⟩
    · exact ⟨(h1.coll i hid).1, (h1.coll i hid).2, by simp⟩

theorem enter_fields (fi : Inst) (new : Nat) (keep : Bool) (ms : Nat) (T : Int) :
    (enter fi new keep ms T).fsm = fi.fsm ∧ (enter fi new keep ms T).state = new ∧
    (enter fi new keep ms T).terminating = fi.terminating ∧ (enter fi new keep ms T).linked = fi.linked ∧
    ((enter fi new keep ms T).timer, (enter fi new keep ms T).T) =
      (if keep = false ∨ fi.timer = none then (if ms ≠ 0 then some (sched ms) else fi.timer, T)
       else (fi.timer, fi.T)) := by
  unfold enter
  by_cases h : keep = false ∨ fi.timer = none
  · rw [if_pos (by simpa using h), if_pos h]
    exact ⟨rfl, rfl, rfl, rfl, rfl⟩
  · rw [if_neg (by simpa using h), if_neg h]
    exact ⟨rfl, rfl, rfl, rfl, rfl⟩

theorem prim_inv {q : Prop} {w w' : World U} (h : Prim q w w') (hI : Inv q w) : Inv q w' := by
  cases h with
  | user => exact hI.congr rfl rfl rfl rfl
  | flags => exact hI.congr rfl rfl rfl rfl
  | alloc fsm =>
    have hnew : ∀ e ∈ w.log, e.subject ≠ some w.next := hI.fresh w.next (Nat.le_refl _)
    have hnone : w.insts w.next = none := by
      by_contra hne
      have := hI.wf _ hne
      omega
    refine ⟨?_, ?_, ?_, logOk_snoc hI.log hnew, hI.nodup, ?_⟩
    · intro i hne
      simp only [World.put, World.emit] at hne ⊢
      split at hne
      · omega
      · have := hI.wf i hne; omega
    · intro i hid e he
      simp only [World.put, World.emit] at hid he
      rcases List.mem_append.mp he with h' | h'
      · exact hI.fresh i (by omega) e h'
      · rw [List.mem_singleton.mp h']
        intro hx
        have := Option.some.inj hx
        omega
    · intro i fj hj
      simp only [World.put, World.emit] at hj ⊢
      split at hj
      · rename_i hx
        rw [hx, ← Option.some.inj hj]
        have hz : lastState w.log w.next = 0 ∧ timerOf w.log w.next = (none, 0) := by
          have key : ∀ L : List Ev, (∀ e ∈ L, e.subject ≠ some w.next) →
              lastState L w.next = 0 ∧ timerOf L w.next = (none, 0) := by
            intro L
            induction L using List.reverseRecOn with
            | nil => intro _; exact ⟨rfl, rfl⟩
            | append_singleton L e ih =>
              intro hL
              obtain ⟨h1, h2⟩ := ih fun e' he' => hL e' (List.mem_append_left _ he')
              have he := hL e (by simp)
              rw [lastState_snoc, timerOf_snoc, h1, h2]
              cases e <;> simp only [Ev.subject, ne_eq, Option.some.injEq] at he <;> simp [timerStep, he]
          exact key _ hnew
        refine ⟨by simp [newInst], ?_, ?_, ?_, ?_, ?_, ?_⟩
        · rw [lastState_snoc]; exact hz.1.symm
        · rw [terminated_snoc]
          simp only [newInst, Bool.false_eq_true, reduceCtorEq, exists_false, or_false, false_iff]
          rintro ⟨c, hc⟩
          exact hnew _ hc rfl
        · rw [timerOf_snoc]; simp only [timerStep, hz.2, newInst]
        · rw [timerOf_snoc]; simp only [timerStep, hz.2, newInst]
        · simp only [List.mem_append, List.mem_singleton, reduceCtorEq, or_false]
          intro hc
          exact hnew _ hc rfl
        · simp only [newInst, List.mem_append, List.mem_singleton, reduceCtorEq, or_false, true_iff]
          intro hc
          exact hnew _ hc rfl
      · rename_i hx
        exact (hI.inst i fj hj).other (by intro h'; exact hx (Option.some.inj h').symm)
    · intro i hid
      refine ⟨List.mem_append_left _ (hI.coll i hid).1, ?_⟩
      simp only [World.put, World.emit]
      split
      · simp
      · exact (hI.coll i hid).2
  | leave id fi new keep hi ht hp =>
    have hk := hI.inst id fi hi
    have hnt : ¬ Terminated w.log id := by rw [← hk.term, ht]; simp
    have hat : EvAt q w.log (.leaving id fi.state new keep) :=
      ⟨fi.fsm, hk.alloc, hk.live, hnt, hk.state, hp⟩
    have hput : w.put id fi = w := by
      unfold World.put
      congr 1
      funext i
      split
      · rename_i hx; rw [hx, hi]
      · rfl
    have hgen : ∀ fi' : Inst, fi'.fsm = fi.fsm → fi'.state = fi.state → fi'.terminating = fi.terminating →
        fi'.linked = fi.linked → fi'.T = fi.T → fi'.timer = (if keep = false then none else fi.timer) →
        InstOk (w.log ++ [.leaving id fi.state new keep]) id fi' := by
      intro fi' e1 e2 e3 e4 e5 e6
      refine ⟨by rw [e1]; exact List.mem_append_left _ hk.alloc, ?_, ?_, ?_, ?_, ?_, ?_⟩
      · rw [lastState_snoc, e2]; exact hk.state
      · rw [terminated_snoc, e3]
        simp only [reduceCtorEq, exists_false, or_false]
        exact hk.term
      · rw [timerOf_snoc, e6, hk.timer]
        cases keep <;> simp [timerStep]
      · rw [timerOf_snoc, e5, hk.num]
        cases keep <;> simp [timerStep]
      · simp only [List.mem_append, List.mem_singleton, reduceCtorEq, or_false]
        exact hk.live
      · simp only [List.mem_append, List.mem_singleton, reduceCtorEq, or_false, e4]
        exact hk.linked
    cases keep
    · simp only [Bool.false_eq_true, if_false]
      exact hI.putEmit hi rfl hat (hgen _ rfl rfl rfl rfl rfl rfl)
    · simp only [if_true]
      have := hI.putEmit (fi' := fi) hi rfl hat (hgen _ rfl rfl rfl rfl rfl rfl)
      rwa [hput] at this
  | change id fi chk new keep ms T hi hp hn hq =>
    have hk := hI.inst id fi hi
    obtain ⟨e1, e2, e3, e4, e5⟩ := enter_fields fi new keep ms T
    refine hI.putEmit hi rfl ⟨fi.fsm, hk.alloc, hk.live, hp, hn, hk.state, ?_⟩ ?_
    · intro hq'
      obtain ⟨a, b, c⟩ := hq hq'
      refine ⟨a, by rw [← hk.term, b]; simp, ?_⟩
      rw [← hk.timer]
      exact c
    · have htm : timerOf (w.log ++ [.changed id chk fi.state new keep ms T]) id =
          ((enter fi new keep ms T).timer, (enter fi new keep ms T).T) := by
        rw [timerOf_snoc, e5]
        simp only [timerStep, true_and]
        rw [← hk.timer]
        split
        · rfl
        · rw [hk.timer, hk.num]
      refine ⟨by rw [e1]; exact List.mem_append_left _ hk.alloc, ?_, ?_, ?_, ?_, ?_, ?_⟩
      · rw [lastState_snoc, e2]; simp
      · rw [terminated_snoc, e3]
        simp only [reduceCtorEq, exists_false, or_false]
        exact hk.term
      · rw [htm]
      · rw [htm]
      · simp only [List.mem_append, List.mem_singleton, reduceCtorEq, or_false]
        exact hk.live
      · simp only [List.mem_append, List.mem_singleton, reduceCtorEq, or_false, e4]
        exact hk.linked
  | neutral e h =>
    cases e with
    | called f => cases f <;> first | exact h.elim | exact hI.emit rfl trivial
    | unlinked => exact hI.emit rfl trivial
    | notified => exact hI.emit rfl trivial
    | _ => exact h.elim
  | action id fi fs event hi ht hs hm hna he =>
    have hk := hI.inst id fi hi
    exact hI.emit rfl ⟨fi.fsm, fs, hk.alloc, hk.live, by rw [← hk.term, ht]; simp, hk.state, hs, hm, he, hna⟩
  | allstate id fi event hi ht hm he =>
    have hk := hI.inst id fi hi
    exact hI.emit rfl ⟨fi.fsm, hk.alloc, hk.live, by rw [← hk.term, ht]; simp, hm, he⟩
  | mark id fi cause hi ht =>
    have hk := hI.inst id fi hi
    obtain ⟨m1, m2, m3, m4, _⟩ := mark_eq w id fi cause
    refine Inv.congr (w := (w.put id { fi with terminating := true }).emit (.terminating id cause)) ?_ m1 m2 m3 m4
    refine hI.putEmit hi rfl ⟨⟨fi.fsm, hk.alloc⟩, hk.live, by rw [← hk.term, ht]; simp⟩ ?_
    refine ⟨List.mem_append_left _ hk.alloc, ?_, ?_, ?_, ?_, ?_, ?_⟩
    · rw [lastState_snoc]; exact hk.state
    · rw [terminated_snoc]
      simp
    · rw [timerOf_snoc]; exact hk.timer
    · rw [timerOf_snoc]; exact hk.num
    · simp only [List.mem_append, List.mem_singleton, reduceCtorEq, or_false]
      exact hk.live
    · simp only [List.mem_append, List.mem_singleton, reduceCtorEq, or_false]
      exact hk.linked
  | delChild id p w' h => exact hI.delChild h
  | free id w' h => exact hI.free h
  | unlinkParent id w' h => exact hI.unlinkParent h
  | changeParent id p e w' h =>
    obtain ⟨w1, h1, h2 | ⟨p', fi, pi, _, hfi, hpi, rfl⟩⟩ := changeParent_eq h
    · rw [h2]; exact hI.unlinkParent h1
    · exact ((hI.unlinkParent h1).put (fi' := { fi with parent := some p', parentTermEvent := e }) hfi
        fun k => ⟨k.alloc, k.state, k.term, k.timer, k.num, k.live, k.linked⟩).put hpi
        fun k => ⟨k.alloc, k.state, k.term, k.timer, k.num, k.live, k.linked⟩
  | fire id fi hi ht =>
    have hk := hI.inst id fi hi
    refine hI.putEmit hi rfl ⟨hk.live, by rw [← hk.timer]; exact ht⟩ ?_
    refine ⟨List.mem_append_left _ hk.alloc, ?_, ?_, ?_, ?_, ?_, ?_⟩
    · rw [lastState_snoc]; exact hk.state
    · rw [terminated_snoc]
      simp only [reduceCtorEq, exists_false, or_false]
      exact hk.term
    · rw [timerOf_snoc]; simp [timerStep]
    · rw [timerOf_snoc]; simp only [timerStep, if_true]; exact hk.num
    · simp only [List.mem_append, List.mem_singleton, reduceCtorEq, or_false]
      exact hk.live
    · simp only [List.mem_append, List.mem_singleton, reduceCtorEq, or_false]
      exact hk.linked

theorem steps_inv {q : Prop} {w w' : World U} (h : Steps q w w') : Inv q w → Inv q w' := by
  induction h with
  | refl w => exact fun h => h
  | prim h => exact prim_inv h
  | trans _ _ ih ih' => exact fun h => ih' (ih h)
  | cleanup hi ht _ _ ih ih' =>
    intro h
    have h1 := ih (prim_inv (.mark _ _ _ _ hi ht) h)
    exact ih' (h1.emit rfl trivial)
  | undepth _ _ ih => intro h; exact (ih h).congr rfl rfl rfl rfl

theorem init_inv (q : Prop) (u : U) : Inv q (World.init u) where
  wf := fun id h => absurd rfl h
  fresh := fun id _ e he => absurd he (by simp [World.init])
  inst := fun id fi h => by simp [World.init] at h
  log := logOk_nil q
  nodup := List.nodup_nil
  coll := fun id h => absurd h (by simp [World.init])

theorem run_inv (user : User U) (n : Nat) (u : U) : Inv (QuietLeave user) (run user n u).2 :=
  steps_inv (exec_steps user n (.user .main) (World.init u) (init_inv True u).wf).1 (init_inv _ u)

end Verif.Fsm
