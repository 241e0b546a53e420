import Verif.Fsm.Once
import Verif.Fsm.Tree2
/-!
C39, C40, C41: theorems about executions, counterexamples, examples.
-/
namespace Verif.Fsm
open Verif

variable {U : Type}

/-! ### C39 -/

/-- C39, the state changes: at every point of every execution in which
`onleave` callbacks make no calls, each change of state is one permitted by the
state the instance was in, of an instance that was allocated, not freed and not
terminating.  Missing: `onleave` callbacks that make calls, where it is false
(`reentrant_change_counterexample`). -/
theorem changes_permitted_partial (user : User U) (hq : QuietLeave user) (n : Nat) (u : U) (pre post : List Ev)
    (id checked old new : Nat) (keep : Bool) (ms : Nat) (T : Int)
    (h : (run user n u).2.log = pre ++ .changed id checked old new keep ms T :: post) :
    ∃ fsm, .allocated id fsm ∈ pre ∧ .freed id ∉ pre ∧ ¬ Terminated pre id ∧ old = lastState pre id ∧
      permits fsm old new ∧ new < fsm.states.length := by
  obtain ⟨fsm, h1, h2, h3, h4, h5, h6⟩ := (run_inv user n u).log _ _ _ h
  obtain ⟨h7, h8, _⟩ := h6 hq
  exact ⟨fsm, h1, h2, h8, h5, h7 ▸ h3, h4⟩

/-- C39: whatever the callbacks do, a change of state is only ever accepted if
the state the instance is in permits it, and the instance is not terminating. -/
theorem accepted_permitted (user : User U) (n : Nat) (u : U) (pre post : List Ev) (id old new : Nat) (keep : Bool)
    (h : (run user n u).2.log = pre ++ .leaving id old new keep :: post) :
    ∃ fsm, .allocated id fsm ∈ pre ∧ .freed id ∉ pre ∧ ¬ Terminated pre id ∧ old = lastState pre id ∧
      permits fsm old new :=
  (run_inv user n u).log _ _ _ h

/-- C39: whatever the callbacks do, the state of an instance is the one of the
last change. -/
theorem state_is_last (user : User U) (n : Nat) (u : U) (id : Nat) (fi : Inst)
    (h : (run user n u).2.insts id = some fi) : fi.state = lastState (run user n u).2.log id :=
  ((run_inv user n u).inst id fi h).state

/-- C39: whatever the callbacks do, the action of a state is only called in this
state, for an event in its mask, for an instance that is not terminating. -/
theorem actions_permitted (user : User U) (n : Nat) (u : U) (pre post : List Ev) (id s event : Nat)
    (h : (run user n u).2.log = pre ++ .called (.action id s event) :: post) :
    ∃ fsm fs, .allocated id fsm ∈ pre ∧ .freed id ∉ pre ∧ ¬ Terminated pre id ∧ s = lastState pre id ∧
      fsm.states[s]? = some fs ∧ fs.inMask.getLsbD event = true := by
  obtain ⟨fsm, fs, h1, h2, h3, h4, h5, h6, _⟩ := (run_inv user n u).log _ _ _ h
  exact ⟨fsm, fs, h1, h2, h3, h4, h5, h6⟩

/-- C39: the same for the action of all states. -/
theorem allstate_permitted (user : User U) (n : Nat) (u : U) (pre post : List Ev) (id event : Nat)
    (h : (run user n u).2.log = pre ++ .called (.allstate id event) :: post) :
    ∃ fsm, .allocated id fsm ∈ pre ∧ .freed id ∉ pre ∧ ¬ Terminated pre id ∧ fsm.allMask.getLsbD event = true := by
  obtain ⟨fsm, h1, h2, h3, h4, _⟩ := (run_inv user n u).log _ _ _ h
  exact ⟨fsm, h1, h2, h3, h4⟩

/-- C39: whatever the callbacks do, terminating begins once, and no memory is
given back twice or without release. -/
theorem ends_once (user : User U) (n : Nat) (u : U) (pre post : List Ev) (id : Nat) :
    (∀ c, (run user n u).2.log = pre ++ .terminating id c :: post → ¬ Terminated pre id ∧ .freed id ∉ pre) ∧
    ((run user n u).2.log = pre ++ .freed id :: post → .freed id ∉ pre ∧ .released id ∈ pre) := by
  refine ⟨?_, ?_⟩
  · intro c h
    obtain ⟨_, h2, h3⟩ := (run_inv user n u).log _ _ _ h
    exact ⟨h3, h2⟩
  · intro h
    exact (run_inv user n u).log _ _ _ h

/-! ### C40 -/

/-- A change of state is the latest of `id`, and nothing happened to its timer
since. -/
def Still (post : List Ev) (id : Nat) : Prop := ∀ e ∈ post, e.subject = some id →
  match e with
  | .terminating _ _ | .freed _ => True
  | _ => False

theorem timerOf_still (L post : List Ev) (id : Nat) (h : Still post id) : timerOf (L ++ post) id = timerOf L id := by
  induction post using List.reverseRecOn with
  | nil => simp
  | append_singleton l e ih =>
    rw [← List.append_assoc, timerOf_snoc, ih fun e' he' => h e' (List.mem_append_left _ he')]
    have he := h e (by simp)
    cases e with
    | leaving i old new keep =>
      simp only [timerStep]
      rw [if_neg (by rintro ⟨rfl, _⟩; exact he rfl)]
    | changed i a b c d e f =>
      simp only [timerStep]
      rw [if_neg (by rintro ⟨rfl, _⟩; exact he rfl)]
    | fired i =>
      simp only [timerStep]
      rw [if_neg (by rintro rfl; exact he rfl)]
    | released i =>
      simp only [timerStep]
      rw [if_neg (by rintro rfl; exact he rfl)]
    | _ => rfl

/-- C40, changes that set the timer: if `onleave` callbacks make no calls, then
after the latest change, one without keeping the timer, the timer is pending
iff a timeout was requested, with that timeout, and has that number.  Missing:
`onleave` callbacks that make calls (`stale_timer_counterexample`). -/
theorem timer_set_partial (user : User U) (hq : QuietLeave user) (n : Nat) (u : U) (pre post : List Ev)
    (id checked old new ms : Nat) (T : Int) (fi : Inst)
    (h : (run user n u).2.log = pre ++ .changed id checked old new false ms T :: post) (hs : Still post id)
    (hi : (run user n u).2.insts id = some fi) :
    fi.timer = (if ms ≠ 0 then some (sched ms) else none) ∧ fi.T = T := by
  have hI := run_inv user n u
  obtain ⟨fsm, h1, h2, h3, h4, h5, h6⟩ := hI.log _ _ _ h
  have h7 := (h6 hq).2.2 rfl
  have hk := hI.inst id fi hi
  have ht := hk.timer
  have hn := hk.num
  rw [h, show pre ++ Ev.changed id checked old new false ms T :: post =
    (pre ++ [Ev.changed id checked old new false ms T]) ++ post by simp, timerOf_still _ _ _ hs, timerOf_snoc] at ht hn
  simp only [timerStep, true_and, true_or, if_true, h7] at ht hn
  exact ⟨ht, hn⟩

/-- C40, changes that keep the timer: whatever the callbacks do, after the
latest change, one that keeps the timer, a timer that was pending just before is
pending as it was, and otherwise it is pending iff a timeout was requested. -/
theorem timer_kept (user : User U) (n : Nat) (u : U) (pre post : List Ev)
    (id checked old new ms : Nat) (T : Int) (fi : Inst)
    (h : (run user n u).2.log = pre ++ .changed id checked old new true ms T :: post) (hs : Still post id)
    (hi : (run user n u).2.insts id = some fi) :
    (fi.timer, fi.T) = if (timerOf pre id).1 = none then (if ms ≠ 0 then some (sched ms) else none, T)
      else timerOf pre id := by
  have hI := run_inv user n u
  have hk := hI.inst id fi hi
  have ht := hk.timer
  have hn := hk.num
  rw [h, show pre ++ Ev.changed id checked old new true ms T :: post =
    (pre ++ [Ev.changed id checked old new true ms T]) ++ post by simp, timerOf_still _ _ _ hs, timerOf_snoc] at ht hn
  simp only [timerStep, true_and, Bool.true_eq_false, false_or] at ht hn
  rw [ht, hn]
  split
  · rename_i h0
    rw [h0]
  · rfl

/-- C40: if `onleave` callbacks make no calls (the missing part is false, see
`stale_timer_counterexample`), a pending timer was set by a change of state
which requested it and gave it its number, and since then it has not expired,
the instance was not released, and no change without keeping the timer was
accepted. -/
theorem timer_origin_partial (user : User U) (n : Nat) (u : U) (id : Nat) (fi : Inst) (v : Int × Nat)
    (hi : (run user n u).2.insts id = some fi) (hv : fi.timer = some v) (hq : QuietLeave user) :
    ∃ pre post checked old new keep ms T,
      (run user n u).2.log = pre ++ .changed id checked old new keep ms T :: post ∧ ms ≠ 0 ∧ v = sched ms ∧
      fi.T = T ∧ .fired id ∉ post ∧ .released id ∉ post ∧ (∀ a b, .leaving id a b false ∉ post) ∧
      (∀ a b c d e, .changed id a b c false d e ∉ post) := by
  have hI := run_inv user n u
  have hk := hI.inst id fi hi
  rw [hk.timer] at hv
  rw [hk.num]
  have hlog := hI.log
  generalize (run user n u).2.log = L at hv hlog
  clear hk hi hI
  induction L using List.reverseRecOn with
  | nil => simp [timerOf] at hv
  | append_singleton L e ih =>
    have hL : LogOk (QuietLeave user) L := by
      intro pre e' post h
      exact hlog pre e' (post ++ [e]) (by rw [h]; simp)
    have he : EvAt (QuietLeave user) L e := hlog L e [] rfl
    rw [timerOf_snoc] at hv ⊢
    have keepOn : timerStep id (timerOf L id) e = timerOf L id → (timerOf L id).1 = some v →
        e ≠ .fired id → e ≠ .released id → (∀ a b, e ≠ .leaving id a b false) →
        (∀ a b c d x, e ≠ .changed id a b c false d x) →
        ∃ pre post checked old new keep ms T, L ++ [e] = pre ++ .changed id checked old new keep ms T :: post ∧
          ms ≠ 0 ∧ v = sched ms ∧ (timerStep id (timerOf L id) e).2 = T ∧ .fired id ∉ post ∧ .released id ∉ post ∧
          (∀ a b, .leaving id a b false ∉ post) ∧ (∀ a b c d e, .changed id a b c false d e ∉ post) := by
      intro h1 h2 h3 h4 h5 h6
      obtain ⟨pre, post, checked, old, new, keep, ms, T, g1, g2, g3, g4, g5, g6, g7, g8⟩ := ih h2 hL
      refine ⟨pre, post ++ [e], checked, old, new, keep, ms, T, by rw [g1]; simp, g2, g3, by rw [h1]; exact g4, ?_, ?_, ?_, ?_⟩
      · simp only [List.mem_append, List.mem_singleton, not_or]; exact ⟨g5, Ne.symm h3⟩
      · simp only [List.mem_append, List.mem_singleton, not_or]; exact ⟨g6, Ne.symm h4⟩
      · intro a b; simp only [List.mem_append, List.mem_singleton, not_or]; exact ⟨g7 a b, Ne.symm (h5 a b)⟩
      · intro a b c d x
        simp only [List.mem_append, List.mem_singleton, not_or]
        exact ⟨g8 a b c d x, Ne.symm (h6 a b c d x)⟩
    cases e with
    | leaving i old new keep =>
      by_cases hx : i = id ∧ keep = false
      · simp only [timerStep] at hv
        rw [if_pos hx] at hv
        cases hv
      · have hst : timerStep id (timerOf L id) (.leaving i old new keep) = timerOf L id := by
          simp only [timerStep]; rw [if_neg hx]
        rw [hst] at hv
        exact keepOn hst hv (by simp) (by simp) (by intro a b h; cases h; exact hx ⟨rfl, rfl⟩) (by simp)
    | changed i chk old new keep ms T =>
      by_cases hx : i = id ∧ (keep = false ∨ (timerOf L id).1 = none)
      · obtain ⟨rfl, hx2⟩ := hx
        obtain ⟨fsm, _, _, _, _, _, h6⟩ := he
        have hnone : (timerOf L i).1 = none := by
          rcases hx2 with h | h
          · exact (h6 hq).2.2 h
          · exact h
        have hst : timerStep i (timerOf L i) (.changed i chk old new keep ms T) =
            (if ms ≠ 0 then some (sched ms) else none, T) := by
          simp only [timerStep]; rw [if_pos ⟨trivial, hx2⟩, hnone]
        rw [hst] at hv ⊢
        simp only at hv
        by_cases hms : ms ≠ 0
        · rw [if_pos hms] at hv
          exact ⟨L, [], chk, old, new, keep, ms, T, rfl, hms, (Option.some.inj hv).symm, rfl, by simp, by simp, by simp, by simp⟩
        · rw [if_neg hms] at hv
          cases hv
      · have hst : timerStep id (timerOf L id) (.changed i chk old new keep ms T) = timerOf L id := by
          simp only [timerStep]; rw [if_neg hx]
        rw [hst] at hv
        exact keepOn hst hv (by simp) (by simp) (by simp)
          (by intro a b c d x h; cases h; exact hx ⟨rfl, Or.inl rfl⟩)
    | fired i =>
      by_cases hx : i = id
      · simp only [timerStep] at hv
        rw [if_pos hx] at hv
        cases hv
      · have hst : timerStep id (timerOf L id) (.fired i) = timerOf L id := by
          simp only [timerStep]; rw [if_neg hx]
        rw [hst] at hv
        exact keepOn hst hv (by intro h; cases h; exact hx rfl) (by simp) (by simp) (by simp)
    | released i =>
      by_cases hx : i = id
      · simp only [timerStep] at hv
        rw [if_pos hx] at hv
        cases hv
      · have hst : timerStep id (timerOf L id) (.released i) = timerOf L id := by
          simp only [timerStep]; rw [if_neg hx]
        rw [hst] at hv
        exact keepOn hst hv (by simp) (by intro h; cases h; exact hx rfl) (by simp) (by simp)
    | allocated i f => exact keepOn rfl hv (by simp) (by simp) (by simp) (by simp)
    | called f => exact keepOn rfl hv (by simp) (by simp) (by simp) (by simp)
    | terminating i c => exact keepOn rfl hv (by simp) (by simp) (by simp) (by simp)
    | unlinked i p => exact keepOn rfl hv (by simp) (by simp) (by simp) (by simp)
    | notified i p e => exact keepOn rfl hv (by simp) (by simp) (by simp) (by simp)
    | freed i => exact keepOn rfl hv (by simp) (by simp) (by simp) (by simp)

/-- C40: a timeout below 2^31 seconds is what the timer is set to. -/
theorem sched_value (ms : Nat) (h : ms < 2147483648 * 1000) :
    (sched ms).1 * 1000000 + (sched ms).2 = (ms : Int) * 1000 ∧ (sched ms).2 < 1000000 := by
  unfold sched
  have h1 : (BitVec.ofNat 32 (ms / 1000)).toInt = ((ms / 1000 : Nat) : Int) := by
    rw [BitVec.toInt_eq_toNat_of_lt]
    · rw [BitVec.toNat_ofNat, Nat.mod_eq_of_lt (by omega)]
    · rw [BitVec.toNat_ofNat, Nat.mod_eq_of_lt (by omega)]; omega
  dsimp only
  rw [h1]
  omega

/-- Longer ones are not, although the documentation of
`osmo_fsm_inst_state_chg` promises a maximum of 2147483647 seconds
(src/core/fsm.c:702-735): the timer expires at once. -/
theorem sched_counterexample : sched (2147483648 * 1000) = (-2147483648, 0) := by decide

/-! ### Programs for the examples -/

/-- Calls for the main program, and calls for callbacks, in order. -/
abbrev Script := List Op × List (Frame × Op)

/-- Plays a script. -/
def play : User Script := fun u f _ =>
  match f with
  | .main => match u.1 with
    | [] => (u, .inl 0)
    | o :: r => ((r, u.2), .inr o)
  | f => match u.2 with
    | [] => (u, .inl 0)
    | (g, o) :: r => if g = f then ((u.1, r), .inr o) else (u, .inl 0)

/-- A program without calls in callbacks. -/
def plain : User (List Op) := fun u f _ =>
  match f with
  | .main => match u with
    | [] => (u, .inl 0)
    | o :: r => (r, .inr o)
  | _ => (u, .inl 0)

theorem plain_quiet : QuietLeave plain := fun u _ _ _ => ⟨u, 0, rfl⟩

theorem plain_term : QuietTerm plain := by
  intro u f w h
  cases f <;> first | exact h.elim | exact ⟨u, 0, rfl⟩

def exState (inMask outMask : BitVec 32) : FsmState :=
  { inMask := inMask, outMask := outMask, hasAction := true, hasOnenter := true, hasOnleave := true }

/-- State 0 leads to 1 and 2, state 1 to 2, state 2 nowhere. -/
def exFsm : Fsm :=
  { states := [exState 1 6, exState 2 4, exState 0 0], allMask := 0x80, hasAllstate := true, hasCleanup := true,
    hasTimerCb := false, hasPreTerm := true }

/-- C39 is false for `onleave` callbacks that change the state: the change that
was under way takes place nevertheless, from a state that does not permit it. -/
theorem reentrant_change_counterexample :
    (run play 20 ([.alloc exFsm, .stateChg 0 1 false 0 0], [(.onleave 0 1, .stateChg 0 2 false 0 0)])).2.log =
      [.allocated 0 exFsm, .leaving 0 0 1 false, .leaving 0 0 2 false, .changed 0 0 0 2 false 0 0,
       .changed 0 0 2 1 false 0 0] ∧ ¬ permits exFsm 2 1 := by
  refine ⟨by decide +kernel, ?_⟩
  rintro ⟨st, h1, h2, _⟩
  have : st = exState 0 0 := by simpa [exFsm] using h1.symm
  rw [this] at h2
  revert h2
  decide

/-- C39 is false for `onleave` callbacks that terminate the instance (here with
the memory kept alive by `osmo_fsm_set_dealloc_ctx`): its state still changes. -/
theorem leave_terminate_counterexample :
    (run play 20 ([.alloc exFsm, .setDealloc true, .stateChg 0 1 false 5000 7], [(.onleave 0 1, .term 0 .regular)])).2.log =
      [.allocated 0 exFsm, .leaving 0 0 1 false, .terminating 0 .regular, .called (.preTerm 0 .regular),
       .called (.cleanup 0 .regular), .released 0, .changed 0 0 0 1 false 5000 7] := by
  decide +kernel

/-- Without that, it is undefined. -/
theorem leave_terminate_ub :
    (run play 20 ([.alloc exFsm, .stateChg 0 1 false 5000 7], [(.onleave 0 1, .term 0 .regular)])).1 = .ub := by
  decide +kernel

/-- C40 is false for `onleave` callbacks that change the state: the timer of
the inner change stays, although the latest change requested none. -/
theorem stale_timer_counterexample :
    ((run play 20 ([.alloc exFsm, .stateChg 0 1 false 0 9], [(.onleave 0 1, .stateChg 0 2 false 5000 7)])).2.insts 0).map
      (fun fi => (fi.state, fi.timer, fi.T)) = some (1, some (5, 0), 9) := by
  decide +kernel

/-- C41 is false for callbacks that make calls: `pre_term` of the first child
terminates the parent.  The loop over the children of the parent finds this
child first, twice, takes it for stuck and ends; the second child is not
terminated, and its parent is gone. -/
theorem stuck_child_counterexample :
    let w := (run play 60 ([.alloc exFsm, .alloc exFsm, .alloc exFsm, .changeParent 1 (some 0) 7,
      .changeParent 2 (some 0) 7, .termSafely true, .term 2 .regular], [(.preTerm 2 .regular, .term 0 .regular)])).2
    w.insts 0 = none ∧ (w.insts 1).map (fun fi => (fi.parent, fi.terminating)) = some (some 0, false) ∧
      w.insts 2 = none := by
  decide +kernel

/-- Without safe termination, this is undefined. -/
theorem stuck_child_ub :
    (run play 60 ([.alloc exFsm, .alloc exFsm, .alloc exFsm, .changeParent 1 (some 0) 7,
      .changeParent 2 (some 0) 7, .term 2 .regular], [(.preTerm 2 .regular, .term 0 .regular)])).1 = .ub := by
  decide +kernel

/-! ### Examples -/

/-- Changes, events and timers of one instance. -/
example :
    let w := (run plain 40 [.alloc exFsm, .dispatch (some 0) 0, .dispatch (some 0) 1, .stateChg 0 1 false 1500 3,
      .dispatch (some 0) 1, .stateChg 0 0 false 0 0, .stateChg 0 2 true 9000 4, .dispatch (some 0) 7]).2
    w.log = [.allocated 0 exFsm, .called (.action 0 0 0), .leaving 0 0 1 false, .changed 0 0 0 1 false 1500 3,
      .called (.action 0 1 1), .leaving 0 1 2 true, .changed 0 1 1 2 true 9000 4, .called (.allstate 0 7)] ∧
    (w.insts 0).map (fun fi => (fi.state, fi.timer, fi.T)) = some (2, some (1, 500000), 3) := by
  decide +kernel

/-- The theorems about changes and timers apply to it. -/
example : ∃ fi, (run plain 40 [.alloc exFsm, .stateChg 0 1 false 1500 3]).2.insts 0 = some fi ∧
    fi.timer = some (1, 500000) ∧ fi.T = 3 := by
  obtain ⟨fi, hfi⟩ : ∃ fi, (run plain 40 [.alloc exFsm, .stateChg 0 1 false 1500 3]).2.insts 0 = some fi :=
    ⟨_, by rfl⟩
  refine ⟨fi, hfi, ?_⟩
  have := timer_set_partial plain plain_quiet 40 [.alloc exFsm, .stateChg 0 1 false 1500 3]
    [.allocated 0 exFsm, .leaving 0 0 1 false] [] 0 0 0 1 1500 3 fi (by decide +kernel) (by intro e h; cases h) hfi
  exact this

/-- A timeout ends an instance. -/
example :
    (run plain 40 [.alloc exFsm, .stateChg 0 1 false 1500 3, .timeout 0]).2.log =
      [.allocated 0 exFsm, .leaving 0 0 1 false, .changed 0 0 0 1 false 1500 3, .fired 0, .terminating 0 .timeout,
       .called (.preTerm 0 .timeout), .called (.cleanup 0 .timeout), .released 0, .freed 0] := by
  decide +kernel

/-- 0 has the child 1, which has the children 2 and 3. -/
def exTree : List Op :=
  [.alloc exFsm, .alloc exFsm, .alloc exFsm, .alloc exFsm, .changeParent 1 (some 0) 7, .changeParent 3 (some 1) 7,
   .changeParent 2 (some 1) 7]

/-- Terminating 1. -/
example :
    (run plain 60 (exTree ++ [.term 1 .regular])).2.log.drop 4 =
      [.terminating 1 .regular, .called (.preTerm 1 .regular),
       .terminating 2 .parent, .called (.preTerm 2 .parent), .unlinked 2 1, .called (.cleanup 2 .parent), .released 2,
         .freed 2,
       .terminating 3 .parent, .called (.preTerm 3 .parent), .unlinked 3 1, .called (.cleanup 3 .parent), .released 3,
         .freed 3,
       .unlinked 1 0, .called (.cleanup 1 .regular), .released 1, .freed 1, .notified 1 0 7,
       .called (.allstate 0 7)] := by
  decide +kernel

/-- The hypotheses of the theorem about trees can be met. -/
example : ∃ w', exec plain 40 (.op (.term 1 .regular)) (run plain 60 exTree).2 = (.ok 0, w') ∧ w'.insts 3 = none := by
  obtain ⟨fi, hfi, hx⟩ : ∃ fi, (run plain 60 exTree).2.insts 1 = some fi ∧
      (fi.terminating = false ∧ fi.linked = true ∧ fi.children = [2, 3] ∧ fi.parent = some 0 ∧
        fi.parentTermEvent = 7) := ⟨_, by rfl, by decide +kernel⟩
  obtain ⟨w', h1, h2, _⟩ := term_tree_partial (user := plain) plain_term (kids := .cons 2 .nil (.cons 3 .nil .nil))
    (n := 40) (w := (run plain 60 exTree).2) (id := 1) (fi := fi) (cause := .regular) (by decide) hfi hx.1 hx.2.1 hx.2.2.1
    (by
      refine ⟨⟨_, by rfl, ?_⟩, trivial, ⟨_, by rfl, ?_⟩, trivial, trivial⟩
      · decide +kernel
      · decide +kernel) (by decide) (by decide +kernel)
    (by
      intro p hp
      rw [hx.2.2.2.1] at hp
      cases hp
      refine ⟨by decide, by rw [hx.2.2.2.2]; decide, _, by rfl, ?_⟩
      decide +kernel)
  refine ⟨w', h1, (h2.gone 3 (by decide)).1 ?_⟩
  decide +kernel

end Verif.Fsm
