import Verif.BssgpFc.Model
import Mathlib.Tactic.Linarith
/-!
# C115: the queue of BSSGP flow control
-/
namespace Verif.BssgpFc

/-- the messages given in, in order -/
def given : List Op → List Pdu
  | [] => []
  | .pdu p :: os => p :: given os
  | _ :: os => given os

/-- the messages that got a verdict when given in, in order -/
def judged : List Ev → List Pdu
  | [] => []
  | .direct p :: es | .queued p :: es | .tooBig p :: es | .full p :: es => p :: judged es
  | _ :: es => judged es

/-- the messages that entered the queue -/
def entered : List Ev → List Pdu
  | [] => []
  | .queued p :: es => p :: entered es
  | _ :: es => entered es

/-- the messages that left the queue, sent or flushed -/
def left : List Ev → List Pdu
  | [] => []
  | .unqueued p :: es | .flushed p :: es => p :: left es
  | _ :: es => left es

/-- no flush among the steps -/
def NoFlush (ops : List Op) : Prop := Op.flush ∉ ops

theorem judged_append : ∀ a b : List Ev, judged (a ++ b) = judged a ++ judged b
  | [], _ => rfl
  | e :: a, b => by cases e <;> simp [judged, judged_append a b]

theorem entered_append : ∀ a b : List Ev, entered (a ++ b) = entered a ++ entered b
  | [], _ => rfl
  | e :: a, b => by cases e <;> simp [entered, entered_append a b]

theorem left_append : ∀ a b : List Ev, left (a ++ b) = left a ++ left b
  | [], _ => rfl
  | e :: a, b => by cases e <;> simp [left, left_append a b]

theorem flushed_all : ∀ q : List Pdu, judged (q.map .flushed) = [] ∧ entered (q.map .flushed) = [] ∧ left (q.map .flushed) = q
  | [] => ⟨rfl, rfl, rfl⟩
  | p :: q => by
    obtain ⟨h1, h2, h3⟩ := flushed_all q
    exact ⟨h1, h2, by simp [left, h3]⟩

theorem timerCfg_queue (fc : Fc) : (timerCfg fc).queue = fc.queue ∧ (timerCfg fc).depth = fc.depth ∧ (timerCfg fc).maxDepth = fc.maxDepth := by
  unfold timerCfg
  split
  · exact ⟨rfl, rfl, rfl⟩
  · split <;> exact ⟨rfl, rfl, rfl⟩

theorem needs_queue (fc : Fc) (n : Nat) : (needsQueueing fc n).2.queue = fc.queue ∧ (needsQueueing fc n).2.depth = fc.depth ∧
    (needsQueueing fc n).2.maxDepth = fc.maxDepth := by
  unfold needsQueueing
  simp only
  split
  · exact ⟨rfl, rfl, rfl⟩
  · split <;> exact ⟨rfl, rfl, rfl⟩

/-- the count of the queue, when the timer has been stopped or not -/
def Within (fc : Fc) : Prop := fc.queue.length ≤ fc.depth ∧ fc.depth ≤ fc.maxDepth

theorem step_queue {fc fc' : Fc} {o : Op} {ev : List Ev} (h : step fc o = some (fc', ev)) :
    judged ev = given [o] ∧ fc.queue ++ entered ev = left ev ++ fc'.queue ∧ fc'.maxDepth = fc.maxDepth ∧ (Within fc → Within fc') ∧
    (o ≠ .flush → fc.depth = fc.queue.length → fc'.depth = fc'.queue.length) := by
  cases o with
  | pdu p =>
    obtain ⟨rfl, rfl⟩ := Prod.ext_iff.1 (Option.some.inj h)
    unfold fcIn
    split
    · exact ⟨rfl, by simp [entered, left], rfl, id, fun _ => id⟩
    · have hn := needs_queue fc p.len
      generalize needsQueueing fc p.len = n at hn
      obtain ⟨b, fc1⟩ := n
      obtain ⟨h1, h2, h3⟩ := hn
      simp only at h1 h2 h3
      cases b with
      | false => exact ⟨rfl, by simp [entered, left, h1], h3, fun h => by simpa [Within, h1, h2, h3] using h, fun _ h => by simpa [h1, h2] using h⟩
      | true =>
        simp only [enqueue]
        split
        · exact ⟨rfl, by simp [entered, left, h1], h3, fun h => by simpa [Within, h1, h2, h3] using h, fun _ h => by simpa [h1, h2] using h⟩
        · rename_i hd
          obtain ⟨q1, q2, q3⟩ := timerCfg_queue { fc1 with queue := fc1.queue ++ [p], depth := fc1.depth + 1 }
          simp only at q1 q2 q3
          refine ⟨rfl, by rw [q1, h1]; rfl, by rw [q3, h3], fun h => ?_, fun _ h => ?_⟩
          · unfold Within at h ⊢
            rw [q1, q2, q3]
            simp only [List.length_append, List.length_singleton]
            rw [h1] ; omega
          · rw [q1, q2]
            simp only [List.length_append, List.length_singleton]
            rw [h1]; omega
  | expire =>
    simp only [step] at h
    split at h
    · split at h
      · obtain ⟨rfl, rfl⟩ := Prod.ext_iff.1 (Option.some.inj h)
        unfold timerCb
        split
        · rename_i hq
          simp only at hq
          exact ⟨rfl, by simp [entered, left, hq], rfl, id, fun _ => id⟩
        · rename_i p q hq
          simp only at hq
          have hn := needs_queue { fc with timer := none } p.len
          generalize needsQueueing { fc with timer := none } p.len = n at hn
          obtain ⟨b, fc1⟩ := n
          obtain ⟨h1, h2, h3⟩ := hn
          simp only at h1 h2 h3
          cases b with
          | true =>
            obtain ⟨q1, q2, q3⟩ := timerCfg_queue fc1
            exact ⟨rfl, by simp [entered, left, q1, h1], by rw [q3, h3], fun h => by simpa [Within, q1, q2, q3, h1, h2, h3] using h, fun _ h => by simpa [q1, q2, h1, h2] using h⟩
          | false =>
            obtain ⟨q1, q2, q3⟩ := timerCfg_queue { fc1 with queue := q, depth := fc1.depth - 1, last := fc1.now }
            simp only at q1 q2 q3
            refine ⟨rfl, by simp [entered, left, q1, hq], by rw [q3, h3], fun h => ?_, fun _ h => ?_⟩
            · unfold Within at h ⊢
              simp only at h ⊢
              rw [q1, q2, q3, h2, h3]
              rw [hq, List.length_cons] at h
              omega
            · simp only at h ⊢
              rw [q1, q2, h2]
              rw [hq, List.length_cons] at h
              omega
      · cases h
    · cases h
  | params s r =>
    cases h
    obtain ⟨q1, q2, q3⟩ := timerCfg_queue { fc with max := 100 * s, rate := 100 * r / 8 }
    exact ⟨rfl, by simp [entered, left, params, q1], q3, fun h => by simpa [Within, params, q1, q2, q3] using h, fun _ h => by simpa [params, q1, q2] using h⟩
  | flush =>
    cases h
    obtain ⟨f1, f2, f3⟩ := flushed_all fc.queue
    exact ⟨f1, by simp [f2, f3], rfl, fun h => ⟨Nat.zero_le _, h.2⟩, fun h => absurd rfl h⟩
  | tick dt =>
    cases h
    exact ⟨rfl, by simp [entered, left], rfl, id, fun _ => id⟩

theorem given_cons (o : Op) (os : List Op) : given (o :: os) = given [o] ++ given os := by cases o <;> rfl

theorem run_queue : ∀ (ops : List Op) {fc fc' : Fc} {evs : List Ev}, run fc ops = some (fc', evs) →
    judged evs = given ops ∧ fc.queue ++ entered evs = left evs ++ fc'.queue ∧ fc'.maxDepth = fc.maxDepth ∧ (Within fc → Within fc') ∧
    (NoFlush ops → fc.depth = fc.queue.length → fc'.depth = fc'.queue.length)
  | [], fc, fc', evs, h => by
    cases h
    exact ⟨rfl, by simp [entered, left], rfl, id, fun _ => id⟩
  | o :: os, fc, fc', evs, h => by
    unfold run at h
    cases hs : step fc o with
    | none => rw [hs] at h; cases h
    | some r =>
      obtain ⟨fc1, ev⟩ := r
      rw [hs] at h
      simp only [Option.map_eq_some_iff] at h
      obtain ⟨⟨fc2, evs'⟩, h1, h2⟩ := h
      cases h2
      obtain ⟨a1, a2, a3, a4, a5⟩ := step_queue hs
      obtain ⟨b1, b2, b3, b4, b5⟩ := run_queue os h1
      refine ⟨?_, ?_, by rw [b3, a3], b4 ∘ a4, fun hn hd => ?_⟩
      · rw [judged_append, given_cons, a1, b1]
      · rw [entered_append, left_append, ← List.append_assoc, a2, List.append_assoc, b2, List.append_assoc]
      · refine b5 (fun hm => hn (List.mem_cons_of_mem _ hm)) (a5 ?_ hd)
        rintro rfl
        exact hn List.mem_cons_self

/-- **Nothing is lost, nothing doubled, and the queue is first in, first out**: every message given in gets one verdict, in the order given; of those
queued the first ones have left the queue (sent, or flushed) in the order they came, the others still wait; and no more wait than allowed. -/
theorem bssgp_fc_queue {max rate depth now : Nat} {ops : List Op} {fc : Fc} {evs : List Ev} (h : run (init max rate depth now) ops = some (fc, evs)) :
    judged evs = given ops ∧ entered evs = left evs ++ fc.queue ∧ fc.queue.length ≤ depth := by
  obtain ⟨h1, h2, h3, h4, -⟩ := run_queue ops h
  refine ⟨h1, by simpa [init] using h2, ?_⟩
  obtain ⟨w1, w2⟩ := h4 ⟨Nat.le_refl _, Nat.zero_le _⟩
  rw [h3] at w2
  exact Nat.le_trans w1 w2

/-- **When a message is refused**: for its size exactly if it does not fit the bucket; for the queue only if as many wait as allowed (unless the queue
was flushed before: `bssgp_fc_flush_counterexample`) -/
theorem bssgp_fc_refused {max rate depth now : Nat} {ops : List Op} {fc : Fc} {evs : List Ev} (h : run (init max rate depth now) ops = some (fc, evs))
    (p : Pdu) : (.tooBig p ∈ (fcIn fc p).2 ↔ fc.max < p.len) ∧ (NoFlush ops → .full p ∈ (fcIn fc p).2 → fc.queue.length = depth) := by
  obtain ⟨-, -, h3, h4, h5⟩ := run_queue ops h
  constructor
  · unfold fcIn
    split
    · simp; omega
    · rename_i hm
      refine ⟨fun hx => ?_, fun hx => absurd hx hm⟩
      split at hx
      · unfold enqueue at hx
        split at hx <;> simp at hx
      · simp at hx
  · intro hn hx
    have hd := h5 hn rfl
    unfold fcIn at hx
    split at hx
    · simp at hx
    · have hq := needs_queue fc p.len
      generalize needsQueueing fc p.len = n at hq hx
      obtain ⟨b, fc1⟩ := n
      obtain ⟨q1, q2, q3⟩ := hq
      simp only at q1 q2 q3 hx
      cases b with
      | false => simp at hx
      | true =>
        simp only [enqueue] at hx
        split at hx
        · rename_i hf
          obtain ⟨w1, w2⟩ := h4 ⟨Nat.le_refl _, Nat.zero_le _⟩
          rw [h3] at w2
          rw [q2, q3, h3] at hf
          have : (init max rate depth now).maxDepth = depth := rfl
          omega
        · simp at hx

/-- one message of 100 waits behind a full bucket of 100, and is flushed; the rate is 100 -/
def flushRun : List Op := [.pdu ⟨1, 100⟩, .pdu ⟨2, 100⟩, .flush]

/-- **A flushed queue stays full** (src/gb/gprs_bssgp.c:1452-1461): `queue_depth` is not reset. With room for one message, no further message is ever
queued though none waits: however long and in whatever way one goes on, with parameters as they come, none is queued -/
theorem bssgp_fc_flush_counterexample : ∃ fc evs, run (init 100 100 1 0) flushRun = some (fc, evs) ∧ fc.queue = [] ∧
    .full ⟨3, 100⟩ ∈ (fcIn fc ⟨3, 100⟩).2 ∧ ∀ ops fc' evs', run fc ops = some (fc', evs') → entered evs' = [] := by
  refine ⟨_, _, rfl, rfl, by decide, ?_⟩
  suffices ∀ (ops : List Op) (fc fc' : Fc) (evs' : List Ev), fc.queue = [] → fc.maxDepth ≤ fc.depth → run fc ops = some (fc', evs') → entered evs' = [] from
    fun ops fc' evs' h => this ops _ fc' evs' rfl (by decide) h
  intro ops
  induction ops with
  | nil =>
    intro fc fc' evs' _ _ h
    cases h; rfl
  | cons o os ih =>
    intro fc fc' evs' hq hd h
    unfold run at h
    cases hs : step fc o with
    | none => rw [hs] at h; cases h
    | some r =>
      obtain ⟨fc1, ev⟩ := r
      rw [hs] at h
      simp only [Option.map_eq_some_iff] at h
      obtain ⟨⟨fc2, evs''⟩, h1, h2⟩ := h
      cases h2
      have key : entered ev = [] ∧ fc1.queue = [] ∧ fc1.maxDepth ≤ fc1.depth := by
        cases o with
        | pdu p =>
          obtain ⟨rfl, rfl⟩ := Prod.ext_iff.1 (Option.some.inj hs)
          unfold fcIn
          split
          · exact ⟨rfl, hq, hd⟩
          · have hn := needs_queue fc p.len
            generalize needsQueueing fc p.len = n at hn
            obtain ⟨b, fc3⟩ := n
            obtain ⟨q1, q2, q3⟩ := hn
            simp only at q1 q2 q3
            cases b with
            | false => exact ⟨rfl, by rw [← hq, ← q1], by show fc3.maxDepth ≤ fc3.depth; omega⟩
            | true =>
              simp only [enqueue]
              rw [if_pos (by omega)]
              exact ⟨rfl, by rw [← hq, ← q1], by show fc3.maxDepth ≤ fc3.depth; omega⟩
        | expire =>
          simp only [step] at hs
          split at hs
          · split at hs
            · obtain ⟨rfl, rfl⟩ := Prod.ext_iff.1 (Option.some.inj hs)
              unfold timerCb
              simp only [hq]
              exact ⟨rfl, trivial, hd⟩
            · cases hs
          · cases hs
        | params s r =>
          cases hs
          obtain ⟨q1, q2, q3⟩ := timerCfg_queue { fc with max := 100 * s, rate := 100 * r / 8 }
          exact ⟨rfl, by unfold params; rw [q1]; exact hq, by unfold params; rw [q2, q3]; exact hd⟩
        | flush =>
          cases hs
          exact ⟨(flushed_all _).2.1, rfl, hd⟩
        | tick dt =>
          cases hs
          exact ⟨rfl, hq, hd⟩
      rw [entered_append, key.1, ih fc1 _ _ key.2.1 key.2.2 h1]
      rfl

/-- **A message may overtake those that wait** (src/gb/gprs_bssgp.c:903-913): whether any wait is not looked at. Of bucket and rate 100, message 2 waits
behind message 1, and message 3, shorter, goes first -/
theorem bssgp_fc_order_counterexample : ((run (init 100 100 5 0) [.pdu ⟨1, 90⟩, .pdu ⟨2, 100⟩, .pdu ⟨3, 10⟩, .tick 1000000, .expire]).map (·.2)) =
    some [.direct ⟨1, 90⟩, .queued ⟨2, 100⟩, .direct ⟨3, 10⟩, .unqueued ⟨2, 100⟩] := by decide

/-- a run in which two wait and are sent in turn -/
example : ((run (init 100 100 5 0) [.pdu ⟨1, 100⟩, .pdu ⟨2, 50⟩, .pdu ⟨3, 50⟩, .tick 500000, .expire, .tick 500000, .expire, .pdu ⟨4, 101⟩]).map (·.2)) =
    some [.direct ⟨1, 100⟩, .queued ⟨2, 50⟩, .queued ⟨3, 50⟩, .unqueued ⟨2, 50⟩, .unqueued ⟨3, 50⟩, .tooBig ⟨4, 101⟩] := by decide

end Verif.BssgpFc
