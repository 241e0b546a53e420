import Verif.Queue.WriteQueue
/-!
Properties of the write queue over any sequence of operations and events.
-/
namespace Verif.Queue

open Verif.Msgb (enqueueCount dequeueCount)

/-- The callbacks of an operation. -/
def Op.cbs {α} : Op α → List (Cb α)
  | .act _ => []
  | .event r e w => r.toList ++ e.toList ++ w.toList

/-- Every use of the queue in an operation, in callbacks too. -/
def Op.uses {α} : Op α → List (Act α)
  | .act a => [a]
  | .event r e w => (r.toList ++ e.toList ++ w.toList).flatMap (·.script)

/-- No maximum is 2^32 - 1 (the largest one that could count beyond `unsigned int`). -/
def SmallMax {α} (ops : List (Op α)) : Prop := ∀ o ∈ ops, ∀ len, Act.setMax len ∈ o.uses → len.toNat + 1 < 2 ^ 32

/-- A write callback that wants the message back does not use the queue itself. -/
def Calm {α} (ops : List (Op α)) : Prop := ∀ r e cb, Op.event r e (some cb) ∈ ops → cb.rc = -EAGAIN → cb.script = []

theorem acts_max {α} (as : List (Act α)) : ∀ (v v' : WQ α), v.max.toNat + 1 < 2 ^ 32 → (∀ len, Act.setMax len ∈ as → len.toNat + 1 < 2 ^ 32) → acts v as = some v' →
    v'.max.toNat + 1 < 2 ^ 32 := by
  have trim : ∀ (n : Nat) (v : WQ α) (d : Nat) (r : WQ α × Nat), trimLoop n v d = some r → r.1.max = v.max := by
    intro n
    induction n with
    | zero =>
      intro v d r hr
      rw [trimLoop] at hr
      split at hr
      · cases hr
      · cases hr; rfl
    | succ n ih =>
      intro v d r hr
      rw [trimLoop] at hr
      split at hr
      · split at hr
        · have := ih _ _ r hr; exact this
        · cases hr
      · cases hr; rfl
  induction as with
  | nil => intro v v' h1 _ h3; cases h3; exact h1
  | cons a as ih =>
    intro v v' h1 h2 h3
    rw [acts] at h3
    cases hv : act v a with
    | none => rw [hv] at h3; cases h3
    | some u =>
      rw [hv, Option.bind_some] at h3
      refine ih u v' ?_ (fun len hl => h2 len (List.mem_cons_of_mem _ hl)) h3
      cases a with
      | enq y =>
        rw [act, enqueue_eq, wqEnqueueQuiet] at hv
        split at hv <;> cases hv <;> exact h1
      | clear => cases hv; exact h1
      | setMax len =>
        have hlen := h2 len List.mem_cons_self
        rw [act] at hv
        cases ht : wqSetMaxlen v len with
        | none => rw [ht] at hv; cases hv
        | some r =>
          rw [ht] at hv
          cases hv
          have := trim _ _ _ _ ht
          rw [this]
          exact hlen

theorem write_max {α} (w w' : WQ α) (cb : Cb α) (hm : w.max.toNat + 1 < 2 ^ 32) (hm' : ∀ len, Act.setMax len ∈ cb.script → len.toNat + 1 < 2 ^ 32)
    (h : wqWrite w cb = some w') : w'.max.toNat + 1 < 2 ^ 32 := by
  unfold wqWrite at h
  split at h
  · cases h; exact hm
  · next x r hd =>
    cases ha : acts { w with q := r.1, cur := r.2, wr := false } cb.script with
    | none => rw [ha] at h; cases h
    | some v =>
      have hv : v.max.toNat + 1 < 2 ^ 32 := by
        have := acts_max cb.script _ v (by exact hm) hm' ha; exact this
      rw [ha, Option.map_some] at h
      cases h
      have hset : ∀ v : WQ α, v.max.toNat + 1 < 2 ^ 32 → (if v.q ≠ [] then { v with wr := true } else v).max.toNat + 1 < 2 ^ 32 := by
        intro v hv
        split <;> exact hv
      split
      · exact hv
      · refine hset _ ?_
        split <;> exact hv

/-- A step of the run keeps a property if each part does. -/
theorem event_keeps {α} (I : WQ α → Prop) (r e w : Option (Cb α)) (v : WQ α)
    (hacts : ∀ cb ∈ r.toList ++ e.toList, ∀ v, I v → ∃ v', acts v cb.script = some v' ∧ I v')
    (hw : ∀ cb ∈ w.toList, ∀ v, I v → ∃ v', wqWrite v cb = some v' ∧ I v') (h : I v) : ∃ v', wqEvent v r e w = some v' ∧ I v' := by
  have cbk : ∀ (cb : Option (Cb α)) (next : WQ α → Option (WQ α)), (∀ c ∈ cb.toList, ∀ v, I v → ∃ v', acts v c.script = some v' ∧ I v') →
      (∀ v, I v → ∃ v', next v = some v' ∧ I v') → ∀ v, I v → ∃ v', callback v cb next = some v' ∧ I v' := by
    intro cb next hc hn v hv
    cases cb with
    | none => exact hn v hv
    | some c =>
      obtain ⟨v1, e1, e2⟩ := hc c (by simp) v hv
      simp only [callback, e1, Option.bind_some]
      split
      · exact ⟨v1, rfl, e2⟩
      · exact hn v1 e2
  refine cbk r _ (fun c hc => hacts c (by simp at hc ⊢; exact Or.inl hc)) (cbk e _ (fun c hc => hacts c (by simp at hc ⊢; exact Or.inr hc)) ?_) v h
  intro v hv
  cases w with
  | none => exact ⟨v, rfl, hv⟩
  | some cb => exact hw cb (by simp) v hv

theorem run_inv {α} (slack : Nat) (ops : List (Op α)) : ∀ (w : WQ α), (slack = 1 ∨ (slack = 0 ∧ Calm ops)) → SmallMax ops → w.max.toNat + 1 < 2 ^ 32 → WInv [] slack w →
    ∃ w', run w ops = some w' ∧ WInv [] slack w' ∧ w'.max.toNat + 1 < 2 ^ 32 := by
  induction ops with
  | nil => intro w _ _ hm h; exact ⟨w, rfl, h, hm⟩
  | cons o ops ih =>
    intro w hs hsm hm h
    have step : ∃ w', runOp w o = some w' ∧ (WInv [] slack w' ∧ w'.max.toNat + 1 < 2 ^ 32) := by
      have hu := hsm o List.mem_cons_self
      cases o with
      | act a =>
        obtain ⟨w', e1, e2⟩ := act_inv [] slack w a h
        exact ⟨w', e1, e2, acts_max [a] w w' hm (fun len hl => hu len hl) (by rw [acts, e1]; rfl)⟩
      | event r e wcb =>
        refine event_keeps (fun v => WInv [] slack v ∧ v.max.toNat + 1 < 2 ^ 32) r e wcb w ?_ ?_ ⟨h, hm⟩
        · intro cb hcb v ⟨hv, hvm⟩
          obtain ⟨v', e1, e2⟩ := acts_inv [] slack cb.script v hv
          refine ⟨v', e1, e2, acts_max cb.script v v' hvm (fun len hl => hu len ?_) e1⟩
          simp only [Op.uses, List.mem_flatMap]
          exact ⟨cb, by rw [List.mem_append]; exact Or.inl hcb, hl⟩
        · intro cb hcb v ⟨hv, hvm⟩
          have hl : ∀ len, Act.setMax len ∈ cb.script → len.toNat + 1 < 2 ^ 32 := by
            intro len hl
            refine hu len ?_
            simp only [Op.uses, List.mem_flatMap]
            exact ⟨cb, by rw [List.mem_append]; exact Or.inr hcb, hl⟩
          obtain ⟨v', e1, e2⟩ := write_inv v cb slack (by
            rcases hs with hs | ⟨hs, hc⟩
            · exact Or.inl hs
            · refine Or.inr ⟨hs, ?_⟩
              have : wcb = some cb := by simpa using hcb
              exact hc r e cb (by rw [this]; exact List.mem_cons_self)) hvm hl hv
          exact ⟨v', e1, e2, write_max v v' cb hvm hl e1⟩
    obtain ⟨w1, e1, e2, e3⟩ := step
    obtain ⟨w2, f1, f2⟩ := ih w1 (hs.imp id (fun h => ⟨h.1, fun r e cb hmem => h.2 r e cb (List.mem_cons_of_mem _ hmem)⟩))
      (fun o ho => hsm o (List.mem_cons_of_mem _ ho)) e3 e2
    exact ⟨w2, by rw [run, e1, Option.bind_some, f1], f2⟩

theorem init_inv {α} (max : BitVec 32) (slack : Nat) : WInv [] slack (wqInit max : WQ α) :=
  ⟨rfl, by simp [wqInit], by simp [wqInit, accepted, written, dropped]⟩

/-- C72: over any sequence of operations and events, with callbacks that use the
queue themselves: every message accepted is either still queued, or has been
written once, or dropped by a clear or a shorter maximum once; the length kept is that of
the queue; the queue is at most one longer than its maximum. -/
theorem wqueue_no_loss {α} (max : BitVec 32) (ops : List (Op α)) (hm : max.toNat + 1 < 2 ^ 32) (hs : SmallMax ops) :
    ∃ w, run (wqInit max) ops = some w ∧ (accepted w.log).Perm (written w.log ++ dropped w.log ++ w.q) ∧ w.cur.toNat = w.q.length ∧
      w.q.length ≤ w.max.toNat + 1 := by
  obtain ⟨w, e1, e2, _⟩ := run_inv 1 ops (wqInit max) (Or.inl rfl) hs hm (init_inv max 1)
  exact ⟨w, e1, by simpa using e2.perm, e2.count, e2.le⟩

/-- C72: and it never is longer than the maximum, if write callbacks that return -EAGAIN have
not added to the queue themselves. -/
theorem wqueue_bounded {α} (max : BitVec 32) (ops : List (Op α)) (hm : max.toNat + 1 < 2 ^ 32) (hs : SmallMax ops) (hc : Calm ops) :
    ∃ w, run (wqInit max) ops = some w ∧ w.q.length ≤ w.max.toNat := by
  obtain ⟨w, e1, e2, _⟩ := run_inv 0 ops (wqInit max) (Or.inr ⟨rfl, hc⟩) hs hm (init_inv max 0)
  exact ⟨w, e1, by have := e2.le; omega⟩

/-- C72: otherwise it can be: a write callback of a full queue that adds a message and
returns -EAGAIN. -/
theorem wqueue_bounded_counterexample :
    ∃ (ops : List (Op Nat)) (w : WQ Nat), SmallMax ops ∧ run (wqInit 2#32) ops = some w ∧ w.max = 2#32 ∧ w.q = [1, 2, 3] :=
  ⟨[.act (.enq 1), .act (.enq 2), .event none none (some { script := [.enq 3], rc := -EAGAIN })],
   ((run (wqInit 2#32) [.act (.enq 1), .act (.enq 2), .event none none (some { script := [.enq 3], rc := -EAGAIN })]).getD (wqInit 2#32)), by
    intro o ho len hl
    simp only [List.mem_cons, List.not_mem_nil, or_false] at ho
    rcases ho with rfl | rfl | rfl <;> simp [Op.uses] at hl, by decide +kernel⟩

/-- Some traffic. -/
example : ((run (wqInit 2#32) [.act (.enq 1), .act (.enq 2), .act (.enq 9), .event none none (some { script := [], rc := -EAGAIN }),
    .event none none (some { script := [.enq 3], rc := 0 }), .act (.setMax 1#32)]).map (fun w => (w.q, w.wr, written w.log, dropped w.log))) =
    some ([3], true, [1], [2]) := by decide +kernel

/-! ### Order -/

/-- Enqueueing only. -/
def OnlyEnq {α} (ops : List (Op α)) : Prop := ∀ o ∈ ops, ∀ a ∈ o.uses, ∃ x, a = .enq x

/-- In order: what was written, what a callback holds, what is queued. -/
def FifoInv {α} (fly : List α) (w : WQ α) : Prop := written w.log ++ fly ++ w.q = accepted w.log

theorem enq_fifo {α} (fly : List α) (w : WQ α) (x : α) (h : FifoInv fly w) : FifoInv fly (wqEnqueue w x).1 := by
  rw [enqueue_eq]
  unfold wqEnqueueQuiet FifoInv at *
  split
  · simpa [accepted_append, written_append, accepted, written] using h
  · simp only [enqueueCount, Verif.Msgb.enqueue, accepted_append, written_append, accepted, written, List.append_nil]
    rw [← List.append_assoc, h]

theorem acts_fifo {α} (fly : List α) (as : List (Act α)) : ∀ w : WQ α, (∀ a ∈ as, ∃ x, a = .enq x) → FifoInv fly w → ∃ w', acts w as = some w' ∧ FifoInv fly w' := by
  induction as with
  | nil => intro w _ h; exact ⟨w, rfl, h⟩
  | cons a as ih =>
    intro w ha h
    obtain ⟨x, rfl⟩ := ha a List.mem_cons_self
    obtain ⟨w2, f1, f2⟩ := ih _ (fun a h => ha a (List.mem_cons_of_mem _ h)) (enq_fifo fly w x h)
    exact ⟨w2, by rw [acts, act, Option.bind_some, f1], f2⟩

theorem write_fifo {α} (w : WQ α) (cb : Cb α) (hcb : ∀ a ∈ cb.script, ∃ x, a = .enq x) (h : FifoInv [] w) : ∃ w', wqWrite w cb = some w' ∧ FifoInv [] w' := by
  unfold wqWrite
  cases hq : w.q with
  | nil => exact ⟨_, rfl, by unfold FifoInv at h ⊢; rw [hq] at h; simpa using h⟩
  | cons x l =>
    simp only [dequeueCount, Verif.Msgb.dequeue]
    have h0 : FifoInv [x] { w with q := l, cur := w.cur - 1#32, wr := false } := by
      unfold FifoInv at h ⊢
      rw [hq] at h
      simpa using h
    obtain ⟨w1, e1, e2⟩ := acts_fifo [x] cb.script _ hcb h0
    rw [e1, Option.map_some]
    have hwr : FifoInv [] { w1 with log := w1.log ++ [.written x] } := by
      unfold FifoInv at e2 ⊢
      simpa [accepted_append, written_append, accepted, written] using e2
    have hag : FifoInv [] { w1 with q := x :: w1.q, cur := w1.cur + 1#32, log := w1.log ++ [.again x] } := by
      unfold FifoInv at e2 ⊢
      simpa [accepted_append, written_append, accepted, written] using e2
    have hset : ∀ v : WQ α, FifoInv [] v → FifoInv [] (if v.q ≠ [] then { v with wr := true } else v) := by
      intro v hv
      split <;> exact hv
    refine ⟨_, rfl, ?_⟩
    split
    · exact hwr
    · refine hset _ ?_
      split
      · exact hag
      · exact hwr

/-- C72: messages are written in the order in which they were accepted, also if the
descriptor is not ready for some of them (-EAGAIN) and if callbacks add messages. -/
theorem wqueue_fifo {α} (max : BitVec 32) (ops : List (Op α)) (ho : OnlyEnq ops) :
    ∃ w, run (wqInit max) ops = some w ∧ written w.log ++ w.q = accepted w.log := by
  have key : ∀ (ops : List (Op α)) (w : WQ α), OnlyEnq ops → FifoInv [] w → ∃ w', run w ops = some w' ∧ FifoInv [] w' := by
    intro ops
    induction ops with
    | nil => intro w _ h; exact ⟨w, rfl, h⟩
    | cons o ops ih =>
      intro w ho h
      have hu := ho o List.mem_cons_self
      have step : ∃ w', runOp w o = some w' ∧ FifoInv [] w' := by
        cases o with
        | act a =>
          obtain ⟨x, rfl⟩ := hu a (by simp [Op.uses])
          exact ⟨_, rfl, enq_fifo [] w x h⟩
        | event r e wcb =>
          have hsub : ∀ cb ∈ r.toList ++ e.toList ++ wcb.toList, ∀ a ∈ cb.script, ∃ x, a = .enq x := by
            intro cb hcb a ha
            refine hu a ?_
            simp only [Op.uses, List.mem_flatMap]
            exact ⟨cb, hcb, ha⟩
          refine event_keeps (FifoInv []) r e wcb w ?_ ?_ h
          · intro cb hcb v hv
            exact acts_fifo [] cb.script v (hsub cb (by rw [List.mem_append]; exact Or.inl hcb)) hv
          · intro cb hcb v hv
            exact write_fifo v cb (hsub cb (by rw [List.mem_append]; exact Or.inr hcb)) hv
      obtain ⟨w1, e1, e2⟩ := step
      obtain ⟨w2, f1, f2⟩ := ih w1 (fun o h => ho o (List.mem_cons_of_mem _ h)) e2
      exact ⟨w2, by rw [run, e1, Option.bind_some, f1], f2⟩
  obtain ⟨w, e1, e2⟩ := key ops (wqInit max) ho (by simp [FifoInv, wqInit, accepted, written])
  exact ⟨w, e1, by simpa [FifoInv] using e2⟩

/-! ### Attention -/

/-- No callback reports that the descriptor is gone. -/
def NoBadf {α} (ops : List (Op α)) : Prop := ∀ o ∈ ops, ∀ cb ∈ o.cbs, cb.rc ≠ -EBADF

/-- The select loop is asked to call back when the descriptor is writable. -/
def Heeded {α} (w : WQ α) : Prop := w.q ≠ [] → w.wr = true

theorem trim_heeded {α} : ∀ (n : Nat) (w : WQ α) (d : Nat) (r : WQ α × Nat), Heeded w → trimLoop n w d = some r → Heeded r.1 := by
  intro n
  induction n with
  | zero =>
    intro w d r h hr
    rw [trimLoop] at hr
    split at hr
    · cases hr
    · cases hr; exact h
  | succ n ih =>
    intro w d r h hr
    rw [trimLoop] at hr
    split at hr
    · cases hq : w.q with
      | nil => rw [hq] at hr; cases hr
      | cons x l =>
        rw [hq] at hr
        simp only [dequeueCount, Verif.Msgb.dequeue] at hr
        refine ih _ _ r ?_ hr
        intro _
        exact h (by rw [hq]; simp)
    · cases hr; exact h

theorem act_heeded {α} (w w' : WQ α) (a : Act α) (h : Heeded w) (ha : act w a = some w') : Heeded w' := by
  cases a with
  | enq x =>
    rw [act, enqueue_eq, wqEnqueueQuiet] at ha
    split at ha
    · cases ha; exact h
    · cases ha; intro _; rfl
  | clear => cases ha; intro h; exact absurd rfl h
  | setMax len =>
    rw [act] at ha
    cases ht : wqSetMaxlen w len with
    | none => rw [ht] at ha; cases ha
    | some r =>
      rw [ht] at ha
      cases ha
      exact trim_heeded _ { w with max := len } 0 r (by exact h) ht

theorem acts_heeded {α} (as : List (Act α)) : ∀ (w w' : WQ α), Heeded w → acts w as = some w' → Heeded w' := by
  induction as with
  | nil => intro w w' h ha; cases ha; exact h
  | cons a as ih =>
    intro w w' h ha
    rw [acts] at ha
    cases hv : act w a with
    | none => rw [hv] at ha; cases ha
    | some u =>
      rw [hv, Option.bind_some] at ha
      exact ih u w' (act_heeded w u a h hv) ha

theorem write_heeded {α} (w w' : WQ α) (cb : Cb α) (hb : cb.rc ≠ -EBADF) (h : wqWrite w cb = some w') : Heeded w' := by
  unfold wqWrite at h
  cases hq : w.q with
  | nil => rw [hq] at h; cases h; intro hne; exact absurd rfl hne
  | cons x l =>
    rw [hq] at h
    simp only [dequeueCount, Verif.Msgb.dequeue] at h
    cases ha : acts { w with q := l, cur := w.cur - 1#32, wr := false } cb.script with
    | none => rw [ha] at h; cases h
    | some v =>
      rw [ha, Option.map_some, if_neg hb] at h
      cases h
      have hset : ∀ v : WQ α, Heeded (if v.q ≠ [] then { v with wr := true } else v) := by
        intro v
        split
        · intro _; rfl
        · next hn => intro hne; exact absurd hne hn
      exact hset _

/-- C72: while there are messages in the queue, OSMO_FD_WRITE is set, so that none is left
behind; unless a callback has reported that the descriptor is gone. -/
theorem wqueue_heeded {α} (max : BitVec 32) (ops : List (Op α)) (hb : NoBadf ops) (w : WQ α) (h : run (wqInit max) ops = some w) (hq : w.q ≠ []) : w.wr = true := by
  have key : ∀ (ops : List (Op α)) (v v' : WQ α), NoBadf ops → Heeded v → run v ops = some v' → Heeded v' := by
    intro ops
    induction ops with
    | nil => intro v v' _ h hr; cases hr; exact h
    | cons o ops ih =>
      intro v v' hb h hr
      rw [run] at hr
      cases hv : runOp v o with
      | none => rw [hv] at hr; cases hr
      | some u =>
        rw [hv, Option.bind_some] at hr
        refine ih u v' (fun o ho => hb o (List.mem_cons_of_mem _ ho)) ?_ hr
        have hbo := hb o List.mem_cons_self
        cases o with
        | act a => exact act_heeded v u a h hv
        | event r e wcb =>
          rw [runOp, wqEvent] at hv
          have cbk : ∀ (cb : Option (Cb α)) (next : WQ α → Option (WQ α)), (∀ c ∈ cb.toList, c.rc ≠ -EBADF) →
              (∀ v v', Heeded v → next v = some v' → Heeded v') → ∀ v v', Heeded v → callback v cb next = some v' → Heeded v' := by
            intro cb next hc hn v v' h hv
            cases cb with
            | none => exact hn v v' h hv
            | some c =>
              rw [callback] at hv
              cases ha : acts v c.script with
              | none => rw [ha] at hv; cases hv
              | some x =>
                rw [ha, Option.bind_some, if_neg (hc c (by simp))] at hv
                exact hn x v' (acts_heeded _ v x h ha) hv
          refine cbk r _ (fun c hc => hbo c ?_) (cbk e _ (fun c hc => hbo c ?_) ?_) v u h hv
          · simp only [Op.cbs, List.mem_append]; exact Or.inl (Or.inl hc)
          · simp only [Op.cbs, List.mem_append]; exact Or.inl (Or.inr hc)
          · intro v v' h hv
            cases wcb with
            | none => cases hv; exact h
            | some cb => exact write_heeded v v' cb (hbo cb (by simp [Op.cbs])) hv
  exact key ops _ w hb (fun h => absurd rfl h) h hq

/-- C72: as many write events as there are messages, with a descriptor that takes
everything, write all of them. -/
theorem wqueue_drains {α} (l : List α) : ∀ (w : WQ α), w.q = l → ∃ w', run w (List.replicate l.length (.event none none (some { script := [], rc := 0 }))) = some w' ∧
    w'.q = [] ∧ w'.log = w.log ++ l.map .written := by
  induction l with
  | nil => intro w hq; exact ⟨w, rfl, hq, by simp⟩
  | cons x l ih =>
    intro w hq
    obtain ⟨w', e1, e2, e3⟩ := ih { w with q := l, cur := w.cur - 1#32, wr := if l ≠ [] then true else false, log := w.log ++ [.written x] } rfl
    refine ⟨w', ?_, e2, by rw [e3]; simp⟩
    rw [List.length_cons, List.replicate_succ, run]
    have : runOp w (.event none none (some { script := [], rc := 0 })) =
        some { w with q := l, cur := w.cur - 1#32, wr := if l ≠ [] then true else false, log := w.log ++ [.written x] } := by
      simp only [runOp, wqEvent, callback, writable, wqWrite, hq, dequeueCount, Verif.Msgb.dequeue, acts, Option.map_some]
      rw [if_neg (show ¬ (0 : Int) = -EBADF by decide), if_neg (show ¬ (0 : Int) = -EAGAIN by decide)]
      by_cases hl : l = [] <;> simp [hl]
    rw [this, Option.bind_some, e1]

/-- C72: after `osmo_wqueue_set_maxlen` the queue has no more than the new maximum; what is
dropped is the oldest; the return value is their number. -/
theorem set_maxlen_spec {α} (w : WQ α) (len : BitVec 32) (hc : w.cur.toNat = w.q.length) :
    ∃ w' d, wqSetMaxlen w len = some (w', d) ∧ w'.max = len ∧ w'.q.length ≤ len.toNat ∧ d = w.q.length - w'.q.length ∧ w'.q = w.q.drop d ∧
      (w.q.length ≤ len.toNat → d = 0) ∧ (len.toNat ≤ w.q.length → w'.q.length = len.toNat) := by
  have key : ∀ (n : Nat) (w : WQ α) (d : Nat), w.q.length ≤ n → w.cur.toNat = w.q.length →
      ∃ w', trimLoop n w d = some (w', d + (w.q.length - w.max.toNat)) ∧ w'.max = w.max ∧ w'.q = w.q.drop (w.q.length - w.max.toNat) := by
    intro n
    induction n with
    | zero =>
      intro w d hn hc
      refine ⟨w, ?_, rfl, ?_⟩
      · rw [trimLoop, if_neg (by intro h; have : w.max.toNat < w.cur.toNat := h; omega)]
        rw [show w.q.length - w.max.toNat = 0 by omega]
        rfl
      · rw [show w.q.length - w.max.toNat = 0 by omega]; rfl
    | succ n ih =>
      intro w d hn hc
      unfold trimLoop
      by_cases h0 : w.cur > w.max
      · rw [if_pos h0]
        have hgt : w.max.toNat < w.cur.toNat := h0
        cases hq : w.q with
        | nil => rw [hq, List.length_nil] at hc; omega
        | cons x l =>
          obtain ⟨d1, d2⟩ := deq_cons w x l hq hc
          rw [hq] at d1
          rw [d1]
          dsimp only
          rw [hq, List.length_cons] at hn hc
          obtain ⟨w', e1, e2, e3⟩ := ih { w with q := l, cur := w.cur - 1#32, log := w.log ++ [.dropped x] } (d + 1) (by simp only; omega) d2
          refine ⟨w', ?_, e2, ?_⟩
          · rw [e1]
            simp only [List.length_cons]
            congr 2
            omega
          · rw [e3]
            simp only [List.length_cons]
            rw [show l.length + 1 - w.max.toNat = (l.length - w.max.toNat) + 1 by omega]
            rfl
      · rw [if_neg h0]
        have hle : ¬ w.max.toNat < w.cur.toNat := h0
        rw [show w.q.length - w.max.toNat = 0 by omega]
        exact ⟨w, rfl, rfl, rfl⟩
  obtain ⟨w', e1, e2, e3⟩ := key w.q.length { w with max := len } 0 (Nat.le_refl _) hc
  simp only [Nat.zero_add] at e1 e2 e3
  have hl : w'.q.length = w.q.length - (w.q.length - len.toNat) := by rw [e3, List.length_drop]
  exact ⟨w', w.q.length - len.toNat, e1, e2, by omega, by omega, e3, by omega, by omega⟩

example : ((wqSetMaxlen { max := 5#32, cur := 3#32, q := [1, 2, 3], wr := true, log := [] } 1#32).map (fun r => (r.1.q, r.2))) = some ([3], 2) := by decide +kernel

end Verif.Queue
