import Verif.BssgpFc.Rate
/-!
# C117: what waits for BSSGP flow control is sent
-/
namespace Verif.BssgpFc

/-- the timer runs while something waits that may be sent some time -/
def Timed (fc : Fc) : Prop := fc.queue ≠ [] → fc.rate ≠ 0 → fc.timer.isSome

theorem timerCfg_timed (fc : Fc) : Timed (timerCfg fc) := by
  intro h1 h2
  obtain ⟨-, t2, -, -, -, t6⟩ := timerCfg_rate fc
  rw [t6] at h1
  rw [t2] at h2
  unfold timerCfg
  split
  · contradiction
  · rw [if_pos h2]; rfl

theorem needs_timer (fc : Fc) (n : Nat) : (needsQueueing fc n).2.timer = fc.timer ∧ (needsQueueing fc n).2.rate = fc.rate := by
  unfold needsQueueing
  simp only
  split
  · exact ⟨rfl, rfl⟩
  · split <;> exact ⟨rfl, rfl⟩

theorem step_timed {fc fc' : Fc} {o : Op} {ev : List Ev} (h : step fc o = some (fc', ev)) (ht : Timed fc) : Timed fc' := by
  cases o with
  | pdu p =>
    obtain ⟨rfl, rfl⟩ := Prod.ext_iff.1 (Option.some.inj h)
    unfold fcIn
    split
    · exact ht
    · have hn := needs_queue fc p.len
      have hm := needs_timer fc p.len
      generalize needsQueueing fc p.len = n at hn hm
      obtain ⟨b, fc1⟩ := n
      obtain ⟨h1, -, -⟩ := hn
      obtain ⟨h2, h3⟩ := hm
      simp only at h1 h2 h3
      cases b with
      | false => exact fun a b => by simp only [h1, h2, h3] at *; exact ht a b
      | true =>
        simp only [enqueue]
        split
        · exact fun a b => by simp only [h1, h2, h3] at *; exact ht a b
        · exact timerCfg_timed _
  | expire =>
    simp only [step] at h
    split at h
    · split at h
      · obtain ⟨rfl, rfl⟩ := Prod.ext_iff.1 (Option.some.inj h)
        unfold timerCb
        split
        · rename_i hq
          exact fun a => absurd hq a
        · split
          · exact timerCfg_timed _
          · exact timerCfg_timed _
      · cases h
    · cases h
  | params s r =>
    cases h
    exact timerCfg_timed _
  | flush =>
    cases h
    exact fun a => absurd rfl a
  | tick dt =>
    cases h
    exact ht

theorem run_timed : ∀ (ops : List Op) {fc fc' : Fc} {evs : List Ev}, run fc ops = some (fc', evs) → Timed fc → Timed fc'
  | [], _, _, _, h, ht => by cases h; exact ht
  | _ :: os, _, _, _, h, ht => by
    obtain ⟨fc1, ev, evs', hs, h1, rfl⟩ := run_cons h
    exact run_timed os h1 (step_timed hs ht)

/-- **While a message waits the timer runs**, unless the rate is 0: whatever happened before, parameters and flushes included -/
theorem bssgp_fc_timer {max rate depth now : Nat} {ops : List Op} {fc : Fc} {evs : List Ev} (h : run (init max rate depth now) ops = some (fc, evs))
    (hq : fc.queue ≠ []) (hr : fc.rate ≠ 0) : fc.timer.isSome :=
  run_timed ops h (fun a => absurd rfl a) hq hr

/-- the timer is run no later than `late` after it is due -/
def Prompt (late : Nat) : Fc → List Op → Prop
  | fc, [] => ∀ t, fc.timer = some t → fc.now ≤ t + late
  | fc, o :: os => (∀ t, fc.timer = some t → fc.now ≤ t + late) ∧ ∀ fc1 ev, step fc o = some (fc1, ev) → Prompt late fc1 os

/-- nothing happens but time, and the timer -/
def Alone (ops : List Op) : Prop := ∀ o ∈ ops, o = .expire ∨ ∃ dt, o = .tick dt

/-- the time in which the bucket runs empty -/
def need (fc : Fc) : Nat := (fc.counter / (fc.rate / 100) + 1) * 10000

/-- the time in which `n` bytes leak, in whole ms -/
def period (fc : Fc) (n : Nat) : Nat := n * 1000 / fc.rate * 1000

theorem progress : ∀ (ops : List Op) {fc fc' : Fc} {evs : List Ev} {p : Pdu} {q : List Pdu} {d D late : Nat}, run fc ops = some (fc', evs) → Alone ops →
    Prompt late fc ops → fc.queue = p :: q → fc.timer = some d → d ≤ D → fc.last + need fc + period fc p.len ≤ D → 100 ≤ fc.rate → fc.last ≤ fc.now →
    (D + late - fc.last) / 10000 * (fc.rate / 100) < 2 ^ 32 → fc.counter + p.len < 2 ^ 32 → D + late < fc'.now → ∃ evs', evs = .unqueued p :: evs'
  | [], fc, fc', evs, p, q, d, D, late, h, _, hp, hq, ht, hd, _, _, _, _, _, hn => by
    cases h
    have := hp d ht
    omega
  | o :: os, fc, fc', evs, p, q, d, D, late, h, ha, hp, hq, ht, hd, hD, hr, hl, hw, hc, hn => by
    obtain ⟨fc1, ev, evs', hs, h1, rfl⟩ := run_cons h
    have hp' := hp.2 _ _ hs
    have hnow := hp.1 d ht
    have ha' : Alone os := fun o ho => ha o (List.mem_cons_of_mem _ ho)
    rcases ha o List.mem_cons_self with rfl | ⟨dt, rfl⟩
    · simp only [step, ht] at hs
      split at hs
      · obtain ⟨e1, e2⟩ := Prod.ext_iff.1 (Option.some.inj hs)
        simp only at e1 e2
        unfold timerCb at e1 e2
        simp only [hq] at e1 e2
        have hlk : leaked { fc with timer := none, queue := p :: q } = leak fc := by
          have : leak { fc with timer := none, queue := p :: q } = leak fc := rfl
          rw [← this]
          apply leaked_eq
          rw [this]
          refine Nat.lt_of_le_of_lt ?_ hw
          exact Nat.mul_le_mul_right _ (Nat.div_le_div_right (by omega))
        rcases needs_cases { fc with timer := none, queue := p :: q } p.len hc with ⟨_, h2⟩ | ⟨_, _, h2⟩ | ⟨h2, h3, h4⟩
        · rw [h2] at e2
          exact ⟨evs', by rw [← e2]; rfl⟩
        · rw [h2] at e2
          exact ⟨evs', by rw [← e2]; rfl⟩
        · rw [h4] at e1 e2
          simp only at e1 e2
          rw [hlk] at h2
          simp only at h2
          have early : fc.now < fc.last + need fc := by
            by_contra hx
            have hx' : need fc ≤ fc.now - fc.last := by omega
            have k : 0 < fc.rate / 100 := by omega
            have : fc.counter / (fc.rate / 100) + 1 ≤ (fc.now - fc.last) / 10000 := by
              unfold need at hx'
              exact (Nat.le_div_iff_mul_le (by omega)).2 hx'
            have h5 : (fc.counter / (fc.rate / 100) + 1) * (fc.rate / 100) ≤ leak fc := Nat.mul_le_mul_right _ this
            have h6 := Nat.lt_div_mul_add k (a := fc.counter)
            rw [Nat.add_mul, Nat.one_mul] at h5
            omega
          have hcfg : timerCfg { fc with timer := none, queue := p :: q } =
              { fc with queue := p :: q, timer := some (fc.now + p.len * 1000 % 2 ^ 32 / fc.rate * 1000) } := by
            unfold timerCfg
            simp only
            rw [if_pos (by omega)]
          rw [hcfg] at e1
          subst e1 e2
          have hper : p.len * 1000 % 2 ^ 32 / fc.rate * 1000 ≤ period fc p.len :=
            Nat.mul_le_mul_right _ (Nat.div_le_div_right (Nat.mod_le _ _))
          exact progress os h1 ha' hp' rfl rfl (by omega) hD hr hl hw hc hn
      · cases hs
    · cases hs
      exact progress os h1 ha' hp' hq ht hd hD hr (by show fc.last ≤ fc.now + dt; omega) hw hc hn

/-- **What waits first is sent**, if nothing else is passed on in between, and the rate is at least 100: after the bucket ran empty and the timer had its
period, counted from the last message passed on, or once the timer is due that runs now; later by what the timer is late. (As long as the bytes that leak
until then are less than 2^32.) -/
theorem bssgp_fc_sent {max rate depth now : Nat} {pre ops : List Op} {fc fc' : Fc} {evs0 evs : List Ev} {p : Pdu} {q : List Pdu} {d late : Nat} (hm : max < 2 ^ 31)
    (h0 : run (init max rate depth now) pre = some (fc, evs0)) (hn : NoParams pre) (hr : 100 ≤ rate) (hq : fc.queue = p :: q) (ht : fc.timer = some d)
    (h1 : run fc ops = some (fc', evs)) (ha : Alone ops) (hp : Prompt late fc ops)
    (hw : (Nat.max d (fc.last + need fc + period fc p.len) + late - fc.last) / 10000 * (rate / 100) < 2 ^ 32)
    (hl : Nat.max d (fc.last + need fc + period fc p.len) + late < fc'.now) : ∃ evs', evs = .unqueued p :: evs' := by
  obtain ⟨a1, a2, a3, -, -, -⟩ := run_ok pre h0 hn hm ⟨Nat.zero_le _, Nat.le_refl _, by simp [init]⟩
  have e2 : fc.max = max := a2
  have e3 : fc.rate = rate := a3
  have := a1.2.2 p (by rw [hq]; exact List.mem_cons_self)
  have := a1.1
  exact progress ops h1 ha hp hq ht (Nat.le_max_left _ _) (Nat.le_max_right _ _) (by omega) a1.2.1 (by rw [e3]; exact hw) (by omega) hl

/-- behind a full bucket of 1000 at rate 100 a message of 500 waits 5 s -/
example : ∃ fc evs, run (init 1000 100 5 0) [.pdu ⟨1, 1000⟩, .pdu ⟨2, 500⟩] = some (fc, evs) ∧ fc.timer = some 5000000 ∧ need fc = 10010000 ∧ period fc 500 = 5000000 ∧
    ((run fc [.tick 5000000, .expire]).map (·.2)) = some [.unqueued ⟨2, 500⟩] := ⟨_, _, rfl, by decide, by decide, by decide, by decide⟩

/-- **At a rate below 100 what waits is not sent** (src/gb/gprs_bssgp.c:861): the rate is divided by 100 first, so nothing ever leaks. However long one waits,
nothing comes -/
theorem slow : ∀ (ops : List Op) {fc fc' : Fc} {evs : List Ev} {p : Pdu} {q : List Pdu}, run fc ops = some (fc', evs) → Alone ops → fc.queue = p :: q →
    fc.rate < 100 → fc.max < fc.counter + p.len → fc.counter + p.len < 2 ^ 32 → evs = [] ∧ fc'.queue = p :: q
  | [], fc, fc', evs, p, q, h, _, hq, _, _, _ => by cases h; exact ⟨rfl, hq⟩
  | o :: os, fc, fc', evs, p, q, h, ha, hq, hr, hm, hc => by
    obtain ⟨fc1, ev, evs', hs, h1, rfl⟩ := run_cons h
    have ha' : Alone os := fun o ho => ha o (List.mem_cons_of_mem _ ho)
    rcases ha o List.mem_cons_self with rfl | ⟨dt, rfl⟩
    · simp only [step] at hs
      split at hs
      · split at hs
        · obtain ⟨e1, e2⟩ := Prod.ext_iff.1 (Option.some.inj hs)
          simp only at e1 e2
          unfold timerCb at e1 e2
          simp only [hq] at e1 e2
          have hlk : leaked { fc with timer := none, queue := p :: q } = 0 := by
            have : leak { fc with timer := none, queue := p :: q } = 0 := by
              show (fc.now - fc.last) / 10000 * (fc.rate / 100) = 0
              rw [Nat.div_eq_of_lt hr, Nat.mul_zero]
            rw [leaked_eq (by rw [this]; omega), this]
          have hn : needsQueueing { fc with timer := none, queue := p :: q } p.len = (true, { fc with timer := none, queue := p :: q }) := by
            rcases needs_cases { fc with timer := none, queue := p :: q } p.len hc with ⟨h2, _⟩ | ⟨_, h2, _⟩ | ⟨_, _, h4⟩
            · rw [hlk] at h2; simp only at h2; omega
            · rw [hlk] at h2; simp only at h2; omega
            · exact h4
          rw [hn] at e1 e2
          simp only at e1 e2
          subst e1 e2
          obtain ⟨t1, t2, t3, -, -, t6⟩ := timerCfg_rate { fc with timer := none, queue := p :: q }
          simp only at t1 t2 t3 t6
          exact slow os h1 ha' t6 (by rw [t2]; exact hr) (by rw [t1, t3]; exact hm) (by rw [t3]; exact hc)
        · cases hs
      · cases hs
    · cases hs
      exact slow os h1 ha' hq hr hm hc

/-- the finding, for 6 times 100 bit/s as of `bssgp_rx_fc_bvc`, which are 75 bytes a second -/
theorem bssgp_fc_slow_counterexample : ∃ fc evs, run (init 1000 100 5 0) [.params 10 6, .pdu ⟨1, 1000⟩, .pdu ⟨2, 500⟩] = some (fc, evs) ∧ fc.rate = 75 ∧
    fc.timer.isSome ∧ ∀ ops fc' evs', Alone ops → run fc ops = some (fc', evs') → evs' = [] ∧ fc'.queue = [⟨2, 500⟩] :=
  ⟨_, _, rfl, by decide, by decide, fun ops fc' evs' ha h => slow ops h ha rfl (by decide) (by decide) (by decide)⟩

/-- 9.99 s, a message of 1000, 10 ms, and the timer; again and again -/
def rounds : Nat → List Op
  | 0 => []
  | n + 1 => .tick 9990000 :: .pdu ⟨n, 1000⟩ :: .tick 10000 :: .expire :: rounds n

/-- message 1000000 waits; the bucket is full -/
def wait (last now timer : Nat) : Fc :=
  { max := 1000, rate := 100, counter := 1000, last := last, maxDepth := 5, depth := 1, queue := [⟨1000000, 1000⟩], timer := some timer, now := now }

/-- it was filled 10 ms before -/
def hungry (t : Nat) : Fc := wait t (t + 10000) (t + 10010000)

theorem wait_pdu {last now timer : Nat} (n : Nat) (h : now = last + 10000000) :
    step (wait last now timer) (.pdu ⟨n, 1000⟩) = some (wait now now timer, [.direct ⟨n, 1000⟩]) := by
  have l1 : leaked (wait last now timer) = 1000 := by
    unfold leaked wait
    simp only [h, Nat.add_sub_cancel_left]
  have n1 : needsQueueing (wait last now timer) 1000 = (false, wait last now timer) := by
    have hc : (wait last now timer).counter = 1000 := rfl
    have hm : (wait last now timer).max = 1000 := rfl
    rcases needs_cases (wait last now timer) 1000 (by omega) with ⟨h, _⟩ | ⟨_, _, h⟩ | ⟨_, h, _⟩
    · omega
    · rw [h, l1, hc]; rfl
    · omega
  simp only [step]
  unfold fcIn
  rw [if_neg (by show ¬ 1000 > 1000; omega)]
  simp only [n1]
  rfl

theorem wait_expire {last now timer : Nat} (h1 : now = last + 10000) (h2 : timer ≤ now) :
    step (wait last now timer) .expire = some (wait last now (now + 10000000), []) := by
  let f : Fc := { wait last now timer with timer := none }
  have l1 : leaked f = 1 := by
    show leaked { wait last now timer with timer := none } = 1
    unfold leaked wait
    simp only [h1, Nat.add_sub_cancel_left]
  have n1 : needsQueueing f 1000 = (true, f) := by
    have hc : f.counter = 1000 := rfl
    have hm : f.max = 1000 := rfl
    rcases needs_cases f 1000 (by omega) with ⟨h, _⟩ | ⟨_, h, _⟩ | ⟨_, _, h⟩
    · omega
    · omega
    · exact h
  show (if timer ≤ now then some (timerCb f) else none) = _
  rw [if_pos h2]
  have hq : f.queue = [⟨1000000, 1000⟩] := rfl
  unfold timerCb
  rw [hq]
  simp only [n1]
  unfold timerCfg
  rw [hq]
  simp only
  rw [if_pos (by show (100 : Nat) ≠ 0; omega)]
  have e : (1000 * 1000 % 2 ^ 32 / 100 * 1000 : Nat) = 10000000 := by decide
  have : f.rate = 100 := rfl
  rw [this, e]
  rfl

theorem hungry_round (n t : Nat) : ∃ f1 f2 f3, step (hungry t) (.tick 9990000) = some (f1, []) ∧ step f1 (.pdu ⟨n, 1000⟩) = some (f2, [.direct ⟨n, 1000⟩]) ∧
    step f2 (.tick 10000) = some (f3, []) ∧ step f3 .expire = some (hungry (t + 10000000), []) ∧
    f1.timer = some (t + 10010000) ∧ f2.timer = some (t + 10010000) ∧ f3.timer = some (t + 10010000) ∧
    f1.now = t + 10000000 ∧ f2.now = t + 10000000 ∧ f3.now = t + 10010000 := by
  refine ⟨wait t (t + 10000000) (t + 10010000), wait (t + 10000000) (t + 10000000) (t + 10010000),
    wait (t + 10000000) (t + 10010000) (t + 10010000), ?_, wait_pdu n rfl, ?_, ?_, rfl, rfl, rfl, rfl, rfl, rfl⟩
  · simp only [step, hungry, wait, Nat.add_assoc]
  · simp only [step, wait, Nat.add_assoc]
  · rw [wait_expire (by omega) (Nat.le_refl _)]
    simp only [hungry, Nat.add_assoc]

theorem hungry_rounds : ∀ n t : Nat, ∃ evs, run (hungry t) (rounds n) = some (hungry (t + 10000000 * n), evs) ∧ bytes evs = 1000 * n ∧ left evs = [] ∧
    Prompt 0 (hungry t) (rounds n)
  | 0, t => by
    refine ⟨[], rfl, rfl, rfl, ?_⟩
    intro d hd
    cases hd
    show t + 10000 ≤ _
    omega
  | n + 1, t => by
    obtain ⟨f1, f2, f3, s1, s2, s3, s4, t1, t2, t3, w1, w2, w3⟩ := hungry_round n t
    obtain ⟨evs, r1, r2, r3, r4⟩ := hungry_rounds n (t + 10000000)
    refine ⟨.direct ⟨n, 1000⟩ :: evs, ?_, ?_, r3, ?_⟩
    · unfold rounds
      rw [run_step s1, run_step s2, run_step s3, run_step s4, r1]
      have : t + 10000000 + 10000000 * n = t + 10000000 * (n + 1) := by ring
      rw [this]
      rfl
    · simp only [bytes, r2]; ring
    · refine ⟨fun d hd => ?_, fun g1 e1 h1 => ?_⟩
      · cases hd
        show t + 10000 ≤ _
        omega
      rw [s1] at h1; cases h1
      refine ⟨fun d hd => ?_, fun g2 e2 h2 => ?_⟩
      · rw [t1] at hd; cases hd; omega
      rw [s2] at h2; cases h2
      refine ⟨fun d hd => ?_, fun g3 e3 h3 => ?_⟩
      · rw [t2] at hd; cases hd; omega
      rw [s3] at h3; cases h3
      refine ⟨fun d hd => ?_, fun g4 e4 h4 => ?_⟩
      · rw [t3] at hd; cases hd; omega
      rw [s4] at h4; cases h4
      exact r4

/-- **A message may wait for ever while others pass** (src/gb/gprs_bssgp.c:742-763, 903-913): those that come in do not look at the queue, and the timer starts
anew if there is no room. With the timer on time, `n` messages of 1000 pass in `n` times 10 s, and the one queued before them still waits -/
theorem bssgp_fc_starve_counterexample (n : Nat) : ∃ fc evs fc' evs', run (init 1000 100 5 0) [.pdu ⟨1000001, 1000⟩, .tick 10000, .pdu ⟨1000000, 1000⟩] = some (fc, evs) ∧
    Prompt 0 fc (rounds n) ∧ run fc (rounds n) = some (fc', evs') ∧ bytes evs' = 1000 * n ∧ fc'.queue = [⟨1000000, 1000⟩] ∧ fc'.now = fc.now + 10000000 * n := by
  obtain ⟨evs', r1, r2, r3, r4⟩ := hungry_rounds n 0
  refine ⟨hungry 0, [.direct ⟨1000001, 1000⟩, .queued ⟨1000000, 1000⟩], _, evs', by decide, r4, r1, r2, rfl, ?_⟩
  show 0 + 10000000 * n + 10000 = 0 + 10000 + 10000000 * n
  omega

end Verif.BssgpFc
