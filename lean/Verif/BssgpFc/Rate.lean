import Verif.BssgpFc.Claims
import Mathlib.Tactic.Ring
/-!
# C116: the rate of BSSGP flow control
-/
namespace Verif.BssgpFc

/-- the bytes passed on -/
def bytes : List Ev → Nat
  | [] => 0
  | .direct p :: es | .unqueued p :: es => p.len + bytes es
  | _ :: es => bytes es

theorem bytes_append : ∀ a b : List Ev, bytes (a ++ b) = bytes a + bytes b
  | [], _ => by simp [bytes]
  | e :: a, b => by cases e <;> simp [bytes, bytes_append a b, Nat.add_assoc]

theorem bytes_flushed : ∀ q : List Pdu, bytes (q.map .flushed) = 0
  | [] => rfl
  | _ :: q => bytes_flushed q

/-- what leaked since the last PDU passed: the rate is rounded down to hundreds, the time to 10 ms -/
def leak (fc : Fc) : Nat := (fc.now - fc.last) / 10000 * (fc.rate / 100)

theorem leaked_le (fc : Fc) : leaked fc ≤ leak fc :=
  Nat.le_trans (Nat.mod_le _ _) (Nat.mul_le_mul_right _ (Nat.mod_le _ _))

theorem leaked_eq {fc : Fc} (h : leak fc < 2 ^ 32) : leaked fc = leak fc := by
  unfold leaked leak at *
  rcases Nat.eq_zero_or_pos (fc.rate / 100) with e | e
  · simp [e]
  · have : (fc.now - fc.last) / 10000 < 2 ^ 32 := by
      refine Nat.lt_of_le_of_lt ?_ h
      exact Nat.le_mul_of_pos_right _ e
    rw [Nat.mod_eq_of_lt this, Nat.mod_eq_of_lt h]

theorem needs_cases (fc : Fc) (n : Nat) (hw : fc.counter + n < 2 ^ 32) :
    (fc.counter < leaked fc ∧ needsQueueing fc n = (false, fc)) ∨
    (leaked fc ≤ fc.counter ∧ fc.counter + n ≤ fc.max + leaked fc ∧ needsQueueing fc n = (false, { fc with counter := fc.counter + n - leaked fc })) ∨
    (leaked fc ≤ fc.counter ∧ fc.max + leaked fc < fc.counter + n ∧ needsQueueing fc n = (true, fc)) := by
  unfold needsQueueing
  simp only [Nat.mod_eq_of_lt hw]
  split
  · rename_i h
    exact .inl ⟨by omega, rfl⟩
  · rename_i h
    split
    · rename_i h'
      refine .inr (.inl ⟨by omega, by omega, ?_⟩)
      have : (((fc.counter + n : Nat) : Int) - (leaked fc : Int)).toNat = fc.counter + n - leaked fc := by omega
      rw [this]
    · rename_i h'
      exact .inr (.inr ⟨by omega, by omega, rfl⟩)

/-- **When a message is passed on at once, when queued**: it fits the bucket, and with what leaked since the last one the bucket is empty, or has room -/
theorem bssgp_fc_pass {fc : Fc} {p : Pdu} (hl : leak fc < 2 ^ 32) (hw : fc.counter + p.len < 2 ^ 32) :
    (.direct p ∈ (fcIn fc p).2 ↔ p.len ≤ fc.max ∧ (fc.counter < leak fc ∨ fc.counter + p.len ≤ fc.max + leak fc)) ∧
    (.queued p ∈ (fcIn fc p).2 ↔ p.len ≤ fc.max ∧ leak fc ≤ fc.counter ∧ fc.max + leak fc < fc.counter + p.len ∧ fc.depth < fc.maxDepth) := by
  have hc := needs_cases fc p.len hw
  rw [leaked_eq hl] at hc
  unfold fcIn
  split
  · simp; omega
  · rcases hc with ⟨h1, h2⟩ | ⟨h1, h2, h3⟩ | ⟨h1, h2, h3⟩
    · rw [h2]; simp; omega
    · rw [h3]; simp; omega
    · rw [h3]
      simp only [enqueue]
      split
      · simp; omega
      · simp; omega

theorem timerCfg_rate (fc : Fc) : (timerCfg fc).max = fc.max ∧ (timerCfg fc).rate = fc.rate ∧ (timerCfg fc).counter = fc.counter ∧
    (timerCfg fc).last = fc.last ∧ (timerCfg fc).now = fc.now ∧ (timerCfg fc).queue = fc.queue := by
  unfold timerCfg
  split
  · simp
  · split <;> simp

/-- **The units of FLOW CONTROL BVC**: a bucket of `s` takes a message exactly up to `100 s` bytes, and the rate `r` is rounded down from `r` times 100 bit/s; the
level and what waits stay -/
theorem bssgp_fc_params {fc fc' : Fc} {evs : List Ev} {s r : Nat} (h : run fc [.params s r] = some (fc', evs)) :
    (∀ p : Pdu, .tooBig p ∈ (fcIn fc' p).2 ↔ 100 * s < p.len) ∧ 8 * fc'.rate ≤ 100 * r ∧ 100 * r < 8 * (fc'.rate + 1) ∧ fc'.counter = fc.counter ∧
      fc'.queue = fc.queue ∧ evs = [] := by
  cases h
  obtain ⟨t1, t2, t3, -, -, t6⟩ := timerCfg_rate { fc with max := 100 * s, rate := 100 * r / 8 }
  simp only at t1 t2 t3 t6
  refine ⟨fun p => ?_, by rw [params, t2]; omega, by rw [params, t2]; omega, t3, t6, rfl⟩
  have : (params fc s r).max = 100 * s := t1
  unfold fcIn
  rw [this]
  split
  · simp; omega
  · refine ⟨fun hx => ?_, fun hx => by omega⟩
    split at hx
    · unfold enqueue at hx
      split at hx <;> simp at hx
    · simp at hx

/-- the level of the bucket, the messages that wait and the time are in order -/
def Ok (fc : Fc) : Prop := fc.counter ≤ fc.max ∧ fc.last ≤ fc.now ∧ ∀ p ∈ fc.queue, p.len ≤ fc.max

/-- the parameters stay as they are -/
def NoParams (ops : List Op) : Prop := ∀ s r, Op.params s r ∉ ops

/-- whenever the bucket is asked, it has not run empty -/
def Busy (fc : Fc) (ops : List Op) : Prop :=
  ∀ pre o post fc' evs, ops = pre ++ o :: post → run fc pre = some (fc', evs) → ((∃ p, o = .pdu p) ∨ o = .expire) → leak fc' ≤ fc'.counter

/-- one step, of a bucket that may be empty -/
theorem step_ok {fc fc' : Fc} {o : Op} {ev : List Ev} (h : step fc o = some (fc', ev)) (hp : ∀ s r, o ≠ .params s r) (hm : fc.max < 2 ^ 31) (ok : Ok fc) :
    Ok fc' ∧ fc'.max = fc.max ∧ fc'.rate = fc.rate ∧ fc.last ≤ fc'.last ∧ fc.now ≤ fc'.now ∧
    (((∃ p, o = .pdu p) ∨ o = .expire → leak fc ≤ fc.counter) → bytes ev + fc.counter ≤ fc'.counter + (fc'.last - fc.last) / 10000 * (fc.rate / 100)) := by
  obtain ⟨ok1, ok2, ok3⟩ := ok
  cases o with
  | pdu p =>
    obtain ⟨rfl, rfl⟩ := Prod.ext_iff.1 (Option.some.inj h)
    unfold fcIn
    split
    · exact ⟨⟨ok1, ok2, ok3⟩, rfl, rfl, Nat.le_refl _, Nat.le_refl _, fun _ => by simp [bytes]⟩
    · rename_i hlen
      rcases needs_cases fc p.len (by omega) with ⟨h1, h2⟩ | ⟨h1, h2, h3⟩ | ⟨h1, h2, h3⟩
      · rw [h2]
        refine ⟨⟨ok1, Nat.le_refl _, ok3⟩, rfl, rfl, ok2, Nat.le_refl _, fun hb => ?_⟩
        have := hb (.inl ⟨p, rfl⟩)
        have := leaked_le fc
        omega
      · rw [h3]
        refine ⟨⟨?_, Nat.le_refl _, ok3⟩, rfl, rfl, ok2, Nat.le_refl _, fun _ => ?_⟩
        · show fc.counter + p.len - leaked fc ≤ fc.max
          omega
        · have := leaked_le fc
          unfold leak at this
          simp only [bytes]
          omega
      · rw [h3]
        simp only [enqueue]
        split
        · exact ⟨⟨ok1, ok2, ok3⟩, rfl, rfl, Nat.le_refl _, Nat.le_refl _, fun _ => by simp [bytes]⟩
        · obtain ⟨t1, t2, t3, t4, t5, t6⟩ := timerCfg_rate { fc with queue := fc.queue ++ [p], depth := fc.depth + 1 }
          simp only at t1 t2 t3 t4 t5 t6
          refine ⟨⟨by rw [t3, t1]; exact ok1, by rw [t4, t5]; exact ok2, ?_⟩, t1, t2, by rw [t4], by rw [t5], fun _ => by rw [t3]; simp [bytes]⟩
          rw [t6, t1]
          intro r hr
          rcases List.mem_append.1 hr with hr | hr
          · exact ok3 r hr
          · rw [List.mem_singleton] at hr
            subst hr; omega
  | expire =>
    simp only [step] at h
    split at h
    · split at h
      · obtain ⟨rfl, rfl⟩ := Prod.ext_iff.1 (Option.some.inj h)
        unfold timerCb
        split
        · exact ⟨⟨ok1, ok2, ok3⟩, rfl, rfl, Nat.le_refl _, Nat.le_refl _, fun _ => by simp [bytes]⟩
        · rename_i p q hq
          simp only at hq
          have hlen := ok3 p (by rw [hq]; exact List.mem_cons_self)
          have hl : leaked { fc with timer := none } = leaked fc := rfl
          rcases needs_cases { fc with timer := none } p.len (by simp only; omega) with ⟨h1, h2⟩ | ⟨h1, h2, h3⟩ | ⟨h1, h2, h3⟩
          · rw [h2]
            obtain ⟨t1, t2, t3, t4, t5, t6⟩ := timerCfg_rate { fc with timer := none, queue := q, depth := fc.depth - 1, last := fc.now }
            simp only at t1 t2 t3 t4 t5 t6
            refine ⟨⟨by rw [t3, t1]; exact ok1, by rw [t4, t5], ?_⟩, t1, t2, by rw [t4]; exact ok2, by rw [t5], fun hb => ?_⟩
            · rw [t6, t1]
              exact fun r hr => ok3 r (by rw [hq]; exact List.mem_cons_of_mem _ hr)
            · have := hb (.inr rfl)
              have := leaked_le fc
              simp only [hl] at h1
              omega
          · rw [h3]
            obtain ⟨t1, t2, t3, t4, t5, t6⟩ := timerCfg_rate
              { fc with timer := none, queue := q, depth := fc.depth - 1, last := fc.now, counter := fc.counter + p.len - leaked { fc with timer := none } }
            simp only [hl] at t1 t2 t3 t4 t5 t6 h1 h2
            refine ⟨⟨?_, ?_, ?_⟩, t1, t2, ?_, ?_, fun _ => ?_⟩ <;> simp only [hl]
            · rw [t3, t1]; omega
            · rw [t4, t5]
            · rw [t6, t1]
              exact fun r hr => ok3 r (by rw [hq]; exact List.mem_cons_of_mem _ hr)
            · rw [t4]; exact ok2
            · rw [t5]
            · rw [t3, t4]
              have := leaked_le fc
              unfold leak at this
              simp only [bytes]
              omega
          · rw [h3]
            obtain ⟨t1, t2, t3, t4, t5, t6⟩ := timerCfg_rate { fc with timer := none }
            simp only at t1 t2 t3 t4 t5 t6
            exact ⟨⟨by rw [t3, t1]; exact ok1, by rw [t4, t5]; exact ok2, by rw [t6, t1]; exact ok3⟩, t1, t2, by rw [t4], by rw [t5], fun _ => by rw [t3]; simp [bytes]⟩
      · cases h
    · cases h
  | params s r => exact absurd rfl (hp s r)
  | flush =>
    cases h
    exact ⟨⟨ok1, ok2, by simp⟩, rfl, rfl, Nat.le_refl _, Nat.le_refl _, fun _ => by simp [bytes_flushed]⟩
  | tick dt =>
    cases h
    exact ⟨⟨ok1, by show fc.last ≤ fc.now + dt; omega, ok3⟩, rfl, rfl, Nat.le_refl _, Nat.le_add_right _ _, fun _ => by simp [bytes]⟩

theorem run_cons {fc fc' : Fc} {o : Op} {os : List Op} {evs : List Ev} (h : run fc (o :: os) = some (fc', evs)) :
    ∃ fc1 ev evs', step fc o = some (fc1, ev) ∧ run fc1 os = some (fc', evs') ∧ evs = ev ++ evs' := by
  unfold run at h
  cases hs : step fc o with
  | none => rw [hs] at h; cases h
  | some r =>
    obtain ⟨fc1, ev⟩ := r
    rw [hs] at h
    simp only [Option.map_eq_some_iff] at h
    obtain ⟨⟨fc2, evs'⟩, h1, h2⟩ := h
    cases h2
    exact ⟨fc1, ev, evs', rfl, h1, rfl⟩

theorem run_step {fc fc1 : Fc} {o : Op} {ev : List Ev} (h : step fc o = some (fc1, ev)) (os : List Op) :
    run fc (o :: os) = (run fc1 os).map fun r => (r.1, ev ++ r.2) := by
  rw [run, h]

theorem run_ok : ∀ (ops : List Op) {fc fc' : Fc} {evs : List Ev}, run fc ops = some (fc', evs) → NoParams ops → fc.max < 2 ^ 31 → Ok fc →
    Ok fc' ∧ fc'.max = fc.max ∧ fc'.rate = fc.rate ∧ fc.last ≤ fc'.last ∧ fc.now ≤ fc'.now ∧
    (Busy fc ops → bytes evs + fc.counter ≤ fc'.counter + (fc'.last - fc.last) / 10000 * (fc.rate / 100))
  | [], fc, fc', evs, h, _, _, ok => by
    cases h
    exact ⟨ok, rfl, rfl, Nat.le_refl _, Nat.le_refl _, fun _ => by simp [bytes]⟩
  | o :: os, fc, fc', evs, h, hn, hm, ok => by
    obtain ⟨fc1, ev, evs', hs, h1, rfl⟩ := run_cons h
    obtain ⟨a1, a2, a3, a4, a5, a6⟩ := step_ok hs (fun s r e => hn s r (e ▸ List.mem_cons_self)) hm ok
    obtain ⟨b1, b2, b3, b4, b5, b6⟩ := run_ok os h1 (fun s r e => hn s r (List.mem_cons_of_mem _ e)) (by omega) a1
    refine ⟨b1, by omega, by omega, by omega, by omega, fun hb => ?_⟩
    have c1 := a6 (fun ho => hb [] o os fc [] rfl rfl ho)
    have c2 := b6 (fun pre o' post fc2 evs2 e hr ho => hb (o :: pre) o' post fc2 (ev ++ evs2) (by rw [e]; rfl) (by rw [run_step hs, hr]; rfl) ho)
    rw [bytes_append]
    rw [a3] at c2
    have : (fc1.last - fc.last) / 10000 * (fc.rate / 100) + (fc'.last - fc1.last) / 10000 * (fc.rate / 100) ≤
        (fc'.last - fc.last) / 10000 * (fc.rate / 100) := by
      rw [← Nat.add_mul]
      exact Nat.mul_le_mul_right _ (by omega)
    omega

/-- **The rate is kept while the bucket is in use**: from any state reached on (`pre`), while the parameters stay as they are and the bucket does not run
empty, no more is passed on than has room in the bucket, and leaks at the rate in the time from the last message passed before to the last one now.
What is missing: if the bucket runs empty what is passed is not counted (`bssgp_fc_rate_counterexample`). -/
theorem bssgp_fc_rate_partial {max rate depth now : Nat} {pre ops : List Op} {fc fc' : Fc} {evs0 evs : List Ev} (hm : max < 2 ^ 31)
    (h0 : run (init max rate depth now) pre = some (fc, evs0)) (h1 : run fc ops = some (fc', evs)) (n0 : NoParams pre) (n1 : NoParams ops) (hb : Busy fc ops) :
    1000000 * (bytes evs + fc.counter) ≤ 1000000 * max + rate * (fc'.last - fc.last) := by
  obtain ⟨a1, a2, a3, a4, a5, -⟩ := run_ok pre h0 n0 hm ⟨Nat.zero_le _, Nat.le_refl _, by simp [init]⟩
  obtain ⟨b1, b2, b3, b4, b5, b6⟩ := run_ok ops h1 n1 (by rw [a2]; exact hm) a1
  have c := b6 hb
  have hmax : fc'.max = max := by rw [b2, a2]; rfl
  have hrate : fc.rate = rate := by rw [a3]; rfl
  have := b1.1
  rw [hrate] at c
  have e : 1000000 * ((fc'.last - fc.last) / 10000 * (rate / 100)) ≤ rate * (fc'.last - fc.last) := by
    have e1 : (fc'.last - fc.last) / 10000 * 10000 ≤ fc'.last - fc.last := Nat.div_mul_le_self _ _
    have e2 : rate / 100 * 100 ≤ rate := Nat.div_mul_le_self _ _
    calc 1000000 * ((fc'.last - fc.last) / 10000 * (rate / 100)) = (rate / 100 * 100) * ((fc'.last - fc.last) / 10000 * 10000) := by ring
      _ ≤ rate * (fc'.last - fc.last) := Nat.mul_le_mul e2 e1
  omega

/-- after a message of the size of the bucket, one each second at rate 100 keeps it in use -/
example : ∃ fc evs, run (init 1000 100 5 0) [.pdu ⟨1, 1000⟩, .tick 1000000, .pdu ⟨2, 100⟩, .tick 1000000, .pdu ⟨3, 60⟩] = some (fc, evs) ∧
    bytes evs = 1160 ∧ fc.counter = 960 ∧ 1000000 * bytes evs ≤ 1000000 * 1000 + 100 * fc.last := ⟨_, _, rfl, by decide, by decide, by decide⟩

/-- 10 ms and a message of 1000, again and again -/
def flood : Nat → List Op
  | 0 => []
  | n + 1 => .tick 10000 :: .pdu ⟨n, 1000⟩ :: flood n

theorem flood_run : ∀ (n : Nat) (fc : Fc), fc.max = 1000 → fc.rate = 100 → fc.counter = 0 → fc.now = fc.last →
    ∃ fc' evs, run fc (flood n) = some (fc', evs) ∧ bytes evs = 1000 * n ∧ fc'.now = fc.now + 10000 * n
  | 0, fc, _, _, _, _ => ⟨fc, [], rfl, rfl, by simp⟩
  | n + 1, fc, h1, h2, h3, h4 => by
    have hl : leaked { fc with now := fc.now + 10000 } = 1 := by
      unfold leaked
      simp only [h2, h4, Nat.add_sub_cancel_left]
    have hin : fcIn { fc with now := fc.now + 10000 } ⟨n, 1000⟩ = ({ fc with now := fc.now + 10000, last := fc.now + 10000 }, [.direct ⟨n, 1000⟩]) := by
      have : needsQueueing { fc with now := fc.now + 10000 } 1000 = (false, { fc with now := fc.now + 10000 }) := by
        rcases needs_cases { fc with now := fc.now + 10000 } 1000 (by simp only [h3]; omega) with ⟨_, h⟩ | ⟨h, _⟩ | ⟨h, _⟩
        · exact h
        · rw [hl] at h; simp only [h3] at h; omega
        · rw [hl] at h; simp only [h3] at h; omega
      unfold fcIn
      rw [if_neg (by show ¬ 1000 > fc.max; omega)]
      simp only [this]
    obtain ⟨fc', evs, r1, r2, r3⟩ := flood_run n { fc with now := fc.now + 10000, last := fc.now + 10000 } h1 h2 h3 rfl
    refine ⟨fc', .direct ⟨n, 1000⟩ :: evs, ?_, ?_, ?_⟩
    · unfold flood
      have hs : step { fc with now := fc.now + 10000 } (.pdu ⟨n, 1000⟩) = some ({ fc with now := fc.now + 10000, last := fc.now + 10000 }, [.direct ⟨n, 1000⟩]) := by
        simp only [step, hin]
      rw [run_step (fc1 := { fc with now := fc.now + 10000 }) (ev := []) rfl, run_step hs, r1]
      rfl
    · simp only [bytes, r2]; ring
    · rw [r3]; simp only; ring

/-- **The rate is not kept if the bucket is empty** (src/gb/gprs_bssgp.c:867-868): a message that finds it empty is not counted, so the next finds it empty
again. Of bucket 1000 and rate 100, messages of 1000 each 10 ms all pass: 100000 bytes a second, as long as one likes -/
theorem bssgp_fc_rate_counterexample (n : Nat) : ∃ fc evs, run (init 1000 100 5 0) (flood n) = some (fc, evs) ∧ bytes evs = 1000 * n ∧ fc.now = 10000 * n := by
  obtain ⟨fc, evs, h1, h2, h3⟩ := flood_run n (init 1000 100 5 0) rfl rfl rfl rfl
  exact ⟨fc, evs, h1, h2, by rw [h3]; simp [init]⟩

/-- the level of the bucket of TS 48.018 8.2, with messages passed at times and of lengths, from a level at a time -/
def stdLevel (rate : Nat) : Nat → Nat → List (Nat × Nat) → Nat
  | level, _, [] => level
  | level, last, (t, len) :: xs => stdLevel rate (Nat.max len (level + len - (t - last) / 10000 * (rate / 100))) t xs

/-- **A message waits though there is room** (src/gb/gprs_bssgp.c:867-868): the level is not lowered by a message that finds the bucket empty. 20 s after
the bucket of 1000 was full, of a message of 1 and the next, the next waits; of the standard the level would be 2 -/
theorem bssgp_fc_level_counterexample : ((run (init 1000 100 5 0) [.pdu ⟨1, 1000⟩, .tick 20000000, .pdu ⟨2, 1⟩, .pdu ⟨3, 1⟩]).map (·.2)) =
    some [.direct ⟨1, 1000⟩, .direct ⟨2, 1⟩, .queued ⟨3, 1⟩] ∧ stdLevel 100 0 0 [(0, 1000), (20000000, 1), (20000000, 1)] = 2 := by decide

/-- **A message waits after a long time** (src/gb/gprs_bssgp.c:861): what leaked is computed modulo 2^32. With the parameters a BVC starts with
(src/gb/gprs_bssgp.c:229), 4 1/2 hours after the bucket was full, of two messages of 1500 bytes the second waits -/
theorem bssgp_fc_wrap_counterexample : ((run (init 100000 262144 30 0) [.pdu ⟨1, 100000⟩, .tick 16386760000, .pdu ⟨2, 1500⟩, .pdu ⟨3, 1500⟩]).map (·.2)) =
    some [.direct ⟨1, 100000⟩, .direct ⟨2, 1500⟩, .queued ⟨3, 1500⟩] := by decide

end Verif.BssgpFc
