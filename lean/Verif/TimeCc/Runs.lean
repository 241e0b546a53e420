import Verif.TimeCc.Props
/-!
Executions of `osmo_time_cc`: what the counter shows at every moment (C110).
-/
namespace Verif.TimeCc

/-- one event -/
def step (s : State) : Ev → Option State
  | .set t b => setFlag s t b
  | .fire t => timerCb s t

/-- a whole execution -/
def run (s : State) : List Ev → Option State
  | [] => some s
  | e :: es => (step s e).bind fun s => run s es

/-- src/core/time_cc.c:156-159 `osmo_time_cc_init` and a configuration set after it, with a counter at `ctr` -/
def init (c : Cfg) (ctr : Option Nat) : State :=
  { cfg := c, flag := false, total := 0, timer := none, start := 0, last := 0, sum := 0, reported := 0, ctr := ctr }

/-- nothing counted, the flag false -/
def Ref.zero (t : Nat) : Ref := { flag := false, since := t, acc := 0, total := 0, done := 0 }

theorem startUp_inv {c : Cfg} (hc : Sane c) {ctr : Option Nat} (hctr : ∀ k, ctr = some k → k < 2 ^ 64) {t : Nat} (h0 : 0 < t) (ht : t < 2 ^ 62) :
    ∃ s, startUp (init c ctr) t = some s ∧ Inv c ctr t t s (Ref.zero t) := by
  unfold startUp
  rw [update_steady hc.steady, Option.bind_some, schedule_idle hc.steady rfl (.inr rfl)]
  have hp0 := passed_zero hc.thr (thrUsec_le c)
  refine ⟨_, rfl, ?_⟩
  exact {
    cfg := rfl, started := by simp only; omega, flag := rfl, order := by simp [Ref.zero]; omega
    sumTrue := by simp [Ref.zero], sumFalse := by simp [Ref.zero, cleanup], total := by simp [Ref.zero, Ref.totalAt, cleanup]
    small := by simp [cleanup], reported := by simp [cleanup, hp0]
    ctr := by
      simp only [cleanup, hp0, init, Ref.zero, Nat.add_zero]
      cases ctr with
      | none => rfl
      | some k => simp only [Option.map_some, w64]; rw [Nat.mod_eq_of_lt (hctr k rfl)]
    timerTrue := by simp [Ref.zero], timerFalse := by simp [cleanup], c0 := hctr }

/-- times do not go back -/
def Ordered : Nat → List Ev → Prop
  | _, [] => True
  | n, e :: es => n ≤ e.time ∧ e.time < 2 ^ 62 ∧ Ordered e.time es

/-- what is to be counted after events -/
def Ref.run (G T forget : Nat) (r : Ref) (es : List Ev) : Ref := es.foldl (Ref.step G T forget) r

/-- the time of the last event -/
def lastTime (n : Nat) : List Ev → Nat
  | [] => n
  | e :: es => lastTime e.time es

theorem step_inv {c : Cfg} (hc : Sane c) {c0 : Option Nat} {t0 n : Nat} {s : State} {r : Ref} (h : Inv c c0 t0 n s r) (e : Ev)
    (ht : n ≤ e.time) (htb : e.time < 2 ^ 62) (hg : r.flag = true → e.time - s.last ≤ (2 ^ 31 - 2) * c.granUsec) :
    ∃ s', step s e = some s' ∧ Inv c c0 t0 e.time s' (r.step c.granUsec c.thrUsec c.forget e) := by
  cases e with
  | set t b => obtain ⟨s', a, b, -⟩ := set_inv hc h b ht htb hg; exact ⟨s', a, b⟩
  | fire t => obtain ⟨s', a, b, -⟩ := fire_inv hc h ht htb hg; exact ⟨s', a, b⟩

theorem ordered_mono {n m : Nat} (h : n ≤ m) {es : List Ev} (ho : Ordered m es) : Ordered n es := by
  cases es with
  | nil => trivial
  | cons e es => exact ⟨by have := ho.1; omega, ho.2⟩

theorem lastTime_ge {n : Nat} {es : List Ev} (h : Ordered n es) : n ≤ lastTime n es := by
  induction es generalizing n with
  | nil => exact Nat.le_refl _
  | cons e es ih => have := h.1; have := ih h.2.2; rw [lastTime]; omega

/-- the timer is late by fewer than 2^31 - 3 periods -- the greatest number of periods one report can add -/
def Tardy (c : Cfg) : State → List Ev → Prop
  | _, [] => True
  | s, e :: es => (∀ d, s.timer = some d → (e.time : Int) ≤ d + (2 ^ 31 - 3) * c.granUsec) ∧ ∀ s', step s e = some s' → Tardy c s' es

theorem tardy_gap {c : Cfg} (hc : Sane c) {c0 : Option Nat} {t0 n : Nat} {s : State} {r : Ref} (hi : Inv c c0 t0 n s r) (t : Nat)
    (hp : ∀ d, s.timer = some d → (t : Int) ≤ d + (2 ^ 31 - 3) * c.granUsec) (hf : r.flag = true) :
    t - s.last ≤ (2 ^ 31 - 2) * c.granUsec := by
  have ht := hp _ (hi.timerTrue hf)
  have hb := due_bounds hc s.sum
  have hr := hi.reported
  have := granUsec_pos c
  omega

theorem run_inv {c : Cfg} (hc : Sane c) {c0 : Option Nat} {t0 : Nat} {es : List Ev} {n : Nat} {s : State} {r : Ref}
    (h : Inv c c0 t0 n s r) (ho : Ordered n es) (hg : Tardy c s es) :
    ∃ s', run s es = some s' ∧ Inv c c0 t0 (lastTime n es) s' (r.run c.granUsec c.thrUsec c.forget es) := by
  induction es generalizing n s r with
  | nil => exact ⟨s, rfl, h⟩
  | cons e es ih =>
    obtain ⟨s1, h1, i1⟩ := step_inv hc h e ho.1 ho.2.1 (tardy_gap hc h _ hg.1)
    obtain ⟨s2, h2, i2⟩ := ih i1 ho.2.2 (hg.2 s1 h1)
    refine ⟨s2, ?_, i2⟩
    rw [run, h1, Option.bind_some, h2]

theorem start_run {c : Cfg} (hc : Sane c) {ctr : Option Nat} (hctr : ∀ k, ctr = some k → k < 2 ^ 64) {t : Nat} (b : Bool)
    (h0 : 0 < t) (ht : t < 2 ^ 62) :
    ∃ s0, Inv c ctr t t s0 (Ref.zero t) ∧ s0.timer = none ∧ setFlag (init c ctr) t b = setFlag s0 t b := by
  obtain ⟨s0, e0, i0⟩ := startUp_inv hc hctr h0 ht
  refine ⟨s0, i0, ?_, ?_⟩
  · unfold startUp at e0
    rw [update_steady hc.steady, Option.bind_some, schedule_idle hc.steady rfl (.inr rfl)] at e0
    cases e0; rfl
  · unfold setFlag
    rw [if_pos (show (init c ctr).start = 0 from rfl), e0, Option.bind_some, if_neg i0.started, Option.bind_some]

/-- a whole execution from the first report of the flag -/
theorem run_all {c : Cfg} (hc : Sane c) {ctr : Option Nat} (hctr : ∀ k, ctr = some k → k < 2 ^ 64) {t : Nat} {b : Bool} {es : List Ev}
    (h0 : 0 < t) (ho : Ordered t (.set t b :: es)) (hg : Tardy c (init c ctr) (.set t b :: es)) :
    ∃ s, run (init c ctr) (.set t b :: es) = some s ∧
      Inv c ctr t (lastTime t es) s ((Ref.zero t).run c.granUsec c.thrUsec c.forget (.set t b :: es)) := by
  obtain ⟨s0, i0, hs0, hset⟩ := start_run hc hctr b h0 ho.2.1
  have hg0 : Tardy c s0 (.set t b :: es) :=
    ⟨(fun d hd => by rw [hs0] at hd; cases hd), fun s' h' => hg.2 s' (by rw [step, hset]; exact h')⟩
  obtain ⟨s, e, i⟩ := run_inv hc (es := .set t b :: es) i0 ho hg0
  refine ⟨s, ?_, i⟩
  rw [run, step] at e ⊢
  rw [hset, e]

/-- no timer is overdue at a moment -/
def OnTime (s : State) (now : Nat) : Prop := ∀ d, s.timer = some d → (now : Int) < d

/-- what the counter shows is what is to be counted at every moment before the timer is due -/
theorem count_now {c : Cfg} (hc : Sane c) {c0 : Option Nat} {t0 n : Nat} {s : State} {r : Ref} (h : Inv c c0 t0 n s r) {now : Nat}
    (hn : n ≤ now) (hd : OnTime s now ∨ s.last = now) :
    s.ctr = c0.map fun k => w64 (k + r.count c.granUsec c.thrUsec now) := by
  rw [h.ctr]
  have ho := h.order
  have : passed c.granUsec c.thrUsec s.sum = passed c.granUsec c.thrUsec (r.timeAt now) := by
    by_cases hf : r.flag = true
    · have hs := h.sumTrue hf
      have hr := h.reported
      have hb := due_bounds hc s.sum
      have e : r.timeAt now = s.sum + (now - s.last) := by
        rw [Ref.timeAt, if_pos hf]; omega
      rw [e]
      rcases hd with hd | hd
      · have hd' := hd _ (h.timerTrue hf)
        have hm := passed_mono (G := c.granUsec) (T := c.thrUsec) (show s.sum ≤ s.sum + (now - s.last) by omega)
        have := (lt_passed hc.thr (thrUsec_le c) (s.sum + (now - s.last)) (passed c.granUsec c.thrUsec s.sum)).not
        have hmul := Nat.mul_comm c.granUsec (passed c.granUsec c.thrUsec s.sum)
        have : ¬ passed c.granUsec c.thrUsec s.sum < passed c.granUsec c.thrUsec (s.sum + (now - s.last)) := by
          rw [this]; omega
        omega
      · rw [hd]; simp
    · have hs := h.sumFalse (by simpa using hf)
      rw [Ref.timeAt, if_neg hf, hs.1, Nat.add_zero]
  rw [Ref.count, this]

/-- **The counter shows the time the flag was true.**  From the first report of the flag on, whatever is reported and however late the timer
fires: at every moment at which no timer is overdue -- and right after a change of the flag, or a timer firing with the flag true -- the
counter has gone up by the number of periods passed of the time the flag was true and not yet forgotten, plus those counted of times
forgotten.  The clock does not go back, and no timer is late by 2^31 - 3 periods. -/
theorem timecc_count (c : Cfg) (hc : Sane c) (ctr : Option Nat) (hctr : ∀ k, ctr = some k → k < 2 ^ 64) (t : Nat) (b : Bool) (es : List Ev)
    (h0 : 0 < t) (ho : Ordered t (.set t b :: es)) (hg : Tardy c (init c ctr) (.set t b :: es)) :
    ∃ s, run (init c ctr) (.set t b :: es) = some s ∧ ∀ now, lastTime t es ≤ now → OnTime s now ∨ s.last = now →
      s.ctr = ctr.map fun k => w64 (k + ((Ref.zero t).run c.granUsec c.thrUsec c.forget (.set t b :: es)).count c.granUsec c.thrUsec now) := by
  obtain ⟨s, e, i⟩ := run_all hc hctr h0 ho hg
  exact ⟨s, e, fun now hn hd => count_now hc i hn hd⟩

/-- **And `total_sum` is the whole time the flag was true**, as of the last time looked at -- which, after a change of the flag, is then. -/
theorem timecc_total (c : Cfg) (hc : Sane c) (ctr : Option Nat) (hctr : ∀ k, ctr = some k → k < 2 ^ 64) (t : Nat) (b : Bool) (es : List Ev)
    (h0 : 0 < t) (ho : Ordered t (.set t b :: es)) (hg : Tardy c (init c ctr) (.set t b :: es)) :
    ∃ s, run (init c ctr) (.set t b :: es) = some s ∧
      s.total = ((Ref.zero t).run c.granUsec c.thrUsec c.forget (.set t b :: es)).totalAt s.last ∧ s.last ≤ lastTime t es := by
  obtain ⟨s, e, i⟩ := run_all hc hctr h0 ho hg
  exact ⟨s, e, i.total, i.order.2.2.1⟩

/-! ### With timers on time: from the history of the flag alone -/

/-- the flag reported at a time -/
abbrev Hist := List (Nat × Bool)

/-- one report: a time of the flag being false, of `forget` or more, drops what was counted; a time of it being true is added -/
def Ref.change (G T forget : Nat) (r : Ref) (p : Nat × Bool) : Ref :=
  if p.2 = r.flag then r
  else if r.flag then { r with flag := false, since := p.1, acc := r.acc + (p.1 - r.since), total := r.total + (p.1 - r.since) }
  else if forget ≠ 0 ∧ r.since + forget ≤ p.1 then { r with flag := true, since := p.1, acc := 0, done := r.done + passed G T r.acc }
  else { r with flag := true, since := p.1 }

/-- what is to be counted after a history -/
def Ref.history (G T forget : Nat) (r : Ref) (h : Hist) : Ref := h.foldl (Ref.change G T forget) r

/-- the reports among the events -/
def reports : List Ev → Hist
  | [] => []
  | .set t b :: es => (t, b) :: reports es
  | .fire _ :: es => reports es

/-- nothing happens past the moment the timer is due, but that it fires -/
def Prompt (s : State) : Ev → Prop
  | .set t _ => OnTime s t
  | .fire t => s.timer = some (t : Int)

/-- an execution in which the timer fires when it is due, never later -/
def Punctual : State → List Ev → Prop
  | _, [] => True
  | s, e :: es => Prompt s e ∧ ∀ s', step s e = some s' → Punctual s' es

/-- with fires, beside the history alone -/
structure Same (G T forget n : Nat) (r h : Ref) : Prop where
  flag : r.flag = h.flag
  since : r.since = h.since
  total : r.total = h.total
  acc : (r.acc = h.acc ∧ r.done = h.done) ∨
    (r.flag = false ∧ r.acc = 0 ∧ r.done = h.done + passed G T h.acc ∧ forget ≠ 0 ∧ r.since + forget ≤ n)

theorem same_count {G T forget n : Nat} (hT : 1 ≤ T) (hTG : T ≤ G) {r h : Ref} (hs : Same G T forget n r h) (now : Nat) :
    r.count G T now = h.count G T now := by
  unfold Ref.count Ref.timeAt
  rw [← hs.flag, ← hs.since]
  rcases hs.acc with ⟨a, b⟩ | ⟨a, b, c, -⟩
  · rw [a, b]
  · rw [a, b, c]
    simp [passed_zero hT hTG]

theorem same_step {c : Cfg} (hc : Sane c) {c0 : Option Nat} {t0 n : Nat} {s : State} {r h : Ref} (hi : Inv c c0 t0 n s r)
    (hs : Same c.granUsec c.thrUsec c.forget n r h) (e : Ev) (ht : n ≤ e.time)
    (hp : Prompt s e) :
    Same c.granUsec c.thrUsec c.forget e.time (r.step c.granUsec c.thrUsec c.forget e)
      (h.history c.granUsec c.thrUsec c.forget (reports [e])) := by
  have hp0 := passed_zero hc.thr (thrUsec_le c)
  have ho := hi.order
  cases e with
  | fire t =>
    simp only [reports, Ref.history, List.foldl_nil, Ev.time] at ht ⊢
    rw [Ref.step]
    split
    · rename_i hh
      refine ⟨hs.flag, hs.since, hs.total, .inr ⟨hh.1, rfl, ?_, hh.2.1, hh.2.2⟩⟩
      rcases hs.acc with ⟨a, b⟩ | ⟨a, b, d, -⟩
      · simp only; rw [a, b]
      · simp only; rw [b, d, hp0]; rfl
    · refine ⟨hs.flag, hs.since, hs.total, ?_⟩
      rcases hs.acc with a | ⟨a, b, d, e, f⟩
      · exact .inl a
      · exact .inr ⟨a, b, d, e, by omega⟩
  | set t b =>
    simp only [reports, Ref.history, List.foldl_cons, List.foldl_nil, Ev.time] at ht ⊢
    rw [Ref.step, Ref.change]
    simp only
    by_cases hb : b = r.flag
    · rw [if_pos hb, if_pos (hs.flag ▸ hb)]
      refine ⟨hs.flag, hs.since, hs.total, ?_⟩
      rcases hs.acc with a | ⟨a, b, d, e, f⟩
      · exact .inl a
      · exact .inr ⟨a, b, d, e, by omega⟩
    · have hb2 : ¬ b = h.flag := fun hh => hb (hh.trans hs.flag.symm)
      rw [if_neg hb, if_neg hb2]
      by_cases hf : r.flag = true
      · rw [if_pos hf, if_pos (hs.flag ▸ hf)]
        have hbf : b = false := by cases b <;> simp_all
        rcases hs.acc with ⟨a, d⟩ | ⟨a, -⟩
        · exact ⟨hbf, rfl, by simp only; rw [hs.total, hs.since], .inl ⟨by simp only; rw [a, hs.since], d⟩⟩
        · rw [hf] at a; cases a
      · rw [if_neg hf, if_neg (hs.flag ▸ hf)]
        have hbt : b = true := by cases b <;> simp_all
        have hff : r.flag = false := by simpa using hf
        split
        · rename_i hh
          refine ⟨hbt, rfl, hs.total, .inl ?_⟩
          simp only
          rcases hs.acc with ⟨a, d⟩ | ⟨-, a, d, -⟩
          · by_cases h0 : r.acc = 0
            · rw [← a, h0, hp0]; exact ⟨rfl, d⟩
            · exfalso
              obtain ⟨g1, g2⟩ := hi.sumFalse hff
              have := hp _ (hi.timerFalse hff hh.1 (by omega))
              rw [g2 (by omega), hs.since] at this
              omega
          · exact ⟨a, d⟩
        · rename_i hh
          refine ⟨hbt, rfl, hs.total, .inl ?_⟩
          simp only
          rcases hs.acc with ⟨a, d⟩ | ⟨-, a, d, e, f⟩
          · exact ⟨a, d⟩
          · exact absurd ⟨e, by rw [← hs.since]; omega⟩ hh

theorem reports_cons (e : Ev) (es : List Ev) : reports (e :: es) = reports [e] ++ reports es := by
  cases e <;> rfl

/-- the timer of a true flag is never more than a period away -/
theorem punctual_gap {c : Cfg} (hc : Sane c) {c0 : Option Nat} {t0 n : Nat} {s : State} {r : Ref} (hi : Inv c c0 t0 n s r) (e : Ev)
    (hp : Prompt s e) (hf : r.flag = true) : e.time - s.last ≤ (2 ^ 31 - 2) * c.granUsec := by
  have ht := hi.timerTrue hf
  have hb := due_bounds hc s.sum
  have hr := hi.reported
  have hd : e.time ≤ s.last + s.reported + c.thrUsec - s.sum := by
    cases e with
    | set t b => have := hp _ ht; simp only [Ev.time]; omega
    | fire t =>
      rw [Prompt, ht] at hp
      simp only [Option.some.injEq] at hp
      simp only [Ev.time]; omega
  have := granUsec_pos c
  omega

theorem run_punctual {c : Cfg} (hc : Sane c) {c0 : Option Nat} {t0 : Nat} {es : List Ev} {n : Nat} {s : State} {r h : Ref}
    (hi : Inv c c0 t0 n s r) (hs : Same c.granUsec c.thrUsec c.forget n r h) (ho : Ordered n es) (hp : Punctual s es) :
    ∃ s' r', run s es = some s' ∧ Inv c c0 t0 (lastTime n es) s' r' ∧
      Same c.granUsec c.thrUsec c.forget (lastTime n es) r' (h.history c.granUsec c.thrUsec c.forget (reports es)) := by
  induction es generalizing n s r h with
  | nil => exact ⟨s, r, rfl, hi, hs⟩
  | cons e es ih =>
    obtain ⟨s1, h1, i1⟩ := step_inv hc hi e ho.1 ho.2.1 (punctual_gap hc hi e hp.1)
    have hs1 := same_step hc hi hs e ho.1 hp.1
    obtain ⟨s2, r2, h2, i2, hs2⟩ := ih i1 hs1 ho.2.2 (hp.2 s1 h1)
    refine ⟨s2, r2, ?_, i2, ?_⟩
    · rw [run, h1, Option.bind_some, h2]
    · rw [reports_cons, Ref.history, List.foldl_append]
      exact hs2

/-- **With timers on time the counter depends on the history of the flag alone.**  However often the flag is reported, and for as long as
the program runs: at every moment at which no timer is due, the counter has gone up by the number of periods passed of the time the flag
was true since it was last false for `forget_sum_usec` or more, plus the periods counted before. -/
theorem timecc_punctual (c : Cfg) (hc : Sane c) (ctr : Option Nat) (hctr : ∀ k, ctr = some k → k < 2 ^ 64) (t : Nat) (b : Bool) (es : List Ev)
    (h0 : 0 < t) (ho : Ordered t (.set t b :: es)) (hp : Punctual (init c ctr) (.set t b :: es)) :
    ∃ s, run (init c ctr) (.set t b :: es) = some s ∧ ∀ now, lastTime t es ≤ now → OnTime s now →
      s.ctr = ctr.map fun k =>
        w64 (k + ((Ref.zero t).history c.granUsec c.thrUsec c.forget ((t, b) :: reports es)).count c.granUsec c.thrUsec now) := by
  obtain ⟨s0, i0, hs0, hset⟩ := start_run hc hctr b h0 ho.2.1
  have hp0 : Punctual s0 (.set t b :: es) := ⟨(fun d hd => by rw [hs0] at hd; cases hd), fun s' h' => hp.2 s' (by rw [step, hset]; exact h')⟩
  obtain ⟨s, r, e, i, hs⟩ := run_punctual hc (es := .set t b :: es) (h := Ref.zero t) i0 ⟨rfl, rfl, rfl, .inl ⟨rfl, rfl⟩⟩ ho hp0
  refine ⟨s, ?_, fun now hn hd => ?_⟩
  · rw [run, step] at e ⊢
    rw [hset, e]
  · rw [count_now hc i (by simpa [lastTime, Ev.time] using hn) (.inl hd), same_count hc.thr (thrUsec_le c) hs now]
    rfl

/-- the pending timer of a true flag -/
theorem next_due {c : Cfg} (hc : Sane c) {c0 : Option Nat} {t0 n : Nat} {s : State} {r : Ref} (h : Inv c c0 t0 n s r) (hf : r.flag = true) :
    ∃ d : Nat, s.timer = some (d : Int) ∧ s.last < d ∧
      r.count c.granUsec c.thrUsec d = r.count c.granUsec c.thrUsec s.last + 1 ∧
      ∀ now, s.last ≤ now → now < d → r.count c.granUsec c.thrUsec now = r.count c.granUsec c.thrUsec s.last := by
  have ho := h.order
  have hs := h.sumTrue hf
  have hb := due_bounds hc s.sum
  have hr := h.reported
  have e : ∀ m, s.last ≤ m → r.timeAt m = s.sum + (m - s.last) := fun m hm => by rw [Ref.timeAt, if_pos hf]; omega
  have hmul := Nat.mul_comm c.granUsec (passed c.granUsec c.thrUsec s.sum)
  have hlast : passed c.granUsec c.thrUsec (r.timeAt s.last) = passed c.granUsec c.thrUsec s.sum := by rw [e _ (Nat.le_refl _)]; simp
  refine ⟨s.last + s.reported + c.thrUsec - s.sum, h.timerTrue hf, by omega, ?_, fun now h1 h2 => ?_⟩
  · unfold Ref.count
    rw [hlast, e _ (by omega)]
    have hx : s.sum + (s.last + s.reported + c.thrUsec - s.sum - s.last) = c.thrUsec + passed c.granUsec c.thrUsec s.sum * c.granUsec := by omega
    rw [hx]
    have a := lt_passed hc.thr (thrUsec_le c) (c.thrUsec + passed c.granUsec c.thrUsec s.sum * c.granUsec) (passed c.granUsec c.thrUsec s.sum)
    have b := lt_passed hc.thr (thrUsec_le c) (c.thrUsec + passed c.granUsec c.thrUsec s.sum * c.granUsec) (passed c.granUsec c.thrUsec s.sum + 1)
    have g := granUsec_pos c
    rw [Nat.succ_mul] at b
    omega
  · unfold Ref.count
    rw [hlast, e _ h1]
    have hm := passed_mono (G := c.granUsec) (T := c.thrUsec) (show s.sum ≤ s.sum + (now - s.last) by omega)
    have a := lt_passed hc.thr (thrUsec_le c) (s.sum + (now - s.last)) (passed c.granUsec c.thrUsec s.sum)
    omega

/-- **The timer comes when the counter is to go up**: whenever the flag is true, a timer is pending, for the first moment at which one more
period will have passed. -/
theorem timecc_next (c : Cfg) (hc : Sane c) (ctr : Option Nat) (hctr : ∀ k, ctr = some k → k < 2 ^ 64) (t : Nat) (b : Bool) (es : List Ev)
    (h0 : 0 < t) (ho : Ordered t (.set t b :: es)) (hg : Tardy c (init c ctr) (.set t b :: es)) :
    ∃ s, run (init c ctr) (.set t b :: es) = some s ∧ ∀ r, r = (Ref.zero t).run c.granUsec c.thrUsec c.forget (.set t b :: es) →
      r.flag = true → ∃ d : Nat, s.timer = some (d : Int) ∧ s.last < d ∧ s.last ≤ lastTime t es ∧
        r.count c.granUsec c.thrUsec d = r.count c.granUsec c.thrUsec s.last + 1 ∧
        ∀ now, s.last ≤ now → now < d → r.count c.granUsec c.thrUsec now = r.count c.granUsec c.thrUsec s.last := by
  obtain ⟨s, e, i⟩ := run_all hc hctr h0 ho hg
  refine ⟨s, e, fun r hr hf => ?_⟩
  subst hr
  obtain ⟨d, a1, a2, a3, a4⟩ := next_due hc i hf
  exact ⟨d, a1, a2, i.order.2.2.1, a3, a4⟩

/-! ### Clearing, and changes of the timer table -/

/-- **A cleared instance counts as one just initialised**, whatever it has counted before -/
theorem timecc_cleanup (s0 : State) (hc : Sane s0.cfg) (hctr : ∀ k, s0.ctr = some k → k < 2 ^ 64) (t : Nat) (b : Bool) (es : List Ev)
    (h0 : 0 < t) (ho : Ordered t (.set t b :: es)) (hg : Tardy s0.cfg (cleanup s0) (.set t b :: es)) :
    (cleanup s0).timer = none ∧ ∃ s, run (cleanup s0) (.set t b :: es) = some s ∧ ∀ now, lastTime t es ≤ now → OnTime s now ∨ s.last = now →
      s.ctr = s0.ctr.map fun k => w64 (k +
        ((Ref.zero t).run s0.cfg.granUsec s0.cfg.thrUsec s0.cfg.forget (.set t b :: es)).count s0.cfg.granUsec s0.cfg.thrUsec now) :=
  ⟨rfl, timecc_count s0.cfg hc s0.ctr hctr t b es h0 ho hg⟩

/-- **Looking at the timer table again changes neither flag, timer, counter nor total**; where nothing has been counted towards the next
period, or the period and the forgetting stay as they are, nothing is lost; otherwise what has been counted is forgotten. -/
theorem timecc_update {s s' : State} {now : Nat} (h : update s now = some s') :
    s'.flag = s.flag ∧ s'.timer = s.timer ∧ s'.ctr = s.ctr ∧ s'.total = s.total ∧ s'.start = s.start ∧
      ((s' = { s with cfg := s'.cfg } ∧ (s.sum = 0 ∨ (s'.cfg.granUsec = s.cfg.granUsec ∧ (s'.cfg.forget = 0 ∨ s'.cfg.forget = s.cfg.forget)))) ∨
        (s.sum ≠ 0 ∧ s'.sum = 0 ∧ s'.reported = 0 ∧ s'.last = max s.last now)) := by
  unfold update at h
  cases ht : s.cfg.tdefs with
  | none => simp [ht] at h; subst h; simp
  | some ts =>
    simp only [ht] at h
    obtain ⟨⟨c1, d1⟩, e1, h⟩ := Option.bind_eq_some_iff.1 h
    simp only at h
    obtain ⟨c2, e2, h⟩ := Option.bind_eq_some_iff.1 h
    obtain ⟨⟨c3, d2⟩, e3, h⟩ := Option.map_eq_some_iff.1 h
    have g1 : d1 = false → c1.granUsec = s.cfg.granUsec := by
      unfold updGran at e1
      split at e1
      · obtain ⟨g, -, e⟩ := Option.map_eq_some_iff.1 e1
        simp only [Prod.mk.injEq] at e
        obtain ⟨rfl, rfl⟩ := e
        intro hd
        exact (Classical.byContradiction fun hh => of_decide_eq_false hd fun h' => hh h'.symm)
      · simp only [Option.some.injEq, Prod.mk.injEq] at e1
        obtain ⟨rfl, rfl⟩ := e1
        simp
    have f1 : c1.forget = s.cfg.forget := by
      unfold updGran at e1
      split at e1
      · obtain ⟨g, -, e⟩ := Option.map_eq_some_iff.1 e1
        simp only [Prod.mk.injEq] at e
        obtain ⟨rfl, rfl⟩ := e
        rfl
      · simp only [Option.some.injEq, Prod.mk.injEq] at e1
        rw [← e1.1]
    have g2 : c2.granUsec = c1.granUsec ∧ c2.forget = c1.forget := by
      unfold updThr at e2
      split at e2
      · obtain ⟨g, -, rfl⟩ := Option.map_eq_some_iff.1 e2
        exact ⟨rfl, rfl⟩
      · simp only [Option.some.injEq] at e2
        rw [e2]; exact ⟨rfl, rfl⟩
    have g3 : c3.granUsec = c2.granUsec ∧ (d2 = false → c3.forget = 0 ∨ c3.forget = c2.forget) := by
      unfold updForget at e3
      split at e3
      · obtain ⟨g, -, e⟩ := Option.map_eq_some_iff.1 e3
        simp only [Prod.mk.injEq] at e
        obtain ⟨rfl, rfl⟩ := e
        refine ⟨rfl, fun hd => ?_⟩
        have := of_decide_eq_false hd
        simp only
        by_cases h0 : g = 0
        · exact .inl h0
        · refine .inr (Classical.byContradiction fun hh => this ⟨h0, fun h' => hh h'.symm⟩)
      · simp only [Option.some.injEq, Prod.mk.injEq] at e3
        obtain ⟨rfl, rfl⟩ := e3
        simp
    simp only at h
    by_cases hd : ((d1 || d2) && s.sum != 0) = true
    · rw [if_pos hd] at h
      subst h
      simp only [Bool.and_eq_true, bne_iff_ne] at hd
      refine ⟨rfl, rfl, rfl, rfl, rfl, .inr ⟨hd.2, rfl, rfl, ?_⟩⟩
      simp only [forgetSum]
      split <;> omega
    · rw [if_neg hd] at h
      subst h
      refine ⟨rfl, rfl, rfl, rfl, rfl, .inl ⟨rfl, ?_⟩⟩
      by_cases h0 : s.sum = 0
      · exact .inl h0
      · have hdd : d1 = false ∧ d2 = false := by
          simpa [h0] using hd
        refine .inr ⟨by simp only; rw [g3.1, g2.1, g1 hdd.1], ?_⟩
        rcases g3.2 hdd.2 with h' | h'
        · exact .inl h'
        · exact .inr (by simp only; rw [h', g2.2, f1])

/-! ### Where it goes wrong -/

/-- **A period of one microsecond with the default threshold counts one too many**: the threshold is then 0, and a flag true for 5
microseconds gives 6. -/
theorem timecc_gran1_counterexample :
    (run (init ⟨1, 0, 0, 0, 0, 0, none⟩ (some 0)) [.set 10 true, .set 15 false]).map (·.ctr) = some (some 6) := by decide

/-- **When the clock cannot be read, everything starts anew**: with a reading of 0 at the first report, the next report forgets the flag. -/
theorem timecc_clock_counterexample :
    (run (init ⟨2, 0, 0, 0, 0, 0, none⟩ (some 0)) [.set 0 true, .set 10 false, .set 20 false]).map (fun s => (s.ctr, s.total)) = some (some 0, 0) := by
  decide

/-- **A change of the granularity loses time also of `total_sum`**, which "does not get reset": true from 10, looked at at 3000010, changed
and looked at at 9000010, false at 9000020 -- 9000010 microseconds true, of which `total_sum` has 3000010. -/
theorem timecc_total_counterexample :
    let ts (g : Nat) : List Tdef.Entry := [⟨1, 1, .s, true, g, 0, 0⟩, ⟨0, 0, .s, false, 0, 0, 0⟩]
    let c : Cfg := ⟨0, 0, 0, 1, 0, 0, some (ts 1)⟩
    ((run (init c (some 0)) [.set 10 true, .fire 3000010]).bind fun s =>
      run { s with cfg := { s.cfg with tdefs := some (ts 2) } } [.fire 9000010, .set 9000020 false]).map (·.total) = some 3000010 := by
  decide

/-! True for 0.6 s, false for 10 s, true for 0.5 s: with the default one second and half a second, one for the first and, together, none
for the second; with forgetting after 5 s, one each. -/

def exCfg (forget : Nat) : Cfg := ⟨0, 0, forget, 0, 0, 0, none⟩

example (f : Nat) (h : f ≤ 2 ^ 49) : Sane (exCfg f) := ⟨(fun ts h => by cases h), by simp [exCfg], by simp [exCfg, Cfg.granUsec], h⟩
example : (run (init (exCfg 0) (some 7)) [.set 1 true, .fire 500001, .set 600001 false, .set 10600001 true, .set 11100001 false]).map (·.ctr)
    = some (some 8) := by decide
example : (run (init (exCfg 5000000) (some 7)) [.set 1 true, .fire 500001, .set 600001 false, .fire 5600001, .set 10600001 true,
    .set 11100001 false]).map (·.ctr) = some (some 9) := by decide
example : ((Ref.zero 1).history 1000000 500000 5000000 [(1, true), (600001, false), (10600001, true), (11100001, false)]).count
    1000000 500000 11100001 = 2 := by decide

end Verif.TimeCc
