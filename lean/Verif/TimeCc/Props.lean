import Verif.TimeCc.Model
import Mathlib.Tactic.Linarith
import Mathlib.Tactic.Ring
/-!
The rate counter of `osmo_time_cc` counts the time the flag was true (C76).
-/
namespace Verif.TimeCc

/-! ### What is to be counted -/

/-- periods of `G` counted for a time `x`, each as soon as `T` of it has passed -/
def passed (G T x : Nat) : Nat := (x + G - T) / G

/-- the times at which the count goes up are `T`, `T + G`, `T + 2 G`, … -/
theorem lt_passed {G T : Nat} (hT : 1 ≤ T) (hTG : T ≤ G) (x k : Nat) : k < passed G T x ↔ T + k * G ≤ x := by
  unfold passed
  rw [← Nat.succ_le_iff, Nat.le_div_iff_mul_le (by omega), Nat.succ_mul]
  omega

theorem passed_zero {G T : Nat} (hT : 1 ≤ T) (hTG : T ≤ G) : passed G T 0 = 0 := by
  unfold passed
  exact Nat.div_eq_of_lt (by omega)

theorem passed_mono {G T x y : Nat} (h : x ≤ y) : passed G T x ≤ passed G T y := Nat.div_le_div_right (by omega)

/-- a threshold of a whole period: the full periods, "floor" -/
theorem passed_floor {G : Nat} (x : Nat) : passed G G x = x / G := by unfold passed; rw [Nat.add_sub_cancel]

/-- a threshold of 1: the periods begun, "ceil" -/
theorem passed_ceil {G : Nat} (hG : 0 < G) (x k : Nat) : passed G 1 x ≤ k ↔ x ≤ k * G := by
  have := lt_passed (G := G) (T := 1) (by omega) (by omega) x k
  omega

/-- the count is never behind by more than the threshold, nor ahead by more than the rest -/
theorem passed_close {G T : Nat} (hT : 1 ≤ T) (hTG : T ≤ G) (x : Nat) :
    x < passed G T x * G + T ∧ passed G T x * G ≤ x + (G - T) := by
  unfold passed
  have h := Nat.div_add_mod (x + G - T) G
  have hl := Nat.mod_lt (x + G - T) (show 0 < G by omega)
  rw [Nat.mul_comm] at h
  omega

/-- what the flag has done so far: its state, since when (or since when it has been looked at), the time counted, the whole time, and the
periods counted of times forgotten -/
structure Ref where
  flag : Bool
  since : Nat
  acc : Nat
  total : Nat
  done : Nat

/-- what happens: the flag is reported, or the timer fires -/
inductive Ev where
  | set (t : Nat) (b : Bool)
  | fire (t : Nat)

def Ev.time : Ev → Nat
  | .set t _ => t
  | .fire t => t

/-- a change ends a time of the flag being true or false; a timer firing when the flag has been false for `forget` drops the time counted -/
def Ref.step (G T forget : Nat) (r : Ref) : Ev → Ref
  | .set t b =>
    if b = r.flag then r
    else if r.flag then { r with flag := b, since := t, acc := r.acc + (t - r.since), total := r.total + (t - r.since) }
    else { r with flag := b, since := t }
  | .fire t => if r.flag = false ∧ forget ≠ 0 ∧ r.since + forget ≤ t then { r with acc := 0, done := r.done + passed G T r.acc } else r

/-- the time to be counted at a moment -/
def Ref.timeAt (r : Ref) (now : Nat) : Nat := r.acc + if r.flag then now - r.since else 0

/-- the count at a moment -/
def Ref.count (G T : Nat) (r : Ref) (now : Nat) : Nat := r.done + passed G T (r.timeAt now)

/-- the whole time the flag was true -/
def Ref.totalAt (r : Ref) (now : Nat) : Nat := r.total + if r.flag then now - r.since else 0

/-! ### The code -/

/-- the configured values are what the timer table, where one is used, says -/
def Steady (c : Cfg) : Prop :=
  ∀ ts, c.tdefs = some ts → (c.Tgran = 0 ∨ Tdef.get ts c.Tgran .us (-1) = some c.gran) ∧
    (c.Tthr = 0 ∨ Tdef.get ts c.Tthr .us (-1) = some c.thr) ∧ (c.Tforget = 0 ∨ Tdef.get ts c.Tforget .us (-1) = some c.forget)

/-- a configuration: values fixed, a threshold of at least one microsecond (a given one, or half of at least two), periods below 2^49 microseconds (17 years) -/
structure Sane (c : Cfg) : Prop where
  steady : Steady c
  pos : c.thr ≠ 0 ∨ 2 ≤ c.gran ∨ c.gran = 0
  gran : c.granUsec ≤ 2 ^ 49
  forget : c.forget ≤ 2 ^ 49

theorem granUsec_pos (c : Cfg) : 0 < c.granUsec := by
  unfold Cfg.granUsec; split <;> omega

theorem thrUsec_le (c : Cfg) : c.thrUsec ≤ c.granUsec := by
  unfold Cfg.thrUsec
  split
  · split <;> omega
  · omega

/-- the period: the one given, or a second -/
theorem timecc_period (c : Cfg) : (c.gran = 0 → c.granUsec = 1000000) ∧ (c.gran ≠ 0 → c.granUsec = c.gran) := by
  unfold Cfg.granUsec; constructor <;> intro h <;> simp [h]

/-- the threshold: the one given, but at most a period, or half a period -/
theorem timecc_threshold (c : Cfg) :
    (c.thr = 0 → c.thrUsec = c.granUsec / 2) ∧ (c.thr ≠ 0 → c.thrUsec = min c.thr c.granUsec) := by
  unfold Cfg.thrUsec
  constructor <;> intro h
  · simp [h]
  · rw [if_pos h]; split <;> omega

theorem Sane.thr {c : Cfg} (h : Sane c) : 1 ≤ c.thrUsec := by
  have a := timecc_threshold c
  have b := timecc_period c
  have g := granUsec_pos c
  have := h.pos
  by_cases h0 : c.thr = 0
  · rw [a.1 h0]
    by_cases h1 : c.gran = 0
    · rw [b.1 h1]; omega
    · rw [b.2 h1]; omega
  · rw [a.2 h0]; omega

theorem update_steady {s : State} (h : Steady s.cfg) (now : Nat) : update s now = some s := by
  unfold update
  cases ht : s.cfg.tdefs with
  | none => rfl
  | some ts =>
    obtain ⟨h1, h2, h3⟩ := h ts ht
    have e1 : updGran ts s.cfg = some (s.cfg, false) := by
      unfold updGran
      by_cases h0 : s.cfg.Tgran = 0
      · rw [if_neg (by simpa using h0)]
      · rw [if_pos h0, h1.resolve_left h0]
        simp
    have e2 : updThr ts s.cfg = some s.cfg := by
      unfold updThr
      by_cases h0 : s.cfg.Tthr = 0
      · rw [if_neg (by simpa using h0)]
      · rw [if_pos h0, h2.resolve_left h0]
        simp
    have e3 : updForget ts s.cfg = some (s.cfg, false) := by
      unfold updForget
      by_cases h0 : s.cfg.Tforget = 0
      · rw [if_neg (by simpa using h0)]
      · rw [if_pos h0, h3.resolve_left h0]
        simp
    simp only [e1, Option.bind_some]
    simp [e2, e3]

theorem sub64_of_le {a b : Nat} (ha : a < 2 ^ 64) (h : b ≤ a) : sub64 a b = a - b := by
  unfold sub64; omega

/-- the time passed is added -/
theorem countTime_true {s : State} (hf : s.flag = true) {now : Nat} (hn : now < 2 ^ 63) (hl : s.last ≤ now)
    (h1 : s.sum + (now - s.last) < 2 ^ 64) (h2 : s.total + (now - s.last) < 2 ^ 64) :
    countTime s now = { s with last := now, total := s.total + (now - s.last), sum := s.sum + (now - s.last) } := by
  unfold countTime
  simp only [hf, Bool.not_true, Bool.false_eq_true, if_false]
  rw [sub64_of_le (by omega) hl]
  simp only [w64]
  rw [Nat.mod_eq_of_lt h1, Nat.mod_eq_of_lt h2]

theorem countTime_false {s : State} (hf : s.flag = false) (now : Nat) : countTime s now = { s with last := now } := by
  unfold countTime
  simp [hf]

theorem report_eq {s : State} {G T x : Nat} (hG : s.cfg.granUsec = G) (hT : s.cfg.thrUsec = T) (hT1 : 1 ≤ T) (hTG : T ≤ G)
    (hG2 : G ≤ 2 ^ 49) (hr : s.reported = G * passed G T x) (hx : x ≤ s.sum) (hd : s.sum - x ≤ (2 ^ 31 - 2) * G) (hs : s.sum < 2 ^ 63) :
    report s = { s with ctr := s.ctr.map fun c => if passed G T x < passed G T s.sum then w64 (c + (passed G T s.sum - passed G T x)) else c,
                        reported := G * passed G T s.sum } := by
  have hm := passed_mono (G := G) (T := T) hx
  have hc := passed_close hT1 hTG x
  have hc' := passed_close hT1 hTG s.sum
  unfold report
  rw [hG, hT]
  by_cases h1 : s.reported > s.sum
  · rw [if_pos h1]
    have : passed G T s.sum = passed G T x := by
      have := (lt_passed hT1 hTG s.sum (passed G T x)).not
      rw [hr, Nat.mul_comm] at h1
      have : ¬ passed G T x < passed G T s.sum := by rw [this]; omega
      omega
    simp [this, ← hr]
  · rw [if_neg h1]
    rw [hr]
    have hle : G * passed G T x ≤ s.sum := by omega
    generalize hdel : s.sum - G * passed G T x = delta
    have hmod : delta - delta / G * G = delta % G := by
      have := Nat.div_add_mod delta G
      rw [Nat.mul_comm] at this
      omega
    have hn : passed G T s.sum = passed G T x + (delta / G + if delta % G ≥ T then 1 else 0) := by
      have e : s.sum + G - T = (delta + G - T) + G * passed G T x := by omega
      conv_lhs => unfold passed
      rw [e, Nat.add_mul_div_left _ _ (by omega), Nat.add_comm]
      congr 1
      have := Nat.div_add_mod delta G
      have hl := Nat.mod_lt delta (show 0 < G by omega)
      have e2 : delta + G - T = (delta % G + G - T) + G * (delta / G) := by omega
      rw [e2, Nat.add_mul_div_left _ _ (by omega), Nat.add_comm]
      congr 1
      split
      · rename_i hh
        rw [Nat.div_eq_iff (by omega)]; omega
      · rw [Nat.div_eq_of_lt (by omega)]
    have hdl : delta / G ≤ 2 ^ 31 - 2 := by
      apply Nat.le_of_lt_succ
      rw [Nat.div_lt_iff_lt_mul (by omega), Nat.succ_mul]
      rw [Nat.mul_comm] at hle
      have h2 := Nat.mul_comm G (passed G T x)
      omega
    simp only [hmod]
    have hn' : (if delta % G ≥ T then delta / G + 1 else delta / G) = delta / G + if delta % G ≥ T then 1 else 0 := by
      split <;> rfl
    rw [hn']
    generalize hk : (delta / G + if delta % G ≥ T then 1 else 0) = k at hn
    have hk2 : k ≤ 2 ^ 31 - 1 := by
      rw [← hk]; split <;> omega
    by_cases h0 : k = 0
    · rw [if_pos h0]
      have : passed G T s.sum = passed G T x := by omega
      simp [this, ← hr]
    · rw [if_neg h0, if_neg (by omega : ¬ k > 2 ^ 31 - 1)]
      have e3 : G * passed G T x + k * G = G * passed G T s.sum := by rw [hn]; ring
      have e4 : passed G T s.sum * G = G * passed G T s.sum := Nat.mul_comm _ _
      have e5 : passed G T x < passed G T s.sum := by omega
      have e6 : passed G T s.sum - passed G T x = k := by omega
      simp only [w64, e5, if_true, e6]
      rw [e3, Nat.mod_eq_of_lt (by omega)]

theorem toInt32_small {n : Nat} (h : n < 2 ^ 31) : toInt32 n = n := by
  unfold toInt32
  rw [BitVec.toInt_eq_toNat_of_lt (by rw [BitVec.toNat_ofNat]; omega), BitVec.toNat_ofNat]
  congr 1
  omega

theorem due_eq {now e : Nat} (h : now ≤ e) (hd : e - now < 2 ^ 31 * 1000000) :
    (now : Int) + toInt32 ((if e ≤ now then 0 else e - now) / 1000000) * 1000000
      + toInt32 ((if e ≤ now then 0 else e - now) % 1000000) = (e : Nat) := by
  have : (if e ≤ now then 0 else e - now) = e - now := by split <;> omega
  rw [this, toInt32_small (by omega), toInt32_small (by omega)]
  omega

/-- the moment of the next count while the flag is true -/
theorem schedule_true {s : State} (hs : Steady s.cfg) {now e : Nat} (hf : s.flag = true) (hr : s.reported < 2 ^ 64 ∧ s.sum < 2 ^ 64)
    (he : now + s.reported + s.cfg.thrUsec = e + s.sum) (hn : now ≤ e) (hd : e - now < 2 ^ 31 * 1000000) (hb : e < 2 ^ 64 - 1) :
    schedule s now = some { s with timer := some (e : Int) } := by
  unfold schedule
  rw [update_steady hs, Option.map_some]
  have h1 : nextEvent s now = e := by
    unfold nextEvent osmoMin sub64 w64
    simp only [hf]
    simp only [not_true_eq_false, false_and, and_false, if_false, if_true]
    have : ((now + (s.reported % 2 ^ 64 + (2 ^ 64 - s.sum % 2 ^ 64)) % 2 ^ 64) % 2 ^ 64 + s.cfg.thrUsec) % 2 ^ 64 = e := by omega
    rw [this, if_pos (by omega)]
  simp only [h1]
  rw [if_neg (by omega), due_eq hn hd]

/-- the moment of forgetting while the flag is false -/
theorem schedule_forget {s : State} (hs : Steady s.cfg) {now : Nat} (hf : s.flag = false) (h0 : s.cfg.forget ≠ 0) (hsum : 0 < s.sum)
    (hn : now ≤ s.last + s.cfg.forget) (hd : s.last + s.cfg.forget - now < 2 ^ 31 * 1000000) (hb : s.last + s.cfg.forget < 2 ^ 64 - 1) :
    schedule s now = some { s with timer := some ((s.last + s.cfg.forget : Nat) : Int) } := by
  unfold schedule
  rw [update_steady hs, Option.map_some]
  have h1 : nextEvent s now = s.last + s.cfg.forget := by
    unfold nextEvent osmoMin w64
    simp only [hf, Bool.false_eq_true, if_false, not_false_eq_true, true_and]
    rw [if_pos ⟨h0, hsum⟩, Nat.mod_eq_of_lt (by omega), if_pos (by omega)]
  simp only [h1]
  rw [if_neg (by omega), due_eq hn hd]

/-- nothing to come -/
theorem schedule_idle {s : State} (hs : Steady s.cfg) {now : Nat} (hf : s.flag = false) (h0 : s.cfg.forget = 0 ∨ s.sum = 0) :
    schedule s now = some s := by
  unfold schedule
  rw [update_steady hs, Option.map_some]
  have h1 : nextEvent s now = 2 ^ 64 - 1 := by
    unfold nextEvent
    simp only [hf, Bool.false_eq_true, if_false, not_false_eq_true, true_and]
    rw [if_neg (by rintro ⟨a, b⟩; omega)]
  simp only [h1]
  rw [if_pos trivial]

/-- the code's state, after events up to `n`, beside what was to be counted -/
structure Inv (c : Cfg) (c0 : Option Nat) (t0 n : Nat) (s : State) (r : Ref) : Prop where
  cfg : s.cfg = c
  started : s.start ≠ 0
  flag : s.flag = r.flag
  order : t0 ≤ r.since ∧ r.since ≤ s.last ∧ s.last ≤ n ∧ n < 2 ^ 62
  sumTrue : r.flag = true → s.sum = r.acc + (s.last - r.since)
  sumFalse : r.flag = false → s.sum = r.acc ∧ (0 < r.acc → s.last = r.since)
  total : s.total = r.totalAt s.last
  small : s.sum ≤ s.total ∧ s.total ≤ s.last
  reported : s.reported = c.granUsec * passed c.granUsec c.thrUsec s.sum
  ctr : s.ctr = c0.map fun k => w64 (k + (r.done + passed c.granUsec c.thrUsec s.sum))
  timerTrue : r.flag = true → s.timer = some ((s.last + s.reported + c.thrUsec - s.sum : Nat) : Int)
  timerFalse : r.flag = false → c.forget ≠ 0 → 0 < s.sum → s.timer = some ((s.last + c.forget : Nat) : Int)
  c0 : ∀ k, c0 = some k → k < 2 ^ 64

theorem w64_add (c a b : Nat) (h : a ≤ b) : w64 (w64 (c + a) + (b - a)) = w64 (c + b) := by
  unfold w64; omega

/-- counting and reporting while the flag is true -/
theorem count_report {c : Cfg} (hc : Sane c) {c0 : Option Nat} {t0 n : Nat} {s : State} {r : Ref} (h : Inv c c0 t0 n s r)
    (hf : r.flag = true) {t : Nat} (ht : n ≤ t) (htb : t < 2 ^ 62) (hg : t - s.last ≤ (2 ^ 31 - 2) * c.granUsec) :
    report (countTime s t) =
      { s with last := t, total := s.total + (t - s.last), sum := s.sum + (t - s.last),
               ctr := c0.map fun k => w64 (k + (r.done + passed c.granUsec c.thrUsec (s.sum + (t - s.last)))),
               reported := c.granUsec * passed c.granUsec c.thrUsec (s.sum + (t - s.last)) } := by
  have ho := h.order
  have hsm := h.small
  rw [countTime_true (h.flag.trans hf) (by omega) (by omega) (by omega) (by omega)]
  rw [report_eq (G := c.granUsec) (T := c.thrUsec) (x := s.sum) (by simp only [h.cfg]) (by simp only [h.cfg]) hc.thr (thrUsec_le c)
    hc.gran (by simpa using h.reported) (by simp only; omega) (by simp only; omega) (by simp only; omega)]
  simp only
  have hm := passed_mono (G := c.granUsec) (T := c.thrUsec) (show s.sum ≤ s.sum + (t - s.last) by omega)
  congr 1
  rw [h.ctr, Option.map_map]
  cases hc0 : c0 with
  | none => rfl
  | some k =>
    simp only [Option.map_some, Function.comp_apply, Option.some.injEq]
    split
    · rw [← w64_add k (r.done + passed c.granUsec c.thrUsec s.sum) (r.done + passed c.granUsec c.thrUsec (s.sum + (t - s.last))) (by omega)]
      congr 2
      omega
    · have : passed c.granUsec c.thrUsec s.sum = passed c.granUsec c.thrUsec (s.sum + (t - s.last)) := by omega
      rw [this]

/-- the timer of a true flag: later than the last look, by no more than a period -/
theorem due_bounds {c : Cfg} (hc : Sane c) (x : Nat) :
    x < c.granUsec * passed c.granUsec c.thrUsec x + c.thrUsec ∧
      c.granUsec * passed c.granUsec c.thrUsec x + c.thrUsec ≤ x + c.granUsec := by
  have := passed_close hc.thr (thrUsec_le c) x
  have h1 := thrUsec_le c
  rw [Nat.mul_comm]
  omega

/-- the flag is reported -/
theorem set_inv {c : Cfg} (hc : Sane c) {c0 : Option Nat} {t0 n : Nat} {s : State} {r : Ref} (h : Inv c c0 t0 n s r)
    {t : Nat} (b : Bool) (ht : n ≤ t) (htb : t < 2 ^ 62) (hg : r.flag = true → t - s.last ≤ (2 ^ 31 - 2) * c.granUsec) :
    ∃ s', setFlag s t b = some s' ∧ Inv c c0 t0 t s' (r.step c.granUsec c.thrUsec c.forget (.set t b)) ∧
      (b ≠ r.flag → s'.last = t) := by
  have ho := h.order
  have hsm := h.small
  have hgr := hc.gran
  have hfg := hc.forget
  unfold setFlag
  rw [if_neg h.started, Option.bind_some, h.flag]
  by_cases hb : b = r.flag
  · rw [if_pos hb]
    refine ⟨s, rfl, ?_, fun hh => absurd hb hh⟩
    rw [Ref.step, if_pos hb]
    exact { h with order := by omega }
  rw [if_neg hb]
  rw [Ref.step, if_neg hb]
  cases hf : r.flag with
  | true =>
    have hb' : b = false := by rw [hf] at hb; simpa using hb
    subst hb'
    rw [count_report hc h hf ht htb (hg hf)]
    simp only [if_true]
    have hsum := h.sumTrue hf
    have htot := h.total
    rw [Ref.totalAt, hf] at htot
    simp only [if_true] at htot
    have e1 : s.sum + (t - s.last) = r.acc + (t - r.since) := by omega
    have e2 : s.total + (t - s.last) = r.total + (t - r.since) := by omega
    by_cases hfo : c.forget ≠ 0 ∧ 0 < s.sum + (t - s.last)
    · rw [schedule_forget (by simpa [h.cfg] using hc.steady) rfl (by simpa [h.cfg] using hfo.1) (by simpa using hfo.2)
        (by simp only [h.cfg]; omega) (by simp only [h.cfg]; omega) (by simp only [h.cfg]; omega)]
      refine ⟨_, rfl, ?_, fun _ => rfl⟩
      exact {
        cfg := h.cfg, started := h.started, flag := rfl, order := by simp only; omega, sumTrue := by simp
        sumFalse := fun _ => ⟨e1, fun _ => rfl⟩, total := by simp [Ref.totalAt, e2], small := by simp only; omega
        reported := rfl, ctr := rfl, timerTrue := by simp
        timerFalse := fun _ _ _ => by simp only [h.cfg], c0 := h.c0 }
    · rw [schedule_idle (by simpa [h.cfg] using hc.steady) rfl (by simp only [h.cfg]; omega)]
      refine ⟨_, rfl, ?_, fun _ => rfl⟩
      exact {
        cfg := h.cfg, started := h.started, flag := rfl, order := by simp only; omega, sumTrue := by simp
        sumFalse := fun _ => ⟨e1, fun _ => rfl⟩, total := by simp [Ref.totalAt, e2], small := by simp only; omega
        reported := rfl, ctr := rfl, timerTrue := by simp
        timerFalse := fun _ h1 h2 => absurd ⟨h1, h2⟩ hfo, c0 := h.c0 }
  | false =>
    have hb' : b = true := by rw [hf] at hb; simpa using hb
    subst hb'
    obtain ⟨hs1, hs2⟩ := h.sumFalse hf
    have htot := h.total
    rw [Ref.totalAt, hf] at htot
    simp only [Bool.false_eq_true, if_false, Nat.add_zero] at htot
    have hcr := passed_close hc.thr (thrUsec_le c) s.sum
    have hdb := due_bounds hc s.sum
    have hrep : report (countTime s t) = { s with last := t } := by
      rw [countTime_false (h.flag.trans hf)]
      rw [report_eq (s := { s with last := t }) (G := c.granUsec) (T := c.thrUsec) (x := s.sum) (by simp only [h.cfg])
        (by simp only [h.cfg]) hc.thr (thrUsec_le c) hc.gran (by simpa using h.reported) (Nat.le_refl _) (by simp) (by simp only; omega)]
      simp [← h.reported]
    rw [hrep]
    have hrp := h.reported
    rw [schedule_true (e := t + s.reported + c.thrUsec - s.sum) (by simpa [h.cfg] using hc.steady) rfl (by simp only; omega)
      (by simp only [h.cfg]; omega) (by omega) (by omega) (by omega)]
    simp only [Bool.false_eq_true, if_false]
    refine ⟨_, rfl, ?_, fun _ => rfl⟩
    exact {
      cfg := h.cfg, started := h.started, flag := rfl, order := by simp only; omega
      sumTrue := fun _ => by simp only; omega
      sumFalse := by simp, total := by simp [Ref.totalAt, htot], small := by simp only; omega
      reported := h.reported, ctr := h.ctr, timerTrue := fun _ => rfl
      timerFalse := by simp, c0 := h.c0 }

/-- the timer fires -/
theorem fire_inv {c : Cfg} (hc : Sane c) {c0 : Option Nat} {t0 n : Nat} {s : State} {r : Ref} (h : Inv c c0 t0 n s r)
    {t : Nat} (ht : n ≤ t) (htb : t < 2 ^ 62) (hg : r.flag = true → t - s.last ≤ (2 ^ 31 - 2) * c.granUsec)  :
    ∃ s', timerCb s t = some s' ∧ Inv c c0 t0 t s' (r.step c.granUsec c.thrUsec c.forget (.fire t)) ∧
      (r.flag = true → s'.last = t) := by
  obtain ⟨scfg, sflag, stotal, stimer, sstart, slast, ssum, sreported, sctr⟩ := s
  obtain rfl : scfg = c := h.cfg
  obtain rfl : sflag = r.flag := h.flag
  have ho := h.order
  have hsm := h.small
  have hgr := hc.gran
  have hfg := hc.forget
  have hsumT := h.sumTrue
  have hsumF := h.sumFalse
  have htot := h.total
  have hctr := h.ctr
  have hrep := h.reported
  have hst := h.started
  simp only at ho hsm hsumT hsumF htot hctr hrep hst hg
  unfold timerCb
  rw [update_steady hc.steady, Option.bind_some]
  have hp0 := passed_zero hc.thr (thrUsec_le scfg)
  by_cases hf : r.flag = true
  · have hstep : r.step scfg.granUsec scfg.thrUsec scfg.forget (.fire t) = r := by
      rw [Ref.step, if_neg (by rw [hf]; simp)]
    rw [hstep]
    have hcr := count_report hc h hf ht htb (hg hf)
    have hcr' : report (countTime ⟨scfg, r.flag, stotal, none, sstart, slast, ssum, sreported, sctr⟩ t) =
        { report (countTime ⟨scfg, r.flag, stotal, stimer, sstart, slast, ssum, sreported, sctr⟩ t) with timer := none } := by
      rw [hf]
      have e1 : countTime ⟨scfg, true, stotal, none, sstart, slast, ssum, sreported, sctr⟩ t =
        { countTime ⟨scfg, true, stotal, stimer, sstart, slast, ssum, sreported, sctr⟩ t with timer := none } := rfl
      rw [e1]
      generalize countTime ⟨scfg, true, stotal, stimer, sstart, slast, ssum, sreported, sctr⟩ t = q
      unfold report
      simp only
      split
      · rfl
      · split <;> (split <;> rfl)
    simp only [if_pos hf]
    rw [hcr', hcr]
    have hsum := hsumT hf
    rw [Ref.totalAt, hf] at htot
    simp only [if_true] at htot
    have hdb := due_bounds hc (ssum + (t - slast))
    rw [schedule_true (e := t + scfg.granUsec * passed scfg.granUsec scfg.thrUsec (ssum + (t - slast)) + scfg.thrUsec - (ssum + (t - slast)))
      hc.steady hf (by simp only; omega) (by simp only; omega) (by omega) (by omega) (by omega)]
    refine ⟨_, rfl, ?_, fun _ => rfl⟩
    exact {
      cfg := rfl, started := hst, flag := rfl, order := by simp only; omega
      sumTrue := fun _ => by simp only; omega
      sumFalse := by simp [hf]
      total := by simp only [Ref.totalAt, hf, if_true]; omega
      small := by simp only; omega
      reported := rfl, ctr := rfl, timerTrue := fun _ => rfl
      timerFalse := by simp [hf], c0 := h.c0 }
  · have hf' : r.flag = false := by simpa using hf
    obtain ⟨hs1, hs2⟩ := hsumF hf'
    rw [Ref.totalAt, if_neg hf, Nat.add_zero] at htot
    simp only [if_neg hf]
    by_cases hfo : scfg.forget ≠ 0 ∧ ssum ≠ 0 ∧ t ≥ w64 (slast + scfg.forget)
    · rw [if_pos hfo]
      have hle : slast + scfg.forget ≤ t := by
        have := hfo.2.2
        rw [w64, Nat.mod_eq_of_lt (by omega)] at this
        exact this
      have hsi := hs2 (by omega)
      rw [schedule_idle (s := forgetSum ⟨scfg, r.flag, stotal, none, sstart, slast, ssum, sreported, sctr⟩ t) hc.steady hf' (.inr rfl)]
      refine ⟨_, rfl, ?_, fun hh => absurd hh hf⟩
      rw [Ref.step, if_pos ⟨hf', hfo.1, by omega⟩]
      exact {
        cfg := rfl, started := hst, flag := rfl
        order := by simp only [forgetSum]; split <;> omega
        sumTrue := fun hh => absurd hh hf
        sumFalse := fun _ => ⟨rfl, by simp⟩
        total := by simp only [Ref.totalAt, hf, forgetSum]; simpa using htot
        small := by simp only [forgetSum]; split <;> omega
        reported := by simp [forgetSum, hp0]
        ctr := by simp only [forgetSum, hp0]; rw [hctr, hs1]; rfl
        timerTrue := fun hh => absurd hh hf
        timerFalse := by simp [forgetSum], c0 := h.c0 }
    · rw [if_neg hfo]
      by_cases h2 : scfg.forget ≠ 0 ∧ 0 < ssum
      · have hnf : ¬ slast + scfg.forget ≤ t := by
          intro hh
          refine hfo ⟨h2.1, by omega, ?_⟩
          rw [w64, Nat.mod_eq_of_lt (by omega)]
          exact hh
        have hsi := hs2 (by omega)
        rw [Ref.step, if_neg (by rintro ⟨-, -, hh⟩; omega)]
        rw [schedule_forget hc.steady hf' h2.1 h2.2 (by simp only; omega) (by simp only; omega) (by simp only; omega)]
        refine ⟨_, rfl, ?_, fun hh => absurd hh hf⟩
        exact {
          cfg := rfl, started := hst, flag := rfl, order := by simp only; omega
          sumTrue := fun hh => absurd hh hf, sumFalse := h.sumFalse
          total := h.total, small := h.small, reported := hrep, ctr := hctr, timerTrue := fun hh => absurd hh hf
          timerFalse := fun _ _ _ => rfl, c0 := h.c0 }
      · rw [schedule_idle hc.steady hf' (by simp only; omega)]
        refine ⟨_, rfl, ?_, fun hh => absurd hh hf⟩
        have hno : scfg.forget = 0 ∨ ssum = 0 := by omega
        have hr' : r.step scfg.granUsec scfg.thrUsec scfg.forget (.fire t) = r := by
          rw [Ref.step]
          split
          · rename_i hh
            have h0 : r.acc = 0 := by omega
            rw [h0, hp0]
            obtain ⟨a, b, cc, d, e⟩ := r
            simp only at h0
            simp [h0]
          · rfl
        rw [hr']
        exact {
          cfg := rfl, started := hst, flag := rfl, order := by simp only; omega
          sumTrue := fun hh => absurd hh hf, sumFalse := h.sumFalse
          total := h.total, small := h.small, reported := hrep, ctr := hctr, timerTrue := fun hh => absurd hh hf
          timerFalse := fun _ a b => absurd ⟨a, b⟩ h2, c0 := h.c0 }

end Verif.TimeCc
