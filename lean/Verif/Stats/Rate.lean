import Verif.Stats.RateModel
import Mathlib.Tactic.Ring
/-!
What a rate counter shows (C96), in terms of what the program did since the
counter was made.
-/
namespace Verif.Stats

/-- what happens to one counter -/
inductive Ev where
  | add (inc : BitVec 32)
  | diff
  | reset
  | tick
deriving DecidableEq, Repr

/-- the part of a call that concerns counter `i` of the group at `id` -/
def proj (id i : Nat) : Op → List Ev
  | .add id' i' inc => if id' = id ∧ i' = i then [.add inc] else []
  | .diff id' i' => if id' = id ∧ i' = i then [.diff] else []
  | .reset id' i' => if id' = id ∧ i' = i then [.reset] else []
  | .groupReset id' => if id' = id then [.reset] else []
  | .timer n => List.replicate n .tick
  | _ => []

/-- everything that happens to the counter during the calls -/
def events (id i : Nat) (ops : List Op) : List Ev := ops.flatMap (proj id i)

/-- the sum of what was added -/
def total : List Ev → Int
  | [] => 0
  | .add inc :: es => inc.toInt + total es
  | _ :: es => total es

/-- the clock after the events -/
def clock (t : U64) (es : List Ev) : U64 := t + BitVec.ofNat 64 (es.count .tick)

/-- the four intervals -/
inductive Intv where
  | sec | min | hour | day
deriving DecidableEq, Repr

/-- their length in seconds -/
def Intv.period : Intv → Nat
  | .sec => 1 | .min => 60 | .hour => 3600 | .day => 86400

/-- the data of one interval -/
def Ctr.per (c : Ctr) : Intv → PerIntv
  | .sec => c.sec | .min => c.min | .hour => c.hour | .day => c.day

/-- a period of `v` ends with the tick following `es` -/
def Ends (v : Intv) (t : U64) (es : List Ev) : Prop := (clock t (es ++ [.tick])).toNat % v.period = 0

/-- no period of `v` ends in `es` -/
def Quiet (v : Intv) (t : U64) (es : List Ev) : Prop := ∀ a b, es = a ++ .tick :: b → ¬ Ends v t a

/-- the history up to here leaves the counter zeroed -/
def Fresh (a : List Ev) : Prop := a = [] ∨ ∃ a', a = a' ++ [.reset]

/-- What counter `c` has to show after the events `es`, begun at clock `t`. -/
structure Shows (t : U64) (es : List Ev) (c : Ctr) : Prop where
  /-- the value is the sum of all increments since creation or reset -/
  current : ∀ a b, es = a ++ b → Fresh a → .reset ∉ b → c.current = BitVec.ofInt 64 (total b)
  /-- the difference that would be returned now is the sum of the increments since the last time -/
  diff : ∀ a b, es = a ++ b → (Fresh a ∨ ∃ a', a = a' ++ [.diff]) → .reset ∉ b → .diff ∉ b →
    c.difference.2 = BitVec.ofInt 64 (total b)
  /-- no period has ended since creation or reset: the rate is zero -/
  rate_none : ∀ v a b, es = a ++ b → Fresh a → .reset ∉ b → Quiet v (clock t a) b → (c.per v).rate = 0
  /-- one period has ended: the rate is the sum of the increments before that -/
  rate_first : ∀ v a b d, es = a ++ b ++ .tick :: d → Fresh a → .reset ∉ b → .reset ∉ d →
    Quiet v (clock t a) b → Ends v (clock t a) b → Quiet v (clock t (a ++ b ++ [.tick])) d →
    (c.per v).rate = BitVec.ofInt 64 (total b)
  /-- more than one has ended: the rate is the sum of the increments in the last complete period -/
  rate_last : ∀ v a b d, es = a ++ .tick :: b ++ .tick :: d → .reset ∉ b → .reset ∉ d →
    Ends v t a → Quiet v (clock t (a ++ [.tick])) b → Ends v (clock t (a ++ [.tick])) b →
    Quiet v (clock t (a ++ .tick :: b ++ [.tick])) d →
    (c.per v).rate = BitVec.ofInt 64 (total b)

/-! ### One counter -/

def evStep (t : U64) (c : Ctr) : Ev → U64 × Ctr
  | .add inc => (t, c.add inc)
  | .diff => (t, c.difference.1)
  | .reset => (t, Ctr.zero)
  | .tick => (t + 1, c.intv (t + 1))

def evRun : List Ev → U64 → Ctr → U64 × Ctr
  | [], t, c => (t, c)
  | e :: es, t, c => evRun es (evStep t c e).1 (evStep t c e).2

theorem evRun_append (a b : List Ev) (t : U64) (c : Ctr) :
    evRun (a ++ b) t c = evRun b (evRun a t c).1 (evRun a t c).2 := by
  induction a generalizing t c with
  | nil => rfl
  | cons e a ih => simp only [List.cons_append, evRun]; exact ih _ _

theorem clock_append (t : U64) (a b : List Ev) : clock t (a ++ b) = clock (clock t a) b := by
  unfold clock
  rw [List.count_append, BitVec.ofNat_add, BitVec.add_assoc]

theorem clock_nil (t : U64) : clock t [] = t := by simp [clock]

theorem evStep_clock (t : U64) (c : Ctr) (e : Ev) : (evStep t c e).1 = clock t [e] := by
  cases e <;> simp [evStep, clock]

theorem evRun_clock (es : List Ev) (t : U64) (c : Ctr) : (evRun es t c).1 = clock t es := by
  induction es generalizing t c with
  | nil => simp [evRun, clock]
  | cons e es ih =>
    rw [evRun, ih, evStep_clock, ← clock_append]
    rfl

theorem intv_current (t : U64) (c : Ctr) : (c.intv t).current = c.current ∧ (c.intv t).previous = c.previous := by
  unfold Ctr.intv
  dsimp only
  constructor <;> (split <;> split <;> split <;> rfl)

theorem sext (inc : BitVec 32) : inc.signExtend 64 = BitVec.ofInt 64 inc.toInt := by
  simp [BitVec.signExtend]

theorem run_current (es : List Ev) (h : .reset ∉ es) (t : U64) (c : Ctr) :
    (evRun es t c).2.current = c.current + BitVec.ofInt 64 (total es) := by
  induction es generalizing t c with
  | nil => simp [evRun, total]
  | cons e es ih =>
    simp only [List.mem_cons, not_or] at h
    rw [evRun, ih h.2]
    cases e with
    | add inc => simp [evStep, Ctr.add, total, sext, BitVec.ofInt_add, BitVec.add_assoc]
    | diff => simp [evStep, Ctr.difference, total]
    | reset => exact absurd rfl h.1
    | tick => simp [evStep, (intv_current _ _).1, total]

theorem run_previous (es : List Ev) (h : .reset ∉ es) (hd : .diff ∉ es) (t : U64) (c : Ctr) :
    (evRun es t c).2.previous = c.previous := by
  induction es generalizing t c with
  | nil => simp [evRun]
  | cons e es ih =>
    simp only [List.mem_cons, not_or] at h hd
    rw [evRun, ih h.2 hd.2]
    cases e with
    | add inc => simp [evStep, Ctr.add]
    | diff => exact absurd rfl hd.1
    | reset => exact absurd rfl h.1
    | tick => simp [evStep, (intv_current _ _).2]

theorem intv_per (v : Intv) (t : U64) (c : Ctr) :
    (c.intv t).per v = if t.toNat % v.period = 0 then ⟨c.current, c.current - (c.per v).last⟩ else c.per v := by
  unfold Ctr.intv
  cases v <;> simp only [Ctr.per, Intv.period, expired]
  · split <;> split <;> split <;> simp [Nat.mod_one]
  · by_cases h1 : t.toNat % 60 = 0 <;> by_cases h2 : t.toNat % (60 * 60) = 0 <;>
      by_cases h3 : t.toNat % (24 * 60 * 60) = 0 <;> simp [h1, h2, h3]
  · by_cases h1 : t.toNat % 60 = 0 <;> by_cases h2 : t.toNat % (60 * 60) = 0 <;>
      by_cases h3 : t.toNat % (24 * 60 * 60) = 0 <;> simp_all
  · by_cases h1 : t.toNat % 60 = 0 <;> by_cases h2 : t.toNat % (60 * 60) = 0 <;>
      by_cases h3 : t.toNat % (24 * 60 * 60) = 0 <;> simp_all

theorem quiet_cons {v : Intv} {t : U64} {e : Ev} {es : List Ev} (h : Quiet v t (e :: es)) :
    Quiet v (clock t [e]) es ∧ (e = .tick → (t + 1).toNat % v.period ≠ 0) := by
  constructor
  · intro a b hab he
    refine h (e :: a) b (by rw [hab]; rfl) ?_
    unfold Ends at *
    rw [← clock_append] at he
    exact he
  · intro he hq
    refine h [] es (by rw [he]; rfl) ?_
    simpa [Ends, clock] using hq

theorem run_per (v : Intv) (es : List Ev) (h : .reset ∉ es) (t : U64) (hq : Quiet v t es) (c : Ctr) :
    (evRun es t c).2.per v = c.per v := by
  induction es generalizing t c with
  | nil => simp [evRun]
  | cons e es ih =>
    simp only [List.mem_cons, not_or] at h
    obtain ⟨h1, h2⟩ := quiet_cons hq
    rw [evRun, ih h.2 _ (by rw [evStep_clock]; exact h1)]
    cases e with
    | add inc => cases v <;> rfl
    | diff => cases v <;> rfl
    | reset => exact absurd rfl h.1
    | tick =>
      simp only [evStep]
      rw [intv_per, if_neg (h2 rfl)]

/-- after the tick that ends a period -/
theorem run_end (v : Intv) (es : List Ev) (t : U64) (he : Ends v t es) (c : Ctr) :
    (evRun (es ++ [.tick]) t c).2.per v =
      ⟨(evRun es t c).2.current, (evRun es t c).2.current - ((evRun es t c).2.per v).last⟩ ∧
    (evRun (es ++ [.tick]) t c).2.current = (evRun es t c).2.current := by
  rw [evRun_append]
  simp only [evRun, evStep]
  refine ⟨?_, (intv_current _ _).1⟩
  rw [intv_per, if_pos]
  rw [evRun_clock]
  unfold Ends at he
  rw [clock_append] at he
  simpa [clock] using he

theorem fresh_run {a : List Ev} (ha : Fresh a) (t : U64) : (evRun a t Ctr.zero).2 = Ctr.zero := by
  rcases ha with rfl | ⟨a', rfl⟩
  · rfl
  · rw [evRun_append]; rfl

theorem zero_per (v : Intv) : Ctr.zero.per v = ⟨0, 0⟩ := by cases v <;> rfl

theorem shows_run (es : List Ev) (t : U64) : Shows t es (evRun es t Ctr.zero).2 where
  current := by
    rintro a b rfl ha hb
    rw [evRun_append, run_current b hb, fresh_run ha]
    simp [Ctr.zero]
  diff := by
    rintro a b rfl ha hb hd
    simp only [Ctr.difference]
    rw [evRun_append, run_current b hb, run_previous b hb hd]
    have : (evRun a t Ctr.zero).2.current = (evRun a t Ctr.zero).2.previous := by
      rcases ha with ha | ⟨a', rfl⟩
      · rw [fresh_run ha]; rfl
      · rw [evRun_append]; rfl
    rw [this]
    rw [BitVec.add_comm, BitVec.add_sub_cancel]
  rate_none := by
    rintro v a b rfl ha hb hq
    rw [evRun_append, run_per v b hb _ (by rw [evRun_clock]; exact hq), fresh_run ha, zero_per]
  rate_first := by
    rintro v a b d rfl ha hb hd hq he hq2
    rw [show a ++ b ++ Ev.tick :: d = (a ++ (b ++ [.tick])) ++ d by simp, evRun_append]
    rw [run_per v d hd _ (by rw [evRun_clock]; simpa using hq2), evRun_append]
    rw [(run_end v b _ (by rw [evRun_clock]; exact he) _).1]
    simp only
    rw [run_current b hb, run_per v b hb _ (by rw [evRun_clock]; exact hq), fresh_run ha, zero_per]
    simp [Ctr.zero]
  rate_last := by
    rintro v a b d rfl hb hd he1 hq1 he2 hq2
    rw [show a ++ Ev.tick :: b ++ Ev.tick :: d = ((a ++ [.tick]) ++ (b ++ [.tick])) ++ d by simp, evRun_append]
    rw [run_per v d hd _ (by rw [evRun_clock]; simpa using hq2), evRun_append]
    rw [(run_end v b _ (by rw [evRun_clock]; exact he2) _).1]
    simp only
    rw [run_current b hb, run_per v b hb _ (by rw [evRun_clock]; exact hq1)]
    rw [(run_end v a t he1 _).1, (run_end v a t he1 _).2]
    simp only
    rw [BitVec.add_comm, BitVec.add_sub_cancel]

/-! ### The whole system -/

/-- addresses are distinct and were given out -/
structure Inv (s : Sys) : Prop where
  nodup : (s.groups.map (·.id)).Nodup
  lt : ∀ g ∈ s.groups, g.id < s.next

/-- the counter in the system -/
def ctrAt (s : Sys) (id i : Nat) : Option Ctr := (s.groups.find? (·.id = id)).bind fun g => g.ctrs[i]?

theorem find_map_id (gs : List Group) (f : Group → Group) (hf : ∀ g, (f g).id = g.id) (id : Nat) :
    (gs.map f).find? (·.id = id) = (gs.find? (·.id = id)).map f := by
  induction gs with
  | nil => rfl
  | cons g gs ih =>
    simp only [List.map_cons, List.find?_cons, hf]
    split
    · simp
    · exact ih

theorem tick_ids (s : Sys) : (tick s).groups.map (·.id) = s.groups.map (·.id) := by
  simp [tick, Function.comp_def]

theorem tick_inv {s : Sys} (h : Inv s) : Inv (tick s) := by
  refine ⟨by rw [tick_ids]; exact h.1, ?_⟩
  intro g hg
  simp only [tick, List.mem_map] at hg
  obtain ⟨g', h', rfl⟩ := hg
  exact h.2 g' h'

theorem tick_ctrAt (s : Sys) (id i : Nat) : ctrAt (tick s) id i = (ctrAt s id i).map (Ctr.intv (s.ticks + 1)) := by
  unfold ctrAt tick
  dsimp only
  rw [find_map_id _ (fun g => { g with ctrs := g.ctrs.map (Ctr.intv (s.ticks + 1)) }) (fun _ => rfl)]
  cases s.groups.find? (·.id = id) with
  | none => rfl
  | some g => simp

theorem onGroup_spec {s s' : Sys} {id : Nat} {f : Group → Option Group}
    (hf : ∀ g g', f g = some g' → g'.id = g.id) (hi : Inv s) (h : onGroup s id f = some s') :
    Inv s' ∧ s'.ticks = s.ticks ∧ s'.next = s.next ∧
    (∃ g g', s.groups.find? (·.id = id) = some g ∧ f g = some g' ∧ s'.groups.find? (·.id = id) = some g') ∧
    ∀ id', id' ≠ id → s'.groups.find? (·.id = id') = s.groups.find? (·.id = id') := by
  unfold onGroup at h
  cases hg : s.groups.find? (·.id = id) with
  | none => simp [hg] at h
  | some g =>
    cases hg' : f g with
    | none => simp [hg, hg'] at h
    | some g' =>
      simp [hg, hg'] at h
      subst h
      have hid : g'.id = id := by
        rw [hf g g' hg']
        have := List.find?_some hg
        simpa using this
      have hmap : ∀ x : Group, (if x.id = id then g' else x).id = x.id := by
        intro x; split
        · rename_i h; rw [h, hid]
        · rfl
      refine ⟨⟨?_, ?_⟩, rfl, rfl, ⟨g, g', rfl, hg', ?_⟩, ?_⟩
      · simpa [Function.comp_def, hmap] using hi.1
      · intro x hx
        simp only [List.mem_map] at hx
        obtain ⟨y, hy, rfl⟩ := hx
        rw [hmap]; exact hi.2 y hy
      · dsimp only
        rw [find_map_id _ _ hmap, hg]
        have := List.find?_some hg
        simp at this
        simp [this]
      · intro id' hne
        dsimp only
        rw [find_map_id _ _ hmap]
        cases hq : s.groups.find? (·.id = id') with
        | none => rfl
        | some x =>
          have := List.find?_some hq
          simp at this
          have hne' : x.id ≠ id := by rw [this]; exact hne
          simp [hne']

theorem onCtr_id {i : Nat} {f : Ctr → Ctr} {g g' : Group} (h : onCtr i f g = some g') : g'.id = g.id := by
  unfold onCtr at h
  cases hc : g.ctrs[i]? with
  | none => simp [hc] at h
  | some c => simp [hc] at h; subst h; rfl

theorem onCtr_at {i : Nat} {f : Ctr → Ctr} {g g' : Group} (h : onCtr i f g = some g') (j : Nat) :
    g'.ctrs[j]? = if j = i then (g.ctrs[j]?).map f else g.ctrs[j]? := by
  unfold onCtr at h
  cases hc : g.ctrs[i]? with
  | none => simp [hc] at h
  | some c =>
    simp [hc] at h; subst h
    dsimp only
    by_cases hj : j = i
    · subst hj
      have : j < g.ctrs.length := by
        rcases Nat.lt_or_ge j g.ctrs.length with hl | hl
        · exact hl
        · rw [List.getElem?_eq_none hl] at hc; cases hc
      rw [if_pos rfl, hc, List.getElem?_set_self this]; rfl
    · rw [if_neg hj, List.getElem?_set_ne (by omega)]

theorem onCtr_sys {s s' : Sys} {id i : Nat} {f : Ctr → Ctr} (hi : Inv s) (h : onGroup s id (onCtr i f) = some s') :
    Inv s' ∧ s'.ticks = s.ticks ∧ s'.next = s.next ∧
    ∀ id' i', ctrAt s' id' i' = if id = id' ∧ i = i' then (ctrAt s id' i').map f else ctrAt s id' i' := by
  obtain ⟨h1, h2, h3, ⟨g, g', h4, h5, h6⟩, h7⟩ := onGroup_spec (fun _ _ => onCtr_id) hi h
  refine ⟨h1, h2, h3, ?_⟩
  intro id' i'
  unfold ctrAt
  by_cases hid : id = id'
  · subst hid
    rw [h4, h6]
    simp only [Option.bind_some, true_and]
    rw [onCtr_at h5]
    by_cases hii : i' = i
    · subst hii; simp
    · rw [if_neg hii, if_neg (fun h => hii h.symm)]
  · rw [h7 id' (fun h => hid h.symm), if_neg (fun h => hid h.1)]

theorem alloc_spec (s : Sys) (n : Name) (cn : List (Option Name)) (idx : BitVec 32) :
    (alloc s n cn idx = (s, none)) ∨ ∃ g : Group, g.id = s.next ∧ g.ctrs = List.replicate cn.length Ctr.zero ∧
      alloc s n cn idx = ({ s with groups := g :: s.groups, next := s.next + 1 }, some s.next) := by
  unfold alloc
  dsimp only
  split
  · exact Or.inl rfl
  · exact Or.inr ⟨_, rfl, rfl, rfl⟩

theorem ticksN_spec (n : Nat) {s : Sys} (hi : Inv s) (id i : Nat) (c : Ctr) (hc : ctrAt s id i = some c) :
    Inv (ticksN n s) ∧ (ticksN n s).ticks = (evRun (List.replicate n .tick) s.ticks c).1 ∧
      ctrAt (ticksN n s) id i = some (evRun (List.replicate n .tick) s.ticks c).2 := by
  induction n generalizing s c with
  | zero => exact ⟨hi, rfl, hc⟩
  | succ n ih =>
    have := ih (tick_inv hi) (c.intv (s.ticks + 1)) (by rw [tick_ctrAt, hc]; rfl)
    simpa [ticksN, List.replicate_succ, evRun, evStep, tick] using this

/-- one call, seen from one counter -/
theorem step_ctr {s s' : Sys} {o : Op} {r : Option Int} (hi : Inv s) (h : step s o = some (s', r)) (id i : Nat)
    (hf : o ≠ .free id) (c : Ctr) (hc : ctrAt s id i = some c) :
    Inv s' ∧ s'.ticks = (evRun (proj id i o) s.ticks c).1 ∧ ctrAt s' id i = some (evRun (proj id i o) s.ticks c).2 := by
  cases o with
  | alloc n cn idx =>
    simp only [step, Option.some.injEq, Prod.mk.injEq] at h
    rcases alloc_spec s n cn idx with ha | ⟨g, hg1, hg2, ha⟩
    · rw [ha] at h; rw [← h.1]; exact ⟨hi, rfl, hc⟩
    · rw [ha] at h; rw [← h.1]
      refine ⟨⟨?_, ?_⟩, rfl, ?_⟩
      · simp only [List.map_cons, List.nodup_cons]
        refine ⟨?_, hi.1⟩
        intro hm
        obtain ⟨x, hx, he⟩ := List.mem_map.1 hm
        have := hi.2 x hx
        omega
      · intro x hx
        simp only [List.mem_cons] at hx
        rcases hx with rfl | hx
        · simp; omega
        · have := hi.2 x hx
          simp; omega
      · unfold ctrAt at hc ⊢
        have hne : g.id ≠ id := by
          intro he
          cases hq : s.groups.find? (·.id = id) with
          | none => simp [hq] at hc
          | some x =>
            have h1 := List.find?_some hq
            have h2 := hi.2 x (List.mem_of_find?_eq_some hq)
            simp at h1
            omega
        simp only [List.find?_cons, hne, decide_false, proj, evRun]
        exact hc
  | free id' =>
    have hne : id' ≠ id := fun he => hf (by rw [he])
    simp only [step] at h
    split at h
    · simp only [Option.some.injEq, Prod.mk.injEq] at h
      rw [← h.1]
      refine ⟨⟨?_, ?_⟩, rfl, ?_⟩
      · exact (List.filter_sublist.map _).nodup hi.1
      · intro x hx
        exact hi.2 x (List.mem_filter.1 hx).1
      · unfold ctrAt at hc ⊢
        dsimp only
        rw [List.find?_filter]
        simp only [proj, evRun]
        rw [← hc]
        congr 2
        funext x
        by_cases hx : x.id = id
        · have : ¬ x.id = id' := by omega
          simp [hx, Ne.symm hne]
        · simp [hx]
    · cases h
  | updIdx id' idx =>
    simp only [step, Option.map_eq_some_iff, Prod.mk.injEq] at h
    obtain ⟨x, hx, rfl, -⟩ := h
    obtain ⟨h1, h2, h3, ⟨g, g', h4, h5, h6⟩, h7⟩ := onGroup_spec (by intro g g' h; cases h; rfl) hi hx
    refine ⟨h1, h2, ?_⟩
    unfold ctrAt at hc ⊢
    simp only [proj, evRun]
    by_cases hid : id = id'
    · subst hid
      cases h5
      rw [h6]; rw [h4] at hc
      exact hc
    · rw [h7 id hid]; exact hc
  | add id' i' inc =>
    simp only [step, Option.map_eq_some_iff, Prod.mk.injEq] at h
    obtain ⟨x, hx, rfl, -⟩ := h
    obtain ⟨h1, h2, h3, h4⟩ := onCtr_sys hi hx
    refine ⟨h1, ?_, ?_⟩
    · rw [h2]; simp only [proj]; split <;> rfl
    · rw [h4, hc]; simp only [proj]; split <;> rfl
  | diff id' i' =>
    simp only [step] at h
    cases hg : s.groups.find? (·.id = id') with
    | none => simp [hg] at h
    | some g =>
      cases hgc : g.ctrs[i']? with
      | none => simp [hg, hgc] at h
      | some c' =>
        cases ho : onGroup s id' (onCtr i' fun c => c.difference.1) with
        | none => simp [hg, ho] at h
        | some x =>
          simp [hg, hgc, ho] at h
          obtain ⟨rfl, -⟩ := h
          obtain ⟨h1, h2, h3, h4⟩ := onCtr_sys hi ho
          refine ⟨h1, ?_, ?_⟩
          · rw [h2]; simp only [proj]; split <;> rfl
          · rw [h4, hc]; simp only [proj]; split <;> rfl
  | reset id' i' =>
    simp only [step, Option.map_eq_some_iff, Prod.mk.injEq] at h
    obtain ⟨x, hx, rfl, -⟩ := h
    obtain ⟨h1, h2, h3, h4⟩ := onCtr_sys hi hx
    refine ⟨h1, ?_, ?_⟩
    · rw [h2]; simp only [proj]; split <;> rfl
    · rw [h4, hc]; simp only [proj]; split <;> rfl
  | groupReset id' =>
    simp only [step, Option.map_eq_some_iff, Prod.mk.injEq] at h
    obtain ⟨x, hx, rfl, -⟩ := h
    obtain ⟨h1, h2, h3, ⟨g, g', h4, h5, h6⟩, h7⟩ := onGroup_spec (by intro g g' h; cases h; rfl) hi hx
    refine ⟨h1, ?_, ?_⟩
    · rw [h2]; simp only [proj]; split <;> rfl
    · unfold ctrAt at hc ⊢
      by_cases hid : id' = id
      · subst hid
        cases h5
        rw [h6]; rw [h4] at hc
        simp only [Option.bind_some] at hc
        simp [proj, evRun, evStep, hc]
      · rw [h7 id (fun h => hid h.symm)]
        simp only [proj, if_neg hid, evRun]
        exact hc
  | timer n =>
    simp only [step] at h
    split at h
    · cases h
    · simp only [Option.some.injEq, Prod.mk.injEq] at h
      rw [← h.1]
      exact ticksN_spec n hi id i c hc

theorem step_inv {s s' : Sys} {o : Op} {r : Option Int} (hi : Inv s) (h : step s o = some (s', r)) : Inv s' := by
  cases o with
  | alloc n cn idx =>
    simp only [step, Option.some.injEq, Prod.mk.injEq] at h
    rcases alloc_spec s n cn idx with ha | ⟨g, hg1, hg2, ha⟩
    · rw [ha] at h; rw [← h.1]; exact hi
    · rw [ha] at h; rw [← h.1]
      refine ⟨?_, ?_⟩
      · simp only [List.map_cons, List.nodup_cons]
        refine ⟨?_, hi.1⟩
        intro hm
        obtain ⟨x, hx, he⟩ := List.mem_map.1 hm
        have := hi.2 x hx
        omega
      · intro x hx
        simp only [List.mem_cons] at hx
        rcases hx with rfl | hx
        · simp; omega
        · have := hi.2 x hx
          simp; omega
  | free id' =>
    simp only [step] at h
    split at h
    · simp only [Option.some.injEq, Prod.mk.injEq] at h
      rw [← h.1]
      exact ⟨(List.filter_sublist.map _).nodup hi.1, fun x hx => hi.2 x (List.mem_filter.1 hx).1⟩
    · cases h
  | updIdx id' idx =>
    simp only [step, Option.map_eq_some_iff, Prod.mk.injEq] at h
    obtain ⟨x, hx, rfl, -⟩ := h
    exact (onGroup_spec (by intro g g' h; cases h; rfl) hi hx).1
  | add id' i' inc =>
    simp only [step, Option.map_eq_some_iff, Prod.mk.injEq] at h
    obtain ⟨x, hx, rfl, -⟩ := h
    exact (onCtr_sys hi hx).1
  | diff id' i' =>
    simp only [step] at h
    cases hg : s.groups.find? (·.id = id') with
    | none => simp [hg] at h
    | some g =>
      cases hgc : g.ctrs[i']? with
      | none => simp [hg, hgc] at h
      | some c' =>
        cases ho : onGroup s id' (onCtr i' fun c => c.difference.1) with
        | none => simp [hg, ho] at h
        | some x =>
          simp [hg, hgc, ho] at h
          obtain ⟨rfl, -⟩ := h
          exact (onCtr_sys hi ho).1
  | reset id' i' =>
    simp only [step, Option.map_eq_some_iff, Prod.mk.injEq] at h
    obtain ⟨x, hx, rfl, -⟩ := h
    exact (onCtr_sys hi hx).1
  | groupReset id' =>
    simp only [step, Option.map_eq_some_iff, Prod.mk.injEq] at h
    obtain ⟨x, hx, rfl, -⟩ := h
    exact (onGroup_spec (by intro g g' h; cases h; rfl) hi hx).1
  | timer n =>
    simp only [step] at h
    split at h
    · cases h
    · simp only [Option.some.injEq, Prod.mk.injEq] at h
      rw [← h.1]
      clear h
      induction n generalizing s with
      | zero => exact hi
      | succ n ih =>
        rename_i hn
        cases n with
        | zero => exact tick_inv hi
        | succ n => exact ih (tick_inv hi) (by omega)

theorem run_ctr (ops : List Op) {s s' : Sys} (hi : Inv s) (h : run ops s = some s') (id i : Nat)
    (hf : .free id ∉ ops) (c : Ctr) (hc : ctrAt s id i = some c) :
    s'.ticks = (evRun (events id i ops) s.ticks c).1 ∧ ctrAt s' id i = some (evRun (events id i ops) s.ticks c).2 := by
  induction ops generalizing s c with
  | nil => simp only [run, Option.some.injEq] at h; subst h; exact ⟨rfl, hc⟩
  | cons o ops ih =>
    simp only [List.mem_cons, not_or] at hf
    simp only [run, Option.bind_eq_some_iff] at h
    obtain ⟨⟨s1, r⟩, h1, h2⟩ := h
    obtain ⟨a1, a2, a3⟩ := step_ctr hi h1 id i (fun h => hf.1 h.symm) c hc
    have := ih a1 h2 hf.2 _ a3
    rw [a2] at this
    rw [events, List.flatMap_cons, evRun_append]
    exact this

theorem run_inv (ops : List Op) {s s' : Sys} (hi : Inv s) (h : run ops s = some s') : Inv s' := by
  induction ops generalizing s with
  | nil => simp only [run, Option.some.injEq] at h; subst h; exact hi
  | cons o ops ih =>
    simp only [run, Option.bind_eq_some_iff] at h
    obtain ⟨⟨s1, r⟩, h1, h2⟩ := h
    exact ih (step_inv hi h1) h2

theorem inv_init : Inv Sys.init := ⟨by simp [Sys.init], by simp [Sys.init]⟩

/-- **What the counters show.**  In any run of the program, whatever it did before
and whatever else it does, each counter of a group that was allocated and not freed
shows the sum of its increments, the difference since the last call, and for
each interval the sum of the increments in the last complete period. -/
theorem counter_shows (before after : List Op) (n : Name) (cn : List (Option Name)) (idx : BitVec 32)
    (s1 s2 s3 : Sys) (id i : Nat) (h1 : run before Sys.init = some s1)
    (h2 : step s1 (.alloc n cn idx) = some (s2, some (id : Int))) (h3 : run after s2 = some s3)
    (hf : .free id ∉ after) (hil : i < cn.length) :
    ∃ c, ctrAt s3 id i = some c ∧ Shows s2.ticks (events id i after) c := by
  have hi1 := run_inv before inv_init h1
  have hi2 := step_inv hi1 h2
  have hc : ctrAt s2 id i = some Ctr.zero := by
    simp only [step, Option.some.injEq, Prod.mk.injEq] at h2
    rcases alloc_spec s1 n cn idx with ha | ⟨g, hg1, hg2, ha⟩
    · rw [ha] at h2; simp at h2
    · rw [ha] at h2
      obtain ⟨e1, e2⟩ := h2
      rw [← e1]
      simp only [Option.map_some, Option.some.injEq] at e2
      have e2 : s1.next = id := by
        have : (s1.next : Int) = id := e2
        exact_mod_cast this
      unfold ctrAt
      simp only [List.find?_cons, hg1, e2, decide_true, Option.bind_some, hg2]
      rw [List.getElem?_replicate]; simp [hil]
  obtain ⟨-, a⟩ := run_ctr after hi2 h3 id i hf _ hc
  exact ⟨_, a, shows_run _ _⟩

/-- what a call of the difference function returns is what the counter shows -/
theorem diff_returns (s s' : Sys) (id i : Nat) (r : Option Int) (h : step s (.diff id i) = some (s', r)) :
    ∃ c, ctrAt s id i = some c ∧ r = some c.difference.2.toInt := by
  simp only [step] at h
  cases hg : s.groups.find? (·.id = id) with
  | none => simp [hg] at h
  | some g =>
    cases hgc : g.ctrs[i]? with
    | none => simp [hg, hgc] at h
    | some c' =>
      cases ho : onGroup s id (onCtr i fun c => c.difference.1) with
      | none => simp [hg, ho] at h
      | some x =>
        simp [hg, hgc, ho] at h
        exact ⟨c', by simp [ctrAt, hg, hgc], h.2.symm⟩

/-- **The difference**, as a number: the sum of what was added since the last call of
the function (or since creation or reset), if that fits 64 bits. -/
theorem diff_value (before after : List Op) (n : Name) (cn : List (Option Name)) (idx : BitVec 32)
    (s1 s2 s3 s4 : Sys) (id i : Nat) (r : Option Int) (h1 : run before Sys.init = some s1)
    (h2 : step s1 (.alloc n cn idx) = some (s2, some (id : Int))) (h3 : run after s2 = some s3)
    (h4 : step s3 (.diff id i) = some (s4, r))
    (hf : .free id ∉ after) (hil : i < cn.length) (a b : List Ev) (hab : events id i after = a ++ b)
    (ha : Fresh a ∨ ∃ a', a = a' ++ [.diff]) (hb : .reset ∉ b) (hd : .diff ∉ b)
    (hr : -2 ^ 63 ≤ total b ∧ total b < 2 ^ 63) : r = some (total b) := by
  obtain ⟨c, hc, hs⟩ := counter_shows before after n cn idx s1 s2 s3 id i h1 h2 h3 hf hil
  obtain ⟨c', hc', hr'⟩ := diff_returns s3 s4 id i r h4
  rw [hc] at hc'
  cases hc'
  rw [hr', hs.diff a b hab ha hb hd, BitVec.toInt_ofInt]
  congr 1
  rw [Int.bmod_eq_of_le] <;> omega

/-! Three seconds: 5 in the first, 7 and 2 in the second, 1 in the third (not over). -/
section
abbrev exOps : List Op :=
  [.add 0 1 5, .timer 1, .add 0 1 7, .diff 0 1, .add 0 1 2, .timer 1, .add 0 1 1]
example : ∃ s, run (.alloc [0x61] [some [0x62], some [0x63]] 0 :: exOps) Sys.init = some s ∧
    (ctrAt s 0 1).map (·.current) = some 15#64 ∧ (ctrAt s 0 1).map (·.sec.rate) = some 9#64 ∧
    (ctrAt s 0 1).map (·.min.rate) = some 0#64 ∧ (step s (.diff 0 1)).map (·.2) = some (some 3) ∧
    (ctrAt s 0 0).map (·.current) = some 0#64 :=
  ⟨_, rfl, by decide, by decide, by decide, by decide, by decide⟩
/-- the second's period: its hypotheses are met -/
example : ∃ a b d, events 0 1 exOps = a ++ .tick :: b ++ .tick :: d ∧ .reset ∉ b ∧ .reset ∉ d ∧
    Ends .sec 0 a ∧ Ends .sec (clock 0 (a ++ [.tick])) b ∧ total b = 9 :=
  ⟨[.add 5], [.add 7, .diff, .add 2], [.add 1], by decide, by decide, by decide, by unfold Ends; decide,
    by unfold Ends; decide, by decide⟩
end

end Verif.Stats
