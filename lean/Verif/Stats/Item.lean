import Verif.Common
/-!
Stat items (C98): src/core/stat_item.c.
-/
namespace Verif.Stats.Item

/-- fits `int32_t` -/
def fits32 (x : Int) : Bool := decide (-2 ^ 31 ≤ x ∧ x < 2 ^ 31)
/-- fits `int64_t` -/
def fits64 (x : Int) : Bool := decide (-2 ^ 63 ≤ x ∧ x < 2 ^ 63)

/-- src/core/stat_item_internal.h:9-20; the signed fields are integers that fit -/
structure Period where
  n : BitVec 32
  min : Int
  last : Int
  max : Int
  sum : Int
deriving DecidableEq, Repr

/-- src/core/stat_item_internal.h:23-33 with `desc->default_value` -/
structure Item where
  dflt : Int
  value : Period
  reported : Period
deriving DecidableEq, Repr

/-- src/core/stat_item.c:208-217 in `osmo_stat_item_group_alloc`; `reported` is zeroed -/
def init (dflt : Int) : Item := ⟨dflt, ⟨0, dflt, dflt, dflt, 0⟩, ⟨0, 0, 0, 0, 0⟩⟩

/-- src/core/stat_item.c:282-297 `osmo_stat_item_set`; `none`: signed overflow of the sum -/
def set (it : Item) (v : Int) : Option Item :=
  let p := { it.value with last := v }
  if p.n = 0 then
    some { it with value := { p with min := v, max := v, sum := v, n := 1 } }
  else if fits64 (p.sum + v) then
    some { it with value := { p with
      min := if p.min < v then p.min else v
      max := if p.max > v then p.max else v
      sum := p.sum + v
      n := p.n + 1 } }
  else none

/-- src/core/stat_item.c:260-263 `osmo_stat_item_inc`; `none`: signed overflow -/
def inc (it : Item) (v : Int) : Option Item :=
  if fits32 (it.value.last + v) then set it (it.value.last + v) else none

/-- src/core/stat_item.c:271-274 `osmo_stat_item_dec`; `none`: signed overflow -/
def dec (it : Item) (v : Int) : Option Item :=
  if fits32 (it.value.last - v) then set it (it.value.last - v) else none

/-- src/core/stat_item.c:302-315 `osmo_stat_item_flush` -/
def flush (it : Item) : Item :=
  { it with
    reported := it.value
    value := { it.value with n := 0, sum := 0, min := it.value.last, max := it.value.last } }

/-- src/core/stat_item.c:437-442 `osmo_stat_item_reset` -/
def reset (it : Item) : Item :=
  { it with value := ⟨0, it.dflt, it.dflt, it.dflt, 0⟩ }

/-- what the program does with an item -/
inductive Op where
  | set (v : Int)
  | inc (v : Int)
  | dec (v : Int)
  | flush
  | reset
deriving DecidableEq, Repr

def step (it : Item) : Op → Option Item
  | .set v => set it v
  | .inc v => inc it v
  | .dec v => dec it v
  | .flush => some (flush it)
  | .reset => some (reset it)

def run : List Op → Item → Option Item
  | [], it => some it
  | o :: os, it => (step it o).bind (run os)

/-! ### What the item has to hold -/

/-- arguments fit `int32_t` -/
def Op.fits : Op → Bool
  | .set v => fits32 v | .inc v => fits32 v | .dec v => fits32 v | _ => true

/-- The level the program has brought the item to, as it sees it. -/
def level (dflt : Int) : List Op → Int → Int
  | [], x => x
  | .set v :: os, _ => level dflt os v
  | .inc v :: os, x => level dflt os (x + v)
  | .dec v :: os, x => level dflt os (x - v)
  | .flush :: os, x => level dflt os x
  | .reset :: os, _ => level dflt os dflt

/-- all levels stay in the range of `int32_t` -/
def InRange (dflt : Int) (ops : List Op) : Prop := ∀ k ≤ ops.length, fits32 (level dflt (ops.take k) dflt)

/-- the levels reached by the changes in the ops, started at level `x` -/
def levels (x : Int) : List Op → List Int
  | [] => []
  | .set v :: os => v :: levels v os
  | .inc v :: os => (x + v) :: levels (x + v) os
  | .dec v :: os => (x - v) :: levels (x - v) os
  | _ :: os => levels x os

/-- neither flush nor reset -/
def Change : Op → Prop
  | .flush => False
  | .reset => False
  | _ => True

/-- What is held of a period in which the levels `l` were reached, begun at level `x`. -/
structure Holds (x : Int) (l : List Int) (p : Period) : Prop where
  n : p.n.toNat = l.length
  sum : p.sum = l.sum
  last : p.last = (l.getLast?).getD x
  min_le : ∀ y ∈ l, p.min ≤ y
  min_mem : l ≠ [] → p.min ∈ l
  le_max : ∀ y ∈ l, y ≤ p.max
  max_mem : l ≠ [] → p.max ∈ l
  empty : l = [] → p.min = x ∧ p.max = x

/-! ### Proofs -/

theorem set_last {it it' : Item} {v : Int} (h : set it v = some it') :
    it'.value.last = v ∧ it'.dflt = it.dflt ∧ it'.reported = it.reported := by
  unfold set at h
  dsimp only at h
  split at h
  · cases h; exact ⟨rfl, rfl, rfl⟩
  · split at h
    · cases h; exact ⟨rfl, rfl, rfl⟩
    · cases h

theorem level_append (d : Int) (a b : List Op) (x : Int) : level d (a ++ b) x = level d b (level d a x) := by
  induction a generalizing x with
  | nil => rfl
  | cons o a ih => cases o <;> simp [level, ih]

theorem run_append (a b : List Op) (it : Item) : run (a ++ b) it = (run a it).bind (run b) := by
  induction a generalizing it with
  | nil => rfl
  | cons o a ih =>
    simp only [List.cons_append, run]
    cases step it o with
    | none => rfl
    | some it' => simp [ih]

theorem step_level {it it' : Item} {o : Op} (h : step it o = some it') :
    it'.value.last = level it.dflt [o] it.value.last ∧ it'.dflt = it.dflt := by
  cases o with
  | set v => have := set_last h; exact ⟨this.1, this.2.1⟩
  | inc v =>
    simp only [step, inc] at h
    split at h
    · have := set_last h; exact ⟨this.1, this.2.1⟩
    · cases h
  | dec v =>
    simp only [step, dec] at h
    split at h
    · have := set_last h; exact ⟨this.1, this.2.1⟩
    · cases h
  | flush => simp only [step, Option.some.injEq] at h; subst h; exact ⟨rfl, rfl⟩
  | reset => simp only [step, Option.some.injEq] at h; subst h; exact ⟨rfl, rfl⟩

theorem run_level (ops : List Op) {it it' : Item} (h : run ops it = some it') :
    it'.value.last = level it.dflt ops it.value.last ∧ it'.dflt = it.dflt := by
  induction ops generalizing it with
  | nil => simp only [run, Option.some.injEq] at h; subst h; exact ⟨rfl, rfl⟩
  | cons o ops ih =>
    simp only [run, Option.bind_eq_some_iff] at h
    obtain ⟨it1, h1, h2⟩ := h
    obtain ⟨a1, a2⟩ := step_level h1
    obtain ⟨b1, b2⟩ := ih h2
    refine ⟨?_, by rw [b2, a2]⟩
    rw [b1, a1, a2, ← level_append]; rfl

/-- bounds that hold of every period: the sum never leaves `int64_t` -/
structure Inv (it : Item) : Prop where
  dflt : fits32 it.dflt = true
  last : fits32 it.value.last = true
  lo : it.value.n ≠ 0 → -2 ^ 31 * (it.value.n.toNat : Int) ≤ it.value.sum
  hi : it.value.n ≠ 0 → it.value.sum ≤ (2 ^ 31 - 1) * (it.value.n.toNat : Int)

theorem fits32_iff (x : Int) : fits32 x = true ↔ -2 ^ 31 ≤ x ∧ x < 2 ^ 31 := by simp [fits32]

theorem set_ok {it : Item} (hi : Inv it) {v : Int} (hv : fits32 v = true) : ∃ it', set it v = some it' ∧ Inv it' := by
  have hv' := (fits32_iff v).1 hv
  by_cases hn : it.value.n = 0
  · refine ⟨{ it with value := ⟨1, v, v, v, v⟩ }, by simp [set, hn], hi.dflt, hv, ?_, ?_⟩
    · intro _; simp; omega
    · intro _; simp; omega
  · have h1 := hi.lo hn
    have h2 := hi.hi hn
    have h3 := it.value.n.isLt
    have h4 : fits64 (it.value.sum + v) = true := by
      simp [fits64]
      omega
    refine ⟨{ it with value := { it.value with
        last := v
        min := if it.value.min < v then it.value.min else v
        max := if it.value.max > v then it.value.max else v
        sum := it.value.sum + v
        n := it.value.n + 1 } }, by simp only [set, hn, if_false, h4, if_true], hi.dflt, hv, ?_, ?_⟩
    · dsimp only
      intro hq
      have hlt : it.value.n.toNat + 1 < 2 ^ 32 := by
        rcases Nat.lt_or_ge (it.value.n.toNat + 1) (2 ^ 32) with h | h
        · exact h
        · exfalso; apply hq; apply BitVec.eq_of_toNat_eq
          rw [BitVec.toNat_add]; simp; omega
      have : (it.value.n + 1).toNat = it.value.n.toNat + 1 := by rw [BitVec.toNat_add]; simp; omega
      rw [this]; push_cast; omega
    · dsimp only
      intro hq
      have hlt : it.value.n.toNat + 1 < 2 ^ 32 := by
        rcases Nat.lt_or_ge (it.value.n.toNat + 1) (2 ^ 32) with h | h
        · exact h
        · exfalso; apply hq; apply BitVec.eq_of_toNat_eq
          rw [BitVec.toNat_add]; simp; omega
      have : (it.value.n + 1).toNat = it.value.n.toNat + 1 := by rw [BitVec.toNat_add]; simp; omega
      rw [this]; push_cast; omega

theorem init_inv {d : Int} (hd : fits32 d = true) : Inv (init d) :=
  ⟨hd, hd, by simp [init], by simp [init]⟩

theorem step_ok {it : Item} (hi : Inv it) {o : Op} (hl : fits32 (level it.dflt [o] it.value.last) = true) :
    ∃ it', step it o = some it' ∧ Inv it' := by
  cases o with
  | set v => exact set_ok hi hl
  | inc v =>
    have hl' : fits32 (it.value.last + v) = true := hl
    simp only [step, inc, hl', if_true]; exact set_ok hi hl'
  | dec v =>
    have hl' : fits32 (it.value.last - v) = true := hl
    simp only [step, dec, hl', if_true]; exact set_ok hi hl'
  | flush => exact ⟨_, rfl, hi.dflt, hi.last, by simp [flush], by simp [flush]⟩
  | reset => exact ⟨_, rfl, hi.dflt, hi.dflt, by simp [reset], by simp [reset]⟩

theorem run_ok (ops : List Op) {it : Item} (hi : Inv it)
    (hr : ∀ k ≤ ops.length, fits32 (level it.dflt (ops.take k) it.value.last) = true) :
    ∃ it', run ops it = some it' ∧ Inv it' := by
  induction ops generalizing it with
  | nil => exact ⟨it, rfl, hi⟩
  | cons o ops ih =>
    obtain ⟨it1, h1, h2⟩ := step_ok hi (o := o) (by simpa using hr 1 (by simp))
    obtain ⟨a1, a2⟩ := step_level h1
    obtain ⟨it', h3, h4⟩ := ih h2 (by
      intro k hk
      have := hr (k + 1) (by simpa using hk)
      rw [List.take_succ_cons, show o :: ops.take k = [o] ++ ops.take k from rfl, level_append] at this
      rw [a2, a1]; exact this)
    exact ⟨it', by simp [run, h1, h3], h4⟩

/-- **No undefined behaviour**: as long as the level itself stays in the range of
`int32_t`, no signed overflow happens, however long the program runs. -/
theorem item_defined (d : Int) (ops : List Op) (hr : InRange d ops) : ∃ it, run ops (init d) = some it := by
  have hd : fits32 d = true := by simpa [level] using hr 0 (Nat.zero_le _)
  obtain ⟨it, h, -⟩ := run_ok ops (init_inv hd) (by intro k hk; exact hr k hk)
  exact ⟨it, h⟩

/-- **The last value** is the level. -/
theorem item_last (d : Int) (ops : List Op) (it : Item) (h : run ops (init d) = some it) :
    it.value.last = level d ops d :=
  (run_level ops h).1

theorem holds_set {x : Int} {l : List Int} {it it' : Item} {v : Int} (hh : Holds x l it.value)
    (hl : l.length + 1 < 2 ^ 32) (h : set it v = some it') : Holds x (l ++ [v]) it'.value := by
  by_cases hn : it.value.n = 0
  · have hl0 : l = [] := by
      have := hh.n; rw [hn] at this; simp at this
      exact List.length_eq_zero_iff.1 this.symm
    subst hl0
    simp [set, hn] at h
    subst h
    exact ⟨by simp, by simp, by simp, by simp, by simp, by simp, by simp, by simp⟩
  · have hne : l ≠ [] := by
      rintro rfl
      apply hn
      apply BitVec.eq_of_toNat_eq
      rw [hh.n]; simp
    unfold set at h
    simp only [hn, if_false] at h
    split at h
    · cases h
      refine ⟨?_, ?_, by simp, ?_, ?_, ?_, ?_, by simp⟩
      · simp only [BitVec.toNat_add, List.length_append, hh.n]
        simp; omega
      · simp [hh.sum]
      · intro y hy
        dsimp only
        rcases List.mem_append.1 hy with hy | hy
        · have := hh.min_le y hy; split <;> omega
        · simp at hy; subst hy; split <;> omega
      · intro _
        dsimp only
        split
        · exact List.mem_append_left _ (hh.min_mem hne)
        · simp
      · intro y hy
        dsimp only
        rcases List.mem_append.1 hy with hy | hy
        · have := hh.le_max y hy; split <;> omega
        · simp at hy; subst hy; split <;> omega
      · intro _
        dsimp only
        split
        · exact List.mem_append_left _ (hh.max_mem hne)
        · simp
    · cases h

theorem run_holds (ops : List Op) (hc : ∀ o ∈ ops, Change o) {it it' : Item} (h : run ops it = some it') (x : Int)
    (l : List Int) (hh : Holds x l it.value) (hl : l.length + ops.length < 2 ^ 32) :
    Holds x (l ++ levels it.value.last ops) it'.value ∧ it'.reported = it.reported := by
  induction ops generalizing it l with
  | nil => simp only [run, Option.some.injEq] at h; subst h; simpa [levels] using hh
  | cons o ops ih =>
    simp only [run, Option.bind_eq_some_iff] at h
    obtain ⟨it1, h1, h2⟩ := h
    have hc' : ∀ o ∈ ops, Change o := fun o ho => hc o (List.mem_cons_of_mem _ ho)
    simp only [List.length_cons] at hl
    have key : ∀ v, set it v = some it1 → levels it.value.last (o :: ops) = v :: levels v ops →
        Holds x (l ++ levels it.value.last (o :: ops)) it'.value ∧ it'.reported = it.reported := by
      intro v hs he
      have a := holds_set hh (by omega) hs
      obtain ⟨b1, b2, b3⟩ := set_last hs
      have := ih hc' h2 _ a (by simp; omega)
      rw [b1, b3] at this
      rw [he]
      simpa using this
    cases o with
    | set v => exact key v h1 rfl
    | inc v =>
      simp only [step, inc] at h1
      split at h1
      · exact key _ h1 rfl
      · cases h1
    | dec v =>
      simp only [step, dec] at h1
      split at h1
      · exact key _ h1 rfl
      · cases h1
    | flush => exact absurd (hc _ List.mem_cons_self) (by simp [Change])
    | reset => exact absurd (hc _ List.mem_cons_self) (by simp [Change])

theorem levels_length (x : Int) (ops : List Op) (hc : ∀ o ∈ ops, Change o) : (levels x ops).length = ops.length := by
  induction ops generalizing x with
  | nil => rfl
  | cons o ops ih =>
    have hc' : ∀ o ∈ ops, Change o := fun o ho => hc o (List.mem_cons_of_mem _ ho)
    cases o with
    | set v => simp [levels, ih _ hc']
    | inc v => simp [levels, ih _ hc']
    | dec v => simp [levels, ih _ hc']
    | flush => exact absurd (hc _ List.mem_cons_self) (by simp [Change])
    | reset => exact absurd (hc _ List.mem_cons_self) (by simp [Change])

/-- the history up to here begins a reporting period -/
def Begins (a : List Op) : Prop := a = [] ∨ ∃ a', a = a' ++ [.flush] ∨ a = a' ++ [.reset]

theorem begins_holds {a : List Op} (ha : Begins a) {d : Int} {it : Item} (h : run a (init d) = some it) :
    Holds it.value.last [] it.value := by
  have mk : ∀ i : Item, i.value.n = 0 → i.value.sum = 0 → i.value.min = i.value.last → i.value.max = i.value.last →
      Holds i.value.last [] i.value := by
    intro i h1 h2 h3 h4
    exact ⟨by simp [h1], by simp [h2], by simp, by simp, by simp, by simp, by simp, fun _ => ⟨h3, h4⟩⟩
  rcases ha with rfl | ⟨a', rfl | rfl⟩
  · simp only [run, Option.some.injEq] at h; subst h
    exact mk _ rfl rfl rfl rfl
  · rw [run_append] at h
    simp only [Option.bind_eq_some_iff, run, step, Option.bind_some, Option.some.injEq] at h
    obtain ⟨i, -, rfl⟩ := h
    exact mk _ rfl rfl rfl rfl
  · rw [run_append] at h
    simp only [Option.bind_eq_some_iff, run, step, Option.bind_some, Option.some.injEq] at h
    obtain ⟨i, -, rfl⟩ := h
    exact mk _ rfl rfl rfl rfl

/-- **The running period**: number, sum, smallest, largest and last of the levels
reached since the last flush or reset; with none reached, smallest and largest
are the level kept.  For fewer than 2^32 changes. -/
theorem item_period_partial (d : Int) (a b : List Op) (it : Item) (h : run (a ++ b) (init d) = some it)
    (ha : Begins a) (hb : ∀ o ∈ b, Change o) (hn : b.length < 2 ^ 32) :
    Holds (level d a d) (levels (level d a d) b) it.value := by
  rw [run_append, Option.bind_eq_some_iff] at h
  obtain ⟨i, h1, h2⟩ := h
  have hl := (run_level a h1).1
  have := (run_holds b hb h2 _ [] (begins_holds ha h1) (by simpa using hn)).1
  rw [hl] at this
  exact this

/-- **The reported period** is the one that ended with the last flush, whatever
changes and resets come after it. -/
theorem item_reported_partial (d : Int) (a b c : List Op) (it : Item)
    (h : run (a ++ b ++ .flush :: c) (init d) = some it)
    (ha : Begins a) (hb : ∀ o ∈ b, Change o) (hn : b.length < 2 ^ 32) (hc : .flush ∉ c) :
    Holds (level d a d) (levels (level d a d) b) it.reported := by
  rw [run_append, Option.bind_eq_some_iff] at h
  obtain ⟨i, h1, h2⟩ := h
  have hp := item_period_partial d a b i h1 ha hb hn
  simp only [run, step, Option.bind_some] at h2
  have hrep : ∀ (c : List Op) (i j : Item), .flush ∉ c → run c i = some j → j.reported = i.reported := by
    intro c
    induction c with
    | nil => intro i j _ h; simp only [run, Option.some.injEq] at h; subst h; rfl
    | cons o c ih =>
      intro i j hf h
      simp only [List.mem_cons, not_or] at hf
      simp only [run, Option.bind_eq_some_iff] at h
      obtain ⟨k, h1, h2⟩ := h
      rw [ih k j hf.2 h2]
      cases o with
      | set v => exact (set_last h1).2.2
      | inc v =>
        simp only [step, inc] at h1
        split at h1
        · exact (set_last h1).2.2
        · cases h1
      | dec v =>
        simp only [step, dec] at h1
        split at h1
        · exact (set_last h1).2.2
        · cases h1
      | flush => exact absurd rfl hf.1
      | reset => simp only [step, Option.some.injEq] at h1; subst h1; rfl
  rw [hrep c _ it hc h2]
  exact hp

/-- many sets of one value -/
theorem run_replicate (v : Int) (hv : fits32 v = true) (k : Nat) (hk : k < 2 ^ 32) :
    ∃ it, run (List.replicate k (.set v)) (init v) = some it ∧ Inv it ∧ it.value.n.toNat = k := by
  obtain ⟨it, h1, h2⟩ := run_ok (List.replicate k (.set v)) (init_inv hv) (by
    intro j hj
    rw [List.take_replicate]
    generalize min j k = m
    induction m with
    | zero => exact hv
    | succ m ih =>
      simp only [List.replicate_succ, level]
      exact ih)
  refine ⟨it, h1, h2, ?_⟩
  have := (item_period_partial v [] (List.replicate k (.set v)) it (by simpa using h1) (Or.inl rfl)
    (by intro o ho; rw [List.eq_of_mem_replicate ho]; trivial) (by simpa using hk)).n
  rw [levels_length _ _ (by intro o ho; rw [List.eq_of_mem_replicate ho]; trivial)] at this
  simpa using this

/-- **Not for 2^32 changes in one period**: the count wraps to zero, and the next
change starts the period anew: smallest and sum forget all before. -/
theorem item_period_counterexample : ∃ (ops : List Op) (it : Item), (∀ o ∈ ops, Change o) ∧
    run ops (init 1) = some it ∧ 1 ∈ levels 1 ops ∧ ¬ it.value.min ≤ 1 ∧ it.value.sum = 5 := by
  obtain ⟨it, h1, h2, h3⟩ := run_replicate 1 (by decide) (2 ^ 32 - 1) (by decide)
  obtain ⟨i2, h4, h5⟩ := set_ok h2 (v := 1) (by decide)
  have hn2 : i2.value.n = 0 := by
    have hne : ¬ it.value.n = 0 := by intro h; rw [h] at h3; simp at h3
    unfold set at h4
    simp only [hne, if_false] at h4
    split at h4
    · cases h4
      dsimp only
      apply BitVec.eq_of_toNat_eq
      rw [BitVec.toNat_add, h3]; rfl
    · cases h4
  refine ⟨List.replicate (2 ^ 32 - 1) (.set 1) ++ [.set 1, .set 5], { i2 with value := ⟨1, 5, 5, 5, 5⟩ }, ?_, ?_, ?_, ?_, ?_⟩
  · intro o ho
    rcases List.mem_append.1 ho with ho | ho
    · rw [List.eq_of_mem_replicate ho]; trivial
    · simp at ho; rcases ho with rfl | rfl <;> trivial
  · rw [run_append, h1]
    simp only [Option.bind_some, run, step, h4]
    simp [set, hn2]
  · obtain ⟨m, hm⟩ : ∃ m, 2 ^ 32 - 1 = m + 1 := ⟨2 ^ 32 - 2, rfl⟩
    rw [hm, List.replicate_succ]
    simp only [List.cons_append, levels]
    exact List.mem_cons_self
  · simp
  · rfl

/-- default 7; 3 and 9 in the first period, then down by 2 -/
example : run [.set 3, .set 9, .flush, .dec 2] (init 7) =
    some ⟨7, ⟨1, 7, 7, 7, 7⟩, ⟨2, 3, 9, 9, 12⟩⟩ := by decide
example : InRange 7 [.set 3, .set 9, .flush, .dec 2] := by unfold InRange; decide
example : Begins [.set 3, .set 9, .flush] := Or.inr ⟨[.set 3, .set 9], Or.inl rfl⟩

end Verif.Stats.Item
