import Verif.Tdef.Model
import Mathlib.Tactic.Linarith
/-!
Timer definitions: what a configured timer amounts to in another unit, what setting does, and which timeout a state change gets (C109).
-/
namespace Verif.Tdef

/-- how many microseconds a unit is; a custom unit has no length -/
def usec : Unit → Option Nat
  | .us => some 1
  | .ms => some 1000
  | .s => some 1000000
  | .m => some 60000000
  | .custom => none

/-- `n` of unit `b` stand for `v` of unit `a`: the least number of `b`s not shorter than `v` `a`s, or the greatest `unsigned long` where
that is greater; a custom unit is never converted -/
def Stands (v : Nat) (a b : Unit) (n : Nat) : Prop :=
  match usec a, usec b with
  | some x, some y => n ≤ ulongMax ∧ (v * x ≤ n * y ∨ n = ulongMax) ∧ ∀ m : Nat, v * x ≤ m * y → n ≤ m
  | _, _ => n = v

theorem ceil_div (v f : Nat) (hf : 0 < f) (n : Nat) (hn : n = v / f + if v % f ≠ 0 then 1 else 0) :
    v ≤ n * f ∧ ∀ m : Nat, v ≤ m * f → n ≤ m := by
  have h := Nat.div_add_mod v f
  have hl := Nat.mod_lt v hf
  subst hn
  split
  · rename_i h0
    refine ⟨?_, fun m hm => ?_⟩
    · rw [Nat.add_mul, Nat.mul_comm (v / f) f]; omega
    · by_contra hc
      have hm' : m ≤ v / f := by omega
      have := Nat.mul_le_mul_right f hm'
      rw [Nat.mul_comm (v / f) f] at this
      omega
  · rename_i h0
    refine ⟨?_, fun m hm => ?_⟩
    · rw [Nat.add_mul, Nat.mul_comm (v / f) f]; omega
    · rw [Nat.add_zero]
      by_contra hc
      have hm' : m + 1 ≤ v / f := by omega
      have := Nat.mul_le_mul_right f hm'
      rw [Nat.mul_comm (v / f) f, Nat.add_mul] at this
      omega

/-- to a coarser unit -/
theorem round_down {v : Nat} (hv : v ≤ ulongMax) {a b : Unit} {f x y : Nat} (h1 : factor a b = 0) (h2 : factor b a = f) (hf : 1 < f)
    (hx : usec a = some x) (hy : usec b = some y) (hxy : y = f * x) (hx0 : 0 < x) : ∃ n, round v a b = some n ∧ Stands v a b n := by
  unfold round
  by_cases hv0 : v = 0
  · refine ⟨0, by rw [if_pos hv0], ?_⟩
    simp [Stands, hx, hy, hv0]
  rw [if_neg hv0]
  simp only [h1, h2]
  rw [if_neg (by omega), if_pos (by omega), if_neg (by omega)]
  obtain ⟨p, q⟩ := ceil_div v f (by omega) _ rfl
  have hle := q v (by have := Nat.mul_le_mul_left v (show 1 ≤ f by omega); omega)
  have hlt : (v / f + if v % f ≠ 0 then 1 else 0) < 2 ^ 64 := by unfold ulongMax at hv; omega
  refine ⟨_, rfl, ?_⟩
  rw [Nat.mod_eq_of_lt hlt]
  simp only [Stands, hx, hy]
  refine ⟨by unfold ulongMax; omega, .inl ?_, fun m hm => q m ?_⟩
  · rw [hxy, ← Nat.mul_assoc]; exact Nat.mul_le_mul_right x p
  · rw [hxy, ← Nat.mul_assoc] at hm
    exact Nat.le_of_mul_le_mul_right hm hx0

/-- to a finer unit -/
theorem round_up {v : Nat} {a b : Unit} {f x y : Nat} (h1 : factor a b = f) (hf : 1 < f)
    (hx : usec a = some x) (hy : usec b = some y) (hxy : x = f * y) (hy0 : 0 < y) : ∃ n, round v a b = some n ∧ Stands v a b n := by
  unfold round
  by_cases hv0 : v = 0
  · refine ⟨0, by rw [if_pos hv0], ?_⟩
    simp [Stands, hx, hy, hv0]
  rw [if_neg hv0]
  simp only [h1]
  rw [if_neg (by omega), if_neg (by omega)]
  have key : ∀ m : Nat, v * x ≤ m * y → v * f ≤ m := fun m hm => by
    rw [hxy, ← Nat.mul_assoc] at hm
    exact Nat.le_of_mul_le_mul_right hm hy0
  by_cases hc : f > ulongMax / v
  · rw [if_pos hc]
    refine ⟨_, rfl, ?_⟩
    simp only [Stands, hx, hy]
    refine ⟨Nat.le_refl _, .inr trivial, fun m hm => ?_⟩
    have h2 : ulongMax < f * v := (Nat.div_lt_iff_lt_mul (by omega)).1 hc
    have := key m hm
    rw [Nat.mul_comm] at this
    omega
  · rw [if_neg hc]
    have h2 : f * v ≤ ulongMax := (Nat.le_div_iff_mul_le (by omega)).1 (by omega)
    rw [Nat.mul_comm] at h2
    have h3 : v * f < 2 ^ 64 := by unfold ulongMax at h2; omega
    refine ⟨_, rfl, ?_⟩
    rw [Nat.mod_eq_of_lt h3]
    simp only [Stands, hx, hy]
    refine ⟨h2, .inl ?_, key⟩
    rw [hxy, ← Nat.mul_assoc]

/-- unchanged -/
theorem round_same {v : Nat} {a b : Unit} (h1 : factor a b = 1) : round v a b = some v := by
  unfold round
  by_cases hv0 : v = 0
  · rw [if_pos hv0, hv0]
  · rw [if_neg hv0]; simp only [h1]; rw [if_pos trivial]

theorem stands_same {v : Nat} (hv : v ≤ ulongMax) (a : Unit) : Stands v a a v := by
  cases a <;> simp only [Stands, usec] <;> first | trivial | exact ⟨hv, .inl (Nat.le_refl _), fun m hm => by omega⟩

/-- **Rounding never fails, and gives the number of the other unit that stands for the duration.** -/
theorem round_spec {v : Nat} (hv : v ≤ ulongMax) (a b : Unit) : ∃ n, round v a b = some n ∧ Stands v a b n := by
  cases a <;> cases b <;> first
    | exact ⟨v, round_same rfl, stands_same hv _⟩
    | exact ⟨v, round_same rfl, rfl⟩
    | exact round_down hv rfl rfl (by decide) rfl rfl rfl (by decide)
    | exact round_up rfl (by decide) rfl rfl rfl (by decide)

/-- one number only stands for a duration -/
theorem stands_unique {v : Nat} {a b : Unit} {n n' : Nat} (h : Stands v a b n) (h' : Stands v a b n') : n = n' := by
  unfold Stands at h h'
  split at h
  · rename_i x y hx hy
    rw [hx, hy] at h'
    obtain ⟨a1, a2, a3⟩ := h
    obtain ⟨b1, b2, b3⟩ := h'
    rcases a2 with a2 | a2
    · have := b3 n a2
      rcases b2 with b2 | b2
      · have := a3 n' b2; omega
      · omega
    · rcases b2 with b2 | b2
      · have := a3 n' b2; omega
      · omega
  · rename_i hne
    split at h'
    · rename_i x y hx hy; exact absurd hy (hne x y hx)
    · omega

/-- nothing stays nothing, and something stays something -/
theorem stands_zero {v : Nat} {a b : Unit} {n : Nat} (h : Stands v a b n) : n = 0 ↔ v = 0 := by
  have e : ∀ u x, usec u = some x → 0 < x := fun u x => by cases u <;> simp [usec] <;> omega
  unfold Stands at h
  split at h
  · rename_i x y hx hy
    obtain ⟨a1, a2, a3⟩ := h
    have := e _ _ hx
    have := e _ _ hy
    constructor
    · rintro rfl
      rcases a2 with a2 | a2
      · rw [Nat.zero_mul] at a2
        rcases Nat.mul_eq_zero.1 (Nat.le_zero.1 a2) with h | h <;> omega
      · unfold ulongMax at a2; omega
    · rintro rfl
      have := a3 0 (by omega)
      omega
  · rw [h]

/-- the entry that ends a table is the one with no number, no default and no description -/
theorem tdef_end (e : Entry) : e.live = false ↔ e.T = 0 ∧ e.default = 0 ∧ e.desc = false := by
  unfold Entry.live
  simp [and_assoc]

/-- a table: live entries, then the one that ends it -/
structure Table where
  entries : List Entry
  last : Entry
  rest : List Entry

/-- well-formed: all entries before the end are live, the end is not, and the values fit the C type -/
structure Table.Ok (t : Table) : Prop where
  live : ∀ e ∈ t.entries, e.live = true
  dead : t.last.live = false
  fits : ∀ e ∈ t.entries, e.val ≤ ulongMax ∧ e.default ≤ ulongMax

def Table.list (t : Table) : List Entry := t.entries ++ t.last :: t.rest

/-- the first entry for a timer: independent of the model's search -/
def FirstAt (es : List Entry) (T : Int) (i : Nat) (e : Entry) : Prop :=
  es[i]? = some e ∧ e.T = T ∧ ∀ j < i, ∀ e', es[j]? = some e' → e'.T ≠ T

theorem getEntry_cases (es : List Entry) (hl : ∀ e ∈ es, e.live = true) (last : Entry) (hd : last.live = false) (rest : List Entry) (T : Int) :
    ((∀ e ∈ es, e.T ≠ T) ∧ getEntry (es ++ last :: rest) T = some none) ∨
      ∃ i e, FirstAt es T i e ∧ getEntry (es ++ last :: rest) T = some (some i) := by
  induction es with
  | nil => left; refine ⟨by simp, ?_⟩; simp [getEntry, hd]
  | cons x xs ih =>
    have hx : x.live = true := hl x (by simp)
    by_cases hT : x.T = T
    · right
      refine ⟨0, x, ⟨rfl, hT, fun j hj => by omega⟩, ?_⟩
      simp [getEntry, hx, hT]
    · rcases ih (fun e he => hl e (List.mem_cons_of_mem _ he)) with ⟨h1, h2⟩ | ⟨i, e, h1, h2⟩
      · left
        refine ⟨fun e he => ?_, by simp [getEntry, hx, hT, h2]⟩
        rcases List.mem_cons.1 he with rfl | he
        · exact hT
        · exact h1 e he
      · right
        refine ⟨i + 1, e, ⟨by simpa using h1.1, h1.2.1, fun j hj e' he' => ?_⟩, by simp [getEntry, hx, hT, h2]⟩
        cases j with
        | zero => simp only [List.getElem?_cons_zero, Option.some.injEq] at he'; exact he' ▸ hT
        | succ j => exact h1.2.2 j (by omega) e' (by simpa using he')

theorem firstAt_lt {es : List Entry} {T : Int} {i : Nat} {e : Entry} (h : FirstAt es T i e) : i < es.length := by
  by_contra hc
  have := h.1
  rw [List.getElem?_eq_none (by omega)] at this
  cases this

theorem firstAt_list {t : Table} {T : Int} {i : Nat} {e : Entry} (h : FirstAt t.entries T i e) : t.list[i]? = some e := by
  unfold Table.list
  rw [List.getElem?_append_left (firstAt_lt h), h.1]

theorem firstAt_mem {es : List Entry} {T : Int} {i : Nat} {e : Entry} (h : FirstAt es T i e) : e ∈ es :=
  List.mem_of_getElem? h.1

theorem firstAt_unique {es : List Entry} {T : Int} {i j : Nat} {e e' : Entry} (h : FirstAt es T i e) (h' : FirstAt es T j e') :
    i = j ∧ e = e' := by
  have : i = j := by
    rcases Nat.lt_trichotomy i j with hl | hl | hl
    · exact absurd h.2.1 (h'.2.2 i hl e h.1)
    · exact hl
    · exact absurd h'.2.1 (h.2.2 j hl e' h'.1)
  subst this
  exact ⟨rfl, Option.some.inj (h.1.symm.trans h'.1)⟩

/-- **Reading a timer** gives the number of the wanted unit that stands for the value of the first entry of that number; and the given
default, unchanged, where the number is not in the table -- then a negative default ends the program. -/
theorem get_spec (t : Table) (ht : t.Ok) (T : Int) (u : Unit) (dflt : Int) :
    (∀ i e, FirstAt t.entries T i e → ∃ n, get t.list T u dflt = some n ∧ Stands e.val e.unit u n) ∧
      ((∀ e ∈ t.entries, e.T ≠ T) → get t.list T u dflt = if dflt < 0 then none else some dflt.toNat) := by
  rcases getEntry_cases t.entries ht.live t.last ht.dead t.rest T with ⟨h1, h2⟩ | ⟨i, e, h1, h2⟩
  · refine ⟨fun i e h => absurd h.2.1 (h1 e (firstAt_mem h)), fun _ => ?_⟩
    unfold get Table.list
    rw [h2]; rfl
  · refine ⟨fun j e' h => ?_, fun h => absurd h1.2.1 (h e (firstAt_mem h1))⟩
    obtain ⟨rfl, rfl⟩ := firstAt_unique h1 h
    obtain ⟨n, hn, hs⟩ := round_spec (ht.fits e (firstAt_mem h1)).1 e.unit u
    refine ⟨n, ?_, hs⟩
    unfold get
    rw [Table.list, h2]
    simp only [Option.bind_eq_bind, Option.bind_some]
    rw [← Table.list, firstAt_list h1, Option.bind_some, hn]

/-- what an entry allows: at least the minimum, and at most the maximum where there is one -/
def Allowed (e : Entry) (v : Nat) : Prop := e.min ≤ v ∧ (e.max ≠ 0 → v ≤ e.max)

theorem inRange_iff (e : Entry) (v : Nat) : inRange e v = true ↔ Allowed e v := by
  unfold inRange Allowed
  simp only [ge_iff_le, Bool.and_eq_true, decide_eq_true_eq, Bool.or_eq_true, beq_iff_eq]
  constructor
  · rintro ⟨h, h' | h'⟩
    · exact ⟨h, fun h0 => absurd h' h0⟩
    · exact ⟨h, fun _ => h'⟩
  · rintro ⟨h, h'⟩
    by_cases h0 : e.max = 0
    · exact ⟨h, .inl h0⟩
    · exact ⟨h, .inr (h' h0)⟩

/-- the table with one value changed -/
def Table.put (t : Table) (i : Nat) (v : Nat) : Table := { t with entries := t.entries.modify i fun e => { e with val := v } }

theorem list_put {t : Table} {T : Int} {i : Nat} {e : Entry} (h : FirstAt t.entries T i e) (v : Nat) :
    t.list.set i { e with val := v } = (t.put i v).list := by
  unfold Table.list Table.put
  simp only
  rw [List.set_append_left _ _ (firstAt_lt h)]
  congr 1
  apply List.ext_getElem?
  intro j
  rw [List.getElem?_modify, List.getElem?_set]
  by_cases hj : i = j
  · subst hj
    rw [h.1]
    simp [firstAt_lt h]
  · simp [hj]

/-- **Setting a timer**: with `-EEXIST` for a number not in the table, with `-ERANGE` where the number of the timer's unit that stands for
the value is not allowed, and with 0 otherwise; only then, and then only the value of the first entry of that number, is changed. -/
theorem set_spec (t : Table) (ht : t.Ok) (T : Int) (v : Nat) (hv : v ≤ ulongMax) (u : Unit) :
    ((∀ e ∈ t.entries, e.T ≠ T) → set t.list T v u = some (-17, t.list)) ∧
      ∀ i e, FirstAt t.entries T i e → ∀ n, Stands v u e.unit n →
        (¬ Allowed e n → set t.list T v u = some (-34, t.list)) ∧ (Allowed e n → set t.list T v u = some (0, (t.put i n).list)) := by
  rcases getEntry_cases t.entries ht.live t.last ht.dead t.rest T with ⟨h1, h2⟩ | ⟨i, e, h1, h2⟩
  · refine ⟨fun _ => ?_, fun i e h => absurd h.2.1 (h1 e (firstAt_mem h))⟩
    unfold set
    rw [Table.list, h2]; rfl
  · refine ⟨fun h => absurd h1.2.1 (h e (firstAt_mem h1)), fun j e' h n hs => ?_⟩
    obtain ⟨rfl, rfl⟩ := firstAt_unique h1 h
    obtain ⟨n', hn, hs'⟩ := round_spec hv u e.unit
    obtain rfl := stands_unique hs hs'
    have key : set t.list T v u = some (if !inRange e n then (-34, t.list) else (0, t.list.set i { e with val := n })) := by
      unfold set
      have h2' : getEntry t.list T = some (some i) := h2
      rw [h2']
      simp only [Option.bind_eq_bind, Option.bind_some]
      rw [firstAt_list h1, Option.bind_some, hn]
      rfl
    rw [key]
    refine ⟨fun ha => ?_, fun ha => ?_⟩
    · have : inRange e n = false := by rw [← Bool.not_eq_true, inRange_iff]; exact ha
      rw [this]; rfl
    · rw [(inRange_iff e n).2 ha, list_put h1]; rfl

/-- every configured value is allowed -/
def Table.InRange (t : Table) : Prop := ∀ e ∈ t.entries, Allowed e e.val

theorem put_mem {t : Table} {i v : Nat} {e : Entry} (h : e ∈ (t.put i v).entries) :
    e ∈ t.entries ∨ ∃ e₀, t.entries[i]? = some e₀ ∧ e = { e₀ with val := v } := by
  obtain ⟨j, hj⟩ := List.getElem?_of_mem h
  unfold Table.put at hj
  simp only at hj
  rw [List.getElem?_modify] at hj
  cases he : t.entries[j]? with
  | none => rw [he] at hj; cases hj
  | some e₀ =>
    rw [he] at hj
    by_cases hij : i = j
    · subst hij
      simp only [if_true, Option.map_eq_map, Option.map_some, Option.some.injEq] at hj
      exact .inr ⟨e₀, he, hj.symm⟩
    · simp only [hij, if_false, Option.map_eq_map, Option.map_some, Option.some.injEq] at hj
      exact .inl (hj ▸ List.mem_of_getElem? he)

theorem put_ok {t : Table} (ht : t.Ok) {i v : Nat} (hv : v ≤ ulongMax) : (t.put i v).Ok where
  live e he := by
    rcases put_mem he with he | ⟨e₀, h0, rfl⟩
    · exact ht.live e he
    · have := ht.live e₀ (List.mem_of_getElem? h0)
      simpa [Entry.live] using this
  dead := ht.dead
  fits e he := by
    rcases put_mem he with he | ⟨e₀, h0, rfl⟩
    · exact ht.fits e he
    · exact ⟨hv, (ht.fits e₀ (List.mem_of_getElem? h0)).2⟩

theorem stands_le {v : Nat} (hv : v ≤ ulongMax) {a b : Unit} {n : Nat} (h : Stands v a b n) : n ≤ ulongMax := by
  unfold Stands at h
  split at h
  · exact h.1
  · omega

/-- the table after a reset: every value its default -/
def Table.fresh (t : Table) : Table := { t with entries := t.entries.map fun e => { e with val := e.default } }

/-- **A reset** gives every timer its default, and ends the program when some default is not allowed. -/
theorem reset_spec (t : Table) (ht : t.Ok) :
    ((∀ e ∈ t.entries, Allowed e e.default) → reset t.list = some t.fresh.list) ∧
      (¬ (∀ e ∈ t.entries, Allowed e e.default) → reset t.list = none) := by
  obtain ⟨es, last, rest⟩ := t
  have hl := ht.live
  have hd := ht.dead
  simp only at hl hd
  clear ht
  unfold Table.list Table.fresh
  simp only
  induction es with
  | nil =>
    refine ⟨fun _ => by simp [reset, hd], fun h => absurd (by simp) h⟩
  | cons x xs ih =>
    have hx := hl x (by simp)
    obtain ⟨i1, i2⟩ := ih (fun e he => hl e (List.mem_cons_of_mem _ he))
    constructor
    · intro h
      have h1 : inRange x x.default = true := (inRange_iff _ _).2 (h x (by simp))
      have h2 := i1 fun e he => h e (List.mem_cons_of_mem _ he)
      simp [reset, hx, h1, h2]
    · intro h
      by_cases h1 : Allowed x x.default
      · have h2 := i2 fun h' => h fun e he => by
          rcases List.mem_cons.1 he with rfl | he
          · exact h1
          · exact h' e he
        simp [reset, hx, h2]
      · have h2 : inRange x x.default = false := by rw [← Bool.not_eq_true, inRange_iff]; exact h1
        simp [reset, hx, h2]

theorem fresh_ok {t : Table} (ht : t.Ok) : t.fresh.Ok where
  live e he := by
    obtain ⟨e₀, h0, rfl⟩ := List.mem_map.1 he
    simpa [Entry.live] using ht.live e₀ h0
  dead := ht.dead
  fits e he := by
    obtain ⟨e₀, h0, rfl⟩ := List.mem_map.1 he
    exact ⟨(ht.fits e₀ h0).2, (ht.fits e₀ h0).2⟩

/-- what a program does with a table: sets a timer (number, value, unit), or resets all -/
inductive Op where
  | set (T : Int) (v : Nat) (u : Unit)
  | reset

def Op.Ok : Op → Prop
  | .set _ v _ => v ≤ ulongMax
  | .reset => True

/-- one call -/
def step (ts : List Entry) : Op → Option (List Entry)
  | .set T v u => (set ts T v u).map (·.2)
  | .reset => reset ts

/-- a program -/
def run (ts : List Entry) : List Op → Option (List Entry)
  | [] => some ts
  | o :: os => (step ts o).bind fun ts => run ts os

theorem step_inRange {t : Table} (ht : t.Ok) (hr : t.InRange) {o : Op} (ho : o.Ok) {ts : List Entry} (h : step t.list o = some ts) :
    ∃ t' : Table, ts = t'.list ∧ t'.Ok ∧ t'.InRange ∧ t'.entries.map (·.T) = t.entries.map (·.T) := by
  cases o with
  | reset =>
    obtain ⟨h1, h2⟩ := reset_spec t ht
    by_cases ha : ∀ e ∈ t.entries, Allowed e e.default
    · have : some t.fresh.list = some ts := (h1 ha).symm.trans h
      refine ⟨t.fresh, (Option.some.inj this).symm, fresh_ok ht, fun e he => ?_, ?_⟩
      · obtain ⟨e₀, h0, rfl⟩ := List.mem_map.1 he
        exact ha e₀ h0
      · unfold Table.fresh; simp [Function.comp_def]
    · have : none = some ts := (h2 ha).symm.trans h
      cases this
  | set T v u =>
    obtain ⟨h1, h2⟩ := set_spec t ht T v ho u
    rw [step] at h
    rcases getEntry_cases t.entries ht.live t.last ht.dead t.rest T with ⟨g1, g2⟩ | ⟨i, e, g1, g2⟩
    · rw [h1 g1] at h
      exact ⟨t, (Option.some.inj h).symm, ht, hr, rfl⟩
    · obtain ⟨n, hn, hs⟩ := round_spec ho u e.unit
      obtain ⟨h3, h4⟩ := h2 i e g1 n hs
      by_cases ha : Allowed e n
      · rw [h4 ha] at h
        refine ⟨t.put i n, (Option.some.inj h).symm, put_ok ht (stands_le ho hs), fun e' he' => ?_, ?_⟩
        · rcases put_mem he' with he' | ⟨e₀, h0, rfl⟩
          · exact hr e' he'
          · obtain rfl : e = e₀ := Option.some.inj (g1.1.symm.trans h0)
            exact ha
        · unfold Table.put
          apply List.ext_getElem?
          intro j
          simp only [List.getElem?_map, List.getElem?_modify]
          cases t.entries[j]? with
          | none => rfl
          | some e' => by_cases hij : i = j <;> simp [hij]
      · rw [h3 ha] at h
        exact ⟨t, (Option.some.inj h).symm, ht, hr, rfl⟩

/-- **After a first reset, whatever is set and reset, every timer stays within its limits** -- and so does whatever is read. -/
theorem run_inRange (t : Table) (ht : t.Ok) (os : List Op) (hos : ∀ o ∈ os, o.Ok) (ts : List Entry)
    (h : run t.list (.reset :: os) = some ts) :
    ∃ t' : Table, ts = t'.list ∧ t'.Ok ∧ t'.InRange ∧ t'.entries.map (·.T) = t.entries.map (·.T) := by
  have gen : ∀ (os : List Op), (∀ o ∈ os, o.Ok) → ∀ t : Table, t.Ok → t.InRange → ∀ ts, run t.list os = some ts →
      ∃ t' : Table, ts = t'.list ∧ t'.Ok ∧ t'.InRange ∧ t'.entries.map (·.T) = t.entries.map (·.T) := by
    intro os
    induction os with
    | nil => intro _ t ht hr ts h; exact ⟨t, (Option.some.inj h).symm, ht, hr, rfl⟩
    | cons o os ih =>
      intro hos t ht hr ts h
      rw [run] at h
      cases hstep : step t.list o with
      | none => rw [hstep] at h; cases h
      | some ts1 =>
        rw [hstep, Option.bind_some] at h
        obtain ⟨t1, rfl, ok1, r1, m1⟩ := step_inRange ht hr (hos o (by simp)) hstep
        obtain ⟨t2, e2, ok2, r2, m2⟩ := ih (fun o ho => hos o (List.mem_cons_of_mem _ ho)) t1 ok1 r1 ts h
        exact ⟨t2, e2, ok2, r2, m2.trans m1⟩
  rw [run, step] at h
  obtain ⟨h1, h2⟩ := reset_spec t ht
  by_cases ha : ∀ e ∈ t.entries, Allowed e e.default
  · rw [h1 ha, Option.bind_some] at h
    obtain ⟨t2, e2, ok2, r2, m2⟩ := gen os hos t.fresh (fresh_ok ht) (fun e he => by
      obtain ⟨e₀, h0, rfl⟩ := List.mem_map.1 he
      exact ha e₀ h0) ts h
    refine ⟨t2, e2, ok2, r2, m2.trans ?_⟩
    unfold Table.fresh; simp [Function.comp_def]
  · rw [h2 ha] at h; cases h

/-- **A timer set is never shorter when read**: reading in the unit it was set in gives at least what was set -- unless a clamped value was
met on the way -- and less than one unit of the timer more. -/
theorem set_get {t : Table} (ht : t.Ok) {T : Int} {v : Nat} (hv : v ≤ ulongMax) {u : Unit} {i : Nat} {e : Entry}
    (hf : FirstAt t.entries T i e) {ts : List Entry} (h : set t.list T v u = some (0, ts)) {dflt : Int} :
    ∃ r, get ts T u dflt = some r ∧ ∀ x y, usec u = some x → usec e.unit = some y → v * x + y ≤ ulongMax * min x y →
      v ≤ r ∧ r * x < v * x + y + x := by
  obtain ⟨n, hn, hs⟩ := round_spec hv u e.unit
  obtain ⟨h3, h4⟩ := (set_spec t ht T v hv u).2 i e hf n hs
  have ha : Allowed e n := by
    by_contra hc
    rw [h3 hc] at h
    cases h
  rw [h4 ha] at h
  obtain rfl : (t.put i n).list = ts := by cases h; rfl
  have hf' : FirstAt (t.put i n).entries T i { e with val := n } := by
    unfold Table.put
    refine ⟨?_, hf.2.1, fun j hj e' he' => ?_⟩
    · simp only [List.getElem?_modify, hf.1, if_pos trivial]; rfl
    · simp only [List.getElem?_modify] at he'
      have hij : i ≠ j := by omega
      simp only [hij, if_false] at he'
      cases hh : t.entries[j]? with
      | none => rw [hh] at he'; cases he'
      | some e0 =>
        rw [hh] at he'
        simp only [Option.map_eq_map, Option.map_some, Option.some.injEq] at he'
        exact he' ▸ hf.2.2 j hj e0 hh
  obtain ⟨r, hr, hs2⟩ := (get_spec _ (put_ok ht (stands_le hv hs)) T u dflt).1 i _ hf'
  refine ⟨r, hr, fun x y hx hy hb => ?_⟩
  simp only [Stands, hx, hy] at hs hs2
  obtain ⟨a1, a2, a3⟩ := hs
  obtain ⟨b1, b2, b3⟩ := hs2
  have hx0 : 0 < x := by revert hx; cases u <;> simp [usec] <;> omega
  have hy0 : 0 < y := by revert hy; cases e.unit <;> simp [usec] <;> omega
  -- the timer: at least the duration, less than one unit more
  have hny : v * x ≤ n * y := by
    rcases a2 with a2 | a2
    · exact a2
    · rw [a2]
      have := Nat.mul_le_mul_left ulongMax (Nat.min_le_right x y)
      omega
  have hn1 : n * y < v * x + y := by
    by_contra hc
    have h1 : 1 ≤ n := by
      by_contra h0
      have : n = 0 := by omega
      rw [this, Nat.zero_mul] at hc
      omega
    have := a3 (n - 1) (by rw [Nat.sub_mul]; omega)
    omega
  have hrx : n * y ≤ r * x := by
    rcases b2 with b2 | b2
    · exact b2
    · rw [b2]
      have := Nat.mul_le_mul_left ulongMax (Nat.min_le_left x y)
      omega
  have hr1 : r * x < n * y + x := by
    by_contra hc
    have h1 : 1 ≤ r := by
      by_contra h0
      have : r = 0 := by omega
      rw [this, Nat.zero_mul] at hc
      omega
    have := b3 (r - 1) (by rw [Nat.sub_mul]; omega)
    omega
  exact ⟨Nat.le_of_mul_le_mul_right (Nat.le_trans hny hrx) hx0, by omega⟩

/-- a timer in milliseconds, as a state change takes it: a custom unit counts as seconds -/
def StandsMs (e : Entry) (n : Nat) : Prop :=
  if e.unit = .custom then n = e.val * 1000 else Stands e.val e.unit .ms n

/-- **The timeout a state change gets.**  State `state` with table entry `st`, `tab` having an entry for it.
No timer and nothing to keep: the plain change without timeout.  Keep and no number: the running timer is kept.  With a number, the
timer is started (or, with `keep`, kept or else started) with that number and the milliseconds that stand for its value; for a number
not in the table, with the default in seconds, the program ending where that is negative. -/
theorem stateChg_spec (t : Table) (ht : t.Ok) (tab : List StateTimeout) (state : Nat) (hs : state < 32) (st : StateTimeout)
    (hst : tab[state]? = some st) (dflt : Int) (hd : dflt * 1000 < 2 ^ 63) :
    (st.T = 0 → stateChg state tab t.list dflt = some (if st.keep then .keep else .plain)) ∧
      (st.T ≠ 0 → (∀ e ∈ t.entries, e.T ≠ st.T) → stateChg state tab t.list dflt =
        if dflt < 0 then none else some (if st.keep then .keepOrStart (dflt * 1000).toNat st.T else .start (dflt * 1000).toNat st.T)) ∧
      (st.T ≠ 0 → ∀ i e, FirstAt t.entries st.T i e → (e.unit = .custom → e.val * 1000 ≤ ulongMax) → ∃ n, StandsMs e n ∧
        stateChg state tab t.list dflt = some (if st.keep then .keepOrStart n st.T else .start n st.T)) := by
  have h0 : stateTimeout state tab = some (if !st.keep && st.T == 0 then none else some st) := by
    unfold stateTimeout; rw [if_pos hs, hst]; rfl
  unfold stateChg
  rw [h0, Option.bind_some]
  refine ⟨fun hT => ?_, fun hT hno => ?_, fun hT i e hf hc => ?_⟩
  · cases hk : st.keep <;> simp [hT, hk]
  · have h1 : (!st.keep && st.T == 0) = false := by simp [hT]
    rw [h1]
    have h2 : stateMs t.list st.T dflt = if dflt < 0 then none else some (dflt * 1000).toNat := by
      unfold stateMs
      rcases getEntry_cases t.entries ht.live t.last ht.dead t.rest st.T with ⟨g1, g2⟩ | ⟨i, e, g1, g2⟩
      · rw [Table.list, g2]
        simp only [Option.bind_eq_bind, Option.bind_some]
        by_cases hn : dflt < 0
        · rw [if_pos (.inl hn), if_pos hn]
        · rw [if_neg (by omega), if_neg hn]
      · exact absurd g1.2.1 (hno e (firstAt_mem g1))
    simp only [if_pos hT, Bool.false_eq_true, if_false]
    rw [h2]
    by_cases hn : dflt < 0
    · rw [if_pos hn, if_pos hn]; rfl
    · rw [if_neg hn, if_neg hn, Option.bind_some]
      cases hk : st.keep <;> simp [hT]
  · have h1 : (!st.keep && st.T == 0) = false := by simp [hT]
    rw [h1]
    obtain ⟨n, hn, hsn⟩ := round_spec (ht.fits e (firstAt_mem hf)).1 e.unit .ms
    have h2 : ∃ k, stateMs t.list st.T dflt = some k ∧ StandsMs e k := by
      unfold stateMs
      rcases getEntry_cases t.entries ht.live t.last ht.dead t.rest st.T with ⟨g1, g2⟩ | ⟨j, e', g1, g2⟩
      · exact absurd hf.2.1 (g1 e (firstAt_mem hf))
      · obtain ⟨rfl, rfl⟩ := firstAt_unique hf g1
        have g2' : getEntry t.list st.T = some (some i) := g2
        rw [g2']
        simp only [Option.bind_eq_bind, Option.bind_some]
        rw [firstAt_list hf, Option.bind_some, hn, Option.map_some]
        refine ⟨_, rfl, ?_⟩
        unfold StandsMs
        by_cases hu : e.unit = .custom
        · rw [if_pos hu, if_pos hu]
          have : n = e.val := by rw [hu] at hsn; simpa [Stands, usec] using hsn
          rw [this]
          have := hc hu
          unfold ulongMax at this
          exact Nat.mod_eq_of_lt (by omega)
        · rw [if_neg hu, if_neg hu]
          exact hsn
    obtain ⟨k, hk1, hk2⟩ := h2
    refine ⟨k, hk2, ?_⟩
    simp only [if_pos hT, Bool.false_eq_true, if_false]
    rw [hk1, Option.bind_some]
    cases hk : st.keep <;> simp [hT]

/-- the wrap-around that `stateChg_spec` excludes is there: a timer with a custom unit and a great value is given a short timeout -/
theorem stateChg_custom_counterexample :
    ∃ (t : Table) (tab : List StateTimeout), t.Ok ∧ (∃ e ∈ t.entries, e.T = 1 ∧ e.unit = .custom ∧ e.val = 2 ^ 64 / 1000 + 1) ∧
      stateChg 0 tab t.list 0 = some (.start 384 1) := by
  refine ⟨⟨[⟨1, 0, .custom, true, 2 ^ 64 / 1000 + 1, 0, 0⟩], ⟨0, 0, .s, false, 0, 0, 0⟩, []⟩, [⟨1, false⟩], ⟨by decide, by decide, by decide⟩,
    ⟨_, List.mem_singleton.2 rfl, rfl, rfl, rfl⟩, by decide⟩

/-! A table of three timers: 3 s, 1500 ms of 100 to 2000, 7 minutes. -/

def exTable : Table :=
  ⟨[⟨1, 3, .s, true, 0, 0, 0⟩, ⟨-2, 1500, .ms, true, 0, 100, 2000⟩, ⟨3, 7, .m, false, 0, 0, 0⟩], ⟨0, 0, .s, false, 0, 0, 0⟩, []⟩

example : exTable.Ok := ⟨by decide, by decide, by decide⟩
example : (reset exTable.list).bind (fun ts => get ts (-2) .s (-1)) = some 2 := by decide
example : (reset exTable.list).bind (fun ts => get ts 3 .us (-1)) = some 420000000 := by decide
example : (reset exTable.list).bind (fun ts => get ts 4 .us 9) = some 9 := by decide
example : (reset exTable.list).bind (fun ts => (set ts (-2) 3 .s).map (·.1)) = some (-34) := by decide
example : (reset exTable.list).bind (fun ts => (set ts 1 1 .us).bind fun r => get r.2 1 .us 0) = some 1000000 := by decide
example : (run exTable.list [.reset, .set (-2) 1 .s, .set 9 1 .s]).bind (fun ts => get ts (-2) .ms 0) = some 1000 := by decide
example : (reset exTable.list).bind (fun ts => stateChg 1 [⟨0, false⟩, ⟨-2, true⟩] ts 0) = some (.keepOrStart 1500 (-2)) := by decide

end Verif.Tdef
