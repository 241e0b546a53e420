import Verif.Exec.Model
/-!
Properties of the environment functions (C164).
-/
namespace Verif.Exec

/-- An entry `KEY=VALUE` with a key of at most 255 characters of the list. -/
def Permitted (whitelist : List Str) (ent : Str) : Prop :=
  ∃ k v, ent = k ++ eqSign :: v ∧ eqSign ∉ k ∧ k.length ≤ 255 ∧ k ∈ whitelist

theorem strInList_iff (l : List Str) (k : Str) : strInList l k = true ↔ k ∈ l := by
  induction l with
  | nil => simp [strInList]
  | cons e es ih =>
    simp only [strInList]
    by_cases h : e = k
    · simp [h]
    · rw [if_neg h, ih, List.mem_cons]
      constructor
      · exact Or.inr
      · rintro (rfl | h')
        · exact absurd rfl h
        · exact h'

theorem eqPos_none (s : Str) : eqPos s = none ↔ eqSign ∉ s := by
  induction s with
  | nil => simp [eqPos]
  | cons c cs ih =>
    simp only [eqPos]
    by_cases h : c = eqSign
    · simp [h]
    · rw [if_neg h, Option.map_eq_none_iff, ih]
      simp [Ne.symm h]

theorem eqPos_some (s : Str) (p : Nat) :
    eqPos s = some p ↔ ∃ k v, s = k ++ eqSign :: v ∧ eqSign ∉ k ∧ k.length = p := by
  induction s generalizing p with
  | nil => simp [eqPos]
  | cons c cs ih =>
    simp only [eqPos]
    by_cases h : c = eqSign
    · rw [if_pos h]
      constructor
      · intro hp
        cases hp
        exact ⟨[], cs, by simp [h], by simp, rfl⟩
      · rintro ⟨k, v, h1, h2, h3⟩
        cases k with
        | nil => simpa using h3
        | cons a k =>
          simp only [List.cons_append, List.cons.injEq] at h1
          rw [← h1.1, h] at h2
          simp at h2
    · rw [if_neg h, Option.map_eq_some_iff]
      constructor
      · rintro ⟨q, hq, rfl⟩
        obtain ⟨k, v, h1, h2, h3⟩ := (ih q).mp hq
        exact ⟨c :: k, v, by simp [h1], by simp [h2, Ne.symm h], by simp [h3]⟩
      · rintro ⟨k, v, h1, h2, h3⟩
        cases k with
        | nil =>
          simp only [List.nil_append, List.cons.injEq] at h1
          exact absurd h1.1 h
        | cons a k =>
          simp only [List.cons_append, List.cons.injEq] at h1
          exact ⟨k.length, (ih _).mpr ⟨k, v, h1.2, fun hh => h2 (List.mem_cons_of_mem _ hh), rfl⟩, by simpa using h3⟩

/-- What the loop does with an entry. -/
theorem permitted_iff (w : List Str) (ent : Str) :
    Permitted w ent ↔ ∃ p, eqPos ent = some p ∧ p < 256 ∧ strInList w (ent.take p) = true := by
  constructor
  · rintro ⟨k, v, h1, h2, h3, h4⟩
    refine ⟨k.length, (eqPos_some _ _).mpr ⟨k, v, h1, h2, rfl⟩, by omega, ?_⟩
    rw [strInList_iff, h1, List.take_left]
    exact h4
  · rintro ⟨p, h1, h2, h3⟩
    obtain ⟨k, v, rfl, k2, rfl⟩ := (eqPos_some _ _).mp h1
    rw [strInList_iff, List.take_left] at h3
    exact ⟨k, v, rfl, k2, by omega, h3⟩

/-- The array: `n` entries are set. -/
theorem put_next (l : List Str) (rest : List (Option Str)) (x : Option Str) (v : Option Str) :
    put (l.map some ++ x :: rest) l.length v = some (l.map some ++ v :: rest) := by
  unfold put
  rw [if_pos (by simp)]
  congr 1
  rw [List.set_append_right _ _ (by simp)]
  simp

open Classical in
theorem filterLoop_spec (w : List Str) (i : List Str) (l : List Str) (rest : List (Option Str)) (n : Nat)
    (hn : l.length + rest.length = n) (hr : 1 ≤ rest.length) :
    filterLoop n w i (l.map some ++ rest) l.length =
      some ((l ++ (i.filter fun e => decide (Permitted w e)).take (rest.length - 1)).map some ++
        rest.drop ((i.filter fun e => decide (Permitted w e)).take (rest.length - 1)).length,
        (l ++ (i.filter fun e => decide (Permitted w e)).take (rest.length - 1)).length) := by
  induction i generalizing l rest with
  | nil => simp [filterLoop]
  | cons e es ih =>
    have skip : ¬ Permitted w e → filterLoop n w es (l.map some ++ rest) l.length =
        some ((l ++ ((e :: es).filter fun e => decide (Permitted w e)).take (rest.length - 1)).map some ++
        rest.drop (((e :: es).filter fun e => decide (Permitted w e)).take (rest.length - 1)).length,
        (l ++ ((e :: es).filter fun e => decide (Permitted w e)).take (rest.length - 1)).length) := by
      intro hp
      rw [ih l rest hn hr, List.filter_cons, if_neg (by simpa using hp)]
    simp only [filterLoop]
    cases hq : eqPos e with
    | none =>
      simp only []
      apply skip
      rw [permitted_iff]
      rintro ⟨p, h1, _⟩
      rw [hq] at h1
      cases h1
    | some p =>
      simp only []
      by_cases h256 : p ≥ 256
      · rw [if_pos h256]
        apply skip
        rw [permitted_iff]
        rintro ⟨p', h1, h2, _⟩
        rw [hq] at h1
        cases h1
        omega
      · rw [if_neg h256]
        by_cases hs : strInList w (e.take p) = true
        · rw [if_pos hs]
          have hp : Permitted w e := (permitted_iff w e).mpr ⟨p, hq, by omega, hs⟩
          have hf : ((e :: es).filter fun e => decide (Permitted w e)) =
              e :: es.filter fun e => decide (Permitted w e) := by
            rw [List.filter_cons, if_pos (by simpa using hp)]
          rw [hf]
          by_cases hu : l.length = n - 1
          · rw [if_pos hu]
            have : rest.length - 1 = 0 := by omega
            rw [this]
            simp
          · rw [if_neg hu]
            cases rest with
            | nil => simp at hr
            | cons x rest =>
              rw [put_next]
              simp only [Option.bind_some]
              have hl : l.map some ++ some e :: rest = (l ++ [e]).map some ++ rest := by simp
              simp only [List.length_cons] at hn hu hr
              rw [hl, show l.length + 1 = (l ++ [e]).length by simp,
                ih (l ++ [e]) rest (by simp; omega) (by omega)]
              have : (x :: rest).length - 1 = (rest.length - 1) + 1 := by simp only [List.length_cons]; omega
              rw [this, List.take_succ_cons, List.length_cons, List.drop_succ_cons]
              simp
        · rw [if_neg hs]
          apply skip
          rw [permitted_iff]
          rintro ⟨p', h1, _, h3⟩
          rw [hq] at h1
          cases h1
          exact hs h3

open Classical in
/-- **C164a.** The output is the permitted entries, in order, as many as there is
room for before the NULL that ends it; the elements behind are left alone, and
the number of elements written is returned. -/
theorem filter_spec (o : List (Option Str)) (i w : List Str) (hl : o ≠ []) :
    ∃ r : List Str, r = (i.filter fun e => decide (Permitted w e)).take (o.length - 1) ∧
      filter (some o) o.length (some i) (some w) =
        some (some (r.map some ++ none :: o.drop (r.length + 1)), (r.length : Int) + 1) := by
  have h1 : 1 ≤ o.length := List.length_pos_iff.mpr hl
  refine ⟨_, rfl, ?_⟩
  have hf := filterLoop_spec w i [] o o.length (by simp) h1
  simp only [List.map_nil, List.nil_append, List.length_nil] at hf
  unfold filter
  simp only []
  rw [if_neg (by omega), hf]
  simp only [Option.bind_some]
  have hlen : ((i.filter fun e => decide (Permitted w e)).take (o.length - 1)).length < o.length := by
    rw [List.length_take]
    omega
  generalize (i.filter fun e => decide (Permitted w e)).take (o.length - 1) = r at *
  rw [if_pos hlen, List.drop_eq_getElem_cons hlen, put_next]
  simp

/-- With room enough no permitted entry is lost: an entry is in the result if and
only if it is permitted and in the input. -/
theorem filter_mem (o : List (Option Str)) (i w : List Str) (hl : i.length < o.length) :
    ∃ (r : List Str) (rest : List (Option Str)),
      filter (some o) o.length (some i) (some w) = some (some (r.map some ++ none :: rest), (r.length : Int) + 1) ∧
      r.Sublist i ∧ ∀ e, e ∈ r ↔ e ∈ i ∧ Permitted w e := by
  classical
  obtain ⟨r, hr, h⟩ := filter_spec o i w (by intro h; simp [h] at hl)
  have : (i.filter fun e => decide (Permitted w e)).length ≤ o.length - 1 := by
    have := List.length_filter_le (fun e => decide (Permitted w e)) i
    omega
  rw [List.take_of_length_le this] at hr
  refine ⟨r, _, h, ?_, ?_⟩
  · rw [hr]; exact List.filter_sublist
  · intro e
    rw [hr, List.mem_filter, decide_eq_true_iff]

/-- Without an input the result is empty. -/
theorem filter_no_input (o : List (Option Str)) (w : List Str) (hl : o ≠ []) :
    filter (some o) o.length none (some w) = some (some (none :: o.drop 1), 1) := by
  cases o with
  | nil => exact absurd rfl hl
  | cons x o => simp [filter, put]

/-- Missing arguments and an empty array are refused, and nothing is written. -/
theorem filter_invalid (o : Option (List (Option Str))) (n : Nat) (i w : Option (List Str))
    (h : o = none ∨ n = 0 ∨ w = none) : filter o n i w = some (o, EINVAL) := by
  cases o with
  | none => rfl
  | some o =>
    cases w with
    | none => rfl
    | some w => simp at h; simp [filter, h]

theorem seek_spec (l : List Str) (rest : List (Option Str)) (k : Nat) :
    seek (l.map some ++ none :: rest) k = some (k + l.length) := by
  induction l generalizing k with
  | nil => simp [seek]
  | cons a l ih =>
    simp only [List.map_cons, List.cons_append, seek, ih, List.length_cons]
    congr 1
    omega

theorem appendLoop_spec (i : List Str) (l : List Str) (rest : List (Option Str)) (n : Nat)
    (hn : l.length + rest.length = n) (hr : 1 ≤ rest.length) :
    appendLoop n i (l.map some ++ rest) l.length =
      some ((l ++ i.take (rest.length - 1)).map some ++ rest.drop (i.take (rest.length - 1)).length,
        (l ++ i.take (rest.length - 1)).length) := by
  induction i generalizing l rest with
  | nil => simp [appendLoop]
  | cons e es ih =>
    simp only [appendLoop]
    by_cases hu : l.length < n - 1
    · rw [if_pos hu]
      cases rest with
      | nil => simp at hr
      | cons x rest =>
        rw [put_next]
        simp only [Option.bind_some]
        have hl : l.map some ++ some e :: rest = (l ++ [e]).map some ++ rest := by simp
        simp only [List.length_cons] at hn hu hr
        rw [hl, show l.length + 1 = (l ++ [e]).length by simp,
          ih (l ++ [e]) rest (by simp; omega) (by omega)]
        have : (x :: rest).length - 1 = (rest.length - 1) + 1 := by simp only [List.length_cons]; omega
        rw [this, List.take_succ_cons, List.length_cons, List.drop_succ_cons]
        simp
    · rw [if_neg hu]
      have : rest.length - 1 = 0 := by omega
      rw [this]
      simp

/-- **C164b.** Appending keeps the entries that are there and adds those of the
input, in order, as many as there is room for before the NULL. -/
theorem append_spec (l i : List Str) (rest : List (Option Str)) :
    ∃ r : List Str, r = l ++ i.take rest.length ∧
      append (some (l.map some ++ none :: rest)) (l.length + 1 + rest.length) (some i) =
        some (some (r.map some ++ none :: rest.drop (r.length - l.length)), (r.length : Int) + 1) := by
  refine ⟨_, rfl, ?_⟩
  have hf := appendLoop_spec i l (none :: rest) (l.length + 1 + rest.length) (by simp; omega) (by simp)
  simp only [List.length_cons, Nat.add_sub_cancel] at hf
  unfold append
  simp only []
  rw [if_neg (by omega), seek_spec]
  simp only [Option.bind_some, Nat.zero_add]
  rw [hf]
  simp only [Option.bind_some]
  have hlen : (i.take rest.length).length ≤ rest.length := by
    rw [List.length_take]
    omega
  generalize i.take rest.length = t at *
  rw [if_pos (by simp; omega),
    List.drop_eq_getElem_cons (by simp; omega), put_next]
  simp

/-- Appending no input: the array is as before.  The value returned does not
count the NULL unless the array is empty. -/
theorem append_no_input_partial (l : List Str) (rest : List (Option Str)) :
    append (some (l.map some ++ none :: rest)) (l.length + 1 + rest.length) none =
      some (some (l.map some ++ none :: rest), if l = [] then 1 else (l.length : Int)) := by
  unfold append
  simp only []
  rw [if_neg (by omega), seek_spec]
  simp only [Option.bind_some, Nat.zero_add]
  cases l with
  | nil => simp [put]
  | cons a l => simp

/-- The value returned for no input is not the one for an empty input, although
the array is the same. -/
theorem append_no_input_counterexample :
    append (some [some [0x41#8], none]) 2 none = some (some [some [0x41#8], none], 1) ∧
    append (some [some [0x41#8], none]) 2 (some []) = some (some [some [0x41#8], none], 2) := by
  constructor <;> rfl

/-- Missing array or an empty one. -/
theorem append_invalid (o : Option (List (Option Str))) (n : Nat) (i : Option (List Str))
    (h : o = none ∨ n = 0) : append o n i = some (o, EINVAL) := by
  cases o with
  | none => rfl
  | some o => simp at h; simp [append, h]

/-- An array without a NULL is read beyond its end. -/
theorem append_unterminated (l : List Str) (n : Nat) (hn : n ≠ 0) (i : Option (List Str)) :
    append (some (l.map some)) n i = none := by
  have : ∀ k, seek (l.map some) k = none := by
    induction l with
    | nil => intro k; rfl
    | cons a l ih => intro k; simp only [List.map_cons, seek]; exact ih _
  simp [append, hn, this]

/-- `A=1`, `BC=2` and `D` with the list `BC`, `D`. -/
example : filter (some [none, none, none]) 3 (some [[0x41, 0x3d, 0x31], [0x42, 0x43, 0x3d, 0x32], [0x44]])
    (some [[0x42, 0x43], [0x44]]) = some (some [some [0x42, 0x43, 0x3d, 0x32], none, none], 2) := by rfl

example : Permitted [[0x42, 0x43]] [0x42, 0x43, 0x3d, 0x32] := ⟨[0x42, 0x43], [0x32], rfl, by decide, by decide, by decide⟩

example : append (some [some [0x41], none, none]) 3 (some [[0x42], [0x43]]) =
    some (some [some [0x41], some [0x42], none], 3) := by rfl

end Verif.Exec
