import Verif.Ctrl.Model
import Mathlib.Data.List.TakeWhile
/-!
C113: the language of control commands.
-/
namespace Verif.Ctrl
open Verif

/-! ### `strtok_r` -/

/-- `s` is delimiters, a word, and nothing or one delimiter and the rest -/
def Field (d : List Byte) (s t rest : Str) : Prop :=
  t ≠ [] ∧ (∀ c ∈ t, c ∉ d) ∧ ∃ lead tail, s = lead ++ t ++ tail ∧ (∀ c ∈ lead, c ∈ d) ∧ (tail = [] ∧ rest = [] ∨ ∃ x ∈ d, tail = x :: rest)

theorem dropWhile_lead {p : Byte → Bool} : ∀ (l u : Str), (∀ c ∈ l, p c = true) → (∀ c, u.head? = some c → p c = false) → (l ++ u).dropWhile p = u
  | [], [], _, _ => rfl
  | [], c :: u, _, h => by rw [List.nil_append, List.dropWhile_cons_of_neg]; rw [h c rfl]; simp
  | a :: l, u, h1, h2 => by
    rw [List.cons_append, List.dropWhile_cons_of_pos (h1 a (by simp))]
    exact dropWhile_lead l u (fun c hc => h1 c (by simp [hc])) h2

theorem takeWhile_lead {p : Byte → Bool} : ∀ (l u : Str), (∀ c ∈ l, p c = true) → (∀ c, u.head? = some c → p c = false) → (l ++ u).takeWhile p = l
  | [], [], _, _ => rfl
  | [], c :: u, _, h => by rw [List.nil_append, List.takeWhile_cons_of_neg]; rw [h c rfl]; simp
  | a :: l, u, h1, h2 => by
    rw [List.cons_append, List.takeWhile_cons_of_pos (h1 a (by simp))]
    rw [takeWhile_lead l u (fun c hc => h1 c (by simp [hc])) h2]

theorem head_dropWhile {p : Byte → Bool} : ∀ (l : Str) (c : Byte), (l.dropWhile p).head? = some c → p c = false
  | [], c, h => by cases h
  | a :: l, c, h => by
    by_cases ha : p a = true
    · rw [List.dropWhile_cons_of_pos ha] at h
      exact head_dropWhile l c h
    · rw [List.dropWhile_cons_of_neg ha] at h
      cases h
      simpa using ha

theorem mem_takeWhile {p : Byte → Bool} {l : Str} {c : Byte} (h : c ∈ l.takeWhile p) : p c = true :=
  List.mem_takeWhile_imp h

theorem strtok_of_field {d : List Byte} {s t rest : Str} (h : Field d s t rest) : strtok d s = (some t, rest) := by
  obtain ⟨h1, h2, lead, tail, rfl, h3, h4⟩ := h
  have e0 : (lead ++ t ++ tail).dropWhile (d.contains ·) = t ++ tail := by
    rw [List.append_assoc]
    refine dropWhile_lead _ _ (fun c hc => by simpa using h3 c hc) fun c hc => ?_
    cases t with
    | nil => exact absurd rfl h1
    | cons a t =>
      cases hc
      simpa using h2 c (by simp)
  have hd : ∀ c, tail.head? = some c → (!d.contains c) = false := by
    intro c hc
    rcases h4 with ⟨rfl, _⟩ | ⟨x, hx, rfl⟩
    · cases hc
    · cases hc; simpa using hx
  unfold strtok
  rw [e0]
  simp only
  rw [if_neg (by simp [h1]), takeWhile_lead _ _ (fun c hc => by simpa using h2 c hc) hd, dropWhile_lead _ _ (fun c hc => by simpa using h2 c hc) hd]
  rcases h4 with ⟨rfl, rfl⟩ | ⟨x, hx, rfl⟩ <;> rfl

theorem field_of_strtok {d : List Byte} {s t rest : Str} (h : strtok d s = (some t, rest)) : Field d s t rest := by
  unfold strtok at h
  simp only at h
  split at h
  · cases h
  · rename_i hne
    simp only [Prod.mk.injEq, Option.some.injEq] at h
    obtain ⟨h1, h2⟩ := h
    have e1 := List.takeWhile_append_dropWhile (p := (d.contains ·)) (l := s)
    have e2 := List.takeWhile_append_dropWhile (p := (!d.contains ·)) (l := s.dropWhile (d.contains ·))
    refine ⟨?_, ?_, s.takeWhile (d.contains ·), (s.dropWhile (d.contains ·)).dropWhile (!d.contains ·), ?_, ?_, ?_⟩
    · intro h0
      cases hs : s.dropWhile (d.contains ·) with
      | nil => exact hne hs
      | cons c u =>
        have hc := head_dropWhile (p := (d.contains ·)) s c (by rw [hs]; rfl)
        rw [hs, List.takeWhile_cons_of_pos (by simpa using hc), h0] at h1
        cases h1
    · intro c hc
      rw [← h1] at hc
      simpa using mem_takeWhile hc
    · rw [← h1, List.append_assoc, e2, e1]
    · intro c hc
      simpa using mem_takeWhile hc
    · cases hs : (s.dropWhile (d.contains ·)).dropWhile (!d.contains ·) with
      | nil => left; exact ⟨rfl, by rw [← h2, hs]; rfl⟩
      | cons c u =>
        right
        have hc := head_dropWhile (p := (!d.contains ·)) _ c (by rw [hs]; rfl)
        exact ⟨c, by simpa using hc, by rw [← h2, hs]; rfl⟩

theorem strtok_iff {d : List Byte} {s t rest : Str} : strtok d s = (some t, rest) ↔ Field d s t rest := ⟨field_of_strtok, strtok_of_field⟩

theorem strtok_nil (s : Str) : (strtok [] s).1 = if s = [] then none else some s := by
  have h : s.dropWhile (([] : List Byte).contains ·) = s := by cases s <;> rfl
  have h2 : s.takeWhile (!([] : List Byte).contains ·) = s := by
    have := takeWhile_lead (p := (!([] : List Byte).contains ·)) s [] (fun c _ => rfl) (fun c hc => by cases hc)
    simpa using this
  unfold strtok
  rw [h]
  simp only
  split
  · rfl
  · rw [h2]

/-! ### The language -/

/-- the line of a payload: all before the first nul -/
def Line (p l : Str) : Prop := 0 ∉ l ∧ (p = l ∨ ∃ r, p = l ++ 0 :: r)

/-- blanks are spaces -/
def Spaces (l : Str) : Prop := ∀ c ∈ l, c = 0x20

/-- the same but for the case of letters -/
def SameWord (a b : Str) : Prop := a.map lower = b.map lower

/-- a number -/
def IsId (s : Str) : Prop := s ≠ [] ∧ ∀ c ∈ s, 0x30 ≤ c.toNat ∧ c.toNat ≤ 0x39

/-- identifiers separated by dots -/
def IsVar (s : Str) : Prop := s ≠ [] ∧ ∀ c ∈ s, c = 0x2e ∨ Stats.Legal c

/-- the id of a command; "err" if an ERROR was sent about a line without one -/
def IdOk (t : Ty) (id : Str) : Prop := IsId id ∨ t = .error ∧ id = sErr

/-- the beginning of a line: the type and the id -/
def Head (l : Str) (t : Ty) (id rest : Str) : Prop :=
  ∃ a T b, l = a ++ T ++ [0x20] ++ b ++ id ++ rest ∧ Spaces a ∧ SameWord T (nameOf t) ∧ Spaces b ∧ IdOk t id

theorem line_takeWhile {p l : Str} : Line p l ↔ p.takeWhile (· != 0) = l := by
  constructor
  · rintro ⟨h0, rfl | ⟨r, rfl⟩⟩
    · have := takeWhile_lead (p := (· != (0 : Byte))) p [] (fun c hc => by simpa using fun e : c = 0 => h0 (e ▸ hc)) (fun c hc => by cases hc)
      simpa using this
    · exact takeWhile_lead (p := (· != (0 : Byte))) l _ (fun c hc => by simpa using fun e : c = 0 => h0 (e ▸ hc)) (fun c hc => by cases hc; rfl)
  · intro h
    refine ⟨fun h0 => ?_, ?_⟩
    · rw [← h] at h0
      simpa using mem_takeWhile h0
    · have e := List.takeWhile_append_dropWhile (p := (· != (0 : Byte))) (l := p)
      cases hs : p.dropWhile (· != 0) with
      | nil => left; rw [hs, h] at e; simpa using e.symm
      | cons c u =>
        right
        have hc := head_dropWhile (p := (· != (0 : Byte))) _ c (by rw [hs]; rfl)
        have hc : c = 0 := by simpa using hc
        subst hc
        exact ⟨u, by rw [← h, ← hs, e]⟩

theorem typeOf_iff {s : Str} {t : Ty} : typeOf s = some t ↔ SameWord s (nameOf t) := by
  constructor
  · intro h
    unfold typeOf at h
    obtain ⟨p, h1, h2⟩ := Option.bind_eq_some_iff.1 h
    have h3 := List.find?_some h1
    have h4 := List.mem_of_find?_eq_some h1
    have h3 : p.2.map lower = s.map lower := by simpa using h3
    unfold SameWord
    rw [← h3]
    simp only [typeVals, List.mem_cons, List.not_mem_nil, or_false] at h4
    rcases h4 with rfl | rfl | rfl | rfl | rfl | rfl | rfl <;> cases h2 <;> rfl
  · intro h
    unfold SameWord at h
    unfold typeOf
    rw [h]
    cases t <;> decide

theorem sameWord_ne {s : Str} {t : Ty} (h : SameWord s (nameOf t)) : s ≠ [] ∧ ∀ c ∈ s, c ∉ ([0x20] : List Byte) := by
  unfold SameWord at h
  constructor
  · rintro rfl
    cases t <;> exact absurd h (by decide)
  · intro c hc e
    have e : c = 0x20 := by simpa using e
    subst e
    have : (0x20 : Byte) ∈ s.map lower := List.mem_map.2 ⟨_, hc, by decide⟩
    rw [h] at this
    cases t <;> exact absurd this (by decide)

theorem idValid_iff {t : Ty} {id : Str} (h : id ≠ []) : (!idValid id && !(t == .error && id == sErr)) = false ↔ IdOk t id := by
  have e : idValid id = true ↔ IsId id := by
    unfold idValid IsId isDigit
    rw [List.all_eq_true]
    simp only [decide_eq_true_eq]
    exact ⟨fun h' => ⟨h, h'⟩, fun h' => h'.2⟩
  unfold IdOk
  rw [← e]
  cases idValid id
  · simp
  · simp

theorem varValid_iff {s : Str} : varValid s = true ↔ IsVar s := by
  unfold varValid IsVar
  rw [Stats.separatedValid_iff]
  simp

theorem IdOk.ne {t : Ty} {id : Str} (h : IdOk t id) : id ≠ [] := by
  rcases h with h | ⟨-, rfl⟩
  · exact h.1
  · decide

theorem digit_not {c : Byte} (h : 0x30 ≤ c.toNat ∧ c.toNat ≤ 0x39) : c ≠ 0x20 ∧ c ≠ 0x0a ∧ c ≠ 0 := by
  refine ⟨?_, ?_, ?_⟩ <;> rintro rfl <;> exact absurd h (by decide)

theorem IdOk.not {t : Ty} {id : Str} (h : IdOk t id) : ∀ c ∈ id, c ≠ 0x20 ∧ c ≠ 0x0a ∧ c ≠ 0 := by
  intro c hc
  rcases h with h | ⟨-, rfl⟩
  · exact digit_not (h.2 c hc)
  · revert c; decide

theorem legal_not : ∀ c : Byte, (c = 0x2e ∨ Stats.Legal c) → c ≠ 0x20 ∧ c ≠ 0x0a ∧ c ≠ 0 := by
  apply Stats.byte_all
  decide +kernel

theorem IsVar.not {v : Str} (h : IsVar v) : ∀ c ∈ v, c ≠ 0x20 ∧ c ≠ 0x0a ∧ c ≠ 0 := fun c hc => legal_not c (h.2 c hc)

/-- what is behind the id -/
def After (rest r : Str) : Prop := rest = [] ∧ r = [] ∨ rest = 0x20 :: r

theorem head_parse {p l : Str} {t : Ty} {id rest r : Str} (hl : Line p l) (h : Head l t id rest) (ha : After rest r) :
    parse p = parseRest t id r := by
  obtain ⟨a, T, b, rfl, h1, h2, h3, h4⟩ := h
  have f1 : Field [0x20] (a ++ T ++ [0x20] ++ b ++ id ++ rest) T (b ++ id ++ rest) :=
    ⟨(sameWord_ne h2).1, (sameWord_ne h2).2, a, 0x20 :: (b ++ id ++ rest), by simp, fun c hc => by simpa using h1 c hc, .inr ⟨0x20, by simp, rfl⟩⟩
  have f2 : Field [0x20] (b ++ id ++ rest) id r := by
    refine ⟨h4.ne, fun c hc => by simpa using (h4.not c hc).1, b, rest, rfl, fun c hc => by simpa using h3 c hc, ?_⟩
    rcases ha with ⟨e1, e2⟩ | e
    · exact .inl ⟨e1, e2⟩
    · exact .inr ⟨0x20, by simp, e⟩
  unfold parse
  rw [line_takeWhile.1 hl, strtok_of_field f1]
  simp only
  rw [typeOf_iff.2 h2]
  simp only
  rw [strtok_of_field f2]
  simp only
  rw [(idValid_iff h4.ne).2 h4]
  simp only [Bool.false_eq_true, if_false]

/-- either there is no type and id, and the answer is an error with the id "err", or the rest decides -/
theorem parse_cases (p : Str) :
    (∃ m, parse p = fail sErr none none m ∧ m ≠ []) ∨ ∃ l t id rest r, Line p l ∧ Head l t id rest ∧ After rest r := by
  have hl : Line p (p.takeWhile (· != 0)) := line_takeWhile.2 rfl
  unfold parse
  generalize p.takeWhile (· != 0) = l at hl
  rcases h1 : strtok [0x20] l with ⟨_ | T, s1⟩
  · exact .inl ⟨_, rfl, by decide⟩
  simp only
  cases h2 : typeOf T with
  | none => exact .inl ⟨_, rfl, by decide⟩
  | some t =>
    simp only
    rcases h3 : strtok [0x20] s1 with ⟨_ | id, s2⟩
    · exact .inl ⟨_, rfl, by decide⟩
    simp only
    cases h4 : (!idValid id && !(t == .error && id == sErr)) with
    | true => exact .inl ⟨_, rfl, by decide⟩
    | false =>
      right
      obtain ⟨g1, g2, a, tail, e1, g3, g4⟩ := field_of_strtok h1
      obtain ⟨k1, k2, b, tail2, e2, k3, k4⟩ := field_of_strtok h3
      have hT := typeOf_iff.1 h2
      rcases g4 with ⟨-, e⟩ | ⟨x, hx, e⟩
      · subst e
        have : id = [] := by
          have := congrArg List.length e2
          simp only [List.length_nil, List.length_append] at this
          exact List.eq_nil_of_length_eq_zero (by omega)
        exact absurd this k1
      · have hx : x = 0x20 := by simpa using hx
        subst hx
        refine ⟨l, t, id, tail2, s2, hl, ⟨a, T, b, ?_, fun c hc => by simpa using g3 c hc, hT, fun c hc => by simpa using k3 c hc,
          (idValid_iff k1).1 h4⟩, ?_⟩
        · rw [e1, e, e2]; simp
        · rcases k4 with ⟨e3, e4⟩ | ⟨x, hx, e3⟩
          · exact .inl ⟨e3, e4⟩
          · have hx : x = 0x20 := by simpa using hx
            subst hx
            exact .inr e3

end Verif.Ctrl
