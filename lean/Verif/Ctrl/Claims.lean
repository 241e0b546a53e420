import Verif.Ctrl.Parse
/-!
C113: what lines are control commands, and what commands are sent as.
-/
namespace Verif.Ctrl
open Verif

/-- a type that is answered by nothing: a reply, or a TRAP -/
def IsReply (t : Ty) : Prop := t = .getReply ∨ t = .setReply ∨ t = .trap

instance (t : Ty) : Decidable (IsReply t) := by unfold IsReply; infer_instance

/-- what a line means -/
inductive Means (l : Str) : Cmd → Prop
  /-- GET id variable: a space or newline may follow -/
  | get (id x var e : Str) : Head l .get id (0x20 :: (x ++ var ++ e)) → (∀ c ∈ x, c = 0x20 ∨ c = 0x0a) → IsVar var →
      (e = [] ∨ e = [0x20] ∨ e = [0x0a]) → Means l ⟨.get, some id, some var, none, none⟩
  /-- SET id variable value: the value ends with the line, a newline may follow -/
  | set (id x var y val e : Str) : Head l .set id (0x20 :: (x ++ var ++ 0x20 :: (y ++ val ++ e))) → Spaces x → IsVar var → (∀ c ∈ y, c = 0x0a) →
      val ≠ [] → 0x0a ∉ val → (e = [] ∨ e = [0x0a]) → Means l ⟨.set, some id, some var, some val, none⟩
  /-- a reply or TRAP: all that follows the variable is the reply -/
  | reply (t : Ty) (id x var r : Str) : IsReply t → Head l t id (0x20 :: (x ++ var ++ 0x20 :: r)) → Spaces x → IsVar var → r ≠ [] →
      Means l ⟨t, some id, some var, none, some r⟩
  /-- ERROR id text -/
  | error (id r : Str) : Head l .error id (0x20 :: r) → r ≠ [] → Means l ⟨.error, some id, none, none, some r⟩

theorem parseRest_reply {t : Ty} (h : IsReply t) (id s : Str) : parseRest t id s = parseReply t id s := by
  rcases h with rfl | rfl | rfl <;> rfl

theorem field_blank (d : List Byte) (x v r : Str) (tail : Str) (hv : v ≠ []) (hx : ∀ c ∈ x, c ∈ d) (hn : ∀ c ∈ v, c ∉ d)
    (h : tail = [] ∧ r = [] ∨ ∃ y ∈ d, tail = y :: r) : Field d (x ++ v ++ tail) v r := ⟨hv, hn, x, tail, rfl, hx, h⟩

/-- **What a line means**: it is accepted as a command just if it is one by the grammar -/
theorem ctrl_parse_iff {p l : Str} (hl : Line p l) (c : Cmd) : parse p = (c, false) ↔ Means l c := by
  constructor
  · intro h
    rcases parse_cases p with ⟨m, e, -⟩ | ⟨l', t, id, rest, r, h1, h2, h3⟩
    · rw [e] at h; cases h
    · have e : l' = l := by rw [← line_takeWhile.1 hl, ← line_takeWhile.1 h1]
      subst e
      rw [head_parse h1 h2 h3] at h
      have hr : r ≠ [] → Head l' t id (0x20 :: r) := by
        intro hne
        rcases h3 with ⟨-, e⟩ | e
        · exact absurd e hne
        · rw [← e]; exact h2
      have hrep : ∀ t', t' = t → IsReply t' → parseReply t' id r = (c, false) → Means l' c := by
        rintro t' rfl ht h
        unfold parseReply at h
        rcases hf : strtok [0x20] r with ⟨_ | v, s⟩
        · rw [hf] at h; cases h
        rw [hf] at h
        simp only at h
        obtain ⟨g1, g2, a, tail, e1, g3, g4⟩ := field_of_strtok hf
        by_cases hv : varValid v = true
        · rw [hv, strtok_nil] at h
          simp only [Bool.not_true, Bool.false_eq_true, if_false] at h
          by_cases hs : s = []
          · rw [if_pos hs] at h; cases h
          · rw [if_neg hs] at h
            cases h
            rcases g4 with ⟨-, e⟩ | ⟨x, hx, e⟩
            · exact absurd e hs
            · have hx : x = 0x20 := by simpa using hx
              subst hx
              refine .reply _ id a v s ht ?_ (fun c hc => by simpa using g3 c hc) (varValid_iff.1 hv) hs
              rw [← e, ← e1]
              exact hr (by rw [e1]; simp [g1])
        · rw [Bool.not_eq_true] at hv
          rw [hv] at h; cases h
      cases t with
      | get =>
        unfold parseRest parseGet at h
        simp only at h
        rcases hf : strtok [0x20, 0x0a] r with ⟨_ | v, s⟩
        · rw [hf] at h; cases h
        rw [hf] at h
        simp only at h
        obtain ⟨g1, g2, a, tail, e1, g3, g4⟩ := field_of_strtok hf
        by_cases hv : varValid v = true
        · rw [hv, strtok_nil] at h
          simp only [Bool.not_true, Bool.false_eq_true, if_false] at h
          by_cases hs : s = []
          · rw [if_pos hs] at h
            cases h
            refine .get id a v tail ?_ (fun c hc => by simpa using g3 c hc) (varValid_iff.1 hv) ?_
            · rw [← e1]
              exact hr (by rw [e1]; simp [g1])
            · rcases g4 with ⟨e, -⟩ | ⟨x, hx, e⟩
              · exact .inl e
              · rw [hs] at e
                have hx : x = 0x20 ∨ x = 0x0a := by simpa using hx
                rcases hx with rfl | rfl
                · exact .inr (.inl e)
                · exact .inr (.inr e)
          · rw [if_neg hs] at h; cases h
        · rw [Bool.not_eq_true] at hv
          rw [hv] at h; cases h
      | set =>
        unfold parseRest parseSet at h
        simp only at h
        rcases hf : strtok [0x20] r with ⟨_ | v, s⟩
        · rw [hf] at h; cases h
        rw [hf] at h
        simp only at h
        rcases hf2 : strtok [0x0a] s with ⟨_ | val, s2⟩
        · rw [hf2] at h; cases h
        rw [hf2] at h
        simp only at h
        obtain ⟨g1, g2, a, tail, e1, g3, g4⟩ := field_of_strtok hf
        obtain ⟨k1, k2, b, tail2, e2, k3, k4⟩ := field_of_strtok hf2
        by_cases hv : varValid v = true
        · rw [hv, strtok_nil] at h
          simp only [Bool.not_true, Bool.false_eq_true, if_false] at h
          by_cases hs : s2 = []
          · rw [if_pos hs] at h
            cases h
            rcases g4 with ⟨-, e⟩ | ⟨x, hx, e⟩
            · rw [e] at e2
              have := congrArg List.length e2
              simp only [List.length_nil, List.length_append] at this
              exact absurd (List.eq_nil_of_length_eq_zero (by omega)) k1
            · have hx : x = 0x20 := by simpa using hx
              subst hx
              refine .set id a v b val tail2 ?_ (fun c hc => by simpa using g3 c hc) (varValid_iff.1 hv) (fun c hc => by simpa using k3 c hc) k1
                (fun hc => k2 _ hc (by simp)) ?_
              · rw [← e2, ← e, ← e1]
                exact hr (by rw [e1]; simp [g1])
              · rcases k4 with ⟨e, -⟩ | ⟨x, hx, e⟩
                · exact .inl e
                · have hx : x = 0x0a := by simpa using hx
                  subst hx
                  rw [hs] at e
                  exact .inr e
          · rw [if_neg hs] at h; cases h
        · rw [Bool.not_eq_true] at hv
          rw [hv] at h; cases h
      | error =>
        unfold parseRest parseError at h
        simp only at h
        rw [strtok_nil] at h
        by_cases hs : r = []
        · rw [if_pos hs] at h; cases h
        · rw [if_neg hs] at h
          cases h
          exact .error id r (hr hs) hs
      | getReply => exact hrep .getReply rfl (by decide) h
      | setReply => exact hrep .setReply rfl (by decide) h
      | trap => exact hrep .trap rfl (by decide) h
  · intro h
    cases h with
    | get id x var e h1 h2 h3 h4 =>
      rw [head_parse hl h1 (.inr rfl)]
      have f : Field [0x20, 0x0a] (x ++ var ++ e) var [] := by
        refine field_blank _ x var [] e h3.1 (fun c hc => by simpa using h2 c hc) (fun c hc => by simpa using ⟨(h3.not c hc).1, (h3.not c hc).2.1⟩) ?_
        rcases h4 with rfl | rfl | rfl
        · exact .inl ⟨rfl, rfl⟩
        · exact .inr ⟨0x20, by simp, rfl⟩
        · exact .inr ⟨0x0a, by simp, rfl⟩
      unfold parseRest parseGet
      simp only
      rw [strtok_of_field f]
      simp only
      rw [varValid_iff.2 h3]
      rfl
    | set id x var y val e h1 h2 h3 h4 h5 h6 h7 =>
      rw [head_parse hl h1 (.inr rfl)]
      have f : Field [0x20] (x ++ var ++ 0x20 :: (y ++ val ++ e)) var (y ++ val ++ e) :=
        field_blank _ x var _ _ h3.1 (fun c hc => by simpa using h2 c hc) (fun c hc => by simpa using (h3.not c hc).1) (.inr ⟨0x20, by simp, rfl⟩)
      have f2 : Field [0x0a] (y ++ val ++ e) val [] := by
        refine field_blank _ y val [] e h5 (fun c hc => by simpa using h4 c hc) (fun c hc => by simpa using fun e : c = 0x0a => h6 (e ▸ hc)) ?_
        rcases h7 with rfl | rfl
        · exact .inl ⟨rfl, rfl⟩
        · exact .inr ⟨0x0a, by simp, rfl⟩
      unfold parseRest parseSet
      simp only
      rw [strtok_of_field f]
      simp only
      rw [strtok_of_field f2]
      simp only
      rw [varValid_iff.2 h3]
      rfl
    | reply t id x var r ht h1 h2 h3 h4 =>
      rw [head_parse hl h1 (.inr rfl), parseRest_reply ht]
      have f : Field [0x20] (x ++ var ++ 0x20 :: r) var r :=
        field_blank _ x var _ _ h3.1 (fun c hc => by simpa using h2 c hc) (fun c hc => by simpa using (h3.not c hc).1) (.inr ⟨0x20, by simp, rfl⟩)
      unfold parseReply
      rw [strtok_of_field f]
      simp only
      rw [varValid_iff.2 h3, strtok_nil, if_neg h4]
      rfl
    | error id r h1 h2 =>
      rw [head_parse hl h1 (.inr rfl)]
      unfold parseRest parseError
      simp only
      rw [strtok_nil, if_neg h2]

/-- **A line that is not accepted is answered**: what is returned is an ERROR with an id and a text -/
theorem ctrl_parse_fail {p l : Str} (hl : Line p l) (c : Cmd) (h : parse p = (c, true)) :
    c.type = .error ∧ ∃ id m, c.id = some id ∧ c.reply = some m ∧ make c = some (nameOf .error ++ [0x20] ++ id ++ [0x20] ++ m) ∧
      (id = sErr ∨ ∃ t rest, Head l t id rest) ∧ (m = [] → ∃ rest, Head l .error id rest ∧ (rest = [] ∨ rest = [0x20])) := by
  have key : ∀ (id m : Str) (a b : Option Str), fail id a b m = (c, true) →
      (id = sErr ∨ ∃ t rest, Head l t id rest) → (m = [] → ∃ rest, Head l .error id rest ∧ (rest = [] ∨ rest = [0x20])) →
      c.type = .error ∧ ∃ id m, c.id = some id ∧ c.reply = some m ∧ make c = some (nameOf .error ++ [0x20] ++ id ++ [0x20] ++ m) ∧
      (id = sErr ∨ ∃ t rest, Head l t id rest) ∧ (m = [] → ∃ rest, Head l .error id rest ∧ (rest = [] ∨ rest = [0x20])) := by
    intro id m a b e h1 h2
    cases e
    exact ⟨rfl, id, m, rfl, rfl, rfl, h1, h2⟩
  rcases parse_cases p with ⟨m, e, hm⟩ | ⟨l', t, id, rest, r, h1, h2, h3⟩
  · rw [e] at h
    exact key _ _ _ _ h (.inl rfl) (fun e => absurd e hm)
  · have e : l' = l := by rw [← line_takeWhile.1 hl, ← line_takeWhile.1 h1]
    subst e
    rw [head_parse h1 h2 h3] at h
    have no : ∀ a : Str, ∀ b : Str, b ≠ [] → (a ++ b = [] → ∃ rest, Head l' .error id rest ∧ (rest = [] ∨ rest = [0x20])) := by
      intro a b hb e
      exact absurd (List.append_eq_nil_iff.1 e).2 hb
    have hid : id = sErr ∨ ∃ t rest, Head l' t id rest := .inr ⟨t, rest, h2⟩
    have hrep : ∀ t', parseReply t' id r = (c, true) → c.type = .error ∧ ∃ id m, c.id = some id ∧ c.reply = some m ∧ make c = some (nameOf .error ++ [0x20] ++ id ++ [0x20] ++ m) ∧
      (id = sErr ∨ ∃ t rest, Head l' t id rest) ∧ (m = [] → ∃ rest, Head l' .error id rest ∧ (rest = [] ∨ rest = [0x20])) := by
      intro t' h
      unfold parseReply at h
      rcases hf : strtok [0x20] r with ⟨_ | v, s⟩
      · rw [hf] at h
        exact key _ _ _ _ h hid (no _ _ (by decide))
      rw [hf] at h
      simp only at h
      split at h
      · exact key _ _ _ _ h hid (no _ _ (by decide))
      · split at h
        · exact key _ _ _ _ h (.inl rfl) (fun e => by cases e)
        · cases h
    cases t with
    | get =>
      unfold parseRest parseGet at h
      simp only at h
      rcases hf : strtok [0x20, 0x0a] r with ⟨_ | v, s⟩
      · rw [hf] at h
        exact key _ _ _ _ h hid (no _ _ (by decide))
      rw [hf] at h
      simp only at h
      split at h
      · exact key _ _ _ _ h hid (no _ _ (by decide))
      · split at h
        · exact key _ _ _ _ h hid (no _ _ (by decide))
        · cases h
    | set =>
      unfold parseRest parseSet at h
      simp only at h
      rcases hf : strtok [0x20] r with ⟨_ | v, s⟩
      · rw [hf] at h
        exact key _ _ _ _ h hid (no _ _ (by decide))
      rw [hf] at h
      simp only at h
      rcases hf2 : strtok [0x0a] s with ⟨_ | val, s2⟩
      · rw [hf2] at h
        exact key _ _ _ _ h hid (no _ _ (by decide))
      rw [hf2] at h
      simp only at h
      split at h
      · exact key _ _ _ _ h hid (no _ _ (by decide))
      · split at h
        · exact key _ _ _ _ h hid (no _ _ (by decide))
        · cases h
    | error =>
      unfold parseRest parseError at h
      simp only at h
      rw [strtok_nil] at h
      by_cases hs : r = []
      · rw [if_pos hs] at h
        refine key _ _ _ _ h hid (fun _ => ⟨rest, h2, ?_⟩)
        rcases h3 with ⟨e, -⟩ | e
        · exact .inl e
        · rw [hs] at e; exact .inr e
      · rw [if_neg hs] at h; cases h
    | getReply => exact hrep _ h
    | setReply => exact hrep _ h
    | trap => exact hrep _ h

/-- **The id is kept**: an answer to a GET, SET or ERROR line with an id has that id -/
theorem ctrl_fail_id {p l : Str} (hl : Line p l) {t : Ty} {id rest r : Str} (h : Head l t id rest) (ha : After rest r) (ht : ¬ IsReply t) :
    (parse p).1.id = some id := by
  rw [head_parse hl h ha]
  cases t with
  | get =>
    unfold parseRest parseGet
    simp only
    split
    · rfl
    · split
      · rfl
      · split <;> rfl
  | set =>
    unfold parseRest parseSet
    simp only
    split
    · rfl
    · split
      · rfl
      · split
        · rfl
        · split <;> rfl
  | error =>
    unfold parseRest parseError
    simp only
    split <;> rfl
  | getReply => exact absurd (by decide) ht
  | setReply => exact absurd (by decide) ht
  | trap => exact absurd (by decide) ht

/-- commands that can be told by their line -/
inductive Wf : Cmd → Prop
  | get (id var : Str) : IsId id → IsVar var → Wf ⟨.get, some id, some var, none, none⟩
  | set (id var val : Str) : IsId id → IsVar var → val ≠ [] → 0x0a ∉ val → 0 ∉ val → Wf ⟨.set, some id, some var, some val, none⟩
  | reply (t : Ty) (id var r : Str) : IsReply t → IsId id → IsVar var → r ≠ [] → 0 ∉ r → Wf ⟨t, some id, some var, none, some r⟩
  | error (id r : Str) : IsId id ∨ id = sErr → r ≠ [] → 0 ∉ r → Wf ⟨.error, some id, none, none, some r⟩

theorem Head.id_ok {l id rest : Str} {t : Ty} (h : Head l t id rest) : IdOk t id := by
  obtain ⟨_, _, _, _, _, _, _, h⟩ := h; exact h

theorem Head.rest_sub {l id rest : Str} {t : Ty} (h : Head l t id rest) : ∀ c ∈ rest, c ∈ l := by
  obtain ⟨a, T, b, rfl, _⟩ := h
  intro c hc
  simp [hc]

/-- **Accepted commands are well-formed** -/
theorem ctrl_parse_wf {p : Str} {c : Cmd} (h : parse p = (c, false)) : Wf c := by
  have hl : Line p (p.takeWhile (· != 0)) := line_takeWhile.2 rfl
  have h := (ctrl_parse_iff hl c).1 h
  have h0 := hl.1
  have idn : ∀ {t id rest}, Head (p.takeWhile (· != 0)) t id rest → t ≠ .error → IsId id := fun h hn => by
    rcases h.id_ok with e | ⟨e, -⟩
    · exact e
    · exact absurd e hn
  have sub : ∀ {a b d : Str}, (∀ c ∈ b, c ∈ d) → (∀ c ∈ a, c ∈ b) → 0 ∈ a → 0 ∈ d := fun h1 h2 h => h1 _ (h2 _ h)
  cases h with
  | get id x var e h1 h2 h3 h4 => exact .get _ _ (idn h1 (by decide)) h3
  | set id x var y val e h1 h2 h3 h4 h5 h6 h7 =>
    exact .set _ _ _ (idn h1 (by decide)) h3 h5 h6 fun hc => h0 (sub (h1.rest_sub) (fun c hc => by simp [hc]) hc)
  | reply t id x var r ht h1 h2 h3 h4 =>
    refine .reply _ _ _ _ ht (idn h1 ?_) h3 h4 fun hc => h0 (sub (h1.rest_sub) (fun c hc => by simp [hc]) hc)
    rintro rfl
    exact absurd ht (by decide)
  | error id r h1 h2 =>
    refine .error _ _ ?_ h2 fun hc => h0 (sub (h1.rest_sub) (fun c hc => by simp [hc]) hc)
    rcases h1.id_ok with e | ⟨-, e⟩
    · exact .inl e
    · exact .inr e

theorem head_name (t : Ty) (id rest : Str) (h : IdOk t id) : Head (nameOf t ++ [0x20] ++ id ++ rest) t id rest :=
  ⟨[], nameOf t, [], by simp, (fun c hc => by cases hc), rfl, (fun c hc => by cases hc), h⟩

theorem name_no_nul (t : Ty) : 0 ∉ nameOf t := by cases t <;> decide

/-- **Round trip**: a well-formed command is sent as a line that is read as the same command -/
theorem ctrl_roundtrip {c : Cmd} (h : Wf c) : ∃ s, make c = some s ∧ parse s = (c, false) := by
  have line : ∀ (t : Ty) (id rest : Str), IdOk t id → 0 ∉ rest → Line (nameOf t ++ [0x20] ++ id ++ rest) (nameOf t ++ [0x20] ++ id ++ rest) := by
    intro t id rest h1 h2
    refine ⟨?_, .inl rfl⟩
    simp only [List.mem_append, not_or]
    exact ⟨⟨⟨name_no_nul t, by decide⟩, fun hc => (h1.not 0 hc).2.2 rfl⟩, h2⟩
  cases h with
  | get id var h1 h2 =>
    have hi : IdOk .get id := .inl h1
    have h0 : 0 ∉ (0x20 :: ([] ++ var ++ []) : Str) := by
      simp only [List.nil_append, List.append_nil, List.mem_cons, not_or]
      exact ⟨by decide, fun hc => (h2.not 0 hc).2.2 rfl⟩
    refine ⟨nameOf .get ++ [0x20] ++ id ++ 0x20 :: ([] ++ var ++ []), by simp [make], ?_⟩
    exact (ctrl_parse_iff (line _ _ _ hi h0) _).2 (.get id [] var [] (head_name _ _ _ hi) (fun c hc => by cases hc) h2 (.inl rfl))
  | set id var val h1 h2 h3 h4 h5 =>
    have hi : IdOk .set id := .inl h1
    have h0 : 0 ∉ (0x20 :: ([] ++ var ++ 0x20 :: ([] ++ val ++ [])) : Str) := by
      simp only [List.nil_append, List.append_nil, List.mem_cons, List.mem_append, not_or]
      exact ⟨by decide, fun hc => (h2.not 0 hc).2.2 rfl, by decide, h5⟩
    refine ⟨nameOf .set ++ [0x20] ++ id ++ 0x20 :: ([] ++ var ++ 0x20 :: ([] ++ val ++ [])), by simp [make], ?_⟩
    exact (ctrl_parse_iff (line _ _ _ hi h0) _).2
      (.set id [] var [] val [] (head_name _ _ _ hi) (fun c hc => by cases hc) h2 (fun c hc => by cases hc) h3 h4 (.inl rfl))
  | reply t id var r ht h1 h2 h3 h4 =>
    have hi : IdOk t id := .inl h1
    have h0 : 0 ∉ (0x20 :: ([] ++ var ++ 0x20 :: r) : Str) := by
      simp only [List.nil_append, List.mem_cons, List.mem_append, not_or]
      exact ⟨by decide, fun hc => (h2.not 0 hc).2.2 rfl, by decide, h4⟩
    refine ⟨nameOf t ++ [0x20] ++ id ++ 0x20 :: ([] ++ var ++ 0x20 :: r), ?_, ?_⟩
    · rcases ht with rfl | rfl | rfl <;> simp [make]
    · exact (ctrl_parse_iff (line _ _ _ hi h0) _).2 (.reply t id [] var r ht (head_name _ _ _ hi) (fun c hc => by cases hc) h2 h3)
  | error id r h1 h2 h3 =>
    have hi : IdOk .error id := by
      rcases h1 with h | h
      · exact .inl h
      · exact .inr ⟨rfl, h⟩
    have h0 : 0 ∉ (0x20 :: r : Str) := by
      simp only [List.mem_cons, not_or]
      exact ⟨by decide, h3⟩
    refine ⟨nameOf .error ++ [0x20] ++ id ++ 0x20 :: r, by simp [make], ?_⟩
    exact (ctrl_parse_iff (line _ _ _ hi h0) _).2 (.error id r (head_name _ _ _ hi) h2)

/-- **and only those**: a command that its line is read as is well-formed -/
theorem ctrl_roundtrip_iff (c : Cmd) : (∃ s, make c = some s ∧ parse s = (c, false)) ↔ Wf c :=
  ⟨fun ⟨_, _, h⟩ => ctrl_parse_wf h, ctrl_roundtrip⟩

/-! ### Where a user may be surprised -/

/-- **A reply without text is not accepted** (src/ctrl/control_cmd.c:481-483): `talloc_strdup` of NULL is NULL, and the answer is "ERROR err OOM",
though such replies are made (src/ctrl/control_if.c:340) -/
theorem ctrl_empty_reply_counterexample (id var : Str) (h1 : IsId id) (h2 : IsVar var) (t : Ty) (ht : IsReply t) :
    ∃ s, make ⟨t, some id, some var, none, some []⟩ = some s ∧ parse s = fail sErr (some var) none sOom := by
  have hi : IdOk t id := .inl h1
  refine ⟨nameOf t ++ [0x20] ++ id ++ 0x20 :: ([] ++ var ++ [0x20]), ?_, ?_⟩
  · rcases ht with rfl | rfl | rfl <;> simp [make]
  · have hl : Line (nameOf t ++ [0x20] ++ id ++ 0x20 :: ([] ++ var ++ [0x20])) (nameOf t ++ [0x20] ++ id ++ 0x20 :: ([] ++ var ++ [0x20])) := by
      refine ⟨?_, .inl rfl⟩
      simp only [List.mem_append, List.nil_append, List.mem_cons, not_or]
      exact ⟨⟨⟨name_no_nul t, by decide, by simp⟩, fun hc => (hi.not 0 hc).2.2 rfl⟩, by decide, fun hc => (h2.not 0 hc).2.2 rfl, by decide, by simp⟩
    rw [head_parse hl (head_name _ _ _ hi) (.inr rfl), parseRest_reply ht]
    have f : Field [0x20] ([] ++ var ++ [0x20]) var [] :=
      field_blank _ [] var _ _ h2.1 (fun c hc => by cases hc) (fun c hc => by simpa using (h2.not c hc).1) (.inr ⟨0x20, by simp, rfl⟩)
    unfold parseReply
    rw [strtok_of_field f]
    simp only
    rw [varValid_iff.2 h2]
    rfl

/-- **An ERROR without text is sent back** (src/ctrl/control_cmd.c:492-496, src/ctrl/control_if.c:457-459): two ends of libosmocore send it to and
fro for ever -/
theorem ctrl_empty_error_counterexample (h : Handle) (fuel : Nat) :
    handleMsg h fuel (nameOf .error ++ [0x20, 0x31, 0x20]) = some ([], some (nameOf .error ++ [0x20, 0x31, 0x20])) := by
  have e : parse (nameOf .error ++ [0x20, 0x31, 0x20]) = fail [0x31] none none [] := by decide +kernel
  unfold handleMsg
  rw [e]
  rfl

/-- **A newline at the end of a value is lost**, and one within is an error: not all values can be set -/
theorem ctrl_newline_counterexample :
    parse (nameOf .set ++ [0x20, 0x31, 0x20, 0x61, 0x20, 0x62, 0x0a]) = (⟨.set, some [0x31], some [0x61], some [0x62], none⟩, false) ∧
    (parse (nameOf .set ++ [0x20, 0x31, 0x20, 0x61, 0x20, 0x62, 0x0a, 0x63])).2 = true := by decide +kernel

/-- "get 12 bts.0" with the type in small letters, blanks before it and a newline behind -/
example : parse [0x20, 0x67, 0x65, 0x74, 0x20, 0x31, 0x32, 0x20, 0x62, 0x2e, 0x30, 0x0a] = (⟨.get, some [0x31, 0x32], some [0x62, 0x2e, 0x30], none, none⟩, false) := by
  decide +kernel

/-- "GET 1 a b": trailing characters, told with the id -/
example : parse [0x47, 0x45, 0x54, 0x20, 0x31, 0x20, 0x61, 0x20, 0x62] = fail [0x31] (some [0x61]) none (nameOf .get ++ sTrailing) := by decide +kernel

example : Wf ⟨.trap, some [0x30], some [0x61, 0x2e, 0x62], none, some [0x20, 0x0a]⟩ :=
  .reply _ _ _ _ (by decide) ⟨by decide, by decide⟩ ⟨by decide, by decide⟩ (by decide) (by decide)

end Verif.Ctrl
