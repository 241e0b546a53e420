import Verif.Strvec.Model
/-!
Properties of the split of a line into tokens (C168).
-/
namespace Verif.Strvec

/-- Space, tab, line feed, vertical tab, form feed, carriage return. -/
def white : List Byte := [32, 9, 10, 11, 12, 13]

/-- A token: not empty, no white space. -/
def Word (t : Str) : Prop := t ≠ [] ∧ ∀ c ∈ t, c ∉ white

/-- White space only. -/
def Blank (s : Str) : Prop := ∀ c ∈ s, c ∈ white

/-- A line without indentation: words, white space between them, and possibly
white space at the end. -/
inductive Line : List Str → Str → Prop
  | last (t ws : Str) : Word t → Blank ws → Line [t] (t ++ ws)
  | cons (t ws : Str) (ts : List Str) (s : Str) : Word t → Blank ws → ws ≠ [] → Line ts s →
      Line (t :: ts) (t ++ ws ++ s)

theorem isspace_iff (c : Byte) : isspace c = true ↔ c ∈ white := by
  have key : ∀ k : Nat, k < 256 → (c = BitVec.ofNat 8 k ↔ c.toNat = k) := by
    intro k hk
    rw [← BitVec.toNat_inj, BitVec.toNat_ofNat, Nat.mod_eq_of_lt hk]
  have e : c ∈ white ↔ (c = BitVec.ofNat 8 32 ∨ c = BitVec.ofNat 8 9 ∨ c = BitVec.ofNat 8 10 ∨ c = BitVec.ofNat 8 11 ∨
      c = BitVec.ofNat 8 12 ∨ c = BitVec.ofNat 8 13) := by
    simp [white]
  rw [e, isspace, decide_eq_true_iff]
  have h32 := key 32 (by decide)
  rw [show (32#8 : Byte) = BitVec.ofNat 8 32 from rfl]
  rw [h32, key 9 (by decide), key 10 (by decide), key 11 (by decide), key 12 (by decide), key 13 (by decide)]
  omega

theorem stop_iff (c : Byte) : (isspace c || decide (c = 13#8) || decide (c = 10#8)) = true ↔ c ∈ white := by
  rw [Bool.or_eq_true, Bool.or_eq_true, isspace_iff, decide_eq_true_iff, decide_eq_true_iff]
  constructor
  · rintro ((h | rfl) | rfl)
    · exact h
    · decide
    · decide
  · exact fun h => Or.inl (Or.inl h)

theorem skip_iff (c : Byte) : (isspace c || decide (c = 10#8) || decide (c = 13#8)) = true ↔ c ∈ white := by
  rw [Bool.or_eq_true, Bool.or_eq_true, isspace_iff, decide_eq_true_iff, decide_eq_true_iff]
  constructor
  · rintro ((h | rfl) | rfl)
    · exact h
    · decide
    · decide
  · exact fun h => Or.inl (Or.inl h)

/-- White space comes first, or nothing. -/
def Stop (r : Str) : Prop := r = [] ∨ ∃ c cs, r = c :: cs ∧ c ∈ white

theorem token_spec (t r : Str) (ht : ∀ c ∈ t, c ∉ white) (hr : Stop r) : token (t ++ r) = (t, r) := by
  induction t with
  | nil =>
    rcases hr with rfl | ⟨c, cs, rfl, hc⟩
    · rfl
    · simp only [List.nil_append, token]
      rw [if_neg]
      rw [(stop_iff c).mpr hc]
      simp
  | cons a t ih =>
    have ha : (isspace a || decide (a = 13#8) || decide (a = 10#8)) = false := by
      rw [← Bool.not_eq_true, stop_iff]; exact ht a (by simp)
    simp only [List.cons_append, token, ha, Bool.not_false, if_true]
    rw [ih (fun c hc => ht c (by simp [hc]))]

theorem skip_spec (ws s : Str) (hw : Blank ws) (hs : s = [] ∨ ∃ c cs, s = c :: cs ∧ c ∉ white) :
    skip (ws ++ s) = s := by
  induction ws with
  | nil =>
    rcases hs with rfl | ⟨c, cs, rfl, hc⟩
    · rfl
    · simp only [List.nil_append, skip]
      rw [if_neg (by rw [skip_iff]; exact hc)]
  | cons a ws ih =>
    simp only [List.cons_append, skip]
    rw [if_pos ((skip_iff a).mpr (hw a (by simp)))]
    exact ih fun c hc => hw c (by simp [hc])

theorem line_head (ts : List Str) (s : Str) (h : Line ts s) : ∃ c cs, s = c :: cs ∧ c ∉ white := by
  have key : ∀ t r : Str, Word t → ∃ c cs, t ++ r = c :: cs ∧ c ∉ white := by
    intro t r ht
    cases t with
    | nil => exact absurd rfl ht.1
    | cons a t => exact ⟨a, t ++ r, rfl, ht.2 a (by simp)⟩
  cases h with
  | last t ws ht hw => exact key t ws ht
  | cons t ws ts s ht hw hn hl => rw [List.append_assoc]; exact key t _ ht

theorem blank_stop (ws : Str) (h : Blank ws) (r : Str) (hn : ws ≠ [] ∨ r = []) : Stop (ws ++ r) := by
  cases ws with
  | nil =>
    rcases hn with hn | rfl
    · exact absurd rfl hn
    · exact Or.inl rfl
  | cons a ws => exact Or.inr ⟨a, ws ++ r, rfl, h a (by simp)⟩

theorem tokens_line (ts : List Str) (s : Str) (h : Line ts s) (fuel : Nat) (hf : s.length ≤ fuel) :
    tokens fuel s = some ts := by
  induction h generalizing fuel with
  | last t ws ht hw =>
    cases fuel with
    | zero =>
      have := List.length_pos_iff.mpr ht.1
      simp only [List.length_append] at hf; omega
    | succ fuel =>
      have h1 := token_spec t ws ht.2 (by have := blank_stop ws hw [] (Or.inr rfl); simpa using this)
      have h2 := skip_spec ws [] hw (Or.inl rfl)
      rw [List.append_nil] at h2
      simp only [tokens, h1, h2]
  | cons t ws ts s ht hw hn hl ih =>
    cases fuel with
    | zero =>
      have := List.length_pos_iff.mpr ht.1
      simp only [List.length_append] at hf; omega
    | succ fuel =>
      have h1 := token_spec t (ws ++ s) ht.2 (blank_stop ws hw s (Or.inl hn))
      obtain ⟨c, cs, hc, hc'⟩ := line_head ts s hl
      have h2 := skip_spec ws s hw (Or.inr ⟨c, cs, hc, hc'⟩)
      have hlen := List.length_pos_iff.mpr ht.1
      simp only [List.length_append] at hf
      simp only [tokens, List.append_assoc, h1, h2]
      rw [hc]
      simp only []
      rw [← hc, ih fuel (by omega)]
      rfl

theorem split_word (s : Str) : ∃ t r, s = t ++ r ∧ (∀ c ∈ t, c ∉ white) ∧ Stop r := by
  induction s with
  | nil => exact ⟨[], [], rfl, by simp, Or.inl rfl⟩
  | cons a s ih =>
    by_cases h : a ∈ white
    · exact ⟨[], a :: s, rfl, by simp, Or.inr ⟨a, s, rfl, h⟩⟩
    · obtain ⟨t, r, rfl, h2, h3⟩ := ih
      refine ⟨a :: t, r, rfl, ?_, h3⟩
      intro c hc
      rcases List.mem_cons.mp hc with rfl | hc
      · exact h
      · exact h2 c hc

theorem split_blank (s : Str) : ∃ ws r, s = ws ++ r ∧ Blank ws ∧ (r = [] ∨ ∃ c cs, r = c :: cs ∧ c ∉ white) := by
  induction s with
  | nil => exact ⟨[], [], rfl, by simp [Blank], Or.inl rfl⟩
  | cons a s ih =>
    by_cases h : a ∈ white
    · obtain ⟨ws, r, rfl, h2, h3⟩ := ih
      refine ⟨a :: ws, r, rfl, ?_, h3⟩
      intro c hc
      rcases List.mem_cons.mp hc with rfl | hc
      · exact h
      · exact h2 c hc
    · exact ⟨[], a :: s, rfl, by simp [Blank], Or.inr ⟨a, s, rfl, h⟩⟩

/-- Every string that begins with something else than white space is a line. -/
theorem line_exists (n : Nat) : ∀ s : Str, s.length ≤ n → (∃ c cs, s = c :: cs ∧ c ∉ white) → ∃ ts, Line ts s := by
  induction n with
  | zero =>
    rintro s hs ⟨c, cs, rfl, _⟩
    simp at hs
  | succ n ih =>
    rintro s hs ⟨c, cs, hc, hw⟩
    obtain ⟨t, r, h1, h2, h3⟩ := split_word s
    have ht : t ≠ [] := by
      rintro rfl
      rcases h3 with rfl | ⟨d, ds, rfl, hd⟩
      · rw [hc] at h1; cases h1
      · rw [hc] at h1
        simp only [List.nil_append, List.cons.injEq] at h1
        exact hw (h1.1 ▸ hd)
    obtain ⟨ws, r', rfl, b1, b2⟩ := split_blank r
    rcases b2 with rfl | ⟨d, ds, rfl, hd⟩
    · exact ⟨[t], by rw [h1, List.append_nil]; exact .last t ws ⟨ht, h2⟩ b1⟩
    · have hn : ws ≠ [] := by
        rintro rfl
        rcases h3 with h3 | ⟨e, es, h3, he⟩
        · cases h3
        · simp only [List.nil_append, List.cons.injEq] at h3
          exact hd (h3.1 ▸ he)
      have hlen := List.length_pos_iff.mpr ht
      obtain ⟨ts, hl⟩ := ih (d :: ds) (by rw [h1] at hs; simp at hs ⊢; omega) ⟨d, ds, rfl, hd⟩
      exact ⟨t :: ts, by rw [h1, ← List.append_assoc]; exact .cons t ws ts _ ⟨ht, h2⟩ b1 hn hl⟩

theorem skipIndent_loose (lead s : Str) (ind : Str) (hl : Blank lead)
    (hs : s = [] ∨ ∃ c cs, s = c :: cs ∧ c ∉ white) :
    skipIndent false (lead ++ s) ind = .ok (s, ind ++ lead) := by
  induction lead generalizing ind with
  | nil =>
    rcases hs with rfl | ⟨c, cs, rfl, hc⟩
    · simp [skipIndent]
    · simp only [List.nil_append, skipIndent, List.append_nil]
      rw [if_neg (by rw [isspace_iff]; exact hc)]
  | cons a lead ih =>
    simp only [List.cons_append, skipIndent]
    rw [if_pos ((isspace_iff a).mpr (hl a (by simp)))]
    simp only [Bool.false_and, Bool.false_eq_true, if_false]
    rw [ih (ind ++ [a]) (fun c hc => hl c (by simp [hc]))]
    simp

/-- **C168a.** Without `indent`, leading white space is skipped; a line that is
empty or a comment yields no vector, any other its words, in order. -/
theorem make_loose (lead s : Str) (hl : Blank lead) (hs : s = [] ∨ ∃ c cs, s = c :: cs ∧ c ∉ white) :
    ((s = [] ∨ s.head? = some 33#8 ∨ s.head? = some 35#8) → make false (some (lead ++ s)) = some (.ok (none, none))) ∧
    (∀ ts, Line ts s → s.head? ≠ some 33#8 → s.head? ≠ some 35#8 →
      make false (some (lead ++ s)) = some (.ok (none, some ts))) := by
  have h := skipIndent_loose lead s [] hl hs
  rw [List.nil_append] at h
  constructor
  · intro hc
    simp only [make, h]
    cases s with
    | nil => rfl
    | cons c cs =>
      simp at hc
      simp only []
      rw [if_pos hc]
      rfl
  · intro ts hline h1 h2
    simp only [make, h]
    cases s with
    | nil => obtain ⟨c, cs, hc, _⟩ := line_head ts [] hline; cases hc
    | cons c cs =>
      simp at h1 h2
      simp only []
      rw [if_neg (by simp [h1, h2]), tokens_line ts _ hline _ (Nat.le_refl _)]
      rfl

/-- Every string is of the form that `make_loose` is about. -/
theorem make_loose_covers (l : Str) : ∃ lead s, l = lead ++ s ∧ Blank lead ∧
    (s = [] ∨ ∃ c cs, s = c :: cs ∧ c ∉ white) ∧ (s ≠ [] → ∃ ts, Line ts s) := by
  obtain ⟨ws, r, h1, h2, h3⟩ := split_blank l
  refine ⟨ws, r, h1, h2, h3, ?_⟩
  intro hr
  rcases h3 with h3 | h3
  · exact absurd h3 hr
  · exact line_exists r.length r (Nat.le_refl _) h3

/-- Spaces and tabs. -/
def Plain (s : Str) : Prop := ∀ c ∈ s, c = 32#8 ∨ c = 9#8

/-- Blank lines before the line: nothing, or spaces, tabs and line breaks up to a
line break. -/
def BlankLines (s : Str) : Prop :=
  (∀ c ∈ s, c = 32#8 ∨ c = 9#8 ∨ c = 10#8 ∨ c = 13#8) ∧ (s = [] ∨ s.getLast? = some 10#8 ∨ s.getLast? = some 13#8)

theorem skipIndent_plain (p s ind : Str) (hp : Plain p) (hs : s = [] ∨ ∃ c cs, s = c :: cs ∧ c ∉ white) :
    skipIndent true (p ++ s) ind = .ok (s, ind ++ p) := by
  induction p generalizing ind with
  | nil =>
    rcases hs with rfl | ⟨c, cs, rfl, hc⟩
    · simp [skipIndent]
    · simp only [List.nil_append, skipIndent, List.append_nil]
      rw [if_neg (by rw [isspace_iff]; exact hc)]
  | cons a p ih =>
    have ha := hp a (by simp)
    have hw : a ∈ white := by rcases ha with rfl | rfl <;> decide
    have hn : (true && decide (a ≠ 32#8) && decide (a ≠ 9#8)) = false := by
      rcases ha with rfl | rfl <;> decide
    simp only [List.cons_append, skipIndent]
    rw [if_pos ((isspace_iff a).mpr hw), if_neg (by rw [hn]; simp)]
    rw [ih (ind ++ [a]) (fun c hc => hp c (by simp [hc]))]
    simp

theorem skipIndent_lines (b : Str) (r ind : Str) (hb : BlankLines b) (hn : b ≠ []) :
    skipIndent true (b ++ r) ind = skipIndent true r [] := by
  induction b generalizing ind with
  | nil => exact absurd rfl hn
  | cons a b ih =>
    have ha := hb.1 a (by simp)
    have hw : a ∈ white := by rcases ha with rfl | rfl | rfl | rfl <;> decide
    simp only [List.cons_append, skipIndent]
    rw [if_pos ((isspace_iff a).mpr hw)]
    by_cases e : b = []
    · subst e
      have hl := hb.2
      simp at hl
      have h1 : (true && decide (a ≠ 32#8) && decide (a ≠ 9#8)) = true := by
        rcases hl with rfl | rfl <;> decide
      rw [if_pos h1, if_pos hl]
      rfl
    · have hb' : BlankLines b := by
        refine ⟨fun c hc => hb.1 c (by simp [hc]), Or.inr ?_⟩
        have hl := hb.2
        rcases hl with hl | hl
        · cases hl
        · rw [List.getLast?_cons] at hl
          cases hg : b.getLast? with
          | none => rw [List.getLast?_eq_none_iff] at hg; exact absurd hg e
          | some x => rw [hg] at hl; simpa using hl
      rcases ha with rfl | rfl | rfl | rfl
      · rw [if_neg (by decide)]; exact ih _ hb' e
      · rw [if_neg (by decide)]; exact ih _ hb' e
      · rw [if_pos (by decide), if_pos (by decide)]; exact ih _ hb' e
      · rw [if_pos (by decide), if_pos (by decide)]; exact ih _ hb' e

/-- **C168b.** With `indent`, blank lines are skipped and the spaces and tabs
before the line are its indentation; the rest is as without it. -/
theorem make_strict (b p s : Str) (hb : BlankLines b) (hp : Plain p)
    (hs : s = [] ∨ ∃ c cs, s = c :: cs ∧ c ∉ white) :
    ((s = [] ∨ s.head? = some 33#8 ∨ s.head? = some 35#8) →
      make true (some (b ++ p ++ s)) = some (.ok (some p, none))) ∧
    (∀ ts, Line ts s → s.head? ≠ some 33#8 → s.head? ≠ some 35#8 →
      make true (some (b ++ p ++ s)) = some (.ok (some p, some ts))) := by
  have h : skipIndent true (b ++ p ++ s) [] = .ok (s, p) := by
    rw [List.append_assoc]
    by_cases e : b = []
    · subst e
      have := skipIndent_plain p s [] hp hs
      simpa using this
    · rw [skipIndent_lines b (p ++ s) [] hb e]
      have := skipIndent_plain p s [] hp hs
      simpa using this
  constructor
  · intro hc
    simp only [make, h]
    cases s with
    | nil => rfl
    | cons c cs =>
      simp at hc
      simp only []
      rw [if_pos hc]
      rfl
  · intro ts hline h1 h2
    simp only [make, h]
    cases s with
    | nil => obtain ⟨c, cs, hc, _⟩ := line_head ts [] hline; cases hc
    | cons c cs =>
      simp at h1 h2
      simp only []
      rw [if_neg (by simp [h1, h2]), tokens_line ts _ hline _ (Nat.le_refl _)]
      rfl

/-- **C168c.** With `indent`, a vertical tab or form feed in the leading white
space is an error. -/
theorem make_strict_error (lead : Str) (c : Byte) (s : Str)
    (hl : ∀ x ∈ lead, x = 32#8 ∨ x = 9#8 ∨ x = 10#8 ∨ x = 13#8) (hc : c = 11#8 ∨ c = 12#8) :
    make true (some (lead ++ c :: s)) = some (.error INVALID_INDENT) := by
  have : ∀ ind, skipIndent true (lead ++ c :: s) ind = .error INVALID_INDENT := by
    induction lead with
    | nil =>
      intro ind
      rcases hc with rfl | rfl <;> simp [skipIndent, isspace]
    | cons a lead ih =>
      intro ind
      have ih' := ih fun x hx => hl x (by simp [hx])
      have ha := hl a (by simp)
      simp only [List.cons_append, skipIndent]
      rcases ha with rfl | rfl | rfl | rfl
      · rw [if_pos (by decide), if_neg (by decide)]; exact ih' _
      · rw [if_pos (by decide), if_neg (by decide)]; exact ih' _
      · rw [if_pos (by decide), if_pos (by decide), if_pos (by decide)]; exact ih' _
      · rw [if_pos (by decide), if_pos (by decide), if_pos (by decide)]; exact ih' _
  simp only [make, this]

/-- No string: no vector. -/
theorem make_none (strict : Bool) : make strict none = some (.ok (none, none)) := rfl

/-- `" ab  c "` and `"\n\tab"` with indentation. -/
example : make false (some [32, 97, 98, 32, 32, 99, 32]) = some (.ok (none, some [[97, 98], [99]])) := by rfl
example : make true (some [10, 9, 97, 98]) = some (.ok (some [9], some [[97, 98]])) := by rfl
example : Line [[97, 98], [99]] [97, 98, 32, 32, 99, 32] :=
  .cons [97, 98] [32, 32] [[99]] [99, 32] ⟨by simp, by decide⟩ (by unfold Blank; decide) (by simp)
    (.last [99] [32] ⟨by simp, by decide⟩ (by unfold Blank; decide))
example : BlankLines [32, 10] := ⟨by decide, Or.inr (Or.inl rfl)⟩

end Verif.Strvec
