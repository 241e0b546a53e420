import Verif.Common
/-!
Identifiers (C98): src/core/utils.c.
-/
namespace Verif.Stats

/-- a C string without its terminating nul -/
abbrev Name := List Byte

/-- src/core/utils.c:644 `osmo_identifier_illegal_chars` -/
def illegalChars : List Byte :=
  [0x2e, 0x2c, 0x20, 0x7b, 0x7d, 0x5b, 0x5d, 0x28, 0x29, 0x3c, 0x3e, 0x7c, 0x7e, 0x5c, 0x5e, 0x60, 0x27, 0x22, 0x3f,
   0x3d, 0x3b, 0x2f, 0x2b, 0x2a, 0x26, 0x25, 0x24, 0x23, 0x21]

/-- src/core/utils.c:661-672: one round of the loop goes on.  `isprint` in the C
locale; `sep = []` stands for no separators. -/
def charOk (sep : List Byte) (c : Byte) : Bool :=
  if sep.contains c then true
  else if c &&& 0x80#8 ≠ 0 then false
  else if ¬ (0x20 ≤ c.toNat ∧ c.toNat ≤ 0x7e) then false
  else if illegalChars.contains c then false
  else true

/-- src/core/utils.c:651-675 `osmo_separated_identifiers_valid`; `none` is NULL.
`str` holds no nul character. -/
def separatedValid (str : Option Name) (sep : List Byte) : Bool :=
  match str with
  | none => false
  | some s => if s.length = 0 then false else s.all (charOk sep)

/-- src/core/utils.c:681-684 `osmo_identifier_valid` -/
def identValid (str : Option Name) : Bool := separatedValid str []

/-- src/core/utils.c:693-703 `osmo_identifier_sanitize_buf` for a string.  A nul
character as replacement ends the loop; not considered. -/
def sanitize (str : Name) (sep : List Byte) (repl : Byte) : Name :=
  str.map fun c => if illegalChars.contains c || sep.contains c then repl else c

/-! ### Properties -/

/-- letter, digit, hyphen, underscore, colon or at sign -/
def Legal (c : Byte) : Prop :=
  (0x41 ≤ c.toNat ∧ c.toNat ≤ 0x5a) ∨ (0x61 ≤ c.toNat ∧ c.toNat ≤ 0x7a) ∨ (0x30 ≤ c.toNat ∧ c.toNat ≤ 0x39) ∨
    c = 0x2d#8 ∨ c = 0x5f#8 ∨ c = 0x3a#8 ∨ c = 0x40#8

instance (c : Byte) : Decidable (Legal c) := by unfold Legal; infer_instance

theorem byte_all (p : Byte → Prop) [DecidablePred p] (h : ∀ n : Fin 256, p (BitVec.ofNat 8 n.val)) : ∀ c, p c := by
  intro c
  have := h ⟨c.toNat, c.isLt⟩
  simpa using this

theorem charOk_nil : ∀ c, charOk [] c = true ↔ Legal c := by
  apply byte_all
  decide +kernel

theorem charOk_iff (sep : List Byte) (c : Byte) : charOk sep c = true ↔ c ∈ sep ∨ Legal c := by
  by_cases h : c ∈ sep
  · simp [charOk, h]
  · rw [← charOk_nil]
    simp [charOk, h]

/-- **What a valid identifier is.** -/
theorem separatedValid_iff (str : Option Name) (sep : List Byte) :
    separatedValid str sep = true ↔ ∃ s, str = some s ∧ s ≠ [] ∧ ∀ c ∈ s, c ∈ sep ∨ Legal c := by
  cases str with
  | none => simp [separatedValid]
  | some s =>
    cases s with
    | nil => simp [separatedValid]
    | cons a s => simp [separatedValid, charOk_iff]

theorem identValid_iff (str : Option Name) :
    identValid str = true ↔ ∃ s, str = some s ∧ s ≠ [] ∧ ∀ c ∈ s, Legal c := by
  unfold identValid
  rw [separatedValid_iff]
  simp

theorem illegal_iff : ∀ c : Byte, (0x20 ≤ c.toNat ∧ c.toNat ≤ 0x7e) → (illegalChars.contains c = false ↔ Legal c) := by
  apply byte_all
  decide +kernel

theorem legal_not_illegal : ∀ c : Byte, Legal c → illegalChars.contains c = false := by
  apply byte_all
  decide +kernel

/-- **Sanitizing** keeps the length and every legal character that is not a
separator, and makes a valid identifier of any printable string. -/
theorem sanitize_partial (str : Name) (sep : List Byte) (repl : Byte) (hr : Legal repl) :
    (sanitize str sep repl).length = str.length ∧
    (∀ (i : Nat) (c : Byte), str[i]? = some c → Legal c → c ∉ sep → (sanitize str sep repl)[i]? = some c) ∧
    (∀ (i : Nat) (c : Byte), str[i]? = some c → (¬ Legal c ∨ c ∈ sep) → 0x20 ≤ c.toNat → c.toNat ≤ 0x7e →
      (sanitize str sep repl)[i]? = some repl) ∧
    (str ≠ [] → (∀ c ∈ str, 0x20 ≤ c.toNat ∧ c.toNat ≤ 0x7e) → identValid (some (sanitize str sep repl)) = true) := by
  refine ⟨by simp [sanitize], ?_, ?_, ?_⟩
  · intro i c hc hl hs
    unfold sanitize
    rw [List.getElem?_map, hc]
    simp at *
    have := legal_not_illegal c hl
    simp at this
    simp [this, hs]
  · intro i c hc hl h1 h2
    unfold sanitize
    rw [List.getElem?_map, hc]
    have := illegal_iff c ⟨h1, h2⟩
    rcases hl with hl | hl
    · have : illegalChars.contains c = true := by
        cases hq : illegalChars.contains c
        · exact absurd (this.1 hq) hl
        · rfl
      simp only [Option.map_some, this, Bool.true_or, if_true]
    · simp [hl]
  · intro hne hp
    rw [identValid_iff]
    refine ⟨_, rfl, by simpa [sanitize] using hne, ?_⟩
    intro c hc
    unfold sanitize at hc
    obtain ⟨a, ha, rfl⟩ := List.mem_map.1 hc
    split
    · exact hr
    · rename_i hq
      simp only [Bool.or_eq_true, not_or, Bool.not_eq_true] at hq
      exact (illegal_iff a (hp a ha)).1 hq.1

/-- **Not guaranteed**: control characters, characters above 127 and the empty
string stay, and the result is not valid. -/
theorem sanitize_valid_counterexample :
    (∃ repl, Legal repl ∧ identValid (some (sanitize [0x61#8, 0x0a#8] [] repl)) = false) ∧
    (∃ repl, Legal repl ∧ identValid (some (sanitize [0x61#8, 0xe9#8] [] repl)) = false) ∧
    ∃ repl, Legal repl ∧ identValid (some (sanitize [] [] repl)) = false := by
  refine ⟨⟨0x2d#8, ?_⟩, ⟨0x2d#8, ?_⟩, 0x2d#8, ?_⟩ <;> decide

/-- exactly which strings sanitizing makes valid -/
theorem sanitize_valid_iff (str : Name) (sep : List Byte) (repl : Byte) (hr : Legal repl) :
    identValid (some (sanitize str sep repl)) = true ↔
      str ≠ [] ∧ ∀ c ∈ str, (0x20 ≤ c.toNat ∧ c.toNat ≤ 0x7e) ∨ c ∈ sep := by
  rw [identValid_iff]
  have hpl : ∀ c : Byte, Legal c → 0x20 ≤ c.toNat ∧ c.toNat ≤ 0x7e := by
    apply byte_all
    decide +kernel
  have hil : ∀ c : Byte, illegalChars.contains c = true → 0x20 ≤ c.toNat ∧ c.toNat ≤ 0x7e := by
    apply byte_all
    decide +kernel
  constructor
  · rintro ⟨s, hs, hne, hall⟩
    cases hs
    refine ⟨by simpa [sanitize] using hne, ?_⟩
    intro c hc
    have := hall _ (List.mem_map.2 ⟨c, hc, rfl⟩)
    by_cases hq : (illegalChars.contains c || sep.contains c) = true
    · simp only [Bool.or_eq_true] at hq
      rcases hq with hq | hq
      · exact Or.inl (hil c hq)
      · exact Or.inr (by simpa using hq)
    · rw [if_neg hq] at this
      exact Or.inl (hpl c this)
  · rintro ⟨hne, hall⟩
    refine ⟨_, rfl, by simpa [sanitize] using hne, ?_⟩
    intro c hc
    obtain ⟨a, ha, rfl⟩ := List.mem_map.1 hc
    by_cases hq : (illegalChars.contains a || sep.contains a) = true
    · rw [if_pos hq]; exact hr
    · rw [if_neg hq]
      simp only [Bool.or_eq_true, not_or, Bool.not_eq_true] at hq
      rcases hall a ha with h | h
      · exact (illegal_iff a h).1 hq.1
      · have : sep.contains a = true := by simpa using h
        rw [this] at hq; exact absurd hq.2 (by simp)

/-- "ab-1:x" is valid; "a.b c" is not, and becomes "a-b-c" -/
example : identValid (some [0x61, 0x62, 0x2d, 0x31, 0x3a, 0x78]) = true ∧
    identValid (some [0x61, 0x2e, 0x62, 0x20, 0x63]) = false ∧
    separatedValid (some [0x61, 0x2e, 0x62]) [0x2e#8] = true ∧
    sanitize [0x61, 0x2e, 0x62, 0x20, 0x63] [] 0x2d#8 = [0x61, 0x2d, 0x62, 0x2d, 0x63] := by decide

end Verif.Stats
