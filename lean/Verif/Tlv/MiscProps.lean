import Verif.Tlv.EncodeProps
/-! C57-C59: cursor functions, table patching and validation, copy and merge. -/
namespace Verif.Tlv

/-- the documented failure: everything is consumed -/
def Failed (s : Shift) : Prop := s.rc = -1 ∧ s.rest = [] ∧ s.window = none

/-- C57: osmo_shift_v_fixed -/
theorem shiftVFixed_spec (data : List Byte) (len : Nat) :
    (∃ v rest, data = v ++ rest ∧ v.length = len ∧
      shiftVFixed data len = { rc := len, rest := rest, window := some (0, len) } ∧ content data (0, len) = v) ∨
    (data.length < len ∧ Failed (shiftVFixed data len)) := by
  unfold shiftVFixed
  split
  · exact .inr ⟨by omega, rfl, rfl, rfl⟩
  · refine .inl ⟨data.take len, data.drop len, (List.take_append_drop _ _).symm, by simp; omega, rfl, by simp [content]⟩

/-- C57: osmo_shift_tlv takes one TLV from the front -/
theorem shiftTlv_spec (data : List Byte) :
    (∃ t l v rest, data = t :: l :: v ++ rest ∧ v.length = l.toNat ∧
      shiftTlv data = (some t, { rc := (v.length + 2 : Nat), rest := rest, window := some (2, v.length) }) ∧
      content data (2, v.length) = v) ∨
    ((¬ ∃ t l v rest, data = t :: l :: v ++ rest ∧ v.length = l.toNat) ∧ (shiftTlv data).1 = none ∧ Failed (shiftTlv data).2) := by
  rcases data with _ | ⟨t, _ | ⟨l, tl⟩⟩
  · refine .inr ⟨?_, rfl, rfl, rfl, rfl⟩
    rintro ⟨_, _, _, _, h, _⟩
    cases h
  · refine .inr ⟨?_, rfl, rfl, rfl, rfl⟩
    rintro ⟨_, _, _, _, h, _⟩
    cases h
  · unfold shiftTlv
    simp only [List.length_cons]
    split
    · refine .inr ⟨?_, rfl, rfl, rfl, rfl⟩
      rintro ⟨t', l', v, rest, h, hl⟩
      cases h
      simp at *
      omega
    · rename_i h
      refine .inl ⟨t, l, tl.take l.toNat, tl.drop l.toNat, by simp, by simp; omega, ?_, ?_⟩
      · rw [List.length_take, Nat.min_eq_left (by omega)]
        simp
      · rw [List.length_take, Nat.min_eq_left (by omega)]
        simp [content]

/-- C57: osmo_shift_lv takes one LV from the front -/
theorem shiftLv_spec (data : List Byte) :
    (∃ l v rest, data = l :: v ++ rest ∧ v.length = l.toNat ∧
      shiftLv data = { rc := (v.length + 1 : Nat), rest := rest, window := some (1, v.length) } ∧ content data (1, v.length) = v) ∨
    ((¬ ∃ l v rest, data = l :: v ++ rest ∧ v.length = l.toNat) ∧ Failed (shiftLv data)) := by
  rcases data with _ | ⟨l, tl⟩
  · refine .inr ⟨?_, rfl, rfl, rfl⟩
    rintro ⟨_, _, _, h, _⟩
    cases h
  · unfold shiftLv
    simp only [List.length_cons]
    split
    · refine .inr ⟨?_, rfl, rfl, rfl⟩
      rintro ⟨l', v, rest, h, hl⟩
      cases h
      simp at *
      omega
    · rename_i h
      refine .inl ⟨l, tl.take l.toNat, tl.drop l.toNat, by simp, by simp; omega, ?_, ?_⟩
      · rw [List.length_take, Nat.min_eq_left (by omega)]
        simp
      · rw [List.length_take, Nat.min_eq_left (by omega)]
        simp [content]

/-- C57: osmo_match_shift_tv_fixed: takes the element if it is there, leaves
the data alone if another tag is there, fails if the data are too short -/
theorem matchShiftTvFixed_spec (data : List Byte) (tag : Byte) (len : Nat) :
    (∃ v rest, data = tag :: v ++ rest ∧ v.length = len ∧
      matchShiftTvFixed data tag len = { rc := (len + 1 : Nat), rest := rest, window := some (1, len) } ∧
      content data (1, len) = v) ∨
    (∃ t rest, data = t :: rest ∧ t ≠ tag ∧ matchShiftTvFixed data tag len = { rc := 0, rest := data, window := none }) ∨
    ((data = [] ∨ ∃ rest, data = tag :: rest ∧ rest.length < len) ∧ Failed (matchShiftTvFixed data tag len)) := by
  rcases data with _ | ⟨b, tl⟩
  · exact .inr (.inr ⟨.inl rfl, rfl, rfl, rfl⟩)
  · unfold matchShiftTvFixed
    simp only [List.length_cons]
    by_cases hb : b = tag
    · subst hb
      rw [if_neg (by simp)]
      split
      · exact .inr (.inr ⟨.inr ⟨tl, rfl, by omega⟩, rfl, rfl, rfl⟩)
      · refine .inl ⟨tl.take len, tl.drop len, by simp, by simp; omega, by simp, by simp [content]⟩
    · rw [if_pos hb]
      exact .inr (.inl ⟨b, tl, rfl, hb, rfl⟩)

/-- C57: osmo_match_shift_tlv: takes a complete TLV with the tag, leaves the
data alone if a complete TLV with another tag is there, fails otherwise -/
theorem matchShiftTlv_spec (data : List Byte) (tag : Byte) :
    (∃ l v rest, data = tag :: l :: v ++ rest ∧ v.length = l.toNat ∧
      matchShiftTlv data tag = { rc := (v.length + 2 : Nat), rest := rest, window := some (2, v.length) } ∧
      content data (2, v.length) = v) ∨
    (∃ t l v rest, data = t :: l :: v ++ rest ∧ v.length = l.toNat ∧ t ≠ tag ∧
      (matchShiftTlv data tag).rc = 0 ∧ (matchShiftTlv data tag).rest = data) ∨
    ((¬ ∃ t l v rest, data = t :: l :: v ++ rest ∧ v.length = l.toNat) ∧ Failed (matchShiftTlv data tag)) := by
  unfold matchShiftTlv
  rcases shiftTlv_spec data with ⟨t, l, v, rest, h1, h2, h3, h4⟩ | ⟨h1, h2, h3⟩
  · rw [h3]
    simp only
    by_cases ht : t = tag
    · subst ht
      rw [if_neg (by simp)]
      exact .inl ⟨l, v, rest, h1, h2, rfl, h4⟩
    · rw [if_pos ⟨by omega, ht⟩]
      exact .inr (.inl ⟨t, l, v, rest, h1, h2, ht, rfl, rfl⟩)
  · refine .inr (.inr ⟨h1, ?_⟩)
    generalize hs : shiftTlv data = s at h2 h3 ⊢
    obtain ⟨a, b⟩ := s
    simp only at h2 h3
    subst h2
    exact h3

/-- C57: a walk over a buffer of TLVs with osmo_shift_tlv gets shorter with each step -/
theorem shiftTlv_progress (data : List Byte) (h : data ≠ []) : (shiftTlv data).2.rest.length < data.length := by
  rcases shiftTlv_spec data with ⟨t, l, v, rest, h1, h2, h3, h4⟩ | ⟨_, _, h3⟩
  · rw [h3, h1]; simp; omega
  · rw [h3.2.1]
    exact List.length_pos_iff.2 h

/-- C58: patching keeps what is defined, fills in the rest, and is idempotent -/
theorem defPatch_spec (dst src : Definition) (t : Byte) :
    ((dst t).type ≠ .none → defPatch dst src t = dst t) ∧
    ((dst t).type = .none → (src t).type ≠ .none → defPatch dst src t = src t) ∧
    ((dst t).type = .none → (src t).type = .none → (defPatch dst src t).type = .none) ∧
    defPatch (defPatch dst src) src = defPatch dst src := by
  refine ⟨?_, ?_, ?_, ?_⟩
  · intro h; unfold defPatch; split <;> simp [h]
  · intro h1 h2; unfold defPatch; rw [if_neg h2, if_pos h1]
  · intro h1 h2; unfold defPatch; rw [if_pos h2, h1]
  · funext i
    unfold defPatch
    split
    · rfl
    · rename_i h
      by_cases hd : (dst i).type = .none
      · simp [hd, h]
      · simp [hd]

theorem mand_fold (mand : List Byte) (len : Byte → Option Nat) (e : Int) :
    (mand.foldl (fun err iei => if (len iei).isNone ∧ err = 0 then -50 else err) e) =
      if e = 0 ∧ ∃ i ∈ mand, len i = none then -50 else e := by
  induction mand generalizing e with
  | nil => simp
  | cons a mand ih =>
    rw [List.foldl_cons, ih]
    by_cases he : e = 0
    · subst he
      cases ha : len a with
      | none => simp [ha]
      | some l => simp [ha]
    · simp [he]

theorem short_fold (l : List Byte) (minLen : Byte → Nat) (len : Byte → Option Nat) (e : Int) :
    l.foldl (shortStep minLen len) e =
      if e = 0 ∧ ∃ i ∈ l, ∃ n, len i = some n ∧ n < minLen i then -51 else e := by
  induction l generalizing e with
  | nil => simp
  | cons a l ih =>
    rw [List.foldl_cons, ih]
    unfold shortStep
    by_cases he : e = 0
    · subst he
      cases ha : len a with
      | none => simp [ha]
      | some n =>
        by_cases hn : n < minLen a
        · simp [ha, hn]
        · simp [ha, hn]
    · cases ha : len a with
      | none => simp [he]
      | some n => simp [he]

/-- C58: validation succeeds exactly if all mandatory IEs are present and all
IEs present have their minimum length; a missing IE is reported rather than a short one -/
theorem validate_spec (mand : List Byte) (minLen : Byte → Nat) (len : Byte → Option Nat) :
    (validate mand minLen len = 0 ↔ (∀ i ∈ mand, len i ≠ none) ∧ ∀ i n, len i = some n → minLen i ≤ n) ∧
    (validate mand minLen len = -50 ↔ ∃ i ∈ mand, len i = none) ∧
    (validate mand minLen len = -51 ↔ (∀ i ∈ mand, len i ≠ none) ∧ ∃ i n, len i = some n ∧ n < minLen i) := by
  unfold validate
  simp only
  rw [mand_fold, short_fold]
  have hex : (∃ i ∈ ((List.range 256).map (BitVec.ofNat 8) : List Byte), ∃ n, len i = some n ∧ n < minLen i) ↔
      ∃ i n, len i = some n ∧ n < minLen i :=
    ⟨fun ⟨i, _, n, h⟩ => ⟨i, n, h⟩, fun ⟨i, n, h⟩ => ⟨i, mem_allTags i, n, h⟩⟩
  have hms : (∀ i ∈ mand, len i ≠ none) ↔ ¬ ∃ i ∈ mand, len i = none := by
    constructor
    · rintro h ⟨i, hi, hn⟩; exact h i hi hn
    · intro h i hi hn; exact h ⟨i, hi, hn⟩
  have hsh : (∀ i n, len i = some n → minLen i ≤ n) ↔ ¬ ∃ i n, len i = some n ∧ n < minLen i := by
    constructor
    · rintro h ⟨i, n, hi, hn⟩; have := h i n hi; omega
    · intro h i n hi
      by_contra hc
      exact h ⟨i, n, hi, by omega⟩
  simp only [hex, hms, hsh]
  by_cases h1 : ∃ i ∈ mand, len i = none
  · simp only [h1, and_true, if_true, not_true, false_and]
    simp
  · by_cases h2 : ∃ i n, len i = some n ∧ n < minLen i
    · simp only [h1, h2]; simp
    · simp only [h1, h2]; simp

/-- C59: a copy has no values at all: the test looks at the new, zeroed structure -/
theorem copy_counterexample : copyEntry { len := 3, val := some [1#8, 2#8, 3#8] } = { len := 3, val := none } := by decide

/-- C59: merging a value into an empty entry leaves the length 0 -/
theorem merge_counterexample :
    mergeEntry { len := 0, val := none } { len := 2, val := some [1#8, 2#8] } = { len := 0, val := some [1#8, 2#8] } := by decide

/-- Full claim (equal set) missing: values are never copied.  The lengths are. -/
theorem copy_len_partial (e : Entry) : (copyEntry e).len = e.len := by
  unfold copyEntry; simp

/-- Full claim (the value with its length) missing.  Entries which are not in
`src` (or empty there) are kept, others get the bytes of `src`. -/
theorem merge_val_partial (dst src : Entry) :
    (src.len = 0 ∨ src.val = none → mergeEntry dst src = dst) ∧
    (src.len ≠ 0 → src.val ≠ none → (mergeEntry dst src).val = src.val) := by
  unfold mergeEntry
  constructor
  · intro h
    rw [if_pos (by simpa using h)]
  · intro h1 h2
    rw [if_neg (by simp [h1, h2])]

example : shiftTlv [1#8, 2#8, 7#8, 8#8, 9#8] = (some 1#8, { rc := 4, rest := [9#8], window := some (2, 2) }) ∧
    matchShiftTlv [1#8, 2#8, 7#8, 8#8, 9#8] 3#8 = { rc := 0, rest := [1#8, 2#8, 7#8, 8#8, 9#8], window := some (2, 2) } ∧
    matchShiftTlv [1#8, 2#8, 7#8] 3#8 = shiftFail := by decide

example : validate [4#8] (fun i => if i = 7#8 then 2 else 0) (fun i => if i = 7#8 then some 1 else if i = 4#8 then some 0 else none) =
    -51 := by decide +kernel

end Verif.Tlv
