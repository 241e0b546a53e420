import Verif.Logging.Props
/-!
The mask of categories (C150).
-/
namespace Verif.Logging

/-- The same but for upper and lower case. -/
def SameName (a b : List Byte) : Prop := a.map lower = b.map lower

/-- What stands before the first comma; all without one. -/
def tokName (tok : List Byte) : List Byte := tok.takeWhile (· ≠ 0x2C)

theorem findIdx_none {tok : List Byte} (h : tok.findIdx? (· = (0x2C : Byte)) = none) : (0x2C : Byte) ∉ tok := by
  rw [List.findIdx?_eq_none_iff] at h
  intro hm
  exact absurd (h _ hm) (by simp)

theorem findIdx_split {tok : List Byte} {k : Nat} (h : tok.findIdx? (· = (0x2C : Byte)) = some k) :
    tok.take k = tokName tok ∧ tok = tokName tok ++ 0x2C :: tok.drop (k + 1) := by
  unfold tokName
  induction tok generalizing k with
  | nil => exact absurd h (by simp)
  | cons c cs ih =>
    rw [List.findIdx?_cons] at h
    by_cases hc : c = 0x2C
    · subst hc
      simp at h
      subst h
      simp
    · simp only [hc, decide_false] at h
      cases hf : cs.findIdx? (· = (0x2C : Byte)) with
      | none => rw [hf] at h; exact absurd h (by simp)
      | some j =>
        rw [hf] at h
        simp at h
        subst h
        obtain ⟨h1, h2⟩ := ih hf
        have ht : (c :: cs).takeWhile (fun x => decide (x ≠ (0x2C : Byte))) = c :: cs.takeWhile (fun x => decide (x ≠ (0x2C : Byte))) := by
          rw [List.takeWhile_cons, if_pos (by simpa using hc)]
        rw [ht]
        refine ⟨?_, ?_⟩
        · rw [List.take_succ_cons, h1]
        · rw [List.drop_succ_cons, List.cons_append, ← h2]

theorem map_lower_length {a b : List Byte} (h : a.map lower = b.map lower) : a.length = b.length := by
  have := congrArg List.length h
  simpa using this

/-- A token without a level names a category if they are the same but for case; one with a
level if the category's name begins with it. -/
theorem names_iff (tok name : List Byte) :
    names tok name = true ↔
      if (0x2C : Byte) ∈ tok then SameName (name.take (tokName tok).length) (tokName tok) else SameName name tok := by
  unfold names
  cases h : tok.findIdx? (· = (0x2C : Byte)) with
  | none =>
    rw [if_neg (findIdx_none h)]
    unfold sameCase SameName
    rw [List.take_of_length_le (Nat.le_max_left _ _), List.take_of_length_le (Nat.le_max_right _ _)]
    simp
  | some k =>
    obtain ⟨h1, h2⟩ := findIdx_split h
    have hk : k < tok.length := by
      rw [List.findIdx?_eq_some_iff_getElem] at h; exact h.1
    have hmem : (0x2C : Byte) ∈ tok := by rw [h2]; simp
    have hlen : (tokName tok).length = k := by rw [← h1, List.length_take]; omega
    rw [if_pos hmem]
    unfold sameCase SameName
    rw [hlen, ← h1]
    simp

theorem tokens_plain (c : List Byte) (hc : (0x3A : Byte) ∉ c) (rest cur : List Byte) :
    tokens (c ++ rest) cur = tokens rest (c.reverse ++ cur) := by
  induction c generalizing cur with
  | nil => rfl
  | cons b c ih =>
    have hb : ¬ b = 0x3A := fun h => hc (by rw [h]; exact List.mem_cons_self ..)
    rw [List.cons_append, tokens, if_neg hb, ih (fun h => hc (List.mem_cons_of_mem _ h))]
    simp

/-- The text of a mask: the tokens with colons between them. -/
def maskOf : List (List Byte) → List Byte
  | [] => []
  | [t] => t
  | t :: ts => t ++ 0x3A :: maskOf ts

theorem tokens_maskOf : ∀ toks : List (List Byte), (∀ t ∈ toks, t ≠ [] ∧ (0x3A : Byte) ∉ t) → tokens (maskOf toks) [] = toks
  | [], _ => rfl
  | [t], h => by
    obtain ⟨h1, h2⟩ := h t (List.mem_cons_self ..)
    have := tokens_plain t h2 [] []
    rw [List.append_nil] at this
    show tokens t [] = [t]
    rw [this, tokens, if_neg (by simpa using h1)]; simp
  | t :: u :: ts, h => by
    obtain ⟨h1, h2⟩ := h t (List.mem_cons_self ..)
    show tokens (t ++ 0x3A :: maskOf (u :: ts)) [] = _
    rw [tokens_plain t h2, tokens, if_pos rfl, if_neg (by simpa using h1),
      tokens_maskOf (u :: ts) fun x hx => h x (List.mem_cons_of_mem _ hx)]
    simp

/-- What the tokens make of category `i`. -/
def applyToks (I : Info) (atoi : List Byte → Int) (toks : List (List Byte)) (i : Nat) (c : Cat) : Cat :=
  toks.foldl (fun c tok => applyTok I atoi tok i c) c

theorem foldl_mapIdx (I : Info) (atoi : List Byte → Int) : ∀ (toks : List (List Byte)) (cats : List Cat),
    toks.foldl (fun cats tok => cats.mapIdx fun i c => applyTok I atoi tok i c) cats =
      cats.mapIdx fun i c => applyToks I atoi toks i c := by
  intro toks
  induction toks with
  | nil =>
    intro cats
    show cats = cats.mapIdx fun i c => c
    apply List.ext_getElem (by simp)
    intro n h1 h2
    simp
  | cons t ts ih =>
    intro cats
    rw [List.foldl_cons, ih, List.mapIdx_mapIdx]
    rfl

/-- The level a token asks for: the number behind the comma, zero (everything) without one. -/
theorem tokLevel_eq (atoi : List Byte → Int) (tok : List Byte) :
    tokLevel atoi tok = if (0x2C : Byte) ∈ tok then (atoi (tok.drop ((tokName tok).length + 1)) % 256).toNat else 0 := by
  unfold tokLevel
  cases h : tok.findIdx? (· = (0x2C : Byte)) with
  | none => rw [if_neg (findIdx_none h)]
  | some k =>
    obtain ⟨h1, h2⟩ := findIdx_split h
    have hk : k < tok.length := by
      rw [List.findIdx?_eq_some_iff_getElem] at h; exact h.1
    have hmem : (0x2C : Byte) ∈ tok := by rw [h2]; simp
    have hlen : (tokName tok).length = k := by rw [← h1, List.length_take]; omega
    rw [if_pos hmem, hlen]

/-- The last token naming the category decides. -/
theorem applyToks_spec {I : Info} (atoi : List Byte → Int) {i : Nat} {name : List Byte} (hn : I.names.getD i none = some name) :
    ∀ (toks : List (List Byte)) (c : Cat),
      ((∀ t ∈ toks, names t name = false) ∧ applyToks I atoi toks i c = c) ∨
      ∃ a t b, toks = a ++ t :: b ∧ names t name = true ∧ (∀ u ∈ b, names u name = false) ∧
        applyToks I atoi toks i c = ⟨tokLevel atoi t, 1⟩ := by
  intro toks
  induction toks with
  | nil => intro c; exact Or.inl ⟨fun t ht => absurd ht (by simp), rfl⟩
  | cons t ts ih =>
    intro c
    have hstep : applyToks I atoi (t :: ts) i c = applyToks I atoi ts i (applyTok I atoi t i c) := rfl
    rw [hstep]
    rcases ih (applyTok I atoi t i c) with ⟨h1, h2⟩ | ⟨a, u, b, h1, h2, h3, h4⟩
    · cases ht : names t name with
      | true =>
        right
        refine ⟨[], t, ts, rfl, ht, h1, ?_⟩
        rw [h2]
        unfold applyTok
        rw [hn]
        simp only [ht, if_true]
      | false =>
        left
        refine ⟨fun u hu => ?_, ?_⟩
        · rcases List.mem_cons.mp hu with rfl | hu
          · exact ht
          · exact h1 u hu
        · rw [h2]
          unfold applyTok
          rw [hn]
          simp only [ht, Bool.false_eq_true, if_false]
    · right
      exact ⟨t :: a, u, b, by rw [h1]; rfl, h2, h3, h4⟩

theorem updateAll_reg {I : Info} {s s' : St} (h : updateAll I s = some s') : s'.reg = s.reg := (updateAll_inv h).2

/-- C150: after a mask of the documented format every category is disabled unless a token
names it, and then it has the level of the last such token; other targets stay as they are.
What is missing: a token with a level also names the categories whose names only begin
with it, see `prefix_counterexample`. -/
theorem mask_partial {I : Info} {atoi : List Byte → Int} {id : Nat} {toks : List (List Byte)} {s s' : St}
    (hne : toks ≠ []) (ht : ∀ t ∈ toks, t ≠ [] ∧ (0x3A : Byte) ∉ t) (h : parseMask I atoi id (maskOf toks) s = some s') :
    s'.reg.length = s.reg.length ∧
    ∀ (k : Nat) (t : Target), s.reg[k]? = some t → ∃ t', s'.reg[k]? = some t' ∧ t'.id = t.id ∧ t'.level = t.level ∧
      (t.id ≠ id → t' = t) ∧
      (t.id = id → ∀ i < t.cats.length, ∀ name, I.names.getD i none = some name →
        ((t'.cat i).enabled = 0 ∧ ∀ tok ∈ toks, names tok name = false) ∨
        ∃ a tok b, toks = a ++ tok :: b ∧ names tok name = true ∧ (∀ u ∈ b, names u name = false) ∧
          t'.cat i = ⟨tokLevel atoi tok, 1⟩) := by
  unfold parseMask at h
  rw [tokens_maskOf toks ht, if_neg hne] at h
  have hreg := updateAll_reg h
  refine ⟨by rw [hreg]; show (List.map _ _).length = _; rw [List.length_map], fun k t hk => ?_⟩
  refine ⟨_, by rw [hreg]; show (List.map _ s.reg)[k]? = _; rw [List.getElem?_map, hk]; rfl, ?_⟩
  by_cases hid : t.id = id
  · simp only [if_pos hid]
    refine ⟨trivial, trivial, fun hc => absurd hid hc, fun _ i hi name hname => ?_⟩
    have hcat : Target.cat { t with cats := maskCats I atoi toks t.cats } i =
        applyToks I atoi toks i { t.cat i with enabled := 0 } := by
      unfold Target.cat maskCats
      simp only [foldl_mapIdx]
      rw [List.getD_eq_getElem?_getD, List.getElem?_mapIdx, List.getElem?_map, List.getD_eq_getElem?_getD,
        List.getElem?_eq_getElem hi]
      rfl
    rw [hcat]
    rcases applyToks_spec atoi hname toks { t.cat i with enabled := 0 } with ⟨h1, h2⟩ | ⟨a, u, b, h1, h2, h3, h4⟩
    · exact Or.inl ⟨by rw [h2], h1⟩
    · exact Or.inr ⟨a, u, b, h1, h2, h3, h4⟩
  · simp only [if_neg hid]
    exact ⟨trivial, trivial, fun _ => trivial, fun hc => absurd hc hid⟩

/-- C150: a mask without levels enables exactly the categories in it, whatever their case, for all levels. -/
theorem mask_plain {I : Info} {atoi : List Byte → Int} {id : Nat} {toks : List (List Byte)} {s s' : St}
    (hne : toks ≠ []) (ht : ∀ t ∈ toks, t ≠ [] ∧ (0x3A : Byte) ∉ t ∧ (0x2C : Byte) ∉ t)
    (h : parseMask I atoi id (maskOf toks) s = some s') {k : Nat} {t : Target} (hk : s.reg[k]? = some t) (hid : t.id = id)
    {i : Nat} (hi : i < t.cats.length) {name : List Byte} (hn : I.names.getD i none = some name) :
    ∃ t', s'.reg[k]? = some t' ∧ ((t'.cat i).enabled ≠ 0 ↔ ∃ tok ∈ toks, SameName name tok) ∧
      ((t'.cat i).enabled ≠ 0 → (t'.cat i).level = 0) := by
  obtain ⟨_, h2⟩ := mask_partial hne (fun t h => ⟨(ht t h).1, (ht t h).2.1⟩) h
  obtain ⟨t', h1, _, _, _, h3⟩ := h2 k t hk
  refine ⟨t', h1, ?_⟩
  rcases h3 hid i hi name hn with ⟨he, hno⟩ | ⟨a, tok, b, he, hyes, _, hc⟩
  · refine ⟨⟨fun hc => absurd he hc, fun ⟨tok, hm, hs⟩ => ?_⟩, fun hc => absurd he hc⟩
    have : names tok name = true := by rw [names_iff, if_neg (ht tok hm).2.2]; exact hs
    rw [hno tok hm] at this; exact absurd this (by decide)
  · have hm : tok ∈ toks := by rw [he]; simp
    rw [names_iff, if_neg (ht tok hm).2.2] at hyes
    rw [hc]
    refine ⟨⟨fun _ => ⟨tok, hm, hyes⟩, fun _ => Nat.one_ne_zero⟩, fun _ => ?_⟩
    rw [tokLevel_eq, if_neg (ht tok hm).2.2]

/-- "DA" and "DAB" -/
def infoMask : Info := ⟨1, some [0x44, 0x41] :: some [0x44, 0x41, 0x42] :: List.replicate 28 none, List.replicate 30 ⟨5, 1⟩, none⟩

/-- C150: "DA,3" also enables the category "DAB", which it does not name. -/
theorem prefix_counterexample :
    (((run infoMask (fun _ => 3) [.create 7, .add 7]).bind (parseMask infoMask (fun _ => 3) 7 [0x44, 0x41, 0x2C, 0x33])).map
      fun s => s.reg.map fun t => (t.cat 0, t.cat 1)) = some [(⟨3, 1⟩, ⟨3, 1⟩)] := by decide +kernel

example : (((run infoMask (fun _ => 3) [.create 7, .add 7]).bind (parseMask infoMask (fun _ => 3) 7 [0x64, 0x61])).map
    fun s => s.reg.map fun t => (t.cat 0, t.cat 1)) = some [(⟨0, 1⟩, ⟨5, 0⟩)] := by decide +kernel
example : tokens (maskOf [[0x44], [0x45, 0x2C, 0x31]]) [] = [[0x44], [0x45, 0x2C, 0x31]] := by decide +kernel

end Verif.Logging
