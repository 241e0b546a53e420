import Verif.Ctrl.Exec
/-!
C114: the words of a variable and of the name of an element; where a user may be surprised.
-/
namespace Verif.Ctrl
open Verif

/-- the words of a string: what is between separators, as much as can be -/
inductive Words (sep : Byte → Prop) : Str → List Str → Prop
  | nil : Words sep [] []
  | skip (c : Byte) (s : Str) (ws : List Str) : sep c → Words sep s ws → Words sep (c :: s) ws
  | last (w : Str) : w ≠ [] → (∀ c ∈ w, ¬ sep c) → Words sep w [w]
  | word (w : Str) (c : Byte) (s : Str) (ws : List Str) : w ≠ [] → (∀ x ∈ w, ¬ sep x) → sep c → Words sep s ws → Words sep (w ++ c :: s) (w :: ws)

/-- white space as of `isspace` -/
def White (c : Byte) : Prop := c = 0x20 ∨ (0x09 ≤ c.toNat ∧ c.toNat ≤ 0x0d)

instance (c : Byte) : Decidable (White c) := by unfold White; infer_instance

theorem cmdWords_words : ∀ (s word : Str), (∀ c ∈ word, ¬ White c) → Words White (word ++ s) (cmdWords word s)
  | [], word, h => by
    unfold cmdWords
    rw [List.append_nil]
    split
    · rename_i e; rw [e]; exact .nil
    · rename_i e; exact .last _ e h
  | c :: s, word, h => by
    unfold cmdWords
    by_cases hc : White c
    · rw [if_pos (c := c = 0x20 ∨ (0x09 ≤ c.toNat ∧ c.toNat ≤ 0x0d)) hc]
      by_cases e : word = []
      · rw [if_pos e, e]
        exact .skip _ _ _ hc (cmdWords_words s [] (fun c hc => by cases hc))
      · rw [if_neg e]
        exact .word _ _ _ _ e h hc (cmdWords_words s [] (fun c hc => by cases hc))
    · rw [if_neg (c := c = 0x20 ∨ (0x09 ≤ c.toNat ∧ c.toNat ≤ 0x0d)) hc]
      have := cmdWords_words s (word ++ [c]) (fun x hx => by
        rcases List.mem_append.1 hx with hx | hx
        · exact h x hx
        · rw [List.mem_singleton.1 hx]; exact hc)
      rwa [List.append_assoc] at this

/-- **The name of an element is read as its words** -/
theorem ctrl_install {name : Str} (h : ∀ c ∈ name, c ≠ 0x28 ∧ c ≠ 0x29 ∧ c ≠ 0x7c) : Words White name (createCmd name) := by
  unfold createCmd
  rw [if_neg]
  · exact cmdWords_words name [] (fun c hc => by cases hc)
  · rw [List.any_eq_true]
    rintro ⟨c, hc, e⟩
    have := h c hc
    simp only [Bool.or_eq_true, beq_iff_eq] at e
    rcases e with (e | e) | e
    · exact this.1 e
    · exact this.2.1 e
    · exact this.2.2 e

theorem words_spaces {s : Str} {ws : List Str} : ∀ (a : Str), (∀ c ∈ a, c = 0x20) → Words (· = 0x20) s ws → Words (· = 0x20) (a ++ s) ws
  | [], _, h => h
  | c :: a, ha, h => .skip _ _ _ (ha c (by simp)) (words_spaces a (fun c hc => ha c (by simp [hc])) h)

theorem pieces_words : ∀ (n : Nat) (s : Str), s.length ≤ n → s ≠ [] → (∀ c, s.head? = some c → c ≠ 0x20) → Words (· = 0x20) s (pieces n s)
  | 0, s, h, hn, _ => absurd (List.eq_nil_of_length_eq_zero (by omega)) hn
  | n + 1, s, h, hn, hh => by
    unfold pieces
    have e1 := List.takeWhile_append_dropWhile (p := (· != (0x20 : Byte))) (l := s)
    have hw : ∀ c ∈ s.takeWhile (· != 0x20), ¬ c = 0x20 := fun c hc => by simpa using mem_takeWhile hc
    have hne : s.takeWhile (· != 0x20) ≠ [] := by
      cases s with
      | nil => exact absurd rfl hn
      | cons c s => rw [List.takeWhile_cons_of_pos (by simpa using hh c rfl)]; simp
    simp only
    cases hd : s.dropWhile (· != 0x20) with
    | nil =>
      rw [hd, List.append_nil] at e1
      rw [List.dropWhile_nil, if_pos rfl]
      have := Words.last (sep := (· = 0x20)) _ hne hw
      rw [e1] at this ⊢
      exact this
    | cons c u =>
      have hc : c = 0x20 := by
        have := head_dropWhile (p := (· != (0x20 : Byte))) s c (by rw [hd]; rfl)
        simpa using this
      subst hc
      rw [List.dropWhile_cons_of_pos (by rfl)]
      have e2 := List.takeWhile_append_dropWhile (p := (· == (0x20 : Byte))) (l := u)
      have hlead : ∀ c ∈ u.takeWhile (· == 0x20), c = 0x20 := fun c hc => by simpa using mem_takeWhile hc
      have hlen : u.length ≤ n := by
        have := congrArg List.length e1
        rw [hd] at this
        simp only [List.length_append, List.length_cons] at this
        have h1 : 0 < (s.takeWhile (· != 0x20)).length := List.length_pos_iff.2 hne
        omega
      have hrest : Words (· = 0x20) u (if u.dropWhile (· == 0x20) = [] then [] else pieces n (u.dropWhile (· == 0x20))) := by
        rw [← e2]
        refine words_spaces _ hlead ?_
        rw [e2]
        by_cases hu : u.dropWhile (· == 0x20) = []
        · rw [if_pos hu, hu]; exact .nil
        · rw [if_neg hu]
          refine pieces_words n _ ?_ hu fun c hc => ?_
          · have := congrArg List.length e2
            simp only [List.length_append] at this
            omega
          · have := head_dropWhile (p := (· == (0x20 : Byte))) u c hc
            simpa using this
      have := Words.word (sep := (· = 0x20)) _ 0x20 u _ hne hw rfl hrest
      rw [hd] at e1
      rwa [e1] at this

/-- src/ctrl/control_if.c:257-260: a dot becomes a space -/
def undot (c : Byte) : Byte := if c = 0x2e then 0x20 else c

theorem undot_ne {c : Byte} (h : undot c ≠ 0x20) : undot c = c ∧ c ≠ 0x2e := by
  unfold undot at *
  split
  · rename_i e; rw [if_pos e] at h; exact absurd rfl h
  · rename_i e; exact ⟨rfl, e⟩

theorem undot_eq {c : Byte} (hc : c ≠ 0x20) (h : undot c = 0x20) : c = 0x2e := by
  unfold undot at h
  split at h
  · assumption
  · exact absurd h hc

theorem map_undot : ∀ (v : Str), (∀ c ∈ v.map undot, ¬ c = 0x20) → v.map undot = v ∧ ∀ c ∈ v, ¬ c = 0x2e
  | [], _ => ⟨rfl, fun c hc => by cases hc⟩
  | a :: v, h => by
    have h1 := undot_ne (c := a) (h _ (by simp))
    obtain ⟨h2, h3⟩ := map_undot v (fun c hc => h c (by rw [List.map_cons]; exact List.mem_cons_of_mem _ hc))
    refine ⟨by rw [List.map_cons, h1.1, h2], fun c hc => ?_⟩
    rcases List.mem_cons.1 hc with rfl | hc
    · exact h1.2
    · exact h3 c hc

theorem words_undot {s : Str} {ws : List Str} (h : Words (· = 0x20) s ws) : ∀ v : Str, (∀ c ∈ v, c ≠ 0x20) → v.map undot = s → Words (· = 0x2e) v ws := by
  induction h with
  | nil =>
    intro v hv e
    rw [List.map_eq_nil_iff.1 e]
    exact .nil
  | skip c s ws hc _ ih =>
    intro v hv e
    cases v with
    | nil => cases e
    | cons a v =>
      rw [List.map_cons] at e
      have e1 : undot a = c := (List.cons.inj e).1
      exact .skip _ _ _ (undot_eq (hv a (by simp)) (e1.trans hc)) (ih v (fun c hc => hv c (by simp [hc])) (List.cons.inj e).2)
  | last w h1 h2 =>
    intro v hv e
    subst e
    obtain ⟨a, b⟩ := map_undot v h2
    rw [a] at h1 ⊢
    exact .last _ h1 b
  | word w c s ws h1 h2 h3 _ ih =>
    intro v hv e
    obtain ⟨v1, v2, rfl, e1, e2⟩ := List.map_eq_append_iff.1 e
    cases v2 with
    | nil => cases e2
    | cons a v2 =>
      rw [List.map_cons] at e2
      subst e1
      obtain ⟨a1, b1⟩ := map_undot v1 h2
      rw [a1] at h1 ⊢
      have e3 : undot a = c := (List.cons.inj e2).1
      exact .word _ _ _ _ h1 b1 (undot_eq (hv a (by simp)) (e3.trans h3)) (ih v2 (fun c hc => hv c (by simp [hc])) (List.cons.inj e2).2)

/-- **A variable is read as its words between dots**; there are none just if it is all dots -/
theorem ctrl_vline {var : Str} (h : IsVar var) :
    (∀ ws, vlineOf var = some ws → Words (· = 0x2e) var ws ∧ ws ≠ []) ∧ (vlineOf var = none ↔ ∀ c ∈ var, c = 0x2e) := by
  have hsp : ∀ c ∈ var, c ≠ 0x20 := fun c hc => (h.not c hc).1
  have e2 := List.takeWhile_append_dropWhile (p := (· == (0x20 : Byte))) (l := var.map undot)
  have hlead : ∀ c ∈ (var.map undot).takeWhile (· == 0x20), c = 0x20 := fun c hc => by simpa using mem_takeWhile hc
  have hv : vlineOf var = if (var.map undot).dropWhile (· == 0x20) = [] then none
      else some (pieces ((var.map undot).dropWhile (· == 0x20)).length ((var.map undot).dropWhile (· == 0x20))) := rfl
  constructor
  · intro ws hw
    rw [hv] at hw
    split at hw
    · cases hw
    · rename_i hne
      cases hw
      have hp := pieces_words _ _ (Nat.le_refl _) hne (fun c hc => by simpa using head_dropWhile (p := (· == (0x20 : Byte))) _ c hc)
      refine ⟨words_undot (words_spaces _ hlead hp) var hsp e2.symm, ?_⟩
      cases hl : ((var.map undot).dropWhile (· == 0x20)).length with
      | zero => exact absurd (List.eq_nil_of_length_eq_zero hl) hne
      | succ n => simp [pieces]
  · rw [hv]
    constructor
    · intro hn c hc
      split at hn
      · rename_i h0
        rw [h0, List.append_nil] at e2
        have : undot c ∈ var.map undot := List.mem_map.2 ⟨c, hc, rfl⟩
        rw [← e2] at this
        exact undot_eq (hsp c hc) (hlead _ this)
      · cases hn
    · intro ha
      rw [if_pos]
      rw [List.dropWhile_eq_nil_iff]
      intro c hc
      obtain ⟨x, hx, rfl⟩ := List.mem_map.1 hc
      rw [ha x hx]; rfl

/-! ### Where a user may be surprised -/

/-- **An element whose name was refused stands for all requests** (src/ctrl/control_cmd.c:173-204, 235-238): if the name has a bracket or a bar,
an error is logged, but `ctrl_cmd_install` installs the element and returns 0, and with no words it stands for any request of its node that no
element before it stands for -/
theorem ctrl_install_counterexample {name : Str} (h : ∃ c ∈ name, c = 0x28 ∨ c = 0x29 ∨ c = 0x7c) (vline : List Str) : Matches (createCmd name) vline := by
  have : createCmd name = [] := by
    unfold createCmd
    rw [if_pos]
    rw [List.any_eq_true]
    obtain ⟨c, hc, e⟩ := h
    exact ⟨c, hc, by rcases e with rfl | rfl | rfl <;> rfl⟩
  rw [this]
  exact ⟨by simp, [], [], rfl, List.nil_prefix, .inl rfl⟩

/-- **An element stands for longer requests too** (src/ctrl/control_cmd.c:73-82): if `a` is registered before `a b`, that is never reached -/
theorem ctrl_prefix_counterexample (words more : List Str) : Matches words (words ++ more) :=
  ⟨by simp, words, [], by simp, List.prefix_append _ _, .inl rfl⟩

/-- an element "a" whose `get` returns `rc` and sets the text "x" -/
def sampleElem (rc : Int) : Elem := { words := [[0x61]], set := none, get := some fun _ => ⟨rc, some [0x78], false⟩, verify := none }
def sample (rc : Int) : Handle := { replyCb := false, lookup := fun _ i n => (0, n, i), nodes := fun _ => some [sampleElem rc] }

/-- "GET 1 a" -/
def sampleLine : Str := [0x47, 0x45, 0x54, 0x20, 0x31, 0x20, 0x61]

/-- **A call-back that returns another value**, as of an errno (src/ctrl/control_cmd.c:144-152, src/ctrl/control_if.c:472-479): the request is sent
back as it was, as if asked in turn -/
theorem ctrl_echo_counterexample : handleMsg (sample (-22)) 1 sampleLine = some ([.get [[0x61]] [0x61]], some sampleLine) := by decide +kernel

example : handleMsg (sample 1) 1 sampleLine = some ([.get [[0x61]] [0x61]], some (getReplyLine [0x31] [0x61] [0x78])) := by decide +kernel

example : handleMsg (sample (-1)) 1 sampleLine = some ([.get [[0x61]] [0x61]], some (errorLine [0x31] [0x78])) := by decide +kernel

example : handleMsg (sample 0) 1 sampleLine = some ([.get [[0x61]] [0x61]], none) := by decide +kernel

/-- a SET of it, "SET 1 a 5" -/
example : handleMsg (sample 1) 1 [0x53, 0x45, 0x54, 0x20, 0x31, 0x20, 0x61, 0x20, 0x35] = some ([], some (errorLine [0x31] sSetNot)) := by decide +kernel

/-- an element "a" that takes "5" only -/
def checkedElem : Elem :=
  { words := [[0x61]], set := some (fun _ _ => ⟨1, some [0x4f, 0x4b], false⟩), get := none, verify := some (fun _ v => ⟨if v = [0x35] then 0 else 1, none, false⟩) }
def checked : Handle := { replyCb := false, lookup := fun _ i n => (0, n, i), nodes := fun _ => some [checkedElem] }

example : handleMsg checked 1 [0x53, 0x45, 0x54, 0x20, 0x31, 0x20, 0x61, 0x20, 0x35] =
    some ([.verify [[0x61]] [0x61] [0x35], .set [[0x61]] [0x61] [0x35]], some (setReplyLine [0x31] [0x61] [0x4f, 0x4b])) := by decide +kernel

example : handleMsg checked 1 [0x53, 0x45, 0x54, 0x20, 0x31, 0x20, 0x61, 0x20, 0x36] =
    some ([.verify [[0x61]] [0x61] [0x36]], some (errorLine [0x31] sVerify)) := by decide +kernel

/-- "bts..0" is `bts`, `0` -/
example : vlineOf [0x62, 0x74, 0x73, 0x2e, 0x2e, 0x30] = some [[0x62, 0x74, 0x73], [0x30]] := by decide +kernel

end Verif.Ctrl
