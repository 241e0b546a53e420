import Verif.Utils.StrbufModel
import Verif.Utils.HexProps
/-!
Properties C19 (string buffers) and C18 (escaping).
-/
namespace Verif.Utils

/-! ### C19 -/

/-- `buf` holds the longest prefix of `T` fitting in `len - 1` bytes, then NUL -/
def HoldsPrefix (buf : List Byte) (T : List Byte) : Prop :=
  ∃ rest, buf = T.take (buf.length - 1) ++ 0#8 :: rest

/-- abstract effect of one operation on the logical text; `len` is the buffer size -/
def textStep (len : Nat) (T : List Byte) : SbOp → List Byte
  | .append t => T ++ t
  | .appendNolen t => T ++ t.take (len - 1 - T.length)
  | .drop n => T.take (T.length - n)
  | .added t => T ++ t

def textRun (len : Nat) (T : List Byte) (ops : List SbOp) : List Byte := ops.foldl (textStep len) T

/-- the texts of an operation contain no NUL -/
def SbOp.clean : SbOp → Prop
  | .append t => 0#8 ∉ t
  | .appendNolen t => 0#8 ∉ t
  | .drop _ => True
  | .added t => 0#8 ∉ t

def SbOp.isDrop : SbOp → Bool
  | .drop _ => true
  | _ => false

/-- invariant relating a string buffer to its logical text -/
structure SbInv (sb : Sb) (T : List Byte) : Prop where
  needed : sb.needed = T.length
  posle : sb.pos.getD 0 ≤ sb.buf.length
  fresh : sb.pos = none → T = []
  short : T.length + 1 < sb.buf.length → sb.pos.getD 0 = T.length
  full : sb.buf.length ≤ T.length + 1 → sb.buf.length - 1 ≤ sb.pos.getD 0
  content : sb.pos ≠ none → 0 < sb.buf.length →
    ∃ rest, sb.buf = T.take (sb.buf.length - 1) ++ 0#8 :: rest

theorem take_glue {T t : List Byte} {n p : Nat} (hp : p = min T.length (n - 1)) :
    T.take p ++ t.take (n - p - 1) = (T ++ t).take (n - 1) := by
  rw [List.take_append]
  rcases Nat.le_total T.length (n - 1) with h | h
  · have : p = T.length := by omega
    subst this
    rw [List.take_of_length_le (Nat.le_refl _), List.take_of_length_le h]
    congr 2; omega
  · have : p = n - 1 := by omega
    subst this
    rw [show n - (n - 1) - 1 = 0 by omega, show n - 1 - T.length = 0 by omega]

theorem SbInv.pre {sb : Sb} {T : List Byte} (h : SbInv sb T) (hp : sb.pos.getD 0 < sb.buf.length) :
    sb.buf.take (sb.pos.getD 0) = T.take (sb.pos.getD 0) ∧
      sb.pos.getD 0 = min T.length (sb.buf.length - 1) := by
  obtain ⟨h1, h2, h3, h4, h5, h6⟩ := h
  by_cases hn : sb.pos = none
  · have := h3 hn
    subst this
    rw [hn]
    simp
  · obtain ⟨rest, hr⟩ := h6 hn (by omega)
    have hpm : sb.pos.getD 0 = min T.length (sb.buf.length - 1) := by
      rcases Nat.lt_or_ge (T.length + 1) sb.buf.length with h | h
      · have := h4 h; omega
      · have := h5 h; omega
    refine ⟨?_, hpm⟩
    generalize sb.pos.getD 0 = p at *
    generalize hN : sb.buf.length = N at *
    rw [hr, List.take_append_of_le_length (by simp; omega), List.take_take]
    congr 1
    omega

/-- `f` behaves like `snprintf` printing the text `t`: it returns the full
length and leaves the longest fitting prefix and a NUL in the window -/
def SnprintfLike (f : List Byte → Option (List Byte × Int)) (t : List Byte) : Prop :=
  ∀ win, ∃ sub, f win = some (sub, (t.length : Int)) ∧ sub.length = win.length ∧
    (win ≠ [] → HoldsPrefix sub t)

theorem snprintfText_like (t : List Byte) : SnprintfLike (snprintfText t) t := by
  intro win
  unfold snprintfText
  split
  · rename_i h
    exact ⟨win, rfl, rfl, fun hne => absurd (List.eq_nil_of_length_eq_zero h) hne⟩
  · rename_i h
    have hl : (t.take (win.length - 1) ++ 0#8 :: win.drop ((t.take (win.length - 1)).length + 1)).length
        = win.length := by simp; omega
    exact ⟨_, rfl, hl, fun _ => ⟨_, by rw [hl]⟩⟩

/-- appending text `t` with any snprintf-like function -/
theorem appendWith_inv {sb : Sb} {T t : List Byte} {f : List Byte → Option (List Byte × Int)}
    (hf : SnprintfLike f t) (h : SbInv sb T) :
    ∃ sb', appendWith sb f = some sb' ∧ SbInv sb' (T ++ t) ∧
      sb'.buf.length = sb.buf.length ∧ sb'.pos ≠ none := by
  have hpre := h.pre
  obtain ⟨buf, pos, needed⟩ := sb
  obtain ⟨h1, h2, h3, h4, h5, h6⟩ := h
  simp only at *
  unfold appendWith
  simp only
  rw [if_pos h2]
  generalize hp : pos.getD 0 = p at *
  have hneed : (if (t.length : Int) > 0 then needed + (t.length : Int).toNat else needed) =
      (T ++ t).length := by
    simp only [List.length_append]
    split <;> omega
  have hpos : (if (t.length : Int) < 0 ∨ (t.length : Int) > ((buf.length - p : Nat) : Int) then buf.length
      else p + (t.length : Int).toNat) = if buf.length < p + t.length then buf.length else p + t.length := by
    by_cases hc : buf.length < p + t.length
    · rw [if_pos hc, if_pos (by omega)]
    · rw [if_neg hc, if_neg (by omega)]; simp
  obtain ⟨sub, hfs, hsl, hsub⟩ := hf (buf.drop p)
  rw [hfs, Option.bind_some]
  simp only [hneed, hpos]
  by_cases hw : (buf.drop p).length = 0
  · have hs0 : sub = [] := List.eq_nil_of_length_eq_zero (by omega)
    simp only [List.length_drop] at hw
    have hb : buf.take p ++ sub = buf := by
      rw [hs0, List.append_nil, List.take_of_length_le (by omega)]
    rw [hb]
    refine ⟨_, rfl, ⟨?_, ?_, ?_, ?_, ?_, ?_⟩, rfl, by simp⟩
    · rfl
    · simp only [Option.getD_some]; split <;> omega
    · intro hc; cases hc
    · simp only [Option.getD_some, List.length_append]; intro hlt; omega
    · simp only [Option.getD_some]; intro _; split <;> omega
    · intro _ hpos
      simp only at hpos ⊢
      have hne : pos ≠ none := by
        intro hc; rw [hc] at hp; simp at hp; omega
      obtain ⟨rest, hr⟩ := h6 hne hpos
      have hTl : buf.length ≤ T.length + 1 := by
        rcases Nat.lt_or_ge (T.length + 1) buf.length with h | h
        · have := h4 h; omega
        · exact h
      exact ⟨rest, by rw [List.take_append_of_le_length (by omega)]; exact hr⟩
  · obtain ⟨rest, hrest⟩ := hsub (fun hc => hw (by rw [hc]; rfl))
    simp only [List.length_drop] at hw hsl
    have hlen : (buf.take p ++ sub).length = buf.length := by simp; omega
    obtain ⟨hpre1, hpre2⟩ := hpre (by omega)
    refine ⟨_, rfl, ⟨rfl, ?_, ?_, ?_, ?_, ?_⟩, hlen, by simp⟩
    · simp only [Option.getD_some, hlen]; split <;> omega
    · intro hc; cases hc
    · simp only [Option.getD_some, hlen, List.length_append]; intro hlt
      rw [if_neg (by omega)]; omega
    · simp only [Option.getD_some, hlen, List.length_append]; intro hlt
      split <;> omega
    · intro _ _
      simp only [hlen]
      refine ⟨rest, ?_⟩
      rw [hrest, ← List.append_assoc]
      congr 1
      rw [hpre1, hsl, ← take_glue hpre2]

theorem takeWhile_clean {t R : List Byte} (h : 0#8 ∉ t) :
    ((t ++ 0#8 :: R).takeWhile (· ≠ 0#8)) = t := by
  induction t with
  | nil => simp
  | cons x xs ih =>
    simp only [List.mem_cons, not_or] at h
    rw [List.cons_append, List.takeWhile_cons_of_pos (by simpa using Ne.symm h.1), ih h.2]

theorem appendNolen_eq {sb : Sb} {t : List Byte} (hc : 0#8 ∉ t) :
    appendNolen sb t =
      appendWith sb (snprintfText (t.take (sb.buf.length - sb.pos.getD 0 - 1))) := by
  unfold appendNolen appendWith
  simp only
  split
  · rename_i hle
    generalize hp : sb.pos.getD 0 = p at *
    by_cases hw : (sb.buf.drop p).length = 0
    · rw [if_pos hw, Option.bind_some]
      have h0 : sb.buf.drop p = [] := List.eq_nil_of_length_eq_zero hw
      simp only [List.length_drop] at hw
      rw [h0]
      simp [snprintfText, hw]
    · rw [if_neg hw]
      unfold snprintfText
      rw [if_neg hw, if_neg hw, Option.map_some, Option.bind_some, Option.bind_some]
      simp only [List.length_drop] at *
      have hcl : 0#8 ∉ t.take (sb.buf.length - p - 1) := fun h => hc (List.mem_of_mem_take h)
      rw [takeWhile_clean hcl, List.take_take, Nat.min_self]
      simp only [List.length_take]
      congr 2
      · rw [if_neg (by omega), if_neg (by omega)]; simp
      · split <;> omega
  · rfl

theorem dropTail_inv {sb : Sb} {T : List Byte} {n : Nat} (h : SbInv sb T) (hl : 2 ≤ sb.buf.length) :
    ∃ sb', dropTail sb n = some sb' ∧ SbInv sb' (T.take (T.length - n)) ∧
      sb'.buf.length = sb.buf.length := by
  obtain ⟨buf, pos, needed⟩ := sb
  obtain ⟨h1, h2, h3, h4, h5, h6⟩ := h
  simp only at *
  unfold dropTail
  simp only
  split
  · rename_i h0
    have hT : T = [] := by
      rcases Nat.lt_or_ge (T.length + 1) buf.length with h | h
      · have := h4 h
        exact List.eq_nil_of_length_eq_zero (by omega)
      · have := h5 h; omega
    subst hT
    refine ⟨_, rfl, ?_, rfl⟩
    simp only [List.take_nil]
    exact ⟨h1, h2, h3, h4, h5, h6⟩
  · rename_i h0
    have hnp : pos ≠ none := by intro hc; rw [hc] at h0; simp at h0
    obtain ⟨p, rfl⟩ := Option.ne_none_iff_exists'.1 hnp
    simp only [Option.getD_some, charCount] at *
    rw [if_neg h0]
    obtain ⟨rest, hr⟩ := h6 hnp (by omega)
    have hn : needed - min needed n = T.length - n := by omega
    rw [hn]
    have htl : (T.take (T.length - n)).length = T.length - n := by simp
    split
    · rename_i hge
      refine ⟨_, rfl, ⟨htl.symm, h2, (fun hc => by cases hc), ?_, ?_, ?_⟩, rfl⟩
      · simp only [Option.getD_some, htl]; intro hlt
        rcases Nat.lt_or_ge (T.length + 1) buf.length with h | h
        · have := h4 h; omega
        · have := h5 h; omega
      · simp only [Option.getD_some, htl]; intro hlt
        rcases Nat.lt_or_ge (T.length + 1) buf.length with h | h
        · have := h4 h; omega
        · have := h5 h; omega
      · intro _ _
        refine ⟨rest, ?_⟩
        simp only
        rw [List.take_take, ]
        rcases Nat.lt_or_ge (T.length + 1) buf.length with h | h
        · have := h4 h
          rw [show min (buf.length - 1) (T.length - n) = T.length by omega]
          rw [List.take_of_length_le (by omega)] at hr ⊢
          exact hr
        · have := h5 h
          rw [show min (buf.length - 1) (T.length - n) = buf.length - 1 by omega]
          exact hr
    · rename_i hlt
      have hw := writeAt_eq_some (mem := buf) (bs := [0#8]) (o := T.length - n) (by simp; omega)
      rw [hw, Option.map_some]
      have hlen : (buf.take (T.length - n) ++ [0#8] ++ buf.drop (T.length - n + [0#8].length)).length =
          buf.length := by simp; omega
      refine ⟨_, rfl, ⟨htl.symm, ?_, (fun hc => by cases hc), ?_, ?_, ?_⟩, hlen⟩
      · simp only [Option.getD_some, hlen]; omega
      · simp only [Option.getD_some, htl]; intro _; trivial
      · simp only [Option.getD_some, hlen, htl]; omega
      · intro _ _
        simp only [hlen]
        refine ⟨buf.drop (T.length - n + 1), ?_⟩
        have e1 : buf.take (T.length - n) = T.take (T.length - n) := by
          generalize hN : buf.length = N at *
          rw [hr, List.take_append_of_le_length (by simp; omega), List.take_take]
          congr 1; omega
        rw [e1, List.take_take, show min (buf.length - 1) (T.length - n) = T.length - n by omega]
        simp

theorem added_inv {sb : Sb} {T t : List Byte} (h : SbInv sb T) :
    ∃ sb', sbStep sb (.added t) = some sb' ∧ SbInv sb' (T ++ t) ∧
      sb'.buf.length = sb.buf.length := by
  have hpre := h.pre
  obtain ⟨buf, pos, needed⟩ := sb
  obtain ⟨h1, h2, h3, h4, h5, h6⟩ := h
  simp only [sbStep] at *
  generalize hp : pos.getD 0 = p at *
  rw [writeAt_eq_some (by simp; omega), Option.bind_some]
  unfold addedTail
  simp only [hp]
  have hl1 : (buf.take p ++ t.take (buf.length - p) ++ buf.drop (p + (t.take (buf.length - p)).length)).length
      = buf.length := by simp; omega
  rw [if_pos (by omega), hl1]
  by_cases hf : p = buf.length
  · rw [if_neg (by omega)]
    have hb : buf.take p ++ t.take (buf.length - p) ++ buf.drop (p + (t.take (buf.length - p)).length) = buf := by
      simp [hf]
    rw [hb]
    refine ⟨_, rfl, ⟨by simp [h1], ?_, (fun hc => by cases hc), ?_, ?_, ?_⟩, rfl⟩
    · simp only [Option.getD_some]; omega
    · simp only [Option.getD_some, List.length_append]; omega
    · simp only [Option.getD_some, List.length_append]; omega
    · intro _ h0
      simp only at h0 ⊢
      have hne : pos ≠ none := by
        intro hc; rw [hc] at hp; simp at hp; omega
      obtain ⟨rest, hr⟩ := h6 hne h0
      have hTl : buf.length ≤ T.length + 1 := by
        rcases Nat.lt_or_ge (T.length + 1) buf.length with h | h
        · have := h4 h; omega
        · exact h
      exact ⟨rest, by rw [List.take_append_of_le_length (by omega)]; exact hr⟩
  · obtain ⟨hpre1, hpre2⟩ := hpre (by omega)
    rw [if_pos (by omega), writeAt_eq_some (by rw [hl1]; simp; omega), Option.map_some]
    generalize hb1 : buf.take p ++ t.take (buf.length - p) ++ buf.drop (p + (t.take (buf.length - p)).length) = b1 at *
    generalize hq : p + min (buf.length - p - 1) t.length = q at *
    have hlen : (b1.take q ++ [0#8] ++ b1.drop (q + [0#8].length)).length = buf.length := by
      simp; omega
    refine ⟨_, rfl, ⟨by simp [h1], ?_, (fun hc => by cases hc), ?_, ?_, ?_⟩, hlen⟩
    · simp only [Option.getD_some, hlen]; omega
    · simp only [Option.getD_some, hlen, List.length_append]; omega
    · simp only [Option.getD_some, hlen, List.length_append]; omega
    · intro _ _
      simp only [hlen]
      refine ⟨b1.drop (q + 1), ?_⟩
      have e1 : b1.take q = T.take p ++ t.take (buf.length - p - 1) := by
        have hpl : (buf.take p).length = p := by simp; omega
        rw [← hb1, List.append_assoc, List.take_append, List.take_of_length_le (by omega), hpre1]
        congr 1
        rw [show (T.take p).length = p by rw [← hpre1]; exact hpl]
        rw [List.take_append_of_le_length (by simp; omega), List.take_take]
        rw [← hq]
        rw [show p + min (buf.length - p - 1) t.length - p = min (buf.length - p - 1) t.length by omega]
        by_cases hc : t.length ≤ buf.length - p - 1
        · rw [List.take_of_length_le (by omega), List.take_of_length_le (by omega)]
        · congr 1; omega
      rw [e1, take_glue hpre2]
      simp

theorem SbInv.init (buf : List Byte) : SbInv (sbInit buf) [] := by
  refine ⟨rfl, by simp [sbInit], fun _ => rfl, by simp [sbInit], ?_, ?_⟩
  · intro h; simp [sbInit] at *; omega
  · intro h; simp [sbInit] at h

theorem sbStep_inv {sb : Sb} {T : List Byte} (o : SbOp) (h : SbInv sb T) (hc : o.clean)
    (hl : 2 ≤ sb.buf.length ∨ o.isDrop = false) :
    ∃ sb', sbStep sb o = some sb' ∧ SbInv sb' (textStep sb.buf.length T o) ∧
      sb'.buf.length = sb.buf.length := by
  cases o with
  | append t =>
    obtain ⟨sb', h1, h2, h3, _⟩ := appendWith_inv (snprintfText_like t) h
    exact ⟨sb', h1, h2, h3⟩
  | appendNolen t =>
    simp only [sbStep, textStep]
    rw [appendNolen_eq hc]
    have e : t.take (sb.buf.length - sb.pos.getD 0 - 1) = t.take (sb.buf.length - 1 - T.length) := by
      congr 1
      rcases Nat.lt_or_ge (T.length + 1) sb.buf.length with h' | h'
      · have := h.short h'; omega
      · have := h.full h'; omega
    rw [e]
    obtain ⟨sb', h1, h2, h3, _⟩ := appendWith_inv (snprintfText_like (t.take (sb.buf.length - 1 - T.length))) h
    exact ⟨sb', h1, h2, h3⟩
  | drop n =>
    rcases hl with hl | hl
    · exact dropTail_inv h hl
    · simp [SbOp.isDrop] at hl
  | added t => exact added_inv h

theorem sbRun_inv {sb : Sb} {T : List Byte} (ops : List SbOp) (h : SbInv sb T)
    (hc : ∀ o ∈ ops, o.clean) (hl : 2 ≤ sb.buf.length ∨ ∀ o ∈ ops, o.isDrop = false) :
    ∃ sb', sbRun sb ops = some sb' ∧ SbInv sb' (textRun sb.buf.length T ops) ∧
      sb'.buf.length = sb.buf.length := by
  induction ops generalizing sb T with
  | nil => exact ⟨sb, rfl, h, rfl⟩
  | cons o os ih =>
    obtain ⟨sb1, h1, h2, h3⟩ := sbStep_inv o h (hc o (by simp))
      (by rcases hl with hl | hl
          · exact Or.inl hl
          · exact Or.inr (hl o (by simp)))
    obtain ⟨sb2, g1, g2, g3⟩ := ih h2 (fun x hx => hc x (by simp [hx]))
      (by rw [h3]
          rcases hl with hl | hl
          · exact Or.inl hl
          · exact Or.inr (fun x hx => hl x (by simp [hx])))
    refine ⟨sb2, ?_, ?_, by omega⟩
    · simp only [sbRun, h1, Option.bind_some, g1]
    · rw [h3] at g2; exact g2

/-- pos is set after any operation -/
theorem sbStep_pos {sb sb' : Sb} {o : SbOp} (h : sbStep sb o = some sb') (hnd : o.isDrop = false) :
    sb'.pos ≠ none := by
  cases o with
  | append t =>
    simp only [sbStep, appendWith] at h
    split at h
    · obtain ⟨x, _, hx⟩ := Option.bind_eq_some_iff.1 h
      cases hx; simp
    · cases h
  | appendNolen t =>
    simp only [sbStep, appendNolen] at h
    split at h
    · obtain ⟨x, _, hx⟩ := Option.bind_eq_some_iff.1 h
      cases hx; simp
    · cases h
  | drop n => simp [SbOp.isDrop] at hnd
  | added t =>
    simp only [sbStep] at h
    obtain ⟨x, _, hx⟩ := Option.bind_eq_some_iff.1 h
    unfold addedTail at hx
    simp only at hx
    split at hx
    · split at hx
      · obtain ⟨y, _, hy⟩ := Option.map_eq_some_iff.1 hx
        subst hy; simp
      · cases hx; simp
    · cases hx

/-- **C19a.** For any sequence of string-buffer operations (appends of both
kinds, caller-written tails, and - for buffers of at least two bytes - drops) no
access leaves the buffer, `chars_needed` is the length of the whole logical
text, and as soon as something was written the buffer holds the longest prefix
of the logical text that fits in `len - 1` bytes, followed by a NUL. -/
theorem strbuf_sequence (buf : List Byte) (ops : List SbOp) (hc : ∀ o ∈ ops, o.clean)
    (hl : 2 ≤ buf.length ∨ ∀ o ∈ ops, o.isDrop = false) :
    ∃ sb, sbRun (sbInit buf) ops = some sb ∧ sb.buf.length = buf.length ∧
      sb.needed = (textRun buf.length [] ops).length ∧
      (sb.pos ≠ none → 1 ≤ buf.length → HoldsPrefix sb.buf (textRun buf.length [] ops)) := by
  obtain ⟨sb, h1, h2, h3⟩ := sbRun_inv ops (SbInv.init buf) hc hl
  refine ⟨sb, h1, h3, h2.needed, ?_⟩
  intro hp h0
  exact h2.content hp (by rw [h3]; exact h0)

/-- the operation sequences of pure appends have the concatenation as text -/
theorem textRun_appends (len : Nat) (ts : List (List Byte)) (T : List Byte) :
    textRun len T (ts.map SbOp.append) = T ++ ts.flatten := by
  induction ts generalizing T with
  | nil => simp [textRun]
  | cons t ts ih =>
    have := ih (T ++ t)
    simp only [textRun, List.map_cons, List.foldl_cons, textStep] at this ⊢
    rw [this]; simp

/-- **C19b** (false for empty buffers): with `len == 0` - used to measure the
space needed - dropping characters does not reduce `chars_needed`. -/
theorem strbuf_drop_counterexample :
    (sbRun (sbInit []) [.append [0x61, 0x62], .drop 1]).map (·.needed) = some 2 ∧
    (textRun 0 [] [.append [0x61, 0x62], .drop 1]).length = 1 := by decide

example : ((sbRun (sbInit (List.replicate 5 0xee)) [.append [0x61, 0x62, 0x63], .append [0x64, 0x65, 0x66],
      .drop 4, .added [0x78], .appendNolen [0x79, 0x7a]]).map fun sb => (sb.buf, sb.needed)) =
    some ([0x61, 0x62, 0x78, 0x79, 0], 4) := by decide

/-- **C19c.** `osmo_print_n` is an snprintf-like function printing the first
`n` characters. -/
theorem printN_eq (str : List Byte) (n : Nat) (win : List Byte) :
    printN str n win = snprintfText (str.take n) win := by
  unfold printN snprintfText
  simp only
  have hlt : (str.take n).length = min str.length n := by simp; omega
  split
  · rw [hlt]
  · rename_i hw
    have hwn : (if min str.length n ≥ win.length then win.length - 1 else min str.length n) =
        min (min str.length n) (win.length - 1) := by split <;> omega
    rw [hwn]
    have e : str.take (min (min str.length n) (win.length - 1)) = (str.take n).take (win.length - 1) := by
      rw [List.take_take]
      by_cases h : str.length ≤ min n (win.length - 1)
      · rw [List.take_of_length_le (by omega), List.take_of_length_le (by omega)]
      · congr 1; omega
    rw [e]
    have hl : ((str.take n).take (win.length - 1)).length = min (min str.length n) (win.length - 1) := by
      simp; omega
    have h0 := writeAt_eq_some (mem := win) (bs := (str.take n).take (win.length - 1)) (o := 0) (by omega)
    rw [show ((0 : Nat) : Int) = 0 from rfl] at h0
    rw [h0, Option.bind_some, writeAt_eq_some (by simp; omega), Option.map_some]
    simp only [List.take_zero, List.nil_append, Nat.zero_add]
    rw [List.take_append_of_le_length (by omega), List.take_of_length_le (by omega)]
    rw [hl]
    congr 2
    · rw [List.append_assoc]
      congr 1
      rw [List.drop_append, List.drop_of_length_le (by simp; omega)]
      simp only [List.nil_append, List.drop_drop, List.singleton_append]
      congr 2
      simp; omega
    · rw [hlt]

/-- **C19d.** `osmo_strlcpy` copies the longest prefix that fits, terminates it,
never leaves the buffer and returns the source length. -/
theorem strlcpy_spec (dst src : List Byte) :
    ∃ d, strlcpy dst src = some (d, src.length) ∧ d.length = dst.length ∧
      (1 ≤ dst.length → d = src.take (dst.length - 1) ++ 0#8 ::
        dst.drop ((src.take (dst.length - 1)).length + 1)) := by
  unfold strlcpy
  split
  · rename_i h0
    have hmin : src.take (min (dst.length - 1) src.length) = src.take (dst.length - 1) := by
      rcases Nat.le_total src.length (dst.length - 1) with h | h
      · rw [List.take_of_length_le (by omega), List.take_of_length_le h]
      · congr 1; omega
    simp only [hmin]
    have hl : (src.take (dst.length - 1)).length = min (dst.length - 1) src.length := by simp
    have hw := writeAt_eq_some (mem := dst) (bs := src.take (dst.length - 1)) (o := 0) (by omega)
    rw [show ((0 : Nat) : Int) = 0 from rfl] at hw
    rw [hw, Option.bind_some, writeAt_eq_some (by simp; omega), Option.map_some]
    refine ⟨_, rfl, by simp; omega, ?_⟩
    intro _
    simp only [List.take_zero, List.nil_append, Nat.zero_add]
    rw [← hl, List.take_append_of_le_length (Nat.le_refl _), List.take_of_length_le (Nat.le_refl _)]
    rw [List.append_assoc, List.drop_append, List.drop_of_length_le (by simp)]
    simp only [List.nil_append, List.drop_drop, List.singleton_append]
    congr 3
    simp
  · exact ⟨dst, rfl, rfl, by omega⟩

example : strlcpy [1, 2, 3, 4] [0x61, 0x62, 0x63, 0x64, 0x65] = some ([0x61, 0x62, 0x63, 0], 5) ∧
    strlcpy [1, 2, 3, 4] [0x61] = some ([0x61, 0, 3, 4], 1) := by decide

/-! ### C18 -/

/-- the untruncated escaped text -/
def escapeText (legacy : Bool) (s : List Byte) : List Byte :=
  s.flatMap fun c => if isPlain c then [c] else escapeOne legacy c

theorem escapeText_run (legacy : Bool) (run : List Byte) (h : ∀ c ∈ run, isPlain c = true) :
    escapeText legacy run = run := by
  induction run with
  | nil => rfl
  | cons c cs ih =>
    have := ih (fun x hx => h x (by simp [hx]))
    simp only [escapeText, List.flatMap_cons] at this ⊢
    rw [this, if_pos (h c (by simp))]; rfl

theorem escapeText_append (legacy : Bool) (a b : List Byte) :
    escapeText legacy (a ++ b) = escapeText legacy a ++ escapeText legacy b := by
  simp [escapeText]

theorem printN_like (run : List Byte) : SnprintfLike (printN run run.length) run := by
  intro win
  rw [printN_eq, List.take_length]
  exact snprintfText_like run win

theorem escapeLoop_inv (legacy : Bool) (str : List Byte) (sb : Sb) (T : List Byte) (h : SbInv sb T) :
    ∃ sb', escapeLoop legacy str sb = some sb' ∧ SbInv sb' (T ++ escapeText legacy str) ∧
      sb'.buf.length = sb.buf.length ∧ (str ≠ [] ∨ sb.pos ≠ none → sb'.pos ≠ none) := by
  generalize hn : str.length = n
  induction n using Nat.strongRecOn generalizing str sb T with
  | _ n ih =>
    unfold escapeLoop
    cases str with
    | nil => exact ⟨sb, rfl, by simpa [escapeText] using h, rfl, by simp⟩
    | cons c cs =>
      simp only
      generalize hrun : (c :: cs).takeWhile isPlain = run
      have hplain : ∀ x ∈ run, isPlain x = true := by
        intro x hx
        rw [← hrun] at hx
        exact List.all_takeWhile (p := isPlain) (l := c :: cs) |> fun h => (List.all_eq_true.1 h) x hx
      obtain ⟨sb1, h1, h2, h3, h4⟩ := appendWith_inv (printN_like run) h
      rw [h1, Option.bind_some]
      have hsplit : c :: cs = run ++ (c :: cs).dropWhile isPlain := by
        rw [← hrun, List.takeWhile_append_dropWhile]
      split
      · rename_i hd
        refine ⟨sb1, rfl, ?_, h3, fun _ => h4⟩
        rw [hsplit, hd, List.append_nil, escapeText_run legacy run hplain]
        exact h2
      · rename_i x rest hd
        obtain ⟨sb2, g1, g2, g3, g4⟩ := appendWith_inv (snprintfText_like (escapeOne legacy x)) h2
        rw [g1, Option.bind_some]
        have hx : isPlain x = false := by
          have := List.head?_dropWhile_not isPlain (c :: cs)
          rw [hd] at this
          simpa using this
        have hlen : rest.length < n := by
          have := congrArg List.length hsplit
          rw [hd] at this
          simp at this hn
          omega
        obtain ⟨sb3, k1, k2, k3, k4⟩ := ih rest.length hlen rest sb2 _ g2 rfl
        refine ⟨sb3, k1, ?_, by omega, fun _ => k4 (Or.inr g4)⟩
        rw [hsplit, hd]
        have : x :: rest = [x] ++ rest := rfl
        rw [this, escapeText_append, escapeText_append, escapeText_run legacy run hplain]
        have hx1 : escapeText legacy [x] = escapeOne legacy x := by simp [escapeText, hx]
        rw [hx1]
        simpa using k2

theorem escapeStrBuf_like (legacy : Bool) (s : List Byte) :
    SnprintfLike (escapeStrBuf legacy s) (escapeText legacy s) := by
  intro win
  unfold escapeStrBuf
  simp only
  have key : ∀ sb : Sb, SbInv sb [] → sb.buf.length = win.length → (s ≠ [] ∨ sb.pos ≠ none) →
      ∃ sub, ((escapeLoop legacy s sb).map fun (sb : Sb) => (sb.buf, (sb.needed : Int))) =
        some (sub, ((escapeText legacy s).length : Int)) ∧ sub.length = win.length ∧
        (win ≠ [] → HoldsPrefix sub (escapeText legacy s)) := by
    intro sb h hl hp
    obtain ⟨sb', h1, h2, h3, h4⟩ := escapeLoop_inv legacy s sb [] h
    rw [h1, Option.map_some]
    simp only [List.nil_append] at h2
    refine ⟨sb'.buf, by rw [h2.needed], by omega, ?_⟩
    intro hne
    exact h2.content (h4 hp) (by
      have := List.length_pos_iff.2 hne
      omega)
  split
  · obtain ⟨sb, h1, h2, h3, h4⟩ := appendWith_inv (snprintfText_like []) (SbInv.init win)
    rw [h1, Option.bind_some]
    exact key sb h2 h3 (Or.inr h4)
  · rename_i hne
    rw [Option.bind_some]
    exact key _ (SbInv.init win) rfl (Or.inl (fun hc => hne (by rw [hc]; rfl)))

theorem quoteStrBuf_like (legacy : Bool) (s : List Byte) :
    SnprintfLike (quoteStrBuf legacy (some s)) ([0x22#8] ++ escapeText legacy s ++ [0x22#8]) := by
  intro win
  unfold quoteStrBuf
  obtain ⟨sb1, a1, a2, a3, a4⟩ := appendWith_inv (snprintfText_like [0x22#8]) (SbInv.init win)
  obtain ⟨sb2, b1, b2, b3, b4⟩ := appendWith_inv (escapeStrBuf_like legacy s) a2
  obtain ⟨sb3, c1, c2, c3, c4⟩ := appendWith_inv (snprintfText_like [0x22#8]) b2
  simp only [a1, b1, c1, Option.bind_some, Option.map_some]
  rw [List.nil_append] at c2
  refine ⟨sb3.buf, by rw [c2.needed], ?_, ?_⟩
  · rw [c3, b3, a3]; rfl
  · intro hne
    exact c2.content c4 (by
      have := List.length_pos_iff.2 hne
      rw [c3, b3, a3]; exact this)

/-- value of a hexadecimal digit in either case -/
def hexDigitVal (c : Byte) : Option Nat := digitValue true c

/-- reader of the C-style escapes as documented for the function: `\n \r \t \0
\\ \"` and `\xNN` with exactly two digits; every other character must be
printable and neither a quote nor a backslash -/
def unescape : List Byte → Option (List Byte)
  | [] => some []
  | c :: rest =>
    if c = 0x5c#8 then
      match rest with
      | [] => none
      | k :: r =>
        if k = 0x6e#8 then (unescape r).map (0x0a#8 :: ·)
        else if k = 0x72#8 then (unescape r).map (0x0d#8 :: ·)
        else if k = 0x74#8 then (unescape r).map (0x09#8 :: ·)
        else if k = 0x30#8 then (unescape r).map (0x00#8 :: ·)
        else if k = 0x5c#8 then (unescape r).map (0x5c#8 :: ·)
        else if k = 0x22#8 then (unescape r).map (0x22#8 :: ·)
        else if k = 0x78#8 then
          match r with
          | a :: b :: r' =>
            match hexDigitVal a, hexDigitVal b with
            | some x, some y => (unescape r').map (BitVec.ofNat 8 (16 * x + y) :: ·)
            | _, _ => none
          | _ => none
        else none
    else if 0x20 ≤ c.toNat ∧ c.toNat ≤ 0x7e ∧ c ≠ 0x22#8 then (unescape rest).map (c :: ·)
    else none

/-- what `escapeText` prints for one character -/
theorem unescape_one : ∀ c : Byte, ∀ r,
    unescape ((if isPlain c then [c] else escapeOne false c) ++ r) = (unescape r).map (c :: ·) := by
  intro c r
  by_cases hp : isPlain c = true
  · rw [if_pos hp]
    simp only [isPlain, isPrint, Bool.and_eq_true, decide_eq_true_eq] at hp
    simp only [List.cons_append, List.nil_append]
    rw [unescape.eq_def]
    simp only
    rw [if_neg hp.2, if_pos ⟨hp.1.1.1, hp.1.1.2, hp.1.2⟩]
  · rw [if_neg hp]
    unfold escapeOne
    by_cases h1 : c = 0x0a#8
    · subst h1; simp only [if_true, List.cons_append, List.nil_append]; rw [unescape.eq_def]; simp
    rw [if_neg h1]
    by_cases h2 : c = 0x0d#8
    · subst h2; simp only [if_true, List.cons_append, List.nil_append]; rw [unescape.eq_def]; simp
    rw [if_neg h2]
    by_cases h3 : c = 0x09#8
    · subst h3; simp only [if_true, List.cons_append, List.nil_append]; rw [unescape.eq_def]; simp
    rw [if_neg h3]
    by_cases h4 : c = 0x00#8
    · subst h4; simp only [if_true, List.cons_append, List.nil_append]; rw [unescape.eq_def]; simp
    rw [if_neg h4]
    by_cases h5 : c = 0x5c#8
    · subst h5; simp only [if_true, List.cons_append, List.nil_append]; rw [unescape.eq_def]; simp
    rw [if_neg h5]
    by_cases h6 : c = 0x22#8
    · subst h6; simp only [if_true, List.cons_append, List.nil_append]; rw [unescape.eq_def]; simp
    rw [if_neg h6, if_neg (by simp)]
    have hlt := c.isLt
    have d1 := digitValue_lo (c.toNat / 16) (by omega)
    have d2 := digitValue_lo (c.toNat % 16) (by omega)
    have e : hexText2 c = [loHex (c.toNat / 16), loHex (c.toNat % 16)] := rfl
    rw [e]
    simp only [List.cons_append, List.nil_append]
    have hc : BitVec.ofNat 8 (16 * (c.toNat / 16) + c.toNat % 16) = c := by
      apply BitVec.eq_of_toNat_eq
      rw [BitVec.toNat_ofNat]; omega
    rw [unescape.eq_def]
    simp [hexDigitVal, d1, d2, hc]

theorem unescape_escapeText (s : List Byte) : unescape (escapeText false s) = some s := by
  induction s with
  | nil => rfl
  | cons c cs ih =>
    have := unescape_one c (escapeText false cs)
    rw [ih] at this
    simpa [escapeText] using this

theorem escapeOne_printable : ∀ legacy : Bool, ∀ c : Byte,
    ∀ x ∈ (if isPlain c then [c] else escapeOne legacy c), 0x20 ≤ x.toNat ∧ x.toNat ≤ 0x7e := by
  intro legacy
  cases legacy <;> decide +kernel

theorem escapeText_printable (legacy : Bool) (s : List Byte) :
    ∀ x ∈ escapeText legacy s, 0x20 ≤ x.toNat ∧ x.toNat ≤ 0x7e := by
  intro x hx
  simp only [escapeText, List.mem_flatMap] at hx
  obtain ⟨c, _, hc⟩ := hx
  exact escapeOne_printable legacy c x hc

/-- **C18a.** The C-style escape function (`osmo_escape_str_buf3`,
`osmo_escape_cstr_buf`): for every input and every buffer size it behaves like
`snprintf` of one text `E` (bounded, NUL-terminated, returns the full length);
`E` has only printable ASCII characters, and reading its escapes back gives the
input - so it contains no unescaped quote or backslash. -/
theorem escape_cstr_safe (s : List Byte) :
    ∃ E, SnprintfLike (escapeStrBuf false s) E ∧
      (∀ x ∈ E, 0x20 ≤ x.toNat ∧ x.toNat ≤ 0x7e) ∧ unescape E = some s :=
  ⟨_, escapeStrBuf_like false s, escapeText_printable false s, unescape_escapeText s⟩

/-- **C18b.** The legacy variant (`osmo_escape_str_buf2`) is bounded and prints
only printable ASCII. -/
theorem escape_legacy_safe (s : List Byte) :
    ∃ E, SnprintfLike (escapeStrBuf true s) E ∧ (∀ x ∈ E, 0x20 ≤ x.toNat ∧ x.toNat ≤ 0x7e) ∧
      s.length ≤ E.length := by
  refine ⟨_, escapeStrBuf_like true s, escapeText_printable true s, ?_⟩
  induction s with
  | nil => simp
  | cons c cs ih =>
    have h1 : ∀ c : Byte, 1 ≤ (if isPlain c then [c] else escapeOne true c).length := by decide +kernel
    have := h1 c
    simp only [escapeText, List.flatMap_cons, List.length_append, List.length_cons] at ih ⊢
    omega

/-- **C18c.** Quoting encloses the escaped text in double quotes (or prints
`NULL`), with the same bounds; no truncated or complete output has a control
character. -/
theorem quote_cstr_safe (s : List Byte) :
    ∃ E, SnprintfLike (quoteStrBuf false (some s)) ([0x22#8] ++ E ++ [0x22#8]) ∧
      (∀ x ∈ E, 0x20 ≤ x.toNat ∧ x.toNat ≤ 0x7e) ∧ unescape E = some s :=
  ⟨_, quoteStrBuf_like false s, escapeText_printable false s, unescape_escapeText s⟩

theorem quote_null : SnprintfLike (quoteStrBuf false none) [0x4e#8, 0x55#8, 0x4c#8, 0x4c#8] := by
  intro win
  unfold quoteStrBuf
  obtain ⟨sb1, a1, a2, a3, a4⟩ :=
    appendWith_inv (snprintfText_like [0x4e#8, 0x55#8, 0x4c#8, 0x4c#8]) (SbInv.init win)
  simp only [a1, Option.map_some]
  rw [List.nil_append] at a2
  refine ⟨sb1.buf, by rw [a2.needed], a3, ?_⟩
  intro hne
  exact a2.content a4 (by
    have := List.length_pos_iff.2 hne
    rw [a3]; exact this)

/-- value of a string of digits in base `b` -/
def digitsValue (b : Nat) (ds : List Byte) : Nat :=
  ds.foldl (fun v d => b * v + (digitValue true d).getD 0) 0

/-- reader of a C string constant (C11 6.4.4.4): a hexadecimal escape takes all
following hexadecimal digits, an octal escape up to three octal digits; only
the escapes that occur are covered; the first argument bounds the recursion -/
def cRead : Nat → List Byte → Option (List Byte)
  | 0, _ => none
  | _ + 1, [] => some []
  | n + 1, c :: rest =>
    if c = 0x5c#8 then
      match rest with
      | [] => none
      | k :: r =>
        if k = 0x78#8 then
          let ds := r.takeWhile fun d => (digitValue true d).isSome
          (cRead n (r.drop ds.length)).map (BitVec.ofNat 8 (digitsValue 16 ds) :: ·)
        else
          let ds := ((k :: r).take 3).takeWhile fun d => 0x30 ≤ d.toNat ∧ d.toNat ≤ 0x37
          if ds = [] then none
          else (cRead n ((k :: r).drop ds.length)).map (BitVec.ofNat 8 (digitsValue 8 ds) :: ·)
    else (cRead n rest).map (c :: ·)

/-- **C18d** (false claim of the documentation): the output is not a C string
constant of the input: the text for the bytes 0x0f 'a' reads as the single byte
0xfa, the one for 0x00 '1' as the single byte 1. -/
theorem escape_c_syntax_counterexample :
    cRead 9 (escapeText false [0x0f, 0x61]) = some [0xfa] ∧
    cRead 9 (escapeText false [0x00, 0x31]) = some [0x01] ∧
    cRead 9 (escapeText false [0x0f, 0x6b]) = some [0x0f, 0x6b] := by decide +kernel

/-- **C18e** (legacy variant is ambiguous): different inputs print the same. -/
theorem escape_legacy_ambiguous_counterexample :
    escapeText true [0x01, 0x35] = escapeText true [0x0f] := by decide +kernel

example : escapeStrBuf false [0x61, 0x22, 0x01, 0x0a, 0xff, 0x62] (List.replicate 16 0xee) =
      some ([0x61, 0x5c, 0x22, 0x5c, 0x78, 0x30, 0x31, 0x5c, 0x6e, 0x5c, 0x78, 0x66, 0x66, 0x62, 0, 0xee], 14) ∧
    quoteStrBuf true (some [0x61, 0x07]) (List.replicate 4 0xee) = some ([0x22, 0x61, 0x5c, 0], 5) := by
  decide +kernel

end Verif.Utils
