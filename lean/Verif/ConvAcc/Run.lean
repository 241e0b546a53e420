import Verif.ConvAcc.Exec
/-!
The whole run of the decoder: sums, paths, and the bits found.
-/
namespace Verif.ConvAcc
open Verif.Conv

section
variable {k N : Nat} {o : Nat → List Bool} {init : Nat → Int}

/-- Sums after `i` steps: the best metrics up to a constant, within 16 bits. -/
structure Sums (k N : Nat) (o : Nat → List Bool) (init : Nat → Int) (intrvl i : Nat) (rs : List (List Int))
    (S : List Int) : Prop where
  len : S.length = 2 ^ (k + 1)
  rel : ∃ cst : Int, (∀ s, s < 2 ^ (k + 1) → S[rev k s]? = some (best k o init rs s + cst)) ∧
    (0 < i → ∀ s, s < 2 ^ (k + 1) → -(((k : Int) + 3) * (127 * N)) ≤ best k o init rs s + cst ∧
      best k o init rs s + cst ≤ ((k : Int) + 3 + ((i - 1) % intrvl : Nat)) * (127 * N)) ∧
    ∃ s, s < 2 ^ (k + 1) ∧ 0 ≤ best k o init rs s + cst

/-- the rows of paths, last one first, hold the choices -/
def RowsOk (k : Nat) (o : Nat → List Bool) (init : Nat → Int) : List (List Nat) → List (List Int) → Prop
  | [], [] => True
  | row :: rows, r :: rs =>
    (∀ s, s < 2 ^ (k + 1) → row.getD (rev k s) 0 = choice k o init r rs s) ∧ RowsOk k o init rows rs
  | _, _ => False

theorem best_up (M : Int) (r : List Int) (rs : List (List Int)) (hr : ∀ a, corr a r ≤ M) (B : Int)
    (h : ∀ s, s < 2 ^ (k + 1) → best k o init rs s ≤ B) (s : Nat) (hs : s < 2 ^ (k + 1)) :
    best k o init (r :: rs) s ≤ B + M := by
  rw [best_choice]
  have h1 := h _ (pred_lt k hs (choice_lt k o init r rs s))
  have h2 := hr (o (s + choice k o init r rs s * 2 ^ (k + 1)))
  omega

/-- what the decoder's arithmetic needs of the code -/
structure Fits (k N : Nat) (o : Nat → List Bool) (init : Nat → Int) (intrvl L : Nat) : Prop where
  kk : k = 3 ∨ k = 5
  hN : 2 ≤ N ∧ N ≤ 4
  gen : Gen k N o
  reach : ∃ w, Reach k o L w ∧ L ≤ intrvl ∧ 2 * w ≤ (k + 3) * N
  ival : intrvl = 32767 / (N * 127) - (k + 2)
  hinit : ∀ s, s < 2 ^ (k + 1) → 0 ≤ init s ∧ init s ≤ ((k : Int) + 2) * (127 * N)

theorem Sums.step {intrvl L i : Nat} {rs : List (List Int)} {S : List Int}
    (hf : Fits k N o init intrvl L) (hi : i = rs.length ∨ L + i ≤ rs.length) (hS : Sums k N o init intrvl i rs S)
    (outs : List (List Int)) (ho : ∀ s, s < 2 ^ (k + 1) → outs.getD (rev k s) [] = (o s).map sgn)
    (hrs : ∀ r ∈ rs, Within 127 r) (y : List Int) (hl : y.length = N) (hy : Within 127 y) :
    Sums k N o init intrvl (i + 1) (y :: rs) (pathMetrics (2 ^ (k + 1)) outs y S (i % intrvl == 0)).1 ∧
    ∀ s, s < 2 ^ (k + 1) → (pathMetrics (2 ^ (k + 1)) outs y S (i % intrvl == 0)).2.getD (rev k s) 0 =
      choice k o init y rs s := by
  obtain ⟨cst, hrel, hb, hmax⟩ := hS.rel
  obtain ⟨new, hnl, hnew, hq, hpath⟩ := step_spec hf.kk hf.hN.2 hf.gen outs S rs cst y hl hy ho
    (fun s hs => getD_of (hrel s hs)) (i % intrvl == 0)
  refine ⟨?_, hpath⟩
  have hint : 57 ≤ intrvl ∧ (k + 2 + intrvl) * (127 * N) ≤ 32767 := by
    have := hf.ival
    obtain ⟨h1, h2⟩ := hf.hN
    rcases hf.kk with rfl | rfl <;> interval_cases N <;> subst this <;> decide
  have hcorr : ∀ a, corr a y ≤ 127 * N := fun a => by
    have := (corr_bound (A := 127) (by omega) a y hy).1
    rwa [hl] at this
  have hmx := best_max (init := init) hf.gen y rs (-cst) (by obtain ⟨s, h1, h2⟩ := hmax; exact ⟨s, h1, by omega⟩)
  rw [hq]
  by_cases hz : i % intrvl = 0
  · -- normalization
    simp only [hz, beq_self_eq_true, if_true]
    obtain ⟨a, l, hal⟩ : ∃ a l, new = a :: l := by
      cases new with
      | nil => simp at hnl; have := Nat.two_pow_pos (k + 1); omega
      | cons a l => exact ⟨a, l, rfl⟩
    have hmem : new.tail.foldl (fun m x => if x < m then x else m) (new.headD 0) ∈ new := by
      have := mn_mem l a
      rw [hal]; simpa using this
    generalize new.tail.foldl (fun m x => if x < m then x else m) (new.headD 0) = mn at hmem ⊢
    obtain ⟨j, hj⟩ := List.mem_iff_getElem?.1 hmem
    have hjl : j < 2 ^ (k + 1) := by
      rw [← hnl]; exact (List.getElem?_eq_some_iff.1 hj).1
    have hs0 := rev_lt hf.kk j hjl
    have hmn : mn = i16 (best k o init (y :: rs) (rev k j) + cst) := by
      have := hnew (rev k j) hs0
      rw [rev_rev hf.kk j hjl, hj] at this
      simpa using this
    -- the spread
    have hspread : ∀ s s', s < 2 ^ (k + 1) → s' < 2 ^ (k + 1) →
        best k o init (y :: rs) s - best k o init (y :: rs) s' ≤ ((k : Int) + 3) * (127 * N) := by
      intro s s' hs hs'
      by_cases h0 : rs.length = 0
      · have hnil : rs = [] := List.eq_nil_of_length_eq_zero h0
        subst hnil
        have lo := best_min (init := init) hf.gen y [] 0 (fun s hs => (hf.hinit s hs).1) s' hs'
        have up := best_up (k := k) (o := o) (init := init) _ y [] hcorr _ (fun s hs => (hf.hinit s hs).2) s hs
        have e : ((k : Int) + 3) * (127 * N) = ((k : Int) + 2) * (127 * N) + 127 * N := by ring
        omega
      · obtain ⟨w, hR, hL, hw⟩ := hf.reach
        have hil : L ≤ rs.length := by
          rcases hi with hi | hi
          · have : intrvl ≤ i := Nat.le_of_dvd (by omega) (Nat.dvd_of_mod_eq_zero hz)
            omega
          · omega
        have := best_spread (init := init) hf.gen (A := 127) (by omega) hR (y :: rs)
          (by intro r hr; rcases List.mem_cons.1 hr with e | e
              · rw [e]; exact hy
              · exact hrs r e)
          (by simp only [List.length_cons]; omega) s s' hs hs'
        have e : ((k : Int) + 3) * (127 * N) = 127 * (((k + 3) * N : Nat) : Int) := by push_cast; ring
        have e2 : (2 * w : Int) ≤ (((k + 3) * N : Nat) : Int) := by exact_mod_cast hw
        rw [e]
        have e3 : 2 * (127 : Int) * w = 127 * (2 * w) := by ring
        omega
    have hB : ((k : Int) + 3) * (127 * N) ≤ 32767 := by
      have h2 : (k + 3) * (127 * N) ≤ (k + 2 + intrvl) * (127 * N) := Nat.mul_le_mul_right _ (by omega)
      have : ((k + 3) * (127 * N) : Nat) ≤ 32767 := by omega
      exact_mod_cast this
    refine ⟨by simp [hnl], -best k o init (y :: rs) (rev k j), ?_, ?_, rev k j, hs0, by omega⟩
    · intro s hs
      rw [List.getElem?_map, hnew s hs, hmn]
      simp only [Option.map_some, i16_sub]
      congr 1
      have a1 := hspread s (rev k j) hs hs0
      have a2 := hspread (rev k j) s hs0 hs
      rw [i16_id (by omega) (by omega)]
      omega
    · intro _ s hs
      have a1 := hspread s (rev k j) hs hs0
      have a2 := hspread (rev k j) s hs0 hs
      rw [show i + 1 - 1 = i by omega, hz]
      simp only [Nat.cast_zero, Int.add_zero]
      constructor <;> omega
  · have hi0 : 0 < i := by
      rcases Nat.eq_zero_or_pos i with e | e
      · rw [e] at hz; simp at hz
      · exact e
    have hm : i % intrvl = (i - 1) % intrvl + 1 := by
      have h1 := Nat.div_add_mod (i - 1) intrvl
      have h2 := Nat.mod_lt (i - 1) (show 0 < intrvl by omega)
      have h3 : i = intrvl * ((i - 1) / intrvl) + ((i - 1) % intrvl + 1) := by omega
      by_cases he : (i - 1) % intrvl + 1 = intrvl
      · exfalso
        apply hz
        rw [h3, he, ← Nat.mul_succ]
        exact Nat.mul_mod_right _ _
      · conv => lhs; rw [h3]
        rw [Nat.mul_add_mod, Nat.mod_eq_of_lt (by omega)]
    have hbi := hb hi0
    have lo : ∀ s, s < 2 ^ (k + 1) → -(((k : Int) + 3) * (127 * N)) ≤ best k o init (y :: rs) s + cst := by
      intro s hs
      have := best_min (init := init) hf.gen y rs (-(((k : Int) + 3) * (127 * N)) - cst)
        (fun s hs => by have := (hbi s hs).1; omega) s hs
      omega
    have up : ∀ s, s < 2 ^ (k + 1) → best k o init (y :: rs) s + cst ≤
        ((k : Int) + 3 + (i % intrvl : Nat)) * (127 * N) := by
      intro s hs
      have := best_up (k := k) (o := o) (init := init) _ y rs hcorr
        (((k : Int) + 3 + ((i - 1) % intrvl : Nat)) * (127 * N) - cst)
        (fun s hs => by have := (hbi s hs).2; omega) s hs
      have e : ((k : Int) + 3 + (i % intrvl : Nat)) * (127 * N) =
          ((k : Int) + 3 + ((i - 1) % intrvl : Nat)) * (127 * N) + 127 * N := by
        rw [hm]; push_cast; ring
      omega
    have hB : ((k : Int) + 3 + (i % intrvl : Nat)) * (127 * N) ≤ 32767 := by
      have h2 := Nat.mod_lt i (show 0 < intrvl by omega)
      have h3 : (k + 3 + i % intrvl) * (127 * N) ≤ (k + 2 + intrvl) * (127 * N) := Nat.mul_le_mul_right _ (by omega)
      have : ((k + 3 + i % intrvl) * (127 * N) : Nat) ≤ 32767 := by omega
      exact_mod_cast this
    have hB2 : ((k : Int) + 3) * (127 * N) ≤ 32767 := by
      have h3 : (k + 3) * (127 * N) ≤ (k + 2 + intrvl) * (127 * N) := Nat.mul_le_mul_right _ (by omega)
      have : ((k + 3) * (127 * N) : Nat) ≤ 32767 := by omega
      exact_mod_cast this
    have hzb : (i % intrvl == 0) = false := by simpa using hz
    simp only [hzb, Bool.false_eq_true, if_false]
    refine ⟨hnl, cst, ?_, ?_, ?_⟩
    · intro s hs
      have a1 := lo s hs
      have a2 := up s hs
      rw [hnew s hs, i16_id (by omega) (by omega)]
    · intro _ s hs
      rw [show i + 1 - 1 = i by omega]
      exact ⟨lo s hs, up s hs⟩
    · obtain ⟨s, h1, h2⟩ := hmx
      exact ⟨s, h1, by omega⟩

/-- `i` steps of this pass, and possibly an earlier one of at least `L` -/
theorem forward_spec {intrvl L : Nat} (hf : Fits k N o init intrvl L) (outs : List (List Int))
    (ho : ∀ s, s < 2 ^ (k + 1) → outs.getD (rev k s) [] = (o s).map sgn) :
    ∀ (ys : List (List Int)) (i : Nat) (rs : List (List Int)) (S : List Int) (rows : List (List Nat)),
      (i = rs.length ∨ L + i ≤ rs.length) →
      Sums k N o init intrvl i rs S → RowsOk k o init rows rs → (∀ r ∈ rs, Within 127 r) →
      (∀ y ∈ ys, y.length = N ∧ Within 127 y) →
      Sums k N o init intrvl (ys.length + i) (ys.reverse ++ rs)
        (forward (2 ^ (k + 1)) intrvl outs i ys S).1 ∧
      RowsOk k o init ((forward (2 ^ (k + 1)) intrvl outs i ys S).2.reverse ++ rows) (ys.reverse ++ rs) ∧
      (forward (2 ^ (k + 1)) intrvl outs i ys S).2.length = ys.length
  | [], i, rs, S, rows, _, h1, h2, _, _ => by simpa [forward] using ⟨h1, h2⟩
  | y :: ys, i, rs, S, rows, hi, h1, h2, h3, h4 => by
    have hy := h4 y (by simp)
    obtain ⟨a1, a2⟩ := Sums.step hf hi h1 outs ho h3 y hy.1 hy.2
    obtain ⟨b1, b2, b3⟩ := forward_spec hf outs ho ys (i + 1) (y :: rs) _
      ((pathMetrics (2 ^ (k + 1)) outs y S (i % intrvl == 0)).2 :: rows)
      (by simp only [List.length_cons]; omega) a1 ⟨a2, h2⟩
      (by intro r hr; rcases List.mem_cons.1 hr with e | e
          · rw [e]; exact hy.2
          · exact h3 r e)
      (fun z hz => h4 z (by simp [hz]))
    simp only [forward, List.reverse_cons, List.append_assoc, List.cons_append, List.nil_append, List.length_cons]
    exact ⟨by rw [show ys.length + 1 + i = ys.length + (i + 1) by omega]; exact b1, b2, by rw [b3]⟩

/-- the sums may be taken for those before the first step -/
theorem Sums.restart {intrvl i : Nat} {rs : List (List Int)} {S : List Int} (h : Sums k N o init intrvl i rs S) :
    Sums k N o init intrvl 0 rs S := by
  obtain ⟨cst, h1, _, h3⟩ := h.rel
  exact ⟨h.len, cst, h1, fun h0 => absurd h0 (by omega), h3⟩

/-! ### going back -/

/-- the state `m` steps before the end of the walk found -/
theorem back_spec (hk : k = 3 ∨ k = 5) : ∀ (rows : List (List Nat)) (rs rest : List (List Int)) (more : List (List Nat)) (s : Nat),
    s < 2 ^ (k + 1) → rows.length = rs.length → RowsOk k o init (rows ++ more) (rs ++ rest) →
    ∃ s', s' < 2 ^ (k + 1) ∧ back (k + 2) rows (rev k s) = rev k s' ∧
      tb k o init (rs ++ rest) s / 2 ^ rs.length = tb k o init rest s' ∧ RowsOk k o init more rest
  | [], [], rest, more, s, hs, _, h => ⟨s, hs, rfl, by simp, h⟩
  | [], _ :: _, _, _, _, _, h, _ => by simp at h
  | _ :: _, [], _, _, _, _, h, _ => by simp at h
  | row :: rows, r :: rs, rest, more, s, hs, hl, h => by
    obtain ⟨h1, h2⟩ := h
    have hc := choice_lt k o init r (rs ++ rest) s
    obtain ⟨s', a1, a2, a3, a4⟩ := back_spec hk rows rs rest more _ (pred_lt k hs hc) (by simpa using hl) h2
    refine ⟨s', a1, ?_, ?_, a4⟩
    · have h1' : row.getD (rev k s) 0 = choice k o init r (rs ++ rest) s := h1 s hs
      rw [back, h1', rev_shift hk s hs _ hc, a2]
    · rw [List.length_cons, Nat.pow_succ, Nat.mul_comm, ← Nat.div_div_eq_div_mul, List.cons_append, tb_half, a3]

/-- the input bits of a walk of `n` steps, first one first -/
def inBits (k : Nat) (fb : Nat → Bool) : Nat → Nat → List Bool
  | 0, _ => []
  | n + 1, X => inBits k fb n (X / 2) ++ [X.testBit 0 ^^ fb (X / 2 % 2 ^ (k + 1))]

theorem trace_spec (hk : k = 3 ∨ k = 5) (fb : Nat → Bool) (rec_ : Bool) (vals : List Nat)
    (hv : ∀ s, s < 2 ^ (k + 1) → vals.getD (rev k s) 0 = (s.testBit 0 ^^ fb (s / 2)).toNat)
    (hf : rec_ = false → ∀ s, fb s = false)
    (ht : rec_ = true → ∀ s, s < 2 ^ k → fb (s + 2 ^ k) = !fb s) :
    ∀ (rows : List (List Nat)) (rs rest : List (List Int)) (more : List (List Nat)) (s : Nat) (acc : List Bool),
    s < 2 ^ (k + 1) → rows.length = rs.length → RowsOk k o init (rows ++ more) (rs ++ rest) →
    trace (k + 2) rec_ vals rows (rev k s) acc = inBits k fb rs.length (tb k o init (rs ++ rest) s) ++ acc
  | [], [], _, _, s, acc, _, _, _ => rfl
  | [], _ :: _, _, _, _, _, _, h, _ => by simp at h
  | _ :: _, [], _, _, _, _, _, h, _ => by simp at h
  | row :: rows, r :: rs, rest, more, s, acc, hs, hl, h => by
    obtain ⟨h1, h2⟩ := h
    have hc := choice_lt k o init r (rs ++ rest) s
    have hp : (2 : Nat) ^ (k + 1) = 2 ^ k * 2 := by ring
    have hpred := pred_lt k hs hc
    rw [trace, List.length_cons, inBits, List.cons_append, tb_half, (tb_spec k o init (rs ++ rest) _ hpred).2.1]
    have h1' : row.getD (rev k s) 0 = choice k o init r (rs ++ rest) s := h1 s hs
    rw [h1', rev_shift hk s hs _ hc,
      trace_spec hk fb rec_ vals hv hf ht rows rs rest more _ _ hpred (by simpa using hl) h2, hv s hs,
      List.append_assoc]
    congr 1
    simp only [List.cons_append, List.nil_append, List.cons.injEq, and_true]
    have h0 : (tb k o init (r :: (rs ++ rest)) s).testBit 0 = s.testBit 0 := by
      rw [tb, Nat.testBit_zero, Nat.testBit_zero, Nat.mul_add_mod, Nat.mod_mod]
    rw [h0]
    cases hr : rec_ with
    | false =>
      simp only [Bool.false_eq_true, if_false]
      rw [hf hr, hf hr]
      cases s.testBit 0 <;> rfl
    | true =>
      simp only [if_true]
      have hc2 : choice k o init r (rs ++ rest) s = 0 ∨ choice k o init r (rs ++ rest) s = 1 := by omega
      rcases hc2 with e | e <;> rw [e]
      · simp only [Nat.zero_mul, Nat.add_zero]
        cases s.testBit 0 <;> cases fb (s / 2) <;> rfl
      · rw [Nat.one_mul, ht hr (s / 2) (by omega)]
        cases s.testBit 0 <;> cases fb (s / 2) <;> rfl

end
end Verif.ConvAcc
