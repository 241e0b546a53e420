import Verif.ConvAcc.Trellis
import Mathlib.Tactic.IntervalCases
/-!
The decoder computes the walks of `Trellis`: sums are the best metrics up to a
constant in spite of 16 bits, rows of paths are the choices, tables the code.
-/
namespace Verif.ConvAcc
open Verif.Conv

/-- number of a state in the arrays of the decoder: the bits of the register in
opposite order -/
def rev (k s : Nat) : Nat := bitswap s (k + 1)

/-- sign of a coded bit -/
def sgn (b : Bool) : Int := if b then -1 else 1

/-- The code is a shift register of `k + 1` bits with `o` for the output, given
the register and the bit shifted in; `fb` is the feedback.  A code with feedback
has its own termination, and one of the output bits is the input bit. -/
structure Reg (c : Code) (k : Nat) (o : Nat → List Bool) (fb : Nat → Bool) : Prop where
  hK : c.K = k + 2
  kk : k = 3 ∨ k = 5
  hN : 2 ≤ c.N ∧ c.N ≤ 4
  gen : Gen k c.N o
  next : ∀ s b, s < 2 ^ (k + 1) → c.nextState s b = (2 * s + (b ^^ fb s).toNat) % 2 ^ (k + 1)
  outlt : ∀ s b, s < 2 ^ (k + 1) → c.nextOutput s b < 2 ^ c.N
  out : ∀ s b, s < 2 ^ (k + 1) → symBits (c.nextOutput s b) c.N = o (2 * s + (b ^^ fb s).toNat)
  noterm : c.nextTerm = none → ∀ s, fb s = false
  term : ∀ t, c.nextTerm = some t →
    (∀ s, s < 2 ^ (k + 1) → symBits (t.1 s) c.N = o (2 * s) ∧ t.2 s = 2 * s % 2 ^ (k + 1)) ∧
    ∃ i, i < c.N ∧ ∀ s, s < 2 ^ (k + 1) → (c.nextOutput s false).testBit i = false

theorem rev_lt {k : Nat} (hk : k = 3 ∨ k = 5) : ∀ s, s < 2 ^ (k + 1) → rev k s < 2 ^ (k + 1) := by
  rcases hk with rfl | rfl <;> decide +kernel

theorem rev_rev {k : Nat} (hk : k = 3 ∨ k = 5) : ∀ s, s < 2 ^ (k + 1) → rev k (rev k s) = s := by
  rcases hk with rfl | rfl <;> decide +kernel

theorem rev_even {k : Nat} (hk : k = 3 ∨ k = 5) : ∀ s, s < 2 ^ (k + 1) → s % 2 = 0 →
    rev k s < 2 ^ k ∧ 2 * rev k s = rev k (s / 2) ∧ 2 * rev k s + 1 = rev k (s / 2 + 2 ^ k) ∧
      rev k (s + 1) = rev k s + 2 ^ k := by
  rcases hk with rfl | rfl <;> decide +kernel

theorem rev_shift {k : Nat} (hk : k = 3 ∨ k = 5) : ∀ s, s < 2 ^ (k + 1) → ∀ p, p < 2 →
    lshift (rev k s) (k + 2) p = rev k (s / 2 + p * 2 ^ k) := by
  rcases hk with rfl | rfl <;> decide +kernel

theorem rev_new {k : Nat} (hk : k = 3 ∨ k = 5) : ∀ s, s < 2 ^ (k + 1) → (rev k s >>> k) &&& 1 = s % 2 := by
  rcases hk with rfl | rfl <;> decide +kernel

theorem rev_zero {k : Nat} (hk : k = 3 ∨ k = 5) : rev k 0 = 0 := by
  rcases hk with rfl | rfl <;> decide

theorem numStates_eq {k : Nat} (hk : k = 3 ∨ k = 5) : numStates (k + 2) = 2 ^ (k + 1) := by
  rcases hk with rfl | rfl <;> decide

theorem nrz_swap {N : Nat} (hN : 2 ≤ N ∧ N ≤ 4) (v : Nat) (hv : v < 2 ^ N) :
    nrz N (bitswap v N) = (symBits v N).map sgn := by
  obtain ⟨h1, h2⟩ := hN
  interval_cases N
  · revert v; decide
  · revert v; decide
  · revert v; decide

theorem symBits_get (v : Nat) : ∀ N i, i < N → (symBits v N)[N - 1 - i]? = some (v.testBit i)
  | 0, _, h => by omega
  | N + 1, i, h => by
    rw [symBits]
    by_cases hi : i = N
    · subst hi; simp
    · rw [show N + 1 - 1 - i = (N - 1 - i) + 1 by omega, List.getElem?_cons_succ]
      exact symBits_get v N i (by omega)

section
variable {c : Code} {k : Nat} {o : Nat → List Bool} {fb : Nat → Bool} (h : Reg c k o fb)
include h

theorem gen_state (s : Nat) (hs : s < 2 ^ (k + 1)) (hn : c.nextTerm = none) :
    genStateInfo c (rev k s) = ((s.testBit 0 ^^ fb (s / 2)).toNat, (o s).map sgn) := by
  have hp : (2 : Nat) ^ (k + 1) = 2 ^ k * 2 := by ring
  have hs2 : s / 2 < 2 ^ (k + 1) := by omega
  unfold genStateInfo genOutput
  rw [h.hK, show k + 2 - 2 = k by omega, show k + 2 - 1 = k + 1 by omega, rev_new h.kk s hs,
    rev_shift h.kk s hs 0 (by omega), show s / 2 + 0 * 2 ^ k = s / 2 by omega]
  have : bitswap (rev k (s / 2)) (k + 1) = s / 2 := rev_rev h.kk _ hs2
  simp only [this]
  rw [nrz_swap h.hN _ (h.outlt _ _ hs2), h.out _ _ hs2, h.noterm hn, Nat.testBit_zero]
  rcases Nat.mod_two_eq_zero_or_one s with e | e <;> simp [e]
  · rw [show 2 * (s / 2) = s by omega]
  · rw [show 2 * (s / 2) + 1 = s by omega]

theorem fb_systematic {t : (Nat → Nat) × (Nat → Nat)} (ht : c.nextTerm = some t) {i : Nat} (hi : i < c.N)
    (hz : ∀ s, s < 2 ^ (k + 1) → (c.nextOutput s false).testBit i = false) (s : Nat) (hs : s < 2 ^ (k + 1)) :
    (t.1 s).testBit i = fb s ∧ fb (s ^^^ 2 ^ k) = !fb s := by
  have key : ∀ s, s < 2 ^ (k + 1) → (o (2 * s))[c.N - 1 - i]? = some (fb s) := by
    intro s hs
    have hw : 2 * s < 2 ^ (k + 2) := by rw [Nat.pow_succ 2 (k + 1)]; omega
    have h1 := symBits_get (c.nextOutput s false) c.N i hi
    rw [h.out s false hs, hz s hs] at h1
    cases hf : fb s with
    | false => rw [hf] at h1; simpa using h1
    | true =>
      rw [hf] at h1
      simp only [Bool.false_xor, Bool.toNat_true] at h1
      rw [← xor_low _ (by omega), h.gen.first _ hw, List.getElem?_map] at h1
      cases hq : (o (2 * s))[c.N - 1 - i]? with
      | none => rw [hq] at h1; simp at h1
      | some b => rw [hq] at h1; simp at h1; simp [h1]
  constructor
  · have h1 := symBits_get (t.1 s) c.N i hi
    rw [((h.term t ht).1 s hs).1, key s hs] at h1
    simpa using h1.symm
  · have hlt : s ^^^ 2 ^ k < 2 ^ (k + 1) := Nat.xor_lt_two_pow hs (by rw [Nat.pow_succ]; have := Nat.two_pow_pos k; omega)
    have h1 := key _ hlt
    have e : 2 * (s ^^^ 2 ^ k) = (2 * s) ^^^ 2 ^ (k + 1) := by
      have := Nat.shiftLeft_xor_distrib (a := s) (b := 2 ^ k) (i := 1)
      simp only [Nat.shiftLeft_eq, Nat.pow_one] at this
      rw [Nat.mul_comm, this, Nat.mul_comm s, Nat.pow_succ]
    rw [e, h.gen.last _ (by rw [Nat.pow_succ 2 (k + 1)]; omega), List.getElem?_map, key s hs] at h1
    simpa using h1.symm

theorem gen_rec_state (s : Nat) (hs : s < 2 ^ (k + 1)) (t) (ht : c.nextTerm = some t) :
    genRecursiveStateInfo c t.1 (rev k s) = some ((s.testBit 0 ^^ fb (s / 2)).toNat, (o s).map sgn) := by
  have hp : (2 : Nat) ^ (k + 1) = 2 ^ k * 2 := by ring
  have hs2 : s / 2 < 2 ^ (k + 1) := by omega
  have hfind : ∃ pos, findPos c = some pos ∧ pos < c.N ∧
      ∀ s, s < 2 ^ (k + 1) → (c.nextOutput s false).testBit pos = false := by
    have hbit : ∀ v i : Nat, (((v >>> i) &&& 1) == 0) = !v.testBit i := by
      intro v i
      rw [Nat.testBit, Nat.and_comm]
      rcases (by rw [Nat.one_and_eq_mod_two]; omega : 1 &&& (v >>> i) = 0 ∨ 1 &&& (v >>> i) = 1) with e | e <;> simp [e]
    obtain ⟨i, hi, hz⟩ := (h.term t ht).2
    have hex : ∃ x ∈ List.range c.N, ((List.range (numStates c.K)).all
        fun j => ((c.nextOutput j false >>> x) &&& 1) == 0) = true := by
      refine ⟨i, by simpa using hi, ?_⟩
      rw [h.hK, numStates_eq h.kk, List.all_eq_true]
      intro j hj
      rw [hbit, hz j (by simpa using hj)]; rfl
    cases hf : findPos c with
    | none =>
      unfold findPos at hf
      rw [List.find?_eq_none] at hf
      obtain ⟨x, hx, hall⟩ := hex
      exact absurd hall (by simpa using hf x hx)
    | some pos =>
      unfold findPos at hf
      have h1 := List.find?_some hf
      have h2 := List.mem_of_find?_eq_some hf
      refine ⟨pos, rfl, by simpa using h2, ?_⟩
      intro s hs
      rw [h.hK, numStates_eq h.kk, List.all_eq_true] at h1
      have := h1 s (by simpa using hs)
      rw [hbit] at this
      simpa using this
  obtain ⟨pos, hf, hpos, hz⟩ := hfind
  unfold genRecursiveStateInfo genRecursiveOutput
  rw [hf]
  simp only [Option.map_some]
  rw [h.hK, show k + 2 - 2 = k by omega, show k + 2 - 1 = k + 1 by omega, rev_new h.kk s hs,
    rev_shift h.kk s hs 0 (by omega), show s / 2 + 0 * 2 ^ k = s / 2 by omega]
  have hr : bitswap (rev k (s / 2)) (k + 1) = s / 2 := rev_rev h.kk _ hs2
  simp only [hr]
  have hb : (t.1 (s / 2) >>> pos) &&& 1 = (fb (s / 2)).toNat := by
    rw [← (fb_systematic h ht hpos hz _ hs2).1, Nat.testBit, Nat.and_comm]
    rcases (by rw [Nat.one_and_eq_mod_two]; omega : 1 &&& (t.1 (s / 2) >>> pos) = 0 ∨ 1 &&& (t.1 (s / 2) >>> pos) = 1)
      with e | e <;> simp [e]
  rw [hb]
  have hv : (if s % 2 = (fb (s / 2)).toNat then 0 else 1) = (s.testBit 0 ^^ fb (s / 2)).toNat := by
    rw [Nat.testBit_zero]
    rcases Nat.mod_two_eq_zero_or_one s with e | e <;> cases fb (s / 2) <;> simp [e]
  rw [hv, nrz_swap h.hN _ (h.outlt _ _ hs2), h.out _ _ hs2]
  have hx : 2 * (s / 2) + ((((s.testBit 0 ^^ fb (s / 2)).toNat == 1) ^^ fb (s / 2))).toNat = s := by
    rw [Nat.testBit_zero]
    rcases Nat.mod_two_eq_zero_or_one s with e | e <;> cases fb (s / 2) <;> simp [e] <;> omega
  rw [hx]

/-- the tables of the decoder -/
theorem trellis_spec : ∃ tr, genTrellis c = some tr ∧ tr.length = 2 ^ (k + 1) ∧
    ∀ s, s < 2 ^ (k + 1) → tr[rev k s]? = some ((s.testBit 0 ^^ fb (s / 2)).toNat, (o s).map sgn) := by
  unfold genTrellis
  cases ht : c.nextTerm with
  | none =>
    refine ⟨_, rfl, by rw [h.hK, numStates_eq h.kk]; simp, ?_⟩
    intro s hs
    rw [h.hK, numStates_eq h.kk, List.getElem?_map, List.getElem?_range (rev_lt h.kk s hs)]
    simp only [Option.map_some]
    rw [gen_state h s hs ht]
  | some t =>
    have hall : ∀ j, j < 2 ^ (k + 1) → genRecursiveStateInfo c t.1 j =
        some (((rev k j).testBit 0 ^^ fb (rev k j / 2)).toNat, (o (rev k j)).map sgn) := by
      intro j hj
      have := gen_rec_state h (rev k j) (rev_lt h.kk j hj) t ht
      rwa [rev_rev h.kk j hj] at this
    have hm : ∀ l : List Nat, (∀ j ∈ l, j < 2 ^ (k + 1)) → l.mapM (genRecursiveStateInfo c t.1) =
        some (l.map fun j => (((rev k j).testBit 0 ^^ fb (rev k j / 2)).toNat, (o (rev k j)).map sgn)) := by
      intro l
      induction l with
      | nil => intro _; rfl
      | cons a l ih =>
        intro hl
        rw [List.mapM_cons, hall a (hl a (by simp)), ih (fun j hj => hl j (by simp [hj]))]
        rfl
    refine ⟨_, hm _ (by rw [h.hK, numStates_eq h.kk]; simp), by rw [h.hK, numStates_eq h.kk]; simp, ?_⟩
    intro s hs
    rw [h.hK, numStates_eq h.kk, List.getElem?_map, List.getElem?_range (rev_lt h.kk s hs)]
    simp only [Option.map_some]
    rw [rev_rev h.kk s hs]

end

/-! ### sums -/

theorem i16_id {x : Int} (h1 : -32768 ≤ x) (h2 : x ≤ 32767) : i16 x = x := by unfold i16; omega

theorem i16_sub (x y : Int) : i16 (i16 x - i16 y) = i16 (x - y) := by unfold i16; omega

theorem sum_corr : ∀ (a : List Bool) (y : List Int),
    ((y.zip (a.map sgn)).map fun p => p.1 * p.2).sum = corr a y
  | [], y => by simp [corr]
  | _ :: _, [] => by simp [corr]
  | b :: a, v :: y => by
    simp only [List.map_cons, List.zip_cons_cons, List.sum_cons, corr, sum_corr a y]
    cases b <;> simp [sgn]

theorem branch_corr {N : Nat} (hN : N ≤ 4) (a : List Bool) (y : List Int) (hl : y.length = N) (hy : Within 127 y) :
    branch y (a.map sgn) = corr a y := by
  unfold branch
  rw [sum_corr]
  have := corr_bound (A := 127) (by omega) a y hy
  rw [hl] at this
  exact i16_id (by omega) (by omega)

theorem getD_of {α : Type} {l : List α} {i : Nat} {d x : α} (h : l[i]? = some x) : l.getD i d = x := by
  simp [List.getD, h]

theorem mn_mem (l : List Int) (a : Int) : l.foldl (fun m x => if x < m then x else m) a ∈ a :: l := by
  induction l generalizing a with
  | nil => simp
  | cons x l ih =>
    simp only [List.foldl_cons]
    have := ih (if x < a then x else a)
    generalize l.foldl _ _ = v at this ⊢
    simp only [List.mem_cons] at this ⊢
    split at this <;> tauto

section
variable {k N : Nat} {o : Nat → List Bool} {init : Nat → Int}

/-- one step, before normalization -/
theorem step_spec (hk : k = 3 ∨ k = 5) (hN : N ≤ 4) (hg : Gen k N o) (outs : List (List Int)) (S : List Int)
    (rs : List (List Int)) (cst : Int) (y : List Int) (hl : y.length = N) (hy : Within 127 y)
    (ho : ∀ s, s < 2 ^ (k + 1) → outs.getD (rev k s) [] = (o s).map sgn)
    (hS : ∀ s, s < 2 ^ (k + 1) → S.getD (rev k s) 0 = best k o init rs s + cst) (norm : Bool) :
    ∃ new : List Int, new.length = 2 ^ (k + 1) ∧
      (∀ s, s < 2 ^ (k + 1) → new[rev k s]? = some (i16 (best k o init (y :: rs) s + cst))) ∧
      (pathMetrics (2 ^ (k + 1)) outs y S norm).1 =
        (if norm then new.map fun x => i16 (x - new.tail.foldl (fun m x => if x < m then x else m) (new.headD 0)) else new) ∧
      ∀ s, s < 2 ^ (k + 1) → (pathMetrics (2 ^ (k + 1)) outs y S norm).2.getD (rev k s) 0 = choice k o init y rs s := by
  have hp : (2 : Nat) ^ (k + 1) = 2 ^ k * 2 := by ring
  have hhalf : 2 ^ (k + 1) / 2 = 2 ^ k := by omega
  obtain ⟨r, hr⟩ : ∃ r, r = (List.range (2 ^ k)).map fun i =>
    acs (branch y (outs.getD i [])) (S.getD (2 * i) 0) (S.getD (2 * i + 1) 0) := ⟨_, rfl⟩
  have hrl : r.length = 2 ^ k := by simp [hr]
  have he : ∀ s, s < 2 ^ (k + 1) → s % 2 = 0 → r[rev k s]? = some
      (acs (corr (o s) y) (best k o init rs (s / 2) + cst) (best k o init rs (s / 2 + 2 ^ k) + cst)) := by
    intro s hs hev
    obtain ⟨h1, h2, h3, h4⟩ := rev_even hk s hs hev
    simp only [hr, List.getElem?_map, List.getElem?_range h1, Option.map_some]
    rw [ho s hs, branch_corr hN _ _ hl hy, h3, h2, hS _ (by omega), hS _ (by omega)]
  have hlo : ∀ s, s < 2 ^ (k + 1) → s % 2 = 0 → corr (o (s + 2 ^ (k + 1))) y = - corr (o s) y := by
    intro s hs _
    rw [← xor_top hs, hg.last s (by rw [Nat.pow_succ 2 (k + 1)]; omega), corr_not]
  have hod : ∀ s, s < 2 ^ (k + 1) → s % 2 = 0 → corr (o (s + 1)) y = - corr (o s) y ∧
      corr (o (s + 1 + 2 ^ (k + 1))) y = corr (o s) y := by
    intro s hs hev
    have e1 : corr (o (s + 1)) y = - corr (o s) y := by
      rw [← xor_low s hev, hg.first s (by rw [Nat.pow_succ 2 (k + 1)]; omega), corr_not]
    refine ⟨e1, ?_⟩
    have : s + 1 < 2 ^ (k + 1) := by omega
    rw [← xor_top this, hg.last (s + 1) (by rw [Nat.pow_succ 2 (k + 1)]; omega), corr_not, e1]
    omega
  have key : ∀ s, s < 2 ^ (k + 1) →
      (r.map (·.1.1) ++ r.map (·.2.1))[rev k s]? = some (i16 (best k o init (y :: rs) s + cst)) ∧
      (r.map (·.1.2) ++ r.map (·.2.2))[rev k s]? = some (choice k o init y rs s) := by
    intro s hs
    rcases Nat.mod_two_eq_zero_or_one s with hev | hodd
    · have h1 := (rev_even hk s hs hev).1
      rw [List.getElem?_append_left (by simpa [hrl] using h1), List.getElem?_append_left (by simpa [hrl] using h1),
        List.getElem?_map, List.getElem?_map, he s hs hev]
      simp only [Option.map_some, acs, best, choice, hlo s hs hev]
      by_cases hc : best k o init rs (s / 2) + corr (o s) y ≥ best k o init rs (s / 2 + 2 ^ k) + -corr (o s) y
      · rw [if_pos (show _ ≥ _ by omega), if_pos hc, Int.max_eq_left hc]
        exact ⟨congrArg (fun z => some (i16 z)) (by omega), rfl⟩
      · rw [if_neg (show ¬ (_ ≥ _) by omega), if_neg hc, Int.max_eq_right (by omega)]
        exact ⟨congrArg (fun z => some (i16 z)) (by omega), rfl⟩
    · obtain ⟨u, rfl⟩ : ∃ u, s = u + 1 := ⟨s - 1, by omega⟩
      have hu : u < 2 ^ (k + 1) := by omega
      have hev : u % 2 = 0 := by omega
      obtain ⟨h1, _, _, h4⟩ := rev_even hk u hu hev
      rw [h4, List.getElem?_append_right (by simp [hrl]), List.getElem?_append_right (by simp [hrl])]
      simp only [List.length_map, hrl, Nat.add_sub_cancel]
      rw [List.getElem?_map, List.getElem?_map, he u hu hev]
      obtain ⟨o1, o2⟩ := hod u hu hev
      simp only [Option.map_some, acs, best, choice, o1, o2, show (u + 1) / 2 = u / 2 by omega]
      by_cases hc : best k o init rs (u / 2) + -corr (o u) y ≥ best k o init rs (u / 2 + 2 ^ k) + corr (o u) y
      · rw [if_pos (show _ ≥ _ by omega), if_pos hc, Int.max_eq_left hc]
        exact ⟨congrArg (fun z => some (i16 z)) (by omega), rfl⟩
      · rw [if_neg (show ¬ (_ ≥ _) by omega), if_neg hc, Int.max_eq_right (by omega)]
        exact ⟨congrArg (fun z => some (i16 z)) (by omega), rfl⟩
  refine ⟨r.map (·.1.1) ++ r.map (·.2.1), by simp [hrl]; omega, fun s hs => (key s hs).1, ?_, ?_⟩
  · unfold pathMetrics
    rw [hhalf]
    cases norm <;> simp [hr]
  · intro s hs
    have : (pathMetrics (2 ^ (k + 1)) outs y S norm).2 = r.map (·.1.2) ++ r.map (·.2.2) := by
      unfold pathMetrics
      rw [hhalf]
      cases norm <;> simp [hr]
    rw [this, getD_of (key s hs).2]

end
end Verif.ConvAcc
