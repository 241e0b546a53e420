import Verif.ArfcnRange.Bits
import Verif.ArfcnRange.Enc
import Mathlib.Tactic.IntervalCases
/-!
The tables of the decoder against the layout of the format, and reading back
what was written.
-/
namespace Verif.ArfcnRange

/-- Every `w[k]` of the decoder is read from the bits the format has for it, has
the length for its generation, and is put through the nested `smod` on the way
from the root of the tree. -/
def TableOk (ns : List Node) (e p : Nat) : Bool :=
  (ns.zipIdx.zip (layout ns.length p e 0 1)).all (fun x =>
    decide (x.1.1.minLen ≤ 16) && PiecesOk 16 x.1.1.pieces &&
    decide (x.1.1.pieces.flatMap pieceBits = (List.range x.2.2).map (fun i => x.2.1 + i)) &&
    decide (x.2.2 = e - Nat.log2 (x.1.2 + 1)) &&
    decide (x.1.1.path = pathTo 29 1 0 (2 ^ e - 1) (x.1.2 + 1))) &&
  decide (p + total (layout ns.length p e 0 1) ≤ 128)

theorem nodes1024_ok : TableOk nodes1024 10 6 = true := by decide +kernel
theorem nodes512_ok : TableOk nodes512 9 17 = true := by decide +kernel
theorem nodes256_ok : TableOk nodes256 8 17 = true := by decide +kernel
theorem nodes128_ok : TableOk nodes128 7 17 = true := by decide +kernel

theorem layout_length (n p len level left : Nat) : (layout n p len level left).length = n := by
  induction n generalizing p len level left with
  | zero => rfl
  | succ n ih =>
    simp only [layout, List.length_cons]
    split <;> rw [ih]

theorem tableOk_at {ns : List Node} {e p : Nat} (h : TableOk ns e p = true) (i : Nat) (n : Node) (hn : ns[i]? = some n) :
    ∃ o, (layout ns.length p e 0 1)[i]? = some (o, e - Nat.log2 (i + 1)) ∧ n.minLen ≤ 16 ∧ PiecesOk 16 n.pieces = true ∧
      n.pieces.flatMap pieceBits = (List.range (e - Nat.log2 (i + 1))).map (fun i => o + i) ∧
      n.path = pathTo 29 1 0 (2 ^ e - 1) (i + 1) := by
  simp only [TableOk, Bool.and_eq_true, List.all_eq_true, decide_eq_true_eq] at h
  have hi : i < ns.length := (List.getElem?_eq_some_iff.1 hn).1
  have hl : i < (layout ns.length p e 0 1).length := by rw [layout_length]; exact hi
  obtain ⟨x, hx⟩ : ∃ x, (layout ns.length p e 0 1)[i]? = some x := ⟨_, List.getElem?_eq_getElem hl⟩
  have hmem : ((n, i), x) ∈ ns.zipIdx.zip (layout ns.length p e 0 1) := by
    apply List.mem_of_getElem? (i := i)
    rw [List.getElem?_zip_eq_some]
    exact ⟨by rw [List.getElem?_zipIdx, hn]; simp, hx⟩
  obtain ⟨⟨⟨⟨h1, h2⟩, h3⟩, h4⟩, h5⟩ := h.1 _ hmem
  simp only [] at h1 h2 h3 h4 h5
  refine ⟨x.1, ?_, h1, h2, ?_, h5⟩
  · rw [hx, ← h4]
  · rw [← h4]; exact h3

theorem piecesOk_mono {n m : Nat} {ps : List (Nat × Nat × Nat)} (h : PiecesOk n ps = true) (hnm : n ≤ m) : PiecesOk m ps = true := by
  simp only [PiecesOk, List.all_eq_true, decide_eq_true_eq] at h ⊢
  intro x hx
  have := h x hx
  omega

theorem readNodes_eq (cd : List Byte) (len : Nat) (ns : List Node) (W : List Nat) (hl : ns.length = W.length)
    (h : ∀ (i : Nat) (n : Node) (v : Nat), ns[i]? = some n → W[i]? = some v → readNode cd len n = some v) : readNodes cd len ns = some W := by
  induction ns generalizing W with
  | nil => rcases W with _ | ⟨v, W⟩ <;> simp at hl; rfl
  | cons n ns ih =>
    rcases W with _ | ⟨v, W⟩
    · simp at hl
    · simp only [readNodes]
      rw [h 0 n v (by simp) (by simp), Option.bind_some, ih W (by simpa using hl), Option.map_some]
      intro i n' v' h1 h2
      exact h (i + 1) n' v' (by simpa using h1) (by simpa using h2)

/-- Reading the message gives the numbers that were written. -/
theorem readNodes_written {ns : List Node} {e off bo : Nat} (h : TableOk ns e (8 * off + bo) = true) (hbo : bo < 8) (W : List Nat)
    (cl : List Byte) (hcl : 16 ≤ cl.length) (hw : ns.length ≤ W.length)
    (hsmall : ∀ i v, i < ns.length → W[i]? = some v → v < 2 ^ (e - Nat.log2 (i + 1))) :
    ∃ cl', writeAllWn off ns.length (W.map (fun v => ((v : Nat) : Int))) cl 0 bo e 0 1 = some cl' ∧ cl'.length = cl.length ∧
      (∀ q, q < 8 * off + bo → bitAt cl' q = bitAt cl q) ∧ readNodes cl' 16 ns = some (W.take ns.length) := by
  have htot : 8 * off + bo + total (layout ns.length (8 * off + bo) e 0 1) ≤ 128 := by
    simp only [TableOk, Bool.and_eq_true, decide_eq_true_eq] at h
    exact h.2
  obtain ⟨cl', h1, h2, h3, h4⟩ := writeAllWn_bits off ns.length W cl 0 bo e 0 1 hw hbo (by simp only [Nat.add_zero]; omega)
  refine ⟨cl', h1, h2, h3, ?_⟩
  apply readNodes_eq
  · rw [List.length_take]; omega
  · intro i n v hn hv
    have hi : i < ns.length := (List.getElem?_eq_some_iff.1 hn).1
    rw [List.getElem?_take, if_pos hi] at hv
    obtain ⟨o, g1, g2, g3, g4, _⟩ := tableOk_at h i n hn
    rw [readNode, if_pos g2]
    exact readField_value cl' n.pieces o _ v (piecesOk_mono g3 (by omega)) g4 (h4 i v _ hv g1) (hsmall i v hi hv)

theorem nodeValues_mem {ns : List Node} {e p : Nat} (h : TableOk ns e p = true) (W : List Nat) (hw : W.length = ns.length) (v : Int) :
    v ∈ nodeValues W ns ↔ ∃ j, 1 ≤ j ∧ j ≤ ns.length ∧ W.getD (j - 1) 0 ≠ 0 ∧
      v = valueAt 29 (fun i => ((W.getD (i - 1) 0 : Nat) : Int)) 1 0 (2 ^ e - 1) j := by
  simp only [nodeValues, List.mem_filterMap]
  constructor
  · rintro ⟨⟨n, x⟩, hm, hx⟩
    simp only [] at hx
    obtain ⟨i, hi⟩ := List.getElem?_of_mem hm
    rw [List.getElem?_zip_eq_some] at hi
    obtain ⟨hn, hxx⟩ := hi
    simp only [] at hn hxx
    have hl : i < ns.length := (List.getElem?_eq_some_iff.1 hn).1
    obtain ⟨_, _, _, _, _, hp⟩ := tableOk_at h i n hn
    have hg : W.getD (i + 1 - 1) 0 = x := by
      rw [Nat.add_sub_cancel, List.getD_eq_getElem?_getD, hxx]; rfl
    split at hx
    · rename_i hne
      refine ⟨i + 1, by omega, by omega, by rw [hg]; exact hne, ?_⟩
      rw [← applyPath_pathTo, hg, ← hp]
      simpa using hx.symm
    · simp at hx
  · rintro ⟨j, h1, h2, h3, h4⟩
    obtain ⟨i, rfl⟩ : ∃ i, j = i + 1 := ⟨j - 1, by omega⟩
    have hn : ns[i]? = some ns[i] := List.getElem?_eq_getElem (by omega)
    obtain ⟨_, _, _, _, _, hp⟩ := tableOk_at h i _ hn
    have hW : W[i]? = some W[i] := List.getElem?_eq_getElem (by omega)
    have hg : W.getD (i + 1 - 1) 0 = W[i] := by
      rw [Nat.add_sub_cancel, List.getD_eq_getElem?_getD, hW]; rfl
    refine ⟨(ns[i], W[i]), List.mem_of_getElem? (i := i) (by rw [List.getElem?_zip_eq_some]; exact ⟨hn, hW⟩), ?_⟩
    rw [hg] at h3
    simp only []
    rw [if_pos h3, h4, ← applyPath_pathTo, hg, ← hp]

theorem inTree_root (m j : Nat) : InTree 1 0 m j ↔ 1 ≤ j ∧ j ≤ m := by
  constructor
  · rintro ⟨q, h1, h2⟩
    simp only [Nat.pow_zero, Nat.one_mul] at h2
    omega
  · rintro ⟨h1, h2⟩
    exact ⟨j - 1, by omega, by simp only [Nat.pow_zero, Nat.one_mul]; omega⟩

/-- Encoding a list of distinct numbers into zeroed W values, writing these and
reading them again: the values are the numbers plus one. -/
theorem encode_read {ns : List Node} {e off bo : Nat} (h : TableOk ns e (8 * off + bo) = true) (hbo : bo < 8) (l : List Int)
    (hnd : l.Nodup) (hr : ∀ x ∈ l, 0 ≤ x ∧ x < ((2 ^ e - 1 : Nat) : Int)) (hlen : l.length ≤ ns.length) (hns : ns.length ≤ 29)
    (cl : List Byte) (hcl : 16 ≤ cl.length) :
    ∃ w, encArfcns l.length (2 ^ e - 1) l (List.replicate 29 0) 0 = some (0, w) ∧
      ∃ cl' W, writeAllWn off ns.length w cl 0 bo e 0 1 = some cl' ∧ cl'.length = cl.length ∧
        (∀ q, q < 8 * off + bo → bitAt cl' q = bitAt cl q) ∧ readNodes cl' 16 ns = some W ∧
        ∀ v, v ∈ nodeValues W ns ↔ v - 1 ∈ l := by
  obtain ⟨w, hw, hE⟩ := encArfcns_encoded l.length 29 e 0 1 l (List.replicate 29 0) (Nat.le_refl _) (by omega) hnd hr
    (by simp) (by simp) (fun j hj => by rw [inTree_root] at hj; rw [List.length_replicate]; omega)
  have hwl : w.length = 29 := by rw [hE.len, List.length_replicate]
  have hzero : ∀ j, 0 < j → ¬ j ≤ l.length → at1 w j = 0 := by
    intro j hj hjl
    rw [hE.keep j hj (by rw [inTree_root]; omega)]
    simp only [at1, List.getD_eq_getElem?_getD, List.getElem?_replicate]
    split <;> rfl
  have hnn : ∀ x ∈ w, 0 ≤ x := by
    intro x hx
    obtain ⟨i, hi⟩ := List.getElem?_of_mem hx
    have hx1 : at1 w (i + 1) = x := by simp [at1, hi]
    by_cases hil : i + 1 ≤ l.length
    · have := hE.pos (i + 1) (by rw [inTree_root]; omega); omega
    · have := hzero (i + 1) (by omega) hil; omega
  obtain ⟨W, hWdef⟩ : ∃ W, W = w.map Int.toNat := ⟨_, rfl⟩
  have hWw : W.map (fun v => ((v : Nat) : Int)) = w := by
    rw [hWdef, List.map_map]
    conv => rhs; rw [← List.map_id w]
    apply List.map_congr_left
    intro x hx
    simp only [Function.comp, id]
    exact Int.toNat_of_nonneg (hnn x hx)
  have hWl : W.length = 29 := by rw [hWdef, List.length_map, hwl]
  have hWat : ∀ j, 0 < j → ((W.getD (j - 1) 0 : Nat) : Int) = at1 w j := by
    intro j hj
    rw [← hWw]
    simp only [at1, List.getD_eq_getElem?_getD, List.getElem?_map]
    rcases W[j - 1]? with _ | v <;> rfl
  obtain ⟨cl', h1, h2, h3, h4⟩ := readNodes_written h hbo W cl hcl (by omega) (by
    intro i v hi hv
    have hg : W.getD (i + 1 - 1) 0 = v := by rw [Nat.add_sub_cancel, List.getD_eq_getElem?_getD, hv]; rfl
    have hat := hWat (i + 1) (by omega)
    rw [hg] at hat
    by_cases hil : i + 1 ≤ l.length
    · have := hE.small (i + 1) (Nat.log2 (i + 1)) (by rw [inTree_root]; omega) (Nat.log2_self_le (by omega)) Nat.lt_log2_self
      rw [Nat.add_zero, ← hat] at this
      exact_mod_cast this
    · have := hzero (i + 1) (by omega) hil
      have : v = 0 := by omega
      rw [this]; exact Nat.two_pow_pos _)
  rw [hWw] at h1
  refine ⟨w, hw, cl', W.take ns.length, h1, h2, h3, h4, ?_⟩
  intro v
  rw [nodeValues_mem h _ (by rw [List.length_take]; omega)]
  have hfun : ∀ j, ((((W.take ns.length).getD (j - 1) 0 : Nat)) : Int) = at1 w (if j = 0 then 1 else j) := by
    intro j
    have hj : (j - 1) = (if j = 0 then 1 else j) - 1 := by split <;> omega
    rw [hj]
    have hpos : 0 < if j = 0 then 1 else j := by split <;> omega
    generalize (if j = 0 then 1 else j) = j at *
    by_cases hlt : j - 1 < ns.length
    · rw [← hWat j hpos, List.getD_eq_getElem?_getD, List.getD_eq_getElem?_getD, List.getElem?_take, if_pos hlt]
    · rw [hzero j hpos (by omega), List.getD_eq_getElem?_getD, List.getElem?_take, if_neg hlt]; rfl
  have hval : ∀ j, 1 ≤ j → valueAt 29 (fun i => ((((W.take ns.length).getD (i - 1) 0 : Nat)) : Int)) 1 0 (2 ^ e - 1) j =
      valueAt 29 (at1 w) 1 0 (2 ^ e - 1) j := by
    intro j hj
    apply valueAt_congr
    · intro i hi _
      rw [hfun, if_neg (by omega)]
    · exact hj
    · simp [Nat.mod_one]
  constructor
  · rintro ⟨j, g1, g2, g3, g4⟩
    have hjl : j ≤ l.length := by
      by_contra hcon
      have g5 := hfun j
      rw [if_neg (by omega), hzero j (by omega) hcon] at g5
      omega
    obtain ⟨x, hx, hxv⟩ := hE.sound j (by rw [inTree_root]; omega)
    rw [hval j g1, hxv] at g4
    rw [g4, show 1 + x - 1 = x by omega]
    exact hx
  · intro hv
    obtain ⟨j, hj, hjv⟩ := hE.complete _ hv
    have hp := hE.pos j hj
    rw [inTree_root] at hj
    refine ⟨j, hj.1, by omega, ?_, ?_⟩
    · have g5 := hfun j
      rw [if_neg (by omega)] at g5
      omega
    · rw [hval j hj.1, hjv]; omega

end Verif.ArfcnRange
