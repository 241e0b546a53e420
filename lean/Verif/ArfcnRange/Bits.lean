import Verif.ArfcnRange.Model
import Mathlib.Tactic.Ring
/-!
The W values as a stream of bits: what `write_all_wn` writes and what the bit
fields of the structures read.
-/
namespace Verif.ArfcnRange

/-- Bit `p` of the message, the highest bit of the first octet is bit 0. -/
def bitAt (cl : List Byte) (p : Nat) : Bool := (cl.getD (p / 8) 0).getMsbD (p % 8)

/-- A number from its bits, highest first. -/
def natBE (acc : Nat) : List Bool → Nat
  | [] => acc
  | b :: bs => natBE (2 * acc + b.toNat) bs

theorem natBE_append (acc : Nat) (a b : List Bool) : natBE acc (a ++ b) = natBE (natBE acc a) b := by
  induction a generalizing acc with
  | nil => rfl
  | cons x a ih => exact ih _

theorem natBE_acc (acc : Nat) (l : List Bool) : natBE acc l = acc * 2 ^ l.length + natBE 0 l := by
  induction l generalizing acc with
  | nil => simp [natBE]
  | cons b l ih =>
    simp only [natBE, List.length_cons]
    rw [ih, ih (2 * 0 + b.toNat), Nat.pow_succ]
    ring

theorem natBE_testBit (x w : Nat) : natBE 0 ((List.range w).map (fun i => x.testBit (w - 1 - i))) = x % 2 ^ w := by
  induction w generalizing x with
  | zero => simp [natBE, Nat.mod_one]
  | succ w ih =>
    rw [List.range_succ, List.map_append, natBE_append]
    have h1 : (List.range w).map (fun i => x.testBit (w + 1 - 1 - i)) =
        (List.range w).map (fun i => (x / 2).testBit (w - 1 - i)) := by
      apply List.map_congr_left
      intro i hi
      rw [List.mem_range] at hi
      rw [show w + 1 - 1 - i = (w - 1 - i) + 1 by omega, Nat.testBit_succ]
    rw [h1, ih]
    simp only [List.map_cons, List.map_nil, natBE]
    rw [show w + 1 - 1 - w = 0 by omega, Nat.testBit_zero]
    have h2 : (decide (x % 2 = 1)).toNat = x % 2 := by
      rcases Nat.mod_two_eq_zero_or_one x with h | h <;> simp [h]
    rw [h2, Nat.pow_succ']
    have := Nat.mod_mul (x := x) (a := 2) (b := 2 ^ w)
    omega

/-! ### Reading -/

/-- The places of the bits of one bit field. -/
def pieceBits (p : Nat × Nat × Nat) : List Nat := (List.range p.2.2).map (fun i => 8 * p.1 + (8 - p.2.1 - p.2.2) + i)

theorem readPiece_bits (cd : List Byte) (p : Nat × Nat × Nat) (h : p.1 < cd.length) (hp : p.2.1 + p.2.2 ≤ 8) :
    readPiece cd p = some (natBE 0 ((pieceBits p).map (bitAt cd))) := by
  rw [readPiece, List.getElem?_eq_getElem h, Option.map_some, ← natBE_testBit]
  congr 2
  rw [pieceBits, List.map_map]
  apply List.map_congr_left
  intro i hi
  rw [List.mem_range] at hi
  simp only [Function.comp, bitAt]
  rw [show (8 * p.1 + (8 - p.2.1 - p.2.2) + i) / 8 = p.1 by omega,
    show (8 * p.1 + (8 - p.2.1 - p.2.2) + i) % 8 = 8 - p.2.1 - p.2.2 + i by omega,
    List.getD_eq_getElem?_getD, List.getElem?_eq_getElem h, Option.getD_some, Nat.testBit_shiftRight, BitVec.getMsbD]
  rw [show 8 - 1 - (8 - p.2.1 - p.2.2 + i) = p.2.1 + (p.2.2 - 1 - i) by omega]
  simp only [BitVec.getLsbD]
  rw [decide_eq_true (by omega : 8 - p.2.1 - p.2.2 + i < 8), Bool.true_and]

/-- Bit fields within octets of the message. -/
def PiecesOk (n : Nat) (ps : List (Nat × Nat × Nat)) : Bool := ps.all (fun p => decide (p.1 < n ∧ p.2.1 + p.2.2 ≤ 8))

theorem readField_bits (cd : List Byte) (ps : List (Nat × Nat × Nat)) (acc : Nat) (h : PiecesOk cd.length ps = true) :
    readField cd acc ps = some (natBE acc ((ps.flatMap pieceBits).map (bitAt cd))) := by
  induction ps generalizing acc with
  | nil => rfl
  | cons p ps ih =>
    simp only [PiecesOk, List.all_cons, Bool.and_eq_true, decide_eq_true_eq] at h ih
    simp only [readField]
    rw [readPiece_bits cd p h.1.1 h.1.2, Option.bind_some, ih _ h.2, List.flatMap_cons, List.map_append, natBE_append]
    congr 2
    rw [natBE_acc acc]
    have hlen : ((pieceBits p).map (bitAt cd)).length = p.2.2 := by simp [pieceBits]
    rw [hlen]
    have hlt : natBE 0 ((pieceBits p).map (bitAt cd)) < 2 ^ p.2.2 := by
      have := readPiece_bits cd p h.1.1 h.1.2
      rw [readPiece, List.getElem?_eq_getElem h.1.1, Option.map_some, Option.some.injEq] at this
      rw [← this]
      exact Nat.mod_lt _ (Nat.two_pow_pos _)
    rw [Nat.shiftLeft_eq, Nat.mul_comm, ← Nat.two_pow_add_eq_or_of_lt hlt]

/-- A field whose places are `l` consecutive bits that hold the number `v`. -/
theorem readField_value (cd : List Byte) (ps : List (Nat × Nat × Nat)) (o l v : Nat) (h : PiecesOk cd.length ps = true)
    (hb : ps.flatMap pieceBits = (List.range l).map (fun i => o + i))
    (hv : ∀ i, i < l → bitAt cd (o + i) = v.testBit (l - 1 - i)) (hlt : v < 2 ^ l) :
    readField cd 0 ps = some v := by
  rw [readField_bits cd ps 0 h, hb, List.map_map]
  have : (List.range l).map (bitAt cd ∘ fun i => o + i) = (List.range l).map (fun i => v.testBit (l - 1 - i)) := by
    apply List.map_congr_left
    intro i hi
    exact hv i (List.mem_range.1 hi)
  rw [this, natBE_testBit, Nat.mod_eq_of_lt hlt]

/-! ### Writing -/

theorem bitAt_set (cl : List Byte) (n : Nat) (b : Byte) (h : n < cl.length) (q : Nat) :
    bitAt (cl.set n b) q = if q / 8 = n then b.getMsbD (q % 8) else bitAt cl q := by
  simp only [bitAt, List.getD_eq_getElem?_getD]
  split
  · rename_i hq
    rw [hq, List.getElem?_set_self h, Option.getD_some]
  · rename_i hq
    rw [List.getElem?_set_ne (by omega)]

theorem splice_bit (b : Byte) (bo c slice i : Nat) (h : bo + c ≤ 8) (hs : slice < 2 ^ c) (hi : i < 8) :
    ((b &&& ~~~(BitVec.ofNat 8 ((2 ^ c - 1) <<< (8 - (bo + c))))) ||| BitVec.ofNat 8 (slice <<< (8 - (bo + c)))).getMsbD i =
      if bo ≤ i ∧ i < bo + c then slice.testBit (bo + c - 1 - i) else b.getMsbD i := by
  simp only [BitVec.getMsbD, BitVec.getLsbD_or, BitVec.getLsbD_and, BitVec.getLsbD_not, BitVec.getLsbD_ofNat,
    Nat.testBit_shiftLeft, Nat.testBit_two_pow_sub_one]
  have h1 : decide (8 - 1 - i < 8) = true := decide_eq_true (by omega)
  have h2 : decide (i < 8) = true := decide_eq_true hi
  rw [h1, h2]
  simp only [Bool.true_and]
  split
  · rename_i hc
    have h3 : decide (8 - 1 - i ≥ 8 - (bo + c)) = true := decide_eq_true (by omega)
    have h4 : decide (8 - 1 - i - (8 - (bo + c)) < c) = true := decide_eq_true (by omega)
    rw [h3, h4]
    simp only [Bool.and_true, Bool.not_true, Bool.and_false, Bool.false_or, Bool.true_and]
    rw [show 8 - 1 - i - (8 - (bo + c)) = bo + c - 1 - i by omega]
  · rename_i hc
    rcases Nat.lt_or_ge (8 - 1 - i) (8 - (bo + c)) with h5 | h5
    · have h3 : decide (8 - 1 - i ≥ 8 - (bo + c)) = false := decide_eq_false (by omega)
      rw [h3]; simp
    · have h3 : decide (8 - 1 - i ≥ 8 - (bo + c)) = true := decide_eq_true (by omega)
      have h4 : decide (8 - 1 - i - (8 - (bo + c)) < c) = false := decide_eq_false (by omega)
      have h6 : slice.testBit (8 - 1 - i - (8 - (bo + c))) = false :=
        Nat.testBit_lt_two_pow (Nat.lt_of_lt_of_le hs (Nat.pow_le_pow_right (by omega) (by omega)))
      rw [h3, h4, h6]; simp

theorem slice_eq (v n c : Nat) : (((v : Nat) : Int) >>> n % 2 ^ c).toNat = v / 2 ^ n % 2 ^ c := by
  rw [Int.shiftRight_eq_div_pow]
  norm_cast

theorem writeWk_bits (off v : Nat) (fuel : Nat) : ∀ (cl : List Byte) (octet bo left : Nat), left ≤ fuel → bo < 8 →
    8 * (off + octet) + bo + left ≤ 8 * cl.length →
    ∃ cl' octet' bo', writeWk off (v : Nat) fuel cl octet bo left = some (cl', octet', bo') ∧ bo' < 8 ∧
      8 * (off + octet') + bo' = 8 * (off + octet) + bo + left ∧ cl'.length = cl.length ∧
      ∀ q, bitAt cl' q = if 8 * (off + octet) + bo ≤ q ∧ q < 8 * (off + octet) + bo + left then
        v.testBit (8 * (off + octet) + bo + left - 1 - q) else bitAt cl q := by
  induction fuel with
  | zero =>
    intro cl octet bo left hl hbo hfit
    refine ⟨cl, octet, bo, rfl, hbo, by omega, rfl, ?_⟩
    intro q
    rw [if_neg (by omega)]
  | succ fuel ih =>
    intro cl octet bo left hl hbo hfit
    simp only [writeWk]
    by_cases h0 : left = 0
    · rw [if_pos h0]
      refine ⟨cl, octet, bo, rfl, hbo, by omega, rfl, ?_⟩
      intro q
      rw [if_neg (by omega)]
    · rw [if_neg h0]
      obtain ⟨c, hc⟩ : ∃ c, c = if 8 - bo > left then left else 8 - bo := ⟨_, rfl⟩
      rw [← hc]
      have hc1 : 0 < c := by split at hc <;> omega
      have hc2 : bo + c ≤ 8 := by split at hc <;> omega
      have hc3 : c ≤ left := by split at hc <;> omega
      have hc4 : c < left → bo + c = 8 := by split at hc <;> omega
      clear hc
      have hin : off + octet < cl.length := by omega
      rw [List.getElem?_eq_getElem hin]
      simp only []
      rw [slice_eq]
      obtain ⟨b', hb'⟩ : ∃ b', b' = ((cl[off + octet] &&& ~~~(BitVec.ofNat 8 ((2 ^ c - 1) <<< (8 - (bo + c))))) |||
        BitVec.ofNat 8 ((v / 2 ^ (left - c) % 2 ^ c) <<< (8 - (bo + c)))) := ⟨_, rfl⟩
      have hbits : ∀ i, i < 8 → b'.getMsbD i = if bo ≤ i ∧ i < bo + c then (v / 2 ^ (left - c) % 2 ^ c).testBit (bo + c - 1 - i)
          else (cl[off + octet]).getMsbD i := by
        intro i hi
        rw [hb']
        exact splice_bit _ bo c _ i hc2 (Nat.mod_lt _ (Nat.two_pow_pos c)) hi
      rw [← hb']
      have hset : ∀ q, bitAt (cl.set (off + octet) b') q =
          if 8 * (off + octet) + bo ≤ q ∧ q < 8 * (off + octet) + bo + c then
            v.testBit (8 * (off + octet) + bo + left - 1 - q) else bitAt cl q := by
        intro q
        rw [bitAt_set _ _ _ hin]
        split
        · rename_i hq
          rw [hbits _ (by omega)]
          by_cases hq2 : bo ≤ q % 8 ∧ q % 8 < bo + c
          · rw [if_pos hq2, if_pos (by omega), Nat.testBit_mod_two_pow, Nat.testBit_div_two_pow,
              decide_eq_true (by omega), Bool.true_and]
            congr 1
            omega
          · rw [if_neg hq2, if_neg (by omega)]
            simp only [bitAt, hq, List.getD_eq_getElem?_getD, List.getElem?_eq_getElem hin, Option.getD_some]
        · rw [if_neg (by omega)]
      by_cases h8 : bo + c = 8
      · rw [if_pos h8]
        obtain ⟨cl', octet', bo', hw, hb1, hb2, hlen, hq⟩ := ih (cl.set (off + octet) b') (octet + 1) 0 (left - c) (by omega)
          (by omega) (by rw [List.length_set]; omega)
        refine ⟨cl', octet', bo', hw, hb1, by omega, by rw [hlen, List.length_set], ?_⟩
        intro q
        rw [hq q, hset q]
        by_cases hx : 8 * (off + octet) + bo ≤ q ∧ q < 8 * (off + octet) + bo + left
        · rw [if_pos hx]
          by_cases hy : q < 8 * (off + octet) + bo + c
          · rw [if_neg (by omega), if_pos (by omega)]
          · rw [if_pos (by omega)]
            congr 1; omega
        · rw [if_neg hx, if_neg (by omega), if_neg (by omega)]
      · rw [if_neg h8]
        have hcl : c = left := by omega
        subst hcl
        obtain ⟨cl', octet', bo', hw, hb1, hb2, hlen, hq⟩ := ih (cl.set (off + octet) b') octet (bo + c) (c - c) (by omega)
          (by omega) (by rw [List.length_set]; omega)
        refine ⟨cl', octet', bo', hw, hb1, by omega, by rw [hlen, List.length_set], ?_⟩
        intro q
        rw [hq q, hset q, if_neg (by omega)]

/-- The places (first bit, length) of the fields: W(2^i) to W(2^(i+1)-1) have
the length of W(1) less i; `left` are left in the generation `level`. -/
def layout : Nat → Nat → Nat → Nat → Nat → List (Nat × Nat)
  | 0, _, _, _, _ => []
  | n + 1, p, len, level, left =>
    (p, len) :: (if left - 1 = 0 then layout n (p + len) (len - 1) (level + 1) (2 ^ (level + 1))
      else layout n (p + len) len level (left - 1))

/-- The number of bits in a layout. -/
def total (l : List (Nat × Nat)) : Nat := (l.map (fun x => x.2)).sum

theorem layout_ge (n p len level left : Nat) : ∀ x ∈ layout n p len level left, p ≤ x.1 := by
  induction n generalizing p len level left with
  | zero => simp [layout]
  | succ n ih =>
    intro x hx
    simp only [layout, List.mem_cons] at hx
    rcases hx with rfl | hx
    · exact Nat.le_refl p
    · split at hx
      · have := ih _ _ _ _ x hx; omega
      · have := ih _ _ _ _ x hx; omega

theorem writeAllWn_bits (off : Nat) (n : Nat) : ∀ (w : List Nat) (cl : List Byte) (octet bo len level left : Nat),
    n ≤ w.length → bo < 8 →
    8 * (off + octet) + bo + total (layout n (8 * (off + octet) + bo) len level left) ≤ 8 * cl.length →
    ∃ cl', writeAllWn off n (w.map (fun v => ((v : Nat) : Int))) cl octet bo len level left = some cl' ∧ cl'.length = cl.length ∧
      (∀ q, q < 8 * (off + octet) + bo → bitAt cl' q = bitAt cl q) ∧
      ∀ (i v : Nat) (x : Nat × Nat), w[i]? = some v → (layout n (8 * (off + octet) + bo) len level left)[i]? = some x →
        ∀ j, j < x.2 → bitAt cl' (x.1 + j) = v.testBit (x.2 - 1 - j) := by
  induction n with
  | zero =>
    intro w cl octet bo len level left _ _ _
    refine ⟨cl, by cases w <;> rfl, rfl, fun _ _ => rfl, ?_⟩
    intro i v x _ hx
    simp [layout] at hx
  | succ n ih =>
    intro w cl octet bo len level left hw hbo hfit
    rcases w with _ | ⟨v, w⟩
    · simp at hw
    · simp only [List.map_cons, writeAllWn]
      have hfit1 : 8 * (off + octet) + bo + len ≤ 8 * cl.length := by
        simp only [layout, total, List.map_cons, List.sum_cons] at hfit; omega
      obtain ⟨cl1, octet1, bo1, h1, h2, h3, h4, h5⟩ := writeWk_bits off v len cl octet bo len (Nat.le_refl _) hbo hfit1
      rw [h1]
      simp only []
      have key : ∀ len' level' left', layout (n + 1) (8 * (off + octet) + bo) len level left =
          (8 * (off + octet) + bo, len) :: layout n (8 * (off + octet) + bo + len) len' level' left' →
          ∃ cl', writeAllWn off n (w.map (fun v => ((v : Nat) : Int))) cl1 octet1 bo1 len' level' left' = some cl' ∧
            cl'.length = cl.length ∧
            (∀ q, q < 8 * (off + octet) + bo → bitAt cl' q = bitAt cl q) ∧
            ∀ (i u : Nat) (x : Nat × Nat), (v :: w)[i]? = some u → (layout (n + 1) (8 * (off + octet) + bo) len level left)[i]? = some x →
              ∀ j, j < x.2 → bitAt cl' (x.1 + j) = u.testBit (x.2 - 1 - j) := by
        intro len' level' left' hlay
        rw [hlay] at hfit ⊢
        simp only [total, List.map_cons, List.sum_cons] at hfit
        obtain ⟨cl', g1, g2, g3, g4⟩ := ih w cl1 octet1 bo1 len' level' left' (by simpa using hw) h2
          (by rw [h3, h4]; simp only [total]; omega)
        refine ⟨cl', g1, by rw [g2, h4], ?_, ?_⟩
        · intro q hq
          rw [g3 q (by omega), h5 q, if_neg (by omega)]
        · intro i u x hu hx j hj
          rcases i with _ | i
          · simp only [List.getElem?_cons_zero, Option.some.injEq] at hu hx
            subst hu; subst hx
            simp only [] at hj ⊢
            rw [g3 _ (by omega), h5, if_pos (by omega)]
            congr 1; omega
          · simp only [List.getElem?_cons_succ] at hu hx
            rw [h3] at g4
            exact g4 i u x hu hx j hj
      by_cases hc : left - 1 = 0
      · rw [if_pos hc]
        apply key
        simp only [layout]; rw [if_pos hc]
      · rw [if_neg hc]
        apply key
        simp only [layout]; rw [if_neg hc]

end Verif.ArfcnRange
