import Verif.ArfcnRange.Model
import Mathlib.Tactic.Linarith
import Mathlib.Tactic.Ring
import Mathlib.Tactic.ByContra
/-!
For distinct frequencies below an odd range there always is an index at which
`osmo_gsm48_range_enc_find_index` splits the list.
-/
namespace Verif.ArfcnRange

theorem mod_eq (x : Int) (R : Nat) (h : 0 < R) : mod x R = x % (R : Int) := by
  simp only [mod]
  have hR : (0 : Int) < R := by omega
  rcases Int.lt_or_le x 0 with hx | hx
  · have h1 := Int.emod_add_mul_ediv x R
    have h2 := Int.tmod_add_mul_tdiv x R
    have h3 := Int.emod_nonneg x (Int.ne_of_gt hR)
    have h4 := Int.emod_lt_of_pos x hR
    have h5 : x.tmod R = -((-x) % (R : Int)) := by
      rw [← Int.tmod_eq_emod_of_nonneg (by omega : 0 ≤ -x), Int.neg_tmod, Int.neg_neg]
    have h6 := Int.emod_nonneg (-x) (Int.ne_of_gt hR)
    have h7 := Int.emod_lt_of_pos (-x) hR
    have h8 : (x % (R : Int) - (-((-x) % (R : Int)))) % (R : Int) = 0 := by
      rw [Int.sub_neg, ← Int.add_emod]
      simp
    obtain ⟨c, hc⟩ := Int.dvd_of_emod_eq_zero h8
    rw [h5]
    split <;> rename_i hs
    · have : 0 < c := by
        by_contra hcon
        have : (R : Int) * c ≤ 0 := Int.mul_nonpos_of_nonneg_of_nonpos (by omega) (by omega)
        omega
      have : c < 2 := by
        by_contra hcon
        have : (R : Int) * 2 ≤ R * c := Int.mul_le_mul_of_nonneg_left (by omega) (by omega)
        omega
      have : c = 1 := by omega
      subst this
      omega
    · have h9 : (-x) % (R : Int) = 0 := by omega
      have : c < 1 := by
        by_contra hcon
        have : (R : Int) * 1 ≤ R * c := Int.mul_le_mul_of_nonneg_left (by omega) (by omega)
        omega
      have : 0 ≤ c := by
        by_contra hcon
        have : (R : Int) * c ≤ R * (-1) := Int.mul_le_mul_of_nonneg_left (by omega) (by omega)
        omega
      have : c = 0 := by omega
      subst this
      omega
  · rw [Int.tmod_eq_emod_of_nonneg hx]
    have := Int.emod_nonneg x (Int.ne_of_gt hR)
    rw [if_neg (by omega)]

theorem mod_nonneg (x : Int) (R : Nat) (h : 0 < R) : 0 ≤ mod x R := by
  rw [mod_eq x R h]; exact Int.emod_nonneg x (by omega)

theorem mod_lt (x : Int) (R : Nat) (h : 0 < R) : mod x R < R := by
  rw [mod_eq x R h]; exact Int.emod_lt_of_pos x (by omega)

theorem emod_sub_cases (a : Int) (c R : Int) (hR : 0 < R) (h0 : 0 ≤ c) (h1 : c ≤ R) :
    (a - c) % R = if c ≤ a % R then a % R - c else a % R - c + R := by
  have h2 := Int.emod_nonneg a (Int.ne_of_gt hR)
  have h3 := Int.emod_lt_of_pos a hR
  rw [← Int.emod_sub_emod]
  split
  · exact Int.emod_eq_of_lt (by omega) (by omega)
  · rw [← Int.add_emod_right (a % R - c)]
    rcases Int.lt_or_le (a % R - c + R) R with h | h
    · exact Int.emod_eq_of_lt (by omega) h
    · omega

/-- Frequencies in the half range that begins at `k`. -/
def cnt (R : Int) (D : Int) (l : List Int) (k : Int) : Nat := l.countP (fun f => decide ((f - k) % R ≤ D))

/-- Whether the residue of `k` is among the frequencies. -/
def pres (R : Int) (l : List Int) (k : Int) : Nat := l.countP (fun f => decide ((f - k) % R = 0))

theorem cnt_step (D : Int) (hD : 0 ≤ D) (l : List Int) (k : Int) :
    cnt (2 * D + 1) D l k ≤ cnt (2 * D + 1) D l (k + 1) + pres (2 * D + 1) l k := by
  induction l with
  | nil => simp [cnt]
  | cons f l ih =>
    simp only [cnt, pres, List.countP_cons] at ih ⊢
    have h := emod_sub_cases (f - k) 1 (2 * D + 1) (by omega) (by omega) (by omega)
    have h2 := Int.emod_nonneg (f - k) (show 2 * D + 1 ≠ 0 by omega)
    rw [show f - (k + 1) = f - k - 1 by omega, h]
    generalize (f - k) % (2 * D + 1) = r at *
    simp only [decide_eq_true_eq]
    split <;> split <;> split <;> split <;> omega

theorem cnt_half (D : Int) (hD : 0 ≤ D) (l : List Int) (k : Int) :
    cnt (2 * D + 1) D l k + cnt (2 * D + 1) D l (k + D) = l.length + pres (2 * D + 1) l (k + D) := by
  induction l with
  | nil => simp [cnt, pres]
  | cons f l ih =>
    simp only [cnt, pres, List.countP_cons, List.length_cons] at ih ⊢
    have h := emod_sub_cases (f - k) D (2 * D + 1) (by omega) (by omega) (by omega)
    have h2 := Int.emod_nonneg (f - k) (show 2 * D + 1 ≠ 0 by omega)
    have h3 := Int.emod_lt_of_pos (f - k) (show 0 < 2 * D + 1 by omega)
    rw [show f - (k + D) = f - k - D by omega, h]
    generalize (f - k) % (2 * D + 1) = r at *
    simp only [decide_eq_true_eq]
    split <;> split <;> split <;> split <;> omega

theorem cnt_half' (D : Int) (hD : 0 ≤ D) (l : List Int) (k : Int) :
    cnt (2 * D + 1) D l k + cnt (2 * D + 1) D l (k + D + 1) = l.length + pres (2 * D + 1) l k := by
  induction l with
  | nil => simp [cnt, pres]
  | cons f l ih =>
    simp only [cnt, pres, List.countP_cons, List.length_cons] at ih ⊢
    have h := emod_sub_cases (f - k) (D + 1) (2 * D + 1) (by omega) (by omega) (by omega)
    have h2 := Int.emod_nonneg (f - k) (show 2 * D + 1 ≠ 0 by omega)
    have h3 := Int.emod_lt_of_pos (f - k) (show 0 < 2 * D + 1 by omega)
    rw [show f - (k + D + 1) = f - k - (D + 1) by omega, h]
    generalize (f - k) % (2 * D + 1) = r at *
    simp only [decide_eq_true_eq]
    split <;> split <;> split <;> split <;> omega

theorem cnt_period (D : Int) (l : List Int) (k : Int) (m : Int) :
    cnt (2 * D + 1) D l (k + (2 * D + 1) * m) = cnt (2 * D + 1) D l k := by
  simp only [cnt]
  congr 1
  funext f
  rw [show f - (k + (2 * D + 1) * m) = f - k + (2 * D + 1) * (-m) by ring, Int.add_mul_emod_self_left]

theorem pres_period (D : Int) (l : List Int) (k : Int) (m : Int) :
    pres (2 * D + 1) l (k + (2 * D + 1) * m) = pres (2 * D + 1) l k := by
  simp only [pres]
  congr 1
  funext f
  rw [show f - (k + (2 * D + 1) * m) = f - k + (2 * D + 1) * (-m) by ring, Int.add_mul_emod_self_left]

theorem emod_zero_eq {a b R : Int} (ha : 0 ≤ a ∧ a < R) (hb : 0 ≤ b ∧ b < R) (h : (a - b) % R = 0) : a = b := by
  obtain ⟨c, hc⟩ := Int.dvd_of_emod_eq_zero h
  have : c < 1 := by
    by_contra hcon
    have : R * 1 ≤ R * c := Int.mul_le_mul_of_nonneg_left (by omega) (by omega)
    omega
  have : -1 < c := by
    by_contra hcon
    have : R * c ≤ R * (-1) := Int.mul_le_mul_of_nonneg_left (by omega) (by omega)
    omega
  have : c = 0 := by omega
  subst this
  omega

/-- The residue of `k` is among the frequencies at most once. -/
theorem pres_le (R : Int) (l : List Int) (k : Int) (hnd : l.Nodup) (hr : ∀ x ∈ l, 0 ≤ x ∧ x < R) : pres R l k ≤ 1 := by
  induction l with
  | nil => simp [pres]
  | cons f l ih =>
    have h1 := ih (List.nodup_cons.1 hnd).2 (fun x hx => hr x (List.mem_cons_of_mem _ hx))
    simp only [pres, List.countP_cons, decide_eq_true_eq] at h1 ⊢
    split
    · rename_i hf
      have : l.countP (fun f => decide ((f - k) % R = 0)) = 0 := by
        rw [List.countP_eq_zero]
        intro y hy
        simp only [decide_eq_true_eq]
        intro h
        have h3 : (f - y) % R = 0 := by
          rw [show f - y = f - k - (y - k) by omega, Int.sub_emod, hf, h]; simp
        have := emod_zero_eq (hr f List.mem_cons_self) (hr y (List.mem_cons_of_mem _ hy)) h3
        subst this
        exact (List.nodup_cons.1 hnd).1 hy
      omega
    · omega

theorem pres_pos {R : Int} {l : List Int} {k : Int} (h : 0 < pres R l k) : ∃ x ∈ l, (x - k) % R = 0 := by
  rw [pres, List.countP_pos_iff] at h
  obtain ⟨x, hx, h⟩ := h
  exact ⟨x, hx, of_decide_eq_true h⟩

theorem pres_mem {R : Int} {l : List Int} {x : Int} (h : x ∈ l) : 0 < pres R l x := by
  rw [pres, List.countP_pos_iff]
  exact ⟨x, h, by simp⟩

theorem cnt_congr (R D : Int) (l : List Int) (x k : Int) (h : (x - k) % R = 0) : cnt R D l x = cnt R D l k := by
  simp only [cnt]
  congr 1
  funext f
  have : (f - k) % R = (f - x) % R := by
    rw [show f - k = f - x + (x - k) by omega, Int.add_emod, h]; simp
  rw [this]

/-- Going up from a place with many frequencies to one with few, a frequency is
passed at which there are exactly as many as wanted. -/
theorem crossing (D : Int) (hD : 0 ≤ D) (l : List Int) (hnd : l.Nodup) (hr : ∀ x ∈ l, 0 ≤ x ∧ x < 2 * D + 1)
    (t : Nat) (n : Nat) :
    ∀ k : Int, t ≤ cnt (2 * D + 1) D l k → cnt (2 * D + 1) D l (k + n) < t →
      ∃ x ∈ l, cnt (2 * D + 1) D l x = t := by
  induction n with
  | zero => intro k h1 h2; simp at h2; omega
  | succ n ih =>
    intro k h1 h2
    rcases Nat.lt_or_ge (cnt (2 * D + 1) D l (k + 1)) t with h | h
    · have hs := cnt_step D hD l k
      have hp := pres_le (2 * D + 1) l k hnd hr
      obtain ⟨x, hx, hxk⟩ := pres_pos (show 0 < pres (2 * D + 1) l k by omega)
      exact ⟨x, hx, by rw [cnt_congr _ _ _ _ _ hxk]; omega⟩
    · exact ih (k + 1) h (by rw [show k + 1 + (n : Int) = k + ((n + 1 : Nat) : Int) by omega]; exact h2)

theorem exists_split (D : Int) (hD : 0 ≤ D) (l : List Int) (hnd : l.Nodup) (hr : ∀ x ∈ l, 0 ≤ x ∧ x < 2 * D + 1)
    (hne : l ≠ []) : ∃ x ∈ l, cnt (2 * D + 1) D l x = (l.length + 1) / 2 := by
  obtain ⟨x, hx⟩ := List.exists_mem_of_ne_nil l hne
  have hp1 := pres_le (2 * D + 1) l x hnd hr
  have hp2 := pres_mem (R := 2 * D + 1) hx
  have hhigh : ∃ k, (l.length + 1) / 2 ≤ cnt (2 * D + 1) D l k := by
    have := cnt_half' D hD l x
    rcases Nat.lt_or_ge (cnt (2 * D + 1) D l x) ((l.length + 1) / 2) with h | h
    · exact ⟨x + D + 1, by omega⟩
    · exact ⟨x, h⟩
  by_contra hcon
  have hlow : ∃ k, cnt (2 * D + 1) D l k < (l.length + 1) / 2 := by
    rcases Nat.lt_trichotomy (cnt (2 * D + 1) D l x) ((l.length + 1) / 2) with h | h | h
    · exact ⟨x, h⟩
    · exact absurd ⟨x, hx, h⟩ hcon
    · have h1 := cnt_half D hD l x
      have h2 := pres_le (2 * D + 1) l (x + D) hnd hr
      rcases Nat.eq_zero_or_pos (pres (2 * D + 1) l (x + D)) with h3 | h3
      · exact ⟨x + D, by omega⟩
      · obtain ⟨y, hy, hyk⟩ := pres_pos h3
        have h4 := cnt_congr (2 * D + 1) D l y (x + D) hyk
        rcases Nat.lt_or_ge (cnt (2 * D + 1) D l y) ((l.length + 1) / 2) with h5 | h5
        · exact ⟨y, h5⟩
        · exact absurd ⟨y, hy, by omega⟩ hcon
  obtain ⟨k, hk⟩ := hhigh
  obtain ⟨k', hk'⟩ := hlow
  apply hcon
  have hm : k ≤ k' + (2 * D + 1) * (k - k').natAbs := by
    have : (1 : Int) * (k - k').natAbs ≤ (2 * D + 1) * (k - k').natAbs :=
      Int.mul_le_mul_of_nonneg_right (by omega) (by omega)
    omega
  apply crossing D hD l hnd hr _ (k' + (2 * D + 1) * (k - k').natAbs - k).toNat k hk
  rw [Int.toNat_of_nonneg (by omega), show k + (k' + (2 * D + 1) * (k - k').natAbs - k) = k' + (2 * D + 1) * (k - k').natAbs by ring,
    cnt_period]
  exact hk'

theorem inHalf_eq (D : Nat) (l : List Int) (f : Int) : inHalf (2 * D + 1) l f = cnt (2 * D + 1) D l f := by
  simp only [inHalf, cnt]
  congr 1
  funext g
  rw [mod_eq _ _ (by omega), show (2 * D + 1 - 1) / 2 = D by omega]
  norm_cast

/-- `osmo_gsm48_range_enc_find_index` finds a place for any non-empty list of
distinct numbers below an odd range, and what it finds is a balanced split. -/
theorem findIndex_spec (D : Nat) (l : List Int) (hnd : l.Nodup) (hr : ∀ x ∈ l, 0 ≤ x ∧ x < 2 * D + 1) (hne : l ≠ []) :
    ∃ i, findIndex (2 * D + 1) l = some i ∧ ∃ h : i < l.length, inHalf (2 * D + 1) l l[i] = (l.length + 1) / 2 := by
  obtain ⟨x, hx, hc⟩ := exists_split D (by omega) l hnd hr hne
  have hlen : 0 < l.length := List.length_pos_iff.2 hne
  have hex : (l.findIdx? (fun f => inHalf (2 * D + 1) l f - 1 == (l.length - 1) / 2)).isSome := by
    rw [List.findIdx?_isSome, List.any_eq_true]
    refine ⟨x, hx, ?_⟩
    rw [inHalf_eq, hc]
    simp only [beq_iff_eq]
    omega
  obtain ⟨i, hi⟩ := Option.isSome_iff_exists.1 hex
  refine ⟨i, hi, ?_⟩
  obtain ⟨h1, h2, _⟩ := List.findIdx?_eq_some_iff_getElem.1 hi
  refine ⟨h1, ?_⟩
  simp only [beq_iff_eq] at h2
  have : 0 < inHalf (2 * D + 1) l l[i] := by
    rw [inHalf, List.countP_pos_iff]
    refine ⟨l[i], List.getElem_mem h1, ?_⟩
    rw [Int.sub_self, mod_eq _ _ (by omega)]
    simp
  omega

/-- The hypotheses are met by a list without any symmetry. -/
example : findIndex 127 [3, 90, 17, 44] = some 2 := by decide +kernel

end Verif.ArfcnRange
