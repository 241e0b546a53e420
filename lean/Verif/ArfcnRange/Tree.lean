import Verif.ArfcnRange.FindIndex
/-!
The tree of W values written by `osmo_gsm48_range_enc_arfcns` and what the nested
`smod` of the decoder get out of it.
-/
namespace Verif.ArfcnRange

theorem gpLoop_spec (index : Nat) (fuel g : Nat) (h : 2 ^ g ≤ index) (hf : index < 2 ^ g + fuel) (g' : Nat)
    (h1 : 2 ^ g' ≤ index) (h2 : index < 2 ^ (g' + 1)) : gpLoop index fuel (2 ^ g) = 2 ^ (g' + 1) := by
  induction fuel generalizing g with
  | zero => omega
  | succ fuel ih =>
    simp only [gpLoop]
    have hpos : 0 < 2 ^ g := Nat.two_pow_pos g
    have hs : 2 ^ g * 2 = 2 ^ (g + 1) := (Nat.pow_succ 2 g).symm
    rw [hs]
    split
    · exact ih (g + 1) (by assumption) (by omega)
    · rename_i hlt
      have hg1 : g < g' + 1 := (Nat.pow_lt_pow_iff_right (by omega : 1 < 2)).1 (by omega : 2 ^ g < 2 ^ (g' + 1))
      have hg2 : g' < g + 1 := (Nat.pow_lt_pow_iff_right (by omega : 1 < 2)).1 (by omega : 2 ^ g' < 2 ^ (g + 1))
      rw [show g = g' by omega]

theorem greatestPow2_eq (k g : Nat) (h1 : 2 ^ g ≤ k) (h2 : k < 2 ^ (g + 1)) : greatestPow2 k = 2 ^ g := by
  have hpos : 0 < 2 ^ g := Nat.two_pow_pos g
  have := gpLoop_spec k (k + 1) 0 (by simp; omega) (by omega) g h1 h2
  rw [Nat.pow_zero] at this
  rw [greatestPow2, this, Nat.pow_succ]
  omega

/-- The way down from node `k` in generation `g`, where the range is `R`, to node
`j`, by 3GPP TS 44.018, annex J: node `k` has the left child k + 2^g with the
origin in the middle of the range and the right child k + 2^(g+1). -/
def pathTo : Nat → Nat → Nat → Nat → Nat → List (Nat × Nat × Nat)
  | 0, _, _, _, _ => []
  | fuel + 1, k, g, R, j =>
    if j ≤ k then []
    else if (j - k) % 2 ^ (g + 1) = 2 ^ g then (k, (R + 1) / 2, R) :: pathTo fuel (k + 2 ^ g) (g + 1) (R / 2) j
    else (k, 0, R) :: pathTo fuel (k + 2 ^ (g + 1)) (g + 1) (R / 2) j

/-- The frequency of node `j` seen from node `k`. -/
def valueAt (fuel : Nat) (w : Nat → Int) (k g R j : Nat) : Int :=
  match fuel with
  | 0 => w j
  | fuel + 1 =>
    if j ≤ k then w j
    else if (j - k) % 2 ^ (g + 1) = 2 ^ g then
      smod (w k - ((R + 1) / 2 : Nat) + valueAt fuel w (k + 2 ^ g) (g + 1) (R / 2) j) R
    else smod (w k - (0 : Nat) + valueAt fuel w (k + 2 ^ (g + 1)) (g + 1) (R / 2) j) R

theorem applyPath_pathTo (fuel : Nat) (w : List Nat) (k g R j : Nat) :
    applyPath w (pathTo fuel k g R j) ((w.getD (j - 1) 0 : Nat) : Int) =
      valueAt fuel (fun i => ((w.getD (i - 1) 0 : Nat) : Int)) k g R j := by
  induction fuel generalizing k g R with
  | zero => rfl
  | succ fuel ih =>
    simp only [pathTo, valueAt]
    split
    · rfl
    · split
      · simp only [applyPath]; rw [ih]
      · simp only [applyPath]; rw [ih]

theorem smod_succ (z : Int) (R : Nat) (h : 0 < R) : smod (1 + z) R = 1 + z % (R : Int) := by
  have hR : (0 : Int) < R := by omega
  have h3 := Int.emod_nonneg z (Int.ne_of_gt hR)
  have h4 := Int.emod_lt_of_pos z hR
  have h5 := mod_eq (1 + z) R h
  have h6 : (1 + z) % (R : Int) = if z % R = R - 1 then 0 else 1 + z % R := by
    rw [← Int.add_emod_emod]
    split
    · rename_i hz; rw [hz, show 1 + ((R : Int) - 1) = R by omega, Int.emod_self]
    · exact Int.emod_eq_of_lt (by omega) (by omega)
  have h7 : (1 + z).tmod (R : Int) < R := Int.tmod_lt_of_pos _ hR
  simp only [mod] at h5
  simp only [smod]
  split at h5
  · rw [if_pos (by omega), h5, h6]
    have : mod (1 + z) R ≠ 0 := by
      simp only [mod]
      have h8 : -(R : Int) < (1 + z).tmod R := by
        have := Int.lt_tmod_of_pos (1 + z) hR
        exact this
      rw [if_pos (by assumption)]
      omega
    rw [mod_eq _ _ h, h6] at this
    split
    · rename_i hz; rw [if_pos hz] at this; omega
    · rfl
  · rw [h6] at h5
    split at h5
    · rename_i hz
      rw [if_pos (by omega), h5]; omega
    · rw [if_neg (by omega), h5]

/-- Only the nodes below `k` matter for `valueAt`. -/
theorem valueAt_congr (fuel : Nat) (w w' : Nat → Int) (k g R j : Nat)
    (h : ∀ i, k ≤ i → (i - k) % 2 ^ g = 0 → w i = w' i) (hj : k ≤ j) (hjk : (j - k) % 2 ^ g = 0) :
    valueAt fuel w k g R j = valueAt fuel w' k g R j := by
  induction fuel generalizing k g R with
  | zero => exact h j hj hjk
  | succ fuel ih =>
    simp only [valueAt]
    have hpos : 0 < 2 ^ g := Nat.two_pow_pos g
    have hs : 2 ^ (g + 1) = 2 ^ g * 2 := Nat.pow_succ 2 g
    have hsub : ∀ c, c = 2 ^ g ∨ c = 2 ^ (g + 1) → ∀ i, k + c ≤ i → (i - (k + c)) % 2 ^ (g + 1) = 0 → w i = w' i := by
      intro c hc i hi him
      apply h i (by omega)
      have hd : 2 ^ g ∣ i - (k + c) := Nat.dvd_trans ⟨2, hs⟩ (Nat.dvd_of_mod_eq_zero him)
      have hd2 : 2 ^ g ∣ c := by rcases hc with hc | hc <;> subst hc <;> [exact Nat.dvd_refl _; exact ⟨2, hs⟩]
      rw [show i - k = (i - (k + c)) + c by omega]
      exact Nat.mod_eq_zero_of_dvd (Nat.dvd_add hd hd2)
    obtain ⟨q, hq⟩ := Nat.dvd_of_mod_eq_zero hjk
    split
    · exact h j hj hjk
    · split
      · rename_i hlt hm
        have hge : 2 ^ g ≤ j - k := by
          have := Nat.mod_le (j - k) (2 ^ (g + 1)); omega
        rw [ih (k + 2 ^ g) (g + 1) (R / 2) (hsub _ (Or.inl rfl)) (by omega) ?_, h k (Nat.le_refl k) (by simp)]
        rw [show j - (k + 2 ^ g) = j - k - 2 ^ g by omega]
        have := Nat.div_add_mod (j - k) (2 ^ (g + 1))
        rw [hm] at this
        rw [show j - k - 2 ^ g = 2 ^ (g + 1) * ((j - k) / 2 ^ (g + 1)) by omega]
        simp
      · rename_i hlt hm
        have hm0 : (j - k) % 2 ^ (g + 1) = 0 := by
          rw [hq, hs, Nat.mul_mod_mul_left] at hm ⊢
          rcases Nat.mod_two_eq_zero_or_one q with h2 | h2
          · rw [h2]; simp
          · rw [h2] at hm; simp at hm
        have hge : 2 ^ (g + 1) ≤ j - k := Nat.le_of_dvd (by omega) (Nat.dvd_of_mod_eq_zero hm0)
        rw [ih (k + 2 ^ (g + 1)) (g + 1) (R / 2) (hsub _ (Or.inr rfl)) (by omega) ?_, h k (Nat.le_refl k) (by simp)]
        rw [show j - (k + 2 ^ (g + 1)) = j - k - 2 ^ (g + 1) by omega]
        exact Nat.mod_eq_zero_of_dvd (Nat.dvd_sub (Nat.dvd_of_mod_eq_zero hm0) (Nat.dvd_refl _))

/-- The entry of the output for node `k`, counted from one. -/
def at1 (out : List Int) (k : Nat) : Int := out.getD (k - 1) 0

theorem store_spec (out : List Int) (k : Nat) (v : Int) (h1 : 0 < k) (h : k ≤ out.length) :
    ∃ o, store out (k - 1) v = some o ∧ o.length = out.length ∧ at1 o k = v ∧
      ∀ j, 0 < j → j ≠ k → at1 o j = at1 out j := by
  refine ⟨out.set (k - 1) v, ?_, ?_, ?_, ?_⟩
  · rw [store, if_pos (by omega)]
  · simp
  · simp only [at1, List.getD_eq_getElem?_getD]
    rw [List.getElem?_set_self (by omega)]; rfl
  · intro j hj hne
    simp only [at1, List.getD_eq_getElem?_getD]
    rw [List.getElem?_set_ne (by omega)]

/-- `j` is one of the first `m` nodes in the subtree of `k`. -/
def InTree (k g m j : Nat) : Prop := ∃ q, q < m ∧ j = k + 2 ^ g * q

theorem range_bits (e : Nat) : (2 ^ (e + 1) - 1) / 2 = 2 ^ e - 1 := by
  have := Nat.two_pow_pos e
  rw [Nat.pow_succ]; omega

end Verif.ArfcnRange
