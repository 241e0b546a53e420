import Verif.ArfcnRange.Tree
import Mathlib.Data.List.Nodup
/-!
`osmo_gsm48_range_enc_arfcns` writes a tree from which every frequency, and
nothing else, can be computed again.
-/
namespace Verif.ArfcnRange

theorem right_val (D : Nat) (x a : Int) :
    mod (x - mod (a + 1) (2 * D + 1)) (2 * D + 1) =
      if 1 ≤ (x - a) % (2 * D + 1 : Int) then (x - a) % (2 * D + 1 : Int) - 1 else 2 * D := by
  rw [mod_eq _ _ (by omega), mod_eq _ _ (by omega), Int.sub_emod_emod,
    show x - (a + 1) = x - a - 1 by omega]
  have h2 := Int.emod_nonneg (x - a) (show ((2 * D + 1 : Nat) : Int) ≠ 0 by omega)
  rw [emod_sub_cases _ 1 _ (by omega) (by omega) (by omega)]
  push_cast at h2 ⊢
  split
  · rfl
  · omega

theorem left_val (D : Nat) (x a : Int) :
    mod (x - mod (a + ((2 * D + 1 - 1) / 2 : Nat) + 1) (2 * D + 1)) (2 * D + 1) =
      if (D : Int) + 1 ≤ (x - a) % (2 * D + 1 : Int) then (x - a) % (2 * D + 1 : Int) - D - 1
      else (x - a) % (2 * D + 1 : Int) + D := by
  rw [mod_eq _ _ (by omega), mod_eq _ _ (by omega), Int.sub_emod_emod,
    show x - (a + ((2 * D + 1 - 1) / 2 : Nat) + 1) = x - a - (D + 1) by omega]
  have h2 := Int.emod_nonneg (x - a) (show ((2 * D + 1 : Nat) : Int) ≠ 0 by omega)
  rw [emod_sub_cases _ (D + 1) _ (by omega) (by omega) (by omega)]
  push_cast at h2 ⊢
  split <;> omega

theorem right_count (D : Nat) (l : List Int) (a : Int) :
    l.countP (fun x => decide (mod (x - mod (a + 1) (2 * D + 1)) (2 * D + 1) < ((2 * D + 1) / 2 : Nat))) +
      pres (2 * D + 1) l a = inHalf (2 * D + 1) l a := by
  rw [inHalf_eq]
  induction l with
  | nil => simp [pres, cnt]
  | cons x l ih =>
    simp only [pres, cnt, List.countP_cons, decide_eq_true_eq] at ih ⊢
    rw [right_val]
    have h2 := Int.emod_nonneg (x - a) (show (2 * (D : Int) + 1) ≠ 0 by omega)
    generalize (x - a) % (2 * (D : Int) + 1) = r at *
    rw [show (2 * D + 1) / 2 = D by omega] at *
    split <;> split <;> split <;> split <;> omega

theorem left_count (D : Nat) (l : List Int) (a : Int) :
    l.countP (fun x => decide (mod (x - mod (a + ((2 * D + 1 - 1) / 2 : Nat) + 1) (2 * D + 1)) (2 * D + 1) <
      ((2 * D + 1) / 2 : Nat))) + inHalf (2 * D + 1) l a = l.length := by
  rw [inHalf_eq]
  induction l with
  | nil => simp [cnt]
  | cons x l ih =>
    simp only [cnt, List.countP_cons, decide_eq_true_eq, List.length_cons] at ih ⊢
    rw [left_val]
    have h2 := Int.emod_nonneg (x - a) (show (2 * (D : Int) + 1) ≠ 0 by omega)
    have h3 := Int.emod_lt_of_pos (x - a) (show 0 < (2 * (D : Int) + 1) by omega)
    generalize (x - a) % (2 * (D : Int) + 1) = r at *
    rw [show (2 * D + 1) / 2 = D by omega] at *
    split <;> split <;> split <;> omega

/-- Differences to a common origin are distinct again. -/
theorem nodup_shift (R : Nat) (hR : 0 < R) (l : List Int) (o : Int) (hnd : l.Nodup) (hr : ∀ x ∈ l, 0 ≤ x ∧ x < R)
    (p : Int → Bool) : ((l.filter p).map (fun x => mod (x - o) R)).Nodup := by
  apply List.Nodup.map_on _ (List.Nodup.filter p hnd)
  intro x hx y hy h
  have hx' := hr x (List.mem_of_mem_filter hx)
  have hy' := hr y (List.mem_of_mem_filter hy)
  rw [mod_eq _ _ hR, mod_eq _ _ hR] at h
  apply emod_zero_eq hx' hy'
  rw [show x - y = (x - o) - (y - o) by omega, Int.sub_emod, h]
  simp

/-- What is in the output after the encoder was run. -/
structure Encoded (d e g k : Nat) (l out out' : List Int) : Prop where
  len : out'.length = out.length
  keep : ∀ j, 0 < j → ¬ InTree k g l.length j → at1 out' j = at1 out j
  pos : ∀ j, InTree k g l.length j → 0 < at1 out' j
  small : ∀ j G, InTree k g l.length j → 2 ^ G ≤ j → j < 2 ^ (G + 1) → at1 out' j < ((2 ^ (e + g - G) : Nat) : Int)
  sound : ∀ j, InTree k g l.length j → ∃ x ∈ l, valueAt d (at1 out') k g (2 ^ e - 1) j = 1 + x
  complete : ∀ x ∈ l, ∃ j, InTree k g l.length j ∧ valueAt d (at1 out') k g (2 ^ e - 1) j = 1 + x

theorem encoded_nil (d e g k : Nat) (out : List Int) : Encoded d e g k [] out out where
  len := rfl
  keep := fun _ _ _ => rfl
  pos := fun _ ⟨q, hq, _⟩ => absurd hq (Nat.not_lt_zero q)
  small := fun _ _ ⟨q, hq, _⟩ => absurd hq (Nat.not_lt_zero q)
  sound := fun _ ⟨q, hq, _⟩ => absurd hq (Nat.not_lt_zero q)
  complete := fun _ hx => absurd hx List.not_mem_nil

theorem inTree_left {k g m j : Nat} (h : InTree (k + 2 ^ g) (g + 1) (m / 2) j) :
    InTree k g m j ∧ k < j ∧ (j - k) % 2 ^ (g + 1) = 2 ^ g := by
  obtain ⟨q, hq, hj⟩ := h
  have hpos : 0 < 2 ^ g := Nat.two_pow_pos g
  have hs : 2 ^ (g + 1) = 2 ^ g * 2 := Nat.pow_succ 2 g
  refine ⟨⟨1 + 2 * q, by omega, ?_⟩, by omega, ?_⟩
  · rw [hj, hs]; ring
  · rw [hj, show k + 2 ^ g + 2 ^ (g + 1) * q - k = 2 ^ g + 2 ^ (g + 1) * q by omega, Nat.add_mul_mod_self_left]
    exact Nat.mod_eq_of_lt (by omega)

theorem inTree_right {k g m j : Nat} (h : InTree (k + 2 ^ (g + 1)) (g + 1) ((m - 1) / 2) j) :
    InTree k g m j ∧ k < j ∧ (j - k) % 2 ^ (g + 1) ≠ 2 ^ g := by
  obtain ⟨q, hq, hj⟩ := h
  have hpos : 0 < 2 ^ g := Nat.two_pow_pos g
  have hs : 2 ^ (g + 1) = 2 ^ g * 2 := Nat.pow_succ 2 g
  refine ⟨⟨2 + 2 * q, by omega, ?_⟩, by omega, ?_⟩
  · rw [hj, hs]; ring
  · rw [hj, show k + 2 ^ (g + 1) + 2 ^ (g + 1) * q - k = 2 ^ (g + 1) * (1 + q) by
      rw [Nat.add_assoc, Nat.add_sub_cancel_left]; ring, Nat.mul_mod_right]
    omega

theorem inTree_cases {k g m j : Nat} (h : InTree k g m j) :
    j = k ∨ InTree (k + 2 ^ g) (g + 1) (m / 2) j ∨ InTree (k + 2 ^ (g + 1)) (g + 1) ((m - 1) / 2) j := by
  obtain ⟨q, hq, hj⟩ := h
  have hs : 2 ^ (g + 1) = 2 ^ g * 2 := Nat.pow_succ 2 g
  rcases Nat.eq_zero_or_pos q with h0 | h0
  · left; subst h0; simpa using hj
  · right
    rcases Nat.mod_two_eq_zero_or_one q with h2 | h2
    · right
      refine ⟨q / 2 - 1, by omega, ?_⟩
      obtain ⟨p, hp⟩ : ∃ p, q = 2 * (p + 1) := ⟨q / 2 - 1, by omega⟩
      subst hp
      rw [show 2 * (p + 1) / 2 - 1 = p by omega, hj, hs]; ring
    · left
      refine ⟨q / 2, by omega, ?_⟩
      obtain ⟨p, hp⟩ : ∃ p, q = 2 * p + 1 := ⟨q / 2, by omega⟩
      subst hp
      rw [show (2 * p + 1) / 2 = p by omega, hj, hs]; ring

theorem inTree_self {k g m : Nat} (h : 0 < m) : InTree k g m k := ⟨0, h, by simp⟩

theorem emod_back (x a : Int) (D : Nat) (hx : 0 ≤ x ∧ x < 2 * D + 1) (y c : Int)
    (h : (2 * D + 1 : Int) ∣ a + c + y - x) : (a + c + y) % ((2 * D + 1 : Nat) : Int) = x := by
  push_cast
  rw [Int.emod_eq_emod_iff_emod_sub_eq_zero.2 (Int.emod_eq_zero_of_dvd h)]
  exact Int.emod_eq_of_lt hx.1 hx.2

theorem encArfcns_encoded (fuel : Nat) : ∀ (d e g k : Nat) (l out : List Int), l.length ≤ fuel → fuel ≤ d → l.Nodup →
    (∀ x ∈ l, 0 ≤ x ∧ x < ((2 ^ e - 1 : Nat) : Int)) → 2 ^ g ≤ k → k < 2 ^ (g + 1) →
    (∀ j, InTree k g l.length j → j ≤ out.length) →
    ∃ out', encArfcns fuel (2 ^ e - 1) l out (k - 1) = some (0, out') ∧ Encoded d e g k l out out' := by
  induction fuel with
  | zero =>
    intro d e g k l out hl _ _ _ _ _ _
    have : l = [] := List.length_eq_zero_iff.1 (by omega)
    subst this
    exact ⟨out, rfl, encoded_nil d e g k out⟩
  | succ fuel ih =>
    intro d e g k l out hl hd hnd hr hg1 hg2 hfit
    obtain ⟨d, rfl⟩ : ∃ d', d = d' + 1 := ⟨d - 1, by omega⟩
    have hgpos : 0 < 2 ^ g := Nat.two_pow_pos g
    have hgs : 2 ^ (g + 1) = 2 ^ g * 2 := Nat.pow_succ 2 g
    have hgs2 : 2 ^ (g + 1 + 1) = 2 ^ (g + 1) * 2 := Nat.pow_succ 2 (g + 1)
    rcases l with _ | ⟨a, _ | ⟨b, t⟩⟩
    · exact ⟨out, rfl, encoded_nil (d + 1) e g k out⟩
    · obtain ⟨o, ho, hol, hok, hoj⟩ := store_spec out k (1 + a) (by omega) (hfit k (inTree_self (by simp)))
      have hone : ∀ j, InTree k g [a].length j → j = k := by
        rintro j ⟨q, hq, hj⟩
        simp only [List.length_cons, List.length_nil] at hq
        have : q = 0 := by omega
        subst this; simpa using hj
      have ha := hr a (by simp)
      refine ⟨o, by simp [encArfcns, ho], hol, ?_, ?_, ?_, ?_, ?_⟩
      · intro j hj hnj
        exact hoj j hj (fun h => hnj (h ▸ inTree_self (by simp)))
      · intro j hj
        rw [hone j hj, hok]; omega
      · intro j G hj h1 h2
        rw [hone j hj] at h1 h2 ⊢
        have hG1 : g < G + 1 := (Nat.pow_lt_pow_iff_right (by omega : 1 < 2)).1 (by omega : 2 ^ g < 2 ^ (G + 1))
        have hG2 : G < g + 1 := (Nat.pow_lt_pow_iff_right (by omega : 1 < 2)).1 (by omega : 2 ^ G < 2 ^ (g + 1))
        rw [hok, show e + g - G = e by omega]
        have := Nat.two_pow_pos e
        omega
      · intro j hj
        refine ⟨a, by simp, ?_⟩
        rw [hone j hj]
        simp only [valueAt, Nat.le_refl, if_true, hok]
      · intro x hx
        rw [List.mem_singleton] at hx
        subst hx
        exact ⟨k, inTree_self (by simp), by simp only [valueAt, Nat.le_refl, if_true, hok]⟩
    · obtain ⟨e, rfl⟩ : ∃ e', e = e' + 1 := by
        rcases e with _ | e
        · have := hr a (by simp); simp at this; omega
        · exact ⟨e, rfl⟩
      have hepos : 0 < 2 ^ e := Nat.two_pow_pos e
      obtain ⟨D, hD⟩ : ∃ D, D = 2 ^ e - 1 := ⟨_, rfl⟩
      have hR : 2 ^ (e + 1) - 1 = 2 * D + 1 := by rw [Nat.pow_succ]; omega
      rw [hR] at hr
      push_cast at hr
      obtain ⟨i, hi, hil, hih⟩ := findIndex_spec D (a :: b :: t) hnd hr (by simp)
      simp only [encArfcns]
      rw [hR, hi]
      simp only []
      have hlen2 : 2 ≤ (a :: b :: t).length := by simp
      generalize a :: b :: t = l at *
      rw [List.getD_eq_getElem?_getD, List.getElem?_eq_getElem hil, Option.getD_some]
      have hpm : l[i] ∈ l := List.getElem_mem hil
      generalize l[i] = p at *
      have hpr := hr p hpm
      have hpres : pres (2 * D + 1) l p = 1 := by
        have h1 := pres_le (2 * D + 1) l p hnd hr
        have h2 := pres_mem (R := 2 * D + 1) hpm
        omega
      have hrc := right_count D l p
      have hlc := left_count D l p
      have hlv := fun x => left_val D x p
      have hrv := fun x => right_val D x p
      rw [List.countP_eq_length_filter] at hrc hlc
      have hlnd := nodup_shift (2 * D + 1) (by omega) l (mod (p + ((2 * D + 1 - 1) / 2 : Nat) + 1) (2 * D + 1)) hnd
        (by push_cast; exact hr)
        (fun x => decide (mod (x - mod (p + ((2 * D + 1 - 1) / 2 : Nat) + 1) (2 * D + 1)) (2 * D + 1) < ((2 * D + 1) / 2 : Nat)))
      have hrnd := nodup_shift (2 * D + 1) (by omega) l (mod (p + 1) (2 * D + 1)) hnd (by push_cast; exact hr)
        (fun x => decide (mod (x - mod (p + 1) (2 * D + 1)) (2 * D + 1) < ((2 * D + 1) / 2 : Nat)))
      generalize mod (p + ((2 * D + 1 - 1) / 2 : Nat) + 1) (2 * D + 1) = lo at *
      generalize mod (p + 1) (2 * D + 1) = ro at *
      obtain ⟨L, hL⟩ : ∃ L, L = (l.filter (fun x => decide (mod (x - lo) (2 * D + 1) < ((2 * D + 1) / 2 : Nat)))).map
        (fun x => mod (x - lo) (2 * D + 1)) := ⟨_, rfl⟩
      obtain ⟨Rt, hRt⟩ : ∃ Rt, Rt = (l.filter (fun x => decide (mod (x - ro) (2 * D + 1) < ((2 * D + 1) / 2 : Nat)))).map
        (fun x => mod (x - ro) (2 * D + 1)) := ⟨_, rfl⟩
      rw [← hL] at hlnd
      rw [← hRt] at hrnd
      have hLl : L.length = l.length / 2 := by rw [hL, List.length_map]; omega
      have hRl : Rt.length = (l.length - 1) / 2 := by rw [hRt, List.length_map]; omega
      have hhalf : (2 * D + 1) / 2 = D := by omega
      have hhalf2 : (2 * D + 1 - 1) / 2 = D := by omega
      have hLr : ∀ y ∈ L, 0 ≤ y ∧ y < ((2 ^ e - 1 : Nat) : Int) := by
        intro y hy
        rw [hL, List.mem_map] at hy
        obtain ⟨x, hx, rfl⟩ := hy
        have := of_decide_eq_true (List.mem_filter.1 hx).2
        exact ⟨mod_nonneg _ _ (by omega), by rw [hhalf] at this; rw [← hD]; exact this⟩
      have hRr : ∀ y ∈ Rt, 0 ≤ y ∧ y < ((2 ^ e - 1 : Nat) : Int) := by
        intro y hy
        rw [hRt, List.mem_map] at hy
        obtain ⟨x, hx, rfl⟩ := hy
        have := of_decide_eq_true (List.mem_filter.1 hx).2
        exact ⟨mod_nonneg _ _ (by omega), by rw [hhalf] at this; rw [← hD]; exact this⟩
      rw [← hL, ← hRt, if_neg (by omega)]
      obtain ⟨o, ho, hol, hok, hoj⟩ := store_spec out k (1 + p) (by omega) (hfit k (inTree_self (by omega)))
      rw [ho, show k - 1 + 1 = k by omega, greatestPow2_eq k g hg1 hg2]
      simp only [Option.bind_some]
      obtain ⟨o1, ho1, hE1⟩ := ih d e (g + 1) (k + 2 ^ g) L o (by omega) (by omega) hlnd hLr (by omega) (by omega)
        (fun j hj => by rw [hol]; exact hfit j (inTree_left (hLl ▸ hj)).1)
      have hcall1 : (if L = [] then some (0, o) else encArfcns fuel ((2 * D + 1) / 2) L o (k - 1 + 2 ^ g)) = some (0, o1) := by
        rw [show k - 1 + 2 ^ g = k + 2 ^ g - 1 by omega, hhalf, hD]
        split
        · rename_i hnil
          rw [hnil] at ho1
          rcases fuel with _ | fuel <;> simpa [encArfcns] using ho1
        · exact ho1
      rw [hcall1]
      simp only [Option.bind_some]
      obtain ⟨o2, ho2, hE2⟩ := ih d e (g + 1) (k + 2 ^ (g + 1)) Rt o1 (by omega) (by omega) hrnd hRr (by omega) (by omega)
        (fun j hj => by rw [hE1.len, hol]; exact hfit j (inTree_right (hRl ▸ hj)).1)
      have hcall2 : (if Rt = [] then some (0, o1) else encArfcns fuel ((2 * D + 1 - 1) / 2) Rt o1 (k - 1 + 2 * 2 ^ g)) = some (0, o2) := by
        rw [show k - 1 + 2 * 2 ^ g = k + 2 ^ (g + 1) - 1 by omega, hhalf2, hD]
        split
        · rename_i hnil
          rw [hnil] at ho2
          rcases fuel with _ | fuel <;> simpa [encArfcns] using ho2
        · exact ho2
      rw [hcall2]
      simp only [Option.map_some]
      -- what is at the places
      have hk2 : at1 o2 k = 1 + p := by
        rw [hE2.keep k (by omega) (fun h => by have := (inTree_right (hRl ▸ h)).2.1; omega),
          hE1.keep k (by omega) (fun h => by have := (inTree_left (hLl ▸ h)).2.1; omega), hok]
      have hleft : ∀ j, 0 < j → ¬ InTree (k + 2 ^ (g + 1)) (g + 1) Rt.length j → at1 o2 j = at1 o1 j := hE2.keep
      have hvl : ∀ j, InTree (k + 2 ^ g) (g + 1) L.length j →
          valueAt (d + 1) (at1 o2) k g (2 * D + 1) j =
            smod (1 + p - ((D + 1 : Nat) : Int) + valueAt d (at1 o1) (k + 2 ^ g) (g + 1) (2 ^ e - 1) j) (2 * D + 1 : Nat) := by
        intro j hj
        obtain ⟨_, h2, h3⟩ := inTree_left (hLl ▸ hj)
        simp only [valueAt]
        rw [if_neg (by omega), if_pos h3, hk2, hhalf, ← hD, show (2 * D + 1 + 1) / 2 = D + 1 by omega]
        congr 2
        obtain ⟨q, hq, hjq⟩ := hj
        apply valueAt_congr
        · intro i hi1 hi2
          apply hleft i (by omega)
          rintro ⟨q', hq', hiq'⟩
          rw [hiq'] at hi2 hi1
          have : (k + 2 ^ (g + 1) + 2 ^ (g + 1) * q' - (k + 2 ^ g)) = 2 ^ g + 2 ^ (g + 1) * q' := by omega
          rw [this, Nat.add_mul_mod_self_left, Nat.mod_eq_of_lt (by omega)] at hi2
          omega
        · omega
        · rw [hjq, Nat.add_sub_cancel_left, Nat.mul_mod_right]
      have hvr : ∀ j, InTree (k + 2 ^ (g + 1)) (g + 1) Rt.length j →
          valueAt (d + 1) (at1 o2) k g (2 * D + 1) j =
            smod (1 + p - ((0 : Nat) : Int) + valueAt d (at1 o2) (k + 2 ^ (g + 1)) (g + 1) (2 ^ e - 1) j) (2 * D + 1 : Nat) := by
        intro j hj
        obtain ⟨_, h2, h3⟩ := inTree_right (hRl ▸ hj)
        simp only [valueAt]
        rw [if_neg (by omega), if_neg h3, hk2, hhalf, ← hD]
      have hls : ∀ x ∈ l, smod (1 + p - ((D + 1 : Nat) : Int) + (1 + mod (x - lo) (2 * D + 1))) (2 * D + 1 : Nat) = 1 + x ∨
          ¬ mod (x - lo) (2 * D + 1) < (D : Int) := by
        intro x hx
        rw [hlv]
        have h2 := Int.emod_nonneg (x - p) (show (2 * (D : Int) + 1) ≠ 0 by omega)
        have h3 := Int.emod_add_mul_ediv (x - p) (2 * (D : Int) + 1)
        split
        · left
          rw [show 1 + p - ((D + 1 : Nat) : Int) + (1 + ((x - p) % (2 * (D : Int) + 1) - D - 1)) =
            1 + (p + (-(2 * D + 1 : Int)) + (x - p) % (2 * (D : Int) + 1)) by push_cast; ring, smod_succ _ _ (by omega),
            emod_back x p D (hr x hx)]
          refine ⟨-(x - p) / (2 * (D : Int) + 1) * 0 - (x - p) / (2 * (D : Int) + 1) - 1, ?_⟩
          linarith
        · right; omega
      have hrs : ∀ x ∈ l, smod (1 + p - ((0 : Nat) : Int) + (1 + mod (x - ro) (2 * D + 1))) (2 * D + 1 : Nat) = 1 + x ∨
          ¬ mod (x - ro) (2 * D + 1) < (D : Int) := by
        intro x hx
        rw [hrv]
        have h2 := Int.emod_nonneg (x - p) (show (2 * (D : Int) + 1) ≠ 0 by omega)
        have h3 := Int.emod_add_mul_ediv (x - p) (2 * (D : Int) + 1)
        split
        · left
          rw [show 1 + p - ((0 : Nat) : Int) + (1 + ((x - p) % (2 * (D : Int) + 1) - 1)) =
            1 + (p + 0 + (x - p) % (2 * (D : Int) + 1)) by push_cast; ring, smod_succ _ _ (by omega),
            emod_back x p D (hr x hx)]
          refine ⟨- ((x - p) / (2 * (D : Int) + 1)), ?_⟩
          linarith
        · right; omega
      refine ⟨o2, rfl, ?_, ?_, ?_, ?_, ?_, ?_⟩
      · rw [hE2.len, hE1.len, hol]
      · intro j hj hnj
        rw [hE2.keep j hj (fun h => hnj (inTree_right (hRl ▸ h)).1),
          hE1.keep j hj (fun h => hnj (inTree_left (hLl ▸ h)).1),
          hoj j hj (fun h => hnj (h ▸ inTree_self (by omega)))]
      · intro j hj
        rcases inTree_cases hj with h | h | h
        · rw [h, hk2]; omega
        · have h4 := inTree_left h
          rw [hleft j (by omega) (fun h' => (inTree_right (hRl ▸ h')).2.2 h4.2.2)]
          exact hE1.pos j (hLl ▸ h)
        · exact hE2.pos j (hRl ▸ h)
      · intro j G hj h1 h2
        rcases inTree_cases hj with h | h | h
        · rw [h] at h1 h2 ⊢
          have hG1 : g < G + 1 := (Nat.pow_lt_pow_iff_right (by omega : 1 < 2)).1 (by omega : 2 ^ g < 2 ^ (G + 1))
          have hG2 : G < g + 1 := (Nat.pow_lt_pow_iff_right (by omega : 1 < 2)).1 (by omega : 2 ^ G < 2 ^ (g + 1))
          rw [hk2, show e + 1 + g - G = e + 1 by omega]
          omega
        · have h4 := inTree_left h
          rw [hleft j (by omega) (fun h' => (inTree_right (hRl ▸ h')).2.2 h4.2.2), show e + 1 + g - G = e + (g + 1) - G by omega]
          exact hE1.small j G (hLl ▸ h) h1 h2
        · rw [show e + 1 + g - G = e + (g + 1) - G by omega]
          exact hE2.small j G (hRl ▸ h) h1 h2
      · rw [hR]
        intro j hj
        rcases inTree_cases hj with h | h | h
        · exact ⟨p, hpm, by rw [h]; simp only [valueAt, Nat.le_refl, if_true, hk2]⟩
        · obtain ⟨y, hy, hyv⟩ := hE1.sound j (hLl ▸ h)
          rw [hL, List.mem_map] at hy
          obtain ⟨x, hx, rfl⟩ := hy
          have hx' := of_decide_eq_true (List.mem_filter.1 hx).2
          rw [hhalf] at hx'
          exact ⟨x, (List.mem_filter.1 hx).1, by
            rw [hvl j (hLl ▸ h), hyv]
            exact (hls x (List.mem_filter.1 hx).1).resolve_right (fun hn => hn hx')⟩
        · obtain ⟨y, hy, hyv⟩ := hE2.sound j (hRl ▸ h)
          rw [hRt, List.mem_map] at hy
          obtain ⟨x, hx, rfl⟩ := hy
          have hx' := of_decide_eq_true (List.mem_filter.1 hx).2
          rw [hhalf] at hx'
          exact ⟨x, (List.mem_filter.1 hx).1, by
            rw [hvr j (hRl ▸ h), hyv]
            exact (hrs x (List.mem_filter.1 hx).1).resolve_right (fun hn => hn hx')⟩
      · rw [hR]
        intro x hx
        have hxr := hr x hx
        have h2 := Int.emod_nonneg (x - p) (show (2 * (D : Int) + 1) ≠ 0 by omega)
        have h3 := Int.emod_lt_of_pos (x - p) (show 0 < (2 * (D : Int) + 1) by omega)
        rcases Int.lt_or_le ((x - p) % (2 * (D : Int) + 1)) 1 with hz | hz
        · have : x = p := emod_zero_eq hxr hpr (by omega)
          exact ⟨k, inTree_self (by omega), by rw [this]; simp only [valueAt, Nat.le_refl, if_true, hk2]⟩
        · rcases Int.lt_or_le (D : Int) ((x - p) % (2 * (D : Int) + 1)) with hb | hb
          · have hv := hlv x
            rw [if_pos (by omega)] at hv
            have hlt : mod (x - lo) (2 * D + 1) < (D : Int) := by omega
            obtain ⟨j, hj, hjv⟩ := hE1.complete (mod (x - lo) (2 * D + 1)) (by
              rw [hL]
              exact List.mem_map_of_mem (List.mem_filter.2 ⟨hx, decide_eq_true (by rw [hhalf]; exact hlt)⟩))
            exact ⟨j, (inTree_left (hLl ▸ hj)).1, by
              rw [hvl j hj, hjv]; exact (hls x hx).resolve_right (fun hn => hn hlt)⟩
          · have hv := hrv x
            rw [if_pos (by omega)] at hv
            have hlt : mod (x - ro) (2 * D + 1) < (D : Int) := by omega
            obtain ⟨j, hj, hjv⟩ := hE2.complete (mod (x - ro) (2 * D + 1)) (by
              rw [hRt]
              exact List.mem_map_of_mem (List.mem_filter.2 ⟨hx, decide_eq_true (by rw [hhalf]; exact hlt)⟩))
            exact ⟨j, (inTree_right (hRl ▸ hj)).1, by
              rw [hvr j hj, hjv]; exact (hrs x hx).resolve_right (fun hn => hn hlt)⟩

end Verif.ArfcnRange
