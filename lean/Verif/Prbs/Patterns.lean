import Verif.Prbs.Props
import Mathlib.Data.Fintype.Pi
import Mathlib.Data.Fintype.Card
import Mathlib.Data.Fintype.BigOperators
/-!
Every pattern of bits but the zeros occurs exactly once in a period of a PRBS (C74).
-/
namespace Verif.Prbs

theorem window_inj (p : Prbs) (hp : Known p) (a b : Nat) (hab : a ≤ b) (hb : b < 2 ^ p.len - 1)
    (h : ∀ j, j < p.len → bit p (stateInit p) (a + j) = bit p (stateInit p) (b + j)) : a = b := by
  obtain ⟨h1, h2, h3⟩ := known_coeff p hp
  have hbit : ∀ n m, bit p (stateInit p) (n + m) = bit p (after p (stateInit p) n) m := by
    intro n m; unfold bit; rw [after_add]
  have hs : after p (stateInit p) a = after p (stateInit p) b := by
    refine state_of_bits p hp _ _ (short_after p.len (tap p) p h1 h3 a _ (init_short p hp))
      (short_after p.len (tap p) p h1 h3 b _ (init_short p hp)) fun j hj => ?_
    rw [← hbit, ← hbit, h j hj]
  have hN : after p (stateInit p) (2 ^ p.len - 1) = stateInit p := (state_period p hp _).2 (Nat.dvd_refl _)
  have e : after p (stateInit p) (b + (2 ^ p.len - 1 - a)) = stateInit p := by
    rw [after_add, ← hs, ← after_add, show a + (2 ^ p.len - 1 - a) = 2 ^ p.len - 1 by omega, hN]
  have hd := (state_period p hp _).1 e
  rw [show b + (2 ^ p.len - 1 - a) = (b - a) + (2 ^ p.len - 1) by omega] at hd
  have hd' := (Nat.dvd_add_left (Nat.dvd_refl _)).1 hd
  have := Nat.eq_zero_of_dvd_of_lt hd' (by omega)
  omega

/-- **C74: every pattern of `len` bits but the zeros occurs exactly once in a period.** -/
theorem prbs_patterns (p : Prbs) (hp : Known p) (w : Fin p.len → Bool) (hw : ∃ i, w i = true) :
    ∃! n, n < 2 ^ p.len - 1 ∧ ∀ i : Fin p.len, bit p (stateInit p) (n + i) = w i := by
  have key : ∀ a b, a < 2 ^ p.len - 1 → b < 2 ^ p.len - 1 →
      (∀ i : Fin p.len, bit p (stateInit p) (a + i) = bit p (stateInit p) (b + i)) → a = b := by
    intro a b ha hb hab
    rcases Nat.le_total a b with hl | hl
    · exact window_inj p hp a b hl hb fun j hj => hab ⟨j, hj⟩
    · exact (window_inj p hp b a hl ha fun j hj => (hab ⟨j, hj⟩).symm).symm
  let f : Fin (2 ^ p.len - 1) → {w : Fin p.len → Bool // w ≠ fun _ => false} := fun n =>
    ⟨fun i => bit p (stateInit p) (n + i), fun hf => by
      obtain ⟨j, hj, hb⟩ := prbs_not_all_zero p hp n
      have := congrFun hf ⟨j, hj⟩
      simp only at this
      rw [hb] at this
      cases this⟩
  have hinj : Function.Injective f := fun a b hab => Fin.ext (key a b a.2 b.2 fun i => congrFun (congrArg Subtype.val hab) i)
  have hcard : Fintype.card (Fin (2 ^ p.len - 1)) = Fintype.card {w : Fin p.len → Bool // w ≠ fun _ => false} := by
    rw [Fintype.card_fin, Fintype.card_subtype_compl, Fintype.card_subtype_eq, Fintype.card_fun, Fintype.card_bool, Fintype.card_fin]
  have hsur := ((Fintype.bijective_iff_injective_and_card f).2 ⟨hinj, hcard⟩).2
  obtain ⟨n, hn⟩ := hsur ⟨w, fun hf => by obtain ⟨i, hi⟩ := hw; rw [hf] at hi; cases hi⟩
  refine ⟨n, ⟨n.2, fun i => congrFun (congrArg Subtype.val hn) i⟩, fun m hm => key m n hm.1 n.2 fun i => ?_⟩
  rw [hm.2 i]
  exact (congrFun (congrArg Subtype.val hn) i).symm

/-- the pattern 0000011 of PRBS-7, after one bit -/
example : (List.range 7).map (fun i => bit prbs7 (stateInit prbs7) (1 + i)) = [false, false, false, false, false, true, true] := by decide +kernel

end Verif.Prbs
