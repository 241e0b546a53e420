import Verif.ConvAcc.Model
import Verif.Conv.ViterbiProps
import Mathlib.Tactic.Linarith
import Mathlib.Tactic.Ring
/-!
Walks through the trellis of a binary shift register, as numbers: the binary
digits are the bits shifted in, the newest one the lowest.  `K = k + 2`; a state
is a number below `2 ^ (k + 1)`, a state with the bit before it a number below
`2 ^ (k + 2)`.
-/
namespace Verif.ConvAcc
open Verif.Conv

/-- correlation of coded bits with soft bits: a soft bit counts for a 0 and
against a 1 -/
def corr : List Bool → List Int → Int
  | b :: bs, x :: xs => (if b then -x else x) + corr bs xs
  | _, _ => 0

/-- number of ones -/
def weight : List Bool → Nat
  | [] => 0
  | b :: bs => b.toNat + weight bs

/-- the sum of two code words -/
def xorL (a b : List Bool) : List Bool := List.zipWith xor a b

theorem corr_append {a : List Bool} {x : List Int} (h : a.length = x.length) (b : List Bool) (y : List Int) :
    corr (a ++ b) (x ++ y) = corr a x + corr b y := by
  induction a generalizing x with
  | nil => cases x <;> simp [corr] at h ⊢
  | cons p ps ih =>
    cases x with
    | nil => simp at h
    | cons q qs =>
      simp only [List.cons_append, corr]
      rw [ih (by simpa using h)]
      ring

/-- all soft bits are at most `A` in absolute value -/
def Within (A : Int) (x : List Int) : Prop := ∀ v ∈ x, -A ≤ v ∧ v ≤ A

theorem corr_bound {A : Int} (hA : 0 ≤ A) : ∀ (a : List Bool) (x : List Int), Within A x →
    corr a x ≤ A * x.length ∧ -(A * x.length) ≤ corr a x
  | [], x, _ => by
    have : 0 ≤ A * (x.length : Int) := Int.mul_nonneg hA (by omega)
    simp only [corr]; omega
  | _ :: _, [], _ => by simp [corr]
  | b :: bs, v :: xs, h => by
    have hv := h v (by simp)
    have ih := corr_bound hA bs xs (fun w hw => h w (by simp [hw]))
    simp only [corr, List.length_cons]
    push_cast
    rw [Int.mul_add]
    cases b <;> simp <;> omega

theorem corr_xor {A : Int} (hA : 0 ≤ A) : ∀ (a b : List Bool) (x : List Int), a.length = b.length → Within A x →
    corr a x - 2 * A * weight b ≤ corr (xorL a b) x
  | [], [], x, _, _ => by simp [corr, xorL, weight]
  | [], _ :: _, _, h, _ => by simp at h
  | _ :: _, [], _, h, _ => by simp at h
  | p :: ps, q :: qs, [], _, _ => by
    simp only [corr]
    have : 0 ≤ 2 * A * (weight (q :: qs) : Int) := by
      apply Int.mul_nonneg <;> omega
    have e : corr (xorL (p :: ps) (q :: qs)) [] = 0 := by simp [xorL, corr]
    rw [e]; omega
  | p :: ps, q :: qs, v :: xs, h, hx => by
    have hv := hx v (by simp)
    have ih := corr_xor hA ps qs xs (by simpa using h) (fun w hw => hx w (by simp [hw]))
    have e : xorL (p :: ps) (q :: qs) = (xor p q) :: xorL ps qs := by simp [xorL]
    rw [e]
    simp only [corr, weight]
    push_cast
    have e2 : 2 * A * ((q.toNat : Int) + weight qs) = 2 * A * q.toNat + 2 * A * weight qs := by ring
    rw [e2]
    cases p <;> cases q <;> simp <;> omega

theorem corr_not : ∀ (a : List Bool) (x : List Int), corr (a.map not) x = - corr a x
  | [], x => by simp [corr]
  | _ :: _, [] => by simp [corr]
  | b :: bs, v :: xs => by
    simp only [List.map_cons, corr, corr_not bs xs]
    cases b <;> simp <;> omega

theorem corr_nil (a : List Bool) : corr a [] = 0 := by cases a <;> rfl

/-- a linear code over windows of `k + 2` bits, all of whose polynomials have
their first and their last coefficient -/
structure Gen (k N : Nat) (o : Nat → List Bool) : Prop where
  len : ∀ x, x < 2 ^ (k + 2) → (o x).length = N
  lin : ∀ x y, x < 2 ^ (k + 2) → y < 2 ^ (k + 2) → o (x ^^^ y) = xorL (o x) (o y)
  first : ∀ x, x < 2 ^ (k + 2) → o (x ^^^ 1) = (o x).map not
  last : ∀ x, x < 2 ^ (k + 2) → o (x ^^^ 2 ^ (k + 1)) = (o x).map not

section walks
variable (k : Nat) (o : Nat → List Bool) (init : Nat → Int)

/-- metric of a walk; the symbols received, newest first -/
def pm : Nat → List (List Int) → Int
  | X, [] => init X
  | X, r :: rs => corr (o (X % 2 ^ (k + 2))) r + pm (X / 2) rs

/-- best metric of a walk to state `s` -/
def best : List (List Int) → Nat → Int
  | [], s => init s
  | r :: rs, s => max (best rs (s / 2) + corr (o s) r)
      (best rs (s / 2 + 2 ^ k) + corr (o (s + 2 ^ (k + 1))) r)

/-- the bit that left the register on the way to `s`, preferring 0 -/
def choice (r : List Int) (rs : List (List Int)) (s : Nat) : Nat :=
  if best k o init rs (s / 2) + corr (o s) r ≥ best k o init rs (s / 2 + 2 ^ k) + corr (o (s + 2 ^ (k + 1))) r
  then 0 else 1

/-- the walk found -/
def tb : List (List Int) → Nat → Nat
  | [], s => s
  | r :: rs, s => 2 * tb rs (s / 2 + choice k o init r rs s * 2 ^ k) + s % 2

theorem choice_lt (r rs s) : choice k o init r rs s < 2 := by unfold choice; split <;> omega

theorem best_choice (r : List Int) (rs : List (List Int)) (s : Nat) :
    best k o init (r :: rs) s = best k o init rs (s / 2 + choice k o init r rs s * 2 ^ k) +
      corr (o (s + choice k o init r rs s * 2 ^ (k + 1))) r := by
  have h : best k o init (r :: rs) s = max (best k o init rs (s / 2) + corr (o s) r)
      (best k o init rs (s / 2 + 2 ^ k) + corr (o (s + 2 ^ (k + 1))) r) := rfl
  rw [h]
  unfold choice
  split
  · simp; omega
  · simp; omega

theorem pred_lt {s p : Nat} (hs : s < 2 ^ (k + 1)) (hp : p < 2) : s / 2 + p * 2 ^ k < 2 ^ (k + 1) := by
  rw [Nat.pow_succ] at *
  have : p * 2 ^ k ≤ 1 * 2 ^ k := Nat.mul_le_mul_right _ (by omega)
  omega

theorem best_le (B : Int) (rs : List (List Int)) (M : Int) (hi : ∀ s, s < 2 ^ (k + 1) → init s ≤ B)
    (hr : ∀ r ∈ rs, ∀ a, corr a r ≤ M) (s : Nat) (hs : s < 2 ^ (k + 1)) :
    best k o init rs s ≤ B + rs.length * M := by
  induction rs generalizing s with
  | nil => simpa [best] using hi s hs
  | cons r rs ih =>
    rw [best_choice]
    have h1 := ih (fun q hq => hr q (by simp [hq])) _ (pred_lt k hs (choice_lt k o init r rs s))
    have h2 := hr r (by simp) (o (s + choice k o init r rs s * 2 ^ (k + 1)))
    simp only [List.length_cons]
    push_cast
    rw [Int.add_mul]
    omega

theorem window_split (X : Nat) :
    (X / 2) % 2 ^ (k + 1) = (X % 2 ^ (k + 1)) / 2 + (X / 2 ^ (k + 1) % 2) * 2 ^ k ∧
    X % 2 ^ (k + 2) = X % 2 ^ (k + 1) + (X / 2 ^ (k + 1) % 2) * 2 ^ (k + 1) := by
  have e1 : (2 : Nat) ^ (k + 2) = 2 ^ (k + 1) * 2 := by ring
  have e0 : (2 : Nat) ^ (k + 1) = 2 ^ k * 2 := by ring
  have hw : X % 2 ^ (k + 2) = X % 2 ^ (k + 1) + (X / 2 ^ (k + 1) % 2) * 2 ^ (k + 1) := by
    rw [e1, Nat.mod_mul]; ring
  refine ⟨?_, hw⟩
  have h2 : (X / 2) % 2 ^ (k + 1) = (X % 2 ^ (k + 2)) / 2 := by
    rw [show (2 : Nat) ^ (k + 2) = 2 * 2 ^ (k + 1) by ring, Nat.mod_mul_right_div_self]
  rw [h2, hw]
  generalize X / 2 ^ (k + 1) % 2 = p
  rw [e0]
  generalize hA : X % (2 ^ k * 2) = A
  rw [show p * (2 ^ k * 2) = 2 * (p * 2 ^ k) by ring]
  omega

/-- no walk is better than `best` -/
theorem pm_le (rs : List (List Int)) (X : Nat) (hX : X < 2 ^ (rs.length + (k + 1))) :
    pm k o init X rs ≤ best k o init rs (X % 2 ^ (k + 1)) := by
  induction rs generalizing X with
  | nil =>
    simp only [List.length_nil, Nat.zero_add] at hX
    simp only [pm, best, Nat.mod_eq_of_lt hX]
    exact Int.le_refl _
  | cons r rs ih =>
    obtain ⟨h1, h2⟩ := window_split k X
    have hx : X / 2 < 2 ^ (rs.length + (k + 1)) := by
      have : (2 : Nat) ^ ((r :: rs).length + (k + 1)) = 2 ^ (rs.length + (k + 1)) * 2 := by
        rw [List.length_cons]; ring
      omega
    have := ih (X / 2) hx
    simp only [pm, best]
    rw [h1] at this
    rw [h2]
    have hp : X / 2 ^ (k + 1) % 2 = 0 ∨ X / 2 ^ (k + 1) % 2 = 1 := by omega
    rcases hp with e | e <;> rw [e] at this ⊢ <;> simp only [Nat.zero_mul, Nat.add_zero, Nat.one_mul] at this ⊢ <;> omega

theorem tb_spec (rs : List (List Int)) (s : Nat) (hs : s < 2 ^ (k + 1)) :
    tb k o init rs s < 2 ^ (rs.length + (k + 1)) ∧ tb k o init rs s % 2 ^ (k + 1) = s ∧
      pm k o init (tb k o init rs s) rs = best k o init rs s := by
  induction rs generalizing s with
  | nil => exact ⟨by simpa [tb] using hs, Nat.mod_eq_of_lt hs, rfl⟩
  | cons r rs ih =>
    have hc := choice_lt k o init r rs s
    obtain ⟨a1, a2, a3⟩ := ih _ (pred_lt k hs hc)
    generalize hY : tb k o init rs (s / 2 + choice k o init r rs s * 2 ^ k) = Y at a1 a2 a3
    have e : tb k o init (r :: rs) s = 2 * Y + s % 2 := by rw [tb, hY]
    rw [e]
    have hwin : (2 * Y + s % 2) % 2 ^ (k + 2) = s + choice k o init r rs s * 2 ^ (k + 1) := by
      have : (2 * Y + s % 2) % 2 ^ (k + 2) = 2 * (Y % 2 ^ (k + 1)) + s % 2 := by
        rw [show (2 : Nat) ^ (k + 2) = 2 * 2 ^ (k + 1) by ring, Nat.mod_mul,
          show (2 * Y + s % 2) % 2 = s % 2 by omega, show (2 * Y + s % 2) / 2 = Y by omega]
        ring
      rw [this, a2, show (2 : Nat) ^ (k + 1) = 2 ^ k * 2 by ring, ← Nat.mul_assoc]
      omega
    refine ⟨?_, ?_, ?_⟩
    · have : (2 : Nat) ^ ((r :: rs).length + (k + 1)) = 2 ^ (rs.length + (k + 1)) * 2 := by
        rw [List.length_cons]; ring
      omega
    · have : (2 * Y + s % 2) % 2 ^ (k + 1) = (2 * Y + s % 2) % 2 ^ (k + 2) % 2 ^ (k + 1) := by
        rw [Nat.mod_mod_of_dvd _ (Nat.pow_dvd_pow 2 (by omega))]
      rw [this, hwin, Nat.add_mul_mod_self_right, Nat.mod_eq_of_lt hs]
    · simp only [pm]
      rw [hwin, show (2 * Y + s % 2) / 2 = Y by omega, a3, best_choice]
      omega

theorem tb_half (r : List Int) (rs : List (List Int)) (s : Nat) :
    tb k o init (r :: rs) s / 2 = tb k o init rs (s / 2 + choice k o init r rs s * 2 ^ k) := by
  rw [tb]; omega

/-! ### differences of walks -/

/-- weight of the code word of a difference over `n` steps -/
def wt : Nat → Nat → Nat
  | 0, _ => 0
  | n + 1, e => weight (o (e % 2 ^ (k + 2))) + wt n (e / 2)

variable {k o init}

theorem o_zero {N : Nat} (hg : Gen k N o) : o 0 = List.replicate N false := by
  have h := hg.lin 0 0 (Nat.two_pow_pos _) (Nat.two_pow_pos _)
  have hl := hg.len 0 (Nat.two_pow_pos _)
  rw [Nat.xor_self] at h
  have : ∀ l : List Bool, l = xorL l l → l = List.replicate l.length false := by
    intro l
    induction l with
    | nil => intro _; rfl
    | cons b l ih =>
      intro hb
      simp only [xorL, List.zipWith_cons_cons, List.cons.injEq] at hb
      have h2 := ih hb.2
      have h1 : b = false := by rw [hb.1]; simp
      rw [h1]
      simp only [List.length_cons, List.replicate_succ]
      rw [← h2]
  rw [this _ h, hl]

theorem weight_zero (N : Nat) : weight (List.replicate N false) = 0 := by
  induction N with
  | zero => rfl
  | succ n ih => simp [List.replicate_succ, weight, ih]

theorem wt_zero {N : Nat} (hg : Gen k N o) (n : Nat) : wt k o n 0 = 0 := by
  induction n with
  | zero => rfl
  | succ n ih => simp [wt, ih, o_zero hg, weight_zero]

theorem wt_small {N : Nat} (hg : Gen k N o) (L n e : Nat) (he : e < 2 ^ L) (hn : L ≤ n) : wt k o n e = wt k o L e := by
  induction L generalizing n e with
  | zero =>
    have : e = 0 := by simp at he; omega
    subst this
    rw [wt_zero hg, wt]
  | succ L ih =>
    cases n with
    | zero => omega
    | succ n =>
      simp only [wt]
      rw [ih n (e / 2) (by rw [Nat.pow_succ] at he; omega) (by omega)]

theorem xor_half (a b : Nat) : (a ^^^ b) / 2 = a / 2 ^^^ b / 2 := by
  rw [← Nat.shiftRight_one, ← Nat.shiftRight_one, ← Nat.shiftRight_one, Nat.shiftRight_xor_distrib]

/-- a walk changed by a difference loses at most twice the amplitude per
changed bit, apart from its beginning -/
theorem pm_xor {N : Nat} (hg : Gen k N o) {A : Int} (hA : 0 ≤ A) (init' : Nat → Int) (rs : List (List Int))
    (hr : ∀ r ∈ rs, Within A r) (X e : Nat) :
    pm k o init X rs - init (X / 2 ^ rs.length) + init' ((X ^^^ e) / 2 ^ rs.length) - 2 * A * wt k o rs.length e ≤
      pm k o init' (X ^^^ e) rs := by
  induction rs generalizing X e with
  | nil => simp [pm, wt]
  | cons r rs ih =>
    simp only [pm, List.length_cons, wt]
    have h1 := ih (fun q hq => hr q (by simp [hq])) (X / 2) (e / 2)
    rw [← xor_half] at h1
    have hw : (X ^^^ e) % 2 ^ (k + 2) = (X % 2 ^ (k + 2)) ^^^ (e % 2 ^ (k + 2)) := Nat.xor_mod_two_pow
    have hx := Nat.mod_lt X (Nat.two_pow_pos (k + 2))
    have hy := Nat.mod_lt e (Nat.two_pow_pos (k + 2))
    have h2 := corr_xor hA (o (X % 2 ^ (k + 2))) (o (e % 2 ^ (k + 2))) r
      (by rw [hg.len _ hx, hg.len _ hy]) (hr r (by simp))
    rw [hw, hg.lin _ _ hx hy]
    have d1 : X / 2 / 2 ^ rs.length = X / 2 ^ (rs.length + 1) := by
      rw [Nat.div_div_eq_div_mul, Nat.pow_succ, Nat.mul_comm 2]
    have d2 : (X ^^^ e) / 2 / 2 ^ rs.length = (X ^^^ e) / 2 ^ (rs.length + 1) := by
      rw [Nat.div_div_eq_div_mul, Nat.pow_succ, Nat.mul_comm 2]
    rw [d1, d2] at h1
    push_cast
    have e3 : 2 * A * ((weight (o (e % 2 ^ (k + 2))) : Int) + wt k o rs.length (e / 2)) =
      2 * A * weight (o (e % 2 ^ (k + 2))) + 2 * A * wt k o rs.length (e / 2) := by ring
    rw [e3]
    omega

/-- every state can be reached from state 0 within `L` steps by a walk of at
most this weight -/
def Reach (k : Nat) (o : Nat → List Bool) (L w : Nat) : Prop :=
  ∀ d, d < 2 ^ (k + 1) → ∃ e, e < 2 ^ L ∧ e % 2 ^ (k + 1) = d ∧ wt k o L e ≤ w

/-- and state 0 from every state -/
def Return (k : Nat) (o : Nat → List Bool) (L w : Nat) : Prop :=
  ∀ j, j < 2 ^ (k + 1) → ∃ e, e / 2 ^ L = j ∧ e % 2 ^ (k + 1) = 0 ∧ wt k o L e ≤ w

theorem best_spread {N : Nat} (hg : Gen k N o) {A : Int} (hA : 0 ≤ A) {L w : Nat} (hR : Reach k o L w)
    (rs : List (List Int)) (hr : ∀ r ∈ rs, Within A r) (hL : L ≤ rs.length)
    (s s' : Nat) (hs : s < 2 ^ (k + 1)) (hs' : s' < 2 ^ (k + 1)) :
    best k o init rs s - best k o init rs s' ≤ 2 * A * w := by
  obtain ⟨t1, t2, t3⟩ := tb_spec k o init rs s hs
  obtain ⟨e, e1, e2, e3⟩ := hR (s ^^^ s') (Nat.xor_lt_two_pow hs hs')
  have he : e < 2 ^ rs.length := Nat.lt_of_lt_of_le e1 (Nat.pow_le_pow_right (by omega) hL)
  have hx := pm_xor hg hA init rs hr (tb k o init rs s) e (init := init)
  have hi : (tb k o init rs s ^^^ e) / 2 ^ rs.length = tb k o init rs s / 2 ^ rs.length := by
    rw [← Nat.shiftRight_eq_div_pow, ← Nat.shiftRight_eq_div_pow, Nat.shiftRight_xor_distrib,
      Nat.shiftRight_eq_zero e _ he, Nat.xor_zero]
  rw [hi, t3, wt_small hg L _ e e1 hL] at hx
  have hle := pm_le k o init rs (tb k o init rs s ^^^ e)
    (Nat.xor_lt_two_pow t1 (Nat.lt_of_lt_of_le he (Nat.pow_le_pow_right (by omega) (by omega))))
  have hm : (tb k o init rs s ^^^ e) % 2 ^ (k + 1) = s' := by
    rw [Nat.xor_mod_two_pow, t2, e2, ← Nat.xor_assoc, Nat.xor_self, Nat.zero_xor]
  rw [hm] at hle
  have h3 : 2 * A * (wt k o L e : Int) ≤ 2 * A * w := by
    apply Int.mul_le_mul_of_nonneg_left _ (by omega); omega
  omega

theorem wt_shift {N : Nat} (hg : Gen k N o) (n m e : Nat) (he : e % 2 ^ (k + 1) = 0) :
    wt k o (m + n) (e * 2 ^ m) = wt k o n e := by
  induction m with
  | zero => simp
  | succ m ih =>
    rw [show m + 1 + n = (m + n) + 1 by omega]
    simp only [wt]
    rw [show e * 2 ^ (m + 1) / 2 = e * 2 ^ m by rw [Nat.pow_succ, ← Nat.mul_assoc]; omega, ih]
    have : e * 2 ^ (m + 1) % 2 ^ (k + 2) = 0 := by
      apply Nat.mod_eq_zero_of_dvd
      obtain ⟨q, hq⟩ := Nat.dvd_of_mod_eq_zero he
      exact ⟨q * 2 ^ m, by rw [hq]; ring⟩
    rw [this, o_zero hg, weight_zero, Nat.zero_add]

/-- every walk has a competitor from state 0 -/
theorem from_zero {N : Nat} (hg : Gen k N o) {A : Int} (hA : 0 ≤ A) {L w : Nat} (hR : Return k o L w)
    (rs : List (List Int)) (hr : ∀ r ∈ rs, Within A r) (hL : L ≤ rs.length) (X : Nat)
    (hX : X < 2 ^ (rs.length + (k + 1))) :
    ∃ Y, Y < 2 ^ rs.length ∧ Y % 2 ^ (k + 1) = X % 2 ^ (k + 1) ∧
      pm k o (fun _ => 0) X rs - 2 * A * w ≤ pm k o (fun _ => 0) Y rs := by
  have hj : X / 2 ^ rs.length < 2 ^ (k + 1) := by
    rw [Nat.div_lt_iff_lt_mul (Nat.two_pow_pos _), ← Nat.pow_add, Nat.add_comm]; exact hX
  obtain ⟨e, e1, e2, e3⟩ := hR _ hj
  obtain ⟨m, hm⟩ : ∃ m, rs.length = m + L := ⟨rs.length - L, by omega⟩
  have hx := pm_xor hg hA (fun _ => 0) rs hr X (e * 2 ^ m) (init := fun _ => 0)
  have hw : wt k o rs.length (e * 2 ^ m) = wt k o L e := by rw [hm, wt_shift hg _ _ _ e2]
  have hd : e * 2 ^ m / 2 ^ rs.length = X / 2 ^ rs.length := by
    rw [← e1, hm, Nat.pow_add, Nat.mul_comm (2 ^ m), Nat.mul_div_mul_right _ _ (Nat.two_pow_pos m)]
  refine ⟨X ^^^ e * 2 ^ m, ?_, ?_, ?_⟩
  · have hz : (X ^^^ e * 2 ^ m) / 2 ^ rs.length = 0 := by
      rw [← Nat.shiftRight_eq_div_pow, Nat.shiftRight_xor_distrib, Nat.shiftRight_eq_div_pow,
        Nat.shiftRight_eq_div_pow, hd, Nat.xor_self]
    rcases Nat.div_eq_zero_iff.1 hz with h | h
    · have := Nat.two_pow_pos rs.length; omega
    · exact h
  · rw [Nat.xor_mod_two_pow]
    have : e * 2 ^ m % 2 ^ (k + 1) = 0 := by
      obtain ⟨q, hq⟩ := Nat.dvd_of_mod_eq_zero e2
      exact Nat.mod_eq_zero_of_dvd ⟨q * 2 ^ m, by rw [hq]; ring⟩
    rw [this, Nat.xor_zero]
  · rw [hw] at hx
    have h3 : 2 * A * (wt k o L e : Int) ≤ 2 * A * w := by
      apply Int.mul_le_mul_of_nonneg_left _ (by omega); omega
    omega

theorem pm_init (rs : List (List Int)) (X : Nat) :
    pm k o init X rs = pm k o (fun _ => 0) X rs + init (X / 2 ^ rs.length) := by
  induction rs generalizing X with
  | nil => simp [pm]
  | cons r rs ih =>
    simp only [pm, ih (X / 2), List.length_cons, Nat.pow_succ, Nat.div_div_eq_div_mul, Nat.mul_comm 2]
    omega

theorem xor_top {n s : Nat} (hs : s < 2 ^ n) : s ^^^ 2 ^ n = s + 2 ^ n := by
  apply Nat.eq_of_testBit_eq
  intro i
  rw [Nat.testBit_xor, Nat.testBit_two_pow, Nat.add_comm]
  rcases Nat.lt_trichotomy i n with h | h | h
  · rw [Nat.testBit_two_pow_add_gt h]
    simp [show n ≠ i by omega]
  · subst h
    rw [Nat.testBit_two_pow_add_eq]
    simp
  · have h1 : s.testBit i = false := Nat.testBit_lt_two_pow
      (Nat.lt_of_lt_of_le hs (Nat.pow_le_pow_right (by omega) (by omega)))
    have h2 : (2 ^ n + s).testBit i = false := Nat.testBit_lt_two_pow
      (Nat.lt_of_lt_of_le (show 2 ^ n + s < 2 ^ (n + 1) by rw [Nat.pow_succ]; omega)
        (Nat.pow_le_pow_right (by omega) (by omega)))
    simp [h1, h2, show n ≠ i by omega]

theorem xor_low (s : Nat) (hs : s % 2 = 0) : s ^^^ 1 = s + 1 := by
  apply Nat.eq_of_testBit_eq
  intro i
  rw [Nat.testBit_xor]
  cases i with
  | zero => simp [Nat.testBit_zero, hs]; omega
  | succ i =>
    rw [Nat.testBit_succ, Nat.testBit_succ, Nat.testBit_succ, show (s + 1) / 2 = s / 2 by omega]
    simp

/-- the way on from a state is a way to its successor -/
theorem best_step (r : List Int) (rs : List (List Int)) (w : Nat) (hw : w < 2 ^ (k + 2)) :
    best k o init rs (w / 2) + corr (o w) r ≤ best k o init (r :: rs) (w % 2 ^ (k + 1)) := by
  obtain ⟨h1, h2⟩ := window_split k w
  rw [Nat.mod_eq_of_lt hw] at h2
  rw [Nat.mod_eq_of_lt (show w / 2 < 2 ^ (k + 1) by
    rw [show (2 : Nat) ^ (k + 2) = 2 ^ (k + 1) * 2 by ring] at hw; omega)] at h1
  have hp : w / 2 ^ (k + 1) % 2 = 0 ∨ w / 2 ^ (k + 1) % 2 = 1 := by omega
  generalize hu : w % 2 ^ (k + 1) = u at *
  simp only [best]
  rcases hp with e | e <;> rw [e] at h1 h2 <;> simp only [Nat.zero_mul, Nat.add_zero, Nat.one_mul] at h1 h2 <;>
    rw [h1, h2] <;> omega

/-- no sum falls: a state has two predecessors with opposite metrics -/
theorem best_min {N : Nat} (hg : Gen k N o) (r : List Int) (rs : List (List Int)) (B : Int)
    (h : ∀ s, s < 2 ^ (k + 1) → B ≤ best k o init rs s) (s : Nat) (hs : s < 2 ^ (k + 1)) :
    B ≤ best k o init (r :: rs) s := by
  have hp : (2 : Nat) ^ (k + 1) = 2 ^ k * 2 := by ring
  have h0 := h (s / 2) (by omega)
  have h1 := h (s / 2 + 2 ^ k) (by omega)
  have hx : s + 2 ^ (k + 1) = s ^^^ 2 ^ (k + 1) := by
    rw [xor_top hs]
  simp only [best]
  rw [hx, hg.last s (by rw [show (2 : Nat) ^ (k + 2) = 2 ^ (k + 1) * 2 by ring]; omega), corr_not]
  omega

/-- the largest sum does not fall -/
theorem best_max {N : Nat} (hg : Gen k N o) (r : List Int) (rs : List (List Int)) (B : Int)
    (h : ∃ s, s < 2 ^ (k + 1) ∧ B ≤ best k o init rs s) :
    ∃ s, s < 2 ^ (k + 1) ∧ B ≤ best k o init (r :: rs) s := by
  obtain ⟨s, hs, hB⟩ := h
  have hk : (2 : Nat) ^ (k + 2) = 2 ^ (k + 1) * 2 := by ring
  have e : corr (o (2 * s + 1)) r = - corr (o (2 * s)) r := by
    rw [← xor_low (2 * s) (by omega), hg.first (2 * s) (by omega), corr_not]
  have a := best_step (k := k) (init := init) (o := o) r rs (2 * s) (by omega)
  have b := best_step (k := k) (init := init) (o := o) r rs (2 * s + 1) (by omega)
  rw [show 2 * s / 2 = s by omega] at a
  rw [show (2 * s + 1) / 2 = s by omega, e] at b
  by_cases h0 : 0 ≤ corr (o (2 * s)) r
  · exact ⟨2 * s % 2 ^ (k + 1), Nat.mod_lt _ (Nat.two_pow_pos _), by omega⟩
  · exact ⟨(2 * s + 1) % 2 ^ (k + 1), Nat.mod_lt _ (Nat.two_pow_pos _), by omega⟩

end walks
end Verif.ConvAcc
