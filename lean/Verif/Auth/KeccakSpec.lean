import Verif.Auth.Keccak
import Mathlib.Tactic.IntervalCases
/-!
`Keccak_f_64` is Keccak-f[1600] of FIPS 202.
-/
namespace Verif.Auth

theorem rotate64_eq (v : Lane) (n : Nat) (h : n < 64) : v.rotateLeft n = rotate64 v n := by
  rw [rotate64, BitVec.rotateLeft_def, Nat.mod_eq_of_lt h]

theorem iota_eq : ∀ i < 24, kIotaConst i = roundConst i := by decide +kernel

theorem laneCons {y : List Lane} {n : Nat} (h : y.length = n + 1) :
    ∃ a t, y = a :: t ∧ t.length = n := by
  cases y with
  | nil => simp at h
  | cons a t => exact ⟨a, t, rfl, by simpa using h⟩

theorem list25 (y : List Lane) (h : y.length = 25) :
    ∃ a0 a1 a2 a3 a4 a5 a6 a7 a8 a9 a10 a11 a12 a13 a14 a15 a16 a17 a18 a19 a20 a21 a22 a23 a24, y = [a0, a1, a2, a3, a4, a5, a6, a7, a8, a9, a10, a11, a12, a13, a14, a15, a16, a17, a18, a19, a20, a21, a22, a23, a24] := by
  obtain ⟨a0, y0, rfl, h0⟩ := laneCons h
  obtain ⟨a1, y1, rfl, h1⟩ := laneCons h0
  obtain ⟨a2, y2, rfl, h2⟩ := laneCons h1
  obtain ⟨a3, y3, rfl, h3⟩ := laneCons h2
  obtain ⟨a4, y4, rfl, h4⟩ := laneCons h3
  obtain ⟨a5, y5, rfl, h5⟩ := laneCons h4
  obtain ⟨a6, y6, rfl, h6⟩ := laneCons h5
  obtain ⟨a7, y7, rfl, h7⟩ := laneCons h6
  obtain ⟨a8, y8, rfl, h8⟩ := laneCons h7
  obtain ⟨a9, y9, rfl, h9⟩ := laneCons h8
  obtain ⟨a10, y10, rfl, h10⟩ := laneCons h9
  obtain ⟨a11, y11, rfl, h11⟩ := laneCons h10
  obtain ⟨a12, y12, rfl, h12⟩ := laneCons h11
  obtain ⟨a13, y13, rfl, h13⟩ := laneCons h12
  obtain ⟨a14, y14, rfl, h14⟩ := laneCons h13
  obtain ⟨a15, y15, rfl, h15⟩ := laneCons h14
  obtain ⟨a16, y16, rfl, h16⟩ := laneCons h15
  obtain ⟨a17, y17, rfl, h17⟩ := laneCons h16
  obtain ⟨a18, y18, rfl, h18⟩ := laneCons h17
  obtain ⟨a19, y19, rfl, h19⟩ := laneCons h18
  obtain ⟨a20, y20, rfl, h20⟩ := laneCons h19
  obtain ⟨a21, y21, rfl, h21⟩ := laneCons h20
  obtain ⟨a22, y22, rfl, h22⟩ := laneCons h21
  obtain ⟨a23, y23, rfl, h23⟩ := laneCons h22
  obtain ⟨a24, y24, rfl, h24⟩ := laneCons h23
  obtain rfl := List.eq_nil_of_length_eq_zero h24
  exact ⟨a0, a1, a2, a3, a4, a5, a6, a7, a8, a9, a10, a11, a12, a13, a14, a15, a16, a17, a18, a19, a20, a21, a22, a23, a24, rfl⟩

/-- Two states are the same on the 25 lanes. -/
def Same (A B : State) : Prop := ∀ x < 5, ∀ y < 5, A x y = B x y

theorem range5 : List.range 5 = [0, 1, 2, 3, 4] := rfl
theorem range24 : List.range 24 = [0, 1, 2, 3, 4, 5, 6, 7, 8, 9, 10, 11, 12, 13, 14, 15, 16, 17, 18,
  19, 20, 21, 22, 23] := rfl

theorem thetaT_list (a0 a1 a2 a3 a4 a5 a6 a7 a8 a9 a10 a11 a12 a13 a14 a15 a16 a17 a18 a19 a20 a21 a22 a23 a24 : Lane) : thetaT [a0, a1, a2, a3, a4, a5, a6, a7, a8, a9, a10, a11, a12, a13, a14, a15, a16, a17, a18, a19, a20, a21, a22, a23, a24] =
    [a0 ^^^ a5 ^^^ a10 ^^^ a15 ^^^ a20, a1 ^^^ a6 ^^^ a11 ^^^ a16 ^^^ a21, a2 ^^^ a7 ^^^ a12 ^^^ a17 ^^^ a22, a3 ^^^ a8 ^^^ a13 ^^^ a18 ^^^ a23, a4 ^^^ a9 ^^^ a14 ^^^ a19 ^^^ a24] := by
  simp [thetaT, range5, lane]

theorem theta_fold (a0 a1 a2 a3 a4 a5 a6 a7 a8 a9 a10 a11 a12 a13 a14 a15 a16 a17 a18 a19 a20 a21 a22 a23 a24 t0 t1 t2 t3 t4 : Lane) :
    (List.range 5).foldl (fun s r =>
      let s := s.set (5 * r + 0) (lane s (5 * r + 0) ^^^ (lane [t0, t1, t2, t3, t4] 4 ^^^ rotate64 (lane [t0, t1, t2, t3, t4] 1) 1))
      let s := s.set (5 * r + 1) (lane s (5 * r + 1) ^^^ (lane [t0, t1, t2, t3, t4] 0 ^^^ rotate64 (lane [t0, t1, t2, t3, t4] 2) 1))
      let s := s.set (5 * r + 2) (lane s (5 * r + 2) ^^^ (lane [t0, t1, t2, t3, t4] 1 ^^^ rotate64 (lane [t0, t1, t2, t3, t4] 3) 1))
      let s := s.set (5 * r + 3) (lane s (5 * r + 3) ^^^ (lane [t0, t1, t2, t3, t4] 2 ^^^ rotate64 (lane [t0, t1, t2, t3, t4] 4) 1))
      s.set (5 * r + 4) (lane s (5 * r + 4) ^^^ (lane [t0, t1, t2, t3, t4] 3 ^^^ rotate64 (lane [t0, t1, t2, t3, t4] 0) 1))) [a0, a1, a2, a3, a4, a5, a6, a7, a8, a9, a10, a11, a12, a13, a14, a15, a16, a17, a18, a19, a20, a21, a22, a23, a24] =
    [a0 ^^^ (t4 ^^^ rotate64 t1 1),
     a1 ^^^ (t0 ^^^ rotate64 t2 1),
     a2 ^^^ (t1 ^^^ rotate64 t3 1),
     a3 ^^^ (t2 ^^^ rotate64 t4 1),
     a4 ^^^ (t3 ^^^ rotate64 t0 1),
     a5 ^^^ (t4 ^^^ rotate64 t1 1),
     a6 ^^^ (t0 ^^^ rotate64 t2 1),
     a7 ^^^ (t1 ^^^ rotate64 t3 1),
     a8 ^^^ (t2 ^^^ rotate64 t4 1),
     a9 ^^^ (t3 ^^^ rotate64 t0 1),
     a10 ^^^ (t4 ^^^ rotate64 t1 1),
     a11 ^^^ (t0 ^^^ rotate64 t2 1),
     a12 ^^^ (t1 ^^^ rotate64 t3 1),
     a13 ^^^ (t2 ^^^ rotate64 t4 1),
     a14 ^^^ (t3 ^^^ rotate64 t0 1),
     a15 ^^^ (t4 ^^^ rotate64 t1 1),
     a16 ^^^ (t0 ^^^ rotate64 t2 1),
     a17 ^^^ (t1 ^^^ rotate64 t3 1),
     a18 ^^^ (t2 ^^^ rotate64 t4 1),
     a19 ^^^ (t3 ^^^ rotate64 t0 1),
     a20 ^^^ (t4 ^^^ rotate64 t1 1),
     a21 ^^^ (t0 ^^^ rotate64 t2 1),
     a22 ^^^ (t1 ^^^ rotate64 t3 1),
     a23 ^^^ (t2 ^^^ rotate64 t4 1),
     a24 ^^^ (t3 ^^^ rotate64 t0 1)] := by
  simp [range5, lane]

theorem rho_fold (a0 a1 a2 a3 a4 a5 a6 a7 a8 a9 a10 a11 a12 a13 a14 a15 a16 a17 a18 a19 a20 a21 a22 a23 a24 : Lane) : kRhoStep [a0, a1, a2, a3, a4, a5, a6, a7, a8, a9, a10, a11, a12, a13, a14, a15, a16, a17, a18, a19, a20, a21, a22, a23, a24] =
    [a0, rotate64 a1 1, rotate64 a2 62, rotate64 a3 28, rotate64 a4 27, rotate64 a5 36, rotate64 a6 44, rotate64 a7 6, rotate64 a8 55, rotate64 a9 20, rotate64 a10 3, rotate64 a11 10, rotate64 a12 43, rotate64 a13 25, rotate64 a14 39, rotate64 a15 41, rotate64 a16 45, rotate64 a17 15, rotate64 a18 21, rotate64 a19 8, rotate64 a20 18, rotate64 a21 2, rotate64 a22 61, rotate64 a23 56, rotate64 a24 14] := by
  simp [kRhoStep, range24, lane, kRho]

theorem pi_fold (a0 a1 a2 a3 a4 a5 a6 a7 a8 a9 a10 a11 a12 a13 a14 a15 a16 a17 a18 a19 a20 a21 a22 a23 a24 : Lane) : kPiStep [a0, a1, a2, a3, a4, a5, a6, a7, a8, a9, a10, a11, a12, a13, a14, a15, a16, a17, a18, a19, a20, a21, a22, a23, a24] =
    [a0, a6, a12, a18, a24, a3, a9, a10, a16, a22, a1, a7, a13, a19, a20, a4, a5, a11, a17, a23, a2, a8, a14, a15, a21] := by
  simp [kPiStep, kPiLoop, lane, kPi]

theorem chi_fold (a0 a1 a2 a3 a4 a5 a6 a7 a8 a9 a10 a11 a12 a13 a14 a15 a16 a17 a18 a19 a20 a21 a22 a23 a24 : Lane) : kChi [a0, a1, a2, a3, a4, a5, a6, a7, a8, a9, a10, a11, a12, a13, a14, a15, a16, a17, a18, a19, a20, a21, a22, a23, a24] =
    [a0 ^^^ (~~~a1 &&& a2),
     a1 ^^^ (~~~a2 &&& a3),
     a2 ^^^ (~~~a3 &&& a4),
     a3 ^^^ (~~~a4 &&& a0),
     a4 ^^^ (~~~a0 &&& a1),
     a5 ^^^ (~~~a6 &&& a7),
     a6 ^^^ (~~~a7 &&& a8),
     a7 ^^^ (~~~a8 &&& a9),
     a8 ^^^ (~~~a9 &&& a5),
     a9 ^^^ (~~~a5 &&& a6),
     a10 ^^^ (~~~a11 &&& a12),
     a11 ^^^ (~~~a12 &&& a13),
     a12 ^^^ (~~~a13 &&& a14),
     a13 ^^^ (~~~a14 &&& a10),
     a14 ^^^ (~~~a10 &&& a11),
     a15 ^^^ (~~~a16 &&& a17),
     a16 ^^^ (~~~a17 &&& a18),
     a17 ^^^ (~~~a18 &&& a19),
     a18 ^^^ (~~~a19 &&& a15),
     a19 ^^^ (~~~a15 &&& a16),
     a20 ^^^ (~~~a21 &&& a22),
     a21 ^^^ (~~~a22 &&& a23),
     a22 ^^^ (~~~a23 &&& a24),
     a23 ^^^ (~~~a24 &&& a20),
     a24 ^^^ (~~~a20 &&& a21)] := by
  simp [kChi, kChiRow, range5, lane]

theorem theta_eq (s : List Lane) (h : s.length = 25) :
    (kTheta s).length = 25 ∧ Same (stateOf (kTheta s)) (sTheta (stateOf s)) := by
  obtain ⟨a0, a1, a2, a3, a4, a5, a6, a7, a8, a9, a10, a11, a12, a13, a14, a15, a16, a17, a18, a19, a20, a21, a22, a23, a24, rfl⟩ := list25 s h
  rw [kTheta, thetaT_list, theta_fold]
  refine ⟨rfl, fun x hx y hy => ?_⟩
  have hr : ∀ v : Lane, v.rotateLeft 1 = rotate64 v 1 := fun v => rotate64_eq v 1 (by omega)
  simp only [sTheta, hr]
  interval_cases x <;> interval_cases y <;> rfl

theorem rhoOffset_eq : ∀ x < 5, ∀ y < 5, rhoOffset x y = kRho.getD (x + 5 * y) 0 ∧ rhoOffset x y < 64 := by
  decide +kernel

theorem rho_eq (s : List Lane) (h : s.length = 25) :
    (kRhoStep s).length = 25 ∧ Same (stateOf (kRhoStep s)) (sRho (stateOf s)) := by
  obtain ⟨a0, a1, a2, a3, a4, a5, a6, a7, a8, a9, a10, a11, a12, a13, a14, a15, a16, a17, a18, a19, a20, a21, a22, a23, a24, rfl⟩ := list25 s h
  rw [rho_fold]
  refine ⟨rfl, fun x hx y hy => ?_⟩
  obtain ⟨h1, h2⟩ := rhoOffset_eq x hx y hy
  rw [sRho, rotate64_eq _ _ h2, h1]
  interval_cases x <;> interval_cases y <;> first | rfl | (simp [stateOf, lane, kRho, rotate64, BitVec.ushiftRight_eq_zero])

theorem pi_eq (s : List Lane) (h : s.length = 25) :
    (kPiStep s).length = 25 ∧ Same (stateOf (kPiStep s)) (sPi (stateOf s)) := by
  obtain ⟨a0, a1, a2, a3, a4, a5, a6, a7, a8, a9, a10, a11, a12, a13, a14, a15, a16, a17, a18, a19, a20, a21, a22, a23, a24, rfl⟩ := list25 s h
  rw [pi_fold]
  refine ⟨rfl, fun x hx y hy => ?_⟩
  interval_cases x <;> interval_cases y <;> rfl

theorem chi_eq (s : List Lane) (h : s.length = 25) :
    (kChi s).length = 25 ∧ Same (stateOf (kChi s)) (sChi (stateOf s)) := by
  obtain ⟨a0, a1, a2, a3, a4, a5, a6, a7, a8, a9, a10, a11, a12, a13, a14, a15, a16, a17, a18, a19, a20, a21, a22, a23, a24, rfl⟩ := list25 s h
  rw [chi_fold]
  refine ⟨rfl, fun x hx y hy => ?_⟩
  simp only [sChi, BitVec.xor_allOnes]
  interval_cases x <;> interval_cases y <;> rfl

theorem iota_step_eq (i : Nat) (hi : i < 24) (s : List Lane) (h : s.length = 25) :
    (kIotaStep i s).length = 25 ∧ Same (stateOf (kIotaStep i s)) (sIota i (stateOf s)) := by
  obtain ⟨a0, a1, a2, a3, a4, a5, a6, a7, a8, a9, a10, a11, a12, a13, a14, a15, a16, a17, a18, a19, a20, a21, a22, a23, a24, rfl⟩ := list25 s h
  refine ⟨rfl, fun x hx y hy => ?_⟩
  simp only [sIota, kIotaStep, iota_eq i hi]
  interval_cases x <;> interval_cases y <;> rfl

theorem Same.theta {A B : State} (h : Same A B) : Same (sTheta A) (sTheta B) := by
  intro x hx y hy
  have h' : ∀ a b, b < 5 → A (a % 5) b = B (a % 5) b := fun a b hb => h _ (Nat.mod_lt _ (by omega)) b hb
  simp only [sTheta]
  rw [h x hx y hy]
  simp only [h' _ 0 (by omega), h' _ 1 (by omega), h' _ 2 (by omega), h' _ 3 (by omega), h' _ 4 (by omega)]

theorem Same.rho {A B : State} (h : Same A B) : Same (sRho A) (sRho B) := by
  intro x hx y hy
  simp only [sRho, h x hx y hy]

theorem Same.pi {A B : State} (h : Same A B) : Same (sPi A) (sPi B) := by
  intro x hx y hy
  exact h _ (Nat.mod_lt _ (by omega)) x hx

theorem Same.chi {A B : State} (h : Same A B) : Same (sChi A) (sChi B) := by
  intro x hx y hy
  simp only [sChi, h x hx y hy, h _ (Nat.mod_lt (x + 1) (show 0 < 5 by omega)) y hy,
    h _ (Nat.mod_lt (x + 2) (show 0 < 5 by omega)) y hy]

theorem Same.iota {A B : State} (i : Nat) (h : Same A B) : Same (sIota i A) (sIota i B) := by
  intro x hx y hy
  simp only [sIota, h x hx y hy]

theorem Same.trans {A B C : State} (h : Same A B) (h2 : Same B C) : Same A C :=
  fun x hx y hy => (h x hx y hy).trans (h2 x hx y hy)

theorem round_eq (i : Nat) (hi : i < 24) (s : List Lane) (A : State) (h : s.length = 25)
    (hA : Same (stateOf s) A) :
    (kRound s i).length = 25 ∧ Same (stateOf (kRound s i)) (sRound A i) := by
  obtain ⟨l1, e1⟩ := theta_eq s h
  obtain ⟨l2, e2⟩ := rho_eq _ l1
  obtain ⟨l3, e3⟩ := pi_eq _ l2
  obtain ⟨l4, e4⟩ := chi_eq _ l3
  obtain ⟨l5, e5⟩ := iota_step_eq i hi _ l4
  refine ⟨l5, ?_⟩
  exact e5.trans (Same.iota i (e4.trans (Same.chi (e3.trans (Same.pi (e2.trans (Same.rho
    (e1.trans (Same.theta hA)))))))))

/-- **`Keccak_f_64` is Keccak-f[1600]**: on every state, lane by lane. -/
theorem keccak_f_64 (s : List Lane) (h : s.length = 25) :
    (keccakF64 s).length = 25 ∧ ∀ x < 5, ∀ y < 5, lane (keccakF64 s) (x + 5 * y) = keccakF (stateOf s) x y := by
  have key : ∀ (l : List Nat), (∀ i ∈ l, i < 24) → ∀ (s : List Lane) (A : State), s.length = 25 →
      Same (stateOf s) A → (l.foldl kRound s).length = 25 ∧ Same (stateOf (l.foldl kRound s)) (l.foldl sRound A) := by
    intro l
    induction l with
    | nil => intro _ s A h hA; exact ⟨h, hA⟩
    | cons i l ih =>
      intro hl s A h hA
      obtain ⟨h1, h2⟩ := round_eq i (hl i (by simp)) s A h hA
      rw [List.foldl_cons, List.foldl_cons]
      exact ih (fun j hj => hl j (by simp [hj])) _ _ h1 h2
  unfold keccakF64 keccakF
  generalize hl : List.range 24 = l at *
  obtain ⟨k1, k2⟩ := key l (fun i hi => by rw [← hl] at hi; exact List.mem_range.1 hi) s (stateOf s) h (fun _ _ _ _ => rfl)
  exact ⟨k1, k2⟩

end Verif.Auth
