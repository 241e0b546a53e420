import Verif.Interleave.Props
/-!
C88: bits and bursts.
-/
namespace Verif.Interleave

variable {α : Type}

theorem get_congr {l : List α} {i j : Nat} (h : i = j) : l[i]? = l[j]? := by rw [h]

/-! ### EGPRS with 8-PSK -/

/-- C88: one burst of MCS-5 and MCS-6, downlink: the stealing flags are in the middle, and mapping the burst back restores the burst's
part of the data, the header and the USF. -/
theorem mcs5Dl_burst (o : α) (di eB hi up di0 hi0 up0 : List α) (B : Nat) (hB : B < 4) (h1 : di.length = 1248) (h2 : eB.length = 348)
    (h3 : hi.length = 100) (h4 : up.length = 36) (h5 : di0.length = 1248) (h6 : hi0.length = 100) (h7 : up0.length = 36) :
    ∃ e, mcs5DlBurstMap o di eB hi up B = some e ∧ e.length = 348 ∧
      (∀ r, 174 ≤ r → r < 176 → e[r]? = some o) ∧
      ∃ di' hi' up', mcs5DlBurstUnmap di0 e hi0 up0 B = some (di', hi', up') ∧
        di'.length = 1248 ∧ hi'.length = 100 ∧ up'.length = 36 ∧ 
        (∀ r, di'[r]? = if 312 * B ≤ r ∧ r < 312 * (B + 1) then di[r]? else di0[r]?) ∧
        (∀ r, hi'[r]? = if 25 * B ≤ r ∧ r < 25 * (B + 1) then hi[r]? else hi0[r]?) ∧
        ∀ r, up'[r]? = if 9 * B ≤ r ∧ r < 9 * (B + 1) then up[r]? else up0[r]? := by
  obtain ⟨e0, a0, b0, c0⟩ := copy_loop1 di eB 156 (312 * B) 0 (by omega) (by omega)
  obtain ⟨e1, a1, b1, c1⟩ := copy_loop1 hi e0 12 (25 * B) 156 (by omega) (by omega)
  obtain ⟨e2, a2, b2, c2⟩ := copy_loop1 up e1 6 (9 * B) 168 (by omega) (by omega)
  obtain ⟨e3, a3, b3, c3⟩ := copy_loop1 [o, o, o, o, o, o, o, o] e2 2 (2 * B) 174 (by simp only [List.length_cons, List.length_nil]; omega) (by omega)
  obtain ⟨e4, a4, b4, c4⟩ := copy_loop1 up e3 3 (9 * B + 6) 176 (by omega) (by omega)
  obtain ⟨e5, a5, b5, c5⟩ := copy_loop1 hi e4 13 (25 * B + 12) 179 (by omega) (by omega)
  obtain ⟨e6, a6, b6, c6⟩ := copy_loop1 di e5 156 (312 * B + 156) 192 (by omega) (by omega)
  have he : ∀ r, e6[r]? = _ := fun r => by rw [c6 r, c5 r, c4 r, c3 r, c2 r, c1 r, c0 r]
  obtain ⟨f0, u0, v0, w0⟩ := copy_loop1 e6 di0 156 0 (312 * B) (by omega) (by omega)
  obtain ⟨f1, u1, v1, w1⟩ := copy_loop1 e6 hi0 12 156 (25 * B) (by omega) (by omega)
  obtain ⟨f2, u2, v2, w2⟩ := copy_loop1 e6 up0 6 168 (9 * B) (by omega) (by omega)
  obtain ⟨f3, u3, v3, w3⟩ := copy_loop1 e6 f2 3 176 (9 * B + 6) (by omega) (by omega)
  obtain ⟨f4, u4, v4, w4⟩ := copy_loop1 e6 f1 13 179 (25 * B + 12) (by omega) (by omega)
  obtain ⟨f5, u5, v5, w5⟩ := copy_loop1 e6 f0 156 192 (312 * B + 156) (by omega) (by omega)
  refine ⟨e6, by unfold mcs5DlBurstMap; rw [a0]; dsimp only [bind, Option.bind]; rw [a1]; dsimp only [bind, Option.bind]; rw [a2]; dsimp only [bind, Option.bind]; rw [a3]; dsimp only [bind, Option.bind]; rw [a4]; dsimp only [bind, Option.bind]; rw [a5]; dsimp only [bind, Option.bind]; rw [a6], by omega, ?_, f5, f4, f3,
    by unfold mcs5DlBurstUnmap; rw [u0]; dsimp only [bind, Option.bind]; rw [u1]; dsimp only [bind, Option.bind]; rw [u2]; dsimp only [bind, Option.bind]; rw [u3]; dsimp only [bind, Option.bind]; rw [u4]; dsimp only [bind, Option.bind]; rw [u5],
    by omega, by omega, by omega, ?_, ?_, ?_⟩
  · intro r hr1 hr2
    rw [he]
    rw [if_neg (by omega), if_neg (by omega), if_neg (by omega), if_pos (by omega)]
    have : r - 174 < 2 := by omega
    generalize r - 174 = x at this ⊢
    have hx : 2 * B + x < 8 := by omega
    generalize 2 * B + x = y at hx ⊢
    rcases y with _ | _ | _ | _ | _ | _ | _ | _ | y <;> first | rfl | omega
  · intro r
    by_cases hr1 : 312 * B ≤ r ∧ r < 312 * B + 156
    · rw [w5, if_neg (by omega), w0, if_pos (by omega), if_pos (by omega), he, if_neg (by omega), if_neg (by omega), if_neg (by omega), if_neg (by omega), if_neg (by omega), if_neg (by omega), if_pos (by omega)]
      exact get_congr (by omega)
    · by_cases hr2 : 312 * B + 156 ≤ r ∧ r < 312 * B + 312
      · rw [w5, if_pos (by omega), if_pos (by omega), he, if_pos (by omega)]
        exact get_congr (by omega)
      · rw [w5, if_neg (by omega), w0, if_neg (by omega), if_neg (by omega)]
  · intro r
    by_cases hr1 : 25 * B ≤ r ∧ r < 25 * B + 12
    · rw [w4, if_neg (by omega), w1, if_pos (by omega), if_pos (by omega), he, if_neg (by omega), if_neg (by omega), if_neg (by omega), if_neg (by omega), if_neg (by omega), if_pos (by omega)]
      exact get_congr (by omega)
    · by_cases hr2 : 25 * B + 12 ≤ r ∧ r < 25 * B + 25
      · rw [w4, if_pos (by omega), if_pos (by omega), he, if_neg (by omega), if_pos (by omega)]
        exact get_congr (by omega)
      · rw [w4, if_neg (by omega), w1, if_neg (by omega), if_neg (by omega)]
  · intro r
    by_cases hr1 : 9 * B ≤ r ∧ r < 9 * B + 6
    · rw [w3, if_neg (by omega), w2, if_pos (by omega), if_pos (by omega), he, if_neg (by omega), if_neg (by omega), if_neg (by omega), if_neg (by omega), if_pos (by omega)]
      exact get_congr (by omega)
    · by_cases hr2 : 9 * B + 6 ≤ r ∧ r < 9 * B + 9
      · rw [w3, if_pos (by omega), if_pos (by omega), he, if_neg (by omega), if_neg (by omega), if_pos (by omega)]
        exact get_congr (by omega)
      · rw [w3, if_neg (by omega), w2, if_neg (by omega), if_neg (by omega)]

/-- C88: one burst of MCS-5 and MCS-6, uplink: the stealing flags are in the middle, and mapping the burst back restores the burst's
part of the data and the header. -/
theorem mcs5Ul_burst (o : α) (di eB hi di0 hi0 : List α) (B : Nat) (hB : B < 4) (h1 : di.length = 1248) (h2 : eB.length = 348)
    (h3 : hi.length = 136) (h5 : di0.length = 1248) (h6 : hi0.length = 136) :
    ∃ e, mcs5UlBurstMap o di eB hi B = some e ∧ e.length = 348 ∧
      (∀ r, 174 ≤ r → r < 176 → e[r]? = some o) ∧
      ∃ di' hi', mcs5UlBurstUnmap di0 e hi0 B = some (di', hi') ∧
        di'.length = 1248 ∧ hi'.length = 136 ∧ 
        (∀ r, di'[r]? = if 312 * B ≤ r ∧ r < 312 * (B + 1) then di[r]? else di0[r]?) ∧
        (∀ r, hi'[r]? = if 34 * B ≤ r ∧ r < 34 * (B + 1) then hi[r]? else hi0[r]?) := by
  obtain ⟨e0, a0, b0, c0⟩ := copy_loop1 di eB 156 (312 * B) 0 (by omega) (by omega)
  obtain ⟨e1, a1, b1, c1⟩ := copy_loop1 hi e0 18 (34 * B) 156 (by omega) (by omega)
  obtain ⟨e2, a2, b2, c2⟩ := copy_loop1 [o, o] e1 2 0 174 (by simp only [List.length_cons, List.length_nil]; omega) (by omega)
  obtain ⟨e3, a3, b3, c3⟩ := copy_loop1 hi e2 16 (34 * B + 18) 176 (by omega) (by omega)
  obtain ⟨e4, a4, b4, c4⟩ := copy_loop1 di e3 156 (312 * B + 156) 192 (by omega) (by omega)
  have he : ∀ r, e4[r]? = _ := fun r => by rw [c4 r, c3 r, c2 r, c1 r, c0 r]
  obtain ⟨f0, u0, v0, w0⟩ := copy_loop1 e4 di0 156 0 (312 * B) (by omega) (by omega)
  obtain ⟨f1, u1, v1, w1⟩ := copy_loop1 e4 hi0 18 156 (34 * B) (by omega) (by omega)
  obtain ⟨f2, u2, v2, w2⟩ := copy_loop1 e4 f1 16 176 (34 * B + 18) (by omega) (by omega)
  obtain ⟨f3, u3, v3, w3⟩ := copy_loop1 e4 f0 156 192 (312 * B + 156) (by omega) (by omega)
  refine ⟨e4, by unfold mcs5UlBurstMap; rw [a0]; dsimp only [bind, Option.bind]; rw [a1]; dsimp only [bind, Option.bind]; rw [a2]; dsimp only [bind, Option.bind]; rw [a3]; dsimp only [bind, Option.bind]; rw [a4], by omega, ?_, f3, f2,
    by unfold mcs5UlBurstUnmap; rw [u0]; dsimp only [bind, Option.bind]; rw [u1]; dsimp only [bind, Option.bind]; rw [u2]; dsimp only [bind, Option.bind]; rw [u3],
    by omega, by omega, ?_, ?_⟩
  · intro r hr1 hr2
    rw [he]
    rw [if_neg (by omega), if_neg (by omega), if_pos (by omega)]
    have hx : 0 + (r - 174) < 2 := by omega
    generalize 0 + (r - 174) = y at hx ⊢
    rcases y with _ | _ | y <;> first | rfl | omega
  · intro r
    by_cases hr1 : 312 * B ≤ r ∧ r < 312 * B + 156
    · rw [w3, if_neg (by omega), w0, if_pos (by omega), if_pos (by omega), he, if_neg (by omega), if_neg (by omega), if_neg (by omega), if_neg (by omega), if_pos (by omega)]
      exact get_congr (by omega)
    · by_cases hr2 : 312 * B + 156 ≤ r ∧ r < 312 * B + 312
      · rw [w3, if_pos (by omega), if_pos (by omega), he, if_pos (by omega)]
        exact get_congr (by omega)
      · rw [w3, if_neg (by omega), w0, if_neg (by omega), if_neg (by omega)]
  · intro r
    by_cases hr1 : 34 * B ≤ r ∧ r < 34 * B + 18
    · rw [w2, if_neg (by omega), w1, if_pos (by omega), if_pos (by omega), he, if_neg (by omega), if_neg (by omega), if_neg (by omega), if_pos (by omega)]
      exact get_congr (by omega)
    · by_cases hr2 : 34 * B + 18 ≤ r ∧ r < 34 * B + 34
      · rw [w2, if_pos (by omega), if_pos (by omega), he, if_neg (by omega), if_pos (by omega)]
        exact get_congr (by omega)
      · rw [w2, if_neg (by omega), w1, if_neg (by omega), if_neg (by omega)]

/-- C88: one burst of MCS-7 to MCS-9, downlink: the stealing flags are in the middle, and mapping the burst back restores the burst's
part of the data, the header and the USF. -/
theorem mcs7Dl_burst (o l : α) (di eB hi up di0 hi0 up0 : List α) (B : Nat) (hB : B < 4) (h1 : di.length = 1224) (h2 : eB.length = 348)
    (h3 : hi.length = 124) (h4 : up.length = 36) (h5 : di0.length = 1224) (h6 : hi0.length = 124) (h7 : up0.length = 36) :
    ∃ e, mcs7DlBurstMap o l di eB hi up B = some e ∧ e.length = 348 ∧
      (∀ r, 174 ≤ r → r < 176 → e[r]? = [l, l, l, o, o, l, l, l][2 * B + (r - 174)]?) ∧
      ∃ di' hi' up', mcs7DlBurstUnmap di0 e hi0 up0 B = some (di', hi', up') ∧
        di'.length = 1224 ∧ hi'.length = 124 ∧ up'.length = 36 ∧ 
        (∀ r, di'[r]? = if 306 * B ≤ r ∧ r < 306 * (B + 1) then di[r]? else di0[r]?) ∧
        (∀ r, hi'[r]? = if 31 * B ≤ r ∧ r < 31 * (B + 1) then hi[r]? else hi0[r]?) ∧
        ∀ r, up'[r]? = if 9 * B ≤ r ∧ r < 9 * (B + 1) then up[r]? else up0[r]? := by
  obtain ⟨e0, a0, b0, c0⟩ := copy_loop1 di eB 153 (306 * B) 0 (by omega) (by omega)
  obtain ⟨e1, a1, b1, c1⟩ := copy_loop1 hi e0 15 (31 * B) 153 (by omega) (by omega)
  obtain ⟨e2, a2, b2, c2⟩ := copy_loop1 up e1 6 (9 * B) 168 (by omega) (by omega)
  obtain ⟨e3, a3, b3, c3⟩ := copy_loop1 [l, l, l, o, o, l, l, l] e2 2 (2 * B) 174 (by simp only [List.length_cons, List.length_nil]; omega) (by omega)
  obtain ⟨e4, a4, b4, c4⟩ := copy_loop1 up e3 3 (9 * B + 6) 176 (by omega) (by omega)
  obtain ⟨e5, a5, b5, c5⟩ := copy_loop1 hi e4 16 (31 * B + 15) 179 (by omega) (by omega)
  obtain ⟨e6, a6, b6, c6⟩ := copy_loop1 di e5 153 (306 * B + 153) 195 (by omega) (by omega)
  have he : ∀ r, e6[r]? = _ := fun r => by rw [c6 r, c5 r, c4 r, c3 r, c2 r, c1 r, c0 r]
  obtain ⟨f0, u0, v0, w0⟩ := copy_loop1 e6 di0 153 0 (306 * B) (by omega) (by omega)
  obtain ⟨f1, u1, v1, w1⟩ := copy_loop1 e6 hi0 15 153 (31 * B) (by omega) (by omega)
  obtain ⟨f2, u2, v2, w2⟩ := copy_loop1 e6 up0 6 168 (9 * B) (by omega) (by omega)
  obtain ⟨f3, u3, v3, w3⟩ := copy_loop1 e6 f2 3 176 (9 * B + 6) (by omega) (by omega)
  obtain ⟨f4, u4, v4, w4⟩ := copy_loop1 e6 f1 16 179 (31 * B + 15) (by omega) (by omega)
  obtain ⟨f5, u5, v5, w5⟩ := copy_loop1 e6 f0 153 195 (306 * B + 153) (by omega) (by omega)
  refine ⟨e6, by unfold mcs7DlBurstMap; rw [a0]; dsimp only [bind, Option.bind]; rw [a1]; dsimp only [bind, Option.bind]; rw [a2]; dsimp only [bind, Option.bind]; rw [a3]; dsimp only [bind, Option.bind]; rw [a4]; dsimp only [bind, Option.bind]; rw [a5]; dsimp only [bind, Option.bind]; rw [a6], by omega, ?_, f5, f4, f3,
    by unfold mcs7DlBurstUnmap; rw [u0]; dsimp only [bind, Option.bind]; rw [u1]; dsimp only [bind, Option.bind]; rw [u2]; dsimp only [bind, Option.bind]; rw [u3]; dsimp only [bind, Option.bind]; rw [u4]; dsimp only [bind, Option.bind]; rw [u5],
    by omega, by omega, by omega, ?_, ?_, ?_⟩
  · intro r hr1 hr2
    rw [he]
    rw [if_neg (by omega), if_neg (by omega), if_neg (by omega), if_pos (by omega)]
  · intro r
    by_cases hr1 : 306 * B ≤ r ∧ r < 306 * B + 153
    · rw [w5, if_neg (by omega), w0, if_pos (by omega), if_pos (by omega), he, if_neg (by omega), if_neg (by omega), if_neg (by omega), if_neg (by omega), if_neg (by omega), if_neg (by omega), if_pos (by omega)]
      exact get_congr (by omega)
    · by_cases hr2 : 306 * B + 153 ≤ r ∧ r < 306 * B + 306
      · rw [w5, if_pos (by omega), if_pos (by omega), he, if_pos (by omega)]
        exact get_congr (by omega)
      · rw [w5, if_neg (by omega), w0, if_neg (by omega), if_neg (by omega)]
  · intro r
    by_cases hr1 : 31 * B ≤ r ∧ r < 31 * B + 15
    · rw [w4, if_neg (by omega), w1, if_pos (by omega), if_pos (by omega), he, if_neg (by omega), if_neg (by omega), if_neg (by omega), if_neg (by omega), if_neg (by omega), if_pos (by omega)]
      exact get_congr (by omega)
    · by_cases hr2 : 31 * B + 15 ≤ r ∧ r < 31 * B + 31
      · rw [w4, if_pos (by omega), if_pos (by omega), he, if_neg (by omega), if_pos (by omega)]
        exact get_congr (by omega)
      · rw [w4, if_neg (by omega), w1, if_neg (by omega), if_neg (by omega)]
  · intro r
    by_cases hr1 : 9 * B ≤ r ∧ r < 9 * B + 6
    · rw [w3, if_neg (by omega), w2, if_pos (by omega), if_pos (by omega), he, if_neg (by omega), if_neg (by omega), if_neg (by omega), if_neg (by omega), if_pos (by omega)]
      exact get_congr (by omega)
    · by_cases hr2 : 9 * B + 6 ≤ r ∧ r < 9 * B + 9
      · rw [w3, if_pos (by omega), if_pos (by omega), he, if_neg (by omega), if_neg (by omega), if_pos (by omega)]
        exact get_congr (by omega)
      · rw [w3, if_neg (by omega), w2, if_neg (by omega), if_neg (by omega)]

/-- C88: one burst of MCS-7 to MCS-9, uplink: the stealing flags are in the middle, and mapping the burst back restores the burst's
part of the data and the header. -/
theorem mcs7Ul_burst (o l : α) (di eB hi di0 hi0 : List α) (B : Nat) (hB : B < 4) (h1 : di.length = 1224) (h2 : eB.length = 348)
    (h3 : hi.length = 160) (h5 : di0.length = 1224) (h6 : hi0.length = 160) :
    ∃ e, mcs7UlBurstMap o l di eB hi B = some e ∧ e.length = 348 ∧
      (∀ r, 174 ≤ r → r < 176 → e[r]? = [l, l, l, o, o, l, l, l][2 * B + (r - 174)]?) ∧
      ∃ di' hi', mcs7UlBurstUnmap di0 e hi0 B = some (di', hi') ∧
        di'.length = 1224 ∧ hi'.length = 160 ∧ 
        (∀ r, di'[r]? = if 306 * B ≤ r ∧ r < 306 * (B + 1) then di[r]? else di0[r]?) ∧
        (∀ r, hi'[r]? = if 40 * B ≤ r ∧ r < 40 * (B + 1) then hi[r]? else hi0[r]?) := by
  obtain ⟨e0, a0, b0, c0⟩ := copy_loop1 di eB 153 (306 * B) 0 (by omega) (by omega)
  obtain ⟨e1, a1, b1, c1⟩ := copy_loop1 hi e0 21 (40 * B) 153 (by omega) (by omega)
  obtain ⟨e2, a2, b2, c2⟩ := copy_loop1 [l, l, l, o, o, l, l, l] e1 2 (2 * B) 174 (by simp only [List.length_cons, List.length_nil]; omega) (by omega)
  obtain ⟨e3, a3, b3, c3⟩ := copy_loop1 hi e2 19 (40 * B + 21) 176 (by omega) (by omega)
  obtain ⟨e4, a4, b4, c4⟩ := copy_loop1 di e3 153 (306 * B + 153) 195 (by omega) (by omega)
  have he : ∀ r, e4[r]? = _ := fun r => by rw [c4 r, c3 r, c2 r, c1 r, c0 r]
  obtain ⟨f0, u0, v0, w0⟩ := copy_loop1 e4 di0 153 0 (306 * B) (by omega) (by omega)
  obtain ⟨f1, u1, v1, w1⟩ := copy_loop1 e4 hi0 21 153 (40 * B) (by omega) (by omega)
  obtain ⟨f2, u2, v2, w2⟩ := copy_loop1 e4 f1 19 176 (40 * B + 21) (by omega) (by omega)
  obtain ⟨f3, u3, v3, w3⟩ := copy_loop1 e4 f0 153 195 (306 * B + 153) (by omega) (by omega)
  refine ⟨e4, by unfold mcs7UlBurstMap; rw [a0]; dsimp only [bind, Option.bind]; rw [a1]; dsimp only [bind, Option.bind]; rw [a2]; dsimp only [bind, Option.bind]; rw [a3]; dsimp only [bind, Option.bind]; rw [a4], by omega, ?_, f3, f2,
    by unfold mcs7UlBurstUnmap; rw [u0]; dsimp only [bind, Option.bind]; rw [u1]; dsimp only [bind, Option.bind]; rw [u2]; dsimp only [bind, Option.bind]; rw [u3],
    by omega, by omega, ?_, ?_⟩
  · intro r hr1 hr2
    rw [he]
    rw [if_neg (by omega), if_neg (by omega), if_pos (by omega)]
  · intro r
    by_cases hr1 : 306 * B ≤ r ∧ r < 306 * B + 153
    · rw [w3, if_neg (by omega), w0, if_pos (by omega), if_pos (by omega), he, if_neg (by omega), if_neg (by omega), if_neg (by omega), if_neg (by omega), if_pos (by omega)]
      exact get_congr (by omega)
    · by_cases hr2 : 306 * B + 153 ≤ r ∧ r < 306 * B + 306
      · rw [w3, if_pos (by omega), if_pos (by omega), he, if_pos (by omega)]
        exact get_congr (by omega)
      · rw [w3, if_neg (by omega), w0, if_neg (by omega), if_neg (by omega)]
  · intro r
    by_cases hr1 : 40 * B ≤ r ∧ r < 40 * B + 21
    · rw [w2, if_neg (by omega), w1, if_pos (by omega), if_pos (by omega), he, if_neg (by omega), if_neg (by omega), if_neg (by omega), if_pos (by omega)]
      exact get_congr (by omega)
    · by_cases hr2 : 40 * B + 21 ≤ r ∧ r < 40 * B + 40
      · rw [w2, if_pos (by omega), if_pos (by omega), he, if_neg (by omega), if_pos (by omega)]
        exact get_congr (by omega)
      · rw [w2, if_neg (by omega), w1, if_neg (by omega), if_neg (by omega)]

/-- C88: the four bursts of MCS-5 and MCS-6, downlink: mapped back one after the other they give the data, the header and the USF. -/
theorem mcs5Dl_bursts (o : α) (di b0 b1 b2 b3 hi up di0 hi0 up0 : List α) (h1 : di.length = 1248) (hb0 : b0.length = 348)
    (hb1 : b1.length = 348) (hb2 : b2.length = 348) (hb3 : b3.length = 348) (h3 : hi.length = 100) (h4 : up.length = 36) 
    (h5 : di0.length = 1248) (h6 : hi0.length = 100) (h7 : up0.length = 36) :
    ∃ e0 e1 e2 e3, mcs5DlBurstMap o di b0 hi up 0 = some e0 ∧ mcs5DlBurstMap o di b1 hi up 1 = some e1 ∧
      mcs5DlBurstMap o di b2 hi up 2 = some e2 ∧ mcs5DlBurstMap o di b3 hi up 3 = some e3 ∧
      [(e0, 0), (e1, 1), (e2, 2), (e3, 3)].foldlM (fun s eB => mcs5DlBurstUnmap s.1 eB.1 s.2.1 s.2.2 eB.2) (di0, hi0, up0) =
        some (di, hi, up) := by
  obtain ⟨e0, m0, -, -, x0, y0, z0, u0, lx0, ly0, lz0, px0, py0, pz0⟩ := mcs5Dl_burst o di b0 hi up di0 hi0 up0 0 (by omega) h1 hb0 h3 h4 h5 h6 h7
  obtain ⟨e1, m1, -, -, x1, y1, z1, u1, lx1, ly1, lz1, px1, py1, pz1⟩ := mcs5Dl_burst o di b1 hi up x0 y0 z0 1 (by omega) h1 hb1 h3 h4 lx0 ly0 lz0
  obtain ⟨e2, m2, -, -, x2, y2, z2, u2, lx2, ly2, lz2, px2, py2, pz2⟩ := mcs5Dl_burst o di b2 hi up x1 y1 z1 2 (by omega) h1 hb2 h3 h4 lx1 ly1 lz1
  obtain ⟨e3, m3, -, -, x3, y3, z3, u3, lx3, ly3, lz3, px3, py3, pz3⟩ := mcs5Dl_burst o di b3 hi up x2 y2 z2 3 (by omega) h1 hb3 h3 h4 lx2 ly2 lz2
  refine ⟨e0, e1, e2, e3, m0, m1, m2, m3, ?_⟩
  have qx : x3 = di := eq_of_get (n := 1248) lx3 h1 fun r hr => by
    by_cases g3 : 936 ≤ r
    · rw [px3, if_pos (by omega)]
    · by_cases g2 : 624 ≤ r
      · rw [px3, if_neg (by omega), px2, if_pos (by omega)]
      · by_cases g1 : 312 ≤ r
        · rw [px3, if_neg (by omega), px2, if_neg (by omega), px1, if_pos (by omega)]
        · rw [px3, if_neg (by omega), px2, if_neg (by omega), px1, if_neg (by omega), px0, if_pos (by omega)]
  have qy : y3 = hi := eq_of_get (n := 100) ly3 h3 fun r hr => by
    by_cases g3 : 75 ≤ r
    · rw [py3, if_pos (by omega)]
    · by_cases g2 : 50 ≤ r
      · rw [py3, if_neg (by omega), py2, if_pos (by omega)]
      · by_cases g1 : 25 ≤ r
        · rw [py3, if_neg (by omega), py2, if_neg (by omega), py1, if_pos (by omega)]
        · rw [py3, if_neg (by omega), py2, if_neg (by omega), py1, if_neg (by omega), py0, if_pos (by omega)]
  have qz : z3 = up := eq_of_get (n := 36) lz3 h4 fun r hr => by
    by_cases g3 : 27 ≤ r
    · rw [pz3, if_pos (by omega)]
    · by_cases g2 : 18 ≤ r
      · rw [pz3, if_neg (by omega), pz2, if_pos (by omega)]
      · by_cases g1 : 9 ≤ r
        · rw [pz3, if_neg (by omega), pz2, if_neg (by omega), pz1, if_pos (by omega)]
        · rw [pz3, if_neg (by omega), pz2, if_neg (by omega), pz1, if_neg (by omega), pz0, if_pos (by omega)]
  subst qx qy qz
  simp only [List.foldlM_cons, List.foldlM_nil, u0, u1, u2, u3, bind, Option.bind, pure]

/-- C88: the four bursts of MCS-5 and MCS-6, uplink: mapped back one after the other they give the data and the header. -/
theorem mcs5Ul_bursts (o : α) (di b0 b1 b2 b3 hi di0 hi0 : List α) (h1 : di.length = 1248) (hb0 : b0.length = 348)
    (hb1 : b1.length = 348) (hb2 : b2.length = 348) (hb3 : b3.length = 348) (h3 : hi.length = 136) 
    (h5 : di0.length = 1248) (h6 : hi0.length = 136) :
    ∃ e0 e1 e2 e3, mcs5UlBurstMap o di b0 hi 0 = some e0 ∧ mcs5UlBurstMap o di b1 hi 1 = some e1 ∧
      mcs5UlBurstMap o di b2 hi 2 = some e2 ∧ mcs5UlBurstMap o di b3 hi 3 = some e3 ∧
      [(e0, 0), (e1, 1), (e2, 2), (e3, 3)].foldlM (fun s eB => mcs5UlBurstUnmap s.1 eB.1 s.2 eB.2) (di0, hi0) =
        some (di, hi) := by
  obtain ⟨e0, m0, -, -, x0, y0, u0, lx0, ly0, px0, py0⟩ := mcs5Ul_burst o di b0 hi di0 hi0 0 (by omega) h1 hb0 h3 h5 h6
  obtain ⟨e1, m1, -, -, x1, y1, u1, lx1, ly1, px1, py1⟩ := mcs5Ul_burst o di b1 hi x0 y0 1 (by omega) h1 hb1 h3 lx0 ly0
  obtain ⟨e2, m2, -, -, x2, y2, u2, lx2, ly2, px2, py2⟩ := mcs5Ul_burst o di b2 hi x1 y1 2 (by omega) h1 hb2 h3 lx1 ly1
  obtain ⟨e3, m3, -, -, x3, y3, u3, lx3, ly3, px3, py3⟩ := mcs5Ul_burst o di b3 hi x2 y2 3 (by omega) h1 hb3 h3 lx2 ly2
  refine ⟨e0, e1, e2, e3, m0, m1, m2, m3, ?_⟩
  have qx : x3 = di := eq_of_get (n := 1248) lx3 h1 fun r hr => by
    by_cases g3 : 936 ≤ r
    · rw [px3, if_pos (by omega)]
    · by_cases g2 : 624 ≤ r
      · rw [px3, if_neg (by omega), px2, if_pos (by omega)]
      · by_cases g1 : 312 ≤ r
        · rw [px3, if_neg (by omega), px2, if_neg (by omega), px1, if_pos (by omega)]
        · rw [px3, if_neg (by omega), px2, if_neg (by omega), px1, if_neg (by omega), px0, if_pos (by omega)]
  have qy : y3 = hi := eq_of_get (n := 136) ly3 h3 fun r hr => by
    by_cases g3 : 102 ≤ r
    · rw [py3, if_pos (by omega)]
    · by_cases g2 : 68 ≤ r
      · rw [py3, if_neg (by omega), py2, if_pos (by omega)]
      · by_cases g1 : 34 ≤ r
        · rw [py3, if_neg (by omega), py2, if_neg (by omega), py1, if_pos (by omega)]
        · rw [py3, if_neg (by omega), py2, if_neg (by omega), py1, if_neg (by omega), py0, if_pos (by omega)]
  subst qx qy
  simp only [List.foldlM_cons, List.foldlM_nil, u0, u1, u2, u3, bind, Option.bind, pure]

/-- C88: the four bursts of MCS-7 to MCS-9, downlink: mapped back one after the other they give the data, the header and the USF. -/
theorem mcs7Dl_bursts (o l : α) (di b0 b1 b2 b3 hi up di0 hi0 up0 : List α) (h1 : di.length = 1224) (hb0 : b0.length = 348)
    (hb1 : b1.length = 348) (hb2 : b2.length = 348) (hb3 : b3.length = 348) (h3 : hi.length = 124) (h4 : up.length = 36) 
    (h5 : di0.length = 1224) (h6 : hi0.length = 124) (h7 : up0.length = 36) :
    ∃ e0 e1 e2 e3, mcs7DlBurstMap o l di b0 hi up 0 = some e0 ∧ mcs7DlBurstMap o l di b1 hi up 1 = some e1 ∧
      mcs7DlBurstMap o l di b2 hi up 2 = some e2 ∧ mcs7DlBurstMap o l di b3 hi up 3 = some e3 ∧
      [(e0, 0), (e1, 1), (e2, 2), (e3, 3)].foldlM (fun s eB => mcs7DlBurstUnmap s.1 eB.1 s.2.1 s.2.2 eB.2) (di0, hi0, up0) =
        some (di, hi, up) := by
  obtain ⟨e0, m0, -, -, x0, y0, z0, u0, lx0, ly0, lz0, px0, py0, pz0⟩ := mcs7Dl_burst o l di b0 hi up di0 hi0 up0 0 (by omega) h1 hb0 h3 h4 h5 h6 h7
  obtain ⟨e1, m1, -, -, x1, y1, z1, u1, lx1, ly1, lz1, px1, py1, pz1⟩ := mcs7Dl_burst o l di b1 hi up x0 y0 z0 1 (by omega) h1 hb1 h3 h4 lx0 ly0 lz0
  obtain ⟨e2, m2, -, -, x2, y2, z2, u2, lx2, ly2, lz2, px2, py2, pz2⟩ := mcs7Dl_burst o l di b2 hi up x1 y1 z1 2 (by omega) h1 hb2 h3 h4 lx1 ly1 lz1
  obtain ⟨e3, m3, -, -, x3, y3, z3, u3, lx3, ly3, lz3, px3, py3, pz3⟩ := mcs7Dl_burst o l di b3 hi up x2 y2 z2 3 (by omega) h1 hb3 h3 h4 lx2 ly2 lz2
  refine ⟨e0, e1, e2, e3, m0, m1, m2, m3, ?_⟩
  have qx : x3 = di := eq_of_get (n := 1224) lx3 h1 fun r hr => by
    by_cases g3 : 918 ≤ r
    · rw [px3, if_pos (by omega)]
    · by_cases g2 : 612 ≤ r
      · rw [px3, if_neg (by omega), px2, if_pos (by omega)]
      · by_cases g1 : 306 ≤ r
        · rw [px3, if_neg (by omega), px2, if_neg (by omega), px1, if_pos (by omega)]
        · rw [px3, if_neg (by omega), px2, if_neg (by omega), px1, if_neg (by omega), px0, if_pos (by omega)]
  have qy : y3 = hi := eq_of_get (n := 124) ly3 h3 fun r hr => by
    by_cases g3 : 93 ≤ r
    · rw [py3, if_pos (by omega)]
    · by_cases g2 : 62 ≤ r
      · rw [py3, if_neg (by omega), py2, if_pos (by omega)]
      · by_cases g1 : 31 ≤ r
        · rw [py3, if_neg (by omega), py2, if_neg (by omega), py1, if_pos (by omega)]
        · rw [py3, if_neg (by omega), py2, if_neg (by omega), py1, if_neg (by omega), py0, if_pos (by omega)]
  have qz : z3 = up := eq_of_get (n := 36) lz3 h4 fun r hr => by
    by_cases g3 : 27 ≤ r
    · rw [pz3, if_pos (by omega)]
    · by_cases g2 : 18 ≤ r
      · rw [pz3, if_neg (by omega), pz2, if_pos (by omega)]
      · by_cases g1 : 9 ≤ r
        · rw [pz3, if_neg (by omega), pz2, if_neg (by omega), pz1, if_pos (by omega)]
        · rw [pz3, if_neg (by omega), pz2, if_neg (by omega), pz1, if_neg (by omega), pz0, if_pos (by omega)]
  subst qx qy qz
  simp only [List.foldlM_cons, List.foldlM_nil, u0, u1, u2, u3, bind, Option.bind, pure]

/-- C88: the four bursts of MCS-7 to MCS-9, uplink: mapped back one after the other they give the data and the header. -/
theorem mcs7Ul_bursts (o l : α) (di b0 b1 b2 b3 hi di0 hi0 : List α) (h1 : di.length = 1224) (hb0 : b0.length = 348)
    (hb1 : b1.length = 348) (hb2 : b2.length = 348) (hb3 : b3.length = 348) (h3 : hi.length = 160) 
    (h5 : di0.length = 1224) (h6 : hi0.length = 160) :
    ∃ e0 e1 e2 e3, mcs7UlBurstMap o l di b0 hi 0 = some e0 ∧ mcs7UlBurstMap o l di b1 hi 1 = some e1 ∧
      mcs7UlBurstMap o l di b2 hi 2 = some e2 ∧ mcs7UlBurstMap o l di b3 hi 3 = some e3 ∧
      [(e0, 0), (e1, 1), (e2, 2), (e3, 3)].foldlM (fun s eB => mcs7UlBurstUnmap s.1 eB.1 s.2 eB.2) (di0, hi0) =
        some (di, hi) := by
  obtain ⟨e0, m0, -, -, x0, y0, u0, lx0, ly0, px0, py0⟩ := mcs7Ul_burst o l di b0 hi di0 hi0 0 (by omega) h1 hb0 h3 h5 h6
  obtain ⟨e1, m1, -, -, x1, y1, u1, lx1, ly1, px1, py1⟩ := mcs7Ul_burst o l di b1 hi x0 y0 1 (by omega) h1 hb1 h3 lx0 ly0
  obtain ⟨e2, m2, -, -, x2, y2, u2, lx2, ly2, px2, py2⟩ := mcs7Ul_burst o l di b2 hi x1 y1 2 (by omega) h1 hb2 h3 lx1 ly1
  obtain ⟨e3, m3, -, -, x3, y3, u3, lx3, ly3, px3, py3⟩ := mcs7Ul_burst o l di b3 hi x2 y2 3 (by omega) h1 hb3 h3 lx2 ly2
  refine ⟨e0, e1, e2, e3, m0, m1, m2, m3, ?_⟩
  have qx : x3 = di := eq_of_get (n := 1224) lx3 h1 fun r hr => by
    by_cases g3 : 918 ≤ r
    · rw [px3, if_pos (by omega)]
    · by_cases g2 : 612 ≤ r
      · rw [px3, if_neg (by omega), px2, if_pos (by omega)]
      · by_cases g1 : 306 ≤ r
        · rw [px3, if_neg (by omega), px2, if_neg (by omega), px1, if_pos (by omega)]
        · rw [px3, if_neg (by omega), px2, if_neg (by omega), px1, if_neg (by omega), px0, if_pos (by omega)]
  have qy : y3 = hi := eq_of_get (n := 160) ly3 h3 fun r hr => by
    by_cases g3 : 120 ≤ r
    · rw [py3, if_pos (by omega)]
    · by_cases g2 : 80 ≤ r
      · rw [py3, if_neg (by omega), py2, if_pos (by omega)]
      · by_cases g1 : 40 ≤ r
        · rw [py3, if_neg (by omega), py2, if_neg (by omega), py1, if_pos (by omega)]
        · rw [py3, if_neg (by omega), py2, if_neg (by omega), py1, if_neg (by omega), py0, if_pos (by omega)]
  subst qx qy
  simp only [List.foldlM_cons, List.foldlM_nil, u0, u1, u2, u3, bind, Option.bind, pure]

theorem copy1 (b : List α) (p q : Nat) (hp : p < b.length) (hq : q < b.length) :
    copy b [(p, q)] b = some (b.set q b[p]) := by
  unfold copy
  rw [List.getElem?_eq_getElem hp]
  dsimp only
  rw [if_pos hq]
  rfl

/-- C88: `gsm0503_mcs5_burst_swap` exchanges fourteen pairs of bits and leaves all others; twice is nothing. -/
theorem mcs5BurstSwap_spec (z : α) (eB : List α) (h : eB.length = 348) : ∃ e, mcs5BurstSwap z eB = some e ∧ e.length = 348 ∧
    (∀ p ∈ swapTable, e[p.1]? = eB[p.2]? ∧ e[p.2]? = eB[p.1]?) ∧
    (∀ r, (∀ p ∈ swapTable, r ≠ p.1 ∧ r ≠ p.2) → e[r]? = eB[r]?) ∧ ∀ z', mcs5BurstSwap z' e = some eB := by
  have key : ∀ (z : α) (eB : List α), eB.length = 348 → ∃ e, mcs5BurstSwap z eB = some e ∧ e.length = 348 ∧
      (∀ p ∈ swapTable, e[p.1]? = eB[p.2]? ∧ e[p.2]? = eB[p.1]?) ∧
      (∀ r, (∀ p ∈ swapTable, r ≠ p.1 ∧ r ≠ p.2) → e[r]? = eB[r]?) := by
    intro z eB h
    obtain ⟨t, t1, t2, t3, -⟩ := copy_spec eB ((swapTable.map Prod.fst).zip (List.range 14)) (List.replicate 14 z)
      (by rw [h]; decide +kernel) (by rw [List.length_replicate]; decide +kernel) (by decide +kernel)
    rw [List.length_replicate] at t2
    have mid : ∀ (ps : List (Nat × Nat)) (b : List α), b.length = 348 → (∀ p ∈ ps, p.1 < 348 ∧ p.2 < 348) → (ps.map Prod.fst).Nodup →
        (∀ p ∈ ps, p.2 ∉ ps.map Prod.fst) →
        ∃ e, ps.foldlM (fun b p => copy b [(p.2, p.1)] b) b = some e ∧ e.length = 348 ∧ (∀ p ∈ ps, e[p.1]? = b[p.2]?) ∧
          ∀ r, r ∉ ps.map Prod.fst → e[r]? = b[r]? := by
      intro ps
      induction ps with
      | nil => intro b hb _ _ _; exact ⟨b, rfl, hb, by simp, by simp⟩
      | cons p ps ih =>
        intro b hb hl hn hd
        have hp := hl p (by simp)
        rw [List.map_cons, List.nodup_cons] at hn
        obtain ⟨e, e1, e2, e3, e4⟩ := ih (b.set p.1 (b[p.2]'(by omega))) (by rw [List.length_set]; exact hb)
          (fun q hq => hl q (by simp [hq])) hn.2 (fun q hq hm => hd q (by simp [hq]) (by rw [List.map_cons]; exact List.mem_cons_of_mem _ hm))
        refine ⟨e, ?_, e2, ?_, ?_⟩
        · rw [List.foldlM_cons, copy1 b p.2 p.1 (by omega) (by omega)]
          exact e1
        · intro q hq
          rw [List.mem_cons] at hq
          rcases hq with rfl | hq
          · rw [e4 _ hn.1, List.getElem?_set_self (by omega), List.getElem?_eq_getElem (by omega)]
          · rw [e3 q hq, List.getElem?_set_ne]
            intro he
            exact hd q (by simp [hq]) (by rw [List.map_cons, he]; exact List.mem_cons_self)
        · intro r hr
          rw [List.map_cons, List.mem_cons, not_or] at hr
          rw [e4 r hr.2, List.getElem?_set_ne (fun he => hr.1 he.symm)]
    obtain ⟨m, m1, m2, m3, m4⟩ := mid swapTable eB h (by decide +kernel) (by decide +kernel) (by decide +kernel)
    obtain ⟨e, e1, e2, e3, e4⟩ := copy_spec t ((List.range 14).zip (swapTable.map Prod.snd)) m (by rw [t2]; decide +kernel)
      (by rw [m2]; decide +kernel) (by decide +kernel)
    refine ⟨e, ?_, by omega, ?_, ?_⟩
    · unfold mcs5BurstSwap
      rw [t1]; dsimp only [bind, Option.bind]
      rw [m1]; dsimp only
      exact e1
    · have fin : ∀ i < 14, e[(swapTable.getD i (0, 0)).1]? = eB[(swapTable.getD i (0, 0)).2]? ∧ e[(swapTable.getD i (0, 0)).2]? = eB[(swapTable.getD i (0, 0)).1]? := by
        intro i hi
        have h1 : ((swapTable.getD i (0, 0)).1, i) ∈ (swapTable.map Prod.fst).zip (List.range 14) := by
          revert i; decide +kernel
        have h2 : (i, (swapTable.getD i (0, 0)).2) ∈ (List.range 14).zip (swapTable.map Prod.snd) := by
          revert i; decide +kernel
        have h3 : swapTable.getD i (0, 0) ∈ swapTable := by
          clear h1 h2
          revert i; decide +kernel
        constructor
        · rw [e4 _ (by
            have : ∀ p ∈ swapTable, ∀ pq ∈ (List.range 14).zip (swapTable.map Prod.snd), pq.2 ≠ p.1 := by decide +kernel
            exact this _ h3)]
          exact m3 _ h3
        · exact (e3 _ h2).trans (t3 _ h1)
      intro p hp
      obtain ⟨i, hi, rfl⟩ := List.getElem_of_mem hp
      have := fin i hi
      rw [List.getD_eq_getElem?_getD, List.getElem?_eq_getElem hi, Option.getD_some] at this
      exact this
    · intro r hr
      rw [e4 r, m4 r]
      · intro hm
        obtain ⟨p, hp, rfl⟩ := List.mem_map.mp hm
        exact (hr p hp).1 rfl
      · intro pq hpq he
        have hm := (List.of_mem_zip hpq).2
        obtain ⟨p, hp, hp2⟩ := List.mem_map.mp hm
        exact (hr p hp).2 (by omega)
  obtain ⟨e, e1, e2, e3, e4⟩ := key z eB h
  refine ⟨e, e1, e2, e3, e4, fun z' => ?_⟩
  obtain ⟨f, f1, f2, f3, f4⟩ := key z' e e2
  rw [f1]
  congr 1
  apply eq_of_get f2 h
  intro r hr
  by_cases hx : ∃ p ∈ swapTable, r = p.1 ∨ r = p.2
  · obtain ⟨p, hp, rfl | rfl⟩ := hx
    · rw [(f3 p hp).1, (e3 p hp).2]
    · rw [(f3 p hp).2, (e3 p hp).1]
  · have hx' : ∀ p ∈ swapTable, r ≠ p.1 ∧ r ≠ p.2 := fun p hp => ⟨fun h => hx ⟨p, hp, Or.inl h⟩, fun h => hx ⟨p, hp, Or.inr h⟩⟩
    rw [f4 r hx', e4 r hx']

/-! Instance: the swap exchanges bits 155 and 142. -/

example : (mcs5BurstSwap 0 (List.range 348)).map (fun l => (l[142]?, l[155]?, l[100]?)) = some (some 155, some 142, some 100) := by decide +kernel

end Verif.Interleave
