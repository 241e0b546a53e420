import Verif.Interleave.Copy
/-!
C87: interleaving and deinterleaving of all channels.
-/
namespace Verif.Interleave

variable {α : Type}

set_option maxRecDepth 20000

/-! ### xCCH -/

theorem xcch_mask : mask ((List.range 456).map xcchPlace) = some (2 ^ 456 - 1) := by decide +kernel

/-- C87: what has been interleaved comes back, whatever was in the buffers before. -/
theorem xcch_roundtrip (c i0 c0 : List α) (hc : c.length = 456) (hi : i0.length = 456) (h0 : c0.length = 456) :
    ∃ i, xcchInterleave c i0 = some i ∧ i.length = 456 ∧ xcchDeinterleave c0 i = some c :=
  scatter_gather xcch_mask (by decide +kernel) c i0 c0 hc hi h0

/-- C87: and what has been deinterleaved. -/
theorem xcch_roundtrip' (i i0 c0 : List α) (hi : i.length = 456) (hi0 : i0.length = 456) (h0 : c0.length = 456) :
    ∃ c, xcchDeinterleave c0 i = some c ∧ c.length = 456 ∧ xcchInterleave c i0 = some i :=
  gather_scatter xcch_mask i i0 c0 hi hi0 h0

/-- C87: i(B, j) = c(k) with B = k mod 4 and j = 2(49k mod 57) + ((k mod 8) div 4), as in TS 05.03 4.1.4. -/
theorem xcch_standard (c i0 i : List α) (hc : c.length = 456) (hi : i0.length = 456) (h : xcchInterleave c i0 = some i) (k : Nat)
    (hk : k < 456) : i[114 * (k % 4) + (2 * (49 * k % 57) + k % 8 / 4)]? = c[k]? := by
  obtain ⟨d, e1, -, e3, -⟩ := scatter_spec xcch_mask (by decide +kernel) c i0 hc hi
  rw [show d = i from Option.some.inj (e1.symm.trans h)] at e3
  rw [← e3 k hk]
  have h3 : k &&& 3 = k % 4 := Nat.and_two_pow_sub_one_eq_mod k 2
  have h7 : k &&& 7 = k % 8 := Nat.and_two_pow_sub_one_eq_mod k 3
  have hs : (k % 8) >>> 2 = k % 8 / 4 := Nat.shiftRight_eq_div_pow _ 2
  unfold xcchPlace
  rw [h3, h7, hs, Nat.mul_comm 114]

/-! ### TCH/F, TCH/H -/

theorem tchFr_mask : (mask ((List.range 456).map tchFrPlace)).any (· < 2 ^ 912) = true := by decide +kernel

theorem of_any {x : Option Nat} {n : Nat} (h : x.any (· < 2 ^ n) = true) : ∃ m, x = some m ∧ m < 2 ^ n := by
  cases x with
  | none => simp at h
  | some m => exact ⟨m, rfl, by simpa using h⟩

/-- C87: TCH/F, into 8 bursts -/
theorem tchFr_roundtrip (c i0 c0 : List α) (hc : c.length = 456) (hi : i0.length = 912) (h0 : c0.length = 456) :
    ∃ i, tchFrInterleave c i0 = some i ∧ i.length = 912 ∧ tchFrDeinterleave c0 i = some c := by
  obtain ⟨m, h1, h2⟩ := of_any tchFr_mask
  exact scatter_gather h1 h2 c i0 c0 hc hi h0

theorem tchFrPlace_eq (k : Nat) : tchFrPlace k = 114 * (k % 8) + (2 * (49 * k % 57) + k % 8 / 4) := by
  have h7 : k &&& 7 = k % 8 := Nat.and_two_pow_sub_one_eq_mod k 3
  have hs : (k % 8) >>> 2 = k % 8 / 4 := Nat.shiftRight_eq_div_pow _ 2
  unfold tchFrPlace
  rw [h7, hs, Nat.mul_comm 114]

/-- C87: i(B, j) = c(k) with B = k mod 8 and j = 2(49k mod 57) + ((k mod 8) div 4), as in TS 05.03 3.1.3. -/
theorem tchFr_standard (c i0 i : List α) (hc : c.length = 456) (hi : i0.length = 912) (h : tchFrInterleave c i0 = some i) (k : Nat)
    (hk : k < 456) : i[114 * (k % 8) + (2 * (49 * k % 57) + k % 8 / 4)]? = c[k]? := by
  obtain ⟨m, h1, h2⟩ := of_any tchFr_mask
  obtain ⟨d, e1, -, e3, -⟩ := scatter_spec h1 h2 c i0 hc hi
  rw [show d = i from Option.some.inj (e1.symm.trans h)] at e3
  rw [← e3 k hk, tchFrPlace_eq]

theorem pairs_spec {ps : List (Nat × Nat)} {n N m m' : Nat} (hp : mask (ps.map Prod.fst) = some m') (hp' : m' < 2 ^ n)
    (hm : mask (ps.map Prod.snd) = some m) (hN : m < 2 ^ N) (src dst : List α) (hs : src.length = n) (hd : dst.length = N) :
    ∃ d, copy src ps dst = some d ∧ d.length = N ∧ (∀ pq ∈ ps, d[pq.2]? = src[pq.1]?) ∧ ∀ r, (∀ pq ∈ ps, pq.2 ≠ r) → d[r]? = dst[r]? := by
  obtain ⟨-, h1⟩ := mask_sub hp hp'
  obtain ⟨h2, h3⟩ := mask_sub hm hN
  obtain ⟨d, e1, e2, e3, e4⟩ := copy_spec src ps dst (fun pq h => by rw [hs]; exact h1 _ (List.mem_map.mpr ⟨pq, h, rfl⟩))
    (fun pq h => by rw [hd]; exact h3 _ (List.mem_map.mpr ⟨pq, h, rfl⟩)) h2
  exact ⟨d, e1, by rw [e2, hd], e3, e4⟩

/-- A list of pairs with all sources and distinct destinations: what has been copied comes back. -/
theorem pairs_roundtrip {ps : List (Nat × Nat)} {n N m : Nat} (hp : mask (ps.map Prod.fst) = some (2 ^ n - 1))
    (hm : mask (ps.map Prod.snd) = some m) (hN : m < 2 ^ N) (c i0 c0 : List α) (hc : c.length = n) (hi : i0.length = N)
    (h0 : c0.length = n) : ∃ i, copy c ps i0 = some i ∧ i.length = N ∧ copy i (ps.map Prod.swap) c0 = some c := by
  have hn : 2 ^ n - 1 < 2 ^ n := by have := Nat.two_pow_pos n; omega
  obtain ⟨i, e1, e2, e3, -⟩ := pairs_spec hp hn hm hN c i0 hc hi
  obtain ⟨d, g1, g2, g3, -⟩ := pairs_spec (ps := ps.map Prod.swap) (by simpa [List.map_map, Function.comp_def] using hm) hN
    (by simpa [List.map_map, Function.comp_def] using hp) hn i c0 e2 h0
  refine ⟨i, e1, e2, ?_⟩
  rw [g1, eq_of_get g2 hc fun k hk => ?_]
  obtain ⟨pq, hpq, rfl⟩ := List.mem_map.mp (((mask_full hp).2 k).mpr hk)
  exact (g3 pq.swap (List.mem_map.mpr ⟨pq, hpq, rfl⟩)).trans (e3 pq hpq)

theorem tchHr_fst : mask (tchHrPairs.map Prod.fst) = some (2 ^ 228 - 1) := by decide +kernel
theorem tchHr_snd : (mask (tchHrPairs.map Prod.snd)).any (· < 2 ^ 456) = true := by decide +kernel

/-- C87: TCH/H, into 4 bursts -/
theorem tchHr_roundtrip (c i0 c0 : List α) (hc : c.length = 228) (hi : i0.length = 456) (h0 : c0.length = 228) :
    ∃ i, tchHrInterleave c i0 = some i ∧ i.length = 456 ∧ tchHrDeinterleave c0 i = some c := by
  obtain ⟨m, h1, h2⟩ := of_any tchHr_snd
  exact pairs_roundtrip tchHr_fst h1 h2 c i0 c0 hc hi h0

theorem tchHr_parity : tchHrPairs.all (fun pq => pq.2 % 114 % 2 == pq.2 / 228) = true := by decide +kernel

/-- C87: the bits of the first two bursts of TCH/H have even places, those of the others odd ones. -/
theorem tchHr_parity_mem (pq : Nat × Nat) (h : pq ∈ tchHrPairs) : pq.2 % 114 % 2 = pq.2 / 228 := by
  have := List.all_eq_true.mp tchHr_parity pq h
  simpa using this

/-! ### TCH/F9.6 and the like -/

theorem tchF96_mask : (mask ((List.range 456).map tchF96Place)).any (· < 2 ^ 2508) = true := by decide +kernel

/-- C87: TCH/F9.6, into 22 bursts -/
theorem tchF96_roundtrip (c i0 c0 : List α) (hc : c.length = 456) (hi : i0.length = 2508) (h0 : c0.length = 456) :
    ∃ i, tchF96Interleave c i0 = some i ∧ i.length = 2508 ∧ tchF96Deinterleave c0 i = some c := by
  obtain ⟨m, h1, h2⟩ := of_any tchF96_mask
  exact scatter_gather h1 h2 c i0 c0 hc hi h0

/-- C87: i(B, j) = c(k) with B = (k mod 19) + (k div 114) and j = (k mod 19) + 19(k mod 6), as in TS 45.003 3.3.4; all other bits
of the bursts stay as they are. -/
theorem tchF96_standard (c i0 i : List α) (hc : c.length = 456) (hi : i0.length = 2508) (h : tchF96Interleave c i0 = some i) :
    (∀ k < 456, i[114 * (k % 19 + k / 114) + (k % 19 + 19 * (k % 6))]? = c[k]?) ∧
    ∀ r, (∀ k < 456, 114 * (k % 19 + k / 114) + (k % 19 + 19 * (k % 6)) ≠ r) → i[r]? = i0[r]? := by
  obtain ⟨m, h1, h2⟩ := of_any tchF96_mask
  obtain ⟨d, e1, -, e3, e4⟩ := scatter_spec h1 h2 c i0 hc hi
  rw [show d = i from Option.some.inj (e1.symm.trans h)] at e3 e4
  have hf : ∀ k, tchF96Place k = 114 * (k % 19 + k / 114) + (k % 19 + 19 * (k % 6)) := fun k => by unfold tchF96Place; omega
  simp only [hf] at e3 e4
  exact ⟨e3, e4⟩

/-- How many bits of a block a burst gets. -/
def f96Count (B : Nat) : Nat := ((List.range 456).filter fun k => tchF96Place k / 114 == B).length

/-- C87: 6 bits in the first and 22nd burst, 12 in the second and 21st, 18 in the third and 20th and 24 in the other 16, as in
TS 45.003 3.3.4. -/
theorem tchF96_spread : (List.range 22).map f96Count =
    [6, 12, 18, 24, 24, 24, 24, 24, 24, 24, 24, 24, 24, 24, 24, 24, 24, 24, 24, 18, 12, 6] := by decide +kernel

/-! ### MCS-5 to MCS-9 -/

theorem mcs5_fst : mask (mcs5Pairs.map Prod.fst) = some (2 ^ 1248 - 1) := by decide +kernel
theorem mcs5_snd : mask (mcs5Pairs.map Prod.snd) = some (2 ^ 1248 - 1) := by decide +kernel
theorem mcs5Ul_mask : mask ((List.range 136).map mcs5UlHdrPlace) = some (2 ^ 136 - 1) := by decide +kernel
theorem mcs5Dl_mask : mask ((List.range 100).map mcs5DlHdrPlace) = some (2 ^ 100 - 1) := by decide +kernel
theorem mcs7Dl_mask : mask ((List.range 124).map mcs7DlHdrPlace) = some (2 ^ 124 - 1) := by decide +kernel
theorem mcs7Ul_mask : mask ((List.range 160).map mcs7UlHdrPlace) = some (2 ^ 160 - 1) := by decide +kernel
theorem mcs7_mask : mask ((List.range 1224).map mcs7Place) = some (2 ^ 1224 - 1) := by decide +kernel
theorem mcs8_mask : mask ((List.range 1224).map mcs8Place) = some (2 ^ 1224 - 1) := by decide +kernel

theorem lt_two_pow (n : Nat) : 2 ^ n - 1 < 2 ^ n := by have := Nat.two_pow_pos n; omega

/-- C87: MCS-5 and MCS-6, uplink -/
theorem mcs5Ul_roundtrip (hc dc hi0 di0 hc0 dc0 : List α) (h1 : hc.length = 136) (h2 : dc.length = 1248) (h3 : hi0.length = 136)
    (h4 : di0.length = 1248) (h5 : hc0.length = 136) (h6 : dc0.length = 1248) :
    ∃ hi di, mcs5UlInterleave hc dc hi0 di0 = some (hi, di) ∧ hi.length = 136 ∧ di.length = 1248 ∧
      mcs5UlDeinterleave hc0 dc0 hi di = some (hc, dc) := by
  obtain ⟨hi, a1, a2, a3⟩ := scatter_gather mcs5Ul_mask (lt_two_pow _) hc hi0 hc0 h1 h3 h5
  obtain ⟨di, b1, b2, b3⟩ := pairs_roundtrip mcs5_fst mcs5_snd (lt_two_pow _) dc di0 dc0 h2 h4 h6
  refine ⟨hi, di, ?_, a2, b2, ?_⟩
  · simp [mcs5UlInterleave, a1, b1]
  · simp [mcs5UlDeinterleave, a3, b3]

/-- C87: MCS-5 and MCS-6, downlink -/
theorem mcs5Dl_roundtrip (hc dc hi0 di0 hc0 dc0 : List α) (h1 : hc.length = 100) (h2 : dc.length = 1248) (h3 : hi0.length = 100)
    (h4 : di0.length = 1248) (h5 : hc0.length = 100) (h6 : dc0.length = 1248) :
    ∃ hi di, mcs5DlInterleave hc dc hi0 di0 = some (hi, di) ∧ hi.length = 100 ∧ di.length = 1248 ∧
      mcs5DlDeinterleave hc0 dc0 hi di = some (hc, dc) := by
  obtain ⟨hi, a1, a2, a3⟩ := scatter_gather mcs5Dl_mask (lt_two_pow _) hc hi0 hc0 h1 h3 h5
  obtain ⟨di, b1, b2, b3⟩ := pairs_roundtrip mcs5_fst mcs5_snd (lt_two_pow _) dc di0 dc0 h2 h4 h6
  refine ⟨hi, di, ?_, a2, b2, ?_⟩
  · simp [mcs5DlInterleave, a1, b1]
  · simp [mcs5DlDeinterleave, a3, b3]

theorem split2_join2 {f : Nat → Nat} (hm : mask ((List.range 1224).map f) = some (2 ^ 1224 - 1)) (c1 c2 di0 c10 c20 : List α)
    (h1 : c1.length = 612) (h2 : c2.length = 612) (h3 : di0.length = 1224) (h4 : c10.length = 612) (h5 : c20.length = 612) :
    ∃ di, split2 f c1 c2 di0 = some di ∧ di.length = 1224 ∧ join2 f c10 c20 di = some (c1, c2) ∧
      ∀ k < 612, di[f k]? = c1[k]? ∧ di[f (k + 612)]? = c2[k]? := by
  obtain ⟨hn, hb⟩ := mask_full hm
  have hb : ∀ k < 1224, f k < 1224 := fun k hk => (hb _).mp (List.mem_map.mpr ⟨k, List.mem_range.mpr hk, rfl⟩)
  have hinj : ∀ i < 1224, ∀ j < 1224, f i = f j → i = j := by
    have key : ∀ i j, i < j → j < 1224 → f i ≠ f j := by
      intro i j hij hj
      have := List.pairwise_iff_getElem.mp hn i j (by rw [List.length_map, List.length_range]; omega) (by rw [List.length_map, List.length_range]; omega) hij
      simpa using this
    intro i hi j hj h
    rcases Nat.lt_trichotomy i j with h1 | h1 | h1
    · exact absurd h (key i j h1 hj)
    · exact h1
    · exact absurd h.symm (key j i h1 hi)
  have np : ∀ (g : Nat → Nat), (∀ i < 612, ∀ j < 612, g i = g j → i = j) → ((List.range 612).map g).Nodup := by
    intro g hg
    apply List.pairwise_iff_getElem.mpr
    intro i j hi hj hij h
    rw [List.length_map, List.length_range] at hi hj
    simp only [List.getElem_map, List.getElem_range] at h
    have := hg i hi j hj h
    omega
  obtain ⟨d1, a1, a2, a3, a4⟩ := copy_spec c1 ((List.range 612).map fun k => (k, f k)) di0 (by simp [h1])
    (by simp only [List.mem_map, List.mem_range]; rintro _ ⟨k, hk, rfl⟩; rw [h3]; exact hb k (by omega))
    (by
      rw [List.map_map]
      exact np _ fun i hi j hj h => hinj i (by omega) j (by omega) h)
  obtain ⟨d2, b1, b2, b3, b4⟩ := copy_spec c2 ((List.range 612).map fun k => (k, f (k + 612))) d1 (by simp [h2])
    (by simp only [List.mem_map, List.mem_range]; rintro _ ⟨k, hk, rfl⟩; rw [a2, h3]; exact hb _ (by omega))
    (by
      rw [List.map_map]
      exact np _ fun i hi j hj h => by have := hinj (i + 612) (by omega) (j + 612) (by omega) h; omega)
  have hd1 : ∀ k < 612, d2[f k]? = c1[k]? := by
    intro k hk
    rw [b4 (f k), a3 (k, f k) (List.mem_map.mpr ⟨k, List.mem_range.mpr hk, rfl⟩)]
    simp only [List.mem_map, List.mem_range]
    rintro _ ⟨j, hj, rfl⟩ h
    have := hinj (j + 612) (by omega) k (by omega) h
    omega
  have hd2 : ∀ k < 612, d2[f (k + 612)]? = c2[k]? := fun k hk =>
    b3 (k, f (k + 612)) (List.mem_map.mpr ⟨k, List.mem_range.mpr hk, rfl⟩)
  obtain ⟨e1, g1, g2, g3, -⟩ := copy_spec d2 ((List.range 612).map fun k => (f k, k)) c10
    (by simp only [List.mem_map, List.mem_range]; rintro _ ⟨k, hk, rfl⟩; rw [b2, a2, h3]; exact hb k (by omega))
    (by simp [h4]) (by rw [List.map_map]; exact np _ fun i _ j _ h => h)
  obtain ⟨e2, k1, k2, k3, -⟩ := copy_spec d2 ((List.range 612).map fun k => (f (k + 612), k)) c20
    (by simp only [List.mem_map, List.mem_range]; rintro _ ⟨k, hk, rfl⟩; rw [b2, a2, h3]; exact hb _ (by omega))
    (by simp [h5]) (by rw [List.map_map]; exact np _ fun i _ j _ h => h)
  refine ⟨d2, ?_, by omega, ?_, fun k hk => ⟨hd1 k hk, hd2 k hk⟩⟩
  · simp only [split2, a1, b1, bind, Option.bind]
  · simp only [join2, g1, k1, bind, Option.bind]
    rw [eq_of_get (g2.trans h4) h1 fun k hk => by
        rw [g3 (f k, k) (List.mem_map.mpr ⟨k, List.mem_range.mpr hk, rfl⟩)]; exact hd1 k hk,
      eq_of_get (k2.trans h5) h2 fun k hk => by
        rw [k3 (f (k + 612), k) (List.mem_map.mpr ⟨k, List.mem_range.mpr hk, rfl⟩)]; exact hd2 k hk]

/-- C87: MCS-7, downlink -/
theorem mcs7Dl_roundtrip (hc c1 c2 hi0 di0 hc0 c10 c20 : List α) (h1 : hc.length = 124) (h2 : c1.length = 612) (h3 : c2.length = 612)
    (h4 : hi0.length = 124) (h5 : di0.length = 1224) (h6 : hc0.length = 124) (h7 : c10.length = 612) (h8 : c20.length = 612) :
    ∃ hi di, mcs7DlInterleave hc c1 c2 hi0 di0 = some (hi, di) ∧ hi.length = 124 ∧ di.length = 1224 ∧
      mcs7DlDeinterleave hc0 c10 c20 hi di = some (hc, c1, c2) := by
  obtain ⟨hi, a1, a2, a3⟩ := scatter_gather mcs7Dl_mask (lt_two_pow _) hc hi0 hc0 h1 h4 h6
  obtain ⟨di, b1, b2, b3, -⟩ := split2_join2 mcs7_mask c1 c2 di0 c10 c20 h2 h3 h5 h7 h8
  refine ⟨hi, di, ?_, a2, b2, ?_⟩
  · simp [mcs7DlInterleave, a1, b1]
  · simp [mcs7DlDeinterleave, a3, b3]

/-- C87: MCS-7, uplink -/
theorem mcs7Ul_roundtrip (hc c1 c2 hi0 di0 hc0 c10 c20 : List α) (h1 : hc.length = 160) (h2 : c1.length = 612) (h3 : c2.length = 612)
    (h4 : hi0.length = 160) (h5 : di0.length = 1224) (h6 : hc0.length = 160) (h7 : c10.length = 612) (h8 : c20.length = 612) :
    ∃ hi di, mcs7UlInterleave hc c1 c2 hi0 di0 = some (hi, di) ∧ hi.length = 160 ∧ di.length = 1224 ∧
      mcs7UlDeinterleave hc0 c10 c20 hi di = some (hc, c1, c2) := by
  obtain ⟨hi, a1, a2, a3⟩ := scatter_gather mcs7Ul_mask (lt_two_pow _) hc hi0 hc0 h1 h4 h6
  obtain ⟨di, b1, b2, b3, -⟩ := split2_join2 mcs7_mask c1 c2 di0 c10 c20 h2 h3 h5 h7 h8
  refine ⟨hi, di, ?_, a2, b2, ?_⟩
  · simp [mcs7UlInterleave, a1, b1]
  · simp [mcs7UlDeinterleave, a3, b3]

/-- C87: MCS-8 and MCS-9, downlink -/
theorem mcs8Dl_roundtrip (hc c1 c2 hi0 di0 hc0 c10 c20 : List α) (h1 : hc.length = 124) (h2 : c1.length = 612) (h3 : c2.length = 612)
    (h4 : hi0.length = 124) (h5 : di0.length = 1224) (h6 : hc0.length = 124) (h7 : c10.length = 612) (h8 : c20.length = 612) :
    ∃ hi di, mcs8DlInterleave hc c1 c2 hi0 di0 = some (hi, di) ∧ hi.length = 124 ∧ di.length = 1224 ∧
      mcs8DlDeinterleave hc0 c10 c20 hi di = some (hc, c1, c2) := by
  obtain ⟨hi, a1, a2, a3⟩ := scatter_gather mcs7Dl_mask (lt_two_pow _) hc hi0 hc0 h1 h4 h6
  obtain ⟨di, b1, b2, b3, -⟩ := split2_join2 mcs8_mask c1 c2 di0 c10 c20 h2 h3 h5 h7 h8
  refine ⟨hi, di, ?_, a2, b2, ?_⟩
  · simp [mcs8DlInterleave, a1, b1]
  · simp [mcs8DlDeinterleave, a3, b3]

/-- C87: MCS-8 and MCS-9, uplink -/
theorem mcs8Ul_roundtrip (hc c1 c2 hi0 di0 hc0 c10 c20 : List α) (h1 : hc.length = 160) (h2 : c1.length = 612) (h3 : c2.length = 612)
    (h4 : hi0.length = 160) (h5 : di0.length = 1224) (h6 : hc0.length = 160) (h7 : c10.length = 612) (h8 : c20.length = 612) :
    ∃ hi di, mcs8UlInterleave hc c1 c2 hi0 di0 = some (hi, di) ∧ hi.length = 160 ∧ di.length = 1224 ∧
      mcs8UlDeinterleave hc0 c10 c20 hi di = some (hc, c1, c2) := by
  obtain ⟨hi, a1, a2, a3⟩ := scatter_gather mcs7Ul_mask (lt_two_pow _) hc hi0 hc0 h1 h4 h6
  obtain ⟨di, b1, b2, b3, -⟩ := split2_join2 mcs8_mask c1 c2 di0 c10 c20 h2 h3 h5 h7 h8
  refine ⟨hi, di, ?_, a2, b2, ?_⟩
  · simp [mcs8UlInterleave, a1, b1]
  · simp [mcs8UlDeinterleave, a3, b3]

/-- C87: the places of TS 45.003 5.1.9.1.5, 5.1.9.2.4 and 5.1.11 for the headers and for the data of MCS-7 and MCS-8/9 -/
theorem mcs_standard (hc c1 c2 hi0 di0 hi di : List α) (h2 : c1.length = 612) (h3 : c2.length = 612) (h5 : di0.length = 1224) :
    (hc.length = 136 → hi0.length = 136 → (∃ dc d0, mcs5UlInterleave hc dc hi0 d0 = some (hi, di)) →
      ∀ k < 136, hi[34 * (k % 4) + 2 * (11 * k % 17) + k % 8 / 4]? = hc[k]?) ∧
    (hc.length = 100 → hi0.length = 100 → (∃ dc d0, mcs5DlInterleave hc dc hi0 d0 = some (hi, di)) →
      ∀ k < 100, hi[25 * (k % 4) + 17 * k % 25]? = hc[k]?) ∧
    (hc.length = 124 → hi0.length = 124 →
      (mcs7DlInterleave hc c1 c2 hi0 di0 = some (hi, di) →
        (∀ k < 124, hi[31 * (k % 4) + 17 * k % 31]? = hc[k]?) ∧
        ∀ k < 1224, di[306 * (k % 4) + 3 * (44 * k % 102 + k / 4 % 2) + (k + 2 - k / 408) % 3]? = (c1 ++ c2)[k]?) ∧
      (mcs8DlInterleave hc c1 c2 hi0 di0 = some (hi, di) →
        (∀ k < 124, hi[31 * (k % 4) + 17 * k % 31]? = hc[k]?) ∧
        ∀ k < 1224, di[306 * (2 * (k / 612) + k % 2) + 3 * (74 * k % 102 + k / 2 % 2) + (k + 2 - k / 204) % 3]? = (c1 ++ c2)[k]?)) ∧
    (hc.length = 160 → hi0.length = 160 →
      (mcs7UlInterleave hc c1 c2 hi0 di0 = some (hi, di) →
        (∀ k < 160, hi[40 * (k % 4) + 2 * (13 * (k / 8) % 20) + k % 8 / 4]? = hc[k]?) ∧
        ∀ k < 1224, di[306 * (k % 4) + 3 * (44 * k % 102 + k / 4 % 2) + (k + 2 - k / 408) % 3]? = (c1 ++ c2)[k]?) ∧
      (mcs8UlInterleave hc c1 c2 hi0 di0 = some (hi, di) →
        (∀ k < 160, hi[40 * (k % 4) + 2 * (13 * (k / 8) % 20) + k % 8 / 4]? = hc[k]?) ∧
        ∀ k < 1224, di[306 * (2 * (k / 612) + k % 2) + 3 * (74 * k % 102 + k / 2 % 2) + (k + 2 - k / 204) % 3]? = (c1 ++ c2)[k]?)) := by
  have hdr : ∀ {n : Nat} {f : Nat → Nat}, mask ((List.range n).map f) = some (2 ^ n - 1) → hc.length = n → hi0.length = n →
      ∃ d, scatter n f hc hi0 = some d ∧ ∀ k < n, d[f k]? = hc[k]? := by
    intro n f hm h h'
    obtain ⟨d, e1, -, e3, -⟩ := scatter_spec hm (lt_two_pow _) hc hi0 h h'
    exact ⟨d, e1, e3⟩
  have dat : ∀ {f : Nat → Nat}, mask ((List.range 1224).map f) = some (2 ^ 1224 - 1) →
      ∃ d, split2 f c1 c2 di0 = some d ∧ ∀ k < 1224, d[f k]? = (c1 ++ c2)[k]? := by
    intro f hm
    obtain ⟨d, e1, -, -, e3⟩ := split2_join2 hm c1 c2 di0 c1 c2 h2 h3 h5 h2 h3
    refine ⟨d, e1, fun k hk => ?_⟩
    by_cases h : k < 612
    · rw [(e3 k h).1, List.getElem?_append_left (by omega)]
    · rw [List.getElem?_append_right (by omega), h2, ← (e3 (k - 612) (by omega)).2, show k - 612 + 612 = k by omega]
  refine ⟨fun h h' => ?_, fun h h' => ?_, fun h h' => ⟨?_, ?_⟩, fun h h' => ⟨?_, ?_⟩⟩
  · obtain ⟨d, e1, e2⟩ := hdr mcs5Ul_mask h h'
    rintro ⟨dc, d0, he⟩
    simp only [mcs5UlInterleave, e1, bind, Option.bind] at he
    split at he
    · cases he
    · simp only [Option.some.injEq, Prod.mk.injEq] at he
      rw [← he.1]; exact e2
  · obtain ⟨d, e1, e2⟩ := hdr mcs5Dl_mask h h'
    rintro ⟨dc, d0, he⟩
    simp only [mcs5DlInterleave, e1, bind, Option.bind] at he
    split at he
    · cases he
    · simp only [Option.some.injEq, Prod.mk.injEq] at he
      rw [← he.1]; exact e2
  · obtain ⟨d, e1, e2⟩ := hdr mcs7Dl_mask h h'
    obtain ⟨x, f1, f2⟩ := dat mcs7_mask
    intro he
    simp only [mcs7DlInterleave, e1, f1, bind, Option.bind, Option.some.injEq, Prod.mk.injEq] at he
    rw [← he.1, ← he.2]; exact ⟨e2, f2⟩
  · obtain ⟨d, e1, e2⟩ := hdr mcs7Dl_mask h h'
    obtain ⟨x, f1, f2⟩ := dat mcs8_mask
    intro he
    simp only [mcs8DlInterleave, e1, f1, bind, Option.bind, Option.some.injEq, Prod.mk.injEq] at he
    rw [← he.1, ← he.2]; exact ⟨e2, f2⟩
  · obtain ⟨d, e1, e2⟩ := hdr mcs7Ul_mask h h'
    obtain ⟨x, f1, f2⟩ := dat mcs7_mask
    intro he
    simp only [mcs7UlInterleave, e1, f1, bind, Option.bind, Option.some.injEq, Prod.mk.injEq] at he
    rw [← he.1, ← he.2]; exact ⟨e2, f2⟩
  · obtain ⟨d, e1, e2⟩ := hdr mcs7Ul_mask h h'
    obtain ⟨x, f1, f2⟩ := dat mcs8_mask
    intro he
    simp only [mcs8UlInterleave, e1, f1, bind, Option.bind, Option.some.injEq, Prod.mk.injEq] at he
    rw [← he.1, ← he.2]; exact ⟨e2, f2⟩

/-- C87: MCS-8 keeps each of the two blocks in two bursts of its own. -/
theorem mcs8_bursts : ∀ k < 1224, mcs8Place k / 612 = k / 612 := by
  intro k hk
  unfold mcs8Place
  omega

/-- C87: MCS-7 spreads each block over all four bursts. -/
theorem mcs7_bursts : ∀ k < 1224, mcs7Place k / 306 = k % 4 := by
  intro k hk
  unfold mcs7Place
  omega

/-! ### MCS-1 to MCS-4 -/

/-- The place of bit `k` of 452 among 456, with the four bits 25, 82, 139 and 424 left out. -/
def skip4 (k : Nat) : Nat := if k < 25 then k else if k < 81 then k + 1 else if k < 137 then k + 2 else if k < 421 then k + 3 else k + 4

theorem skip4_iff (r : Nat) (hr : r < 456) : (∃ k < 452, skip4 k = r) ↔ r ≠ 25 ∧ r ≠ 82 ∧ r ≠ 139 ∧ r ≠ 424 := by
  constructor
  · rintro ⟨k, hk, rfl⟩
    unfold skip4
    refine ⟨?_, ?_, ?_, ?_⟩ <;> (repeat' split) <;> omega
  · intro h
    refine ⟨if r < 25 then r else if r < 82 then r - 1 else if r < 139 then r - 2 else if r < 424 then r - 3 else r - 4, ?_, ?_⟩
    · (repeat' split) <;> omega
    · unfold skip4
      (repeat' split) <;> omega

theorem mcs1Insert_spec (c cp0 : List α) (o : α) (hc : c.length = 452) (hp : cp0.length = 456) :
    ∃ cp, copy c mcs1Insert cp0 = some cp ∧ (mcs1Zero o cp).length = 456 ∧ (∀ k < 452, (mcs1Zero o cp)[skip4 k]? = c[k]?) ∧
      ∀ r, r = 25 ∨ r = 82 ∨ r = 139 ∨ r = 424 → (mcs1Zero o cp)[r]? = some o := by
  unfold mcs1Insert
  obtain ⟨d1, a1, a2, a3⟩ := copy_loop1 c cp0 25 0 0 (by omega) (by omega)
  obtain ⟨d2, b1, b2, b3⟩ := copy_loop1 c d1 56 25 26 (by omega) (by omega)
  obtain ⟨d3, e1, e2, e3⟩ := copy_loop1 c d2 56 81 83 (by omega) (by omega)
  obtain ⟨d4, f1, f2, f3⟩ := copy_loop1 c d3 284 137 140 (by omega) (by omega)
  obtain ⟨d5, g1, g2, g3⟩ := copy_loop1 c d4 31 421 425 (by omega) (by omega)
  refine ⟨d5, by simp only [copy_append, a1, b1, e1, f1, g1, Option.bind], by simp [mcs1Zero]; omega, ?_, ?_⟩
  · intro k hk
    have hs := (skip4_iff (skip4 k) (by unfold skip4; (repeat' split) <;> omega)).mp ⟨k, hk, rfl⟩
    unfold mcs1Zero
    rw [List.getElem?_set_ne (by omega), List.getElem?_set_ne (by omega), List.getElem?_set_ne (by omega), List.getElem?_set_ne (by omega),
      g3, f3, e3, b3, a3]
    clear hs
    unfold skip4
    (repeat' split) <;> first | omega | skip
    all_goals first | (congr 1; omega) | omega
  · intro r hr
    have hl : d5.length = 456 := by omega
    unfold mcs1Zero
    rcases hr with rfl | rfl | rfl | rfl <;> simp [hl]

theorem mcs1Remove_spec (cp c0 : List α) (hp : cp.length = 456) (hc : c0.length = 452) :
    ∃ c, copy cp mcs1Remove c0 = some c ∧ c.length = 452 ∧ ∀ k < 452, c[k]? = cp[skip4 k]? := by
  unfold mcs1Remove
  obtain ⟨d1, a1, a2, a3⟩ := copy_loop1 cp c0 25 0 0 (by omega) (by omega)
  obtain ⟨d2, b1, b2, b3⟩ := copy_loop1 cp d1 56 26 25 (by omega) (by omega)
  obtain ⟨d3, e1, e2, e3⟩ := copy_loop1 cp d2 56 83 81 (by omega) (by omega)
  obtain ⟨d4, f1, f2, f3⟩ := copy_loop1 cp d3 284 140 137 (by omega) (by omega)
  obtain ⟨d5, g1, g2, g3⟩ := copy_loop1 cp d4 31 425 421 (by omega) (by omega)
  refine ⟨d5, by simp only [copy_append, a1, b1, e1, f1, g1, Option.bind], by omega, ?_⟩
  intro k hk
  rw [g3, f3, e3, b3, a3]
  unfold skip4
  (repeat' split) <;> first | omega | skip
  all_goals first | (congr 1; omega) | omega

/-- C87: MCS-1 to MCS-4, downlink; the bits 25, 82, 139 and 424 of the 456 are 0. -/
theorem mcs1Dl_roundtrip (o z z' : α) (up hc dc iB0 u0 hc0 dc0 : List α) (h1 : up.length = 12) (h2 : hc.length = 68) (h3 : dc.length = 372)
    (h4 : iB0.length = 456) (h5 : u0.length = 12) (h6 : hc0.length = 68) (h7 : dc0.length = 372) :
    ∃ iB, mcs1DlInterleave o z up hc dc iB0 = some iB ∧ iB.length = 456 ∧
      mcs1DlDeinterleave z' u0 hc0 dc0 iB = some (up, hc, dc) ∧
      ∀ cp0 : List α, cp0.length = 456 → ∃ cp, xcchDeinterleave cp0 iB = some cp ∧ (∀ k < 452, cp[skip4 k]? = (up ++ hc ++ dc)[k]?) ∧
        ∀ r, r = 25 ∨ r = 82 ∨ r = 139 ∨ r = 424 → cp[r]? = some o := by
  obtain ⟨c1, a1, a2, a3⟩ := copy_loop1 up (List.replicate 452 z) 12 0 0 (by omega) (by simp)
  rw [List.length_replicate] at a2
  obtain ⟨c2, b1, b2, b3⟩ := copy_loop1 hc c1 68 0 12 (by omega) (by omega)
  obtain ⟨c3, e1, e2, e3⟩ := copy_loop1 dc c2 372 0 80 (by omega) (by omega)
  have hc3 : c3 = up ++ hc ++ dc := by
    apply eq_of_get (n := 452) (by omega) (by simp; omega)
    intro k hk
    rw [e3, b3, a3]
    by_cases hk1 : k < 12
    · rw [if_neg (by omega), if_neg (by omega), if_pos (by omega), List.append_assoc, List.getElem?_append_left (by omega)]
      congr 1
      omega
    · by_cases hk2 : k < 80
      · rw [if_neg (by omega), if_pos (by omega), List.append_assoc, List.getElem?_append_right (by omega), List.getElem?_append_left (by omega)]
        congr 1
        omega
      · rw [if_pos (by omega), List.getElem?_append_right (by simp; omega)]
        congr 1
        simp
        omega
  subst hc3
  obtain ⟨cp, f1, f2, f3, f4⟩ := mcs1Insert_spec (up ++ hc ++ dc) (List.replicate 456 z) o (by omega) (by simp)
  obtain ⟨iB, g1, g2, -⟩ := xcch_roundtrip (mcs1Zero o cp) iB0 iB0 f2 h4 h4
  have g3 : ∀ cp0 : List α, cp0.length = 456 → xcchDeinterleave cp0 iB = some (mcs1Zero o cp) := by
    intro cp0 h0
    obtain ⟨iB', g1', -, g3'⟩ := xcch_roundtrip (mcs1Zero o cp) iB0 cp0 f2 h4 h0
    rw [g1] at g1'
    rw [Option.some.inj g1', g3']
  obtain ⟨c, k1, k2, k3⟩ := mcs1Remove_spec (mcs1Zero o cp) (List.replicate 452 z') f2 (by simp)
  have hcc : c = up ++ hc ++ dc := eq_of_get k2 (by omega) fun k hk => by rw [k3 k hk, f3 k hk]
  subst hcc
  obtain ⟨u', l1, l2, l3⟩ := copy_loop1 (up ++ hc ++ dc) u0 12 0 0 (by omega) (by omega)
  obtain ⟨hc', m1, m2, m3⟩ := copy_loop1 (up ++ hc ++ dc) hc0 68 12 0 (by omega) (by omega)
  obtain ⟨dc', n1, n2, n3⟩ := copy_loop1 (up ++ hc ++ dc) dc0 372 80 0 (by omega) (by omega)
  refine ⟨iB, ?_, g2, ?_, fun cp0 h0 => ⟨_, g3 cp0 h0, f3, f4⟩⟩
  · simp only [mcs1DlInterleave, a1, b1, e1, f1, bind, Option.bind, g1]
  · simp only [mcs1DlDeinterleave, g3 _ (List.length_replicate (n := 456)), k1, l1, m1, n1, bind, Option.bind]
    have q1 : u' = up := eq_of_get (n := 12) (by omega) h1 fun k hk => by
      rw [l3, if_pos (by omega), List.append_assoc, List.getElem?_append_left (by omega)]; congr 1; omega
    have q2 : hc' = hc := eq_of_get (n := 68) (by omega) h2 fun k hk => by
      rw [m3, if_pos (by omega), List.append_assoc, List.getElem?_append_right (by omega), List.getElem?_append_left (by omega)]; congr 1; omega
    have q3 : dc' = dc := eq_of_get (n := 372) (by omega) h3 fun k hk => by
      rw [n3, if_pos (by omega), List.getElem?_append_right (by simp; omega)]; congr 1; simp; omega
    rw [q1, q2, q3]

/-- C87: MCS-1 to MCS-4, uplink -/
theorem mcs1Ul_roundtrip (o z z' : α) (hc dc iB0 hc0 dc0 : List α) (h2 : hc.length = 80) (h3 : dc.length = 372)
    (h4 : iB0.length = 456) (h6 : hc0.length = 80) (h7 : dc0.length = 372) :
    ∃ iB, mcs1UlInterleave o z hc dc iB0 = some iB ∧ iB.length = 456 ∧ mcs1UlDeinterleave z' hc0 dc0 iB = some (hc, dc) ∧
      ∀ cp0 : List α, cp0.length = 456 → ∃ cp, xcchDeinterleave cp0 iB = some cp ∧ (∀ k < 452, cp[skip4 k]? = (hc ++ dc)[k]?) ∧
        ∀ r, r = 25 ∨ r = 82 ∨ r = 139 ∨ r = 424 → cp[r]? = some o := by
  obtain ⟨c2, b1, b2, b3⟩ := copy_loop1 hc (List.replicate 452 z) 80 0 0 (by omega) (by simp)
  rw [List.length_replicate] at b2
  obtain ⟨c3, e1, e2, e3⟩ := copy_loop1 dc c2 372 0 80 (by omega) (by omega)
  have hc3 : c3 = hc ++ dc := by
    apply eq_of_get (n := 452) (by omega) (by simp; omega)
    intro k hk
    rw [e3, b3]
    by_cases hk2 : k < 80
    · rw [if_neg (by omega), if_pos (by omega), List.getElem?_append_left (by omega)]
      congr 1
      omega
    · rw [if_pos (by omega), List.getElem?_append_right (by omega)]
      congr 1
      omega
  subst hc3
  obtain ⟨cp, f1, f2, f3, f4⟩ := mcs1Insert_spec (hc ++ dc) (List.replicate 456 z) o (by omega) (by simp)
  obtain ⟨iB, g1, g2, -⟩ := xcch_roundtrip (mcs1Zero o cp) iB0 iB0 f2 h4 h4
  have g3 : ∀ cp0 : List α, cp0.length = 456 → xcchDeinterleave cp0 iB = some (mcs1Zero o cp) := by
    intro cp0 h0
    obtain ⟨iB', g1', -, g3'⟩ := xcch_roundtrip (mcs1Zero o cp) iB0 cp0 f2 h4 h0
    rw [g1] at g1'
    rw [Option.some.inj g1', g3']
  obtain ⟨c, k1, k2, k3⟩ := mcs1Remove_spec (mcs1Zero o cp) (List.replicate 452 z') f2 (by simp)
  have hcc : c = hc ++ dc := eq_of_get k2 (by omega) fun k hk => by rw [k3 k hk, f3 k hk]
  subst hcc
  obtain ⟨hc', m1, m2, m3⟩ := copy_loop1 (hc ++ dc) hc0 80 0 0 (by omega) (by omega)
  obtain ⟨dc', n1, n2, n3⟩ := copy_loop1 (hc ++ dc) dc0 372 80 0 (by omega) (by omega)
  refine ⟨iB, ?_, g2, ?_, fun cp0 h0 => ⟨_, g3 cp0 h0, f3, f4⟩⟩
  · simp only [mcs1UlInterleave, b1, e1, f1, bind, Option.bind, g1]
  · simp only [mcs1UlDeinterleave, g3 _ (List.length_replicate (n := 456)), k1, m1, n1, bind, Option.bind]
    have q2 : hc' = hc := eq_of_get (n := 80) (by omega) h2 fun k hk => by
      rw [m3, if_pos (by omega), List.getElem?_append_left (by omega)]; congr 1; omega
    have q3 : dc' = dc := eq_of_get (n := 372) (by omega) h3 fun k hk => by
      rw [n3, if_pos (by omega), List.getElem?_append_right (by omega)]; congr 1; omega
    rw [q2, q3]

/-! Instances: bit 5 of a control channel block is in burst 1, bit 5 of a full rate block in burst 5. -/

example : xcchPlace 5 = 114 + 35 ∧ tchFrPlace 5 = 5 * 114 + 35 ∧ tchF96Place 120 = 7 * 114 + 6 ∧ mcs7Place 5 = 358 ∧ mcs8Place 700 = 870 := by decide

example : ∃ i, xcchInterleave (List.range 456) (List.replicate 456 0) = some i ∧ i[149]? = some 5 ∧
    xcchDeinterleave (List.replicate 456 7) i = some (List.range 456) := by
  obtain ⟨i, h1, -, h3⟩ := xcch_roundtrip (List.range 456) (List.replicate 456 0) (List.replicate 456 7) (by simp) (by simp) (by simp)
  exact ⟨i, h1, (xcch_standard _ _ i (by simp) (by simp) h1 5 (by omega)).trans (by simp), h3⟩

example : ∃ i, tchHrInterleave (List.range 228) (List.replicate 456 0) = some i ∧
    tchHrDeinterleave (List.replicate 228 7) i = some (List.range 228) := by
  obtain ⟨i, h1, -, h3⟩ := tchHr_roundtrip (List.range 228) (List.replicate 456 0) (List.replicate 228 7) (by simp) (by simp) (by simp)
  exact ⟨i, h1, h3⟩

end Verif.Interleave
