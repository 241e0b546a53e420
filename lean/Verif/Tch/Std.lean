import Verif.Tch.Efs
import Verif.Tch.Half
import Verif.Chan.Std
/-!
C107, C108: what is sent on speech channels is what the standard says.
-/
namespace Verif.Tch
open Verif.Conv Verif.ConvAcc Verif.Interleave Verif.Chan Verif.Crc Polynomial

theorem frCrc_poly : genPoly frCrc3 = X ^ 3 + X + 1 := by
  have hb : ∀ i : Fin 3, frCrc3.poly.getLsbD i.1 = decide (i.1 = 0 ∨ i.1 = 1) := by decide
  unfold genPoly
  rw [regPoly_psum]
  unfold psum
  rw [show frCrc3.bits = 3 from rfl]
  simp only [Finset.sum_range_succ, Finset.sum_range_zero]
  have e := fun (i : Nat) (h : i < 3) => hb ⟨i, h⟩
  simp only [e, Nat.reduceLT]
  simp [coef]
  ring

theorem efrCrc_poly : genPoly efrCrc8 = X ^ 8 + X ^ 4 + X ^ 3 + X ^ 2 + 1 := by
  have hb : ∀ i : Fin 8, efrCrc8.poly.getLsbD i.1 = decide (i.1 = 0 ∨ i.1 = 2 ∨ i.1 = 3 ∨ i.1 = 4) := by decide
  unfold genPoly
  rw [regPoly_psum]
  unfold psum
  rw [show efrCrc8.bits = 8 from rfl]
  simp only [Finset.sum_range_succ, Finset.sum_range_zero]
  have e := fun (i : Nat) (h : i < 8) => hb ⟨i, h⟩
  simp only [e, Nat.reduceLT]
  simp [coef]
  ring

/-- the 260 bits `d`, most important first, in the bursts as TS 05.03 3.1.2 says: of the 182 of class 1 the even ones first, then three
parity bits of the 50 first, then the odd ones backwards; coded at half rate; then the others -/
structure FullSent (d : List Bool) (b : List Byte) (u : List Bool) : Prop where
  len : u.length = 185
  even : ∀ k < 91, u.getD k false = d.getD (2 * k) false
  odd : ∀ k < 91, u.getD (184 - k) false = d.getD (2 * k + 1) false
  parity : (X ^ 3 + X + 1 : GF2X) ∣ bitsPoly (d.take 50 ++ [u.getD 91 false, u.getD 92 false, u.getD 93 false]) - (X ^ 2 + X + 1)
  class1 : ∀ k < 189, b.getD (tchFPos (2 * k)) 0#8 = ubit (uAt u k ^^ uAt u (k - 3) ^^ uAt u (k - 4)) ∧
    b.getD (tchFPos (2 * k + 1)) 0#8 = ubit (uAt u k ^^ uAt u (k - 1) ^^ uAt u (k - 3) ^^ uAt u (k - 4))
  class2 : ∀ k < 78, b.getD (tchFPos (378 + k)) 0#8 = ubit (d.getD (182 + k) false)

theorem three (p : List Bool) (h : p.length = 3) : p = [p.getD 0 false, p.getD 1 false, p.getD 2 false] := by
  match p, h with
  | [_, _, _], _ => rfl

theorem fullSent (d : List Bool) (b : List Byte) (h : FrSent d b) : FullSent d b (frU d (frP d)) where
  len := frU_length _ _
  even := by
    intro k hk
    unfold frU
    rw [range_get _ _ _ (by omega), if_pos hk]
  odd := by
    intro k hk
    unfold frU
    rw [range_get _ _ _ (by omega), if_neg (by omega), if_neg (by omega), show 184 - (184 - k) = k by omega]
  parity := by
    have e : ∀ j < 3, (frU d (frP d)).getD (91 + j) false = (frP d).getD j false := by
      intro j hj
      unfold frU
      rw [range_get _ _ _ (by omega), if_neg (by omega), if_pos (by omega), show 91 + j - 91 = j by omega]
    have h := parity_standard frCrc3 frCrc3_shifts rfl (d.take 50)
    rw [e 0 (by omega), e 1 (by omega), e 2 (by omega), ← three (frP d) (frP_length d)]
    rw [frCrc_poly, regPoly_ones _ _ (by decide), show frCrc3.bits = 3 from rfl] at h
    simp only [Finset.sum_range_succ, Finset.sum_range_zero, pow_zero, pow_one, zero_add] at h
    rw [show (X ^ 2 + X + 1 : GF2X) = 1 + X + X ^ 2 by ring]
    exact h
  class1 := by
    obtain ⟨sent, e1, e2, -⟩ := h
    have key : ∀ k < 378, some (b.getD (tchFPos k) 0#8) = (sent.map ubit)[k]? := by
      intro k hk
      rw [← e2]
      simp [pick, tchFClass1, hk]
    intro k hk
    obtain ⟨c1, c2⟩ := code_standard 185 (frU d (frP d)) sent (frU_length _ _) e1 k (by omega)
    have k1 := key (2 * k) (by omega)
    have k2 := key (2 * k + 1) (by omega)
    rw [List.getElem?_map, c1] at k1
    rw [List.getElem?_map, c2] at k2
    exact ⟨Option.some.inj k1, Option.some.inj k2⟩
  class2 := by
    obtain ⟨sent, -, -, e3⟩ := h
    intro k hk
    have := e3 (182 + k) (by omega) (by omega)
    unfold tchFPlain at this
    rw [show 196 + (182 + k) = 378 + k by omega] at this
    exact this

/-- C107: **a full rate frame is sent as TS 05.03 says.** -/
theorem fr_standard (es : EncF) (hes : es.Ok) (map : List Nat) (net : Bool) (hmap : Readable net map) (bursts tch b : List Byte)
    (hb : 928 ≤ bursts.length) (ht : 33 ≤ tch.length) (he : tchFEncode map es bursts tch 33 net = some (0, b)) :
    ∃ d u, d.length = 260 ∧ (∀ i < 260, d.getD (frRank net i) false = bitAt false tch (4 + i)) ∧ FullSent d b u := by
  obtain ⟨b', b1, -, b3⟩ := frCode_send es hes (frD net (msbBits 4 260 tch)) (frD_length _ _) es.p hes.p bursts hb
  unfold tchFEncode at he
  rw [if_neg (by omega), if_pos rfl, frToD_spec map es hes tch net hmap ht, Option.bind_some] at he
  obtain rfl : b = b' := (Prod.mk.inj (Option.some.inj (he.symm.trans b1))).2
  refine ⟨_, _, frD_length _ _, fun i hi => ?_, fullSent _ _ b3⟩
  rw [← frUnD_get _ _ _ hi, frUnD_frD _ _ (msbBits_length _ _ _), msbBits_get _ _ _ _ hi]

/-- C107: **an enhanced full rate frame is sent as TS 05.03 says**: with 8 parity bits of 65 bits and four bits thrice, then as full rate. -/
theorem efr_standard (es : EncF) (hes : es.Ok) (map : List Nat) (net : Bool) (bursts tch b : List Byte)
    (hb : 928 ≤ bursts.length) (ht : 31 ≤ tch.length) (he : tchFEncode map es bursts tch 31 net = some (0, b)) :
    ∃ p d u, p.length = 8 ∧
      (X ^ 8 + X ^ 4 + X ^ 3 + X ^ 2 + 1 : GF2X) ∣ bitsPoly ((efrProtectedBits.map fun k => bitAt false tch (4 + (k - 1))) ++ p) ∧
      (∀ k < 252, d.getD (efrRank k) false = bitAt false tch (4 + efrSource.getD k 0)) ∧
      (∀ k < 8, d.getD (efrRank (252 + k)) false = p.getD k false) ∧ FullSent d b u := by
  have hl := msbBits_length 4 244 tch
  obtain ⟨b', b1, b2, b3⟩ := frCode_send es hes (efrD (msbBits 4 244 tch)) (efrD_length _) ((efrP (msbBits 4 244 tch)).map ubit)
    (by rw [List.length_map, efrP_length]) bursts hb
  unfold tchFEncode at he
  rw [if_pos rfl, efrToD_spec es hes tch ht, Option.bind_some] at he
  obtain rfl : b = b' := (Prod.mk.inj (Option.some.inj (he.symm.trans b1))).2
  refine ⟨efrP (msbBits 4 244 tch), _, _, efrP_length _, ?_, ?_, ?_, fullSent _ _ b3⟩
  · have h := parity_standard efrCrc8 efrCrc8_shifts rfl ((efrProtectedBits.map (· - 1)).map fun k => (msbBits 4 244 tch).getD k false)
    have hr : regPoly efrCrc8.bits efrCrc8.remainder = 0 := by
      rw [regPoly_psum]
      unfold psum
      apply Finset.sum_eq_zero
      intro i _
      simp [efrCrc8, coef]
    rw [efrCrc_poly, hr, sub_zero] at h
    have hs : ∀ k ∈ efrProtectedBits, k - 1 < 244 := by decide
    have e : (efrProtectedBits.map (· - 1)).map (fun k => (msbBits 4 244 tch).getD k false) = efrProtectedBits.map fun k => bitAt false tch (4 + (k - 1)) := by
      rw [List.map_map]
      apply List.map_congr_left
      intro k hk
      exact msbBits_get _ _ _ _ (hs k hk)
    rw [e] at h
    unfold efrP
    rw [e]
    exact h
  · intro k hk
    have hsrc : efrSource.getD k 0 < 244 := by
      have : ∀ k < 252, efrSource.getD k 0 < 244 := by decide +kernel
      exact this k hk
    rw [efrD_get _ _ (by omega), getD_append_left _ _ _ (by omega), msbBits_get _ _ _ _ hsrc]
  · intro k hk
    have hsrc : efrSource.getD (252 + k) 0 = 244 + k := by
      have : ∀ k < 8, efrSource.getD (252 + k) 0 = 244 + k := by decide +kernel
      exact this k hk
    rw [efrD_get _ _ (by omega), hsrc, getD_append_right _ _ _ (by omega), hl, show 244 + k - 244 = k by omega]

/-! ### rate 1/3 -/

/-- a state of the encoder: the last six bits -/
def st6 (a1 a2 a3 a4 a5 a6 : Bool) : Nat := a1.toNat + 2 * a2.toNat + 4 * a3.toNat + 8 * a4.toNat + 16 * a5.toNat + 32 * a6.toNat

theorem third_step : ∀ (b a1 a2 a3 a4 a5 a6 : Bool), symBits (pack (pyNextOutput tchHr.ps (st6 a1 a2 a3 a4 a5 a6) b)) 3 =
      [b ^^ a2 ^^ a3 ^^ a5 ^^ a6, b ^^ a1 ^^ a4 ^^ a6, b ^^ a1 ^^ a2 ^^ a3 ^^ a4 ^^ a6] ∧
    pyNextState tchHr.ps (st6 a1 a2 a3 a4 a5 a6) b = st6 b a1 a2 a3 a4 a5 := by decide +kernel

/-- symbols by the last bits -/
def third : Bool → Bool → Bool → Bool → Bool → Bool → List Bool → List Bool
  | _, _, _, _, _, _, [] => []
  | a1, a2, a3, a4, a5, a6, b :: bs =>
    [b ^^ a2 ^^ a3 ^^ a5 ^^ a6, b ^^ a1 ^^ a4 ^^ a6, b ^^ a1 ^^ a2 ^^ a3 ^^ a4 ^^ a6] ++ third b a1 a2 a3 a4 a5 bs

theorem stream_third (bits : List Bool) : ∀ a1 a2 a3 a4 a5 a6,
    stream tchHr.code (st6 a1 a2 a3 a4 a5 a6) bits = third a1 a2 a3 a4 a5 a6 bits := by
  induction bits with
  | nil => intros; rfl
  | cons b bs ih =>
    intro a1 a2 a3 a4 a5 a6
    obtain ⟨h1, h2⟩ := third_step b a1 a2 a3 a4 a5 a6
    show symBits (pack _) 3 ++ stream _ (pyNextState _ _ _) bs = _
    rw [h1, h2, ih]
    rfl

theorem flush_third (n s : Nat) : flushStream tchHr.code n s = stream tchHr.code s (List.replicate n false) := by
  have hd : tchHr.code.nextTerm = none := by
    have hne : ¬ polyDiv tchHr.ps ≠ 1 := by decide +kernel
    simp only [Punctured.code, genCode, hne, if_false]
  induction n generalizing s with
  | zero => rfl
  | succ n ih =>
    rw [List.replicate_succ]
    unfold flushStream stream
    rw [ih]
    unfold termOut termNext
    rw [hd]

theorem third_get (bits : List Bool) : ∀ (a1 a2 a3 a4 a5 a6 : Bool) (k : Nat), k < bits.length → ∀ v : Nat → Bool,
    (∀ j, v j = (a6 :: a5 :: a4 :: a3 :: a2 :: a1 :: bits).getD j false) →
    (third a1 a2 a3 a4 a5 a6 bits)[3 * k]? = some (v (k + 6) ^^ v (k + 4) ^^ v (k + 3) ^^ v (k + 1) ^^ v k) ∧
    (third a1 a2 a3 a4 a5 a6 bits)[3 * k + 1]? = some (v (k + 6) ^^ v (k + 5) ^^ v (k + 2) ^^ v k) ∧
    (third a1 a2 a3 a4 a5 a6 bits)[3 * k + 2]? = some (v (k + 6) ^^ v (k + 5) ^^ v (k + 4) ^^ v (k + 3) ^^ v (k + 2) ^^ v k) := by
  induction bits with
  | nil => intro _ _ _ _ _ _ k h; simp at h
  | cons b bs ih =>
    intro a1 a2 a3 a4 a5 a6 k hk v hv
    cases k with
    | zero =>
      simp only [hv]
      exact ⟨rfl, rfl, rfl⟩
    | succ k =>
      obtain ⟨h1, h2, h3⟩ := ih b a1 a2 a3 a4 a5 k (by simpa using hk) (fun j => v (j + 1)) (fun j => by
        rw [hv]; rfl)
      have e : ∀ j, k + 1 + j = k + j + 1 := fun j => by omega
      rw [e 6, e 5, e 4, e 3, e 2, e 1]
      exact ⟨h1, h2, h3⟩

/-- what is not sent: one bit in three, except after the three parity bits -/
theorem tchHr_punctured : ∀ i < 312, (i ∈ tchHr.P ↔ i % 3 = 1 ∧ ¬ (95 ≤ i / 3 ∧ i / 3 < 98)) := by decide +kernel

theorem tchHr_sent (u sent : List Bool) (hu : u.length = 98) (he : encode tchHr.code u = some sent) :
    ∃ c : Nat → Bool, (∀ k : Nat, k < 104 →
        c (3 * k) = (uAt u k ^^ uAt u (k - 2) ^^ uAt u (k - 3) ^^ uAt u (k - 5) ^^ uAt u (k - 6)) ∧
        c (3 * k + 1) = (uAt u k ^^ uAt u (k - 1) ^^ uAt u (k - 4) ^^ uAt u (k - 6)) ∧
        c (3 * k + 2) = (uAt u k ^^ uAt u (k - 1) ^^ uAt u (k - 2) ^^ uAt u (k - 3) ^^ uAt u (k - 4) ^^ uAt u (k - 6))) ∧
      sent = ((List.range 312).filter fun i => decide (i % 3 ≠ 1 ∨ 95 ≤ i / 3 ∧ i / 3 < 98)).map c := by
  rw [encode_spec _ (by exact (by decide +kernel : tchHr.P.Pairwise (· < ·))) u hu (by exact (by decide +kernel : 1 ≤ polyK tchHr.ps))
    (by intro h; cases h)] at he
  have hlen : (coded tchHr.code u).length = 312 := by
    rw [coded_length _ _ rfl hu]
    show (98 + (polyK tchHr.ps - 1)) * 3 = _
    rw [show polyK tchHr.ps = 7 by decide +kernel]
  rw [show tchHr.code.positions = tchHr.P from rfl, keep_filter, hlen] at he
  obtain rfl := Option.some.inj he
  have hc : coded tchHr.code u = third false false false false false false (u ++ List.replicate 6 false) := by
    rw [← stream_third, stream_append, ← flush_third]
    rfl
  have hv : ∀ j : Nat, uAt u ((j : Int) - 6) = (false :: false :: false :: false :: false :: false :: (u ++ List.replicate 6 false)).getD j false := by
    intro j
    unfold uAt
    by_cases h4 : j < 6
    · rw [if_pos (by omega)]
      match j, h4 with
      | 0, _ => rfl
      | 1, _ => rfl
      | 2, _ => rfl
      | 3, _ => rfl
      | 4, _ => rfl
      | 5, _ => rfl
    · rw [if_neg (by omega)]
      obtain ⟨i, rfl⟩ : ∃ i, j = i + 6 := ⟨j - 6, by omega⟩
      rw [show (((i + 6 : Nat) : Int) - 6).toNat = i by omega]
      show _ = (u ++ List.replicate 6 false).getD i false
      rw [List.getD_eq_getElem?_getD, List.getD_eq_getElem?_getD]
      by_cases hi : i < u.length
      · rw [List.getElem?_append_left hi]
      · rw [List.getElem?_append_right (by omega), List.getElem?_eq_none (by omega : u.length ≤ i), List.getElem?_replicate]
        split <;> rfl
  refine ⟨fun i => (coded tchHr.code u).getD i false, fun k hk => ?_, ?_⟩
  · obtain ⟨h1, h2, h3⟩ := third_get (u ++ List.replicate 6 false) false false false false false false k (by simp [hu]; omega)
      (fun j => uAt u ((j : Int) - 6)) hv
    dsimp only
    have e6 : (((k + 6 : Nat) : Int) - 6) = k := by omega
    have e5 : (((k + 5 : Nat) : Int) - 6) = k - 1 := by omega
    have e4 : (((k + 4 : Nat) : Int) - 6) = k - 2 := by omega
    have e3 : (((k + 3 : Nat) : Int) - 6) = k - 3 := by omega
    have e2 : (((k + 2 : Nat) : Int) - 6) = k - 4 := by omega
    have e1 : (((k + 1 : Nat) : Int) - 6) = k - 5 := by omega
    rw [e6, e4, e3, e1] at h1
    rw [e6, e5, e2] at h2
    rw [e6, e5, e4, e3, e2] at h3
    rw [hc, List.getD_eq_getElem?_getD, List.getD_eq_getElem?_getD, List.getD_eq_getElem?_getD, h1, h2, h3]
    exact ⟨rfl, rfl, rfl⟩
  · refine congrArg (List.map _) (List.filter_congr ?_)
    intro i hi
    rw [decide_eq_decide, Nat.zero_add, tchHr_punctured i (List.mem_range.1 hi)]
    omega

/-- the 112 bits `d`, most important first, in the bursts as TS 05.03 3.2 says: 95 bits and 3 parity bits of the last 22 of them, coded at
rate 1/3 and punctured, then the others -/
structure HalfSent (d : List Bool) (b : List Byte) (p : List Bool) (c : Nat → Bool) : Prop where
  len : p.length = 3
  parity : (X ^ 3 + X + 1 : GF2X) ∣ bitsPoly ((d.drop 73).take 22 ++ p) - (X ^ 2 + X + 1)
  code : ∀ u, u = d.take 95 ++ p → ∀ k : Nat, k < 104 →
    c (3 * k) = (uAt u k ^^ uAt u (k - 2) ^^ uAt u (k - 3) ^^ uAt u (k - 5) ^^ uAt u (k - 6)) ∧
    c (3 * k + 1) = (uAt u k ^^ uAt u (k - 1) ^^ uAt u (k - 4) ^^ uAt u (k - 6)) ∧
    c (3 * k + 2) = (uAt u k ^^ uAt u (k - 1) ^^ uAt u (k - 2) ^^ uAt u (k - 3) ^^ uAt u (k - 4) ^^ uAt u (k - 6))
  class1 : (List.range 211).map (fun k => b.getD (tchHPos k) 0#8) =
    ((List.range 312).filter fun i => decide (i % 3 ≠ 1 ∨ 95 ≤ i / 3 ∧ i / 3 < 98)).map fun i => ubit (c i)
  class2 : ∀ k < 17, b.getD (tchHPos (211 + k)) 0#8 = ubit (d.getD (95 + k) false)

/-- C108: **a half rate frame is sent as TS 05.03 says.** -/
theorem hr_standard (es : EncH) (hes : es.Ok) (bursts tch b : List Byte) (hb : 464 ≤ bursts.length) (ht : 14 ≤ tch.length)
    (he : tchHEncode es bursts tch 14 = some (0, b)) :
    ∃ d p c, d.length = 112 ∧ (∀ i < 112, d.getD (hrRank tch i) false = bitAt false tch i) ∧ HalfSent d b p c := by
  obtain ⟨b', b1, -, b3⟩ := hr_send es hes bursts tch hb ht
  unfold tchHEncode at he
  rw [if_neg (by omega), if_pos rfl] at he
  obtain rfl : b = b' := (Prod.mk.inj (Option.some.inj (he.symm.trans b1))).2
  obtain ⟨sent, e1, e2, e3⟩ := b3
  have hd := hrD_length (msbBits 0 112 tch)
  obtain ⟨c, c1, c2⟩ := tchHr_sent _ sent (by simp [hd, hrP_length]) e1
  refine ⟨hrD (msbBits 0 112 tch), hrP (hrD (msbBits 0 112 tch)), c, hd, fun i hi => hrRank_get _ _ hi, hrP_length _, ?_, ?_, ?_, ?_⟩
  · have h := parity_standard frCrc3 frCrc3_shifts rfl (((hrD (msbBits 0 112 tch)).drop 73).take 22)
    rw [frCrc_poly, regPoly_ones _ _ (by decide), show frCrc3.bits = 3 from rfl] at h
    simp only [Finset.sum_range_succ, Finset.sum_range_zero, pow_zero, pow_one, zero_add] at h
    rw [show (X ^ 2 + X + 1 : GF2X) = 1 + X + X ^ 2 by ring]
    exact h
  · rintro u rfl
    exact c1
  · have : (List.range 211).map (fun k => b.getD (tchHPos k) 0#8) = pick 0#8 tchHClass1 b := by
      unfold pick tchHClass1
      rw [List.map_map]
      rfl
    rw [this, e2, c2, List.map_map]
    rfl
  · intro k hk
    have := e3 (95 + k) (by omega) (by omega)
    unfold tchHPlain at this
    rw [show 116 + (95 + k) = 211 + k by omega] at this
    exact this

end Verif.Tch
