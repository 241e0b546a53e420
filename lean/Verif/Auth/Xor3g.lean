import Verif.Auth.Claims
/-!
Claims about the XOR algorithm for test USIMs (TS 34.108 8.1.2).
-/
namespace Verif.Auth
open Verif.Endian (beVal)

/-- TS 34.108 8.1.2.1 and 8.1.2.2: the functions of a test USIM with key `k`. -/
def xor3g (k : List Byte) : Aka where
  f1 sqn amf rand := bx ((bx k rand).take 8) (sqn ++ amf)
  f1s sqn amf rand := bx ((bx k rand).take 8) (sqn ++ amf)
  f2 rand := bx k rand
  f3 rand := rot (bx k rand) 1
  f4 rand := rot (bx k rand) 2
  f5 rand := ((bx k rand).drop 3).take 6
  f5s rand := ((bx k rand).drop 3).take 6

/-- UMTS key data for the XOR algorithm. -/
structure Aud.Xor (a : Aud) : Prop where
  type : a.type = .umts
  k : a.k.length = 32
  kLen : a.kLen = 16
  amf : a.amf.length = 2

theorem key_length {a : Aud} (ha : a.k.length = 32) : a.key.length = 16 := by simp [Aud.key, ha]

theorem xdout_eq (a : Aud) (ha : a.k.length = 32) (rand : List Byte) (hr : rand.length = 16) :
    xorN a.k rand 16 = bx a.key rand := by
  rw [xorN_eq _ _ _ (by omega) (by omega), List.take_of_length_le (l := rand) (by omega), Aud.key]

theorem xor_sres (x : List Byte) (hx : x.length = 16) :
    ((List.range 4).map fun i => x.getD i 0#8 ^^^ x.getD (i + 4) 0#8 ^^^
      (x.getD (i + 8) 0#8 ^^^ x.getD (i + 12) 0#8)) = sresOf x := by
  obtain ⟨a0, a1, a2, a3, a4, a5, a6, a7, a8, a9, a10, a11, a12, a13, a14, a15, rfl⟩ := list16 x hx
  have hr : List.range 4 = [0, 1, 2, 3] := rfl
  simp [sresOf, bx, hr]

/-- The vector is that of TS 34.108 for the SQN stored; the key data do not
change. -/
theorem xor_gen_vec (v : Vec) (a : Aud) (ha : a.Xor) (rand : List Byte) (hr : rand.length = 16) :
    ∃ v', osmoAuthGenVec2 (some xorGenVec) v a rand = (0, v', a) ∧
      IsVector (xor3g a.key) (store6 a.sqn) a.amf rand 16 v' := by
  have hk := key_length ha.k
  have lx : (bx a.key rand).length = 16 := by rw [bx_length]; omega
  have l6 := (store6_spec a.sqn).1
  have hx := xdout_eq a ha.k rand hr
  have t2 : a.amf.take 2 = a.amf := List.take_of_length_le (by rw [ha.amf])
  have lc : (store6 a.sqn ++ a.amf).length = 8 := by simp [l6, ha.amf]
  have e1 : xorN (bx a.key rand) (store6 a.sqn ++ a.amf) 8 =
      bx ((bx a.key rand).take 8) (store6 a.sqn ++ a.amf) := by
    rw [xorN_eq _ _ _ (by omega) (by omega), List.take_of_length_le (l := store6 a.sqn ++ a.amf) (by omega)]
  have l5 : (((bx a.key rand).drop 3).take 6).length = 6 := by simp [lx]
  have e2 : xorN (store6 a.sqn ++ a.amf) (((bx a.key rand).drop 3).take 6) 6 =
      bx (store6 a.sqn) (((bx a.key rand).drop 3).take 6) := by
    rw [xorN_eq _ _ _ (by omega) (by omega), List.take_left' l6,
      List.take_of_length_le (l := ((bx a.key rand).drop 3).take 6) (by omega)]
  have r1 : ((bx a.key rand).drop 1 ++ (bx a.key rand).take 1).length = 16 := by simp; omega
  have r2 : ((bx a.key rand).drop 2 ++ (bx a.key rand).take 2).length = 16 := by simp; omega
  have h : xorGenVec v a rand = (0,
      { v with
          res := bx a.key rand
          resLen := 16
          ck := rot (bx a.key rand) 1
          ik := rot (bx a.key rand) 2
          sres := sresOf (bx a.key rand)
          kc := kcOf (rot (bx a.key rand) 1) (rot (bx a.key rand) 2)
          autn := (xor3g a.key).autn (store6 a.sqn) a.amf rand
          authTypes := 3 }, a) := by
    rw [xorGenVec, ha.type]
    simp only [ha.kLen, ne_eq, not_true_eq_false, and_false, if_false, reduceCtorEq, hx, t2, e1, e2,
      xor_sres _ lx, c3_spec _ _ r1 r2]
    rfl
  rw [osmoAuthGenVec2]
  simp only [h]
  refine ⟨_, rfl, ?_⟩
  have t16 : (bx a.key rand).take 16 = bx a.key rand := List.take_of_length_le (by omega)
  exact ⟨List.take_of_length_le (by omega), rfl, rfl, rfl, rfl, rfl, rfl, by
    show sresOf (bx a.key rand) = sresOf ((bx a.key rand).take 16)
    rw [t16], rfl⟩

theorem xor3g_wf_at (k rand : List Byte) (hk : k.length = 16) (hr : rand.length = 16) :
    ((xor3g k).f5 rand).length = 6 ∧ ∀ sqn amf : List Byte, sqn.length = 6 → amf.length = 2 →
      ((xor3g k).f1 sqn amf rand).length = 8 := by
  have lx : (bx k rand).length = 16 := by rw [bx_length]; omega
  refine ⟨by simp [xor3g, lx], fun s m hs hm => ?_⟩
  show (bx ((bx k rand).take 8) (s ++ m)).length = 8
  rw [bx_length]
  simp [lx, hs, hm]

/-- What a test USIM does with an AUTN of TS 34.108. -/
theorem xor3g_usim (k rand sqn amf sqnMs : List Byte) (hk : k.length = 16) (hr : rand.length = 16)
    (hs : sqn.length = 6) (ha : amf.length = 2) :
    (xor3g k).usim sqnMs rand ((xor3g k).autn sqn amf rand) =
      if beVal sqn ≤ beVal sqnMs then .syncFailure ((xor3g k).auts sqnMs rand)
      else .ok ((xor3g k).f2 rand) ((xor3g k).f3 rand) ((xor3g k).f4 rand) := by
  obtain ⟨h5, h1⟩ := xor3g_wf_at k rand hk hr
  have l : (bx sqn ((xor3g k).f5 rand)).length = 6 := by rw [bx_length, h5]; omega
  have e : (xor3g k).autn sqn amf rand = bx sqn ((xor3g k).f5 rand) ++ (amf ++ (xor3g k).f1 sqn amf rand) := by
    simp [Aka.autn]
  have p1 : bx (((xor3g k).autn sqn amf rand).take 6) ((xor3g k).f5 rand) = sqn := by
    rw [e, List.take_left' l, bx_cancel _ _ (by rw [h5]; exact hs)]
  have p2 : (((xor3g k).autn sqn amf rand).drop 6).take 2 = amf := by
    rw [e, List.drop_left' l, List.take_left' ha]
  have p3 : ((xor3g k).autn sqn amf rand).drop 8 = (xor3g k).f1 sqn amf rand := by
    rw [Aka.autn, List.drop_left' (by simp [l, ha])]
  simp only [Aka.usim, p1, p2, p3]
  simp

/-- A vector is accepted by a test USIM with a lower SQN, with the RES, CK and
IK of the vector.  Missing: the SQN does not go up
(`xor_sqn_not_raised_counterexample`). -/
theorem xor_vector_accepted_partial (v v' : Vec) (a a' : Aud) (ha : a.Xor) (rand : List Byte)
    (hr : rand.length = 16) (sqnMs : List Byte)
    (hg : osmoAuthGenVec2 (some xorGenVec) v a rand = (0, v', a')) :
    (xor3g a.key).usim sqnMs v'.rand v'.autn =
      if a.sqn.toNat % 2 ^ 48 ≤ beVal sqnMs then .syncFailure ((xor3g a.key).auts sqnMs rand)
      else .ok v'.res v'.ck v'.ik := by
  obtain ⟨w, hw, hv⟩ := xor_gen_vec v a ha rand hr
  rw [hw] at hg
  obtain ⟨-, hg2⟩ := Prod.ext_iff.1 hg
  obtain ⟨rfl, -⟩ := Prod.ext_iff.1 hg2
  obtain ⟨l6, b6⟩ := store6_spec a.sqn
  have lx : (bx a.key rand).length = 16 := by rw [bx_length, key_length ha.k]; omega
  have hres : w.res = (xor3g a.key).f2 rand := by
    have h1 : w.res.take 16 = (bx a.key rand).take 16 := hv.hRes
    -- the buffer is 16 bytes: `xorGenVec` writes all of it
    have : w.res = bx a.key rand := by
      have hx := xdout_eq a ha.k rand hr
      have := congrArg (fun g : Gen => g.2.1.res) hw
      simp only [osmoAuthGenVec2, xorGenVec, ha.type, ha.kLen, ne_eq, not_true_eq_false, and_false,
        if_false, reduceCtorEq] at this
      rw [← this, ← hx]
      rfl
    exact this
  simp only [hv.hRand, hv.hAutn, hv.hCk, hv.hIk, hres]
  rw [xor3g_usim _ _ _ _ _ (key_length ha.k) hr l6 ha.amf, b6]

/-- The next vector has the same SQN again, so a USIM that has accepted the one
refuses the other: for every subscriber and any two RANDs. -/
theorem xor_sqn_not_raised_counterexample (v1 v2 : Vec) (a : Aud) (ha : a.Xor)
    (rand1 rand2 : List Byte) (hr1 : rand1.length = 16) (hr2 : rand2.length = 16) :
    ∃ w1 a1 w2 a2, osmoAuthGenVec2 (some xorGenVec) v1 a rand1 = (0, w1, a1) ∧
      osmoAuthGenVec2 (some xorGenVec) v2 a1 rand2 = (0, w2, a2) ∧ a2.sqn = a.sqn ∧
      -- whatever SQN the USIM has after accepting the first one, it is that of the first
      (xor3g a.key).usim (store6 a.sqn) w2.rand w2.autn =
        .syncFailure ((xor3g a.key).auts (store6 a.sqn) rand2) := by
  obtain ⟨w1, h1, _⟩ := xor_gen_vec v1 a ha rand1 hr1
  obtain ⟨w2, h2, _⟩ := xor_gen_vec v2 a ha rand2 hr2
  refine ⟨w1, a, w2, a, h1, h2, rfl, ?_⟩
  rw [xor_vector_accepted_partial v2 w2 a a ha rand2 hr2 _ h2]
  rw [if_pos (by rw [(store6_spec a.sqn).2])]

/-- `xor_gen_vec_auts` when the new challenge is the very RAND of the AUTS: the
AUTS of a test USIM, and only such, is taken and its SQN stored.  Missing: with
a new RAND a genuine AUTS is refused (`xor_resync_rand_counterexample`), and the
vector made is not accepted (`xor_resync_counterexample`). -/
theorem xor_resync_partial (v : Vec) (a : Aud) (ha : a.Xor) (auts rand : List Byte)
    (hr : rand.length = 16) (hl : auts.length = 14) :
    (∀ sqnMs, sqnMs.length = 6 → auts = (xor3g a.key).auts sqnMs rand →
      ∃ v' x, osmoAuthGenVecAuts2 (some xorGenVecAuts) v a auts rand rand =
          some (0, v', { a with sqnMs := x, sqn := x }) ∧ x.toNat = beVal sqnMs ∧
        IsVector (xor3g a.key) (store6 x) a.amf rand 16 v') ∧
    ((∀ sqnMs, sqnMs.length = 6 → auts ≠ (xor3g a.key).auts sqnMs rand) →
      osmoAuthGenVecAuts2 (some xorGenVecAuts) v a auts rand rand = some (-1, v, a)) := by
  have hk := key_length ha.k
  have lx : (bx a.key rand).length = 16 := by rw [bx_length]; omega
  have hx := xdout_eq a ha.k rand hr
  have l5 : (((bx a.key rand).drop 3).take 6).length = 6 := by simp [lx]
  have e1 : xorN auts (((bx a.key rand).drop 3).take 6) 6 =
      bx (auts.take 6) (((bx a.key rand).drop 3).take 6) := by
    rw [xorN_eq _ _ _ (by omega) (by omega),
      List.take_of_length_le (l := ((bx a.key rand).drop 3).take 6) (by omega)]
  have l6 : (bx (auts.take 6) (((bx a.key rand).drop 3).take 6)).length = 6 := by
    rw [bx_length, l5]; simp [hl]
  have e2 : ∀ s : List Byte, s.length = 6 → xorN (bx a.key rand) (s ++ [0#8, 0#8]) 8 =
      (xor3g a.key).f1s s [0#8, 0#8] rand := by
    intro s hs
    rw [xorN_eq _ _ _ (by omega) (by simp [hs]), List.take_of_length_le (l := s ++ _) (by simp [hs])]
    rfl
  have lf : ∀ s : List Byte, s.length = 6 → ((xor3g a.key).f1s s [0#8, 0#8] rand).length = 8 := by
    intro s hs
    rw [← e2 s hs, xorN_length]
  have t8 : (auts.drop 6).take 8 = auts.drop 6 := List.take_of_length_le (by simp [hl])
  have hm := memcmp_eq (auts.drop 6)
    ((xor3g a.key).f1s (bx (auts.take 6) (((bx a.key rand).drop 3).take 6)) [0#8, 0#8] rand)
    (by rw [lf _ l6]; simp [hl])
  have hu : xorGenVecAuts v a auts rand rand =
      if memcmp (auts.drop 6) ((xor3g a.key).f1s (bx (auts.take 6) (((bx a.key rand).drop 3).take 6))
          [0#8, 0#8] rand) ≠ 0 then some (-1, v, a) else
      some (xorGenVec v { a with
        sqnMs := load6 (bx (auts.take 6) (((bx a.key rand).drop 3).take 6))
        sqn := load6 (bx (auts.take 6) (((bx a.key rand).drop 3).take 6)) } rand) := by
    rw [xorGenVecAuts, ha.type]
    simp only [ha.kLen, not_true_eq_false, ne_eq, and_false, if_false, reduceCtorEq, hx, e1, e2 _ l6, t8]
  constructor
  · intro sqnMs hs he
    have l : (bx sqnMs ((xor3g a.key).f5s rand)).length = 6 := by
      rw [bx_length]
      show min _ (((bx a.key rand).drop 3).take 6).length = 6
      omega
    have p1 : bx (auts.take 6) (((bx a.key rand).drop 3).take 6) = sqnMs := by
      rw [he, Aka.auts, List.take_left' l]
      exact bx_cancel _ _ (hs.trans l5.symm)
    have p2 : auts.drop 6 = (xor3g a.key).f1s sqnMs [0#8, 0#8] rand := by
      rw [he, Aka.auts, List.drop_left' l]
    rw [p1] at hu hm
    rw [if_neg (by rw [not_not]; exact hm.2 p2)] at hu
    obtain ⟨v', hv, hi⟩ := xor_gen_vec v { a with sqnMs := load6 sqnMs, sqn := load6 sqnMs }
      ⟨ha.type, ha.k, ha.kLen, ha.amf⟩ rand hr
    refine ⟨v', load6 sqnMs, ?_, load6_spec _ hs, hi⟩
    rw [← hv, osmoAuthGenVecAuts2]
    simp only [hu]
    rfl
  · intro hne
    rw [osmoAuthGenVecAuts2]
    have : memcmp (auts.drop 6) ((xor3g a.key).f1s (bx (auts.take 6) (((bx a.key rand).drop 3).take 6))
          [0#8, 0#8] rand) ≠ 0 := by
      intro h0
      apply hne _ l6
      have := hm.1 h0
      rw [Aka.auts, ← this]
      have hb : bx (bx (auts.take 6) (((bx a.key rand).drop 3).take 6)) ((xor3g a.key).f5s rand) = auts.take 6 :=
        bx_cancel _ _ (by
          have : (auts.take 6).length = 6 := by simp [hl]
          exact this.trans l5.symm)
      rw [hb, List.take_append_drop]
    rw [if_pos this] at hu
    simp only [hu]
    rfl

/-- A genuine AUTS is refused when the new challenge differs from the one the
AUTS belongs to, because the code works it out with the new one. -/
theorem xor_resync_rand_counterexample :
    ∃ (v : Vec) (a : Aud) (sqnMs randAuts rand : List Byte), a.Xor ∧ sqnMs.length = 6 ∧
      randAuts.length = 16 ∧ rand.length = 16 ∧
      osmoAuthGenVecAuts2 (some xorGenVecAuts) v a ((xor3g a.key).auts sqnMs randAuts) randAuts rand =
        some (-1, v, a) :=
  ⟨⟨[], [], [], [], [], 8, [], [], 0⟩,
   ⟨.umts, List.replicate 32 0#8, 16, List.replicate 32 0#8, 16, [0#8, 0#8], 0#64, false, 5, 0#32, 0#64, []⟩,
   List.replicate 6 0#8, List.replicate 16 1#8, List.replicate 16 2#8,
   ⟨rfl, rfl, rfl, rfl⟩, rfl, rfl, rfl, by decide⟩

/-- Even with the same RAND the vector made from a genuine AUTS is refused by
the USIM that sent it: it carries SQN_MS itself, not a greater SQN. -/
theorem xor_resync_counterexample (v : Vec) (a : Aud) (ha : a.Xor) (sqnMs rand : List Byte)
    (hs : sqnMs.length = 6) (hr : rand.length = 16) :
    ∃ v' a', osmoAuthGenVecAuts2 (some xorGenVecAuts) v a ((xor3g a.key).auts sqnMs rand) rand rand =
        some (0, v', a') ∧
      (xor3g a.key).usim sqnMs v'.rand v'.autn = .syncFailure ((xor3g a.key).auts sqnMs rand) := by
  have lx : (bx a.key rand).length = 16 := by rw [bx_length, key_length ha.k]; omega
  have hl : ((xor3g a.key).auts sqnMs rand).length = 14 := by
    simp [Aka.auts, xor3g, bx_length, lx, hs]
  obtain ⟨v', x, h1, hx, hv⟩ := (xor_resync_partial v a ha _ rand hr hl).1 sqnMs hs rfl
  refine ⟨v', _, h1, ?_⟩
  obtain ⟨l6, b6⟩ := store6_spec x
  rw [hv.hRand, hv.hAutn, xor3g_usim _ _ _ _ _ (key_length ha.k) hr l6 ha.amf, b6, hx]
  rw [if_pos (Nat.mod_le _ _)]

/-- A GSM subscriber: SRES and Kc only, no AUTN. -/
theorem xor_gsm (v : Vec) (a : Aud) (ht : a.type = .gsm) (hk : a.ki.length = 16) (rand : List Byte)
    (hr : rand.length = 16) :
    ∃ v', osmoAuthGenVec2 (some xorGenVec) v a rand = (0, v', a) ∧ v'.rand = rand ∧
      v'.sres = sresOf (bx a.ki rand) ∧
      v'.kc = kcOf (rot (bx a.ki rand) 1) (rot (bx a.ki rand) 2) ∧
      v'.autn = v.autn ∧ v'.authTypes = 1 := by
  have lx : (bx a.ki rand).length = 16 := by rw [bx_length]; omega
  have r1 : ((bx a.ki rand).drop 1 ++ (bx a.ki rand).take 1).length = 16 := by simp; omega
  have r2 : ((bx a.ki rand).drop 2 ++ (bx a.ki rand).take 2).length = 16 := by simp; omega
  rw [osmoAuthGenVec2]
  simp only [xorGenVec, ht, reduceCtorEq, false_and, if_false, if_true, xorN_full _ _ 16 hk hr,
    xor_sres _ lx, c3_spec _ _ r1 r2]
  exact ⟨_, rfl, List.take_of_length_le (by omega), rfl, rfl, rfl, rfl⟩

end Verif.Auth
