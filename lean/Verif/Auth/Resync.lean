import Verif.Auth.Claims
/-!
Claims about resynchronisation, about `milenage_check`, and about refused
requests.
-/
namespace Verif.Auth
open Verif.Endian (beVal)

/-! ### Refused requests -/

/-- A refused request (whatever calls of the cipher fail) leaves vector and key
data alone. -/
theorem milenage_gen_vec_refused (E : Cipher) (flt : GenFaults) (v v' : Vec) (a a' : Aud)
    (rand : List Byte) (rc : Int)
    (hg : osmoAuthGenVec2 (some (milenageGenVec E flt)) v a rand = (rc, v', a')) :
    (rc = 0 ∨ rc = -1 ∨ rc = -2 ∨ rc = -3 ∨ rc = -22) ∧ (rc ≠ 0 → v' = v ∧ a' = a) := by
  have key : (∃ w b, milenageGenVec E flt v a rand = (0, w, b)) ∨
      ∃ e, (e = -1 ∨ e = -2 ∨ e = -3 ∨ e = -22) ∧ milenageGenVec E flt v a rand = (e, v, a) := by
    unfold milenageGenVec
    split
    · exact .inr ⟨-22, by simp, rfl⟩
    · split
      · exact .inr ⟨-22, by simp, rfl⟩
      · split
        · exact .inr ⟨-22, by simp, rfl⟩
        · split
          · exact .inr ⟨-1, by simp, rfl⟩
          · split
            · rename_i e he
              rcases (nextSqn_error a e).1 he with ⟨_, rfl⟩ | ⟨_, _, rfl⟩
              · exact .inr ⟨-2, by simp, rfl⟩
              · exact .inr ⟨-3, by simp, rfl⟩
            · exact .inl ⟨_, _, rfl⟩
  rcases key with ⟨w, b, h⟩ | ⟨e, he, h⟩
  · rw [osmoAuthGenVec2] at hg
    simp only [h] at hg
    rw [if_neg (by decide)] at hg
    obtain ⟨rfl, -⟩ := Prod.ext_iff.1 hg
    exact ⟨.inl rfl, fun h => absurd rfl h⟩
  · rw [osmoAuthGenVec2] at hg
    simp only [h] at hg
    rw [if_pos (by omega)] at hg
    obtain ⟨h1, hg2⟩ := Prod.ext_iff.1 hg
    obtain ⟨rfl, rfl⟩ := Prod.ext_iff.1 hg2
    simp only at h1
    subst h1
    exact ⟨.inr he, fun _ => ⟨rfl, rfl⟩⟩

/-- Without memory for the cipher a vector "is generated" all the same: the
return code is 0, the SQN is used up, and the AUTN is whatever was in the
structure before. -/
theorem milenage_nomem_counterexample (E : Cipher) (hE : IsCipher E) (v : Vec) (a : Aud)
    (ha : a.Milenage) (rand : List Byte) (hn : v.resLen = 4 ∨ v.resLen = 8)
    (next : BitVec 64) (hq : nextSqn a = .ok next) :
    ∃ flt v', osmoAuthGenVec2 (some (milenageGenVec E flt)) v a rand = (0, v', { a with sqn := next }) ∧
      v'.autn = v.autn ∧ v'.res = v.res := by
  refine ⟨⟨false, fun _ => true, fun _ => false⟩, ?_⟩
  rw [osmoAuthGenVec2]
  have hg : milenageGenerate E (fun _ => true) (fun _ => false) (a.opcOf E) a.amf (a.k.take 16)
      (store6 next) rand 16 v = (v, 0) := by
    simp [milenageGenerate, milenageF1, aes]
  have : milenageGenVec E ⟨false, fun _ => true, fun _ => false⟩ v a rand =
      (0, { v with kc := c3 v.ck v.ik, sres := (c2 v.res v.resLen 1).getD [], authTypes := 3 },
        { a with sqn := next }) := by
    rw [milenageGenVec, if_neg (by rw [ha.kLen]; simp), if_neg (by rw [ha.opcLen]; simp),
      if_neg (by omega)]
    simp only [genOpc_spec E hE a ha, hq, hg]
  simp only [this]
  exact ⟨_, rfl, rfl, rfl⟩

/-! ### Resynchronisation -/

/-- `osmo_auth_gen_vec_auts2` takes exactly the AUTS of a USIM with the keys of
the subscriber for the RAND given; then the request is the same as
`osmo_auth_gen_vec2` with the SQN of the USIM, which is reported as well.  Any
other AUTS is refused with -1 and nothing changes. -/
theorem milenage_resync (E : Cipher) (hE : IsCipher E) (v : Vec) (a : Aud) (ha : a.Milenage)
    (auts randAuts rand : List Byte) (hr : randAuts.length = 16) (hl : auts.length = 14) :
    (∀ sqnMs, sqnMs.length = 6 → auts = (milenage E (a.opcOf E) a.key).auts sqnMs randAuts →
      ∃ x : BitVec 64, x.toNat = beVal sqnMs ∧
        osmoAuthGenVecAuts2 (some (milenageGenVecAuts E noFaults noFaults)) v a auts randAuts rand =
          some (osmoAuthGenVec2 (some (milenageGenVec E noFaults)) v { a with sqnMs := x, sqn := x } rand)) ∧
    ((∀ sqnMs, sqnMs.length = 6 → auts ≠ (milenage E (a.opcOf E) a.key).auts sqnMs randAuts) →
      osmoAuthGenVecAuts2 (some (milenageGenVecAuts E noFaults noFaults)) v a auts randAuts rand =
        some (-1, v, a)) := by
  have hs : Sizes (a.opcOf E) randAuts := ⟨opcOf_length E hE a ha, hr⟩
  have hfo : noFaults.opc = false := rfl
  have hf1 : noFaults.f1 = fun _ => false := rfl
  have hf2 : noFaults.f2 = fun _ => false := rfl
  have hau := fun q => milenageAuts_spec E hE (a.opcOf E) a.key randAuts auts q hs hl
  have hu : milenageGenVecAuts E noFaults noFaults v a auts randAuts rand =
      match milenageAuts E (fun _ => false) (fun _ => false) (a.opcOf E) a.key randAuts auts with
      | none => some (-1, v, a)
      | some sqn => some (milenageGenVec E noFaults v { a with sqnMs := load6 sqn, sqn := load6 sqn } rand) := by
    rw [milenageGenVecAuts, if_neg (by rw [ha.kLen]; simp), if_neg (by rw [ha.opcLen]; simp)]
    simp only [hfo, hf1, hf2, genOpc_spec E hE a ha, Aud.key]
    generalize milenageAuts E (fun _ => false) (fun _ => false) (Aud.opcOf E a) (List.take 16 a.k) randAuts auts = o
    cases o <;> rfl
  constructor
  · intro sqnMs hm he
    refine ⟨load6 sqnMs, load6_spec sqnMs hm, ?_⟩
    have := (hau sqnMs).2 ⟨hm, he⟩
    rw [this] at hu
    rw [osmoAuthGenVecAuts2]
    simp only [hu]
    rfl
  · intro hne
    have hnone : milenageAuts E (fun _ => false) (fun _ => false) (a.opcOf E) a.key randAuts auts = none := by
      cases hx : milenageAuts E (fun _ => false) (fun _ => false) (a.opcOf E) a.key randAuts auts with
      | none => rfl
      | some q => exact absurd ((hau q).1 hx).2 (hne q ((hau q).1 hx).1)
    rw [hnone] at hu
    rw [osmoAuthGenVecAuts2]
    simp only [hu]
    rfl

/-- A USIM that refused a vector for its SQN accepts the vector made from its
AUTS (unless the 48 bits of the SQN are used up). -/
theorem milenage_resync_accepted (E : Cipher) (hE : IsCipher E) (v : Vec) (a : Aud) (ha : a.Milenage)
    (sqnMs rand rand2 autn auts : List Byte) (hm : sqnMs.length = 6) (hr : rand.length = 16)
    (hr2 : rand2.length = 16) (hn : v.resLen = 4 ∨ v.resLen = 8) (hb : a.indBitlen ≤ 28)
    (hi : a.ind.toNat < 2 ^ a.indBitlen)
    (hroom : beVal sqnMs + 2 * 2 ^ a.indBitlen < 2 ^ 48)
    (hs : (milenage E (a.opcOf E) a.key).usim sqnMs rand autn = .syncFailure auts) :
    ∃ v' a', osmoAuthGenVecAuts2 (some (milenageGenVecAuts E noFaults noFaults)) v a auts rand rand2 =
        some (0, v', a') ∧ v'.rand = rand2 ∧ a'.sqnMs.toNat = beVal sqnMs ∧
      a'.sqn.toNat = (beVal sqnMs / 2 ^ a.indBitlen + 1) * 2 ^ a.indBitlen + a.ind.toNat ∧
      (milenage E (a.opcOf E) a.key).usim sqnMs rand2 v'.autn =
        .ok ((milenage E (a.opcOf E) a.key).f2 rand2) v'.ck v'.ik := by
  have hw := milenage_wf E hE (a.opcOf E) a.key (opcOf_length E hE a ha)
  have he : auts = (milenage E (a.opcOf E) a.key).auts sqnMs rand := by
    unfold Aka.usim at hs
    simp only at hs
    split at hs
    · exact nomatch hs
    · split at hs
      · exact (Answer.syncFailure.inj hs).symm
      · exact nomatch hs
  have hl : auts.length = 14 := by rw [he]; exact Aka.auts_length hw _ _ hm
  obtain ⟨x, hx, hre⟩ := (milenage_resync E hE v a ha auts rand rand2 hr hl).1 sqnMs hm he
  have hp : 2 ^ a.indBitlen ≤ 2 ^ 28 := Nat.pow_le_pow_right (by omega) hb
  have ha2 : ({ a with sqnMs := x, sqn := x } : Aud).Milenage := ⟨ha.opc, ha.k, ha.amf, ha.kLen, ha.opcLen⟩
  obtain ⟨n, hq, hnv⟩ := nextSqn_ok { a with sqnMs := x, sqn := x } hb hi (by simp only [hx]; omega)
  simp only [hx] at hnv
  obtain ⟨v', hg, hv⟩ := milenage_gen_vec E hE v { a with sqnMs := x, sqn := x } ha2 rand2 hr2 hn n hq
  have hacc := milenage_vector_accepted E hE v v' _ _ ha2 rand2 hr2 sqnMs hg
  refine ⟨v', _, by rw [hre, hg], hv.hRand, hx, hnv, ?_⟩
  have hd := Nat.div_mul_le_self (beVal sqnMs) (2 ^ a.indBitlen)
  have hlt := Nat.lt_div_mul_add (a := beVal sqnMs) (Nat.two_pow_pos a.indBitlen)
  rw [hv.hRand] at hacc
  have hmod : n.toNat % 2 ^ 48 = n.toNat := by
    apply Nat.mod_eq_of_lt
    rw [hnv, Nat.add_mul]
    omega
  rw [if_neg] at hacc
  · exact hacc
  · simp only [hmod, hnv, Nat.add_mul]
    omega

/-! ### The USIM side in the library -/

/-- `milenage_check` in full: the SQN decides first, then MAC-A. -/
theorem milenage_check_spec (E : Cipher) (hE : IsCipher E) (opc k sqn rand autn : List Byte)
    (hs : Sizes opc rand) (hq : sqn.length = 6) (hl : autn.length = 16) :
    let A := milenage E opc k
    let rx := bx (autn.take 6) (A.f5 rand)
    let c := milenageCheck E (fun _ => false) (fun _ => false) (fun _ => false) opc k sqn rand autn
    (beVal rx ≤ beVal sqn → c.rc = -2 ∧ c.auts = A.auts sqn rand) ∧
    (beVal sqn < beVal rx →
      c.rc = if A.f1 rx ((autn.drop 6).take 2) rand = autn.drop 8 then 0 else -1) ∧
    c.res = A.f2 rand ∧ c.ck = A.f3 rand ∧ c.ik = A.f4 rand := by
  intro A rx c
  have hw := milenage_wf E hE opc k hs.opc
  have e : xorN autn (A.f5 rand) 6 = rx := by
    rw [xorN_eq _ _ _ (by omega) (by rw [hw.f5]),
      List.take_of_length_le (l := A.f5 rand) (by rw [hw.f5])]
  have l6 : rx.length = 6 := by
    show (bx (autn.take 6) (A.f5 rand)).length = 6
    rw [bx_length, hw.f5]; simp [hl]
  have lm : ((autn.drop 6).take 2).length = 2 := by simp [hl]
  have t8 : (autn.drop 8).take 8 = autn.drop 8 := List.take_of_length_le (by simp [hl])
  have es : xorN sqn (A.f5s rand) 6 = bx sqn (A.f5s rand) := xorN_full _ _ _ hq (hw.f5s _)
  have hmm := memcmp_le rx sqn (by omega)
  have hm2 := memcmp_eq (A.f1 rx ((autn.drop 6).take 2) rand) (autn.drop 8) (by rw [hw.f1]; simp [hl])
  have hc : c = milenageCheck E (fun _ => false) (fun _ => false) (fun _ => false) opc k sqn rand autn := rfl
  simp only [milenageCheck, milenageF2345_spec E hE opc k rand hs, Bool.not_true, Bool.false_eq_true,
    if_false, if_true, milenageF1_spec E hE opc k rand sqn [0#8, 0#8] hs hq rfl] at hc
  have e' : xorN autn ((milenage E opc k).f5 rand) 6 = rx := e
  have es' : xorN sqn ((milenage E opc k).f5s rand) 6 = bx sqn (A.f5s rand) := es
  rw [e', es', t8, milenageF1_spec E hE opc k rand rx _ hs l6 lm] at hc
  have r8 : (milenage E opc k).f2 rand ++ List.drop 8 (List.replicate 8 0#8) = A.f2 rand := by simp [A]
  rw [r8] at hc
  by_cases h : beVal rx ≤ beVal sqn
  · rw [if_pos (hmm.2 h)] at hc
    rw [hc]
    exact ⟨fun _ => ⟨rfl, rfl⟩, fun h2 => by omega, rfl, rfl, rfl⟩
  · rw [if_neg (fun h2 => h (hmm.1 h2))] at hc
    simp only at hc
    by_cases h2 : A.f1 rx ((autn.drop 6).take 2) rand = autn.drop 8
    · rw [if_neg (by rw [not_not]; exact hm2.2 h2)] at hc
      rw [hc]
      exact ⟨fun h3 => absurd h3 h, fun _ => by rw [if_pos h2], rfl, rfl, rfl⟩
    · rw [if_pos (fun h3 => h2 (hm2.1 h3))] at hc
      rw [hc]
      exact ⟨fun h3 => absurd h3 h, fun _ => by rw [if_neg h2], rfl, rfl, rfl⟩

/-- `milenage_check` accepts exactly what a USIM accepts, with the same RES, CK
and IK, and answers a stale but genuine AUTN with the AUTS of a USIM.  Missing:
what a USIM calls a MAC failure is not always -1
(`milenage_check_forged_counterexample`). -/
theorem milenage_check_partial (E : Cipher) (hE : IsCipher E) (opc k sqn rand autn : List Byte)
    (hs : Sizes opc rand) (hq : sqn.length = 6) (hl : autn.length = 16) :
    let A := milenage E opc k
    let c := milenageCheck E (fun _ => false) (fun _ => false) (fun _ => false) opc k sqn rand autn
    (c.rc = 0 ↔ A.usim sqn rand autn = .ok c.res c.ck c.ik) ∧
    (∀ auts, A.usim sqn rand autn = .syncFailure auts → c.rc = -2 ∧ c.auts = auts) ∧
    (A.usim sqn rand autn = .macFailure → c.rc = -1 ∨ c.rc = -2) := by
  intro A c
  obtain ⟨h1, h2, hr, hc, hi⟩ := milenage_check_spec E hE opc k sqn rand autn hs hq hl
  have hu : A.usim sqn rand autn =
      if A.f1 (bx (autn.take 6) (A.f5 rand)) ((autn.drop 6).take 2) rand ≠ autn.drop 8 then .macFailure
      else if beVal (bx (autn.take 6) (A.f5 rand)) ≤ beVal sqn then .syncFailure (A.auts sqn rand)
      else .ok (A.f2 rand) (A.f3 rand) (A.f4 rand) := rfl
  have hcr : c.res = A.f2 rand := hr
  have hcc : c.ck = A.f3 rand := hc
  have hci : c.ik = A.f4 rand := hi
  rw [hu, hcr, hcc, hci]
  by_cases hle : beVal (bx (autn.take 6) (A.f5 rand)) ≤ beVal sqn
  · obtain ⟨e1, e2⟩ := h1 hle
    have e1' : c.rc = -2 := e1
    have e2' : c.auts = A.auts sqn rand := e2
    rw [e1', e2', if_pos hle]
    by_cases hm : A.f1 (bx (autn.take 6) (A.f5 rand)) ((autn.drop 6).take 2) rand = autn.drop 8
    · rw [if_neg (not_not.2 hm)]
      refine ⟨⟨fun h => absurd h (by decide), fun h => (nomatch h)⟩, fun au h => ⟨rfl, ?_⟩, fun h => nomatch h⟩
      exact Answer.syncFailure.inj h
    · rw [if_pos hm]
      exact ⟨⟨fun h => absurd h (by decide), fun h => (nomatch h)⟩, fun au h => (nomatch h), fun _ => .inr rfl⟩
  · have e1 := h2 (Nat.lt_of_not_le hle)
    have e1' : c.rc = _ := e1
    rw [e1', if_neg hle]
    by_cases hm : A.f1 (bx (autn.take 6) (A.f5 rand)) ((autn.drop 6).take 2) rand = autn.drop 8
    · rw [if_neg (not_not.2 hm), if_pos hm]
      exact ⟨⟨fun _ => rfl, fun _ => rfl⟩, fun au h => (nomatch h), fun h => nomatch h⟩
    · rw [if_pos hm, if_neg hm]
      exact ⟨⟨fun h => absurd h (by decide), fun h => (nomatch h)⟩, fun au h => (nomatch h), fun _ => .inl rfl⟩

/-- An AUTN that anybody can make up, without knowing any key: whenever its SQN
field happens to decode to a number that is not fresh, `milenage_check` reports
a synchronisation failure and hands out a valid AUTS, although MAC-A is wrong
and TS 33.102 6.3.3 asks for a MAC failure. -/
theorem milenage_check_forged_counterexample (E : Cipher) (hE : IsCipher E)
    (opc k sqn rand : List Byte) (hs : Sizes opc rand) (hq : sqn.length = 6) :
    ∃ autn, autn.length = 16 ∧ (milenage E opc k).usim sqn rand autn = .macFailure ∧
      let c := milenageCheck E (fun _ => false) (fun _ => false) (fun _ => false) opc k sqn rand autn
      c.rc = -2 ∧ c.auts = (milenage E opc k).auts sqn rand := by
  have hw := milenage_wf E hE opc k hs.opc
  -- the genuine AUTN for this SQN, with another MAC
  obtain ⟨bad, hbl, hbad⟩ : ∃ bad : List Byte, bad.length = 8 ∧
      bad ≠ (milenage E opc k).f1 sqn [0#8, 0#8] rand := by
    by_cases h : (milenage E opc k).f1 sqn [0#8, 0#8] rand = List.replicate 8 0#8
    · exact ⟨List.replicate 8 1#8, rfl, by rw [h]; decide⟩
    · exact ⟨List.replicate 8 0#8, rfl, fun h2 => h h2.symm⟩
  have l : (bx sqn ((milenage E opc k).f5 rand)).length = 6 := by rw [bx_length, hw.f5]; omega
  have hlen : (bx sqn ((milenage E opc k).f5 rand) ++ ([0#8, 0#8] ++ bad)).length = 16 := by
    simp [l, hbl]
  have p1 : bx ((bx sqn ((milenage E opc k).f5 rand) ++ ([0#8, 0#8] ++ bad)).take 6)
      ((milenage E opc k).f5 rand) = sqn := by
    rw [List.take_left' l, bx_cancel _ _ (by rw [hw.f5]; exact hq)]
  have p2 : ((bx sqn ((milenage E opc k).f5 rand) ++ ([0#8, 0#8] ++ bad)).drop 6).take 2 = [0#8, 0#8] := by
    rw [List.drop_left' l]; rfl
  have p3 : (bx sqn ((milenage E opc k).f5 rand) ++ ([0#8, 0#8] ++ bad)).drop 8 = bad := by
    rw [← List.append_assoc, List.drop_left' (by simp [l])]
  refine ⟨_, hlen, ?_, ?_⟩
  · simp only [Aka.usim, p1, p2, p3]
    rw [if_pos (fun h => hbad h.symm)]
  · have := (milenage_check_spec E hE opc k sqn rand _ hs hq hlen).1
    rw [p1] at this
    exact this (Nat.le_refl _)

end Verif.Auth
