import Verif.Auth.TuakSpec
/-!
Claims about vectors and resynchronisation with TUAK.
-/
namespace Verif.Auth
open Verif.Endian (beVal leVal)

/-- The K of a TUAK subscriber, 16 or 32 bytes. -/
def Aud.tuakKey (a : Aud) : List Byte := a.k.take a.kLen

/-- The TOPc of a subscriber: as stored, or computed from TOP. -/
def Aud.topcOf (P : Nat → Nat) (iters : Nat) (a : Aud) : List Byte :=
  if a.type = .umts ∧ a.opcIsOp = true then tTopc P iters a.opc a.tuakKey else a.opc

/-- Well-formed TUAK key data. -/
structure Aud.Tuak (a : Aud) : Prop where
  opc : a.opc.length = 32
  k : a.k.length = 32
  amf : a.amf.length = 2
  kLen : a.kLen = 16 ∨ a.kLen = 32
  opcLen : a.opcLen = 32

theorem topcOf_length (P : Nat → Nat) (iters : Nat) (a : Aud) (h : a.Tuak) :
    (a.topcOf P iters).length = 32 := by
  unfold Aud.topcOf
  split
  · exact be_length _ _
  · exact h.opc

theorem Aud.Tuak.sizes {a : Aud} (h : a.Tuak) (opc : List Byte) (ho : opc.length = 32) :
    TuakSizes opc a.k a.kLen :=
  ⟨ho, h.kLen, by rw [h.k]; rcases h.kLen with e | e <;> omega⟩

theorem tuakOpcIfNeeded_spec (F : Perm) (P : Nat → Nat) (hF : Computes F P) (iters : Nat) (a : Aud)
    (h : a.Tuak) : tuakOpcIfNeeded F iters a = some (a.topcOf P iters) := by
  unfold tuakOpcIfNeeded Aud.topcOf
  split
  · exact tuakOpcGen_spec F P hF iters _ _ _ (h.sizes _ h.opc)
  · rfl

/-- What `tuak_gen_vec` does with a good request. -/
theorem tuakGenVec_ok (F : Perm) (P : Nat → Nat) (hF : Computes F P) (iters : Nat) (v : Vec) (a : Aud)
    (ha : a.Tuak) (rand : List Byte) (hr : rand.length = 16)
    (hn : v.resLen = 4 ∨ v.resLen = 8 ∨ v.resLen = 16) (next : BitVec 64) (hq : nextSqn a = .ok next) :
    let A := tuak P iters (a.topcOf P iters) a.tuakKey v.resLen
    tuakGenVec F iters v a rand =
      (0, { v with
          res := A.f2 rand ++ v.res.drop v.resLen
          ck := A.f3 rand
          ik := A.f4 rand
          autn := A.autn (store6 next) a.amf rand
          kc := kcOf (A.f3 rand) (A.f4 rand)
          sres := sresOf ((A.f2 rand).take v.resLen)
          authTypes := 3 }, { a with sqn := next }) := by
  intro A
  have hsz := ha.sizes _ (topcOf_length P iters a ha)
  have l6 := (store6_spec next).1
  have hw : A.Wf := tuak_wf P iters _ _ _
  have l2 : (A.f2 rand).length = v.resLen := be_length _ _
  have l3 : (A.f3 rand).length = 16 := be_length _ _
  have l4 : (A.f4 rand).length = 16 := be_length _ _
  have tk : (A.f2 rand ++ v.res.drop v.resLen).take v.resLen = (A.f2 rand).take v.resLen :=
    List.take_append_of_le_length (by omega)
  have hc2 := c2_spec (A.f2 rand ++ v.res.drop v.resLen) v.resLen (by omega)
    (by rw [List.length_append, l2]; omega)
  rw [tk] at hc2
  have hg : tuakGenerate F iters (a.topcOf P iters) a.amf a.k a.kLen (store6 next) rand v.resLen v =
      { v with
          res := A.f2 rand ++ v.res.drop v.resLen
          ck := A.f3 rand
          ik := A.f4 rand
          autn := A.autn (store6 next) a.amf rand } := by
    rw [tuakGenerate, if_neg (by omega),
      (tuakF1_spec F P hF iters v.resLen _ _ rand (store6 next) a.amf _ hsz hr l6 ha.amf).1]
    simp only [tuakF2345_spec F P hF iters v.resLen _ _ rand _ hsz hr (by omega)]
    have hx : xorN (store6 next) (A.f5 rand) 6 = bx (store6 next) (A.f5 rand) :=
      xorN_full _ _ 6 l6 (hw.f5 _)
    have hx' : xorN (store6 next) ((tuak P iters (a.topcOf P iters) (a.k.take a.kLen) v.resLen).f5 rand) 6 =
      bx (store6 next) (A.f5 rand) := hx
    rw [hx', List.take_of_length_le (by rw [ha.amf]), Aka.autn]
    rfl
  rw [tuakGenVec, if_neg (by omega), if_neg (by have := ha.kLen; omega), if_neg (by rw [ha.opcLen]; simp),
    tuakOpcIfNeeded_spec F P hF iters a ha]
  simp only [hq, hg, hc2, Option.getD_some, c3_spec _ _ l3 l4]

/-- `osmo_auth_gen_vec2` with TUAK: the vector is that of TS 33.102 and
TS 35.231 with the next SQN. -/
theorem tuak_gen_vec (F : Perm) (P : Nat → Nat) (hF : Computes F P) (iters : Nat) (v : Vec) (a : Aud)
    (ha : a.Tuak) (rand : List Byte) (hr : rand.length = 16)
    (hn : v.resLen = 4 ∨ v.resLen = 8 ∨ v.resLen = 16) (next : BitVec 64) (hq : nextSqn a = .ok next) :
    ∃ v', osmoAuthGenVec2 (some (tuakGenVec F iters)) v a rand = (0, v', { a with sqn := next }) ∧
      IsVector (tuak P iters (a.topcOf P iters) a.tuakKey v.resLen) (store6 next) a.amf rand v.resLen v' := by
  have h := tuakGenVec_ok F P hF iters v a ha rand hr hn next hq
  rw [osmoAuthGenVec2]
  simp only [h]
  refine ⟨_, rfl, ?_⟩
  exact ⟨List.take_of_length_le (by omega), rfl,
    List.take_append_of_le_length (by rw [show ((tuak P iters (a.topcOf P iters) a.tuakKey v.resLen).f2 rand).length = v.resLen from be_length _ _]),
    rfl, rfl, rfl, rfl, rfl, rfl⟩

/-- A refused request leaves vector and key data alone. -/
theorem tuak_gen_vec_refused (F : Perm) (iters : Nat) (v v' : Vec) (a a' : Aud) (rand : List Byte) (rc : Int)
    (hg : osmoAuthGenVec2 (some (tuakGenVec F iters)) v a rand = (rc, v', a')) :
    (rc = 0 ∨ rc = -2 ∨ rc = -3 ∨ rc = -22) ∧ (rc ≠ 0 → v' = v ∧ a' = a) ∧
    (rc = 0 → (v.resLen = 4 ∨ v.resLen = 8 ∨ v.resLen = 16) ∧ ∃ next, nextSqn a = .ok next ∧ a'.sqn = next) := by
  have key : (∃ w b, tuakGenVec F iters v a rand = (0, w, b) ∧ (v.resLen = 4 ∨ v.resLen = 8 ∨ v.resLen = 16) ∧
        ∃ next, nextSqn a = .ok next ∧ b.sqn = next) ∨
      ∃ e, (e = -2 ∨ e = -3 ∨ e = -22) ∧ tuakGenVec F iters v a rand = (e, v, a) := by
    unfold tuakGenVec
    split
    · exact .inr ⟨-22, by simp, rfl⟩
    · split
      · exact .inr ⟨-22, by simp, rfl⟩
      · split
        · exact .inr ⟨-22, by simp, rfl⟩
        · split
          · rename_i hres hk ho hnone
            exfalso
            unfold tuakOpcIfNeeded at hnone
            split at hnone
            · unfold tuakOpcGen at hnone
              have : a.kLen = 16 ∨ a.kLen = 32 := by omega
              rcases this with e | e <;> rw [e] at hnone <;> exact nomatch hnone
            · exact nomatch hnone
          · split
            · rename_i e he
              rcases (nextSqn_error a e).1 he with ⟨_, rfl⟩ | ⟨_, _, rfl⟩
              · exact .inr ⟨-2, by simp, rfl⟩
              · exact .inr ⟨-3, by simp, rfl⟩
            · rename_i hr _ _ _ _ _ n hn
              exact .inl ⟨_, _, rfl, by omega, n, hn, rfl⟩
  rcases key with ⟨w, b, h, hl, n, hn1, hn2⟩ | ⟨e, he, h⟩
  · rw [osmoAuthGenVec2] at hg
    simp only [h] at hg
    rw [if_neg (by decide)] at hg
    obtain ⟨rfl, hg2⟩ := Prod.ext_iff.1 hg
    obtain ⟨rfl, rfl⟩ := Prod.ext_iff.1 hg2
    exact ⟨.inl rfl, fun h => absurd rfl h, fun _ => ⟨hl, n, hn1, hn2⟩⟩
  · rw [osmoAuthGenVec2] at hg
    simp only [h] at hg
    rw [if_pos (by omega)] at hg
    obtain ⟨h1, hg2⟩ := Prod.ext_iff.1 hg
    obtain ⟨rfl, rfl⟩ := Prod.ext_iff.1 hg2
    simp only at h1
    subst h1
    exact ⟨.inr he, fun _ => ⟨rfl, rfl⟩, fun h => by omega⟩

/-- A vector of TUAK is answered by a USIM with the same keys: with the RES, CK
and IK of the vector, or with AUTS if its SQN is not greater; never with MAC
failure. -/
theorem tuak_vector_accepted (F : Perm) (P : Nat → Nat) (hF : Computes F P) (iters : Nat) (v v' : Vec)
    (a a' : Aud) (ha : a.Tuak) (rand : List Byte) (hr : rand.length = 16) (sqnMs : List Byte)
    (hg : osmoAuthGenVec2 (some (tuakGenVec F iters)) v a rand = (0, v', a')) :
    (tuak P iters (a.topcOf P iters) a.tuakKey v.resLen).usim sqnMs v'.rand v'.autn =
      if a'.sqn.toNat % 2 ^ 48 ≤ beVal sqnMs then
        .syncFailure ((tuak P iters (a.topcOf P iters) a.tuakKey v.resLen).auts sqnMs rand)
      else .ok (v'.res.take v'.resLen) v'.ck v'.ik := by
  obtain ⟨-, -, h0⟩ := tuak_gen_vec_refused F iters v v' a a' rand 0 hg
  obtain ⟨hn, next, hq, -⟩ := h0 rfl
  obtain ⟨w, hw, hv⟩ := tuak_gen_vec F P hF iters v a ha rand hr hn next hq
  rw [hw] at hg
  obtain ⟨-, hg2⟩ := Prod.ext_iff.1 hg
  obtain ⟨rfl, rfl⟩ := Prod.ext_iff.1 hg2
  obtain ⟨l6, b6⟩ := store6_spec next
  have := Aka.usim_genuine (tuak_wf P iters (a.topcOf P iters) a.tuakKey v.resLen)
    (store6 next) a.amf rand sqnMs l6 ha.amf
  simp only [hv.hRand, hv.hAutn, hv.hCk, hv.hIk, hv.hResLen, hv.hRes]
  rw [this, b6, List.take_of_length_le
    (by rw [show ((tuak P iters (a.topcOf P iters) a.tuakKey v.resLen).f2 rand).length = v.resLen from be_length _ _])]

/-- `tuak_auts` accepts exactly the AUTS of a USIM with the same keys, and
returns the SQN it was made with. -/
theorem tuakAuts_spec (F : Perm) (P : Nat → Nat) (hF : Computes F P) (iters m : Nat)
    (opc k rand auts sqn : List Byte) (n : Nat) (h : TuakSizes opc k n) (hr : rand.length = 16)
    (ha : auts.length = 14) :
    tuakAuts F iters opc k n rand auts = some sqn ↔
      sqn.length = 6 ∧ auts = (tuak P iters opc (k.take n) m).auts sqn rand := by
  have hw := tuak_wf P iters opc (k.take n) m
  rw [← Aka.auts_iff hw sqn rand auts ha]
  generalize hA : tuak P iters opc (k.take n) m = A at hw
  have e : xorN auts (A.f5s rand) 6 = bx (auts.take 6) (A.f5s rand) := by
    rw [xorN_eq _ _ _ (by omega) (by rw [hw.f5s]),
      List.take_of_length_le (l := A.f5s rand) (by rw [hw.f5s])]
  have l6 : (bx (auts.take 6) (A.f5s rand)).length = 6 := by
    rw [bx_length, hw.f5s]; simp [ha]
  have h1 := (tuakF1_spec F P hF iters m opc k rand _ [0#8, 0#8] n h hr l6 rfl).2
  simp only [tuakAuts, tuakF5star_spec F P hF iters m opc k rand n h hr, hA, e, h1]
  have t8 : (auts.drop 6).take 8 = auts.drop 6 := List.take_of_length_le (by simp [ha])
  rw [t8]
  have hm := memcmp_eq (A.f1s (bx (auts.take 6) (A.f5s rand)) [0#8, 0#8] rand)
    (auts.drop 6) (by rw [hw.f1s]; simp [ha])
  constructor
  · intro h
    split at h
    · exact nomatch h
    · rename_i hc
      have := Option.some.inj h
      subst this
      exact ⟨rfl, hm.1 (Classical.not_not.1 hc)⟩
  · rintro ⟨rfl, h2⟩
    rw [if_neg (by rw [not_not]; exact hm.2 h2)]

/-- `osmo_auth_gen_vec_auts2` with TUAK takes exactly the AUTS made with the
**32 bytes** of the key buffer as K; then the request is the same as
`osmo_auth_gen_vec2` with the SQN of the USIM.  Any other AUTS is refused with
-1 and nothing changes.  -/
theorem tuak_resync_partial (F : Perm) (P : Nat → Nat) (hF : Computes F P) (iters : Nat) (v : Vec) (a : Aud)
    (ha : a.Tuak) (auts randAuts rand : List Byte) (hr : randAuts.length = 16) (hl : auts.length = 14) :
    (∀ sqnMs, sqnMs.length = 6 → auts = (tuak P iters (a.topcOf P iters) a.k v.resLen).auts sqnMs randAuts →
      ∃ x : BitVec 64, x.toNat = beVal sqnMs ∧
        osmoAuthGenVecAuts2 (some (tuakGenVecAuts F iters)) v a auts randAuts rand =
          some (osmoAuthGenVec2 (some (tuakGenVec F iters)) v { a with sqnMs := x, sqn := x } rand)) ∧
    ((∀ sqnMs, sqnMs.length = 6 → auts ≠ (tuak P iters (a.topcOf P iters) a.k v.resLen).auts sqnMs randAuts) →
      osmoAuthGenVecAuts2 (some (tuakGenVecAuts F iters)) v a auts randAuts rand = some (-1, v, a)) := by
  have hs : TuakSizes (a.topcOf P iters) a.k 32 :=
    ⟨topcOf_length P iters a ha, .inr rfl, by rw [ha.k]⟩
  have hau := fun q => tuakAuts_spec F P hF iters v.resLen (a.topcOf P iters) a.k randAuts auts q 32 hs hr hl
  have t32 : a.k.take 32 = a.k := List.take_of_length_le (by rw [ha.k])
  simp only [t32] at hau
  have hu : tuakGenVecAuts F iters v a auts randAuts rand =
      match tuakAuts F iters (a.topcOf P iters) a.k 32 randAuts auts with
      | none => some (-1, v, a)
      | some sqn => some (tuakGenVec F iters v { a with sqnMs := load6 sqn, sqn := load6 sqn } rand) := by
    rw [tuakGenVecAuts, if_neg (by have := ha.kLen; omega), if_neg (by rw [ha.opcLen]; simp)]
    simp only [tuakOpcIfNeeded_spec F P hF iters a ha]
    generalize tuakAuts F iters (a.topcOf P iters) a.k 32 randAuts auts = o
    cases o <;> rfl
  constructor
  · intro sqnMs hm he
    refine ⟨load6 sqnMs, load6_spec sqnMs hm, ?_⟩
    have := (hau sqnMs).2 ⟨hm, he⟩
    rw [this] at hu
    rw [osmoAuthGenVecAuts2]
    simp only [hu]
    rfl
  · intro hne
    have hnone : tuakAuts F iters (a.topcOf P iters) a.k 32 randAuts auts = none := by
      cases hx : tuakAuts F iters (a.topcOf P iters) a.k 32 randAuts auts with
      | none => rfl
      | some q => exact absurd ((hau q).1 hx).2 (hne q ((hau q).1 hx).1)
    rw [hnone] at hu
    rw [osmoAuthGenVecAuts2]
    simp only [hu]
    rfl

/-- With a K of 32 bytes a USIM that refused a vector for its SQN accepts the
vector made from its AUTS.  Missing: K of 16 bytes, see
`tuak_resync_counterexample`. -/
theorem tuak_resync_accepted_partial (F : Perm) (P : Nat → Nat) (hF : Computes F P) (iters : Nat) (v : Vec)
    (a : Aud) (ha : a.Tuak) (h32 : a.kLen = 32)
    (sqnMs rand rand2 autn auts : List Byte) (hm : sqnMs.length = 6) (hr : rand.length = 16)
    (hr2 : rand2.length = 16) (hn : v.resLen = 4 ∨ v.resLen = 8 ∨ v.resLen = 16) (hb : a.indBitlen ≤ 28)
    (hi : a.ind.toNat < 2 ^ a.indBitlen)
    (hroom : beVal sqnMs + 2 * 2 ^ a.indBitlen < 2 ^ 48)
    (hs : (tuak P iters (a.topcOf P iters) a.tuakKey v.resLen).usim sqnMs rand autn = .syncFailure auts) :
    ∃ v' a', osmoAuthGenVecAuts2 (some (tuakGenVecAuts F iters)) v a auts rand rand2 =
        some (0, v', a') ∧ v'.rand = rand2 ∧ a'.sqnMs.toNat = beVal sqnMs ∧
      a'.sqn.toNat = (beVal sqnMs / 2 ^ a.indBitlen + 1) * 2 ^ a.indBitlen + a.ind.toNat ∧
      (tuak P iters (a.topcOf P iters) a.tuakKey v.resLen).usim sqnMs rand2 v'.autn =
        .ok (v'.res.take v'.resLen) v'.ck v'.ik := by
  have hw := tuak_wf P iters (a.topcOf P iters) a.tuakKey v.resLen
  have hk : a.tuakKey = a.k := by
    rw [Aud.tuakKey, h32]; exact List.take_of_length_le (by rw [ha.k])
  have he : auts = (tuak P iters (a.topcOf P iters) a.tuakKey v.resLen).auts sqnMs rand := by
    unfold Aka.usim at hs
    simp only at hs
    split at hs
    · exact nomatch hs
    · split at hs
      · exact (Answer.syncFailure.inj hs).symm
      · exact nomatch hs
  have hl : auts.length = 14 := by rw [he]; exact Aka.auts_length hw _ _ hm
  rw [hk] at he
  obtain ⟨x, hx, hre⟩ := (tuak_resync_partial F P hF iters v a ha auts rand rand2 hr hl).1 sqnMs hm he
  have hp : 2 ^ a.indBitlen ≤ 2 ^ 28 := Nat.pow_le_pow_right (by omega) hb
  have ha2 : ({ a with sqnMs := x, sqn := x } : Aud).Tuak := ⟨ha.opc, ha.k, ha.amf, ha.kLen, ha.opcLen⟩
  obtain ⟨n, hq, hnv⟩ := nextSqn_ok { a with sqnMs := x, sqn := x } hb hi (by simp only [hx]; omega)
  simp only [hx] at hnv
  obtain ⟨v', hg, hv⟩ := tuak_gen_vec F P hF iters v { a with sqnMs := x, sqn := x } ha2 rand2 hr2 hn n hq
  have hacc := tuak_vector_accepted F P hF iters v v' _ _ ha2 rand2 hr2 sqnMs hg
  refine ⟨v', _, by rw [hre, hg], hv.hRand, hx, hnv, ?_⟩
  have hd := Nat.div_mul_le_self (beVal sqnMs) (2 ^ a.indBitlen)
  have hlt := Nat.lt_div_mul_add (a := beVal sqnMs) (Nat.two_pow_pos a.indBitlen)
  rw [hv.hRand] at hacc
  have hmod : n.toNat % 2 ^ 48 = n.toNat := by
    apply Nat.mod_eq_of_lt
    rw [hnv, Nat.add_mul]
    omega
  rw [if_neg] at hacc
  · exact hacc
  · simp only [hmod, hnv, Nat.add_mul]
    omega

end Verif.Auth
