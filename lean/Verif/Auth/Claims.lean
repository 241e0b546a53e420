import Verif.Auth.Sqn
/-!
Claims about Milenage authentication vectors: what a USIM after TS 33.102 does
with them, and resynchronisation.
-/
namespace Verif.Auth
open Verif.Endian (beVal)

/-! ### The protocol for any seven functions -/

/-- The lengths of TS 33.102 6.3.7: AK of 6, MAC of 8 bytes. -/
structure Aka.Wf (A : Aka) : Prop where
  f5 : ∀ r, (A.f5 r).length = 6
  f5s : ∀ r, (A.f5s r).length = 6
  f1 : ∀ s m r, (A.f1 s m r).length = 8
  f1s : ∀ s m r, (A.f1s s m r).length = 8

theorem Aka.autn_length {A : Aka} (hA : A.Wf) (sqn amf rand : List Byte) (hs : sqn.length = 6)
    (ha : amf.length = 2) : (A.autn sqn amf rand).length = 16 := by
  simp [Aka.autn, bx_length, hA.f5, hA.f1, hs, ha]

theorem Aka.auts_length {A : Aka} (hA : A.Wf) (sqn rand : List Byte) (hs : sqn.length = 6) :
    (A.auts sqn rand).length = 14 := by
  simp [Aka.auts, bx_length, hA.f5s, hA.f1s, hs]

/-- The parts of an AUTN. -/
theorem Aka.autn_parts {A : Aka} (hA : A.Wf) (sqn amf rand : List Byte) (hs : sqn.length = 6)
    (ha : amf.length = 2) :
    bx ((A.autn sqn amf rand).take 6) (A.f5 rand) = sqn ∧
    ((A.autn sqn amf rand).drop 6).take 2 = amf ∧
    (A.autn sqn amf rand).drop 8 = A.f1 sqn amf rand := by
  have l : (bx sqn (A.f5 rand)).length = 6 := by rw [bx_length, hA.f5]; omega
  have e : A.autn sqn amf rand = bx sqn (A.f5 rand) ++ (amf ++ A.f1 sqn amf rand) := by
    simp [Aka.autn]
  refine ⟨?_, ?_, ?_⟩
  · rw [e, List.take_left' l, bx_cancel _ _ (by rw [hA.f5]; exact hs)]
  · rw [e, List.drop_left' l, List.take_left' ha]
  · have l8 : (bx sqn (A.f5 rand) ++ amf).length = 8 := by simp [l, ha]
    rw [Aka.autn, List.drop_left' l8]

/-- An AUTN made with the keys of the USIM is taken or, if its SQN is not
greater, answered with AUTS. -/
theorem Aka.usim_genuine {A : Aka} (hA : A.Wf) (sqn amf rand sqnMs : List Byte) (hs : sqn.length = 6)
    (ha : amf.length = 2) :
    A.usim sqnMs rand (A.autn sqn amf rand) =
      if beVal sqn ≤ beVal sqnMs then .syncFailure (A.auts sqnMs rand)
      else .ok (A.f2 rand) (A.f3 rand) (A.f4 rand) := by
  obtain ⟨h1, h2, h3⟩ := Aka.autn_parts hA sqn amf rand hs ha
  simp only [Aka.usim, h1, h2, h3]
  simp

/-- The parts of an AUTS. -/
theorem Aka.auts_iff {A : Aka} (hA : A.Wf) (sqn rand auts : List Byte) (ha : auts.length = 14) :
    (sqn = bx (auts.take 6) (A.f5s rand) ∧ A.f1s sqn [0#8, 0#8] rand = auts.drop 6) ↔
      sqn.length = 6 ∧ auts = A.auts sqn rand := by
  constructor
  · rintro ⟨h1, h2⟩
    have l6 : (auts.take 6).length = 6 := by simp [ha]
    refine ⟨by rw [h1, bx_length, l6, hA.f5s]; rfl, ?_⟩
    have hb : bx sqn (A.f5s rand) = auts.take 6 := by
      rw [h1, bx_cancel _ _ (by rw [l6, hA.f5s])]
    rw [Aka.auts, hb, h2, List.take_append_drop]
  · rintro ⟨h1, h2⟩
    have l : (bx sqn (A.f5s rand)).length = 6 := by rw [bx_length, hA.f5s]; omega
    subst h2
    rw [Aka.auts, List.take_left' l, List.drop_left' l]
    exact ⟨(bx_cancel _ _ (by rw [hA.f5s]; exact h1)).symm, rfl⟩

/-! ### Milenage -/

theorem milenage_wf (E : Cipher) (hE : IsCipher E) (opc k : List Byte) (ho : opc.length = 16) :
    (milenage E opc k).Wf := by
  have l1 : ∀ r s m, (mOut1 E opc k r s m).length = 16 := by
    intro r s m; rw [mOut1, bx_length, hE]; omega
  refine ⟨fun r => ?_, fun r => ?_, fun s m r => ?_, fun s m r => ?_⟩ <;>
    simp [milenage, mOut_length E hE _ _ _ ho, l1]

/-- The K of a subscriber. -/
def Aud.key (a : Aud) : List Byte := a.k.take 16

/-- The OPc of a subscriber: as stored, or computed from OP. -/
def Aud.opcOf (E : Cipher) (a : Aud) : List Byte :=
  if a.type = .umts ∧ a.opcIsOp = true then mOpc E (a.k.take 16) (a.opc.take 16) else a.opc.take 16

/-- Well-formed Milenage key data: buffers of the C structure, lengths of
Milenage. -/
structure Aud.Milenage (a : Aud) : Prop where
  opc : a.opc.length = 32
  k : a.k.length = 32
  amf : a.amf.length = 2
  kLen : a.kLen = 16
  opcLen : a.opcLen = 16

theorem opcOf_length (E : Cipher) (hE : IsCipher E) (a : Aud) (h : a.Milenage) :
    (a.opcOf E).length = 16 := by
  have l : (a.opc.take 16).length = 16 := by simp [h.opc]
  unfold Aud.opcOf
  split
  · rw [mOpc, bx_length, hE, l]; rfl
  · exact l

theorem genOpc_spec (E : Cipher) (hE : IsCipher E) (a : Aud) (h : a.Milenage) :
    genOpcIfNeeded E false a = some (a.opcOf E) := by
  have l : (a.opc.take 16).length = 16 := by simp [h.opc]
  unfold genOpcIfNeeded Aud.opcOf
  split
  · exact milenageOpcGen_spec E hE _ _ l
  · rfl

/-- `milenage_auts` accepts exactly the AUTS of a USIM with the same keys, and
returns the SQN it was made with. -/
theorem milenageAuts_spec (E : Cipher) (hE : IsCipher E) (opc k rand auts sqn : List Byte)
    (hs : Sizes opc rand) (ha : auts.length = 14) :
    milenageAuts E (fun _ => false) (fun _ => false) opc k rand auts = some sqn ↔
      sqn.length = 6 ∧ auts = (milenage E opc k).auts sqn rand := by
  have hw := milenage_wf E hE opc k hs.opc
  rw [← Aka.auts_iff hw sqn rand auts ha]
  have e : xorN auts ((milenage E opc k).f5s rand) 6 = bx (auts.take 6) ((milenage E opc k).f5s rand) := by
    rw [xorN_eq _ _ _ (by omega) (by rw [hw.f5s]),
      List.take_of_length_le (l := (milenage E opc k).f5s rand) (by rw [hw.f5s])]
  have l6 : (bx (auts.take 6) ((milenage E opc k).f5s rand)).length = 6 := by
    rw [bx_length, hw.f5s]; simp [ha]
  simp only [milenageAuts, milenageF2345_spec E hE opc k rand hs, Bool.not_true, Bool.false_eq_true,
    if_false, if_true, e, milenageF1_spec E hE opc k rand _ [0#8, 0#8] hs l6 rfl]
  have t8 : (auts.drop 6).take 8 = auts.drop 6 := List.take_of_length_le (by simp [ha])
  rw [t8]
  have hm := memcmp_eq ((milenage E opc k).f1s (bx (auts.take 6) ((milenage E opc k).f5s rand)) [0#8, 0#8] rand)
    (auts.drop 6) (by rw [hw.f1s]; simp [ha])
  constructor
  · intro h
    split at h
    · exact nomatch h
    · rename_i hc
      have := Option.some.inj h
      subst this
      exact ⟨rfl, hm.1 (Classical.not_not.1 hc)⟩
  · rintro ⟨rfl, h2⟩
    rw [if_neg (by rw [not_not]; exact hm.2 h2)]

/-- TS 33.102 6.8.1.2 c3: Kc from CK and IK. -/
def kcOf (ck ik : List Byte) : List Byte :=
  bx (bx (ck.take 8) (ck.drop 8)) (bx (ik.take 8) (ik.drop 8))

/-- TS 33.102 6.8.1.2 c2: SRES from RES padded with zeroes to 16 bytes. -/
def sresOf (res : List Byte) : List Byte :=
  let x := res ++ List.replicate (16 - res.length) 0#8
  bx (bx (x.take 4) ((x.drop 4).take 4)) (bx ((x.drop 8).take 4) (x.drop 12))

theorem c3_spec (ck ik : List Byte) (hc : ck.length = 16) (hi : ik.length = 16) :
    c3 ck ik = kcOf ck ik := by
  obtain ⟨a0, a1, a2, a3, a4, a5, a6, a7, a8, a9, a10, a11, a12, a13, a14, a15, rfl⟩ := list16 ck hc
  obtain ⟨b0, b1, b2, b3, b4, b5, b6, b7, b8, b9, b10, b11, b12, b13, b14, b15, rfl⟩ := list16 ik hi
  have hr : List.range 8 = [0, 1, 2, 3, 4, 5, 6, 7] := rfl
  simp [c3, kcOf, bx, hr, BitVec.xor_assoc]

theorem c2_spec (res : List Byte) (n : Nat) (hn : n ≤ 16) (hl : n ≤ res.length) :
    c2 res n 1 = some (sresOf (res.take n)) := by
  have hx : (res.take n ++ List.replicate (16 - n) 0#8).length = 16 := by simp; omega
  have hn' : (res.take n).length = n := by simp; omega
  rw [c2, if_neg (by simp), if_neg (by omega)]
  simp only [if_true, sresOf, hn']
  generalize res.take n ++ List.replicate (16 - n) 0#8 = x at hx ⊢
  obtain ⟨a0, a1, a2, a3, a4, a5, a6, a7, a8, a9, a10, a11, a12, a13, a14, a15, rfl⟩ := list16 x hx
  have hr : List.range 4 = [0, 1, 2, 3] := rfl
  simp [bx, hr, BitVec.xor_assoc]

/-- What is to be in a vector made for the functions `A`, with the given SQN. -/
structure IsVector (A : Aka) (sqn amf rand : List Byte) (n : Nat) (v : Vec) : Prop where
  hRand : v.rand = rand
  hAutn : v.autn = A.autn sqn amf rand
  hRes : v.res.take n = (A.f2 rand).take n
  hResLen : v.resLen = n
  hCk : v.ck = A.f3 rand
  hIk : v.ik = A.f4 rand
  hKc : v.kc = kcOf (A.f3 rand) (A.f4 rand)
  hSres : v.sres = sresOf ((A.f2 rand).take n)
  hTypes : v.authTypes = 3

/-- `osmo_auth_gen_vec2` with Milenage: the vector is that of TS 33.102 and
TS 35.206 with the next SQN. -/
theorem milenage_gen_vec (E : Cipher) (hE : IsCipher E) (v : Vec) (a : Aud) (ha : a.Milenage)
    (rand : List Byte) (hr : rand.length = 16) (hn : v.resLen = 4 ∨ v.resLen = 8)
    (next : BitVec 64) (hq : nextSqn a = .ok next) :
    ∃ v', osmoAuthGenVec2 (some (milenageGenVec E noFaults)) v a rand =
        (0, v', { a with sqn := next }) ∧
      IsVector (milenage E (a.opcOf E) a.key) (store6 next) a.amf rand v.resLen v' := by
  have hs : Sizes (a.opcOf E) rand := ⟨opcOf_length E hE a ha, hr⟩
  have hw := milenage_wf E hE (a.opcOf E) a.key hs.opc
  have l6 := (store6_spec next).1
  have l2 : ((milenage E (a.opcOf E) a.key).f2 rand).length = 8 := by
    simp [milenage, mOut_length E hE _ _ _ hs.opc]
  have l3 : ((milenage E (a.opcOf E) a.key).f3 rand).length = 16 := by
    simp [milenage, mOut_length E hE _ _ _ hs.opc]
  have l4 : ((milenage E (a.opcOf E) a.key).f4 rand).length = 16 := by
    simp [milenage, mOut_length E hE _ _ _ hs.opc]
  have tk : ((milenage E (a.opcOf E) a.key).f2 rand ++ v.res.drop 8).take v.resLen =
      ((milenage E (a.opcOf E) a.key).f2 rand).take v.resLen :=
    List.take_append_of_le_length (by omega)
  have hg : milenageGenerate E (fun _ => false) (fun _ => false) (a.opcOf E) a.amf a.key (store6 next) rand 16 v =
      ({ v with
          res := (milenage E (a.opcOf E) a.key).f2 rand ++ v.res.drop 8
          ck := (milenage E (a.opcOf E) a.key).f3 rand
          ik := (milenage E (a.opcOf E) a.key).f4 rand
          autn := (milenage E (a.opcOf E) a.key).autn (store6 next) a.amf rand }, 8) := by
    rw [milenageGenerate, if_neg (by omega), milenageF1_spec E hE _ _ _ _ _ hs l6 ha.amf]
    simp only [milenageF2345_spec E hE _ _ _ hs, Bool.not_true, Bool.false_eq_true, if_false, if_true]
    rw [xorN_full _ _ 6 l6 (hw.f5 _), List.take_of_length_le (by rw [ha.amf]), Aka.autn]
  have hc2 := c2_spec ((milenage E (a.opcOf E) a.key).f2 rand ++ v.res.drop 8) v.resLen (by omega)
    (by rw [List.length_append, l2]; omega)
  rw [tk] at hc2
  have hgv : milenageGenVec E noFaults v a rand =
      (0, { v with
          res := (milenage E (a.opcOf E) a.key).f2 rand ++ v.res.drop 8
          ck := (milenage E (a.opcOf E) a.key).f3 rand
          ik := (milenage E (a.opcOf E) a.key).f4 rand
          autn := (milenage E (a.opcOf E) a.key).autn (store6 next) a.amf rand
          kc := kcOf ((milenage E (a.opcOf E) a.key).f3 rand) ((milenage E (a.opcOf E) a.key).f4 rand)
          sres := sresOf (((milenage E (a.opcOf E) a.key).f2 rand).take v.resLen)
          authTypes := 3 }, { a with sqn := next }) := by
    rw [milenageGenVec, if_neg (by rw [ha.kLen]; simp), if_neg (by rw [ha.opcLen]; simp),
      if_neg (by omega), noFaults, genOpc_spec E hE a ha]
    simp only [hq]
    simp only [Aud.key] at hg hc2 l3 l4 ⊢
    simp only [hg, hc2, Option.getD_some, c3_spec _ _ l3 l4]
  rw [osmoAuthGenVec2]
  simp only [hgv]
  refine ⟨_, rfl, ?_⟩
  exact ⟨List.take_of_length_le (by omega), rfl, tk, rfl, rfl, rfl, rfl, rfl, rfl⟩

/-- A vector of `osmo_auth_gen_vec2` is answered by a USIM with the same keys:
with the RES of the vector and the same CK and IK if its SQN is greater than the
one the USIM has seen last, and with AUTS otherwise; never with MAC failure. -/
theorem milenage_vector_accepted (E : Cipher) (hE : IsCipher E) (v v' : Vec) (a a' : Aud)
    (ha : a.Milenage) (rand : List Byte) (hr : rand.length = 16) (sqnMs : List Byte)
    (hg : osmoAuthGenVec2 (some (milenageGenVec E noFaults)) v a rand = (0, v', a')) :
    (milenage E (a.opcOf E) a.key).usim sqnMs v'.rand v'.autn =
      if a'.sqn.toNat % 2 ^ 48 ≤ beVal sqnMs then
        .syncFailure ((milenage E (a.opcOf E) a.key).auts sqnMs rand)
      else .ok ((milenage E (a.opcOf E) a.key).f2 rand) v'.ck v'.ik := by
  have hn : v.resLen = 4 ∨ v.resLen = 8 := by
    rcases Classical.em (v.resLen = 4 ∨ v.resLen = 8) with h | h
    · exact h
    · have : milenageGenVec E noFaults v a rand = (-22, v, a) := by
        rw [milenageGenVec, if_neg (by rw [ha.kLen]; simp), if_neg (by rw [ha.opcLen]; simp),
          if_pos (by omega)]
      rw [osmoAuthGenVec2] at hg
      simp only [this] at hg
      rw [if_pos (by decide)] at hg
      exact absurd (congrArg Prod.fst hg) (show ¬ ((-22 : Int) = 0) by decide)
  obtain ⟨next, hq⟩ : ∃ next, nextSqn a = .ok next := by
    cases hq : nextSqn a with
    | ok n => exact ⟨n, rfl⟩
    | error e =>
      exfalso
      rw [osmoAuthGenVec2] at hg
      have hneg : e < 0 := by
        rcases (nextSqn_error a e).1 hq with ⟨_, rfl⟩ | ⟨_, _, rfl⟩ <;> decide
      have : milenageGenVec E noFaults v a rand = (e, v, a) := by
        rw [milenageGenVec, if_neg (by rw [ha.kLen]; simp), if_neg (by rw [ha.opcLen]; simp),
          if_neg (by omega), noFaults, genOpc_spec E hE a ha]
        simp only [hq]
      simp only [this, if_pos hneg] at hg
      have := congrArg Prod.fst hg
      simp at this
      omega
  obtain ⟨w, hw, hv⟩ := milenage_gen_vec E hE v a ha rand hr hn next hq
  rw [hw] at hg
  obtain ⟨-, hg2⟩ := Prod.ext_iff.1 hg
  obtain ⟨rfl, rfl⟩ := Prod.ext_iff.1 hg2
  obtain ⟨l6, b6⟩ := store6_spec next
  have := Aka.usim_genuine (milenage_wf E hE (a.opcOf E) a.key (opcOf_length E hE a ha))
    (store6 next) a.amf rand sqnMs l6 ha.amf
  simp only [hv.hRand, hv.hAutn, hv.hCk, hv.hIk]
  rw [this, b6]

end Verif.Auth
