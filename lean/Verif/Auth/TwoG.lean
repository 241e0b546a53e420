import Verif.Auth.Claims
/-!
Claims about the conversions between GSM and UMTS security material and about
the 2G algorithms.
-/
namespace Verif.Auth

theorem list8 (y : List Byte) (h : y.length = 8) :
    ∃ a0 a1 a2 a3 a4 a5 a6 a7, y = [a0, a1, a2, a3, a4, a5, a6, a7] := by
  obtain ⟨a0, y0, rfl, h0⟩ := cons_of_length h
  obtain ⟨a1, y1, rfl, h1⟩ := cons_of_length h0
  obtain ⟨a2, y2, rfl, h2⟩ := cons_of_length h1
  obtain ⟨a3, y3, rfl, h3⟩ := cons_of_length h2
  obtain ⟨a4, y4, rfl, h4⟩ := cons_of_length h3
  obtain ⟨a5, y5, rfl, h5⟩ := cons_of_length h4
  obtain ⟨a6, y6, rfl, h6⟩ := cons_of_length h5
  obtain ⟨a7, y7, rfl, h7⟩ := cons_of_length h6
  obtain rfl := List.eq_nil_of_length_eq_zero h7
  exact ⟨a0, a1, a2, a3, a4, a5, a6, a7, rfl⟩

/-- TS 33.102 6.8.2.3: CK = Kc || Kc, IK = Kc1 xor Kc2 || Kc || Kc1 xor Kc2, for
the halves of Kc. -/
theorem c4_c5_spec (kc : List Byte) (h : kc.length = 8) :
    c4 kc = kc ++ kc ∧
    c5 kc = bx (kc.take 4) (kc.drop 4) ++ kc ++ bx (kc.take 4) (kc.drop 4) := by
  obtain ⟨a0, a1, a2, a3, a4, a5, a6, a7, rfl⟩ := list8 kc h
  have hr : List.range 4 = [0, 1, 2, 3] := rfl
  simp [c4, c5, bx, hr]

/-- The Kc that c3 makes of the CK and IK of c4 and c5 is the Kc they came from. -/
theorem c3_c4_c5 (kc : List Byte) (h : kc.length = 8) : c3 (c4 kc) (c5 kc) = kc := by
  obtain ⟨a0, a1, a2, a3, a4, a5, a6, a7, rfl⟩ := list8 kc h
  have hr : List.range 4 = [0, 1, 2, 3] := rfl
  have h8 : List.range 8 = [0, 1, 2, 3, 4, 5, 6, 7] := rfl
  have hx2 : ∀ x y : Byte, x ^^^ (x ^^^ y) = y := by
    intro x y
    rw [← BitVec.xor_assoc, BitVec.xor_self, BitVec.zero_xor]
  simp [c3, c4, c5, hr, h8, BitVec.xor_assoc, hx2]

/-- `osmo_auth_3g_from_2g` gives a vector that only has GSM material the keys of
TS 33.102 and changes nothing else; c3 leads back to the same Kc.  A vector with
UMTS material, or with nothing, stays as it is. -/
theorem auth_3g_from_2g (v : Vec) (h : v.kc.length = 8) :
    (v.authTypes = 1 → ∃ ck ik, auth3gFrom2g v = (true, { v with ck := ck, ik := ik }) ∧
      ck = v.kc ++ v.kc ∧
      ik = bx (v.kc.take 4) (v.kc.drop 4) ++ v.kc ++ bx (v.kc.take 4) (v.kc.drop 4) ∧
      c3 ck ik = v.kc) ∧
    (v.authTypes = 0 ∨ v.authTypes = 2 ∨ v.authTypes = 3 → auth3gFrom2g v = (false, v)) := by
  constructor
  · intro ht
    refine ⟨c4 v.kc, c5 v.kc, ?_, (c4_c5_spec _ h).1, (c4_c5_spec _ h).2, c3_c4_c5 _ h⟩
    rw [auth3gFrom2g, ht]
    rfl
  · rintro (ht | ht | ht) <;> rw [auth3gFrom2g, ht] <;> rfl

/-- `osmo_auth_c2`: derivation #1 is c2 of TS 33.102, #2 the first four bytes;
more than 16 bytes of RES, or another derivation, end in an assertion. -/
theorem c2_claim (res : List Byte) (n f : Nat) (hl : n ≤ res.length) :
    (n ≤ 16 → f = 1 → c2 res n f = some (sresOf (res.take n))) ∧
    (n ≤ 16 → f = 2 → 4 ≤ n → c2 res n f = some (res.take 4)) ∧
    (16 < n ∨ (f ≠ 1 ∧ f ≠ 2) → c2 res n f = none) := by
  refine ⟨fun hn hf => ?_, fun hn hf h4 => ?_, fun h => ?_⟩
  · subst hf; exact c2_spec res n hn hl
  · subst hf
    rw [c2, if_neg (by simp), if_neg (by omega), if_neg (by decide)]
    rw [List.take_append_of_le_length (by simp; omega), List.take_take, Nat.min_eq_left h4]
  · rw [c2]
    split
    · rfl
    · rw [if_pos (by omega)]

/-- `gsm_milenage` gives the SRES and the Kc of the vector that
`osmo_auth_gen_vec2` makes with the same keys and RAND (and 8 bytes of RES), so
a card that can only do GSM agrees with the network. -/
theorem gsm_milenage_agrees (E : Cipher) (hE : IsCipher E) (v v' : Vec) (a a' : Aud) (ha : a.Milenage)
    (rand : List Byte) (hr : rand.length = 16) (hn : v.resLen = 8) (next : BitVec 64)
    (hq : nextSqn a = .ok next)
    (hg : osmoAuthGenVec2 (some (milenageGenVec E noFaults)) v a rand = (0, v', a')) :
    gsmMilenage E (fun _ => false) (a.opcOf E) a.key rand = some (v'.sres, v'.kc) := by
  obtain ⟨w, hw, hv⟩ := milenage_gen_vec E hE v a ha rand hr (.inr hn) next hq
  rw [hw] at hg
  obtain ⟨-, hg2⟩ := Prod.ext_iff.1 hg
  obtain ⟨rfl, -⟩ := Prod.ext_iff.1 hg2
  have hs : Sizes (a.opcOf E) rand := ⟨opcOf_length E hE a ha, hr⟩
  have l2 : ((milenage E (a.opcOf E) a.key).f2 rand).length = 8 := by
    simp [milenage, mOut_length E hE _ _ _ hs.opc]
  have l3 : ((milenage E (a.opcOf E) a.key).f3 rand).length = 16 := by
    simp [milenage, mOut_length E hE _ _ _ hs.opc]
  have l4 : ((milenage E (a.opcOf E) a.key).f4 rand).length = 16 := by
    simp [milenage, mOut_length E hE _ _ _ hs.opc]
  have r8 : (milenage E (a.opcOf E) a.key).f2 rand ++ List.drop 8 (List.replicate 8 0#8) =
      (milenage E (a.opcOf E) a.key).f2 rand := by simp
  have hc2 := c2_spec ((milenage E (a.opcOf E) a.key).f2 rand) 8 (by omega) (by omega)
  rw [gsmMilenage]
  simp only [milenageF2345_spec E hE _ _ _ hs, Bool.not_true, Bool.false_eq_true, if_false, if_true,
    r8, hc2, c3_spec _ _ l3 l4]
  rw [hv.hSres, hv.hKc, hn]

/-- XOR-2G (TS 51.010-1 A.4.1.2): SRES is the first 32 bits of Ki xor RAND, Kc
the next 64; other subscribers than GSM ones are refused, and nothing but SRES,
Kc, RAND and the type changes. -/
theorem xor2g_gen_vec (v : Vec) (a : Aud) (rand : List Byte) (hr : rand.length = 16)
    (hk : a.ki.length = 16) :
    (a.type = .gsm → ∃ v', osmoAuthGenVec2 (some xor2gGenVec) v a rand = (0, v', a) ∧
      v'.sres ++ v'.kc = (bx a.ki rand).take 12 ∧ v'.sres.length = 4 ∧ v'.kc.length = 8 ∧
      v' = { v with rand := rand, sres := v'.sres, kc := v'.kc, authTypes := 1 }) ∧
    (a.type ≠ .gsm → osmoAuthGenVec2 (some xor2gGenVec) v a rand = (-95, v, a)) := by
  constructor
  · intro ht
    rw [osmoAuthGenVec2]
    simp only [xor2gGenVec, ht, ne_eq, not_true_eq_false, if_false, xorN_full _ _ 16 hk hr]
    have l : (bx a.ki rand).length = 16 := by rw [bx_length]; omega
    refine ⟨_, rfl, ?_, by simp [l], by simp [l], ?_⟩
    · show (bx a.ki rand).take 4 ++ ((bx a.ki rand).drop 4).take 8 = _
      rw [← List.take_add]
    · rw [List.take_of_length_le (l := rand) (by omega)]
  · intro ht
    rw [osmoAuthGenVec2]
    simp only [xor2gGenVec, ne_eq, ht, not_false_eq_true, if_true]
    rfl

/-- The conversions on numbers: a Kc of 1..8. -/
example : c4 [1#8, 2#8, 3#8, 4#8, 5#8, 6#8, 7#8, 8#8] =
      [1#8, 2#8, 3#8, 4#8, 5#8, 6#8, 7#8, 8#8, 1#8, 2#8, 3#8, 4#8, 5#8, 6#8, 7#8, 8#8] ∧
    c5 [1#8, 2#8, 3#8, 4#8, 5#8, 6#8, 7#8, 8#8] =
      [4#8, 4#8, 4#8, 12#8, 1#8, 2#8, 3#8, 4#8, 5#8, 6#8, 7#8, 8#8, 4#8, 4#8, 4#8, 12#8] := by
  decide

example : c2 [1#8, 2#8, 3#8, 4#8, 16#8, 32#8, 48#8, 64#8] 8 1 = some [17#8, 34#8, 51#8, 68#8] := by
  decide

end Verif.Auth
