import Verif.Auth.Resync
import Mathlib.Data.List.Forall2
/-!
Claims about the sequence numbers of many vectors, as a USIM with one SEQ for
every IND (TS 33.102 annex C.2) sees them.
-/
namespace Verif.Auth
open Verif.Endian (beVal)

/-- TS 33.102 C.2.2: a USIM keeps the highest SEQ accepted for every IND, and
accepts an SQN if its SEQ is higher.  Whether it accepts all of a list of SQNs. -/
def usimTakesAll (b : Nat) : (Nat → Nat) → List Nat → Prop
  | _, [] => True
  | arr, q :: qs => arr (q % 2 ^ b) < q / 2 ^ b ∧
      usimTakesAll b (fun j => if j = q % 2 ^ b then q / 2 ^ b else arr j) qs

/-- It does if the SQNs of every IND come with rising SEQ. -/
theorem usimTakesAll_of_slots (b : Nat) (arr : Nat → Nat) (qs : List Nat)
    (h : ∀ j, (arr j :: (qs.filter fun q => q % 2 ^ b = j).map (· / 2 ^ b)).Pairwise (· < ·)) :
    usimTakesAll b arr qs := by
  induction qs generalizing arr with
  | nil => trivial
  | cons q qs ih =>
    have hq := h (q % 2 ^ b)
    simp only [List.filter_cons, decide_true, if_true, List.map_cons] at hq
    refine ⟨(List.pairwise_cons.1 hq).1 _ (by simp), ih _ fun j => ?_⟩
    by_cases hj : j = q % 2 ^ b
    · subst hj
      simp only [if_true]
      exact (List.pairwise_cons.1 hq).2
    · have := h j
      simp only [List.filter_cons, decide_eq_true_eq] at this
      rw [if_neg (fun e => hj e.symm)] at this
      simp only [hj, if_false]
      exact this

/-- A request for a vector: for which IND, with which RAND. -/
structure Req where
  ind : BitVec 32
  rand : List Byte

/-- Vectors asked for one after the other with `osmo_auth_gen_vec2`, the key data
of one handed on to the next; `none` if one of them is refused. -/
def genMany (E : Cipher) (v : Vec) : Aud → List Req → Option (List Vec × List Nat)
  | _, [] => some ([], [])
  | a, r :: rs =>
    match osmoAuthGenVec2 (some (milenageGenVec E noFaults)) v { a with ind := r.ind } r.rand with
    | (rc, v', a') =>
      if rc ≠ 0 then none else
      match genMany E v a' rs with
      | none => none
      | some (vs, qs) => some (v' :: vs, a'.sqn.toNat :: qs)

/-- Asking for vectors never fails while there is room in the 48 bits; the SEQs
count up by one, the INDs are those asked for, and each vector carries its SQN. -/
theorem genMany_spec (E : Cipher) (hE : IsCipher E) (v : Vec) (hn : v.resLen = 4 ∨ v.resLen = 8)
    (rs : List Req) (a : Aud) (ha : a.Milenage) (hb : a.indBitlen ≤ 28)
    (hr : ∀ r ∈ rs, r.ind.toNat < 2 ^ a.indBitlen ∧ r.rand.length = 16)
    (hroom : a.sqn.toNat / 2 ^ a.indBitlen + rs.length < 2 ^ (48 - a.indBitlen)) :
    ∃ vs qs, genMany E v a rs = some (vs, qs) ∧ vs.length = rs.length ∧
      qs.map (· / 2 ^ a.indBitlen) =
        (List.range rs.length).map (fun i => a.sqn.toNat / 2 ^ a.indBitlen + (i + 1)) ∧
      qs.map (· % 2 ^ a.indBitlen) = rs.map (fun r => r.ind.toNat) ∧
      List.Forall₂ (fun w q => ∃ bs : List Byte, beVal bs = q ∧ bs.length = 6 ∧
        w.autn = (milenage E (a.opcOf E) a.key).autn bs a.amf w.rand) vs qs := by
  induction rs generalizing a with
  | nil => exact ⟨[], [], rfl, rfl, rfl, rfl, List.Forall₂.nil⟩
  | cons r rs ih =>
    have hp0 : 0 < 2 ^ a.indBitlen := Nat.two_pow_pos _
    have hp : 2 ^ a.indBitlen ≤ 2 ^ 28 := Nat.pow_le_pow_right (by omega) hb
    obtain ⟨hi, hl⟩ := hr r (by simp)
    have hdvd : 2 ^ 48 = 2 ^ (48 - a.indBitlen) * 2 ^ a.indBitlen := by
      rw [← Nat.pow_add]; congr 1; omega
    simp only [List.length_cons] at hroom
    have hmul := Nat.mul_le_mul_right (2 ^ a.indBitlen)
      (show a.sqn.toNat / 2 ^ a.indBitlen + 2 ≤ 2 ^ (48 - a.indBitlen) by omega)
    rw [← hdvd, Nat.add_mul] at hmul
    have hlt := Nat.lt_div_mul_add (a := a.sqn.toNat) hp0
    have ha2 : ({ a with ind := r.ind } : Aud).Milenage := ⟨ha.opc, ha.k, ha.amf, ha.kLen, ha.opcLen⟩
    obtain ⟨n, hq, hnv⟩ := nextSqn_ok { a with ind := r.ind } hb hi (by simp only; omega)
    simp only at hnv
    obtain ⟨v', hg, hv⟩ := milenage_gen_vec E hE v { a with ind := r.ind } ha2 r.rand hl hn n hq
    have hdiv : n.toNat / 2 ^ a.indBitlen = a.sqn.toNat / 2 ^ a.indBitlen + 1 := by
      rw [hnv, Nat.mul_comm, Nat.mul_add_div hp0, Nat.div_eq_of_lt hi, Nat.add_zero]
    have hmod : n.toNat % 2 ^ a.indBitlen = r.ind.toNat := by
      rw [hnv, Nat.mul_comm, Nat.mul_add_mod, Nat.mod_eq_of_lt hi]
    have hlt48 : n.toNat % 2 ^ 48 = n.toNat := by
      apply Nat.mod_eq_of_lt
      rw [hnv, Nat.add_mul]
      omega
    obtain ⟨vs, qs, e1, e2, e3, e4, e5⟩ := ih { { a with ind := r.ind } with sqn := n }
      ⟨ha.opc, ha.k, ha.amf, ha.kLen, ha.opcLen⟩ hb (fun r' h' => hr r' (by simp [h']))
      (by simp only [hdiv]; omega)
    simp only [hdiv] at e3 e4 e5
    refine ⟨v' :: vs, n.toNat :: qs, ?_, by simp [e2], ?_, ?_, ?_⟩
    · rw [genMany, hg]
      simp only [ne_eq, not_true_eq_false, if_false, e1]
    · rw [List.map_cons, e3, hdiv, List.length_cons, List.range_succ_eq_map, List.map_cons, List.map_map]
      congr 1
      apply List.map_congr_left
      intro i _
      simp only [Function.comp]
      omega
    · rw [List.map_cons, e4, hmod, List.map_cons]
    · refine List.Forall₂.cons ⟨store6 n, ?_, (store6_spec n).1, ?_⟩ e5
      · rw [(store6_spec n).2, hlt48]
      · rw [hv.hAutn, hv.hRand]
        rfl

/-- **Vectors stay usable**: of any number of vectors asked for, for any INDs, a
USIM with an array of SEQs accepts all that reach it, whichever are lost, and
in any order that keeps the order of those with the same IND. -/
theorem vectors_usable (E : Cipher) (hE : IsCipher E) (v : Vec) (hn : v.resLen = 4 ∨ v.resLen = 8)
    (rs : List Req) (a : Aud) (ha : a.Milenage) (hb : a.indBitlen ≤ 28)
    (hr : ∀ r ∈ rs, r.ind.toNat < 2 ^ a.indBitlen ∧ r.rand.length = 16)
    (hroom : a.sqn.toNat / 2 ^ a.indBitlen + rs.length < 2 ^ (48 - a.indBitlen))
    (arr : Nat → Nat) (harr : ∀ j, arr j ≤ a.sqn.toNat / 2 ^ a.indBitlen) :
    ∃ vs qs, genMany E v a rs = some (vs, qs) ∧
      ∀ sent : List Nat,
        (∀ j, List.Sublist (sent.filter fun q => q % 2 ^ a.indBitlen = j)
          (qs.filter fun q => q % 2 ^ a.indBitlen = j)) →
        usimTakesAll a.indBitlen arr sent := by
  obtain ⟨vs, qs, h1, _, h3, _, _⟩ := genMany_spec E hE v hn rs a ha hb hr hroom
  refine ⟨vs, qs, h1, fun sent hs => usimTakesAll_of_slots _ _ _ fun j => ?_⟩
  have hpw : (qs.map (· / 2 ^ a.indBitlen)).Pairwise (· < ·) := by
    rw [h3, List.pairwise_map]
    exact List.pairwise_lt_range.imp (by intro x y hxy; omega)
  have hgt : ∀ s ∈ qs.map (· / 2 ^ a.indBitlen), a.sqn.toNat / 2 ^ a.indBitlen < s := by
    rw [h3]
    intro s hs
    obtain ⟨i, _, rfl⟩ := List.mem_map.1 hs
    omega
  have hsub : List.Sublist ((sent.filter fun q => q % 2 ^ a.indBitlen = j).map (· / 2 ^ a.indBitlen))
      (qs.map (· / 2 ^ a.indBitlen)) := by
    exact ((hs j).trans List.filter_sublist).map _
  refine List.pairwise_cons.2 ⟨fun s hm => ?_, hpw.sublist hsub⟩
  exact Nat.lt_of_le_of_lt (harr j) (hgt s (hsub.subset hm))

/-- When the 48 bits are used up the SQN sent starts from zero again, with no
error, and no USIM accepts it. -/
theorem sqn_wraps_counterexample :
    ∃ a : Aud, a.Milenage ∧ a.sqn.toNat = 2 ^ 48 - 1 ∧
      ∀ E : Cipher, IsCipher E → ∀ v : Vec, v.resLen = 8 → ∀ rand : List Byte, rand.length = 16 →
        ∃ v' a', osmoAuthGenVec2 (some (milenageGenVec E noFaults)) v a rand = (0, v', a') ∧
          v'.autn = (milenage E (a.opcOf E) a.key).autn (List.replicate 6 0#8) a.amf rand ∧
          ∀ sqnMs, (milenage E (a.opcOf E) a.key).usim sqnMs rand v'.autn =
            .syncFailure ((milenage E (a.opcOf E) a.key).auts sqnMs rand) := by
  refine ⟨⟨.umts, List.replicate 32 0#8, 16, List.replicate 32 0#8, 16, [0#8, 0#8], 0xffffffffffff#64,
    false, 0, 0#32, 0#64, []⟩, ⟨rfl, rfl, rfl, rfl, rfl⟩, rfl, ?_⟩
  intro E hE v hn rand hr
  have hm : Aud.Milenage ⟨.umts, List.replicate 32 0#8, 16, List.replicate 32 0#8, 16, [0#8, 0#8], 0xffffffffffff#64,
    false, 0, 0#32, 0#64, []⟩ := ⟨rfl, rfl, rfl, rfl, rfl⟩
  obtain ⟨v', hg, hv⟩ := milenage_gen_vec E hE v _ hm rand hr (.inr hn) 0x1000000000000#64 rfl
  refine ⟨v', _, hg, hv.hAutn, fun sqnMs => ?_⟩
  have := milenage_vector_accepted E hE v v' _ _ hm rand hr sqnMs hg
  rw [hv.hRand] at this
  rw [this]
  exact if_pos (Nat.zero_le _)

/-- Not an empty claim: three vectors for two INDs of a subscriber with 5 bits
of IND. -/
example : ∃ a : Aud, a.Milenage ∧ a.indBitlen = 5 ∧ a.sqn.toNat = 97 ∧
    (∀ n, nextSqn { a with ind := 2#32 } = .ok n → n.toNat = 130) :=
  ⟨⟨.umts, List.replicate 32 0#8, 16, List.replicate 32 0#8, 16, [0#8, 0#8], 97#64,
    false, 5, 1#32, 0#64, []⟩, ⟨rfl, rfl, rfl, rfl, rfl⟩, rfl, rfl, by
      intro n h
      have : nextSqn ⟨.umts, List.replicate 32 0#8, 16, List.replicate 32 0#8, 16, [0#8, 0#8], 97#64,
        false, 5, 2#32, 0#64, []⟩ = .ok 130#64 := rfl
      rw [this] at h
      cases h
      rfl⟩

example : usimTakesAll 5 (fun _ => 0) [32, 64, 33] := by
  refine ⟨?_, ?_, ?_, trivial⟩ <;> decide

example : ¬ usimTakesAll 5 (fun _ => 0) [32, 96, 64] := by
  rintro ⟨_, _, h, _⟩
  exact absurd h (by decide)

end Verif.Auth
