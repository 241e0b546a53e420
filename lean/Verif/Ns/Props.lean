import Verif.Ns.Model
/-!
Properties of the validation of NS messages (C166).
-/
namespace Verif.Ns

/-- An element of at least `n` octets is there. -/
def Has (tp : Parsed) (tag : Nat) (n : Nat) : Prop := ∃ v, tp (BitVec.ofNat 8 tag) = some v ∧ n ≤ v.length

theorem presLen_iff (tp : Parsed) (tag : Byte) (n : Nat) : presLen tp tag n = true ↔ Has tp tag.toNat n := by
  unfold presLen Has
  rw [BitVec.ofNat_toNat, BitVec.setWidth_eq]
  cases tp tag <;> simp

/-- 3GPP TS 48.016, 9.2: the elements a message must have, with the lengths the
library uses: cause 0, NS-VCI 1, NSEI 4. -/
def mandatory (type : Nat) : List (Nat × Nat) :=
  if type = 2 then [(0, 1), (1, 2), (4, 2)]
  else if type = 3 then [(1, 2), (4, 2)]
  else if type = 4 then [(1, 2), (0, 1)]
  else if type = 5 then [(1, 2)]
  else []

/-- **C166a.** Reset, reset acknowledge, block and block acknowledge are accepted
exactly if they have all of their elements; otherwise the cause is "missing
essential element". -/
theorem validate_mandatory (br : Bool) (type : Byte) (n : Nat) (tp : Parsed)
    (ht : type.toNat = 2 ∨ type.toNat = 3 ∨ type.toNat = 4 ∨ type.toNat = 5) :
    (validate br type n tp = none ↔ ∀ e ∈ mandatory type.toNat, Has tp e.1 e.2) ∧
    (validate br type n tp = none ∨ validate br type n tp = some 0x0d#8) := by
  have p := fun tag k => presLen_iff tp tag k
  have key : ∀ k : Nat, k < 256 → type.toNat = k → type = BitVec.ofNat 8 k := by
    intro k hk h; rw [← h, BitVec.ofNat_toNat, BitVec.setWidth_eq]
  have p00 := p 0x00#8 1
  have p01 := p 0x01#8 2
  have p04 := p 0x04#8 2
  rcases ht with h | h | h | h <;> (
    have e := key _ (by decide) h
    subst e
    constructor
    · simp [validate, validateReset, validateResetAck, validateBlock, validateBlockAck, mandatory, p00, p01, p04, and_assoc]
    · simp only [validate, validateReset, validateResetAck, validateBlock, validateBlockAck]
      cases presLen tp 0x00#8 1 <;> cases presLen tp 0x01#8 2 <;> cases presLen tp 0x04#8 2 <;> simp)

/-- **C166b.** The messages without elements are accepted exactly if they are one
octet long. -/
theorem validate_empty (br : Bool) (type : Byte) (n : Nat) (tp : Parsed)
    (ht : type ∈ [0x06#8, 0x07#8, 0x0a#8, 0x0b#8]) :
    validate br type n tp = if n = 1 then none else some 0x0b#8 := by
  simp only [List.mem_cons, List.not_mem_nil, or_false] at ht
  rcases ht with rfl | rfl | rfl | rfl <;> (by_cases h : n = 1 <;> simp [validate, h])

/-- What a status message with the cause must have besides it. -/
def StatusNeeds (tp : Parsed) (cause : Nat) : Prop :=
  ((cause = 3 ∨ cause = 4) → Has tp 1 1) ∧
  ((cause = 8 ∨ (10 ≤ cause ∧ cause ≤ 13)) → Has tp 2 1) ∧
  (cause = 5 → Has tp 3 2) ∧
  (cause = 20 → Has tp 5 0 ∨ Has tp 6 0)

/-- **C166c.** A status message with the cause `c` is accepted exactly if it has
the element that belongs to its cause, and, for a cause about the NS-VC, if that
is one with block and reset. -/
theorem validate_status (br : Bool) (n : Nat) (tp : Parsed) (c : Byte) (rest : List Byte)
    (hc : tp 0x00#8 = some (c :: rest)) :
    (validate br 0x08#8 n tp = none ↔
      StatusNeeds tp c.toNat ∧ ((c.toNat = 3 ∨ c.toNat = 4) → br = true)) := by
  have h0 : presLen tp 0x00#8 1 = true := by simp [presLen, hc]
  have hv : val8 tp 0x00#8 0#8 = c := by simp [val8, hc]
  have t : ∀ k : Nat, k < 256 → (c = BitVec.ofNat 8 k ↔ c.toNat = k) := by
    intro k hk
    rw [← BitVec.toNat_inj, BitVec.toNat_ofNat, Nat.mod_eq_of_lt hk]
  have q1 := presLen_iff tp 0x01#8 1
  have q2 := presLen_iff tp 0x02#8 1
  have q3 := presLen_iff tp 0x03#8 2
  have q5 : (tp 0x05#8).isNone = true ↔ ¬ Has tp 5 0 := by
    unfold Has; cases h : tp 0x05#8 <;> simp [h]
  have q6 : (tp 0x06#8).isNone = true ↔ ¬ Has tp 6 0 := by
    unfold Has; cases h : tp 0x06#8 <;> simp [h]
  have e : validate br 0x08#8 n tp = validateStatus br tp := by simp [validate]
  rw [e]
  unfold validateStatus StatusNeeds
  simp only [h0, hv, Bool.not_true, Bool.false_eq_true, if_false]
  simp only [t 3 (by decide), t 4 (by decide), t 8 (by decide), t 0xa (by decide), t 0xb (by decide),
    t 0xc (by decide), t 0xd (by decide), t 5 (by decide), t 0x14 (by decide)]
  generalize c.toNat = k
  by_cases h34 : k = 3 ∨ k = 4
  · rw [if_pos h34]
    have : ¬ (k = 8 ∨ (10 ≤ k ∧ k ≤ 13)) := by omega
    have : k ≠ 5 := by omega
    have : k ≠ 20 := by omega
    have q1' : presLen tp 0x01#8 1 = true ↔ Has tp 1 1 := q1
    cases hp : presLen tp 0x01#8 1
    · rw [hp] at q1'; simp at q1'; simp [*]
    · rw [hp] at q1'; simp at q1'; cases br <;> simp [*]
  · rw [if_neg h34]
    by_cases hpdu : k = 8 ∨ k = 0xa ∨ k = 0xb ∨ k = 0xc ∨ k = 0xd
    · rw [if_pos hpdu]
      have : (k = 8 ∨ (10 ≤ k ∧ k ≤ 13)) := by omega
      have : k ≠ 5 := by omega
      have : k ≠ 20 := by omega
      have q2' : presLen tp 0x02#8 1 = true ↔ Has tp 2 1 := q2
      cases hp : presLen tp 0x02#8 1 <;> (rw [hp] at q2'; simp at q2'; simp [*])
    · rw [if_neg hpdu]
      have : ¬ (k = 8 ∨ (10 ≤ k ∧ k ≤ 13)) := by omega
      by_cases h5 : k = 5
      · rw [if_pos h5]
        have : k ≠ 20 := by omega
        have q3' : presLen tp 0x03#8 2 = true ↔ Has tp 3 2 := q3
        cases hp : presLen tp 0x03#8 2 <;> (rw [hp] at q3'; simp at q3'; simp [*])
      · rw [if_neg h5]
        by_cases h20 : k = 0x14
        · rw [if_pos h20]
          by_cases a : Has tp 5 0 <;> by_cases b : Has tp 6 0 <;> simp_all
        · rw [if_neg h20]
          exact ⟨fun _ => ⟨⟨fun a => absurd a h34, fun a => absurd a this, fun a => absurd a h5,
            fun a => absurd a h20⟩, fun a => absurd a h34⟩, fun _ => rfl⟩

/-- Without a cause a status message is refused. -/
theorem validate_status_no_cause (br : Bool) (n : Nat) (tp : Parsed) (h : ¬ Has tp 0 1) :
    validate br 0x08#8 n tp = some 0x0d#8 := by
  have : presLen tp 0x00#8 1 = false := by
    rw [← Bool.not_eq_true, presLen_iff]; exact h
  simp [validate, validateStatus, this]

/-- All other types pass. -/
theorem validate_other (br : Bool) (type : Byte) (n : Nat) (tp : Parsed)
    (ht : type = 0#8 ∨ type = 1#8 ∨ type = 9#8 ∨ 12 ≤ type.toNat) : validate br type n tp = none := by
  have k : type.toNat ∉ [2, 3, 4, 5, 6, 7, 8, 10, 11] := by
    rcases ht with rfl | rfl | rfl | h
    · decide
    · decide
    · decide
    · simp; omega
  have t : ∀ k : Nat, k < 256 → (type = BitVec.ofNat 8 k ↔ type.toNat = k) := by
    intro k hk
    rw [← BitVec.toNat_inj, BitVec.toNat_ofNat, Nat.mod_eq_of_lt hk]
  simp only [List.mem_cons, List.not_mem_nil, or_false, not_or] at k
  simp only [validate, t 2 (by decide), t 3 (by decide), t 4 (by decide), t 5 (by decide), t 8 (by decide),
    t 10 (by decide), t 11 (by decide), t 6 (by decide), t 7 (by decide)]
  simp [k]

/-- A status about an NS-VC is accepted with an NS-VCI of one octet, although it
has two (gprs_ns2_message.c:102). -/
theorem short_vci_counterexample : ∃ tp : Parsed, tp 0x01#8 = some [7#8] ∧ ¬ Has tp 1 2 ∧
    validate true 0x08#8 6 tp = none := by
  refine ⟨fun t => if t = 0x00#8 then some [0x03#8] else if t = 0x01#8 then some [7#8] else none, by decide, ?_, by decide⟩
  rintro ⟨v, h1, h2⟩
  have : v = [7#8] := by
    have h3 : (some [7#8] : Option (List Byte)) = some v := h1
    exact (Option.some.inj h3).symm
  rw [this] at h2
  simp at h2

/-- **C166d.** The status sent for a message that is rejected says the cause, has
the NS-VCI for the causes about an NS-VC, and the message itself for the causes
about the protocol. -/
theorem reject_spec (orig : List Byte) (tp : Parsed) (cause : Byte) :
    ((reject orig tp cause).isNone ↔ (cause.toNat = 3 ∨ cause.toNat = 4) ∧ ¬ Has tp 1 2) ∧
    ∀ es, reject orig tp cause = some es →
      es.lookup 0x00#8 = some [cause] ∧
      es.lookup 0x01#8 = (if cause.toNat = 3 ∨ cause.toNat = 4 then (tp 0x01#8).map (·.take 2) else none) ∧
      es.lookup 0x02#8 = (if cause.toNat = 8 ∨ (10 ≤ cause.toNat ∧ cause.toNat ≤ 13) then some orig else none) ∧
      es.length ≤ 2 := by
  have t : ∀ k : Nat, k < 256 → (cause = BitVec.ofNat 8 k ↔ cause.toNat = k) := by
    intro k hk
    rw [← BitVec.toNat_inj, BitVec.toNat_ofNat, Nat.mod_eq_of_lt hk]
  have q : presLen tp 0x01#8 2 = true ↔ Has tp 1 2 := presLen_iff tp 0x01#8 2
  unfold reject
  simp only [t 3 (by decide), t 4 (by decide), t 8 (by decide), t 0xa (by decide), t 0xb (by decide),
    t 0xc (by decide), t 0xd (by decide)]
  generalize hk : cause.toNat = k
  by_cases h34 : k = 3 ∨ k = 4
  · have n1 : ¬ (k = 8 ∨ k = 0xa ∨ k = 0xb ∨ k = 0xc ∨ k = 0xd) := by omega
    have n2 : ¬ (k = 8 ∨ (10 ≤ k ∧ k ≤ 13)) := by omega
    simp only [if_pos h34, if_neg n1, if_neg n2]
    cases hp : presLen tp 0x01#8 2
    · rw [hp] at q; simp at q
      simp [h34, q]
    · rw [hp] at q; simp at q
      obtain ⟨v, h1, h2⟩ := q
      have h1' : tp 0x01#8 = some v := h1
      have hq : Has tp 1 2 := ⟨v, h1, h2⟩
      simp only [h1', Bool.not_true, Bool.false_eq_true, if_false, Option.map_some]
      refine ⟨by simp [hq], ?_⟩
      rintro es he
      cases he
      refine ⟨rfl, rfl, rfl, by simp⟩
  · simp only [if_neg h34]
    by_cases hpdu : k = 8 ∨ k = 0xa ∨ k = 0xb ∨ k = 0xc ∨ k = 0xd
    · have n2 : (k = 8 ∨ (10 ≤ k ∧ k ≤ 13)) := by omega
      simp only [if_pos hpdu, if_pos n2, Option.map_some]
      refine ⟨by simp [h34], ?_⟩
      rintro es he
      cases he
      exact ⟨rfl, rfl, rfl, by simp⟩
    · have n2 : ¬ (k = 8 ∨ (10 ≤ k ∧ k ≤ 13)) := by omega
      simp only [if_neg hpdu, if_neg n2, Option.map_some]
      refine ⟨by simp [h34], ?_⟩
      rintro es he
      cases he
      exact ⟨rfl, rfl, rfl, by simp⟩

/-- **C166e.** The peer accepts that status, if the causes that require other
elements (BVCI unknown, IP test failed) are not used, and its NS-VC is one with
block and reset for causes about it. -/
theorem reject_accepted_partial (br : Bool) (n : Nat) (orig : List Byte) (tp : Parsed) (cause : Byte)
    (es : List (Byte × List Byte)) (h : reject orig tp cause = some es) (ho : orig ≠ [])
    (h5 : cause.toNat ≠ 5) (h20 : cause.toNat ≠ 20) (hb : (cause.toNat = 3 ∨ cause.toNat = 4) → br = true) :
    validate br 0x08#8 n (fun t => es.lookup t) = none := by
  obtain ⟨hn, hs⟩ := reject_spec orig tp cause
  obtain ⟨l0, l1, l2, _⟩ := hs es h
  rw [validate_status br n _ cause [] l0]
  refine ⟨⟨?_, ?_, fun e => absurd e h5, fun e => absurd e h20⟩, hb⟩
  · intro h34
    have : Has tp 1 2 := by
      have hn' := mt hn.mpr (by rw [h]; simp)
      exact Classical.not_not.mp fun hh => hn' ⟨h34, hh⟩
    obtain ⟨v, h1, h2⟩ := this
    have h1' : tp 0x01#8 = some v := h1
    rw [if_pos h34, h1'] at l1
    exact ⟨v.take 2, l1, by rw [List.length_take]; omega⟩
  · intro hp
    rw [if_pos hp] at l2
    exact ⟨orig, l2, List.length_pos_iff.mpr ho⟩

/-- A reset with cause, NS-VCI and NSEI, and one without the NSEI. -/
example : validate true 0x02#8 12 (fun t => [(0x00#8, [1#8]), (0x01#8, [0#8, 5#8]), (0x04#8, [0#8, 9#8])].lookup t) = none := by
  decide
example : validate true 0x02#8 8 (fun t => [(0x00#8, [1#8]), (0x01#8, [0#8, 5#8])].lookup t) = some 0x0d#8 := by
  decide
example : reject [0x04#8] (fun _ => none) 0x0d#8 = some [(0x00#8, [0x0d#8]), (0x02#8, [0x04#8])] := by decide

end Verif.Ns
