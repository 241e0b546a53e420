import Verif.Conv.Model
import Mathlib.Tactic.Linarith
import Mathlib.Tactic.Ring
/-!
The convolutional encoder (C37).
-/
namespace Verif.Conv
open Verif

/-! ### What the encoder is meant to produce -/

/-- The lowest `k` bits of a symbol, highest first. -/
def symBits (out : Nat) : Nat → List Bool
  | 0 => []
  | k + 1 => out.testBit k :: symBits out k

/-- The coded bits before puncturing: the output symbols along the walk through
the states. -/
def stream (c : Code) : Nat → List Bool → List Bool
  | _, [] => []
  | s, b :: bs => symBits (c.nextOutput s b) c.N ++ stream c (c.nextState s b) bs

/-- The state reached. -/
def endState (c : Code) (s : Nat) (bits : List Bool) : Nat := bits.foldl c.nextState s

/-- Coded bits of `n` termination steps. -/
def flushStream (c : Code) : Nat → Nat → List Bool
  | 0, _ => []
  | n + 1, s => symBits (termOut c s) c.N ++ flushStream c n (termNext c s)

/-- The state reached after `n` termination steps. -/
def flushState (c : Code) : Nat → Nat → Nat
  | 0, s => s
  | n + 1, s => flushState c n (termNext c s)

/-- The bits, the first of which is at position `r`, without those at the
positions in `P`. -/
def keep (P : List Nat) : Nat → List Bool → List Bool
  | _, [] => []
  | r, b :: bs => if r ∈ P then keep P (r + 1) bs else b :: keep P (r + 1) bs

/-- The positions to be punctured. -/
def Code.positions (c : Code) : List Nat := c.puncture.getD []

/-- The state the encoder starts in: the last `K - 1` bits for tail biting. -/
def startState (c : Code) (bits : List Bool) : Nat :=
  if c.term = .tailBiting then (loadState encInit (bits.drop (c.len + 1 - c.K))).state else 0

/-- All coded bits before puncturing. -/
def coded (c : Code) (bits : List Bool) : List Bool :=
  stream c (startState c bits) bits ++
  if c.term = .flush then flushStream c (c.K - 1) (endState c (startState c bits) bits) else []

/-! ### Puncturing -/

theorem keep_append (P : List Nat) (a b : List Bool) (r : Nat) :
    keep P r (a ++ b) = keep P r a ++ keep P (r + a.length) b := by
  induction a generalizing r with
  | nil => simp [keep]
  | cons x xs ih =>
    simp only [List.cons_append, keep, List.length_cons]
    rw [ih (r + 1), show r + 1 + xs.length = r + (xs.length + 1) by omega]
    split <;> rfl

theorem keep_nil (r : Nat) (a : List Bool) : keep [] r a = a := by
  induction a generalizing r with
  | nil => rfl
  | cons x xs ih => simp only [keep, ih]; simp

theorem symBits_length (out k : Nat) : (symBits out k).length = k := by
  induction k with
  | zero => rfl
  | succ k ih => simp [symBits, ih]

theorem stream_length (c : Code) (s : Nat) (bits : List Bool) :
    (stream c s bits).length = bits.length * c.N := by
  induction bits generalizing s with
  | nil => simp [stream]
  | cons b bs ih => simp only [stream, List.length_append, symBits_length, ih, List.length_cons]; ring

theorem flushStream_length (c : Code) (n s : Nat) : (flushStream c n s).length = n * c.N := by
  induction n generalizing s with
  | zero => simp [flushStream]
  | succ n ih => simp only [flushStream, List.length_append, symBits_length, ih]; ring

/-- `p` entries of the table are below position `r`, the others are not. -/
def At (P : List Nat) (p r : Nat) : Prop :=
  (∀ i (h : i < P.length), i < p → P[i] < r) ∧ (∀ i (h : i < P.length), p ≤ i → r ≤ P[i])

theorem at_hit {P : List Nat} (hs : P.Pairwise (· < ·)) {p r : Nat} (h : At P p r)
    (hp : P[p]? = some r) : r ∈ P ∧ At P (p + 1) (r + 1) := by
  obtain ⟨hlt, hv⟩ := List.getElem?_eq_some_iff.mp hp
  refine ⟨hv ▸ List.getElem_mem hlt, ?_, ?_⟩
  · intro i hi hip
    rcases Nat.lt_or_ge i p with h1 | h1
    · have := h.1 i hi h1; omega
    · have : i = p := by omega
      subst this; omega
  · intro i hi hip
    have := List.pairwise_iff_getElem.mp hs p i hlt hi (by omega)
    omega

theorem at_miss {P : List Nat} {p r : Nat} (h : At P p r)
    (hp : P[p]? ≠ some r) (hs : P.Pairwise (· < ·)) : r ∉ P ∧ At P p (r + 1) := by
  have hne : ∀ i (hi : i < P.length), P[i] ≠ r := by
    intro i hi hv
    rcases Nat.lt_trichotomy i p with h1 | h1 | h1
    · have := h.1 i hi h1; omega
    · subst h1
      exact hp (List.getElem?_eq_some_iff.mpr ⟨hi, hv⟩)
    · have hpl : p < P.length := by omega
      have h2 := h.2 p hpl (Nat.le_refl _)
      have h3 := List.pairwise_iff_getElem.mp hs p i hpl hi h1
      omega
  refine ⟨?_, ?_, ?_⟩
  · intro hm
    obtain ⟨i, hi, hv⟩ := List.getElem_of_mem hm
    exact hne i hi hv
  · intro i hi hip
    have := h.1 i hi hip; omega
  · intro i hi hip
    have h1 := h.2 i hi hip
    have h2 := hne i hi
    omega

theorem doOutput_spec (c : Code) (hs : c.positions.Pairwise (· < ·)) (iIdx out : Nat) :
    ∀ (k p : Nat), k ≤ c.N → At c.positions p (iIdx * c.N + (c.N - k)) →
    (doOutput c.puncture c.N iIdx out k p).1 = keep c.positions (iIdx * c.N + (c.N - k)) (symBits out k) ∧
    At c.positions (doOutput c.puncture c.N iIdx out k p).2 (iIdx * c.N + c.N) := by
  intro k
  induction k with
  | zero =>
    intro p _ h
    refine ⟨rfl, ?_⟩
    simp only [doOutput]
    simpa using h
  | succ k ih =>
    intro p hk h
    have hr : iIdx * c.N + (c.N - (k + 1)) + 1 = iIdx * c.N + (c.N - k) := by omega
    unfold Code.positions at *
    cases hp : c.puncture with
    | none =>
      rw [hp] at h ih hs
      simp only [Option.getD_none] at *
      have h2 : At [] p (iIdx * c.N + (c.N - k)) := ⟨fun i hi => by simp at hi, fun i hi => by simp at hi⟩
      have := ih p (by omega) h2
      simp only [doOutput, symBits, keep]
      rw [hr, this.1]
      exact ⟨by simp, this.2⟩
    | some tab =>
      rw [hp] at h ih hs
      simp only [Option.getD_some] at *
      simp only [doOutput, symBits, keep]
      by_cases hit : tab[p]? = some (iIdx * c.N + (c.N - (k + 1)))
      · obtain ⟨hm, ha⟩ := at_hit hs h hit
        rw [hr] at ha
        have := ih (p + 1) (by omega) ha
        rw [if_pos hit, if_pos hm, hr]
        exact this
      · obtain ⟨hm, ha⟩ := at_miss h hit hs
        rw [hr] at ha
        have := ih p (by omega) ha
        rw [if_neg hit, if_neg hm, hr]
        exact ⟨by rw [this.1], this.2⟩

theorem encStep_spec (c : Code) (hs : c.positions.Pairwise (· < ·)) (e : Enc) (out next : Nat)
    (h : At c.positions e.pIdx (e.iIdx * c.N)) :
    (encStep c e out next).2 = keep c.positions (e.iIdx * c.N) (symBits out c.N) ∧
    (encStep c e out next).1.state = next ∧ (encStep c e out next).1.iIdx = e.iIdx + 1 ∧
    At c.positions (encStep c e out next).1.pIdx ((e.iIdx + 1) * c.N) := by
  have := doOutput_spec c hs e.iIdx out c.N e.pIdx (Nat.le_refl _) (by simpa using h)
  simp only [Nat.sub_self, Nat.add_zero] at this
  refine ⟨this.1, rfl, rfl, ?_⟩
  rw [Nat.add_mul, Nat.one_mul]
  exact this.2

theorem encodeRaw_spec (c : Code) (hs : c.positions.Pairwise (· < ·)) (bits : List Bool) :
    ∀ e : Enc, At c.positions e.pIdx (e.iIdx * c.N) →
    (encodeRaw c e bits).2 = keep c.positions (e.iIdx * c.N) (stream c e.state bits) ∧
    (encodeRaw c e bits).1.state = endState c e.state bits ∧
    (encodeRaw c e bits).1.iIdx = e.iIdx + bits.length ∧
    At c.positions (encodeRaw c e bits).1.pIdx ((e.iIdx + bits.length) * c.N) := by
  induction bits with
  | nil => intro e h; exact ⟨rfl, rfl, rfl, h⟩
  | cons b bs ih =>
    intro e h
    obtain ⟨h1, h2, h3, h4⟩ := encStep_spec c hs e (c.nextOutput e.state b) (c.nextState e.state b) h
    simp only [encodeRaw, stream, endState, List.foldl_cons, List.length_cons]
    obtain ⟨g1, g2, g3, g4⟩ := ih _ (by rw [h3]; exact h4)
    rw [h2, h3] at g1
    rw [h2] at g2
    rw [h3] at g3 g4
    rw [keep_append, symBits_length, h1, g1, g2, g3]
    refine ⟨by rw [Nat.add_mul, Nat.one_mul], rfl, by omega, ?_⟩
    rw [show e.iIdx + (bs.length + 1) = e.iIdx + 1 + bs.length by omega]
    exact g4

theorem encodeFlush_spec (c : Code) (hs : c.positions.Pairwise (· < ·)) (n : Nat) :
    ∀ e : Enc, At c.positions e.pIdx (e.iIdx * c.N) →
    (encodeFlush c n e).2 = keep c.positions (e.iIdx * c.N) (flushStream c n e.state) ∧
    (encodeFlush c n e).1.state = flushState c n e.state := by
  induction n with
  | zero => intro e _; exact ⟨rfl, rfl⟩
  | succ n ih =>
    intro e h
    obtain ⟨h1, h2, h3, h4⟩ := encStep_spec c hs e (termOut c e.state) (termNext c e.state) h
    simp only [encodeFlush, flushStream, flushState]
    obtain ⟨g1, g2⟩ := ih _ (by rw [h3]; exact h4)
    rw [h2, h3] at g1
    rw [h2] at g2
    rw [keep_append, symBits_length, h1, g1, g2]
    exact ⟨by rw [Nat.add_mul, Nat.one_mul], rfl⟩

theorem at_zero (P : List Nat) : At P 0 0 := ⟨fun _ _ h => absurd h (by omega), fun _ _ _ => Nat.zero_le _⟩

/-! ### C37 -/

/-- The bits written are the coded bits of the walk through the states, without
those at the positions in the puncture table. -/
theorem encode_spec (c : Code) (hs : c.positions.Pairwise (· < ·)) (bits : List Bool)
    (hl : bits.length = c.len) (hk : 1 ≤ c.K) (ht : c.term = .tailBiting → c.K - 1 ≤ c.len) :
    encode c bits = some (keep c.positions 0 (coded c bits)) := by
  unfold encode coded
  rw [if_neg (by omega), if_neg (by intro h; have := ht h.1; omega)]
  rw [List.take_of_length_le (by omega : bits.length ≤ c.len)]
  simp only []
  have hst : (if c.term = .tailBiting then
      loadState encInit ((bits.drop (c.len + 1 - c.K)).take (c.K - 1)) else encInit) =
      { iIdx := 0, pIdx := 0, state := startState c bits } := by
    unfold startState
    by_cases h : c.term = .tailBiting
    · rw [if_pos h, if_pos h, List.take_of_length_le (by rw [List.length_drop]; omega)]
      rfl
    · rw [if_neg h, if_neg h]
      rfl
  rw [hst]
  obtain ⟨h1, h2, h3, h4⟩ := encodeRaw_spec c hs bits { iIdx := 0, pIdx := 0, state := startState c bits }
    (by simpa using at_zero _)
  by_cases h : c.term = .flush
  · rw [if_pos h, if_pos h, keep_append, h1, stream_length]
    obtain ⟨g1, _⟩ := encodeFlush_spec c hs (c.K - 1) _ (by rw [h3]; exact h4)
    rw [g1, h2, h3]
    simp
  · rw [if_neg h, if_neg h, List.append_nil, h1]
    simp

/-- The number of positions `r .. r + n - 1` which are punctured. -/
theorem keep_length (P : List Nat) (r : Nat) (a : List Bool) :
    (keep P r a).length + ((List.range' r a.length).filter (· ∈ P)).length = a.length := by
  induction a generalizing r with
  | nil => simp [keep]
  | cons x xs ih =>
    have := ih (r + 1)
    simp only [keep, List.length_cons, List.range'_succ]
    by_cases h : r ∈ P
    · rw [if_pos h, List.filter_cons_of_pos (by simpa using h), List.length_cons]; omega
    · rw [if_neg h, List.filter_cons_of_neg (by simpa using h), List.length_cons]; omega

theorem count_positions (P : List Nat) (n : Nat) (hs : P.Pairwise (· < ·)) (hr : ∀ x ∈ P, x < n) :
    ((List.range' 0 n).filter (· ∈ P)).length = P.length := by
  have hperm : ((List.range' 0 n).filter (· ∈ P)).Perm P := by
    apply (List.perm_ext_iff_of_nodup ?_ ?_).mpr
    · intro a
      simp only [List.mem_filter, List.mem_range'_1, decide_eq_true_eq]
      constructor
      · exact fun h => h.2
      · exact fun h => ⟨⟨Nat.zero_le _, by have := hr a h; omega⟩, h⟩
    · exact List.Pairwise.filter _ List.nodup_range'
    · exact hs.imp (fun h => Nat.ne_of_lt h)
  exact hperm.length_eq

/-- The number of bits written is the one `osmo_conv_get_output_length`
announces, for every code with a sorted puncture table within the coded bits. -/
theorem encode_length (c : Code) (hs : c.positions.Pairwise (· < ·)) (bits : List Bool)
    (hl : bits.length = c.len) (hk : 1 ≤ c.K) (ht : c.term = .tailBiting → c.K - 1 ≤ c.len)
    (hr : ∀ x ∈ c.positions, x < c.len * c.N + if c.term = .flush then c.N * (c.K - 1) else 0) :
    ∃ out, encode c bits = some out ∧ (out.length : Int) = outputLength c 0 := by
  refine ⟨_, encode_spec c hs bits hl hk ht, ?_⟩
  have hcl : (coded c bits).length = c.len * c.N + if c.term = .flush then c.N * (c.K - 1) else 0 := by
    unfold coded
    rw [List.length_append, stream_length, hl]
    by_cases h : c.term = .flush
    · rw [if_pos h, if_pos h, flushStream_length, Nat.mul_comm (c.K - 1)]
    · rw [if_neg h, if_neg h]; rfl
  have h1 := keep_length c.positions 0 (coded c bits)
  rw [count_positions _ _ hs (by rw [hcl]; exact hr), hcl] at h1
  have h2 : outputLength c 0 =
      ((c.len * c.N + if c.term = .flush then c.N * (c.K - 1) else 0 : Nat) : Int) - c.positions.length := by
    unfold outputLength inputLength Code.positions
    rw [if_pos (Int.le_refl _)]
    by_cases h : c.term = .flush
    · simp only [if_pos h]
      cases c.puncture <;> simp <;> omega
    · simp only [if_neg h]
      cases c.puncture <;> simp
  omega

/-- The next state is the old one shifted by the input bit. -/
def ShiftRegister (c : Code) : Prop := ∀ s b, s < nStates c → c.nextState s b = (2 * s + b.toNat) % nStates c

theorem loadState_val (bits : List Bool) (e : Enc) (h : bits.length ≤ 8) :
    (loadState e bits).state = bits.foldl (fun s b => 2 * s + b.toNat) 0 ∧
    (loadState e bits).state < 2 ^ bits.length := by
  have key : ∀ (n : Nat), n ≤ 8 → ∀ bs : List Bool, bs.length = n →
      bs.foldl (fun s b => (s * 2 % 256) ||| b.toNat) 0 = bs.foldl (fun s b => 2 * s + b.toNat) 0 ∧
      bs.foldl (fun s b => 2 * s + b.toNat) 0 < 2 ^ n := by
    intro n
    induction n with
    | zero =>
      intro _ bs hb
      have : bs = [] := List.length_eq_zero_iff.mp hb
      subst this
      simp
    | succ n ih =>
      intro hn bs hb
      have hne : bs ≠ [] := by intro h; rw [h] at hb; simp at hb
      rw [← List.dropLast_concat_getLast hne]
      simp only [List.foldl_append, List.foldl_cons, List.foldl_nil]
      obtain ⟨h1, h2⟩ := ih (by omega) bs.dropLast (by rw [List.length_dropLast]; omega)
      rw [h1]
      generalize bs.dropLast.foldl (fun s b => 2 * s + b.toNat) 0 = v at *
      have hv : 2 * v < 256 := by
        have : 2 ^ n ≤ 2 ^ 7 := Nat.pow_le_pow_right (by decide) (by omega)
        omega
      rw [show v * 2 = 2 * v by ring, Nat.mod_eq_of_lt hv]
      constructor
      · have hb1 : (bs.getLast hne).toNat < 2 ^ 1 := by cases bs.getLast hne <;> simp
        rw [show 2 * v = v <<< 1 by rw [Nat.shiftLeft_eq]; ring, ← Nat.shiftLeft_add_eq_or_of_lt hb1]
      · rw [Nat.pow_succ]
        cases bs.getLast hne <;> simp <;> omega
  have := key bits.length h bits rfl
  unfold loadState
  simp only []
  exact ⟨this.1, this.1 ▸ this.2⟩

theorem endState_shift (c : Code) (h : ShiftRegister c) (s : Nat) (hs : s < nStates c) (bits : List Bool) :
    endState c s bits = (s * 2 ^ bits.length + bits.foldl (fun s b => 2 * s + b.toNat) 0) % nStates c := by
  have key : ∀ bs : List Bool, ∀ s v : Nat, s < nStates c → s = v % nStates c →
      bs.foldl c.nextState s = (bs.foldl (fun s b => 2 * s + b.toNat) v) % nStates c := by
    intro bs
    induction bs with
    | nil => intro s v _ h; exact h
    | cons b bs ih =>
      intro s v hs hv
      simp only [List.foldl_cons]
      have hpos : 0 < nStates c := by omega
      rw [h s b hs]
      apply ih _ _ (Nat.mod_lt _ hpos)
      rw [hv]
      simp [Nat.add_mod, Nat.mul_mod]
  have lin : ∀ bs : List Bool, ∀ v : Nat, bs.foldl (fun s b => 2 * s + b.toNat) v =
      v * 2 ^ bs.length + bs.foldl (fun s b => 2 * s + b.toNat) 0 := by
    intro bs
    induction bs with
    | nil => intro v; simp
    | cons b bs ih =>
      intro v
      simp only [List.foldl_cons, List.length_cons]
      rw [ih (2 * v + b.toNat), ih (2 * 0 + b.toNat), Nat.pow_succ]
      ring
  unfold endState
  rw [key bits s s hs (Nat.mod_eq_of_lt hs).symm, lin bits s]

/-- Tail biting: a shift register code ends in the state it started in. -/
theorem tailBiting_circular (c : Code) (h : ShiftRegister c) (ht : c.term = .tailBiting)
    (hk : 1 ≤ c.K) (hk8 : c.K ≤ 9) (hlen : c.K - 1 ≤ c.len) (bits : List Bool)
    (hl : bits.length = c.len) :
    endState c (startState c bits) bits = startState c bits ∧ startState c bits < nStates c := by
  have hd : (bits.drop (c.len + 1 - c.K)).length = c.K - 1 := by rw [List.length_drop]; omega
  obtain ⟨h1, h2⟩ := loadState_val (bits.drop (c.len + 1 - c.K)) encInit (by omega)
  rw [hd] at h2
  have hst : startState c bits = (loadState encInit (bits.drop (c.len + 1 - c.K))).state := by
    unfold startState; rw [if_pos ht]
  have hlt : startState c bits < nStates c := by rw [hst]; exact h2
  refine ⟨?_, hlt⟩
  have hsplit : endState c (startState c bits) bits =
      endState c (endState c (startState c bits) (bits.take (c.len + 1 - c.K))) (bits.drop (c.len + 1 - c.K)) := by
    unfold endState
    rw [← List.foldl_append, List.take_append_drop]
  have hmid : endState c (startState c bits) (bits.take (c.len + 1 - c.K)) < nStates c := by
    rw [endState_shift c h _ hlt]
    exact Nat.mod_lt _ (by unfold nStates; positivity)
  rw [hsplit, endState_shift c h _ hmid, hd, ← h1, hst]
  unfold nStates
  rw [Nat.mul_add_mod_self_right, Nat.mod_eq_of_lt h2]

/-- Flushing a shift register code without termination tables leads to state 0. -/
theorem flush_zero (c : Code) (h : ShiftRegister c) (hn : c.nextTerm = none) (s : Nat) (hs : s < nStates c) :
    flushState c (c.K - 1) s = 0 := by
  have key : ∀ n s, s < nStates c → flushState c n s = endState c s (List.replicate n false) := by
    intro n
    induction n with
    | zero => intro s _; rfl
    | succ n ih =>
      intro s hs
      have hsn : c.nextState s false < nStates c := by
        rw [h s false hs]; exact Nat.mod_lt _ (by omega)
      simp only [flushState, termNext, hn]
      rw [ih _ hsn]
      simp [endState, List.replicate_succ]
  rw [key _ _ hs, endState_shift c h s hs, List.length_replicate]
  have z : ∀ n, (List.replicate n false).foldl (fun s b => 2 * s + b.toNat) 0 = 0 := by
    intro n
    induction n with
    | zero => rfl
    | succ n ih => simp [List.replicate_succ, ih]
  rw [z]
  unfold nStates
  simp

/-- The tables are only used for states below `2^(K-1)`: the state reached by
any input is one. -/
theorem endState_lt (c : Code) (hw : ∀ s b, s < nStates c → c.nextState s b < nStates c) (s : Nat)
    (hs : s < nStates c) (bits : List Bool) : endState c s bits < nStates c := by
  induction bits generalizing s with
  | nil => exact hs
  | cons b bs ih => exact ih _ (hw s b hs)

/-- A code of rate 1/2 and constraint length 3 with two positions punctured, for the
examples. -/
def exCode (t : Term) : Code where
  N := 2
  K := 3
  len := 4
  term := t
  nextOutput := fun s b => 2 * ((s + b.toNat) % 2) + (s / 2 + b.toNat) % 2
  nextState := fun s b => (2 * s + b.toNat) % 4
  nextTerm := none
  puncture := some [1, 4]

example : encode (exCode .flush) [true, false, true, true] =
      some [true, true, false, false, false, true, true, true, false, true] ∧
    outputLength (exCode .flush) 0 = 10 ∧ ShiftRegister (exCode .flush) ∧
    startState (exCode .tailBiting) [true, false, true, true] = 3 := by
  refine ⟨by decide, by decide, ?_, by decide⟩
  intro s b _
  rfl

end Verif.Conv
