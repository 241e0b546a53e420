import Verif.Strrb.Model
import Mathlib.Tactic.Linarith
/-! C23: the string ring buffer returns the newest strings in order. -/
namespace Verif.Strrb

def addAll (rb : Rb) : List (List Byte) → Option Rb
  | [] => some rb
  | d :: ds => (add rb d).bind fun (r : Rb × Int) => addAll r.1 ds

/-- how many strings are held after `k` additions to a buffer of `n` slots -/
def held (n k : Nat) : Nat := min k (n - 1)

/-- state after adding the strings `h` to a ring of `n` slots -/
structure Inv (n : Nat) (h : List (List Byte)) (rb : Rb) : Prop where
  size : rb.size = n
  len : rb.buffer.length = n
  fin : rb.fin = h.length % n
  start : rb.start = (h.length - held n h.length) % n
  slots : ∀ j, h.length - held n h.length ≤ j → (hj : j < h.length) →
    rb.buffer[j % n]? = some (h[j].take 239)

theorem create_inv {n : Nat} (h0 : 0 < n) (h1 : n < 65536) : Inv n [] (create n) := by
  have e : n % 65536 = n := Nat.mod_eq_of_lt h1
  refine ⟨e, by simp [create, e], by simp [create], by simp [create], ?_⟩
  intro j _ hj; simp at hj

theorem mod_succ {k n : Nat} (hn : 0 < n) (h : n < 65536) : (k % n + 1) % 65536 % n = (k + 1) % n := by
  have := Nat.mod_lt k hn
  rw [Nat.mod_eq_of_lt (show k % n + 1 < 65536 by omega), Nat.mod_add_mod]

theorem mod_ne {a b n : Nat} (h1 : a < b) (h2 : b - a < n) : a % n ≠ b % n := by
  intro he
  have h3 := Nat.sub_mod_eq_zero_of_mod_eq he.symm
  rw [Nat.mod_eq_of_lt h2] at h3
  omega

theorem add_inv {n : Nat} {h : List (List Byte)} {rb : Rb} (h0 : 0 < n) (h1 : n < 65536) (hi : Inv n h rb) (d : List Byte) :
    ∃ rb' ret, add rb d = some (rb', ret) ∧ Inv n (h ++ [d]) rb' ∧ (ret = 1 ↔ 240 ≤ d.length) ∧ (ret = 0 ↔ d.length < 240) := by
  obtain ⟨hs, hl, hf, hst, hslot⟩ := hi
  have hlt : rb.fin < n := by rw [hf]; exact Nat.mod_lt _ h0
  have hslt : rb.start < n := by rw [hst]; exact Nat.mod_lt _ h0
  unfold add
  have htake : ∀ (a : Nat × Int), a = (if d.length ≥ RB_MAX_MESSAGE_SIZE then (RB_MAX_MESSAGE_SIZE - 1, (1 : Int)) else (d.length, 0)) →
      d.take a.1 = d.take 239 ∧ (a.2 = 1 ↔ 240 ≤ d.length) ∧ (a.2 = 0 ↔ d.length < 240) := by
    intro a ha
    unfold RB_MAX_MESSAGE_SIZE at ha
    split at ha
    · subst ha; simp; omega
    · subst ha
      refine ⟨?_, by simp; omega, by simp; omega⟩
      rw [List.take_of_length_le (le_refl _), List.take_of_length_le (by omega)]
  generalize hg : (if d.length ≥ RB_MAX_MESSAGE_SIZE then (RB_MAX_MESSAGE_SIZE - 1, (1 : Int)) else (d.length, 0)) = a at htake
  obtain ⟨ht1, ht2, ht3⟩ := htake a rfl
  simp only [hg]
  rw [if_pos ⟨by omega, by omega⟩, ht1]
  refine ⟨_, _, rfl, ⟨hs, by simp [hl], ?_, ?_, ?_⟩, ht2, ht3⟩
  · simp only [hs, hf, List.length_append, List.length_singleton]
    exact mod_succ h0 h1
  · simp only [hs, hf, hst, List.length_append, List.length_singleton, mod_succ h0 h1]
    unfold held
    rcases Nat.lt_or_ge h.length (n - 1) with hk | hk
    · rw [if_neg]
      · congr 1; omega
      · rw [show h.length - min h.length (n - 1) = 0 by omega]
        exact (mod_ne (by omega) (by omega)).symm
    · rw [show h.length - min h.length (n - 1) = h.length - (n - 1) by omega]
      rw [if_pos]
      · congr 1; omega
      · conv_lhs => rw [show h.length + 1 = (h.length - (n - 1)) + n by omega]
        rw [Nat.add_mod_right]
  · intro j hj1 hj2
    simp only [List.length_append, List.length_singleton] at hj1 hj2
    unfold held at hj1 hslot
    rw [List.getElem?_set, hf]
    rcases Nat.lt_or_ge j h.length with hjl | hjl
    · rw [if_neg (mod_ne hjl (by omega)).symm, hslot j (by omega) hjl, List.getElem_append_left hjl]
    · have : j = h.length := by omega
      subst this
      rw [if_pos rfl, if_pos (by rw [hl]; exact Nat.mod_lt _ h0)]
      simp

theorem addAll_inv {n : Nat} (h0 : 0 < n) (h1 : n < 65536) (ds : List (List Byte)) {h : List (List Byte)} {rb : Rb}
    (hi : Inv n h rb) : ∃ rb', addAll rb ds = some rb' ∧ Inv n (h ++ ds) rb' := by
  induction ds generalizing h rb with
  | nil => exact ⟨rb, rfl, by simpa using hi⟩
  | cons d ds ih =>
    obtain ⟨rb1, ret, a1, a2, -⟩ := add_inv h0 h1 hi d
    obtain ⟨rb2, b1, b2⟩ := ih a2
    unfold addAll
    rw [a1, Option.bind_some]
    exact ⟨rb2, b1, by simpa using b2⟩

/-- the strings held: the newest ones, truncated -/
def window (n : Nat) (ds : List (List Byte)) : List (List Byte) :=
  (ds.drop (ds.length - (n - 1))).map (·.take 239)

theorem held_drop (n k : Nat) : k - held n k = k - (n - 1) := by unfold held; omega

/-- the position of the i-th held string -/
theorem slot_pos {n : Nat} {ds : List (List Byte)} {rb : Rb} (h0 : 0 < n) (hi : Inv n ds rb) :
    (ds.length ≤ n - 1 ∧ rb.start = 0 ∧ rb.fin = ds.length) ∨
      (n ≤ ds.length ∧ ∃ c, (rb.start = c ∧ c < n ∧ ((c = 0 ∧ rb.fin = n - 1) ∨ (0 < c ∧ rb.fin = c - 1)) ∧
        ∀ i, (ds.length - (n - 1) + i) % n = (c + i) % n)) := by
  have hst := hi.start
  rw [held_drop] at hst
  rcases Nat.lt_or_ge ds.length n with h | h
  · left
    refine ⟨by omega, ?_, ?_⟩
    · rw [hst, show ds.length - (n - 1) = 0 by omega]; simp
    · rw [hi.fin, Nat.mod_eq_of_lt h]
  · right
    refine ⟨h, rb.start, rfl, by rw [hst]; exact Nat.mod_lt _ h0, ?_, ?_⟩
    · have hf := hi.fin
      have e : ds.length = (ds.length - (n - 1)) + (n - 1) := by omega
      generalize ds.length - (n - 1) = q at hst e
      rw [e, ← Nat.mod_add_mod, ← hst] at hf
      have hlt : rb.start < n := by rw [hst]; exact Nat.mod_lt _ h0
      rcases Nat.eq_zero_or_pos rb.start with hz | hz
      · left
        refine ⟨hz, ?_⟩
        rw [hf, hz, Nat.zero_add, Nat.mod_eq_of_lt (by omega)]
      · right
        refine ⟨hz, ?_⟩
        rw [hf, show rb.start + (n - 1) = (rb.start - 1) + n by omega, Nat.add_mod_right, Nat.mod_eq_of_lt (by omega)]
    · intro i
      rw [hst, Nat.mod_add_mod]

/-- C23: the number of strings held -/
theorem elements_spec {n : Nat} {ds : List (List Byte)} {rb : Rb} (h0 : 0 < n) (hi : Inv n ds rb) :
    elements rb = min ds.length (n - 1) ∧ (isEmpty rb = true ↔ min ds.length (n - 1) = 0) := by
  have hs := hi.size
  unfold elements isEmpty
  rcases slot_pos h0 hi with ⟨h1, h2, h3⟩ | ⟨h1, c, h2, h3, h4, -⟩
  · rw [h2, h3, if_neg (by omega), beq_iff_eq]
    omega
  · rw [beq_iff_eq]
    rcases h4 with ⟨h5, h6⟩ | ⟨h5, h6⟩
    · rw [h2, h6, h5, if_neg (by omega)]
      omega
    · rw [h2, h6, if_pos (by omega), hs]
      omega

/-- C23 (partial: index below the number of slots): get_nth returns the i-th
oldest held string, and NULL if there are not so many. -/
theorem getNth_inv {n : Nat} {ds : List (List Byte)} {rb : Rb} (h0 : 0 < n) (h1 : n < 65536) (hi : Inv n ds rb) (i : Nat)
    (hin : i < n) : getNth rb i = some (window n ds)[i]? := by
  have hsz := hi.size
  have hsl := hi.slots
  rw [held_drop] at hsl
  have hw : ∀ i, (window n ds)[i]? = (ds[ds.length - (n - 1) + i]?).map (·.take 239) := by
    intro i
    unfold window
    rw [List.getElem?_map, List.getElem?_drop]
  rw [hw]
  unfold getNth
  have hmod32 : ∀ m : Nat, m < 131072 → m % 2 ^ 32 = m := fun m hm => Nat.mod_eq_of_lt (by omega)
  rcases slot_pos h0 hi with ⟨h2, h3, h4⟩ | ⟨h2, c, h3, h4, h5, h6⟩
  · have hz : ds.length - (n - 1) = 0 := by omega
    have ew : wrapOffset rb i = i := by
      unfold wrapOffset; rw [if_neg (by omega)]
    rw [h3, Nat.add_zero, hmod32 i (by omega), ew, hz, Nat.zero_add]
    unfold getAt
    by_cases hi2 : i < ds.length
    · have hv : bufindexValid rb i = true := by
        unfold bufindexValid isEmpty
        rw [h3, h4, hsz]
        rw [if_neg (by rw [beq_iff_eq]; omega), if_neg (by omega), if_pos (by omega)]
        simp only [Bool.and_eq_true, decide_eq_true_eq]; omega
      rw [if_pos hv]
      have := hsl i (by omega) hi2
      rw [Nat.mod_eq_of_lt hin] at this
      rw [this, List.getElem?_eq_getElem hi2]
      rfl
    · have hv : bufindexValid rb i = false := by
        unfold bufindexValid isEmpty
        rw [h3, h4, hsz]
        split
        · rfl
        · rename_i hh
          rw [beq_iff_eq] at hh
          rw [if_neg (by omega), if_pos (by omega)]
          simp only [Bool.and_eq_false_iff, decide_eq_false_iff_not]; omega
      rw [hv, if_neg (by simp), List.getElem?_eq_none (by omega)]
      rfl
  · have hnd : n - 1 ≤ ds.length := by omega
    rw [h3, hmod32 (i + c) (by omega)]
    -- position of the i-th string
    obtain ⟨o, ho, hlt, hcase⟩ : ∃ o, wrapOffset rb (i + c) = o ∧ o < n ∧
        ((i + c < n ∧ o = i + c) ∨ (n ≤ i + c ∧ 0 < c ∧ o = i + c - n)) := by
      refine ⟨_, rfl, ?_⟩
      unfold wrapOffset
      rw [hsz, h3]
      rcases h5 with ⟨h7, h8⟩ | ⟨h7, h8⟩
      · rw [h8, if_neg (by omega)]; omega
      · rw [h8]; split <;> omega
    have hmod : (c + i) % n = o := by
      rcases hcase with ⟨h7, h8⟩ | ⟨h7, h8, h9⟩
      · rw [Nat.mod_eq_of_lt (by omega)]; omega
      · rw [show c + i = (i + c - n) + n by omega, Nat.add_mod_right, Nat.mod_eq_of_lt (by omega)]
        omega
    rw [ho]
    unfold getAt
    by_cases hi2 : i < n - 1
    · have hlt2 : ds.length - (n - 1) + i < ds.length := by omega
      have hv : bufindexValid rb o = true := by
        unfold bufindexValid isEmpty
        rw [hsz, h3]
        rcases h5 with ⟨h7, h8⟩ | ⟨h7, h8⟩
        · rw [h8, h7, if_neg (by rw [beq_iff_eq]; omega), if_neg (by omega), if_pos (by omega)]
          simp only [Bool.and_eq_true, decide_eq_true_eq]; omega
        · rw [h8, if_neg (by rw [beq_iff_eq]; omega), if_neg (by omega), if_neg (by omega)]
          simp only [Bool.or_eq_true, decide_eq_true_eq]; omega
      rw [if_pos hv]
      have := hsl (ds.length - (n - 1) + i) (by omega) hlt2
      rw [h6, hmod] at this
      rw [this, List.getElem?_eq_getElem hlt2]
      rfl
    · have hv : bufindexValid rb o = false := by
        unfold bufindexValid isEmpty
        rw [hsz, h3]
        rcases h5 with ⟨h7, h8⟩ | ⟨h7, h8⟩
        · rw [h8, h7]
          split
          · rfl
          · rename_i hh
            rw [beq_iff_eq] at hh
            rw [if_neg (by omega), if_pos (by omega)]
            simp only [Bool.and_eq_false_iff, decide_eq_false_iff_not]; omega
        · rw [h8, if_neg (by rw [beq_iff_eq]; omega), if_neg (by omega), if_neg (by omega)]
          simp only [Bool.or_eq_false_iff, decide_eq_false_iff_not]; omega
      rw [hv, if_neg (by simp), List.getElem?_eq_none (by omega)]
      rfl

/-- C23 (partial: string indices below the number of slots): after any sequence
of additions to a fresh ring of `n` slots, the ring holds the last
min(k, n-1) strings cut to 239 characters, oldest first. -/
theorem strrb_partial (n : Nat) (h0 : 0 < n) (h1 : n < 65536) (ds : List (List Byte)) :
    ∃ rb, addAll (create n) ds = some rb ∧ elements rb = min ds.length (n - 1) ∧
      (isEmpty rb = true ↔ min ds.length (n - 1) = 0) ∧
      ∀ i, i < n → getNth rb i = some (window n ds)[i]? := by
  obtain ⟨rb, a1, a2⟩ := addAll_inv h0 h1 ds (create_inv h0 h1)
  rw [List.nil_append] at a2
  obtain ⟨b1, b2⟩ := elements_spec h0 a2
  exact ⟨rb, a1, b1, b2, fun i hi => getNth_inv h0 h1 a2 i hi⟩

/-- C23: adding reports truncation exactly for strings of 240 characters or more -/
theorem add_truncation (n : Nat) (h0 : 0 < n) (h1 : n < 65536) (ds : List (List Byte)) (d : List Byte) :
    ∃ rb rb' ret, addAll (create n) ds = some rb ∧ add rb d = some (rb', ret) ∧ (ret = 1 ↔ 240 ≤ d.length) ∧
      (ret = 0 ↔ d.length < 240) := by
  obtain ⟨rb, a1, a2⟩ := addAll_inv h0 h1 ds (create_inv h0 h1)
  obtain ⟨rb', ret, b1, -, b2, b3⟩ := add_inv h0 h1 a2 d
  exact ⟨rb, rb', ret, a1, b1, b2, b3⟩

/-- C23 fails for indices from the number of slots on once the ring has wrapped:
index 3 of a ring of 3 slots gives the oldest string again, and so does an
index near 2^32. -/
theorem getNth_counterexample :
    (addAll (create 3) [[1#8], [2#8], [3#8]]).map (fun rb => (elements rb, getNth rb 2, getNth rb 3)) =
      some (2, some none, some (some [2#8])) ∧
    (addAll (create 3) [[1#8], [2#8], [3#8], [4#8]]).map (fun rb => (elements rb, getNth rb (2 ^ 32 - 2))) =
      some (2, some (some [4#8])) := by decide

/-- C23: a ring of 65536 slots has 0 slots (uint16_t) and the first addition is
an access outside of the array -/
theorem size_counterexample : add (create 65536) [1#8] = none := by decide

example : (addAll (create 3) [[1#8], [2#8], [3#8], [4#8]]).map (fun rb => (getNth rb 0, getNth rb 1)) =
    some (some (some [3#8]), some (some [4#8])) := by decide

end Verif.Strrb
