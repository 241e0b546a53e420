import Verif.Bitvec.Props
/-!
`src/gsm/rxlev_stat.c`: which ARFCNs were received at which level (C109).
-/
namespace Verif.RxlevStat
open Verif Verif.Bitvec

/-- include/osmocom/gsm/rxlev_stat.h:8-12 `struct rxlev_stats`: 32 rows of 128 bytes -/
abbrev Stats := List (List Byte)

/-- src/gsm/rxlev_stat.c:36-37, 50-51: the row of a level -/
def row (rxlev : Nat) : Nat := if rxlev ≥ 32 then 31 else rxlev

/-- src/gsm/rxlev_stat.c:32-43 `rxlev_stat_input`; `none` is an access outside the array -/
def input (st : Stats) (arfcn rxlev : Nat) : Option Stats :=
  (st[row rxlev]?).map fun d => st.set (row rxlev) (setBitPos ⟨0, d.take 128⟩ arfcn .one).2.data

/-- src/gsm/rxlev_stat.c:46-61 `rxlev_stat_get_next`; the result as `int16_t` -/
def getNext (st : Stats) (rxlev : Nat) (arfcn : Int) : Option Int :=
  let a : Int := if arfcn < 0 then -1 else arfcn
  (st[row rxlev]?).map fun d => (BitVec.ofInt 16 (findBitPos ⟨0, d.take 128⟩ (a + 1).toNat .one)).toInt

/-- src/gsm/rxlev_stat.c:63-66 `rxlev_stat_reset` -/
def reset : Stats := List.replicate 32 (List.replicate 128 0#8)

/-- src/gsm/rxlev_stat.c:76-78: what `rxlev_stat_dump` prints of a level, `n` bounding the steps -/
def enumerate (st : Stats) (rxlev : Nat) : Nat → Int → Option (List Int)
  | 0, _ => none
  | n + 1, arfcn => (getNext st rxlev arfcn).bind fun a => if a ≥ 0 then (enumerate st rxlev n a).map (a :: ·) else some []

/-- 32 rows of 128 bytes -/
structure Shape (st : Stats) : Prop where
  rows : st.length = 32
  bytes : ∀ d ∈ st, d.length = 128

/-- the ARFCN is recorded at the level -/
def Has (st : Stats) (level arfcn : Nat) : Prop := ∃ d, st[level]? = some d ∧ arfcn < 1024 ∧ msb d arfcn = true

theorem reset_shape : Shape reset := ⟨List.length_replicate, fun d hd => by rw [List.eq_of_mem_replicate hd, List.length_replicate]⟩

theorem row_lt (r : Nat) : row r < 32 := by unfold row; split <;> omega

theorem row_mem {st : Stats} (h : Shape st) (r : Nat) : ∃ d, st[row r]? = some d ∧ d.length = 128 := by
  have hr := row_lt r
  refine ⟨st[row r]'(by rw [h.rows]; exact hr), List.getElem?_eq_getElem _, h.bytes _ (List.getElem_mem _)⟩

/-- nothing is recorded after a reset -/
theorem reset_has (level arfcn : Nat) : ¬ Has reset level arfcn := by
  rintro ⟨d, h1, h2, h3⟩
  have hd : d = List.replicate 128 0#8 := List.eq_of_mem_replicate (List.mem_of_getElem? h1)
  subst hd
  have hz : (List.replicate 128 0#8).getD (arfcn / 8) 0#8 = 0#8 := by
    rw [List.getD_eq_getElem?_getD, List.getElem?_replicate]; split <;> rfl
  unfold msb bitAt at h3
  rw [hz] at h3
  simp at h3

/-- **An input records its ARFCN at its level (levels above 31 counting as 31), and changes nothing else**; one not below 1024 records
nothing. -/
theorem input_spec {st : Stats} (h : Shape st) (arfcn rxlev : Nat) :
    ∃ st', input st arfcn rxlev = some st' ∧ Shape st' ∧
      ∀ level a, Has st' level a ↔ Has st level a ∨ (level = min rxlev 31 ∧ a = arfcn ∧ arfcn < 1024) := by
  obtain ⟨d, hd, hl⟩ := row_mem h rxlev
  have hrow : row rxlev = min rxlev 31 := by unfold row; split <;> omega
  have hr := row_lt rxlev
  have ht : d.take 128 = d := List.take_of_length_le (by omega)
  refine ⟨st.set (row rxlev) (setBitPos ⟨0, d⟩ arfcn .one).2.data, by unfold input; rw [hd, Option.map_some, ht], ?_⟩
  have key : ∃ d', (setBitPos ⟨0, d⟩ arfcn .one).2.data = d' ∧ d'.length = 128 ∧
      ∀ a, a < 1024 → (msb d' a = true ↔ msb d a = true ∨ a = arfcn) := by
    by_cases ha : arfcn < 1024
    · obtain ⟨d', e1, e2, e3⟩ := setBitPos_ok (bv := ⟨0, d⟩) (i := arfcn) .one (by simp only; omega)
      refine ⟨d', by rw [e1], by rw [e2]; exact hl, fun a _ => ?_⟩
      rw [e3 a]
      by_cases hh : a = arfcn
      · rw [if_pos hh]; simp [hh, symBit]
      · rw [if_neg hh]; simp [hh]
    · refine ⟨d, by rw [setBitPos_end (bv := ⟨0, d⟩) .one (by simp only; omega)], hl, fun a h' => ?_⟩
      have : a ≠ arfcn := by omega
      simp [this]
  obtain ⟨d', e1, e2, e3⟩ := key
  rw [e1]
  refine ⟨⟨by rw [List.length_set]; exact h.rows, fun x hx => ?_⟩, fun level a => ?_⟩
  · rcases List.mem_or_eq_of_mem_set hx with hx | rfl
    · exact h.bytes x hx
    · exact e2
  · unfold Has
    rw [List.getElem?_set]
    by_cases hlv : row rxlev = level
    · rw [if_pos hlv, if_pos (by rw [h.rows]; omega), ← hlv, hd]
      simp only [Option.some.injEq, exists_eq_left', hrow, true_and]
      constructor
      · rintro ⟨a1, a2⟩
        rcases (e3 a a1).1 a2 with h3 | h3
        · exact .inl ⟨a1, h3⟩
        · exact .inr ⟨h3, by omega⟩
      · rintro (⟨a1, a2⟩ | ⟨a1, a2⟩)
        · exact ⟨a1, (e3 a a1).2 (.inl a2)⟩
        · exact ⟨by omega, (e3 a (by omega)).2 (.inr a1)⟩
    · rw [if_neg hlv]
      constructor
      · exact fun hh => .inl hh
      · rintro (hh | ⟨hh, -⟩)
        · exact hh
        · exact absurd (hrow.trans hh.symm) hlv

/-- **The next ARFCN of a level** is the least recorded one above the given, or -1; below the first for any negative. -/
theorem getNext_spec {st : Stats} (h : Shape st) (rxlev : Nat) (arfcn : Int) :
    (∃ p : Nat, getNext st rxlev arfcn = some (p : Int) ∧ arfcn < p ∧ Has st (min rxlev 31) p ∧
      ∀ q : Nat, arfcn < q → q < p → ¬ Has st (min rxlev 31) q) ∨
    (getNext st rxlev arfcn = some (-1) ∧ ∀ q : Nat, arfcn < q → ¬ Has st (min rxlev 31) q) := by
  obtain ⟨d, hd, hl⟩ := row_mem h rxlev
  have hrow : row rxlev = min rxlev 31 := by unfold row; split <;> omega
  have ht : d.take 128 = d := List.take_of_length_le (by omega)
  have hbit : ∀ q, Has st (min rxlev 31) q ↔ q < 1024 ∧ msb d q = true := fun q => by
    unfold Has; rw [← hrow, hd]; simp
  unfold getNext
  rw [hd, Option.map_some, ht]
  generalize hn : ((if arfcn < 0 then -1 else arfcn) + 1).toNat = n
  have hnq : ∀ q : Nat, arfcn < q ↔ n ≤ q := fun q => by
    rw [← hn]; split <;> omega
  have := find_bit_pos_spec ⟨0, d⟩ n true
  simp only [if_true] at this
  rcases this with ⟨p, h1, h2, h3, h4, h5⟩ | ⟨h1, h2⟩
  · left
    refine ⟨p, ?_, (hnq p).2 h2, (hbit p).2 ⟨by omega, h4⟩, fun q a b => ?_⟩
    · rw [h1, Option.some.injEq, BitVec.toInt_ofInt]
      exact Int.bmod_eq_of_le (by omega) (by omega)
    · rw [hbit]
      rintro ⟨-, hh⟩
      exact h5 q ((hnq q).1 a) b hh
  · right
    refine ⟨by rw [h1]; rfl, fun q a => ?_⟩
    rw [hbit]
    rintro ⟨c, hh⟩
    exact h2 q ((hnq q).1 a) (by omega) hh

theorem has_lt {st : Stats} {l q : Nat} (h : Has st l q) : q < 1024 := by obtain ⟨d, -, h, -⟩ := h; exact h

/-- **Going from one to the next gives every ARFCN of a level once, ascending**, and ends. -/
theorem enumerate_spec {st : Stats} (h : Shape st) (rxlev : Nat) (n : Nat) (arfcn : Int) (ha : -1 ≤ arfcn ∧ arfcn ≤ 1023)
    (hn : 1024 ≤ arfcn + n) :
    ∃ l : List Int, enumerate st rxlev n arfcn = some l ∧ l.Pairwise (· < ·) ∧
      ∀ x : Int, x ∈ l ↔ ∃ q : Nat, x = (q : Int) ∧ arfcn < q ∧ Has st (min rxlev 31) q := by
  induction n generalizing arfcn with
  | zero => omega
  | succ n ih =>
    rw [enumerate]
    rcases getNext_spec h rxlev arfcn with ⟨p, h1, h2, h3, h4⟩ | ⟨h1, h2⟩
    · have hp := has_lt h3
      obtain ⟨l, e1, e2, e3⟩ := ih p ⟨by omega, by omega⟩ (by omega)
      rw [h1, Option.bind_some, if_pos (by omega), e1]
      refine ⟨p :: l, rfl, List.pairwise_cons.2 ⟨fun x hx => ?_, e2⟩, fun x => ?_⟩
      · obtain ⟨q, rfl, hq, -⟩ := (e3 x).1 hx
        exact hq
      · rw [List.mem_cons, e3]
        constructor
        · rintro (rfl | ⟨q, rfl, hq, hh⟩)
          · exact ⟨p, rfl, h2, h3⟩
          · exact ⟨q, rfl, by omega, hh⟩
        · rintro ⟨q, rfl, hq, hh⟩
          rcases Nat.lt_trichotomy q p with hl | hl | hl
          · exact absurd hh (h4 q hq hl)
          · exact .inl (by rw [hl])
          · exact .inr ⟨q, rfl, by omega, hh⟩
    · rw [h1, Option.bind_some, if_neg (by decide)]
      refine ⟨[], rfl, List.Pairwise.nil, fun x => ?_⟩
      constructor
      · intro hx; cases hx
      · rintro ⟨q, rfl, hq, hh⟩
        exact absurd hh (h2 q hq)

/-- a history of inputs -/
def inputs (st : Stats) : List (Nat × Nat) → Option Stats
  | [] => some st
  | (a, r) :: l => (input st a r).bind fun st => inputs st l

theorem inputs_spec {st : Stats} (h : Shape st) (l : List (Nat × Nat)) :
    ∃ st', inputs st l = some st' ∧ Shape st' ∧
      ∀ level a, Has st' level a ↔ Has st level a ∨ ∃ r, (a, r) ∈ l ∧ a < 1024 ∧ min r 31 = level := by
  induction l generalizing st with
  | nil => exact ⟨st, rfl, h, by simp⟩
  | cons x l ih =>
    obtain ⟨b, r⟩ := x
    obtain ⟨s1, e1, h1, g1⟩ := input_spec h b r
    obtain ⟨s2, e2, h2, g2⟩ := ih h1
    refine ⟨s2, by rw [inputs, e1, Option.bind_some, e2], h2, fun level a => ?_⟩
    rw [g2, g1]
    constructor
    · rintro ((hh | ⟨a1, a2, a3⟩) | ⟨r', a1, a2⟩)
      · exact .inl hh
      · exact .inr ⟨r, by simp [a2], by omega, a1.symm⟩
      · exact .inr ⟨r', List.mem_cons_of_mem _ a1, a2⟩
    · rintro (hh | ⟨r', a1, a2, a3⟩)
      · exact .inl (.inl hh)
      · rcases List.mem_cons.1 a1 with e | a1
        · simp only [Prod.mk.injEq] at e
          obtain ⟨rfl, rfl⟩ := e
          exact .inl (.inr ⟨a3.symm, rfl, a2⟩)
        · exact .inr ⟨r', a1, a2, a3⟩

/-- **After a reset and any measurements, going through a level lists exactly the ARFCNs measured at it, once each, ascending.** -/
theorem listed (l : List (Nat × Nat)) (rxlev : Nat) :
    ∃ st out, inputs reset l = some st ∧ enumerate st rxlev 1025 (-1) = some out ∧ out.Pairwise (· < ·) ∧
      ∀ x : Int, x ∈ out ↔ ∃ (a r : Nat), x = (a : Int) ∧ (a, r) ∈ l ∧ a < 1024 ∧ min r 31 = min rxlev 31 := by
  obtain ⟨st, e1, h1, g1⟩ := inputs_spec reset_shape l
  obtain ⟨out, e2, e3, e4⟩ := enumerate_spec h1 rxlev 1025 (-1) (by omega) (by omega)
  refine ⟨st, out, e1, e2, e3, fun x => ?_⟩
  rw [e4]
  constructor
  · rintro ⟨q, rfl, -, hh⟩
    rcases (g1 _ _).1 hh with hh | ⟨r, a1, a2, a3⟩
    · exact absurd hh (reset_has _ _)
    · exact ⟨q, r, rfl, a1, a2, a3⟩
  · rintro ⟨a, r, rfl, a1, a2, a3⟩
    exact ⟨a, rfl, by omega, (g1 _ _).2 (.inr ⟨r, a1, a2, a3⟩)⟩

/-- a small instance: two measurements at level 9, one at 40, one of no ARFCN -/
example : ∃ st, inputs reset [(5, 9), (2, 9), (7, 40), (1024, 9)] = some st ∧ getNext st 9 (-1) = some 2 ∧ getNext st 9 2 = some 5 ∧
    getNext st 9 5 = some (-1) ∧ getNext st 31 0 = some 7 := by
  refine ⟨_, rfl, ?_, ?_, ?_, ?_⟩ <;> decide +kernel

end Verif.RxlevStat
