import Verif.ConvAcc.Run
import Mathlib.Data.List.Induction
/-!
What the accelerated decoder returns (C94).
-/
namespace Verif.ConvAcc
open Verif.Conv

/-! ### The code words of walks -/

theorem stream_snoc (c : Code) (s : Nat) (bits : List Bool) (b : Bool) :
    stream c s (bits ++ [b]) = stream c s bits ++ symBits (c.nextOutput (endState c s bits) b) c.N := by
  induction bits generalizing s with
  | nil => simp [stream, endState]
  | cons a bits ih => simp [stream, ih, endState]

theorem flushStream_snoc (c : Code) (n s : Nat) :
    flushStream c (n + 1) s = flushStream c n s ++ symBits (termOut c (flushState c n s)) c.N := by
  induction n generalizing s with
  | zero => simp [flushStream, flushState]
  | succ n ih =>
    rw [flushStream, ih]
    simp [flushStream, flushState]

theorem flatten_len {N : Nat} : ∀ ys : List (List Int), (∀ y ∈ ys, y.length = N) → ys.flatten.length = ys.length * N
  | [], _ => by simp
  | y :: ys, h => by
    rw [List.flatten_cons, List.length_append, flatten_len ys (fun z hz => h z (by simp [hz])), h y (by simp),
      List.length_cons]
    ring

theorem inBits_length {k : Nat} {fb : Nat → Bool} (n X : Nat) : (inBits k fb n X).length = n := by
  induction n generalizing X with
  | zero => rfl
  | succ n ih => simp [inBits, ih]

section
variable {c : Code} {k : Nat} {o : Nat → List Bool} {fb : Nat → Bool} (h : Reg c k o fb)
include h

theorem walk_code (rs : List (List Int)) (hl : ∀ r ∈ rs, r.length = c.N) (X : Nat)
    (hX : X < 2 ^ (rs.length + (k + 1))) :
    endState c (X / 2 ^ rs.length) (inBits k fb rs.length X) = X % 2 ^ (k + 1) ∧
    pm k o (fun _ => 0) X rs = corr (stream c (X / 2 ^ rs.length) (inBits k fb rs.length X)) rs.reverse.flatten := by
  induction rs generalizing X with
  | nil =>
    simp only [List.length_nil, Nat.zero_add] at hX
    simp [inBits, endState, Nat.mod_eq_of_lt hX, pm, stream, corr]
  | cons r rs ih =>
    have hx : X / 2 < 2 ^ (rs.length + (k + 1)) := by
      have : (2 : Nat) ^ ((r :: rs).length + (k + 1)) = 2 ^ (rs.length + (k + 1)) * 2 := by
        rw [List.length_cons]; ring
      omega
    obtain ⟨i1, i2⟩ := ih (fun q hq => hl q (by simp [hq])) (X / 2) hx
    have hd : X / 2 ^ (rs.length + 1) = X / 2 / 2 ^ rs.length := by
      rw [Nat.div_div_eq_div_mul, Nat.pow_succ, Nat.mul_comm 2]
    have hs : X / 2 % 2 ^ (k + 1) < 2 ^ (k + 1) := Nat.mod_lt _ (Nat.two_pow_pos _)
    have hb : ((X.testBit 0 ^^ fb (X / 2 % 2 ^ (k + 1))) ^^ fb (X / 2 % 2 ^ (k + 1))).toNat = X % 2 := by
      rw [Nat.testBit_zero]
      rcases Nat.mod_two_eq_zero_or_one X with e | e <;> cases fb (X / 2 % 2 ^ (k + 1)) <;> simp [e]
    have hw : 2 * (X / 2 % 2 ^ (k + 1)) + X % 2 = X % 2 ^ (k + 2) := by
      rw [show (2 : Nat) ^ (k + 2) = 2 * 2 ^ (k + 1) by ring, Nat.mod_mul]; ring
    simp only [List.length_cons, inBits, hd]
    rw [endState_snoc, i1, h.next _ _ hs, stream_snoc, i1, h.out _ _ hs, hb, hw]
    refine ⟨Nat.mod_mod_of_dvd _ (Nat.pow_dvd_pow 2 (by omega)), ?_⟩
    rw [List.reverse_cons, List.flatten_append, corr_append]
    · simp only [pm, i2, List.flatten_cons, List.flatten_nil, List.append_nil]
      omega
    · rw [stream_length, inBits_length, flatten_len (N := c.N) _ (fun y hy => hl y (by simp at hy; simp [hy]))]
      simp [Nat.mul_comm]

theorem term_code (s : Nat) (hs : s < 2 ^ (k + 1)) :
    symBits (termOut c s) c.N = o (2 * s) ∧ termNext c s = 2 * s % 2 ^ (k + 1) := by
  unfold termOut termNext
  cases ht : c.nextTerm with
  | none => simp only; rw [h.out _ _ hs, h.next _ _ hs, h.noterm ht]; simp
  | some t => simp only; exact (h.term t ht).1 s hs

theorem flush_code (rs fs : List (List Int)) (hf : ∀ r ∈ fs, r.length = c.N) (X : Nat) :
    flushState c fs.length (X % 2 ^ (k + 1)) = X * 2 ^ fs.length % 2 ^ (k + 1) ∧
    pm k o (fun _ => 0) (X * 2 ^ fs.length) (fs ++ rs) =
      pm k o (fun _ => 0) X rs + corr (flushStream c fs.length (X % 2 ^ (k + 1))) fs.reverse.flatten := by
  induction fs with
  | nil => simp [flushState, flushStream, corr]
  | cons f fs ih =>
    obtain ⟨i1, i2⟩ := ih (fun r hr => hf r (by simp [hr]))
    have hs : X * 2 ^ fs.length % 2 ^ (k + 1) < 2 ^ (k + 1) := Nat.mod_lt _ (Nat.two_pow_pos _)
    obtain ⟨t1, t2⟩ := term_code h _ hs
    have hd : X * 2 ^ (fs.length + 1) = 2 * (X * 2 ^ fs.length) := by ring
    simp only [List.length_cons]
    rw [flushState_snoc, flushStream_snoc, i1, t1, t2, hd]
    refine ⟨by rw [Nat.mul_mod_mod], ?_⟩
    have hw : 2 * (X * 2 ^ fs.length) % 2 ^ (k + 2) = 2 * (X * 2 ^ fs.length % 2 ^ (k + 1)) := by
      rw [show (2 : Nat) ^ (k + 2) = 2 * 2 ^ (k + 1) by ring, Nat.mul_mod_mul_left]
    simp only [List.cons_append, pm]
    rw [hw, show 2 * (X * 2 ^ fs.length) / 2 = X * 2 ^ fs.length by omega, i2, List.reverse_cons, List.flatten_append,
      corr_append]
    · simp only [List.flatten_cons, List.flatten_nil, List.append_nil]
      omega
    · rw [flushStream_length, flatten_len (N := c.N) _ (fun y hy => hf y (by simp at hy; simp [hy]))]
      simp

omit h in
/-- every input from every state is a walk -/
theorem walk_of (bits : List Bool) (j : Nat) (hj : j < 2 ^ (k + 1)) :
    ∃ X, X < 2 ^ (bits.length + (k + 1)) ∧ X / 2 ^ bits.length = j ∧ inBits k fb bits.length X = bits := by
  induction bits using List.reverseRecOn with
  | nil => exact ⟨j, by simpa using hj, by simp, rfl⟩
  | append_singleton bits b ih =>
    obtain ⟨X, h1, h2, h3⟩ := ih
    have hlt := Bool.toNat_lt (b ^^ fb (X % 2 ^ (k + 1)))
    refine ⟨2 * X + (b ^^ fb (X % 2 ^ (k + 1))).toNat, ?_, ?_, ?_⟩
    · have : (2 : Nat) ^ ((bits ++ [b]).length + (k + 1)) = 2 ^ (bits.length + (k + 1)) * 2 := by
        rw [List.length_append, List.length_singleton]; ring
      omega
    · rw [List.length_append, List.length_singleton, show 2 ^ (bits.length + 1) = 2 * 2 ^ bits.length by ring,
        ← Nat.div_div_eq_div_mul]
      rw [show (2 * X + (b ^^ fb (X % 2 ^ (k + 1))).toNat) / 2 = X by omega, h2]
    · rw [List.length_append, List.length_singleton, inBits,
        show (2 * X + (b ^^ fb (X % 2 ^ (k + 1))).toNat) / 2 = X by omega, h3, Nat.testBit_zero, Nat.mul_add_mod,
        Nat.mod_eq_of_lt hlt]
      congr 2
      cases b <;> cases fb (X % 2 ^ (k + 1)) <;> rfl

end

/-! ### The soft bits -/

theorem depuncture_spec (P : List Nat) (hs : P.Pairwise (· < ·)) : ∀ (n r p : Nat) (input : List Int),
    At P p r → needed P r n ≤ input.length → depuncture P n r p input = some (fillZ P r n input)
  | 0, _, _, _, _, _ => rfl
  | n + 1, r, p, input, ha, hn => by
    simp only [depuncture, fillZ, needed] at hn ⊢
    by_cases hit : P[p]? = some r
    · obtain ⟨hm, ha'⟩ := at_hit hs ha hit
      rw [if_pos hm] at hn
      rw [if_pos hit, if_pos hm, depuncture_spec P hs n (r + 1) (p + 1) input ha' (by omega)]
      rfl
    · obtain ⟨hm, ha'⟩ := at_miss ha hit hs
      rw [if_neg hm] at hn
      rw [if_neg hit, if_neg hm]
      cases input with
      | nil => simp at hn
      | cons x xs =>
        simp only [List.length_cons] at hn
        simp only
        rw [depuncture_spec P hs n (r + 1) p xs ha' (by omega)]
        rfl

theorem fillZ_nil (r n : Nat) (xs : List Int) (h : n ≤ xs.length) : fillZ [] r n xs = xs.take n := by
  induction n generalizing r xs with
  | zero => simp [fillZ]
  | succ n ih =>
    cases xs with
    | nil => simp at h
    | cons x xs => simp [fillZ, ih (r + 1) xs (by simpa using h)]

theorem needed_nil (r n : Nat) : needed [] r n = n := by
  induction n generalizing r with
  | zero => rfl
  | succ n ih => simp [needed, ih]; omega

/-- number of steps of the decoder -/
def steps (c : Code) : Nat := c.len + if c.term = .flush then c.K - 1 else 0

theorem softBits_spec (c : Code) (hs : c.positions.Pairwise (· < ·)) (hk : 1 ≤ c.K) (input : List Int)
    (hn : needed c.positions 0 (steps c * c.N) ≤ input.length) :
    softBits c input = some (received c (steps c) input) := by
  have hd : decLen c = steps c := by unfold decLen steps; split <;> omega
  unfold softBits received
  rw [hd]
  cases hp : c.puncture with
  | none =>
    have : c.positions = [] := by simp [Code.positions, hp]
    rw [this, needed_nil] at hn
    simp only
    rw [if_neg (by omega), this, fillZ_nil _ _ _ hn]
  | some p =>
    have : c.positions = p := by simp [Code.positions, hp]
    simp only
    rw [this] at hs hn ⊢
    exact depuncture_spec p hs _ 0 0 input (at_zero _) hn

theorem symbols_spec (N : Nat) : ∀ (n : Nat) (seq : List Int), seq.length = n * N →
    (symbols N n seq).flatten = seq ∧ (symbols N n seq).length = n ∧
    ∀ y ∈ symbols N n seq, y.length = N ∧ ∀ v ∈ y, v ∈ seq
  | 0, seq, h => by
    have : seq = [] := List.eq_nil_of_length_eq_zero (by simpa using h)
    subst this
    simp [symbols]
  | n + 1, seq, h => by
    have hl : seq.length = N + n * N := by rw [h]; ring
    obtain ⟨a, b, e⟩ := symbols_spec N n (seq.drop N) (by rw [List.length_drop]; omega)
    refine ⟨by simp [symbols, a], by simp [symbols, b], ?_⟩
    intro y hy
    simp only [symbols, List.mem_cons] at hy
    rcases hy with rfl | hy
    · exact ⟨by rw [List.length_take]; omega, fun v hv => List.mem_of_mem_take hv⟩
    · exact ⟨(e y hy).1, fun v hv => List.mem_of_mem_drop ((e y hy).2 v hv)⟩

theorem fillZ_within {A : Int} (hA : 0 ≤ A) (P : List Nat) (r n : Nat) (xs : List Int) (h : Within A xs) :
    Within A (fillZ P r n xs) := by
  induction n generalizing r xs with
  | zero => intro v hv; simp [fillZ] at hv
  | succ n ih =>
    have ht : Within A xs.tail := fun v hv => h v (List.mem_of_mem_tail hv)
    have hh : -A ≤ xs.headD 0 ∧ xs.headD 0 ≤ A := by
      cases xs with
      | nil => simp; omega
      | cons x xs => exact h x (by simp)
    simp only [fillZ]
    split <;> intro v hv <;> rcases List.mem_cons.1 hv with rfl | hv
    · omega
    · exact ih _ _ h v hv
    · exact hh
    · exact ih _ _ ht v hv

theorem maxState_spec (l : List Int) : ∀ (i : Nat) (r : Int × Nat),
    r.1 ≤ (maxState l i r).1 ∧ (∀ (j : Nat) x, l[j]? = some x → x ≤ (maxState l i r).1) ∧
    (maxState l i r = r ∨ ∃ (j : Nat) (x : Int), l[j]? = some x ∧ maxState l i r = (x, i + j)) := by
  induction l with
  | nil => intro i r; simp [maxState]
  | cons a l ih =>
    intro i r
    obtain ⟨h1, h2, h3⟩ := ih (i + 1) (if a > r.1 then (a, i) else r)
    rw [maxState]
    generalize hq : maxState l (i + 1) (if a > r.1 then (a, i) else r) = q at *
    by_cases ha : a > r.1
    · rw [if_pos ha] at h1 h3
      simp only at h1
      refine ⟨by omega, ?_, ?_⟩
      · intro j x hx
        cases j with
        | zero => simp at hx; omega
        | succ j => exact h2 j x (by simpa using hx)
      · rcases h3 with h3 | ⟨j, x, hx, he⟩
        · exact Or.inr ⟨0, a, rfl, by rw [h3]; rfl⟩
        · exact Or.inr ⟨j + 1, x, by simpa using hx, by rw [he]; congr 1; omega⟩
    · rw [if_neg ha] at h1 h3
      refine ⟨h1, ?_, ?_⟩
      · intro j x hx
        cases j with
        | zero => simp at hx; omega
        | succ j => exact h2 j x (by simpa using hx)
      · rcases h3 with h3 | ⟨j, x, hx, he⟩
        · exact Or.inl h3
        · exact Or.inr ⟨j + 1, x, by simpa using hx, by rw [he]; congr 1; omega⟩

/-! ### The result -/

/-- the coded bits if the encoder were in state `j` first -/
def codedFrom (c : Code) (j : Nat) (bits : List Bool) : List Bool :=
  stream c j bits ++ if c.term = .flush then flushStream c (c.K - 1) (endState c j bits) else []

/-- what state 0 is ahead of the others at the beginning -/
def credit (c : Code) (s : Nat) : Int := if s = 0 then 127 * (c.N : Int) * c.K else 0

theorem coded_eq (c : Code) (ht : c.term ≠ .tailBiting) (bits : List Bool) : coded c bits = codedFrom c 0 bits := by
  unfold coded codedFrom startState
  rw [if_neg ht]

/-- The accelerated decoder applies: a shift register of 5 or 7 bits with 2 to 4
outputs, none of which is blind to the first or the last bit, with every state
within reach. -/
structure Usable (c : Code) (k : Nat) (o : Nat → List Bool) (fb : Nat → Bool) : Prop where
  reg : Reg c k o fb
  reach : ∃ L w, Reach k o L w ∧ L ≤ 57 ∧ 2 * w ≤ (k + 3) * c.N
  punct : c.positions.Pairwise (· < ·)
  nonempty : 1 ≤ c.len

theorem Reg.interval {c k o fb} (h : Reg c k o fb) : 57 ≤ interval c := by
  have hN := h.hN
  unfold ConvAcc.interval
  rw [h.hK]
  generalize c.N = N at hN
  obtain ⟨a, b⟩ := hN
  rcases h.kk with rfl | rfl <;> interval_cases N <;> decide

theorem Usable.fits {c k o fb} (h : Usable c k o fb) : ∃ L, Fits k c.N o (credit c) (interval c) L := by
  obtain ⟨L, w, h1, h2, h3⟩ := h.reach
  exact ⟨L, {
    kk := h.reg.kk
    hN := h.reg.hN
    gen := h.reg.gen
    ival := by unfold ConvAcc.interval; rw [h.reg.hK]
    reach := ⟨w, h1, by have := h.reg.interval; omega, h3⟩
    hinit := by
      intro s _
      unfold credit
      rw [h.reg.hK]
      have : (0 : Int) ≤ 127 * (c.N : Int) * ((k + 2 : Nat) : Int) := by positivity
      have e : 127 * (c.N : Int) * ((k + 2 : Nat) : Int) = ((k : Int) + 2) * (127 * c.N) := by push_cast; ring
      split <;> constructor <;> omega }⟩

theorem initSums_spec {c k o fb} (h : Usable c k o fb) (ht : c.term ≠ .tailBiting) (intrvl : Nat) :
    Sums k c.N o (credit c) intrvl 0 [] (initSums c) := by
  have hN := h.reg.hN
  have hc : i16 (127 * (c.N : Int) * c.K) = 127 * (c.N : Int) * c.K := by
    have h1 : c.N * c.K ≤ 4 * 7 := Nat.mul_le_mul hN.2 (by rw [h.reg.hK]; rcases h.reg.kk with e | e <;> omega)
    have h2 : 127 * (c.N : Int) * c.K = 127 * ((c.N * c.K : Nat) : Int) := by push_cast; ring
    rw [h2]
    exact i16_id (by omega) (by omega)
  have hpos := Nat.two_pow_pos (k + 1)
  have hS : initSums c = (127 * (c.N : Int) * c.K) :: List.replicate (2 ^ (k + 1) - 1) 0 := by
    unfold initSums
    rw [if_pos ht, hc, h.reg.hK, numStates_eq h.reg.kk]
  refine ⟨by rw [hS, List.length_cons, List.length_replicate]; omega, 0, ?_, fun h0 => absurd h0 (by omega), 0, hpos, ?_⟩
  · intro s hs
    rw [hS]
    simp only [best, credit, Int.add_zero]
    by_cases h0 : s = 0
    · subst h0
      rw [rev_zero h.reg.kk]
      simp
    · have hr0 : rev k s ≠ 0 := by
        intro he
        have := rev_rev h.reg.kk s hs
        rw [he, rev_zero h.reg.kk] at this
        exact h0 this.symm
      obtain ⟨q, hq⟩ : ∃ q, rev k s = q + 1 := ⟨rev k s - 1, by omega⟩
      have hlt := rev_lt h.reg.kk s hs
      rw [hq, List.getElem?_cons_succ, if_neg h0, List.getElem?_replicate, if_pos (by omega)]
  · simp only [best, credit, if_true]
    have : (0 : Int) ≤ 127 * (c.N : Int) * c.K := Int.mul_nonneg (Int.mul_nonneg (by omega) (by omega)) (by omega)
    omega

/-- metric of a walk that ends with the termination -/
theorem walk_total {c k o fb} (h : Usable c k o fb) (rest fs : List (List Int))
    (hf : ∀ r ∈ fs, r.length = c.N) (hr : ∀ r ∈ rest, r.length = c.N) (hfl : fs.length = if c.term = .flush then c.K - 1 else 0)
    (hrl : rest.length = c.len) (X : Nat) (hX : X < 2 ^ (c.len + (k + 1))) :
    pm k o (credit c) (X * 2 ^ fs.length) (fs ++ rest) = credit c (X / 2 ^ c.len) +
      corr (codedFrom c (X / 2 ^ c.len) (inBits k fb c.len X)) ((fs ++ rest).reverse.flatten) := by
  obtain ⟨w1, w2⟩ := walk_code h.reg rest hr X (by rw [hrl]; exact hX)
  obtain ⟨_, f2⟩ := flush_code h.reg rest fs hf X
  rw [hrl] at w1 w2
  rw [pm_init, f2, w2]
  have hd : X * 2 ^ fs.length / 2 ^ (fs ++ rest).length = X / 2 ^ c.len := by
    rw [List.length_append, hrl, Nat.pow_add, Nat.mul_comm (2 ^ fs.length), Nat.mul_div_mul_right _ _ (Nat.two_pow_pos _)]
  rw [hd, List.reverse_append, List.flatten_append]
  unfold codedFrom
  rw [corr_append]
  · rw [w1, hfl]
    by_cases hfu : c.term = .flush
    · rw [if_pos hfu, if_pos hfu]; omega
    · have : fs = [] := List.eq_nil_of_length_eq_zero (by rw [hfl, if_neg hfu])
      rw [if_neg hfu, if_neg hfu, this]
      simp only [flushStream]
      omega
  · rw [stream_length, inBits_length, flatten_len (N := c.N) _ (fun y hy => hr y (by simpa using hy))]
    simp [hrl]

/-- **The decoder in general.**  The output is best, with some first state,
among all inputs and all first states, if state 0 is ahead of the other ones by
`127 * N * K`. -/
theorem decodeAcc_best {c k o fb} (h : Usable c k o fb) (ht : c.term ≠ .tailBiting) (input : List Int)
    (hn : needed c.positions 0 (steps c * c.N) ≤ input.length) (hr : Within 127 input) :
    ∃ out j, decodeAcc c input = some (0, out) ∧ out.length = c.len ∧ j < 2 ^ (k + 1) ∧
      ∀ bits i, bits.length = c.len → i < 2 ^ (k + 1) →
        credit c i + corr (codedFrom c i bits) (received c (steps c) input) ≤
          credit c j + corr (codedFrom c j out) (received c (steps c) input) := by
  have hk := h.reg.kk
  have hK := h.reg.hK
  have hN := h.reg.hN
  obtain ⟨tr, htr, htl, hte⟩ := trellis_spec h.reg
  obtain ⟨R, hR⟩ : ∃ R, R = received c (steps c) input := ⟨_, rfl⟩
  have hRl : R.length = steps c * c.N := by rw [hR, received, fillZ_length]
  have hRw : Within 127 R := by rw [hR]; exact fillZ_within (by omega) _ _ _ _ hr
  obtain ⟨y1, y2, y3⟩ := symbols_spec c.N (steps c) R hRl
  obtain ⟨ys, hys⟩ : ∃ ys, ys = symbols c.N (steps c) R := ⟨_, rfl⟩
  rw [← hys] at y1 y2 y3
  have hd : decLen c = steps c := by unfold decLen steps; split <;> omega
  obtain ⟨F, hF⟩ : ∃ F, F = forward (2 ^ (k + 1)) (interval c) (tr.map (·.2)) 0 ys (initSums c) := ⟨_, rfl⟩
  have hdec : decodeAcc c input = some (traceback c (tr.map (·.1)) F.1 F.2) := by
    have hc : ¬ (c.N < 2 ∨ c.N > 4 ∨ c.len < 1 ∨ (c.K ≠ 5 ∧ c.K ≠ 7)) := by
      have := h.nonempty
      rw [hK]
      rcases hk with rfl | rfl <;> omega
    unfold decodeAcc
    rw [if_neg hc, htr, softBits_spec c h.punct (by omega) input hn]
    simp only [Option.map_some, convDecode]
    rw [if_neg ht, ← hR, hd, ← hys, hK, numStates_eq hk, ← hF]
  have hou : ∀ s, s < 2 ^ (k + 1) → (tr.map (·.2)).getD (rev k s) [] = (o s).map sgn := by
    intro s hs
    apply getD_of
    rw [List.getElem?_map, hte s hs]; rfl
  have hva : ∀ s, s < 2 ^ (k + 1) → (tr.map (·.1)).getD (rev k s) 0 = (s.testBit 0 ^^ fb (s / 2)).toNat := by
    intro s hs
    apply getD_of
    rw [List.getElem?_map, hte s hs]; rfl
  obtain ⟨L, hfits⟩ := h.fits
  obtain ⟨g1, g2, g3⟩ := forward_spec (init := credit c) hfits (tr.map (·.2)) hou ys 0 [] (initSums c) []
    (Or.inl rfl) (initSums_spec h ht _) trivial (by intro r hr; simp at hr)
    (fun y hy => ⟨(y3 y hy).1, fun v hv => hRw v ((y3 y hy).2 v hv)⟩)
  simp only [List.append_nil] at g1 g2 g3
  rw [← hF] at g1 g2 g3
  obtain ⟨rs, hrs⟩ : ∃ rs, rs = ys.reverse := ⟨_, rfl⟩
  rw [← hrs] at g1 g2
  have hrsl : rs.length = steps c := by rw [hrs, List.length_reverse, y2]
  have hfl : rs.reverse.flatten = R := by rw [hrs, List.reverse_reverse, y1]
  obtain ⟨m, hm⟩ : ∃ m, m = if c.term = .flush then c.K - 1 else 0 := ⟨_, rfl⟩
  have hst : steps c = c.len + m := by rw [hm]; rfl
  -- the state to begin with
  have hend : ∃ se, se < 2 ^ (k + 1) ∧ (∀ Y, best k o (credit c) rs (Y * 2 ^ m % 2 ^ (k + 1)) ≤ best k o (credit c) rs se) ∧
      (tb k o (credit c) rs se / 2 ^ m * 2 ^ m = tb k o (credit c) rs se) ∧
      traceback c (tr.map (·.1)) F.1 F.2 = (0, trace (k + 2) c.nextTerm.isSome (tr.map (·.1)) (F.2.reverse.drop m)
        (back (k + 2) (F.2.reverse.take m) (rev k se)) []) := by
    have hsk : F.2.length - c.len = m := by rw [g3, y2, hst]; omega
    by_cases hfu : c.term = .flush
    · have hm' : m = k + 1 := by rw [hm, if_pos hfu, hK]; omega
      refine ⟨0, Nat.two_pow_pos _, ?_, ?_, ?_⟩
      · intro Y
        rw [hm', Nat.mul_mod_left]
      · have := (tb_spec k o (credit c) rs 0 (Nat.two_pow_pos _)).2.1
        rw [hm']
        exact Nat.div_mul_cancel (Nat.dvd_of_mod_eq_zero this)
      · unfold traceback
        simp only [if_neg ht, hsk, hK, rev_zero hk]
        rw [if_neg (by simp [hfu]), if_neg (by simp [hfu])]
    · have hm' : m = 0 := by rw [hm, if_neg hfu]
      obtain ⟨cst, q1, _, s0, q2, q3⟩ := g1.rel
      obtain ⟨m1, m2, m3⟩ := maxState_spec F.1 0 (-1, 0)
      have hpos : 0 ≤ (maxState F.1 0 (-1, 0)).1 := Int.le_trans q3 (m2 _ _ (q1 s0 q2))
      rcases m3 with m3 | ⟨j, x, hj, hx⟩
      · rw [m3] at hpos; simp at hpos
      · have hjl : j < 2 ^ (k + 1) := by
          rw [← g1.len]; exact (List.getElem?_eq_some_iff.1 hj).1
        have hse := rev_lt hk j hjl
        have hjx : x = best k o (credit c) rs (rev k j) + cst := by
          have := q1 _ hse
          rw [rev_rev hk j hjl, hj] at this
          simpa using this
        refine ⟨rev k j, hse, ?_, ?_, ?_⟩
        · intro Y
          have hlt := Nat.mod_lt (Y * 2 ^ m) (Nat.two_pow_pos (k + 1))
          have := m2 _ _ (q1 _ hlt)
          rw [hx] at this
          simp only at this
          omega
        · rw [hm']; simp
        · rw [hx] at hpos
          simp only at hpos
          have c1 : (-1 : Int) < 0 ∧ c.term ≠ .flush := ⟨by omega, hfu⟩
          unfold traceback
          simp only [if_neg ht, hsk, hK]
          rw [if_pos c1, hx]
          simp only
          have c2 : ¬ (x < 0 ∧ c.term ≠ .flush) := by omega
          rw [if_neg c2, rev_rev hk j hjl, Nat.zero_add]
  obtain ⟨se, hse, e1, e2, e3⟩ := hend
  -- going back
  have hrow : F.2.reverse.length = rs.length := by rw [List.length_reverse, g3, y2, hrsl]
  have g2' : RowsOk k o (credit c) (F.2.reverse.take m ++ F.2.reverse.drop m) (rs.take m ++ rs.drop m) := by
    rw [List.take_append_drop, List.take_append_drop]; exact g2
  have hml : (rs.take m).length = m := by rw [List.length_take, hrsl, hst]; omega
  obtain ⟨s', b1, b2, b3, b4⟩ := back_spec hk (F.2.reverse.take m) (rs.take m) (rs.drop m) (F.2.reverse.drop m) se hse
    (by rw [List.length_take, List.length_take, hrow]) g2'
  rw [List.take_append_drop, hml] at b3
  have hrl : (rs.drop m).length = c.len := by rw [List.length_drop, hrsl, hst]; omega
  have htrace := trace_spec (o := o) (init := credit c) hk fb c.nextTerm.isSome (tr.map (·.1)) hva
    (fun hn s => h.reg.noterm (by simpa using hn) s)
    (fun hsome s hs => by
      obtain ⟨t, ht'⟩ := Option.isSome_iff_exists.1 hsome
      obtain ⟨i, hi, hz⟩ := (h.reg.term t ht').2
      rw [← xor_top hs]
      exact (fb_systematic h.reg ht' hi hz s (by rw [Nat.pow_succ]; omega)).2)
    (F.2.reverse.drop m) (rs.drop m) [] [] s' [] b1
    (by rw [List.length_drop, List.length_drop, hrow]) (by rw [List.append_nil, List.append_nil]; exact b4)
  rw [List.append_nil, List.append_nil, hrl, ← b3] at htrace
  obtain ⟨X1, hX1⟩ : ∃ X1, X1 = tb k o (credit c) rs se / 2 ^ m := ⟨_, rfl⟩
  rw [← hX1] at htrace b3 e2
  have hX1l : X1 < 2 ^ (c.len + (k + 1)) := by
    have := (tb_spec k o (credit c) (rs.drop m) s' b1).1
    rwa [← b3, hrl] at this
  have hlen : ∀ r ∈ rs, r.length = c.N := fun r hr => by
    rw [hrs] at hr
    exact (y3 r (by simpa using hr)).1
  have htot := fun X hX => walk_total h (rs.drop m) (rs.take m) (fun r hr => hlen r (List.mem_of_mem_take hr))
    (fun r hr => hlen r (List.mem_of_mem_drop hr)) (by rw [hml, hm]) hrl X hX
  simp only [List.take_append_drop, hfl, hml] at htot
  refine ⟨inBits k fb c.len X1, X1 / 2 ^ c.len, ?_, inBits_length _ _, ?_, ?_⟩
  · rw [hdec, e3, b2, htrace]
  · rw [Nat.div_lt_iff_lt_mul (Nat.two_pow_pos _), ← Nat.pow_add, Nat.add_comm]; exact hX1l
  · intro bits i hb hi
    obtain ⟨Y, w1, w2, w3⟩ := walk_of bits i hi
    rw [hb] at w1 w2 w3
    have hY := htot Y w1
    rw [w2, w3] at hY
    have hX := htot X1 hX1l
    rw [e2, (tb_spec k o (credit c) rs se hse).2.2] at hX
    rw [← hR, ← hY, ← hX]
    refine Int.le_trans (pm_le k o (credit c) rs _ ?_) (e1 Y)
    rw [hrsl, hst]
    have : 2 ^ (c.len + m + (k + 1)) = 2 ^ (c.len + (k + 1)) * 2 ^ m := by rw [← Nat.pow_add]; congr 1; omega
    rw [this]
    exact Nat.mul_lt_mul_of_pos_right w1 (Nat.two_pow_pos _)

/-- most a sequence of coded bits can reach -/
def total : List Int → Int
  | [] => 0
  | x :: xs => (if 0 ≤ x then x else -x) + total xs

/-- amount of the soft bits that speak against the coded bits -/
def against : List Bool → List Int → Int
  | b :: bs, x :: xs => (if b then (if 0 < x then x else 0) else (if x < 0 then -x else 0)) + against bs xs
  | _, _ => 0

theorem corr_le_total : ∀ (a : List Bool) (x : List Int), corr a x ≤ total x
  | [], [] => by simp [corr, total]
  | [], v :: xs => by
    have := corr_le_total [] xs
    simp only [corr, total] at *
    split <;> omega
  | _ :: _, [] => by simp [corr, total]
  | b :: a, v :: xs => by
    have := corr_le_total a xs
    simp only [corr, total]
    cases b <;> simp <;> split <;> omega

theorem corr_against : ∀ (a : List Bool) (x : List Int), a.length = x.length → corr a x = total x - 2 * against a x
  | [], [], _ => by simp [corr, total, against]
  | [], _ :: _, h => by simp at h
  | _ :: _, [], h => by simp at h
  | b :: a, v :: xs, h => by
    have := corr_against a xs (by simpa using h)
    simp only [corr, total, against, this]
    cases b <;> simp <;> split <;> split <;> omega

theorem codedFrom_length (c : Code) (j : Nat) (bits : List Bool) (hl : bits.length = c.len) :
    (codedFrom c j bits).length = steps c * c.N := by
  unfold codedFrom steps
  split <;> simp [stream_length, flushStream_length, hl] <;> ring

/-- **Maximum likelihood decoding.**  If the soft bits that speak against some
code word amount to less than half of what state 0 is ahead at the beginning,
the output has a code word as likely as any. -/
theorem decodeAcc_ml {c k o fb} (h : Usable c k o fb) (ht : c.term ≠ .tailBiting) (input : List Int)
    (hn : needed c.positions 0 (steps c * c.N) ≤ input.length) (hr : Within 127 input)
    (hex : ∃ sent, sent.length = c.len ∧ 2 * against (coded c sent) (received c (steps c) input) < 127 * (c.N : Int) * c.K) :
    ∃ out, decodeAcc c input = some (0, out) ∧ out.length = c.len ∧
      ∀ bits, bits.length = c.len →
        corr (coded c bits) (received c (steps c) input) ≤ corr (coded c out) (received c (steps c) input) := by
  obtain ⟨out, j, h1, h2, h3, h4⟩ := decodeAcc_best h ht input hn hr
  refine ⟨out, h1, h2, ?_⟩
  obtain ⟨sent, hs1, hs2⟩ := hex
  have hj : j = 0 := by
    by_contra hj
    have a := h4 sent 0 hs1 (Nat.two_pow_pos _)
    rw [coded_eq c ht] at hs2
    have b := corr_against (codedFrom c 0 sent) (received c (steps c) input)
      (by rw [codedFrom_length c 0 sent hs1, received, fillZ_length])
    have d := corr_le_total (codedFrom c j out) (received c (steps c) input)
    unfold credit at a
    rw [if_pos rfl, if_neg hj] at a
    omega
  subst hj
  intro bits hb
  have := h4 bits 0 hb (Nat.two_pow_pos _)
  rw [coded_eq c ht, coded_eq c ht]
  omega

/-- **Maximum likelihood decoding of weaker signals.**  Soft bits of at most `A`,
where no way back to state 0 costs as much as state 0 is ahead. -/
theorem decodeAcc_ml_weak {c k o fb} (h : Usable c k o fb) (ht : c.term ≠ .tailBiting) (input : List Int)
    (hn : needed c.positions 0 (steps c * c.N) ≤ input.length) {A : Int} (hA : 0 ≤ A) (hA' : A ≤ 127)
    (hr : Within A input) {L w : Nat} (hR : Return k o L w) (hL : L ≤ c.len)
    (hw : 2 * A * w < 127 * (c.N : Int) * c.K) :
    ∃ out, decodeAcc c input = some (0, out) ∧ out.length = c.len ∧
      ∀ bits, bits.length = c.len →
        corr (coded c bits) (received c (steps c) input) ≤ corr (coded c out) (received c (steps c) input) := by
  obtain ⟨out, j, h1, h2, h3, h4⟩ := decodeAcc_best h ht input hn (fun v hv => by have := hr v hv; omega)
  refine ⟨out, h1, h2, ?_⟩
  have hj : j = 0 := by
    by_contra hj
    -- the first soft bits, and the termination
    obtain ⟨R, hRe⟩ : ∃ R, R = received c (steps c) input := ⟨_, rfl⟩
    have hRl : R.length = steps c * c.N := by rw [hRe, received, fillZ_length]
    have hRw : Within A R := by rw [hRe]; exact fillZ_within hA _ _ _ _ hr
    obtain ⟨y1, y2, y3⟩ := symbols_spec c.N (steps c) R hRl
    obtain ⟨rs, hrs⟩ : ∃ rs, rs = (symbols c.N (steps c) R).reverse := ⟨_, rfl⟩
    have hrsl : rs.length = steps c := by rw [hrs, List.length_reverse, y2]
    have hfl : rs.reverse.flatten = R := by rw [hrs, List.reverse_reverse, y1]
    obtain ⟨m, hm⟩ : ∃ m, m = if c.term = .flush then c.K - 1 else 0 := ⟨_, rfl⟩
    have hst : steps c = c.len + m := by rw [hm]; rfl
    have hlen : ∀ r ∈ rs, r.length = c.N := fun r hr => by
      rw [hrs] at hr
      exact (y3 r (by simpa using hr)).1
    have hwith : ∀ r ∈ rs, Within A r := fun r hr v hv => by
      rw [hrs] at hr
      exact hRw v ((y3 r (by simpa using hr)).2 v hv)
    have hml : (rs.take m).length = m := by rw [List.length_take, hrsl, hst]; omega
    have hrl : (rs.drop m).length = c.len := by rw [List.length_drop, hrsl, hst]; omega
    have htot := fun X hX => walk_total h (rs.drop m) (rs.take m) (fun r hr => hlen r (List.mem_of_mem_take hr))
      (fun r hr => hlen r (List.mem_of_mem_drop hr)) (by rw [hml, hm]) hrl X hX
    simp only [List.take_append_drop, hfl, hml] at htot
    obtain ⟨X, w1, w2, w3⟩ := walk_of out j h3
    rw [h2] at w1 w2 w3
    have hX := htot X w1
    rw [w2, w3, pm_init] at hX
    have hXd : X * 2 ^ m / 2 ^ rs.length = j := by
      rw [hrsl, hst, Nat.pow_add, Nat.mul_div_mul_right _ _ (Nat.two_pow_pos _), w2]
    rw [hXd] at hX
    -- a competitor from state 0, which ends in the same state
    obtain ⟨Y, z1, z2, z3⟩ := from_zero h.reg.gen hA hR (rs.drop m) (fun r hr => hwith r (List.mem_of_mem_drop hr))
      (by rw [hrl]; exact hL) X (by rw [hrl]; exact w1)
    rw [hrl] at z1
    have hY := htot Y (Nat.lt_of_lt_of_le z1 (Nat.pow_le_pow_right (by omega) (by omega)))
    rw [Nat.div_eq_of_lt z1, pm_init] at hY
    have hYd : Y * 2 ^ m / 2 ^ rs.length = 0 := by
      rw [hrsl, hst, Nat.pow_add, Nat.mul_div_mul_right _ _ (Nat.two_pow_pos _), Nat.div_eq_of_lt z1]
    rw [hYd] at hY
    have fX := (flush_code h.reg (rs.drop m) (rs.take m) (fun r hr => hlen r (List.mem_of_mem_take hr)) X).2
    have fY := (flush_code h.reg (rs.drop m) (rs.take m) (fun r hr => hlen r (List.mem_of_mem_take hr)) Y).2
    rw [hml, List.take_append_drop] at fX fY
    rw [z2] at fY
    have hb := h4 (inBits k fb c.len Y) 0 (inBits_length _ _) (Nat.two_pow_pos _)
    rw [← hRe] at hb
    have hc0 : credit c 0 = 127 * (c.N : Int) * c.K := by simp [credit]
    have hcj : credit c j = 0 := by simp [credit, hj]
    omega
  subst hj
  intro bits hb
  have := h4 bits 0 hb (Nat.two_pow_pos _)
  rw [coded_eq c ht, coded_eq c ht]
  omega

end Verif.ConvAcc
