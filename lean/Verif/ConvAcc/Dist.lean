import Verif.ConvAcc.Codes
import Verif.ConvAcc.Tail
/-!
How many wrong bits the accelerated decoder corrects (C95).
-/
namespace Verif.ConvAcc
open Verif.Conv

/-! ### Distances of code words -/

/-- the coded bits of a walk of `n` steps -/
def word (k : Nat) (o : Nat → List Bool) : Nat → Nat → List Bool
  | 0, _ => []
  | n + 1, X => word k o n (X / 2) ++ o (X % 2 ^ (k + 2))

theorem weight_append (a b : List Bool) : weight (a ++ b) = weight a + weight b := by
  induction a with
  | nil => simp [weight]
  | cons x a ih => simp only [List.cons_append, weight, ih]; omega

theorem word_length {k N : Nat} {o : Nat → List Bool} (hg : Gen k N o) (n X : Nat) : (word k o n X).length = n * N := by
  induction n generalizing X with
  | zero => simp [word]
  | succ n ih =>
    rw [word, List.length_append, ih, hg.len _ (Nat.mod_lt _ (Nat.two_pow_pos _))]
    ring

theorem xor_mod_pow (a b n : Nat) : (a ^^^ b) % 2 ^ n = a % 2 ^ n ^^^ b % 2 ^ n := by
  apply Nat.eq_of_testBit_eq
  intro i
  simp only [Nat.testBit_mod_two_pow, Nat.testBit_xor]
  by_cases h : i < n <;> simp [h]

theorem eq_of_xor {a b : Nat} (h : a ^^^ b = 0) : a = b := by
  apply Nat.eq_of_testBit_eq
  intro i
  have := congrArg (fun n => n.testBit i) h
  simp only [Nat.testBit_xor, Nat.zero_testBit] at this
  cases ha : a.testBit i <;> cases hb : b.testBit i <;> simp [ha, hb] at this ⊢

theorem weight_word {k N : Nat} {o : Nat → List Bool} (hg : Gen k N o) (n X Y : Nat) :
    weight (xorL (word k o n X) (word k o n Y)) = wt k o n (X ^^^ Y) := by
  induction n generalizing X Y with
  | zero => simp [word, xorL, weight, wt]
  | succ n ih =>
    rw [word, word, wt, xor_half, xor_mod_pow, hg.lin _ _ (Nat.mod_lt _ (Nat.two_pow_pos _)) (Nat.mod_lt _ (Nat.two_pow_pos _)),
      ← ih]
    unfold xorL
    rw [List.zipWith_append (by rw [word_length hg, word_length hg]), weight_append]
    omega

/-- a word with few wrong soft bits is ahead of any word that differs in many places -/
theorem corr_gap {m : Int} : ∀ (a b : List Bool) (x : List Int), a.length = x.length → b.length = x.length →
    (∀ v ∈ x, m ≤ v ∨ v ≤ -m) →
    2 * (m * weight (xorL a b) - 2 * against a x) ≤ corr a x - corr b x
  | [], [], [], _, _, _ => by simp [xorL, weight, against, corr]
  | a :: as, b :: bs, x :: xs, ha, hb, h => by
    have ih := corr_gap as bs xs (by simpa using ha) (by simpa using hb) (fun v hv => h v (by simp [hv]))
    have hx := h x (by simp)
    have e : xorL (a :: as) (b :: bs) = (a ^^ b) :: xorL as bs := rfl
    rw [e]
    simp only [weight, against, corr]
    push_cast
    rw [Int.mul_add]
    generalize m * (weight (xorL as bs) : Int) = q at *
    cases a <;> cases b <;> simp <;> split <;> omega
  | [], _, _ :: _, h, _, _ => by simp at h
  | _ :: _, _, [], h, _, _ => by simp at h
  | [], _ :: _, [], _, h, _ => by simp at h
  | _, [], _ :: _, _, h, _ => by simp at h

section
variable {c : Code} {k : Nat} {o : Nat → List Bool} {fb : Nat → Bool} (h : Reg c k o fb)
include h

theorem stream_word (n X : Nat) (hX : X < 2 ^ (n + (k + 1))) :
    endState c (X / 2 ^ n) (inBits k fb n X) = X % 2 ^ (k + 1) ∧
    stream c (X / 2 ^ n) (inBits k fb n X) = word k o n X := by
  induction n generalizing X with
  | zero =>
    simp only [Nat.zero_add] at hX
    simp [inBits, endState, Nat.mod_eq_of_lt hX, stream, word]
  | succ n ih =>
    have hx : X / 2 < 2 ^ (n + (k + 1)) := by
      have : (2 : Nat) ^ (n + 1 + (k + 1)) = 2 ^ (n + (k + 1)) * 2 := by ring
      omega
    obtain ⟨i1, i2⟩ := ih (X / 2) hx
    have hd : X / 2 ^ (n + 1) = X / 2 / 2 ^ n := by
      rw [Nat.div_div_eq_div_mul, Nat.pow_succ, Nat.mul_comm 2]
    have hs : X / 2 % 2 ^ (k + 1) < 2 ^ (k + 1) := Nat.mod_lt _ (Nat.two_pow_pos _)
    have hb : ((X.testBit 0 ^^ fb (X / 2 % 2 ^ (k + 1))) ^^ fb (X / 2 % 2 ^ (k + 1))).toNat = X % 2 := by
      rw [Nat.testBit_zero]
      rcases Nat.mod_two_eq_zero_or_one X with e | e <;> cases fb (X / 2 % 2 ^ (k + 1)) <;> simp [e]
    have hw : 2 * (X / 2 % 2 ^ (k + 1)) + X % 2 = X % 2 ^ (k + 2) := by
      rw [show (2 : Nat) ^ (k + 2) = 2 * 2 ^ (k + 1) by ring, Nat.mod_mul]; ring
    simp only [inBits, hd, word]
    rw [endState_snoc, i1, h.next _ _ hs, stream_snoc, i1, h.out _ _ hs, hb, hw, i2]
    exact ⟨Nat.mod_mod_of_dvd _ (Nat.pow_dvd_pow 2 (by omega)), rfl⟩

theorem flush_word (n m X : Nat) :
    flushState c m (X % 2 ^ (k + 1)) = X * 2 ^ m % 2 ^ (k + 1) ∧
    word k o n X ++ flushStream c m (X % 2 ^ (k + 1)) = word k o (n + m) (X * 2 ^ m) := by
  induction m with
  | zero => simp [flushState, flushStream]
  | succ m ih =>
    obtain ⟨i1, i2⟩ := ih
    have hs : X * 2 ^ m % 2 ^ (k + 1) < 2 ^ (k + 1) := Nat.mod_lt _ (Nat.two_pow_pos _)
    obtain ⟨t1, t2⟩ := term_code h _ hs
    have hd : X * 2 ^ (m + 1) = 2 * (X * 2 ^ m) := by ring
    have hw : 2 * (X * 2 ^ m) % 2 ^ (k + 2) = 2 * (X * 2 ^ m % 2 ^ (k + 1)) := by
      rw [show (2 : Nat) ^ (k + 2) = 2 * 2 ^ (k + 1) by ring, Nat.mul_mod_mul_left]
    rw [flushState_snoc, flushStream_snoc, i1, t1, t2, hd]
    refine ⟨by rw [Nat.mul_mod_mod], ?_⟩
    rw [← List.append_assoc, i2, ← Nat.add_assoc, word, hw, show 2 * (X * 2 ^ m) / 2 = X * 2 ^ m by omega]

end

/-- no two different flushed inputs have code words with less than `d` differences -/
def FreeDist (k : Nat) (o : Nat → List Bool) (d : Nat) : Prop :=
  ∀ n e, e < 2 ^ n → e ≠ 0 → e % 2 ^ (k + 1) = 0 → d ≤ wt k o n e

theorem received_all {c : Code} (hp : c.positions = []) (n : Nat) (input : List Int) (hl : input.length = n * c.N) :
    received c n input = input := by
  unfold received
  rw [hp, ← hl]
  have : ∀ (r : Nat) (l : List Int), fillZ [] r l.length l = l := by
    intro r l
    induction l generalizing r with
    | nil => rfl
    | cons x l ih => simp [fillZ, ih]
  exact this 0 input

theorem needed_all (r n : Nat) : needed [] r n = n := by
  induction n generalizing r with
  | zero => rfl
  | succ n ih => simp [needed, ih]; omega

/-- **Error correction.**  A code that is flushed and not punctured: if the soft
bits that speak against the bits sent amount to less than half of the free
distance, and of what state 0 is ahead, the input is found. -/
theorem decodeAcc_corrects {c k o fb} (h : Usable c k o fb) (ht : c.term = .flush) (hp : c.positions = []) {d : Nat}
    (hd : FreeDist k o d) (bits : List Bool) (hb : bits.length = c.len) (input : List Int)
    (hl : input.length = steps c * c.N) (hr : Within 127 input) {m : Int} (hm : 0 ≤ m) (hmin : ∀ v ∈ input, m ≤ v ∨ v ≤ -m)
    (ha : 2 * against (coded c bits) input < m * d)
    (ha' : 2 * against (coded c bits) input < 127 * (c.N : Int) * c.K) :
    decodeAcc c input = some (0, bits) := by
  have ht' : c.term ≠ .tailBiting := by rw [ht]; decide
  have hrec := received_all hp (steps c) input hl
  obtain ⟨out, h1, h2, h3⟩ := decodeAcc_ml h ht' input (by rw [hp, needed_all, hl]) hr
    ⟨bits, hb, by rw [hrec]; exact ha'⟩
  rw [hrec] at h3
  have hle := h3 bits hb
  have hgo : out = bits := by
    by_contra hne
    have hK := h.reg.hK
    have hgen := h.reg.gen
    have hword : ∀ b : List Bool, b.length = c.len → ∃ X, X < 2 ^ c.len ∧ inBits k fb c.len X = b ∧
        coded c b = word k o (steps c) (X * 2 ^ (c.K - 1)) := by
      intro b hbl
      obtain ⟨X, x1, x2, x3⟩ := walk_of (k := k) (fb := fb) b 0 (Nat.two_pow_pos _)
      rw [hbl] at x1 x2 x3
      have hX : X < 2 ^ c.len := by
        rcases Nat.div_eq_zero_iff.1 x2 with e | e
        · have := Nat.two_pow_pos c.len; omega
        · exact e
      refine ⟨X, hX, x3, ?_⟩
      obtain ⟨s1, s2⟩ := stream_word h.reg c.len X x1
      rw [x2, x3] at s1 s2
      rw [coded_eq c ht', codedFrom, if_pos ht, s1, s2, (flush_word h.reg c.len (c.K - 1) X).2]
      unfold steps
      rw [if_pos ht]
    obtain ⟨X, x1, x2, x3⟩ := hword bits hb
    obtain ⟨Y, y1, y2, y3⟩ := hword out h2
    have hxy : X ^^^ Y ≠ 0 := by
      intro he
      have : X = Y := eq_of_xor he
      exact hne (by rw [← x2, ← y2, this])
    have hx : X * 2 ^ (c.K - 1) ^^^ Y * 2 ^ (c.K - 1) = (X ^^^ Y) * 2 ^ (c.K - 1) := by
      rw [← Nat.shiftLeft_eq, ← Nat.shiftLeft_eq, ← Nat.shiftLeft_eq, Nat.shiftLeft_xor_distrib]
    have hst : steps c = c.len + (c.K - 1) := by unfold steps; rw [if_pos ht]
    have hdist := hd (steps c) ((X ^^^ Y) * 2 ^ (c.K - 1))
      (by rw [hst, Nat.pow_add]
          exact Nat.mul_lt_mul_of_pos_right (Nat.xor_lt_two_pow x1 y1) (Nat.two_pow_pos _))
      (Nat.mul_ne_zero hxy (by have := Nat.two_pow_pos (c.K - 1); omega))
      (by rw [hK, show k + 2 - 1 = k + 1 by omega]; exact Nat.mul_mod_left _ _)
    have hgap := corr_gap (m := m) (coded c bits) (coded c out) input
      (by rw [coded_eq c ht', codedFrom_length c 0 bits hb, hl])
      (by rw [coded_eq c ht', codedFrom_length c 0 out h2, hl]) hmin
    rw [x3, y3, weight_word hgen, hx, ← x3, ← y3] at hgap
    have hq : m * (d : Int) ≤ m * (wt k o (steps c) ((X ^^^ Y) * 2 ^ (c.K - 1)) : Int) :=
      Int.mul_le_mul_of_nonneg_left (by exact_mod_cast hdist) hm
    omega
  rw [h1, hgo]

/-! ### The free distances of the codes of GSM -/

/-- lower bounds for the walks from state 0 to every state but the one that stays there -/
def freeOk (k : Nat) (ws : Nat → Nat) (t : List Nat) : Bool :=
  decide (t.getD 1 0 ≤ ws 1) && (List.range (2 ^ (k + 1))).all fun s =>
    decide (t.getD s 0 ≤ t.getD (s / 2) 0 + ws s) &&
    decide (t.getD s 0 ≤ t.getD (s / 2 + 2 ^ k) 0 + ws (s + 2 ^ (k + 1)))

theorem free_of_tab {k : Nat} {o : Nat → List Bool} {t : List Nat}
    (h : freeOk k (fun w => weight (o w)) t = true) : FreeDist k o (t.getD 0 0) := by
  unfold freeOk at h
  simp only [Bool.and_eq_true, decide_eq_true_eq, List.all_eq_true, List.mem_range] at h
  obtain ⟨h1, h2⟩ := h
  have key : ∀ n e, e < 2 ^ n → e ≠ 0 → t.getD (e % 2 ^ (k + 1)) 0 ≤ wt k o n e := by
    intro n
    induction n with
    | zero => intro e he h0; simp at he; exact absurd he h0
    | succ n ih =>
      intro e he h0
      have hp := Nat.pow_succ 2 n
      obtain ⟨q1, q2⟩ := window_split k e
      rw [wt]
      by_cases hz : e / 2 = 0
      · have : e = 1 := by omega
        subst this
        have hk1 : 1 % 2 ^ (k + 1) = 1 := Nat.mod_eq_of_lt (Nat.one_lt_two_pow (by omega))
        have hk2 : 1 % 2 ^ (k + 2) = 1 := Nat.mod_eq_of_lt (Nat.one_lt_two_pow (by omega))
        rw [hk1, hk2]
        omega
      · have hi := ih (e / 2) (by omega) hz
        obtain ⟨a1, a2⟩ := h2 (e % 2 ^ (k + 1)) (Nat.mod_lt _ (Nat.two_pow_pos _))
        rw [q1] at hi
        rw [q2]
        have hb : e / 2 ^ (k + 1) % 2 = 0 ∨ e / 2 ^ (k + 1) % 2 = 1 := by omega
        rcases hb with b | b <;> rw [b] at hi ⊢ <;> simp only [Nat.zero_mul, Nat.add_zero, Nat.one_mul] at hi ⊢ <;> omega
  intro n e he h0 hm
  have := key n e he h0
  rwa [hm] at this

/-- for every code the number of errors corrected, and the bounds -/
def gsmFree : List (List (Nat × Nat) × Nat × List Nat) :=
  [([(G0, 1), (G1, 1)], 3,
    [7, 2, 3, 3, 3, 5, 4, 4, 5, 3, 5, 5, 5, 4, 5, 5]),
   ([(G1, 1), (G2, 1), (G3, 1)], 5,
    [12, 3, 5, 4, 7, 6, 6, 5, 9, 8, 6, 7, 8, 7, 7, 6]),
   ([(1, 1), (G1, G0)], 3,
    [7, 2, 3, 3, 3, 5, 4, 4, 5, 3, 5, 5, 5, 4, 5, 5]),
   ([(G1, G3), (G2, G3), (1, 1)], 5,
    [12, 3, 5, 4, 7, 6, 6, 5, 9, 8, 6, 7, 8, 7, 7, 6]),
   ([(1, 1), (G5, G4), (G6, G4)], 7,
    [15, 3, 5, 4, 7, 6, 6, 5, 9, 8, 8, 7, 6, 9, 7, 6, 11, 10, 8, 11, 10, 9, 9, 8, 8, 7, 11, 10, 9, 8, 6, 8,
     12, 11, 8, 10, 9, 9, 11, 10, 11, 11, 10, 10, 10, 10, 8, 8, 10, 8, 8, 9, 10, 9, 9, 8, 10, 10, 8, 7, 9, 6, 9, 10]),
   ([(G1, G3), (G2, G3), (1, 1), (1, 1)], 6,
    [14, 4, 7, 5, 9, 8, 7, 7, 10, 10, 8, 9, 9, 9, 9, 8]),
   ([(G4, G6), (G5, G6), (1, 1), (1, 1)], 9,
    [20, 4, 7, 5, 10, 8, 7, 7, 13, 11, 10, 10, 7, 11, 10, 8, 15, 14, 11, 14, 12, 12, 13, 11, 9, 9, 14, 12, 13, 11, 8, 11,
     16, 14, 9, 13, 12, 12, 15, 13, 14, 14, 13, 12, 14, 13, 12, 11, 13, 9, 10, 12, 13, 11, 12, 12, 14, 13, 10, 10, 12, 8, 12, 14]),
   ([(G4, 1), (G5, 1), (G6, 1)], 7,
    [15, 3, 5, 4, 7, 6, 6, 5, 9, 8, 8, 7, 6, 9, 7, 6, 11, 10, 8, 11, 10, 9, 9, 8, 8, 7, 11, 10, 9, 8, 6, 8,
     12, 11, 8, 10, 9, 9, 11, 10, 11, 11, 10, 10, 10, 10, 8, 8, 10, 8, 8, 9, 10, 9, 9, 8, 10, 10, 8, 7, 9, 6, 9, 10]),
   ([(G4, 1), (G7, 1), (G5, 1)], 6,
    [14, 3, 5, 4, 7, 6, 6, 5, 9, 8, 8, 7, 6, 9, 7, 6, 10, 11, 9, 10, 9, 8, 8, 9, 9, 6, 10, 11, 8, 9, 7, 8,
     11, 12, 10, 11, 10, 9, 9, 8, 10, 11, 9, 10, 9, 10, 8, 9, 11, 10, 8, 7, 10, 11, 11, 8, 10, 9, 9, 8, 9, 8, 10, 9])]

theorem gsmFree_polys : gsmFree.map (·.1) = gsmPolys := rfl

theorem gsmFree_checks : ∀ p ∈ gsmFree, freeOk (degK p.1) (fun w => weight (polyOut p.1 w)) p.2.2 = true ∧
    2 * p.2.1 < p.2.2.getD 0 0 ∧ 2 * p.2.1 < p.1.length * polyK p.1 := by
  decide +kernel

/-- wrong bits against what was sent -/
theorem against_errors : ∀ (a errs : List Bool), a.length = errs.length →
    against a ((xorL a errs).map soft) = 127 * (weight errs : Int)
  | [], [], _ => rfl
  | a :: as, e :: es, h => by
    have ih := against_errors as es (by simpa using h)
    have e1 : (xorL (a :: as) (e :: es)).map soft = soft (a ^^ e) :: (xorL as es).map soft := rfl
    rw [e1]
    simp only [against, weight, ih]
    push_cast
    cases a <;> cases e <;> simp [soft] <;> omega
  | [], _ :: _, h => by simp at h
  | _ :: _, [], h => by simp at h

/-- **Wrong bits are corrected**: up to 3 for the signalling channels and
TCH/F9.6, 5 for TCH/F4.8, and so on, wherever they are, whatever the length. -/
theorem gsm_corrects (p : List (Nat × Nat) × Nat × List Nat) (hp : p ∈ gsmFree) (len : Nat) (hl : 1 ≤ len)
    (bits sent errs : List Bool) (hb : bits.length = len) (henc : encode (genCode p.1 len .flush none) bits = some sent)
    (he : errs.length = sent.length) (hw : weight errs ≤ p.2.1) :
    decodeAcc (genCode p.1 len .flush none) ((xorL sent errs).map soft) = some (0, bits) := by
  obtain ⟨f1, f2, f3⟩ := gsmFree_checks p hp
  have hmem : p.1 ∈ gsmPolys := by rw [← gsmFree_polys]; exact List.mem_map.2 ⟨p, hp, rfl⟩
  have hu := gsm_usable p.1 hmem len hl .flush none (by simp)
  have hpos : (genCode p.1 len .flush none).positions = [] := rfl
  have hcl : (coded (genCode p.1 len .flush none) bits).length = steps (genCode p.1 len .flush none) * p.1.length := by
    rw [coded_eq _ (show Term.flush ≠ Term.tailBiting by decide), codedFrom_length _ 0 bits hb]; rfl
  have hk0 : ∀ (r : Nat) (l : List Bool), keep [] r l = l := by
    intro r l
    induction l generalizing r with
    | nil => rfl
    | cons x l ih => simp [keep, ih]
  have hsent : sent = coded (genCode p.1 len .flush none) bits := by
    rw [encode_spec _ (by simp [hpos]) bits hb (by rw [hu.reg.hK]; omega) (fun h' => by cases h')] at henc
    rw [← Option.some.inj henc, hpos, hk0]
  subst hsent
  have hxl : (xorL (coded (genCode p.1 len .flush none) bits) errs).length =
      steps (genCode p.1 len .flush none) * p.1.length := by
    unfold xorL
    rw [List.length_zipWith, he, Nat.min_self, hcl]
  have hag := against_errors (coded (genCode p.1 len .flush none) bits) errs he.symm
  have hKK : (genCode p.1 len .flush none).K = polyK p.1 := rfl
  have hNN : (genCode p.1 len .flush none).N = p.1.length := rfl
  refine decodeAcc_corrects hu rfl hpos (free_of_tab f1) bits hb _ (by rw [List.length_map, hxl, hNN]) ?_ (m := 127) (by omega) ?_ ?_ ?_
  · intro v hv
    obtain ⟨b, _, rfl⟩ := List.mem_map.1 hv
    cases b <;> simp [soft]
  · intro v hv
    obtain ⟨b, _, rfl⟩ := List.mem_map.1 hv
    cases b <;> simp [soft]
  · rw [hag]; omega
  · rw [hag, hKK, hNN]
    have : (2 * (p.2.1 : Int)) < ((p.1.length * polyK p.1 : Nat) : Int) := by exact_mod_cast f3
    have e : 127 * (p.1.length : Int) * (polyK p.1 : Int) = 127 * ((p.1.length * polyK p.1 : Nat) : Int) := by push_cast; ring
    rw [e]
    omega

/-! ### Tail biting -/

/-- the code words of any two walks of at least `L` steps, from whatever states,
differ in at least `d` places -/
def AnyDist (k : Nat) (o : Nat → List Bool) (L d : Nat) : Prop :=
  ∀ n e, L ≤ n → e < 2 ^ (n + (k + 1)) → e ≠ 0 → d ≤ wt k o n e

/-- least weights of walks to every state but the one that always is in state 0, one step more -/
def anyStep (k : Nat) (ws : Nat → Nat) (tab : List Nat) : List Nat :=
  (List.range (2 ^ (k + 1))).map fun s =>
    min (min (tab.getD (s / 2) 0 + ws s) (tab.getD (s / 2 + 2 ^ k) 0 + ws (s + 2 ^ (k + 1)))) (if s = 1 then ws 1 else 99)

theorem any_tab (k : Nat) (o : Nat → List Bool) (n : Nat) : ∀ e, e < 2 ^ (n + (k + 1)) → e ≠ 0 →
    (tabAfter (anyStep k fun w => weight (o w)) n [99]).getD (e % 2 ^ (k + 1)) 0 ≤ wt k o n e := by
  induction n with
  | zero =>
    intro e he h0
    simp only [Nat.zero_add] at he
    rw [Nat.mod_eq_of_lt he]
    obtain ⟨q, rfl⟩ : ∃ q, e = q + 1 := ⟨e - 1, by omega⟩
    simp [tabAfter]
  | succ n ih =>
    intro e he h0
    rw [tabAfter_succ]
    generalize tabAfter (anyStep k fun w => weight (o w)) n [99] = T at *
    unfold anyStep
    rw [getD_map_range _ (Nat.mod_lt _ (Nat.two_pow_pos _)), wt]
    obtain ⟨q1, q2⟩ := window_split k e
    by_cases hz : e / 2 = 0
    · have : e = 1 := by omega
      subst this
      have hk1 : 1 % 2 ^ (k + 1) = 1 := Nat.mod_eq_of_lt (Nat.one_lt_two_pow (by omega))
      have hk2 : 1 % 2 ^ (k + 2) = 1 := Nat.mod_eq_of_lt (Nat.one_lt_two_pow (by omega))
      rw [hk1, hk2, if_pos rfl]
      exact Nat.le_trans (Nat.min_le_right _ _) (Nat.le_add_right _ _)
    · have hp : (2 : Nat) ^ (n + 1 + (k + 1)) = 2 ^ (n + (k + 1)) * 2 := by ring
      have hi := ih (e / 2) (by omega) hz
      rw [q1] at hi
      rw [q2]
      have hb : e / 2 ^ (k + 1) % 2 = 0 ∨ e / 2 ^ (k + 1) % 2 = 1 := by omega
      rcases hb with b | b <;> rw [b] at hi ⊢ <;> simp only [Nat.zero_mul, Nat.add_zero, Nat.one_mul] at hi ⊢ <;> omega

theorem any_of_tab {k : Nat} {o : Nat → List Bool} {L d : Nat} (h1 : d ≤ weight (o 1))
    (h : (List.range (2 ^ (k + 1))).all (fun s =>
      decide (d ≤ (tabAfter (anyStep k fun w => weight (o w)) L [99]).getD s 0)) = true) : AnyDist k o L d := by
  intro n e hn
  induction n, hn using Nat.le_induction generalizing e with
  | base =>
    intro he h0
    have := any_tab k o L e he h0
    rw [List.all_eq_true] at h
    have h2 := h (e % 2 ^ (k + 1)) (by simpa using Nat.mod_lt _ (Nat.two_pow_pos _))
    simp only [decide_eq_true_eq] at h2
    omega
  | succ n hn ih =>
    intro he h0
    rw [wt]
    by_cases hz : e / 2 = 0
    · have : e = 1 := by omega
      subst this
      have hk2 : 1 % 2 ^ (k + 2) = 1 := Nat.mod_eq_of_lt (Nat.one_lt_two_pow (by omega))
      rw [hk2]
      omega
    · have hp : (2 : Nat) ^ (n + 1 + (k + 1)) = 2 ^ (n + (k + 1)) * 2 := by ring
      have := ih (e / 2) (by omega) hz
      omega

/-- **Error correction, tail biting.** -/
theorem decodeAcc_tailBiting_corrects {c k o fb} (h : Usable c k o fb) (ht : c.term = .tailBiting)
    (hnt : c.nextTerm = none) (hp : c.positions = []) {L w d : Nat} (hR : Reach k o L w) (hL : L ≤ 57)
    (hw : 2 * w ≤ (k + 3) * c.N) (hlen : L ≤ c.len) (hlk : c.K - 1 ≤ c.len) (hd : AnyDist k o L d)
    (bits : List Bool) (hb : bits.length = c.len) (input : List Int) (hl : input.length = c.len * c.N)
    (hr : Within 127 input) {m : Int} (hm : 0 ≤ m) (hmin : ∀ v ∈ input, m ≤ v ∨ v ≤ -m)
    (ha : 2 * against (coded c bits) input < m * d) :
    decodeAcc c input = some (0, bits) := by
  have hK := h.reg.hK
  have hkk := h.reg.kk
  have hgen := h.reg.gen
  have hns : nStates c = 2 ^ (k + 1) := by unfold nStates; rw [hK]; congr 1
  have hsr : ShiftRegister c := by
    intro s b hs
    rw [hns] at hs ⊢
    rw [h.reg.next s b hs, h.reg.noterm hnt]
    simp
  obtain ⟨c1, c2⟩ := tailBiting_circular c hsr ht (by omega) (by omega) hlk bits hb
  rw [hns] at c2
  have hst : steps c = c.len := by unfold steps; rw [if_neg (by rw [ht]; decide)]; omega
  have hrec : received c (steps c) input = input := received_all hp _ input (by rw [hst]; exact hl)
  have hcd : coded c bits = stream c (startState c bits) bits := by
    unfold coded
    rw [if_neg (by rw [ht]; decide), List.append_nil]
  rw [hcd] at ha
  refine decodeAcc_tailBiting_ml h ht hR hL hw hlen input (by rw [hp, needed_all, hst, hl]) hr bits hb (startState c bits) c2 c1 ?_
  intro i other hi ho hne
  rw [hrec]
  obtain ⟨X, x1, x2, x3⟩ := walk_of (k := k) (fb := fb) bits (startState c bits) c2
  obtain ⟨Y, y1, y2, y3⟩ := walk_of (k := k) (fb := fb) other i hi
  rw [hb] at x1 x2 x3
  rw [ho] at y1 y2 y3
  have sX := (stream_word h.reg c.len X x1).2
  have sY := (stream_word h.reg c.len Y y1).2
  rw [x2, x3] at sX
  rw [y2, y3] at sY
  have hxy : X ^^^ Y ≠ 0 := by
    intro he
    have he' : X = Y := eq_of_xor he
    exact hne ⟨by rw [← y2, ← x2, he'], by rw [← y3, ← x3, he']⟩
  have hdist := hd c.len (X ^^^ Y) hlen (Nat.xor_lt_two_pow x1 y1) hxy
  have hgap := corr_gap (m := m) (stream c (startState c bits) bits) (stream c i other) input
    (by rw [stream_length, hb, hl]) (by rw [stream_length, ho, hl]) hmin
  have hwx : weight (xorL (stream c (startState c bits) bits) (stream c i other)) = wt k o c.len (X ^^^ Y) := by
    rw [sX, sY, weight_word hgen]
  rw [hwx] at hgap
  have hq : m * (d : Int) ≤ m * (wt k o c.len (X ^^^ Y) : Int) :=
    Int.mul_le_mul_of_nonneg_left (by exact_mod_cast hdist) hm
  omega

/-- the polynomials of the headers of EDGE blocks: utils/conv_codes_gsm.py:23-27 -/
def mcsPolys : List (Nat × Nat) := [(G4, 1), (G7, 1), (G5, 1)]

theorem mcs_any : AnyDist 5 (polyOut mcsPolys) 8 3 := by
  apply any_of_tab <;> decide +kernel

/-- **Headers of EDGE blocks.**  Tail biting, of any length from 8 on: what was
sent is found, even if one bit is wrong. -/
theorem mcs_header_corrects (len : Nat) (hl : 8 ≤ len) (bits sent errs : List Bool) (hb : bits.length = len)
    (henc : encode (genCode mcsPolys len .tailBiting none) bits = some sent) (he : errs.length = sent.length)
    (hw : weight errs ≤ 1) :
    decodeAcc (genCode mcsPolys len .tailBiting none) ((xorL sent errs).map soft) = some (0, bits) := by
  have hmem : mcsPolys ∈ gsmPolys := by decide +kernel
  have hu := gsm_usable mcsPolys hmem len (by omega) .tailBiting none (by simp)
  have hpos : (genCode mcsPolys len .tailBiting none).positions = [] := rfl
  have hk5 : degK mcsPolys = 5 := by decide +kernel
  rw [hk5] at hu
  have hKK : (genCode mcsPolys len .tailBiting none).K = 7 := hu.reg.hK
  have hNN : (genCode mcsPolys len .tailBiting none).N = 3 := rfl
  have hLL : (genCode mcsPolys len .tailBiting none).len = len := rfl
  have hR : Reach 5 (polyOut mcsPolys) 8 12 := by
    have := (gsm_checks mcsPolys hmem).2.1
    have hgw : gsmWeight mcsPolys = 12 := by decide +kernel
    rw [hk5, hgw] at this
    exact reach_of_tab (by omega) this
  have hcl : (coded (genCode mcsPolys len .tailBiting none) bits).length = len * 3 := by
    have hcd : coded (genCode mcsPolys len .tailBiting none) bits =
        stream (genCode mcsPolys len .tailBiting none) (startState (genCode mcsPolys len .tailBiting none) bits) bits := by
      unfold coded
      have htt : (genCode mcsPolys len .tailBiting none).term = .tailBiting := rfl
      rw [if_neg (by rw [htt]; decide), List.append_nil]
    rw [hcd, stream_length, hb, hNN]
  have hk0 : ∀ (r : Nat) (l : List Bool), keep [] r l = l := by
    intro r l
    induction l generalizing r with
    | nil => rfl
    | cons x l ih => simp [keep, ih]
  have hsent : sent = coded (genCode mcsPolys len .tailBiting none) bits := by
    rw [encode_spec _ (by simp [hpos]) bits hb (by rw [hKK]; omega) (fun _ => by rw [hKK, hLL]; omega)] at henc
    rw [← Option.some.inj henc, hpos, hk0]
  subst hsent
  have hag := against_errors (coded (genCode mcsPolys len .tailBiting none) bits) errs he.symm
  refine decodeAcc_tailBiting_corrects hu rfl rfl hpos hR (by omega) (by rw [hNN]) (by rw [hLL]; omega)
    (by rw [hKK, hLL]; omega) mcs_any bits hb _ ?_ ?_ (m := 127) (by omega) ?_ ?_
  · unfold xorL
    rw [List.length_map, List.length_zipWith, he, Nat.min_self, hcl, hNN, hLL]
  · intro v hv
    obtain ⟨b, _, rfl⟩ := List.mem_map.1 hv
    cases b <;> simp [soft]
  · intro v hv
    obtain ⟨b, _, rfl⟩ := List.mem_map.1 hv
    cases b <;> simp [soft]
  · rw [hag]; omega

/-! ### Examples -/

/-- three wrong bits in a block of the code of xcch are corrected; four are too many -/
example :
    encode (genCode [(G0, 1), (G1, 1)] 5 .flush none) [true, false, true, true, false] =
      some [true, true, false, true, true, true, false, true, true, false, true, true, false, false, true, true, false, false] ∧
    decodeAcc (genCode [(G0, 1), (G1, 1)] 5 .flush none)
        ([false, true, true, true, true, true, true, true, true, false, true, true, false, false, true, true, false, false].map soft) =
      some (0, [true, false, true, true, false]) ∧
    decodeAcc (genCode [(G0, 1), (G1, 1)] 5 .flush none)
        ([false, false, false, false, true, true, true, true, true, false, true, true, false, false, true, true, false, false].map soft) =
      some (0, [false, false, true, true, false]) := by
  decide +kernel

/-- a recursive code, punctured and truncated -/
example :
    encode (genCode [(1, 1), (G1, G0)] 6 .truncation (some [3, 6])) [true, true, false, true, false, false] =
      some [true, true, true, false, true, true, false, false, false, false] ∧
    decodeAcc (genCode [(1, 1), (G1, G0)] 6 .truncation (some [3, 6]))
        ([true, true, true, false, true, true, false, false, false, false].map soft) =
      some (0, [true, true, false, true, false, false]) := by
  decide +kernel

/-- a tail biting header with one wrong bit -/
example :
    encode (genCode mcsPolys 8 .tailBiting none) [true, true, false, true, false, false, true, true] =
      some [true, true, false, false, true, true, false, true, false, false, true, false, true, true, true, true, false,
        false, false, true, false, false, true, false] ∧
    decodeAcc (genCode mcsPolys 8 .tailBiting none)
        ([true, true, false, false, true, false, false, true, false, false, true, false, true, true, true, true, false,
          false, false, true, false, false, true, false].map soft) =
      some (0, [true, true, false, true, false, false, true, true]) := by
  decide +kernel

/-- others are refused -/
example : decodeAcc (genCode [(G0, 1)] 5 .flush none) [1, 2, 3] = some (-22, []) := by decide +kernel

end Verif.ConvAcc
