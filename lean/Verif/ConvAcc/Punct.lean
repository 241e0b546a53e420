import Verif.ConvAcc.Dist
/-!
C104: how many wrong bits the accelerated decoder corrects when bits are punctured.  The least weight
of the words that are left is found by a run over all states, checked step by step.
-/
namespace Verif.ConvAcc
open Verif.Conv

/-! ### What is left after puncturing -/

theorem corr_fill (P : List Nat) : ∀ (a : List Bool) (r : Nat) (xs : List Int),
    xs.length = needed P r a.length → corr a (fillZ P r a.length xs) = corr (keep P r a) xs
  | [], r, xs, _ => by simp [keep, corr]
  | b :: a, r, xs, h => by
    simp only [List.length_cons, fillZ, keep]
    simp only [List.length_cons, needed] at h
    by_cases hr : r ∈ P
    · simp only [hr, if_true, corr]
      simp only [hr, if_true, Nat.zero_add] at h
      rw [corr_fill P a (r + 1) xs h]
      split <;> simp
    · simp only [hr, if_false] at h ⊢
      cases xs with
      | nil => simp at h; omega
      | cons x xs =>
        simp only [List.length_cons] at h
        simp only [List.headD_cons, List.tail_cons, corr]
        rw [corr_fill P a (r + 1) xs (by omega)]

theorem against_fill (P : List Nat) : ∀ (a : List Bool) (r : Nat) (xs : List Int),
    xs.length = needed P r a.length → against a (fillZ P r a.length xs) = against (keep P r a) xs
  | [], r, xs, _ => by simp [keep, against]
  | b :: a, r, xs, h => by
    simp only [List.length_cons, fillZ, keep]
    simp only [List.length_cons, needed] at h
    by_cases hr : r ∈ P
    · simp only [hr, if_true, against]
      simp only [hr, if_true, Nat.zero_add] at h
      rw [against_fill P a (r + 1) xs h]
      split <;> simp
    · simp only [hr, if_false] at h ⊢
      cases xs with
      | nil => simp at h; omega
      | cons x xs =>
        simp only [List.length_cons] at h
        simp only [List.headD_cons, List.tail_cons, against]
        rw [against_fill P a (r + 1) xs (by omega)]
        rfl

theorem keep_needed (P : List Nat) : ∀ (a : List Bool) (r : Nat), (keep P r a).length = needed P r a.length
  | [], r => by simp [keep, needed]
  | b :: a, r => by
    simp only [List.length_cons, keep, needed]
    by_cases hr : r ∈ P
    · simp only [hr, if_true]; rw [keep_needed P a (r + 1)]; omega
    · simp only [hr, if_false, List.length_cons]; rw [keep_needed P a (r + 1)]; omega

theorem keep_xor (P : List Nat) : ∀ (a b : List Bool) (r : Nat), a.length = b.length →
    xorL (keep P r a) (keep P r b) = keep P r (xorL a b)
  | [], [], _, _ => rfl
  | x :: a, y :: b, r, h => by
    have ih := keep_xor P a b (r + 1) (by simpa using h)
    have e : xorL (x :: a) (y :: b) = (x ^^ y) :: xorL a b := rfl
    rw [e]
    simp only [keep]
    by_cases hr : r ∈ P
    · simp only [hr, if_true]; exact ih
    · simp only [hr, if_false]
      rw [← ih]
      rfl
  | [], _ :: _, _, h => by simp at h
  | _ :: _, [], _, h => by simp at h

theorem word_xor {k N : Nat} {o : Nat → List Bool} (hg : Gen k N o) (n X Y : Nat) :
    xorL (word k o n X) (word k o n Y) = word k o n (X ^^^ Y) := by
  induction n generalizing X Y with
  | zero => rfl
  | succ n ih =>
    rw [word, word, word, xor_half, xor_mod_pow, hg.lin _ _ (Nat.mod_lt _ (Nat.two_pow_pos _)) (Nat.mod_lt _ (Nat.two_pow_pos _)),
      ← ih]
    unfold xorL
    rw [List.zipWith_append (by rw [word_length hg, word_length hg])]

/-- no two different flushed inputs of `n` steps have code words with less than `d` differences in what is left of them -/
def LeftDist (k : Nat) (o : Nat → List Bool) (P : List Nat) (n d : Nat) : Prop :=
  ∀ e, e < 2 ^ n → e ≠ 0 → e % 2 ^ (k + 1) = 0 → d ≤ weight (keep P 0 (word k o n e))

theorem coded_word {c k o fb} (h : Reg c k o fb) (ht : c.term = .flush) (b : List Bool) (hbl : b.length = c.len) :
    ∃ X, X < 2 ^ c.len ∧ inBits k fb c.len X = b ∧ coded c b = word k o (steps c) (X * 2 ^ (c.K - 1)) := by
  have ht' : c.term ≠ .tailBiting := by rw [ht]; decide
  obtain ⟨X, x1, x2, x3⟩ := walk_of (k := k) (fb := fb) b 0 (Nat.two_pow_pos _)
  rw [hbl] at x1 x2 x3
  have hX : X < 2 ^ c.len := by
    rcases Nat.div_eq_zero_iff.1 x2 with e | e
    · have := Nat.two_pow_pos c.len; omega
    · exact e
  refine ⟨X, hX, x3, ?_⟩
  obtain ⟨s1, s2⟩ := stream_word h c.len X x1
  rw [x2, x3] at s1 s2
  rw [coded_eq c ht', codedFrom, if_pos ht, s1, s2, (flush_word h c.len (c.K - 1) X).2]
  unfold steps
  rw [if_pos ht]

/-- **Error correction, with puncturing.**  If the soft bits that speak against the bits sent amount to less than half of the
distance of what is sent, and of what state 0 is ahead, the input is found. -/
theorem decodeAcc_left_corrects {c k o fb} (h : Usable c k o fb) (ht : c.term = .flush) {d : Nat}
    (hd : LeftDist k o c.positions (steps c) d) (bits : List Bool) (hb : bits.length = c.len) (input : List Int)
    (hl : input.length = needed c.positions 0 (steps c * c.N)) (hr : Within 127 input) {m : Int} (hm : 0 ≤ m)
    (hmin : ∀ v ∈ input, m ≤ v ∨ v ≤ -m)
    (ha : 2 * against (keep c.positions 0 (coded c bits)) input < m * d)
    (ha' : 2 * against (keep c.positions 0 (coded c bits)) input < 127 * (c.N : Int) * c.K) :
    decodeAcc c input = some (0, bits) := by
  have ht' : c.term ≠ .tailBiting := by rw [ht]; decide
  have hcl : ∀ b : List Bool, b.length = c.len → (coded c b).length = steps c * c.N := by
    intro b hbl
    rw [coded_eq c ht', codedFrom_length c 0 b hbl]
  have hkl : ∀ b : List Bool, b.length = c.len → (keep c.positions 0 (coded c b)).length = input.length := by
    intro b hbl
    rw [keep_needed, hcl b hbl, hl]
  have hag : ∀ b : List Bool, b.length = c.len →
      against (coded c b) (received c (steps c) input) = against (keep c.positions 0 (coded c b)) input := by
    intro b hbl
    rw [received, ← hcl b hbl]
    exact against_fill _ _ _ _ (by rw [hcl b hbl, hl])
  have hco : ∀ b : List Bool, b.length = c.len →
      corr (coded c b) (received c (steps c) input) = corr (keep c.positions 0 (coded c b)) input := by
    intro b hbl
    rw [received, ← hcl b hbl]
    exact corr_fill _ _ _ _ (by rw [hcl b hbl, hl])
  obtain ⟨out, h1, h2, h3⟩ := decodeAcc_ml h ht' input (by rw [hl]) hr ⟨bits, hb, by rw [hag bits hb]; exact ha'⟩
  have hle := h3 bits hb
  rw [hco bits hb, hco out h2] at hle
  have hgo : out = bits := by
    by_contra hne
    have hK := h.reg.hK
    have hgen := h.reg.gen
    obtain ⟨X, x1, x2, x3⟩ := coded_word h.reg ht bits hb
    obtain ⟨Y, y1, y2, y3⟩ := coded_word h.reg ht out h2
    have hxy : X ^^^ Y ≠ 0 := by
      intro he
      have : X = Y := eq_of_xor he
      exact hne (by rw [← x2, ← y2, this])
    have hx : X * 2 ^ (c.K - 1) ^^^ Y * 2 ^ (c.K - 1) = (X ^^^ Y) * 2 ^ (c.K - 1) := by
      rw [← Nat.shiftLeft_eq, ← Nat.shiftLeft_eq, ← Nat.shiftLeft_eq, Nat.shiftLeft_xor_distrib]
    have hst : steps c = c.len + (c.K - 1) := by unfold steps; rw [if_pos ht]
    have hdist := hd ((X ^^^ Y) * 2 ^ (c.K - 1))
      (by rw [hst, Nat.pow_add]
          exact Nat.mul_lt_mul_of_pos_right (Nat.xor_lt_two_pow x1 y1) (Nat.two_pow_pos _))
      (Nat.mul_ne_zero hxy (by have := Nat.two_pow_pos (c.K - 1); omega))
      (by rw [hK, show k + 2 - 1 = k + 1 by omega]; exact Nat.mul_mod_left _ _)
    have hgap := corr_gap (m := m) (keep c.positions 0 (coded c bits)) (keep c.positions 0 (coded c out)) input
      (hkl bits hb) (hkl out h2) hmin
    rw [keep_xor _ _ _ _ (by rw [hcl bits hb, hcl out h2]), x3, y3, word_xor hgen, hx, ← x3, ← y3] at hgap
    have hq : m * (d : Int) ≤ m * (weight (keep c.positions 0 (word k o (steps c) ((X ^^^ Y) * 2 ^ (c.K - 1)))) : Int) :=
      Int.mul_le_mul_of_nonneg_left (by exact_mod_cast hdist) hm
    omega
  rw [h1, hgo]

/-! ### The least weight, step by step -/

/-- a table of bytes in one number -/
def byteAt (T s : Nat) : Nat := (T >>> (8 * s)) &&& 255

/-- a table of half bytes in one number -/
def nibAt (T s : Nat) : Nat := (T >>> (4 * s)) &&& 15

/-- number of ones not punctured -/
def wOf : Nat → List Bool → Nat
  | _, [] => 0
  | m, b :: bs => (b && !m.testBit 0).toNat + wOf (m / 2) bs

/-- a number computed once -/
def force {α : Type} (n : Nat) (f : Nat → α) : α :=
  match n with
  | 0 => f 0
  | m + 1 => f (m + 1)

theorem force_eq {α : Type} (n : Nat) (f : Nat → α) : force n f = f n := by cases n <;> rfl

def least (a b : Nat) : Nat := bif a.ble b then a else b

/-- the weights of the walks to every state, one step more -/
def nextTab (k wt T : Nat) : Nat :=
  (List.range (2 ^ (k + 1))).foldl (fun acc s =>
    acc + (least (least (byteAt T (s / 2) + nibAt wt s) (byteAt T (s / 2 + 2 ^ k) + nibAt wt (s + 2 ^ (k + 1))))
      (bif s.beq 1 then nibAt wt 1 else 255)) <<< (8 * s)) 0

/-- it is a lower bound -/
def stepOk (k wt T T' : Nat) : Bool :=
  (byteAt T' 1).ble (nibAt wt 1) && (List.range (2 ^ (k + 1))).all fun s =>
    (byteAt T' s).ble (byteAt T (s / 2) + nibAt wt s) && (byteAt T' s).ble (byteAt T (s / 2 + 2 ^ k) + nibAt wt (s + 2 ^ (k + 1)))

/-- `tabs` has the weights of the symbols for every way they are punctured; `pm` the positions punctured -/
def dpRun (k N : Nat) (tabs : List (Nat × Nat)) (pm : Nat) : Nat → Nat → Nat → Option Nat
  | 0, _, T => some T
  | n + 1, i, T =>
    match tabs.lookup ((pm >>> (i * N)) &&& (2 ^ N - 1)) with
    | none => none
    | some wt => force (nextTab k wt T) fun T' => bif stepOk k wt T T' then dpRun k N tabs pm n (i + 1) T' else none

/-- the tables are right -/
def tabsOk (k : Nat) (outs : List (List Bool)) (tabs : List (Nat × Nat)) : Bool :=
  tabs.all fun p => (outs.zip (List.range (2 ^ (k + 2)))).all fun q => (nibAt p.2 q.2).ble (wOf p.1 q.1)

theorem wOf_keep {P : List Nat} {pm : Nat} (hp : ∀ x ∈ P, pm.testBit x = true) : ∀ (a : List Bool) (r : Nat),
    wOf (pm >>> r) a ≤ weight (keep P r a)
  | [], _ => by simp [wOf, keep, weight]
  | b :: a, r => by
    have ih := wOf_keep hp a (r + 1)
    have e : pm >>> r / 2 = pm >>> (r + 1) := by rw [Nat.shiftRight_succ]
    simp only [wOf, keep, e]
    by_cases hr : r ∈ P
    · have := hp r hr
      simp only [hr, if_true, Nat.testBit_shiftRight, Nat.add_zero, this, Bool.not_true, Bool.and_false, Bool.toNat_false, Nat.zero_add]
      exact ih
    · simp only [hr, if_false, weight]
      have : (b && !(pm >>> r).testBit 0).toNat ≤ b.toNat := by cases b <;> cases (pm >>> r).testBit 0 <;> simp
      omega

theorem wOf_low : ∀ (a : List Bool) (m : Nat), wOf (m &&& (2 ^ a.length - 1)) a = wOf m a
  | [], _ => rfl
  | b :: a, m => by
    have ih := wOf_low a (m / 2)
    simp only [wOf, List.length_cons]
    rw [Nat.and_two_pow_sub_one_eq_mod, Nat.testBit_mod_two_pow]
    rw [Nat.and_two_pow_sub_one_eq_mod] at ih
    have e : m % 2 ^ (a.length + 1) / 2 = m / 2 % 2 ^ a.length := by
      rw [Nat.pow_succ, Nat.mul_comm, Nat.mod_mul_right_div_self]
    rw [e, ih]
    simp

theorem lookup_mem {l : List (Nat × Nat)} {a b : Nat} (h : l.lookup a = some b) : (a, b) ∈ l := by
  induction l with
  | nil => simp at h
  | cons x l ih =>
    obtain ⟨p, q⟩ := x
    rw [List.lookup_cons] at h
    split at h
    · rename_i e
      simp only [beq_iff_eq] at e
      simp only [Option.some.injEq] at h
      simp [e, h]
    · exact List.mem_cons_of_mem _ (ih h)

section
variable {k N : Nat} {o : Nat → List Bool} (hg : Gen k N o) {P : List Nat} {pm : Nat} (hp : ∀ x ∈ P, pm.testBit x = true)
  {tabs : List (Nat × Nat)} (htabs : ∀ p ∈ tabs, ∀ w, w < 2 ^ (k + 2) → nibAt p.2 w ≤ wOf p.1 (o w))
include hg hp htabs

theorem dpRun_spec : ∀ (n i T T' : Nat), dpRun k N tabs pm n i T = some T' →
    (∀ e, e < 2 ^ i → e ≠ 0 → byteAt T (e % 2 ^ (k + 1)) ≤ weight (keep P 0 (word k o i e))) →
    ∀ e, e < 2 ^ (i + n) → e ≠ 0 → byteAt T' (e % 2 ^ (k + 1)) ≤ weight (keep P 0 (word k o (i + n) e)) := by
  intro n
  induction n with
  | zero =>
    intro i T T' h hT
    simp only [dpRun, Option.some.injEq] at h
    subst h
    exact hT
  | succ n ih =>
    intro i T T' h hT
    unfold dpRun at h
    split at h
    · cases h
    · rename_i wt hwt
      rw [force_eq] at h
      generalize nextTab k wt T = T1 at h
      cases hok : stepOk k wt T T1 with
      | false => rw [hok] at h; cases h
      | true =>
        rw [hok] at h
        have := ih (i + 1) T1 T' h
        rw [show i + 1 + n = i + (n + 1) by omega] at this
        apply this
        intro e he h0
        have hwle : ∀ w, w < 2 ^ (k + 2) → nibAt wt w ≤ weight (keep P (i * N) (o w)) := by
          intro w hw
          have h1 := htabs _ (lookup_mem hwt) w hw
          have hl := hg.len w hw
          have h2 := wOf_low (o w) (pm >>> (i * N))
          rw [hl] at h2
          rw [h2] at h1
          exact Nat.le_trans h1 (wOf_keep hp _ _)
        unfold stepOk at hok
        simp only [Bool.and_eq_true, Nat.ble_eq, List.all_eq_true, List.mem_range] at hok
        obtain ⟨o1, o2⟩ := hok
        have hpw := Nat.pow_succ 2 i
        rw [word, keep_append, weight_append, word_length hg, Nat.zero_add]
        have hw := hwle (e % 2 ^ (k + 2)) (Nat.mod_lt _ (Nat.two_pow_pos _))
        by_cases hz : e / 2 = 0
        · have : e = 1 := by omega
          subst this
          have hk1 : 1 % 2 ^ (k + 1) = 1 := Nat.mod_eq_of_lt (Nat.one_lt_two_pow (by omega))
          have hk2 : 1 % 2 ^ (k + 2) = 1 := Nat.mod_eq_of_lt (Nat.one_lt_two_pow (by omega))
          rw [hk2] at hw ⊢
          rw [hk1]
          omega
        · have hi := hT (e / 2) (by omega) hz
          obtain ⟨a1, a2⟩ := o2 (e % 2 ^ (k + 1)) (Nat.mod_lt _ (Nat.two_pow_pos _))
          obtain ⟨q1, q2⟩ := window_split k e
          rw [q1] at hi
          rw [q2] at hw ⊢
          have hb : e / 2 ^ (k + 1) % 2 = 0 ∨ e / 2 ^ (k + 1) % 2 = 1 := by omega
          rcases hb with b | b <;> rw [b] at hi hw ⊢ <;> simp only [Nat.zero_mul, Nat.add_zero, Nat.one_mul] at hi hw ⊢ <;> omega

end

/-- the positions as one number -/
def posMask (P : List Nat) : Nat := P.foldl (fun a x => a ||| 1 <<< x) 0

theorem posMask_spec (P : List Nat) : ∀ x ∈ P, (posMask P).testBit x = true := by
  have : ∀ (P : List Nat) (a : Nat), (∀ x, a.testBit x = true → (P.foldl (fun a x => a ||| 1 <<< x) a).testBit x = true) ∧
      ∀ x ∈ P, (P.foldl (fun a x => a ||| 1 <<< x) a).testBit x = true := by
    intro P
    induction P with
    | nil => intro a; simp
    | cons y P ih =>
      intro a
      obtain ⟨i1, i2⟩ := ih (a ||| 1 <<< y)
      rw [List.foldl_cons]
      refine ⟨fun x hx => i1 x (by rw [Nat.testBit_or, hx, Bool.true_or]), fun x hx => ?_⟩
      rcases List.mem_cons.1 hx with rfl | hx
      · exact i1 x (by rw [Nat.testBit_or, Nat.one_shiftLeft, Nat.testBit_two_pow_self, Bool.or_true])
      · exact i2 x hx
  exact (this P 0).2

/-- the code words of a flushed code of `len` bits -/
def leftDist (ps : List (Nat × Nat)) (len : Nat) (P : List Nat) (tabs : List (Nat × Nat)) : Option Nat :=
  force (posMask P) fun pm =>
    (dpRun (degK ps) ps.length tabs pm (len + (polyK ps - 1)) 0 (2 ^ (8 * 2 ^ (degK ps + 1)) - 1)).map (byteAt · 0)

theorem leftDist_spec {ps : List (Nat × Nat)} (hps : ps ∈ gsmPolys) {len : Nat} {P : List Nat} {tabs : List (Nat × Nat)}
    (htabs : tabsOk (degK ps) ((List.range (2 ^ (degK ps + 2))).map (polyOut ps)) tabs = true) {d : Nat}
    (hd : leftDist ps len P tabs = some d) : LeftDist (degK ps) (polyOut ps) P (len + (polyK ps - 1)) d := by
  unfold leftDist at hd
  rw [force_eq] at hd
  rw [Option.map_eq_some_iff] at hd
  obtain ⟨T, h1, rfl⟩ := hd
  have hg := (poly_reg ps (degK ps) (gsm_checks ps hps).1 1 .flush none).gen
  have ht : ∀ p ∈ tabs, ∀ w, w < 2 ^ (degK ps + 2) → nibAt p.2 w ≤ wOf p.1 (polyOut ps w) := by
    intro p hp w hw
    unfold tabsOk at htabs
    simp only [List.all_eq_true, Nat.ble_eq] at htabs
    apply htabs p hp (polyOut ps w, w)
    rw [List.mem_iff_getElem?]
    refine ⟨w, ?_⟩
    rw [List.getElem?_zip_eq_some]
    simp [hw]
  have := dpRun_spec hg (posMask_spec P) ht _ 0 _ T h1 (fun e he h0 => by simp at he; exact absurd he h0)
  intro e he h0 hm
  have h' := this e (by rw [Nat.zero_add]; exact he) h0
  rw [hm, Nat.zero_add] at h'
  exact h'

/-- the tables -/
def mkTab (ps : List (Nat × Nat)) (m : Nat) : Nat :=
  (List.range (2 ^ (degK ps + 2))).foldl (fun a w => a + (wOf m (polyOut ps w)) <<< (4 * w)) 0

end Verif.ConvAcc
