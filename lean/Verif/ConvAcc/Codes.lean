import Verif.ConvAcc.Props
/-!
The codes of GSM: the tables written by utils/conv_gen.py from the polynomials
in utils/conv_codes_gsm.py fulfil what the accelerated decoder needs.
-/
namespace Verif.ConvAcc
open Verif.Conv

/-- utils/conv_gen.py:278-281 `combine` -/
def combine (src sel nb : Nat) : Bool :=
  (List.range nb).foldl (fun a n => a ^^ (src &&& sel).testBit n) false

/-- utils/conv_gen.py:181-182 `pack` -/
def pack (l : List Bool) : Nat := l.foldl (fun a b => 2 * a + b.toNat) 0

/-- utils/conv_gen.py:276 `poly` -/
def poly (l : List Nat) : Nat := (l.map (2 ^ ·)).sum

/-- utils/conv_gen.py:47-50: the constraint length -/
def polyK (ps : List (Nat × Nat)) : Nat := ps.foldl (fun a p => max a (Nat.log2 (max p.1 p.2))) 1 + 1

/-- utils/conv_gen.py:52-64: the divider of a recursive code; the polynomials
are those after utils/conv_gen.py:45, where equal ones are (1, 1) -/
def polyDiv (ps : List (Nat × Nat)) : Nat := (((ps.filter (·.2 ≠ 1)).map (·.2)).head?).getD 1

/-- utils/conv_gen.py:74-80 `next_state` -/
def pyNextState (ps : List (Nat × Nat)) (s : Nat) (b : Bool) : Nat :=
  let nb := combine ((s <<< 1) ||| b.toNat) (polyDiv ps) (polyK ps)
  ((s <<< 1) ||| nb.toNat) &&& ((1 <<< (polyK ps - 1)) - 1)

/-- utils/conv_gen.py:85-102 `next_output` -/
def pyNextOutput (ps : List (Nat × Nat)) (s : Nat) (b : Bool) : List Bool :=
  let src := (pyNextState ps s b &&& 1) ||| (s <<< 1)
  ps.map fun p => if polyDiv ps ≠ 1 ∧ p.2 = 1 then b else combine src p.1 (polyK ps)

/-- utils/conv_gen.py:82-83 `next_term_state` -/
def pyTermState (ps : List (Nat × Nat)) (s : Nat) : Nat := (s <<< 1) &&& ((1 <<< (polyK ps - 1)) - 1)

/-- utils/conv_gen.py:104-121 `next_term_output` -/
def pyTermOutput (ps : List (Nat × Nat)) (s : Nat) : List Bool :=
  let src := (pyTermState ps s &&& 1) ||| (s <<< 1)
  ps.map fun p => if polyDiv ps ≠ 1 ∧ p.2 = 1 then combine src (polyDiv ps) (polyK ps)
    else combine src p.1 (polyK ps)

/-- utils/conv_gen.py:180-236: the code written -/
def genCode (ps : List (Nat × Nat)) (len : Nat) (term : Term) (puncture : Option (List Nat)) : Code where
  N := ps.length
  K := polyK ps
  len := len
  term := term
  nextOutput := fun s b => pack (pyNextOutput ps s b)
  nextState := pyNextState ps
  nextTerm := if polyDiv ps ≠ 1 then some (fun s => pack (pyTermOutput ps s), pyTermState ps) else none
  puncture := puncture

/-- utils/conv_codes_gsm.py:8-15 -/
def G0 : Nat := poly [0, 3, 4]
@[inherit_doc G0] def G1 : Nat := poly [0, 1, 3, 4]
@[inherit_doc G0] def G2 : Nat := poly [0, 2, 4]
@[inherit_doc G0] def G3 : Nat := poly [0, 1, 2, 3, 4]
@[inherit_doc G0] def G4 : Nat := poly [0, 2, 3, 5, 6]
@[inherit_doc G0] def G5 : Nat := poly [0, 1, 4, 6]
@[inherit_doc G0] def G6 : Nat := poly [0, 1, 2, 3, 4, 6]
@[inherit_doc G0] def G7 : Nat := poly [0, 1, 2, 3, 6]

/-- The polynomials of all codes of utils/conv_codes_gsm.py:17-856 with at most 4
of them: `xcch` (also TCH/F9.6, TCH/F14.4, RACH, SCH, CS-2, CS-3, TCH/FS),
TCH/F4.8 and TCH/H2.4, TCH/AFS12.2 (and most of TCH/AHS), TCH/AFS10.2 (and
TCH/AFS7.4, TCH/AHS5.15), TCH/AFS7.95 (and TCH/AHS4.75), TCH/AFS6.7 (and SID
UPDATE), TCH/AFS5.9, TCH/HS, and `mcs`. -/
def gsmPolys : List (List (Nat × Nat)) :=
  [[(G0, 1), (G1, 1)],
   [(G1, 1), (G2, 1), (G3, 1)],
   [(1, 1), (G1, G0)],
   [(G1, G3), (G2, G3), (1, 1)],
   [(1, 1), (G5, G4), (G6, G4)],
   [(G1, G3), (G2, G3), (1, 1), (1, 1)],
   [(G4, G6), (G5, G6), (1, 1), (1, 1)],
   [(G4, 1), (G5, 1), (G6, 1)],
   [(G4, 1), (G7, 1), (G5, 1)]]

/-! ### Parity -/

theorem foldl_xor (f : Nat → Bool) (l : List Nat) (a : Bool) :
    l.foldl (fun a n => a ^^ f n) a = (a ^^ l.foldl (fun a n => a ^^ f n) false) := by
  induction l generalizing a with
  | nil => simp
  | cons x l ih => rw [List.foldl_cons, List.foldl_cons, ih, ih (false ^^ f x)]; cases a <;> cases f x <;> simp

theorem combine_xor (x y sel nb : Nat) : combine (x ^^^ y) sel nb = (combine x sel nb ^^ combine y sel nb) := by
  unfold combine
  generalize List.range nb = l
  induction l with
  | nil => rfl
  | cons n l ih =>
    rw [List.foldl_cons, List.foldl_cons, List.foldl_cons, foldl_xor, foldl_xor (a := false ^^ (x &&& sel).testBit n),
      foldl_xor (a := false ^^ (y &&& sel).testBit n), ih]
    simp only [Nat.testBit_and, Nat.testBit_xor]
    generalize List.foldl _ false l = u
    generalize List.foldl _ false l = v
    cases x.testBit n <;> cases y.testBit n <;> cases sel.testBit n <;> cases u <;> cases v <;> rfl

theorem pack_append (l : List Bool) (b : Bool) : pack (l ++ [b]) = 2 * pack l + b.toNat := by
  simp [pack]

theorem pack_lt (l : List Bool) : pack l < 2 ^ l.length := by
  induction l using List.reverseRecOn with
  | nil => simp [pack]
  | append_singleton l b ih =>
    rw [pack_append, List.length_append, List.length_singleton, Nat.pow_succ]
    have := Bool.toNat_lt b
    omega

theorem symBits_double (v : Nat) (b : Bool) : ∀ n, symBits (2 * v + b.toNat) (n + 1) = symBits v n ++ [b]
  | 0 => by
    cases b <;> simp [symBits, Nat.testBit_zero]
  | n + 1 => by
    have hb := Bool.toNat_lt b
    rw [symBits, symBits_double v b n, symBits, List.cons_append, Nat.testBit_succ,
      show (2 * v + b.toNat) / 2 = v by omega]

theorem symBits_pack (l : List Bool) : symBits (pack l) l.length = l := by
  induction l using List.reverseRecOn with
  | nil => rfl
  | append_singleton l b ih =>
    rw [pack_append, List.length_append, List.length_singleton, symBits_double, ih]

/-! ### The register -/

/-- the polynomials with the divider in place of the input bit -/
def nums (ps : List (Nat × Nat)) : List Nat := ps.map fun p => if polyDiv ps ≠ 1 ∧ p.2 = 1 then polyDiv ps else p.1

/-- output for a window -/
def polyOut (ps : List (Nat × Nat)) (w : Nat) : List Bool := (nums ps).map fun p => combine w p (polyK ps)

/-- feedback -/
def polyFb (ps : List (Nat × Nat)) (s : Nat) : Bool := combine (2 * s) (polyDiv ps) (polyK ps)

/-- what is required of the polynomials -/
def goodPolys (ps : List (Nat × Nat)) (k : Nat) : Bool :=
  polyK ps == k + 2 && (k == 3 || k == 5) && decide (2 ≤ ps.length) && decide (ps.length ≤ 4) &&
  (nums ps).all (fun p => combine 1 p (polyK ps) && combine (2 ^ (k + 1)) p (polyK ps)) &&
  combine 1 (polyDiv ps) (polyK ps) && (polyDiv ps == 1 || ps.any fun p => p.2 == 1)

theorem xor_bit (x : Nat) (hx : x % 2 = 0) (b : Bool) : x ^^^ b.toNat = x + b.toNat := by
  cases b with
  | false => simp
  | true => exact xor_low x hx

theorem or_bit (x : Nat) (hx : x % 2 = 0) (b : Bool) : x ||| b.toNat = x + b.toNat := by
  cases b with
  | false => simp
  | true =>
    apply Nat.eq_of_testBit_eq
    intro i
    rw [Nat.testBit_or, Bool.toNat_true]
    cases i with
    | zero => simp [Nat.testBit_zero]; omega
    | succ i =>
      rw [Nat.testBit_succ, Nat.testBit_succ, Nat.testBit_succ, show (x + 1) / 2 = x / 2 by omega]
      simp

theorem shl_or (s : Nat) (b : Bool) : (s <<< 1) ||| b.toNat = 2 * s + b.toNat := by
  rw [Nat.shiftLeft_eq, Nat.pow_one, Nat.mul_comm, or_bit _ (by omega)]

theorem combine_bit (ps : List (Nat × Nat)) (h1 : combine 1 (polyDiv ps) (polyK ps) = true) (s : Nat) (b : Bool) :
    combine (2 * s + b.toNat) (polyDiv ps) (polyK ps) = (b ^^ polyFb ps s) := by
  rw [← xor_bit _ (by omega), combine_xor]
  have h0 : combine 0 (polyDiv ps) (polyK ps) = false := by
    have := combine_xor 0 0 (polyDiv ps) (polyK ps)
    rw [Nat.xor_self] at this
    simpa using this
  unfold polyFb
  cases b with
  | false => simp [h0]
  | true => simp [h1]

theorem py_state (ps : List (Nat × Nat)) (k : Nat) (hk : polyK ps = k + 2)
    (h1 : combine 1 (polyDiv ps) (polyK ps) = true) (s : Nat) (b : Bool) :
    pyNextState ps s b = (2 * s + (b ^^ polyFb ps s).toNat) % 2 ^ (k + 1) := by
  unfold pyNextState
  simp only [shl_or, combine_bit ps h1]
  rw [hk, show k + 2 - 1 = k + 1 by omega, Nat.shiftLeft_eq, Nat.one_mul, Nat.and_two_pow_sub_one_eq_mod]

theorem py_src (k s q : Nat) (b : Bool) (hq : q = (2 * s + b.toNat) % 2 ^ (k + 1)) :
    (q &&& 1) ||| (s <<< 1) = 2 * s + b.toNat := by
  have : q % 2 = b.toNat := by
    rw [hq, Nat.mod_mod_of_dvd _ (Dvd.intro_left (2 ^ k) (by ring : 2 ^ k * 2 = 2 ^ (k + 1)))]
    have := Bool.toNat_lt b
    omega
  rw [Nat.and_one_is_mod, this, Nat.or_comm, shl_or]

theorem poly_reg (ps : List (Nat × Nat)) (k : Nat) (hg : goodPolys ps k = true) (len : Nat) (term : Term)
    (puncture : Option (List Nat)) : Reg (genCode ps len term puncture) k (polyOut ps) (polyFb ps) := by
  unfold goodPolys at hg
  simp only [Bool.and_eq_true, beq_iff_eq, Bool.or_eq_true, decide_eq_true_eq, List.all_eq_true, List.any_eq_true] at hg
  obtain ⟨⟨⟨⟨⟨⟨hK, hk⟩, hN1⟩, hN2⟩, hall⟩, hdiv⟩, hsys⟩ := hg
  have hlin : ∀ x y, polyOut ps (x ^^^ y) = xorL (polyOut ps x) (polyOut ps y) := by
    intro x y
    unfold polyOut
    generalize nums ps = l
    induction l with
    | nil => rfl
    | cons p l ih =>
      rw [List.map_cons, List.map_cons, List.map_cons, ih, combine_xor]
      rfl
  have hflip : ∀ x v, (∀ p ∈ nums ps, combine v p (polyK ps) = true) →
      polyOut ps (x ^^^ v) = (polyOut ps x).map not := by
    intro x v hv
    unfold polyOut
    rw [List.map_map]
    apply List.map_congr_left
    intro p hp
    simp [combine_xor, hv p hp]
  have houts : ∀ s b, pyNextOutput ps s b = polyOut ps (2 * s + (b ^^ polyFb ps s).toNat) := by
    intro s b
    unfold pyNextOutput polyOut nums
    rw [List.map_map]
    apply List.map_congr_left
    intro p _
    simp only [Function.comp, py_src k s _ _ (py_state ps k hK hdiv s b)]
    split
    · rw [combine_bit ps hdiv]
      cases b <;> cases polyFb ps s <;> rfl
    · rfl
  have hlen : ∀ w, (polyOut ps w).length = ps.length := by intro w; simp [polyOut, nums]
  have hsym : ∀ w, symBits (pack (polyOut ps w)) ps.length = polyOut ps w := by
    intro w
    have := symBits_pack (polyOut ps w)
    rwa [hlen] at this
  refine ⟨hK, hk, ⟨hN1, hN2⟩, ⟨fun x _ => hlen x, fun x y _ _ => hlin x y, ?_, ?_⟩, ?_, ?_, ?_, ?_, ?_⟩
  · intro x _
    exact hflip x 1 (fun p hp => (hall p hp).1)
  · intro x _
    exact hflip x _ (fun p hp => (hall p hp).2)
  · intro s b _
    exact py_state ps k hK hdiv s b
  · intro s b _
    show pack (pyNextOutput ps s b) < 2 ^ ps.length
    rw [houts]
    have := pack_lt (polyOut ps (2 * s + (b ^^ polyFb ps s).toNat))
    rwa [hlen] at this
  · intro s b _
    show symBits (pack (pyNextOutput ps s b)) ps.length = _
    rw [houts, hsym]
  · intro hn s
    have hd : polyDiv ps = 1 := by
      by_contra hd
      simp [genCode, hd] at hn
    unfold polyFb combine
    rw [hd]
    have : 2 * s &&& 1 = 0 := by rw [Nat.and_one_is_mod]; omega
    rw [this]
    generalize List.range _ = l
    induction l with
    | nil => rfl
    | cons a l ih => rw [List.foldl_cons, Nat.zero_testBit]; exact ih
  · intro t ht
    have hd : polyDiv ps ≠ 1 := by
      intro hd
      simp [genCode, hd] at ht
    have ht' : t = (fun s => pack (pyTermOutput ps s), pyTermState ps) := by
      simp only [genCode, if_pos hd, Option.some.injEq] at ht
      exact ht.symm
    subst ht'
    have hst : ∀ s, pyTermState ps s = 2 * s % 2 ^ (k + 1) := by
      intro s
      unfold pyTermState
      rw [hK, show k + 2 - 1 = k + 1 by omega, Nat.shiftLeft_eq, Nat.shiftLeft_eq, Nat.one_mul,
        Nat.and_two_pow_sub_one_eq_mod, Nat.pow_one, Nat.mul_comm]
    constructor
    · intro s _
      refine ⟨?_, hst s⟩
      have : pyTermOutput ps s = polyOut ps (2 * s) := by
        unfold pyTermOutput polyOut nums
        rw [List.map_map]
        apply List.map_congr_left
        intro p _
        have := py_src k s (pyTermState ps s) false (by rw [hst]; rfl)
        simp only [Function.comp, this, Bool.toNat_false, Nat.add_zero]
        split <;> rfl
      show symBits (pack (pyTermOutput ps s)) ps.length = _
      rw [this, hsym]
    · rcases hsys with hsys | ⟨p, hp, hp2⟩
      · exact absurd hsys hd
      · obtain ⟨i, hi, hpi⟩ := List.getElem_of_mem hp
        refine ⟨ps.length - 1 - i, by show _ < ps.length; omega, ?_⟩
        intro s _
        show (pack (pyNextOutput ps s false)).testBit (ps.length - 1 - i) = false
        have h1 := symBits_get (pack (pyNextOutput ps s false)) ps.length (ps.length - 1 - i) (by omega)
        rw [houts, hsym, ← houts, show ps.length - 1 - (ps.length - 1 - i) = i by omega] at h1
        have h2 : (pyNextOutput ps s false)[i]? = some false := by
          unfold pyNextOutput
          rw [List.getElem?_map, List.getElem?_eq_getElem hi, hpi]
          simp [hd, hp2]
        rw [h2] at h1
        simpa using h1.symm

/-! ### Ways from and to state 0 -/

/-- least weights of a walk from state 0 to every state, one step more -/
def reachStep (k : Nat) (ws : Nat → Nat) (tab : List Nat) : List Nat :=
  (List.range (2 ^ (k + 1))).map fun s =>
    min (tab.getD (s / 2) 99 + ws s) (tab.getD (s / 2 + 2 ^ k) 99 + ws (s + 2 ^ (k + 1)))

/-- least weights of a walk from every state to state 0, one step more -/
def returnStep (k : Nat) (ws : Nat → Nat) (tab : List Nat) : List Nat :=
  (List.range (2 ^ (k + 1))).map fun j =>
    min (tab.getD (2 * j % 2 ^ (k + 1)) 99 + ws (2 * j)) (tab.getD ((2 * j + 1) % 2 ^ (k + 1)) 99 + ws (2 * j + 1))

/-- `n` steps -/
def tabAfter (f : List Nat → List Nat) : Nat → List Nat → List Nat
  | 0, t => t
  | n + 1, t => tabAfter f n (f t)

theorem tabAfter_succ (f : List Nat → List Nat) (n : Nat) (t : List Nat) :
    tabAfter f (n + 1) t = f (tabAfter f n t) := by
  induction n generalizing t with
  | zero => rfl
  | succ n ih => rw [tabAfter, ih]; rfl

theorem getD_map_range {n i : Nat} (f : Nat → Nat) (hi : i < n) (d : Nat) : ((List.range n).map f).getD i d = f i := by
  simp [List.getD, List.getElem?_map, List.getElem?_range hi]

theorem reach_tab (k : Nat) (o : Nat → List Bool) (n : Nat) :
    ∀ s, s < 2 ^ (k + 1) → (tabAfter (reachStep k fun w => weight (o w)) n [0]).getD s 99 < 99 →
      ∃ e, e < 2 ^ n ∧ e % 2 ^ (k + 1) = s ∧
        wt k o n e ≤ (tabAfter (reachStep k fun w => weight (o w)) n [0]).getD s 99 := by
  induction n with
  | zero =>
    intro s hs hl
    cases s with
    | zero => exact ⟨0, by simp, by simp, by simp [wt]⟩
    | succ s => simp [tabAfter] at hl
  | succ n ih =>
    intro s hs hl
    rw [tabAfter_succ] at hl ⊢
    generalize tabAfter (reachStep k fun w => weight (o w)) n [0] = T at *
    unfold reachStep at hl ⊢
    rw [getD_map_range _ hs] at hl ⊢
    have hp : (2 : Nat) ^ (k + 1) = 2 ^ k * 2 := by ring
    have go : ∀ p, p < 2 → T.getD (s / 2 + p * 2 ^ k) 99 + weight (o (s + p * 2 ^ (k + 1))) < 99 →
        ∃ e, e < 2 ^ (n + 1) ∧ e % 2 ^ (k + 1) = s ∧
          wt k o (n + 1) e ≤ T.getD (s / 2 + p * 2 ^ k) 99 + weight (o (s + p * 2 ^ (k + 1))) := by
      intro p hp2 hlt
      obtain ⟨e, e1, e2, e3⟩ := ih _ (pred_lt k hs hp2) (by omega)
      have hwin : (2 * e + s % 2) % 2 ^ (k + 2) = s + p * 2 ^ (k + 1) := by
        have : (2 * e + s % 2) % 2 ^ (k + 2) = 2 * (e % 2 ^ (k + 1)) + s % 2 := by
          rw [show (2 : Nat) ^ (k + 2) = 2 * 2 ^ (k + 1) by ring, Nat.mod_mul,
            show (2 * e + s % 2) % 2 = s % 2 by omega, show (2 * e + s % 2) / 2 = e by omega]
          ring
        rw [this, e2, hp, ← Nat.mul_assoc]
        omega
      refine ⟨2 * e + s % 2, by rw [Nat.pow_succ]; omega, ?_, ?_⟩
      · have : (2 * e + s % 2) % 2 ^ (k + 1) = (2 * e + s % 2) % 2 ^ (k + 2) % 2 ^ (k + 1) := by
          rw [Nat.mod_mod_of_dvd _ (Nat.pow_dvd_pow 2 (by omega))]
        rw [this, hwin, Nat.add_mul_mod_self_right, Nat.mod_eq_of_lt hs]
      · rw [wt, hwin, show (2 * e + s % 2) / 2 = e by omega]
        omega
    have g0 := go 0 (by omega)
    have g1 := go 1 (by omega)
    simp only [Nat.zero_mul, Nat.one_mul, Nat.add_zero] at g0 g1
    rcases Nat.le_total (T.getD (s / 2) 99 + weight (o s)) (T.getD (s / 2 + 2 ^ k) 99 + weight (o (s + 2 ^ (k + 1)))) with hle | hle
    · rw [Nat.min_eq_left hle] at hl ⊢
      exact g0 hl
    · rw [Nat.min_eq_right hle] at hl ⊢
      exact g1 hl

theorem wt_top (k : Nat) (o : Nat → List Bool) : ∀ (n e q : Nat),
    wt k o (n + 1) (e + q * 2 ^ (k + 1) * 2 ^ n) =
      wt k o n e + weight (o ((e / 2 ^ n + q * 2 ^ (k + 1)) % 2 ^ (k + 2)))
  | 0, e, q => by simp [wt]
  | n + 1, e, q => by
    have hd : (e + q * 2 ^ (k + 1) * 2 ^ (n + 1)) / 2 = e / 2 + q * 2 ^ (k + 1) * 2 ^ n := by
      rw [show q * 2 ^ (k + 1) * 2 ^ (n + 1) = 2 * (q * 2 ^ (k + 1) * 2 ^ n) by ring]
      omega
    have hm : (e + q * 2 ^ (k + 1) * 2 ^ (n + 1)) % 2 ^ (k + 2) = e % 2 ^ (k + 2) := by
      rw [show q * 2 ^ (k + 1) * 2 ^ (n + 1) = 2 ^ (k + 2) * (q * 2 ^ n) by ring, Nat.add_mul_mod_self_left]
    rw [wt, hd, hm, wt_top k o n (e / 2) q, Nat.div_div_eq_div_mul, show 2 * 2 ^ n = 2 ^ (n + 1) by ring, wt]
    omega

theorem return_tab (k : Nat) (o : Nat → List Bool) (n : Nat) :
    ∀ j, j < 2 ^ (k + 1) → (tabAfter (returnStep k fun w => weight (o w)) n [0]).getD j 99 < 99 →
      ∃ e, e / 2 ^ n = j ∧ e % 2 ^ (k + 1) = 0 ∧
        wt k o n e ≤ (tabAfter (returnStep k fun w => weight (o w)) n [0]).getD j 99 := by
  induction n with
  | zero =>
    intro s hs hl
    cases s with
    | zero => exact ⟨0, by simp, by simp, by simp [wt]⟩
    | succ s => simp [tabAfter] at hl
  | succ n ih =>
    intro j hj hl
    rw [tabAfter_succ] at hl ⊢
    generalize tabAfter (returnStep k fun w => weight (o w)) n [0] = T at *
    unfold returnStep at hl ⊢
    rw [getD_map_range _ hj] at hl ⊢
    have hp : (2 : Nat) ^ (k + 1) = 2 ^ k * 2 := by ring
    have go : ∀ b, b < 2 → T.getD ((2 * j + b) % 2 ^ (k + 1)) 99 + weight (o (2 * j + b)) < 99 →
        ∃ e, e / 2 ^ (n + 1) = j ∧ e % 2 ^ (k + 1) = 0 ∧
          wt k o (n + 1) e ≤ T.getD ((2 * j + b) % 2 ^ (k + 1)) 99 + weight (o (2 * j + b)) := by
      intro b hb hlt
      obtain ⟨e, e1, e2, e3⟩ := ih ((2 * j + b) % 2 ^ (k + 1)) (Nat.mod_lt _ (Nat.two_pow_pos _)) (by omega)
      have hsum := Nat.mod_add_div (2 * j + b) (2 ^ (k + 1))
      generalize (2 * j + b) / 2 ^ (k + 1) = q at hsum
      have htop : (e + q * 2 ^ (k + 1) * 2 ^ n) / 2 ^ n = 2 * j + b := by
        rw [Nat.add_mul_div_right _ _ (Nat.two_pow_pos n), e1, Nat.mul_comm q, hsum]
      refine ⟨e + q * 2 ^ (k + 1) * 2 ^ n, ?_, ?_, ?_⟩
      · rw [show (2 : Nat) ^ (n + 1) = 2 ^ n * 2 by ring, ← Nat.div_div_eq_div_mul, htop]
        omega
      · rw [show q * 2 ^ (k + 1) * 2 ^ n = 2 ^ (k + 1) * (q * 2 ^ n) by ring, Nat.add_mul_mod_self_left, e2]
      · rw [wt_top, e1, Nat.mul_comm q, hsum, Nat.mod_eq_of_lt (show 2 * j + b < 2 ^ (k + 2) by
          rw [show (2 : Nat) ^ (k + 2) = 2 ^ (k + 1) * 2 by ring]; omega)]
        omega
    have g0 := go 0 (by omega)
    have g1 := go 1 (by omega)
    simp only [Nat.add_zero] at g0 g1
    rcases Nat.le_total (T.getD (2 * j % 2 ^ (k + 1)) 99 + weight (o (2 * j)))
      (T.getD ((2 * j + 1) % 2 ^ (k + 1)) 99 + weight (o (2 * j + 1))) with hle | hle
    · rw [Nat.min_eq_left hle] at hl ⊢
      exact g0 hl
    · rw [Nat.min_eq_right hle] at hl ⊢
      exact g1 hl

/-- all entries of a table within a bound -/
def tabLe (k w : Nat) (t : List Nat) : Bool := (List.range (2 ^ (k + 1))).all fun s => decide (t.getD s 99 ≤ w)

theorem reach_of_tab {k : Nat} {o : Nat → List Bool} {n w : Nat} (hw : w < 99)
    (h : tabLe k w (tabAfter (reachStep k fun w => weight (o w)) n [0]) = true) : Reach k o n w := by
  intro d hd
  unfold tabLe at h
  rw [List.all_eq_true] at h
  have h1 := h d (by simpa using hd)
  simp only [decide_eq_true_eq] at h1
  obtain ⟨e, e1, e2, e3⟩ := reach_tab k o n d hd (by omega)
  exact ⟨e, e1, e2, by omega⟩

theorem return_of_tab {k : Nat} {o : Nat → List Bool} {n w : Nat} (hw : w < 99)
    (h : tabLe k w (tabAfter (returnStep k fun w => weight (o w)) n [0]) = true) : Return k o n w := by
  intro d hd
  unfold tabLe at h
  rw [List.all_eq_true] at h
  have h1 := h d (by simpa using hd)
  simp only [decide_eq_true_eq] at h1
  obtain ⟨e, e1, e2, e3⟩ := return_tab k o n d hd (by omega)
  exact ⟨e, e1, e2, by omega⟩

/-! ### GSM -/

/-- degree of the register of a code -/
def degK (ps : List (Nat × Nat)) : Nat := polyK ps - 2

/-- the weight needed within 8 steps from and to state 0 -/
def gsmWeight (ps : List (Nat × Nat)) : Nat := (polyK ps + 1) * ps.length / 2

theorem gsm_checks : ∀ ps ∈ gsmPolys, goodPolys ps (degK ps) = true ∧
    tabLe (degK ps) (gsmWeight ps) (tabAfter (reachStep (degK ps) fun w => weight (polyOut ps w)) 8 [0]) = true ∧
    tabLe (degK ps) (gsmWeight ps) (tabAfter (returnStep (degK ps) fun w => weight (polyOut ps w)) 8 [0]) = true := by
  decide +kernel

/-- the accelerated decoder applies to all of them -/
theorem gsm_usable (ps : List (Nat × Nat)) (hp : ps ∈ gsmPolys) (len : Nat) (hl : 1 ≤ len) (term : Term)
    (puncture : Option (List Nat)) (hs : (puncture.getD []).Pairwise (· < ·)) :
    Usable (genCode ps len term puncture) (degK ps) (polyOut ps) (polyFb ps) := by
  obtain ⟨h1, h2, _⟩ := gsm_checks ps hp
  have hr := poly_reg ps (degK ps) h1 len term puncture
  have hK : polyK ps = degK ps + 2 := hr.hK
  have hN : ps.length ≤ 4 := hr.hN.2
  have hk := hr.kk
  have hw : gsmWeight ps < 99 := by
    unfold gsmWeight
    have : (polyK ps + 1) * ps.length ≤ 8 * 4 := Nat.mul_le_mul (by omega) hN
    omega
  refine ⟨hr, ⟨8, gsmWeight ps, reach_of_tab hw h2, by omega, ?_⟩, hs, hl⟩
  show 2 * gsmWeight ps ≤ (degK ps + 3) * ps.length
  unfold gsmWeight
  rw [hK, show degK ps + 2 + 1 = degK ps + 3 by omega]
  omega

/-- **The codes of GSM.**  For soft bits of at most 105, the decoder finds a most
likely input, for every block length from 8 on, every puncturing, flushed or
truncated. -/
theorem gsm_decodeAcc (ps : List (Nat × Nat)) (hp : ps ∈ gsmPolys) (len : Nat) (hl : 8 ≤ len) (term : Term)
    (ht : term ≠ .tailBiting) (puncture : Option (List Nat)) (hs : (puncture.getD []).Pairwise (· < ·))
    (input : List Int) (hr : Within 105 input) :
    let c := genCode ps len term puncture
    needed c.positions 0 (steps c * c.N) ≤ input.length →
    ∃ out, decodeAcc c input = some (0, out) ∧ out.length = len ∧
      ∀ bits, bits.length = len →
        corr (coded c bits) (received c (steps c) input) ≤ corr (coded c out) (received c (steps c) input) := by
  intro c hn
  obtain ⟨h1, _, h3⟩ := gsm_checks ps hp
  have hu := gsm_usable ps hp len (by omega) term puncture hs
  have hK : polyK ps = degK ps + 2 := hu.reg.hK
  have hN := hu.reg.hN
  change 2 ≤ ps.length ∧ ps.length ≤ 4 at hN
  have hk := hu.reg.kk
  have hw : gsmWeight ps < 99 := by
    unfold gsmWeight
    have : (polyK ps + 1) * ps.length ≤ 8 * 4 := Nat.mul_le_mul (by omega) hN.2
    omega
  refine decodeAcc_ml_weak hu ht input hn (A := 105) (by omega) (by omega) hr (return_of_tab hw h3) hl ?_
  show 2 * (105 : Int) * (gsmWeight ps : Int) < 127 * (ps.length : Int) * (polyK ps : Int)
  have h5 : 2 * gsmWeight ps ≤ (polyK ps + 1) * ps.length := by unfold gsmWeight; omega
  have h6 : 105 * ((polyK ps + 1) * ps.length) < 127 * ps.length * polyK ps := by
    generalize polyK ps = K at *
    generalize ps.length = N at *
    generalize degK ps = d at *
    obtain ⟨n1, n2⟩ := hN
    rcases hk with rfl | rfl <;> subst hK <;> interval_cases N <;> decide
  have h7 : 2 * 105 * gsmWeight ps < 127 * ps.length * polyK ps := by omega
  exact_mod_cast h7

/-- At full amplitude the decoder may be misled by code words that do not begin
in state 0: for three bits of the code of xcch it returns an input with
correlation 0, another one has 508. -/
theorem decodeAcc_ml_counterexample :
    let c := genCode [(G0, 1), (G1, 1)] 3 .flush none
    let r : List Int := [127, -127, -127, -127, -127, -127, -127, -127, 127, 127, 127, 127, 127, 127]
    decodeAcc c r = some (0, [false, false, false]) ∧
      corr (coded c [false, false, false]) r = 0 ∧ corr (coded c [true, true, false]) r = 508 := by
  decide +kernel

/-! ### Reception without errors -/

theorem against_nonneg : ∀ (a : List Bool) (x : List Int), 0 ≤ against a x
  | [], _ => by simp [against]
  | _ :: _, [] => by simp [against]
  | b :: a, v :: xs => by
    have := against_nonneg a xs
    simp only [against]
    cases b <;> simp <;> split <;> omega

theorem fill_against (P : List Nat) (a : List Bool) : ∀ (r : Nat) (rest : List Int),
    against a (fillZ P r a.length ((keep P r a).map soft ++ rest)) = 0 ∧
    (keep P r a).length = needed P r a.length ∧
    ∀ b : List Bool, b.length = a.length →
      against b (fillZ P r a.length ((keep P r a).map soft ++ rest)) = 0 → keep P r b = keep P r a := by
  induction a with
  | nil =>
    intro r rest
    refine ⟨rfl, rfl, ?_⟩
    intro b hb _
    rw [List.length_eq_zero_iff.mp hb]
  | cons x xs ih =>
    intro r rest
    obtain ⟨h1, h2, h3⟩ := ih (r + 1) rest
    simp only [List.length_cons, keep, needed]
    by_cases h : r ∈ P
    · simp only [if_pos h, fillZ, against]
      refine ⟨by rw [h1]; cases x <;> rfl, by omega, ?_⟩
      intro b hb hz
      cases b with
      | nil => simp at hb
      | cons y ys =>
        simp only [List.length_cons, Nat.add_right_cancel_iff] at hb
        simp only [against] at hz
        simp only [keep, if_pos h]
        exact h3 ys hb (by cases y <;> simpa using hz)
    · simp only [if_neg h, fillZ, List.map_cons, List.cons_append, List.headD_cons, List.tail_cons, against,
        List.length_cons]
      refine ⟨by rw [h1]; cases x <;> rfl, by omega, ?_⟩
      intro b hb hz
      cases b with
      | nil => simp at hb
      | cons y ys =>
        simp only [List.length_cons, Nat.add_right_cancel_iff] at hb
        simp only [against] at hz
        simp only [keep, if_neg h]
        have hnn := against_nonneg ys (fillZ P (r + 1) xs.length ((keep P (r + 1) xs).map soft ++ rest))
        have hy : y = x := by
          cases y <;> cases x <;> simp [soft] at hz ⊢ <;> omega
        subst hy
        rw [h3 ys hb (by cases y <;> simpa [soft] using hz)]

/-- **Reception without errors.**  What the encoder sent is decoded to an input
with the same code; to the input itself if no other one has this code. -/
theorem decodeAcc_encode {c k o fb} (h : Usable c k o fb) (ht : c.term ≠ .tailBiting) (bits : List Bool)
    (hl : bits.length = c.len) (sent : List Bool) (henc : encode c bits = some sent) :
    ∃ out, decodeAcc c (sent.map soft) = some (0, out) ∧ out.length = c.len ∧ encode c out = some sent ∧
      ((∀ other, other.length = c.len → encode c other = some sent → other = bits) → out = bits) := by
  have hk : 1 ≤ c.K := by rw [h.reg.hK]; omega
  have hcl : ∀ b, b.length = c.len → (coded c b).length = steps c * c.N := fun b hb => by
    rw [coded_eq c ht, codedFrom_length c 0 b hb]
  rw [encode_spec c h.punct bits hl hk (fun h' => absurd h' ht)] at henc
  have hsent : sent = keep c.positions 0 (coded c bits) := (Option.some.inj henc).symm
  obtain ⟨f1, f2, f3⟩ := fill_against c.positions (coded c bits) 0 []
  rw [List.append_nil, ← hsent, hcl bits hl] at f1 f3
  rw [← hsent, hcl bits hl] at f2
  have hrec : received c (steps c) (sent.map soft) = fillZ c.positions 0 (steps c * c.N) (sent.map soft) := rfl
  have hpos : (0 : Int) < 127 * (c.N : Int) * c.K := by
    have := h.reg.hN
    apply Int.mul_pos (by omega) (by omega)
  obtain ⟨out, h1, h2, h3⟩ := decodeAcc_ml h ht (sent.map soft) (by rw [List.length_map, f2])
    (by intro v hv
        obtain ⟨b, _, rfl⟩ := List.mem_map.1 hv
        cases b <;> simp [soft])
    ⟨bits, hl, by rw [hrec, f1]; omega⟩
  have hle := h3 bits hl
  rw [corr_against _ _ (by rw [hcl bits hl, received, fillZ_length]),
    corr_against _ _ (by rw [hcl out h2, received, fillZ_length]), hrec, f1] at hle
  have hz : against (coded c out) (fillZ c.positions 0 (steps c * c.N) (sent.map soft)) = 0 := by
    have := against_nonneg (coded c out) (fillZ c.positions 0 (steps c * c.N) (sent.map soft))
    omega
  have hsame : encode c out = some sent := by
    rw [encode_spec c h.punct out h2 hk (fun h' => absurd h' ht), f3 (coded c out) (hcl out h2) hz, hsent]
  exact ⟨out, h1, h2, hsame, fun hu => hu out h2 hsame⟩

/-- The same for the codes of GSM. -/
theorem gsm_decodeAcc_encode (ps : List (Nat × Nat)) (hp : ps ∈ gsmPolys) (len : Nat) (hl : 1 ≤ len) (term : Term)
    (ht : term ≠ .tailBiting) (puncture : Option (List Nat)) (hs : (puncture.getD []).Pairwise (· < ·))
    (bits sent : List Bool) (hb : bits.length = len)
    (henc : encode (genCode ps len term puncture) bits = some sent) :
    ∃ out, decodeAcc (genCode ps len term puncture) (sent.map soft) = some (0, out) ∧ out.length = len ∧
      encode (genCode ps len term puncture) out = some sent := by
  obtain ⟨out, h1, h2, h3, _⟩ := decodeAcc_encode (gsm_usable ps hp len hl term puncture hs) ht bits hb sent henc
  exact ⟨out, h1, h2, h3⟩

/-- The others are refused: src/core/conv_acc.c:740-742. -/
theorem decodeAcc_refuses (c : Code) (input : List Int) :
    (∃ out, decodeAcc c input = some (-EINVAL, out)) ↔
      ¬ (2 ≤ c.N ∧ c.N ≤ 4 ∧ 1 ≤ c.len ∧ (c.K = 5 ∨ c.K = 7)) := by
  unfold decodeAcc
  by_cases h : c.N < 2 ∨ c.N > 4 ∨ c.len < 1 ∨ (c.K ≠ 5 ∧ c.K ≠ 7)
  · rw [if_pos h]
    exact ⟨fun _ => by omega, fun _ => ⟨[], rfl⟩⟩
  · rw [if_neg h]
    refine ⟨?_, fun h' => by omega⟩
    rintro ⟨out, ho⟩
    exfalso
    cases hg : genTrellis c with
    | none => simp [hg, EPROTO, EINVAL] at ho
    | some tr =>
      rw [hg] at ho
      simp only [Option.map_eq_some_iff] at ho
      obtain ⟨seq, _, hs⟩ := ho
      have hfst := congrArg Prod.fst hs
      have : ∀ v s r, (traceback c v s r).1 = 0 ∨ (traceback c v s r).1 = -EPROTO := by
        intro v s r
        simp only [traceback]
        generalize (if c.term = Term.tailBiting then maxCircular c.K r.reverse s 0 (-1, 0) else (-1, 0)) = q
        generalize (if q.1 < 0 ∧ c.term ≠ Term.flush then maxState s 0 q else q) = q2
        by_cases hq : q2.1 < 0 ∧ c.term ≠ Term.flush
        · rw [if_pos hq]; exact Or.inr rfl
        · rw [if_neg hq]; exact Or.inl rfl
      simp only [convDecode] at hfst
      rcases this _ _ _ with e | e
      · rw [e] at hfst; simp [EINVAL] at hfst
      · rw [e] at hfst; simp [EINVAL, EPROTO] at hfst

end Verif.ConvAcc
