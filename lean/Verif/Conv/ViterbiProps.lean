import Verif.Conv.EncProps
/-!
The generic Viterbi decoder (C38).
-/
namespace Verif.Conv
open Verif

/-! ### What is to be minimised -/

/-- Squared distance of a received soft bit from the one sent for `b`, scaled;
an erased bit (0) costs nothing. -/
def bitCost (b : Bool) (x : Int) : Nat :=
  if x = 0 then 0 else (((x - if b then -127 else 127) ^ 2) / 512).toNat

/-- Distance of a sequence of coded bits from a received sequence. -/
def dist : List Bool → List Int → Nat
  | b :: bs, x :: xs => bitCost b x + dist bs xs
  | _, _ => 0

/-- The received soft bits at `n` coded positions from `r` on: 0 at the
punctured ones, the next bits of the input at the others. -/
def fillZ (P : List Nat) : Nat → Nat → List Int → List Int
  | _, 0, _ => []
  | r, n + 1, xs => if r ∈ P then 0 :: fillZ P (r + 1) n xs else xs.headD 0 :: fillZ P (r + 1) n xs.tail

/-- The number of bits of the input for `n` coded positions from `r` on. -/
def needed (P : List Nat) : Nat → Nat → Nat
  | _, 0 => 0
  | r, n + 1 => (if r ∈ P then 0 else 1) + needed P (r + 1) n

/-! ### One symbol -/

theorem metric_eq (out : Nat) (y : List Int) : metric out y = dist (symBits out y.length) y := by
  induction y with
  | nil => rfl
  | cons x xs ih =>
    simp only [metric, List.length_cons, symBits, dist, ih, bitCost]
    congr 1
    by_cases h : x = 0
    · rw [if_neg (by simpa using h), if_pos h]
    · rw [if_pos h, if_neg h, sq]

theorem relax_fold (ae : Nat → Nat) (y : List Int) (edges : List Edge) :
    ∀ acc : (Nat → Nat) × (Nat → Option Nat),
    let r := edges.foldl (relax ae y) acc
    (∀ t, r.1 t ≤ acc.1 t) ∧
    (∀ e ∈ edges, r.1 e.dst ≤ ae e.src + metric e.out y) ∧
    (∀ t, (r.1 t = acc.1 t ∧ r.2 t = acc.2 t) ∨
      ∃ e ∈ edges, e.dst = t ∧ r.2 t = some e.src ∧ r.1 t = ae e.src + metric e.out y) := by
  induction edges with
  | nil => intro acc; exact ⟨fun _ => Nat.le_refl _, fun e h => absurd h (by simp), fun t => Or.inl ⟨rfl, rfl⟩⟩
  | cons e es ih =>
    intro acc
    simp only [List.foldl_cons]
    obtain ⟨h1, h2, h3⟩ := ih (relax ae y acc e)
    have hr : (∀ t, (relax ae y acc e).1 t ≤ acc.1 t) ∧
        (relax ae y acc e).1 e.dst ≤ ae e.src + metric e.out y ∧
        (∀ t, ((relax ae y acc e).1 t = acc.1 t ∧ (relax ae y acc e).2 t = acc.2 t) ∨
          (e.dst = t ∧ (relax ae y acc e).2 t = some e.src ∧
            (relax ae y acc e).1 t = ae e.src + metric e.out y)) := by
      unfold relax
      simp only []
      by_cases h : acc.1 e.dst > ae e.src + metric e.out y
      · rw [if_pos h]
        refine ⟨?_, by simp, ?_⟩
        · intro t
          simp only []
          split
          · rename_i ht; rw [ht]; omega
          · exact Nat.le_refl _
        · intro t
          by_cases ht : t = e.dst
          · right; simp [ht]
          · left; simp [ht]
      · rw [if_neg h]
        exact ⟨fun _ => Nat.le_refl _, by omega, fun t => Or.inl ⟨rfl, rfl⟩⟩
    obtain ⟨g1, g2, g3⟩ := hr
    refine ⟨fun t => Nat.le_trans (h1 t) (g1 t), ?_, ?_⟩
    · intro e' he'
      rcases List.mem_cons.mp he' with rfl | he'
      · exact Nat.le_trans (h1 _) g2
      · exact h2 e' he'
    · intro t
      rcases h3 t with ⟨a, b⟩ | ⟨e', he', h⟩
      · rcases g3 t with ⟨a', b'⟩ | ⟨a', b', c'⟩
        · left; exact ⟨a.trans a', b.trans b'⟩
        · right; exact ⟨e, List.mem_cons_self, a', b.trans b', a.trans c'⟩
      · right; exact ⟨e', List.mem_cons_of_mem _ he', h⟩

/-- One step of the decoder: the new error of a state is the smallest one over
the steps leading to it, or the maximum; the history names a best step. -/
theorem step_spec (edges : List Edge) (ae : Nat → Nat) (row : Nat → Option Nat) (y : List Int) :
    let r := step edges ae row y
    (∀ t, r.1 t ≤ MAX_AE) ∧
    (∀ e ∈ edges, r.1 e.dst ≤ ae e.src + metric e.out y) ∧
    (∀ t, r.1 t < MAX_AE → ∃ e ∈ edges, e.dst = t ∧ r.2 t = some e.src ∧ r.1 t = ae e.src + metric e.out y) := by
  obtain ⟨h1, h2, h3⟩ := relax_fold ae y edges (fun _ => MAX_AE, row)
  refine ⟨h1, h2, ?_⟩
  intro t ht
  rcases h3 t with ⟨a, _⟩ | h
  · exfalso
    simp only [step] at ht
    simp only at a
    omega
  · exact h

/-! ### Walks through the trellis, latest step first -/

/-- The steps possible and the symbol received, latest first. -/
abbrev Steps := List (List Edge × List Int)

inductive Walk : Steps → Nat → List Edge → Nat → Prop
  | nil (s : Nat) : Walk [] s [] s
  | cons {R s es u E y e} (h : Walk R s es u) (he : e ∈ E) (hs : e.src = u) :
      Walk ((E, y) :: R) s (e :: es) e.dst

/-- Error accumulated on a walk. -/
def walkCost : Steps → List Edge → Nat
  | (_, y) :: R, e :: es => metric e.out y + walkCost R es
  | _, _ => 0

/-- A walk which the history records. -/
inductive Traced (hist : Nat → Nat → Option Nat) : Steps → Nat → List Edge → Nat → Prop
  | nil (s : Nat) : Traced hist [] s [] s
  | cons {R s es u E y e} (h : Traced hist R s es u) (he : e ∈ E) (hs : e.src = u)
      (hh : hist R.length e.dst = some u) : Traced hist ((E, y) :: R) s (e :: es) e.dst

theorem Traced.walk {hist R s es t} (h : Traced hist R s es t) : Walk R s es t := by
  induction h with
  | nil s => exact .nil s
  | cons _ he hs _ ih => exact .cons ih he hs

theorem Traced.congr {hist hist' R s es t} (h : Traced hist R s es t)
    (hc : ∀ i < R.length, hist' i = hist i) : Traced hist' R s es t := by
  induction h with
  | nil s => exact .nil s
  | cons _ he hs hh ih =>
    refine .cons (ih fun i hi => hc i (by simp only [List.length_cons]; omega)) he hs ?_
    rw [hc _ (by simp)]
    exact hh

/-- The invariant of the decoder after the steps `R`, started with errors
`ae0`: no walk is better than the recorded error, and the history records a
walk with exactly this error. -/
structure Inv (ae0 : Nat → Nat) (R : Steps) (ae : Nat → Nat) (hist : Nat → Nat → Option Nat) : Prop where
  le : ∀ t, ae t ≤ MAX_AE
  opt : ∀ s es t, Walk R s es t → ae t ≤ ae0 s + walkCost R es
  tb : ∀ t, ae t < MAX_AE → ∃ s es, Traced hist R s es t ∧ ae t = ae0 s + walkCost R es

theorem Inv.init (ae0 : Nat → Nat) (h : ∀ t, ae0 t ≤ MAX_AE) (hist) : Inv ae0 [] ae0 hist where
  le := h
  opt := by
    intro s es t hw
    cases hw
    simp [walkCost]
  tb := fun t _ => ⟨t, [], .nil t, by simp [walkCost]⟩

theorem Inv.step {ae0 R ae hist} (h : Inv ae0 R ae hist) (E : List Edge) (y : List Int) :
    Inv ae0 ((E, y) :: R) (step E ae (hist R.length) y).1
      (fun i => if i = R.length then (step E ae (hist R.length) y).2 else hist i) := by
  obtain ⟨h1, h2, h3⟩ := step_spec E ae (hist R.length) y
  refine ⟨h1, ?_, ?_⟩
  · intro s es t hw
    cases hw with
    | cons hw' he hs =>
      rename_i es' u e
      have a := h.opt _ _ _ hw'
      have b := h2 e he
      rw [hs] at b
      simp only [walkCost]
      omega
  · intro t ht
    obtain ⟨e, he, hd, hr, hv⟩ := h3 t ht
    have hlt : ae e.src < MAX_AE := by omega
    obtain ⟨s, es, htr, hval⟩ := h.tb _ hlt
    refine ⟨s, e :: es, ?_, ?_⟩
    · rw [← hd]
      refine .cons (htr.congr ?_) he rfl ?_
      · intro i hi
        rw [if_neg (by omega)]
      · simp only [if_true]
        rw [hd]; exact hr
    · simp only [walkCost]
      omega

/-! ### The symbols received -/

theorem fillZ_length (P : List Nat) (r n : Nat) (xs : List Int) : (fillZ P r n xs).length = n := by
  induction n generalizing r xs with
  | zero => rfl
  | succ n ih => simp only [fillZ]; split <;> simp [ih]

theorem needed_add (P : List Nat) (r a b : Nat) :
    needed P r (a + b) = needed P r a + needed P (r + a) b := by
  induction a generalizing r with
  | zero => simp [needed]
  | succ a ih =>
    rw [show a + 1 + b = (a + b) + 1 by omega]
    simp only [needed]
    rw [ih, show r + 1 + a = r + (a + 1) by omega]
    omega

theorem fillZ_add (P : List Nat) (r a b : Nat) (xs : List Int) :
    fillZ P r (a + b) xs = fillZ P r a xs ++ fillZ P (r + a) b (xs.drop (needed P r a)) := by
  induction a generalizing r xs with
  | zero => simp [fillZ, needed]
  | succ a ih =>
    rw [show a + 1 + b = (a + b) + 1 by omega]
    simp only [fillZ, needed]
    by_cases h : r ∈ P
    · simp only [if_pos h]
      rw [ih, show r + 1 + a = r + (a + 1) by omega]
      simp
    · simp only [if_neg h]
      rw [ih, show r + 1 + a = r + (a + 1) by omega]
      simp only [List.cons_append, List.cons.injEq, true_and]
      congr 2
      rw [Nat.add_comm, ← List.drop_drop, List.drop_one]

/-- The positions table seen as an option. -/
theorem getSym_spec (c : Code) (hs : c.positions.Pairwise (· < ·)) (o : Nat) :
    ∀ (k p : Nat) (input : List Int), k ≤ c.N → At c.positions p (o * c.N + (c.N - k)) →
    needed c.positions (o * c.N + (c.N - k)) k ≤ input.length →
    ∃ p', getSym c.puncture c.N o k p input =
      some (fillZ c.positions (o * c.N + (c.N - k)) k input,
        input.drop (needed c.positions (o * c.N + (c.N - k)) k), p') ∧
      At c.positions p' (o * c.N + c.N) := by
  intro k
  induction k with
  | zero =>
    intro p input _ h _
    exact ⟨p, by simp [getSym, fillZ, needed], by simpa using h⟩
  | succ k ih =>
    intro p input hk h hn
    have hr : o * c.N + (c.N - (k + 1)) + 1 = o * c.N + (c.N - k) := by omega
    have hget : punctAt c.puncture p = c.positions[p]? := by
      unfold Code.positions punctAt
      cases c.puncture <;> simp
    simp only [getSym, fillZ, needed] at hn ⊢
    rw [hget]
    rw [hr] at hn ⊢
    by_cases hit : c.positions[p]? = some (o * c.N + (c.N - (k + 1)))
    · obtain ⟨hm, ha⟩ := at_hit hs h hit
      rw [hr] at ha
      rw [if_pos hm] at hn
      obtain ⟨p', h1, h2⟩ := ih (p + 1) input (by omega) ha (by omega)
      rw [if_pos hit, h1, if_pos hm, if_pos hm]
      exact ⟨p', by simp, h2⟩
    · obtain ⟨hm, ha⟩ := at_miss h hit hs
      rw [hr] at ha
      rw [if_neg hm] at hn
      rw [if_neg hit, if_neg hm, if_neg hm]
      cases input with
      | nil => simp at hn
      | cons x xs =>
        simp only [List.length_cons] at hn
        obtain ⟨p', h1, h2⟩ := ih p xs (by omega) ha (by omega)
        simp only []
        rw [h1]
        refine ⟨p', ?_, h2⟩
        simp only [List.headD_cons, List.tail_cons]
        rw [Nat.add_comm 1, List.drop_succ_cons]

/-- The `n` symbols from symbol `o` on. -/
def symList (c : Code) : Nat → Nat → List Int → List (List Int)
  | _, 0, _ => []
  | o, n + 1, xs => fillZ c.positions (o * c.N) c.N xs ::
      symList c (o + 1) n (xs.drop (needed c.positions (o * c.N) c.N))

theorem symList_length (c : Code) (o n : Nat) (xs : List Int) : (symList c o n xs).length = n := by
  induction n generalizing o xs with
  | zero => rfl
  | succ n ih => simp [symList, ih]

theorem symList_flatten (c : Code) (o n : Nat) (xs : List Int) :
    (symList c o n xs).flatten = fillZ c.positions (o * c.N) (n * c.N) xs := by
  induction n generalizing o xs with
  | zero => simp [symList, fillZ]
  | succ n ih =>
    simp only [symList, List.flatten_cons, ih]
    rw [show (n + 1) * c.N = c.N + n * c.N by ring, fillZ_add, show (o + 1) * c.N = o * c.N + c.N by ring]

theorem symList_each (c : Code) (o n : Nat) (xs : List Int) : ∀ y ∈ symList c o n xs, y.length = c.N := by
  induction n generalizing o xs with
  | zero => intro y hy; simp [symList] at hy
  | succ n ih =>
    intro y hy
    simp only [symList, List.mem_cons] at hy
    rcases hy with rfl | hy
    · exact fillZ_length _ _ _ _
    · exact ih _ _ y hy

theorem scan_spec (c : Code) (hs : c.positions.Pairwise (· < ·)) (E : List Edge) (ae0 : Nat → Nat) :
    ∀ (n : Nat) (d : Dec) (input : List Int) (R : Steps),
    Inv ae0 R d.ae d.hist → d.oIdx = R.length → d.oIdx + n ≤ d.rows →
    At c.positions d.pIdx (d.oIdx * c.N) →
    needed c.positions (d.oIdx * c.N) (n * c.N) ≤ input.length →
    ∃ d', scan c E n d input = some (d', input.drop (needed c.positions (d.oIdx * c.N) (n * c.N))) ∧
      Inv ae0 (((symList c d.oIdx n input).map fun y => (E, y)).reverse ++ R) d'.ae d'.hist ∧
      d'.oIdx = d.oIdx + n ∧ d'.rows = d.rows ∧ At c.positions d'.pIdx (d'.oIdx * c.N) := by
  intro n
  induction n with
  | zero =>
    intro d input R hi ho hrow hat hn
    exact ⟨d, by simp [scan, needed], by simpa [symList] using hi, rfl, rfl, hat⟩
  | succ n ih =>
    intro d input R hi ho hrow hat hn
    have e1 : (n + 1) * c.N = c.N + n * c.N := by ring
    have e2 : (d.oIdx + 1) * c.N = d.oIdx * c.N + c.N := by ring
    rw [e1, needed_add] at hn
    obtain ⟨p', hg, ha⟩ := getSym_spec c hs d.oIdx c.N d.pIdx input (Nat.le_refl _)
      (by simpa using hat) (by simp only [Nat.sub_self, Nat.add_zero]; omega)
    simp only [Nat.sub_self, Nat.add_zero] at hg
    simp only [scan]
    rw [if_neg (by omega), hg]
    simp only []
    have hinv := hi.step E (fillZ c.positions (d.oIdx * c.N) c.N input)
    rw [← ho] at hinv
    obtain ⟨d', hsc, hI, ho', hr', hat'⟩ := ih
      { d with ae := (step E d.ae (d.hist d.oIdx) (fillZ c.positions (d.oIdx * c.N) c.N input)).1,
               hist := fun i => if i = d.oIdx then
                 (step E d.ae (d.hist d.oIdx) (fillZ c.positions (d.oIdx * c.N) c.N input)).2 else d.hist i,
               oIdx := d.oIdx + 1, pIdx := p' }
      (input.drop (needed c.positions (d.oIdx * c.N) c.N)) _ hinv
      (by simp [ho]) (by simp only []; omega) (by simp only []; rw [e2]; exact ha)
      (by simp only []; rw [e2, List.length_drop]; omega)
    refine ⟨d', ?_, ?_, ?_, hr', hat'⟩
    · rw [hsc]
      simp only [e2, List.drop_drop]
      rw [e1, needed_add]
    · simp only [symList, List.map_cons, List.reverse_cons, List.append_assoc, List.singleton_append]
      exact hI
    · simp only [] at ho'
      omega

/-! ### Walks and input bits -/

/-- The error of the coded bits of an input, symbol by symbol. -/
def cost (c : Code) : Nat → List Bool → List (List Int) → Nat
  | s, b :: bs, y :: ys => metric (c.nextOutput s b) y + cost c (c.nextState s b) bs ys
  | _, _, _ => 0

/-- The error of `n` termination steps. -/
def flushCost (c : Code) : Nat → List (List Int) → Nat
  | s, y :: ys => metric (termOut c s) y + flushCost c (termNext c s) ys
  | _, [] => 0

theorem dist_append {a : List Bool} {x : List Int} (h : a.length = x.length) (b : List Bool) (y : List Int) :
    dist (a ++ b) (x ++ y) = dist a x + dist b y := by
  induction a generalizing x with
  | nil =>
    have : x = [] := List.length_eq_zero_iff.mp h.symm
    subst this
    simp [dist]
  | cons p ps ih =>
    cases x with
    | nil => simp at h
    | cons q qs =>
      simp only [List.length_cons, Nat.add_right_cancel_iff] at h
      simp only [List.cons_append, dist, ih h]
      omega

theorem cost_eq (c : Code) (s : Nat) (bits : List Bool) (ys : List (List Int))
    (hy : ∀ y ∈ ys, y.length = c.N) (hl : bits.length = ys.length) :
    cost c s bits ys = dist (stream c s bits) ys.flatten := by
  induction bits generalizing s ys with
  | nil => simp [cost, stream, dist]
  | cons b bs ih =>
    cases ys with
    | nil => simp at hl
    | cons y ys =>
      have hyl := hy y List.mem_cons_self
      simp only [cost, stream, List.flatten_cons]
      rw [dist_append (by rw [symBits_length, hyl]), ih _ _ (fun z hz => hy z (List.mem_cons_of_mem _ hz))
        (by simpa using hl), metric_eq, hyl]

theorem flushCost_eq (c : Code) (s : Nat) (ys : List (List Int)) (hy : ∀ y ∈ ys, y.length = c.N) :
    flushCost c s ys = dist (flushStream c ys.length s) ys.flatten := by
  induction ys generalizing s with
  | nil => simp [flushCost, flushStream, dist]
  | cons y ys ih =>
    have hyl := hy y List.mem_cons_self
    simp only [flushCost, List.length_cons, flushStream, List.flatten_cons]
    rw [dist_append (by rw [symBits_length, hyl]), ih _ (fun z hz => hy z (List.mem_cons_of_mem _ hz)),
      metric_eq, hyl]

theorem cost_snoc (c : Code) (s : Nat) (bits : List Bool) (b : Bool) (ys : List (List Int)) (y : List Int)
    (hl : bits.length = ys.length) :
    cost c s (bits ++ [b]) (ys ++ [y]) = cost c s bits ys + metric (c.nextOutput (endState c s bits) b) y := by
  induction bits generalizing s ys with
  | nil =>
    have : ys = [] := List.length_eq_zero_iff.mp hl.symm
    subst this
    simp [cost, endState]
  | cons b' bs ih =>
    cases ys with
    | nil => simp at hl
    | cons y' ys =>
      simp only [List.cons_append, cost]
      rw [ih _ _ (by simpa using hl)]
      simp only [endState, List.foldl_cons]
      omega

theorem endState_snoc (c : Code) (s : Nat) (bits : List Bool) (b : Bool) :
    endState c s (bits ++ [b]) = c.nextState (endState c s bits) b := by
  simp [endState]

/-- The code's tables stay within the states. -/
def Wf (c : Code) : Prop :=
  (∀ s b, s < nStates c → c.nextState s b < nStates c) ∧ (∀ s, s < nStates c → termNext c s < nStates c)

theorem mem_scanEdges (c : Code) (e : Edge) :
    e ∈ scanEdges c ↔ ∃ s b, s < nStates c ∧ e = ⟨s, c.nextState s b, c.nextOutput s b⟩ := by
  unfold scanEdges
  simp only [List.mem_flatMap, List.mem_range, List.mem_cons, List.not_mem_nil, or_false]
  constructor
  · rintro ⟨s, hs, rfl | rfl⟩
    · exact ⟨s, false, hs, rfl⟩
    · exact ⟨s, true, hs, rfl⟩
  · rintro ⟨s, b, hs, rfl⟩
    refine ⟨s, hs, ?_⟩
    cases b
    · exact Or.inl rfl
    · exact Or.inr rfl

theorem mem_flushEdges (c : Code) (e : Edge) :
    e ∈ flushEdges c ↔ ∃ s, s < nStates c ∧ e = ⟨s, termNext c s, termOut c s⟩ := by
  unfold flushEdges
  simp only [List.mem_map, List.mem_range]
  constructor
  · rintro ⟨s, hs, rfl⟩; exact ⟨s, hs, rfl⟩
  · rintro ⟨s, hs, rfl⟩; exact ⟨s, hs, rfl⟩

/-- Steps of the main part. -/
abbrev scanSteps (c : Code) (ys : List (List Int)) : Steps := (ys.map fun y => (scanEdges c, y)).reverse

/-- Steps of the termination. -/
abbrev flushSteps (c : Code) (ys : List (List Int)) : Steps := (ys.map fun y => (flushEdges c, y)).reverse

theorem snoc_of_length {α : Type} {l : List α} {n : Nat} (h : l.length = n + 1) :
    ∃ l' a, l = l' ++ [a] ∧ l'.length = n := by
  have hne : l ≠ [] := by intro h0; rw [h0] at h; simp at h
  exact ⟨l.dropLast, l.getLast hne, (List.dropLast_concat_getLast hne).symm, by rw [List.length_dropLast]; omega⟩

/-- Every input is a walk, with the error of its coded bits. -/
theorem walk_of_bits (c : Code) (hw : Wf c) (s : Nat) (hs : s < nStates c) :
    ∀ (n : Nat) (bits : List Bool) (ys : List (List Int)), bits.length = n → ys.length = n →
    ∃ es, Walk (scanSteps c ys) s es (endState c s bits) ∧ walkCost (scanSteps c ys) es = cost c s bits ys := by
  intro n
  induction n with
  | zero =>
    intro bits ys hb hy
    have h1 : bits = [] := List.length_eq_zero_iff.mp hb
    have h2 : ys = [] := List.length_eq_zero_iff.mp hy
    subst h1 h2
    exact ⟨[], .nil s, rfl⟩
  | succ n ih =>
    intro bits ys hb hy
    obtain ⟨bs, b, rfl, hbl⟩ := snoc_of_length hb
    obtain ⟨zs, z, rfl, hzl⟩ := snoc_of_length hy
    obtain ⟨es, h1, h2⟩ := ih bs zs hbl hzl
    refine ⟨⟨endState c s bs, c.nextState (endState c s bs) b, c.nextOutput (endState c s bs) b⟩ :: es, ?_, ?_⟩
    · rw [endState_snoc]
      simp only [scanSteps, List.map_append, List.map_cons, List.map_nil, List.reverse_append,
        List.reverse_cons, List.reverse_nil, List.nil_append, List.singleton_append]
      exact Walk.cons (e := ⟨endState c s bs, c.nextState (endState c s bs) b, c.nextOutput (endState c s bs) b⟩)
        h1 ((mem_scanEdges c _).mpr ⟨_, b, endState_lt c hw.1 s hs bs, rfl⟩) rfl
    · rw [cost_snoc c s bs b zs z (by omega), ← h2]
      simp only [scanSteps, List.map_append, List.map_cons, List.map_nil, List.reverse_append,
        List.reverse_cons, List.reverse_nil, List.nil_append, List.singleton_append, walkCost]
      omega

/-- Different bits lead from a state to different states. -/
def BitDetermined (c : Code) : Prop := ∀ s, s < nStates c → c.nextState s false ≠ c.nextState s true

/-- Every recorded walk is that of an input, and reading the history backwards
gives this input. -/
theorem bits_of_traced (c : Code) (hd : BitDetermined c) (hist : Nat → Nat → Option Nat) (s : Nat) :
    ∀ (n : Nat) (ys : List (List Int)), ys.length = n → ∀ es t, Traced hist (scanSteps c ys) s es t →
    ∃ bits, bits.length = n ∧ endState c s bits = t ∧ cost c s bits ys = walkCost (scanSteps c ys) es ∧
      ∀ acc, outLoop c hist n t acc = some (bits ++ acc) := by
  intro n
  induction n with
  | zero =>
    intro ys hy es t h
    have h2 : ys = [] := List.length_eq_zero_iff.mp hy
    subst h2
    simp only [scanSteps, List.map_nil, List.reverse_nil] at h
    cases h
    exact ⟨[], rfl, rfl, rfl, fun acc => rfl⟩
  | succ n ih =>
    intro ys hy es t h
    obtain ⟨zs, z, rfl, hzl⟩ := snoc_of_length hy
    simp only [scanSteps, List.map_append, List.map_cons, List.map_nil, List.reverse_append,
        List.reverse_cons, List.reverse_nil, List.nil_append, List.singleton_append] at h ⊢
    cases h with
    | cons h' he hs hh =>
      rename_i es' u e
      obtain ⟨bs, hb1, hb2, hb3, hb4⟩ := ih zs hzl es' u h'
      obtain ⟨s', b, hs', hee⟩ := (mem_scanEdges c e).mp he
      have hu : u = s' := by rw [← hs, hee]
      have hdst : e.dst = c.nextState u b := by rw [hee, hu]
      have hout : e.out = c.nextOutput u b := by rw [hee, hu]
      refine ⟨bs ++ [b], by simp [hb1], ?_, ?_, ?_⟩
      · rw [endState_snoc, hb2, hdst]
      · rw [cost_snoc c s bs b zs z (by omega), hb3, hb2]
        simp only [walkCost, hout, scanSteps]
        omega
      · intro acc
        simp only [List.length_reverse, List.length_map, hzl] at hh
        simp only [outLoop, hh]
        rw [hb4]
        have : (if c.nextState u false = e.dst then false else true) = b := by
          rw [hdst]
          cases b
          · simp
          · rw [if_neg (by rw [hu]; exact hd s' hs')]
        rw [this]
        simp

theorem flushCost_snoc (c : Code) (s : Nat) (ys : List (List Int)) (y : List Int) :
    flushCost c s (ys ++ [y]) = flushCost c s ys + metric (termOut c (flushState c ys.length s)) y := by
  induction ys generalizing s with
  | nil => simp [flushCost, flushState]
  | cons y' ys ih =>
    simp only [List.cons_append, flushCost, List.length_cons, flushState]
    rw [ih]
    omega

theorem flushState_snoc (c : Code) (n s : Nat) : flushState c (n + 1) s = termNext c (flushState c n s) := by
  induction n generalizing s with
  | zero => rfl
  | succ n ih =>
    rw [flushState, ih, flushState]

theorem flushState_lt (c : Code) (hw : Wf c) (n s : Nat) (hs : s < nStates c) : flushState c n s < nStates c := by
  induction n generalizing s with
  | zero => exact hs
  | succ n ih => exact ih _ (hw.2 s hs)

theorem walk_flush (c : Code) (hw : Wf c) (R : Steps) (s0 s : Nat) (es : List Edge) (hs : s < nStates c)
    (h : Walk R s0 es s) :
    ∀ (n : Nat) (ys : List (List Int)), ys.length = n →
    ∃ fs, Walk (flushSteps c ys ++ R) s0 (fs ++ es) (flushState c n s) ∧
      walkCost (flushSteps c ys ++ R) (fs ++ es) = walkCost R es + flushCost c s ys := by
  intro n
  induction n with
  | zero =>
    intro ys hy
    have h2 : ys = [] := List.length_eq_zero_iff.mp hy
    subst h2
    exact ⟨[], by simpa [flushState, flushSteps] using h, by simp [flushCost, flushSteps]⟩
  | succ n ih =>
    intro ys hy
    obtain ⟨zs, z, rfl, hzl⟩ := snoc_of_length hy
    obtain ⟨fs, h1, h2⟩ := ih zs hzl
    refine ⟨⟨flushState c n s, termNext c (flushState c n s), termOut c (flushState c n s)⟩ :: fs, ?_, ?_⟩
    · rw [flushState_snoc]
      simp only [flushSteps, List.map_append, List.map_cons, List.map_nil, List.reverse_append,
        List.reverse_cons, List.reverse_nil, List.nil_append, List.singleton_append, List.cons_append]
      exact Walk.cons (e := ⟨flushState c n s, termNext c (flushState c n s), termOut c (flushState c n s)⟩)
        h1 ((mem_flushEdges c _).mpr ⟨_, flushState_lt c hw n s hs, rfl⟩) rfl
    · rw [flushCost_snoc, hzl]
      simp only [flushSteps, List.map_append, List.map_cons, List.map_nil, List.reverse_append,
        List.reverse_cons, List.reverse_nil, List.nil_append, List.singleton_append, List.cons_append, walkCost]
      rw [h2]
      omega

theorem traced_flush (c : Code) (hist : Nat → Nat → Option Nat) (R : Steps) (s0 : Nat) :
    ∀ (n : Nat) (ys : List (List Int)), ys.length = n → ∀ es t, Traced hist (flushSteps c ys ++ R) s0 es t →
    ∃ u es', Traced hist R s0 es' u ∧ flushState c n u = t ∧
      walkCost (flushSteps c ys ++ R) es = walkCost R es' + flushCost c u ys ∧
      skipBack hist n (n + R.length) t = some u := by
  intro n
  induction n with
  | zero =>
    intro ys hy es t h
    have h2 : ys = [] := List.length_eq_zero_iff.mp hy
    subst h2
    exact ⟨t, es, by simpa [flushSteps] using h, rfl, by simp [flushCost, flushSteps], rfl⟩
  | succ n ih =>
    intro ys hy es t h
    obtain ⟨zs, z, rfl, hzl⟩ := snoc_of_length hy
    simp only [flushSteps, List.map_append, List.map_cons, List.map_nil, List.reverse_append,
        List.reverse_cons, List.reverse_nil, List.nil_append, List.singleton_append, List.cons_append] at h ⊢
    cases h with
    | cons h' he hs hh =>
      rename_i es' u e
      obtain ⟨v, es'', g1, g2, g3, g4⟩ := ih zs hzl es' u h'
      obtain ⟨s', hs', hee⟩ := (mem_flushEdges c e).mp he
      have hu : u = s' := by rw [← hs, hee]
      have hdst : e.dst = termNext c u := by rw [hee, hu]
      have hout : e.out = termOut c u := by rw [hee, hu]
      refine ⟨v, es'', g1, ?_, ?_, ?_⟩
      · rw [flushState_snoc, g2, hdst]
      · rw [flushCost_snoc, hzl, g2]
        simp only [walkCost, hout]
        rw [g3]
        omega
      · simp only [List.length_append, List.length_reverse, List.length_map, hzl] at hh
        simp only [skipBack]
        rw [show n + 1 + R.length - 1 = n + R.length by omega, hh]
        exact g4

/-! ### C38: the decoder finds a closest codeword -/

theorem decInit_ae (c : Code) (s : Nat) : (decInit c 0 0).ae s = if s = 0 then 0 else MAX_AE := by
  simp only [decInit, decReset]
  rw [if_neg (by omega)]
  by_cases h : s = 0
  · rw [if_pos h, if_pos (by omega)]
  · rw [if_neg h, if_neg (by omega)]

theorem decInit_inv (c : Code) : Inv (decInit c 0 0).ae [] (decInit c 0 0).ae (decInit c 0 0).hist := by
  apply Inv.init
  intro t
  rw [decInit_ae]
  split <;> simp

/-- The soft bits at all coded positions. -/
def received (c : Code) (n : Nat) (input : List Int) : List Int := fillZ c.positions 0 (n * c.N) input

theorem symList_append (c : Code) (n m : Nat) (input : List Int) :
    (symList c 0 n input).flatten ++
      (symList c n m (input.drop (needed c.positions 0 (n * c.N)))).flatten = received c (n + m) input := by
  rw [symList_flatten, symList_flatten, received, Nat.add_mul, fillZ_add]
  simp

/-- **Flushed codes.**  If some input's coded bits are closer to the received
soft bits than `MAX_AE` (and lead to state 0), the decoder returns an input of
the length of the code, and the distance of its coded bits; no input whose
termination ends in state 0 is closer. -/
theorem decode_flush (c : Code) (hs : c.positions.Pairwise (· < ·)) (hw : Wf c) (hd : BitDetermined c)
    (ht : c.term = .flush) (hk : 1 ≤ c.K) (input : List Int)
    (hn : needed c.positions 0 ((c.len + (c.K - 1)) * c.N) ≤ input.length)
    (hex : ∃ bits, bits.length = c.len ∧ flushState c (c.K - 1) (endState c 0 bits) = 0 ∧
      dist (coded c bits) (received c (c.len + (c.K - 1)) input) < MAX_AE) :
    ∃ (v : Nat) (out : List Bool), decode c input = some ((v : Int), out) ∧ out.length = c.len ∧
      flushState c (c.K - 1) (endState c 0 out) = 0 ∧
      dist (coded c out) (received c (c.len + (c.K - 1)) input) = v ∧
      ∀ bits, bits.length = c.len → flushState c (c.K - 1) (endState c 0 bits) = 0 →
        v ≤ dist (coded c bits) (received c (c.len + (c.K - 1)) input) := by
  have h0 : 0 < nStates c := by unfold nStates; positivity
  have hst : ∀ bits, startState c bits = 0 := by
    intro bits; unfold startState; rw [if_neg (by rw [ht]; decide)]
  rw [Nat.add_mul, needed_add, Nat.zero_add] at hn
  obtain ⟨d1, hsc1, hI1, ho1, hr1, ha1⟩ := scan_spec c hs (scanEdges c) (decInit c 0 0).ae c.len (decInit c 0 0) input []
    (decInit_inv c) rfl (by simp [decInit, decReset]; omega) (by simpa [decInit, decReset] using at_zero _)
    (by simp [decInit, decReset]; omega)
  have hoi : (decInit c 0 0).oIdx = 0 := rfl
  have hri : (decInit c 0 0).rows = c.len + c.K - 1 := by simp [decInit, decReset]
  rw [hoi] at hsc1 hI1 ho1
  rw [List.append_nil] at hI1
  rw [Nat.zero_mul] at hsc1
  rw [Nat.zero_add] at ho1
  obtain ⟨d2, hsc2, hI2, ho2, hr2, ha2⟩ := scan_spec c hs (flushEdges c) (decInit c 0 0).ae (c.K - 1) d1
    (input.drop (needed c.positions 0 (c.len * c.N))) _ hI1
    (by simp [symList_length, ho1]) (by rw [hr1, hri, ho1]; omega) ha1
    (by rw [ho1, List.length_drop]; omega)
  rw [ho1] at hI2 ho2
  -- abbreviations
  generalize hS : symList c 0 c.len input = ys at *
  generalize hF : symList c c.len (c.K - 1) (input.drop (needed c.positions 0 (c.len * c.N))) = zs at *
  have hyl : ys.length = c.len := by rw [← hS]; exact symList_length _ _ _ _
  have hzl : zs.length = c.K - 1 := by rw [← hF]; exact symList_length _ _ _ _
  have hye : ∀ y ∈ ys, y.length = c.N := by rw [← hS]; exact symList_each _ _ _ _
  have hze : ∀ y ∈ zs, y.length = c.N := by rw [← hF]; exact symList_each _ _ _ _
  have hrec : ys.flatten ++ zs.flatten = received c (c.len + (c.K - 1)) input := by
    rw [← hS, ← hF]; exact symList_append _ _ _ _
  -- distance as accumulated error
  have hdist : ∀ bits, bits.length = c.len →
      dist (coded c bits) (received c (c.len + (c.K - 1)) input) =
      cost c 0 bits ys + flushCost c (endState c 0 bits) zs := by
    intro bits hb
    unfold coded
    rw [hst, if_pos ht, ← hrec, dist_append, cost_eq c 0 bits ys hye (by omega), flushCost_eq c _ zs hze, hzl]
    rw [stream_length, ← hyl] at *
    have : ys.flatten.length = ys.length * c.N := by
      rw [← hS, symList_flatten, fillZ_length, symList_length]
    rw [this, hb, hyl]
  -- optimality over walks
  have hopt : ∀ bits, bits.length = c.len → flushState c (c.K - 1) (endState c 0 bits) = 0 →
      d2.ae 0 ≤ cost c 0 bits ys + flushCost c (endState c 0 bits) zs := by
    intro bits hb hz
    obtain ⟨es, w1, w2⟩ := walk_of_bits c hw 0 h0 c.len bits ys hb hyl
    obtain ⟨fs, w3, w4⟩ := walk_flush c hw _ 0 _ es (endState_lt c hw.1 0 h0 bits) w1 (c.K - 1) zs hzl
    rw [hz] at w3
    have := hI2.opt _ _ _ w3
    rw [decInit_ae, if_pos rfl, w4, w2] at this
    omega
  obtain ⟨bx, hx1, hx2, hx3⟩ := hex
  have hlt : d2.ae 0 < MAX_AE := by
    have := hopt bx hx1 hx2
    rw [hdist bx hx1] at hx3
    omega
  obtain ⟨s, es, htr, hval⟩ := hI2.tb 0 hlt
  have hs0 : s = 0 := by
    rw [decInit_ae] at hval
    by_contra hne
    rw [if_neg hne] at hval
    omega
  subst hs0
  rw [decInit_ae, if_pos rfl, Nat.zero_add] at hval
  obtain ⟨u, es', g1, g2, g3, g4⟩ := traced_flush c d2.hist _ 0 (c.K - 1) zs hzl es 0 htr
  obtain ⟨out, b1, b2, b3, b4⟩ := bits_of_traced c hd d2.hist 0 c.len ys hyl es' u g1
  refine ⟨d2.ae 0, out, ?_, b1, by rw [b2]; exact g2, ?_, ?_⟩
  · unfold decode
    rw [ht]
    simp only [reduceCtorEq, if_false, if_true]
    rw [hsc1]
    simp only []
    rw [hsc2]
    simp only [getOutput, bestEndState, ht, if_true, decide_true]
    rw [if_pos (by omega)]
    simp only []
    rw [if_neg (by omega)]
    simp only [List.length_reverse, List.length_map, hyl] at g4
    rw [ho2]
    rw [show c.len + (c.K - 1) = c.K - 1 + c.len by omega]
    simp only [Int.toNat_zero, g4]
    rw [show c.K - 1 + c.len - (c.K - 1) = c.len by omega, b4]
    simp
  · rw [hdist out b1, b2, b3, ← g3, hval]
  · intro bits hb hz
    rw [hdist bits hb]
    exact hopt bits hb hz

theorem minState_spec (ae : Nat → Nat) (l : List Nat) :
    ∀ r : Nat × Int, let q := minState ae l r
    q.1 ≤ r.1 ∧ (∀ s ∈ l, q.1 ≤ ae s) ∧
    ((q = r) ∨ ∃ s ∈ l, q = (ae s, (s : Int)) ∧ ae s < r.1) := by
  induction l with
  | nil => intro r; exact ⟨Nat.le_refl _, fun s h => absurd h (by simp), Or.inl rfl⟩
  | cons a l ih =>
    intro r
    simp only [minState]
    obtain ⟨h1, h2, h3⟩ := ih (if ae a < r.1 then (ae a, (a : Int)) else r)
    by_cases h : ae a < r.1
    · rw [if_pos h] at h1 h2 h3 ⊢
      refine ⟨by simp only at h1; omega, ?_, ?_⟩
      · intro s hs
        rcases List.mem_cons.mp hs with rfl | hs
        · exact h1
        · exact h2 s hs
      · rcases h3 with h3 | ⟨s, hs, h4, h5⟩
        · right; exact ⟨a, List.mem_cons_self, h3, h⟩
        · right; exact ⟨s, List.mem_cons_of_mem _ hs, h4, by simp only at h5; omega⟩
    · rw [if_neg h] at h1 h2 h3 ⊢
      refine ⟨h1, ?_, ?_⟩
      · intro s hs
        rcases List.mem_cons.mp hs with rfl | hs
        · omega
        · exact h2 s hs
      · rcases h3 with h3 | ⟨s, hs, h4, h5⟩
        · left; exact h3
        · right; exact ⟨s, List.mem_cons_of_mem _ hs, h4, h5⟩

/-- **Truncated codes.**  The decoder returns the input whose coded bits are
closest to the received soft bits among all inputs. -/
theorem decode_truncation (c : Code) (hs : c.positions.Pairwise (· < ·)) (hw : Wf c) (hd : BitDetermined c)
    (ht : c.term = .truncation) (hk : 1 ≤ c.K) (input : List Int)
    (hn : needed c.positions 0 (c.len * c.N) ≤ input.length)
    (hex : ∃ bits, bits.length = c.len ∧ dist (coded c bits) (received c c.len input) < MAX_AE) :
    ∃ (v : Nat) (out : List Bool), decode c input = some ((v : Int), out) ∧ out.length = c.len ∧
      dist (coded c out) (received c c.len input) = v ∧
      ∀ bits, bits.length = c.len → v ≤ dist (coded c bits) (received c c.len input) := by
  have h0 : 0 < nStates c := by unfold nStates; positivity
  have hst : ∀ bits, startState c bits = 0 := by
    intro bits; unfold startState; rw [if_neg (by rw [ht]; decide)]
  obtain ⟨d1, hsc1, hI1, ho1, hr1, ha1⟩ := scan_spec c hs (scanEdges c) (decInit c 0 0).ae c.len (decInit c 0 0) input []
    (decInit_inv c) rfl (by simp [decInit, decReset]; omega) (by simpa [decInit, decReset] using at_zero _)
    (by simpa [decInit, decReset] using hn)
  have hoi : (decInit c 0 0).oIdx = 0 := rfl
  rw [hoi] at hsc1 hI1 ho1
  rw [List.append_nil] at hI1
  rw [Nat.zero_add] at ho1
  generalize hS : symList c 0 c.len input = ys at *
  have hyl : ys.length = c.len := by rw [← hS]; exact symList_length _ _ _ _
  have hye : ∀ y ∈ ys, y.length = c.N := by rw [← hS]; exact symList_each _ _ _ _
  have hrec : ys.flatten = received c c.len input := by
    rw [← hS, symList_flatten, Nat.zero_mul]; rfl
  have hdist : ∀ bits, bits.length = c.len →
      dist (coded c bits) (received c c.len input) = cost c 0 bits ys := by
    intro bits hb
    unfold coded
    rw [hst, if_neg (by rw [ht]; decide), List.append_nil, ← hrec, cost_eq c 0 bits ys hye (by omega)]
  have hopt : ∀ bits, bits.length = c.len → d1.ae (endState c 0 bits) ≤ cost c 0 bits ys := by
    intro bits hb
    obtain ⟨es, w1, w2⟩ := walk_of_bits c hw 0 h0 c.len bits ys hb hyl
    have := hI1.opt _ _ _ w1
    rw [decInit_ae, if_pos rfl, w2] at this
    omega
  obtain ⟨m1, m2, m3⟩ := minState_spec d1.ae (List.range (nStates c)) (MAX_AE, -1)
  obtain ⟨bx, hx1, hx3⟩ := hex
  have hend := endState_lt c hw.1 0 h0 bx
  have hltx : d1.ae (endState c 0 bx) < MAX_AE := by
    have := hopt bx hx1
    rw [hdist bx hx1] at hx3
    omega
  rcases m3 with m3 | ⟨t, htm, m4, m5⟩
  · exfalso
    have := m2 _ (List.mem_range.mpr hend)
    rw [m3] at this
    simp only at this
    omega
  rw [m4] at m2
  simp only at m2 m5
  obtain ⟨s, es, htr, hval⟩ := hI1.tb t m5
  have hs0 : s = 0 := by
    rw [decInit_ae] at hval
    by_contra hne
    rw [if_neg hne] at hval
    omega
  subst hs0
  rw [decInit_ae, if_pos rfl, Nat.zero_add] at hval
  obtain ⟨out, b1, b2, b3, b4⟩ := bits_of_traced c hd d1.hist 0 c.len ys hyl es t htr
  refine ⟨d1.ae t, out, ?_, b1, ?_, ?_⟩
  · unfold decode
    rw [ht]
    simp only [reduceCtorEq, if_false]
    rw [hsc1]
    simp only [getOutput, bestEndState, ht, reduceCtorEq, if_false, decide_false]
    rw [if_pos (by omega), m4]
    simp only []
    rw [if_neg (by omega)]
    simp only [Int.toNat_natCast, skipBack, ho1, Bool.false_eq_true, if_false, Nat.sub_zero, b4, List.append_nil]
  · rw [hdist out b1, b3, hval]
  · intro bits hb
    rw [hdist bits hb]
    exact Nat.le_trans (m2 _ (List.mem_range.mpr (endState_lt c hw.1 0 h0 bits))) (hopt bits hb)

/-! ### Error free reception -/

/-- The soft bit sent for a bit. -/
def soft (b : Bool) : Int := if b then -127 else 127

theorem bitCost_soft (b b' : Bool) : bitCost b (soft b') = if b = b' then 0 else 126 := by
  cases b <;> cases b' <;> decide

theorem fill_soft (P : List Nat) (a : List Bool) : ∀ (r : Nat) (rest : List Int),
    dist a (fillZ P r a.length ((keep P r a).map soft ++ rest)) = 0 ∧
    (keep P r a).length = needed P r a.length ∧
    ∀ b : List Bool, b.length = a.length →
      dist b (fillZ P r a.length ((keep P r a).map soft ++ rest)) = 0 → keep P r b = keep P r a := by
  induction a with
  | nil =>
    intro r rest
    refine ⟨rfl, rfl, ?_⟩
    intro b hb _
    rw [List.length_eq_zero_iff.mp hb]
  | cons x xs ih =>
    intro r rest
    obtain ⟨h1, h2, h3⟩ := ih (r + 1) rest
    simp only [List.length_cons, keep, needed]
    by_cases h : r ∈ P
    · simp only [if_pos h, fillZ, dist]
      refine ⟨by rw [h1]; rfl, by omega, ?_⟩
      intro b hb hz
      cases b with
      | nil => simp at hb
      | cons y ys =>
        simp only [List.length_cons, Nat.add_right_cancel_iff] at hb
        simp only [dist] at hz
        simp only [keep, if_pos h]
        exact h3 ys hb (by omega)
    · simp only [if_neg h, fillZ, List.map_cons, List.cons_append, List.headD_cons, List.tail_cons, dist,
        List.length_cons]
      refine ⟨by rw [h1, bitCost_soft, if_pos rfl], by omega, ?_⟩
      intro b hb hz
      cases b with
      | nil => simp at hb
      | cons y ys =>
        simp only [List.length_cons, Nat.add_right_cancel_iff] at hb
        simp only [dist, bitCost_soft] at hz
        simp only [keep, if_neg h]
        have hy : y = x := by
          by_contra hne
          rw [if_neg hne] at hz
          omega
        rw [hy, h3 ys hb (by omega)]

theorem coded_length (c : Code) (bits : List Bool) (ht : c.term = .flush) (hl : bits.length = c.len) :
    (coded c bits).length = (c.len + (c.K - 1)) * c.N := by
  unfold coded
  rw [if_pos ht, List.length_append, stream_length, flushStream_length, hl]
  ring

/-- What is encoded and received without error is decoded with error 0 to an
input with the same code; to the input itself if no other one has this code. -/
theorem decode_encode (c : Code) (hs : c.positions.Pairwise (· < ·)) (hw : Wf c) (hd : BitDetermined c)
    (ht : c.term = .flush) (hk : 1 ≤ c.K) (bits : List Bool) (hl : bits.length = c.len)
    (hz : flushState c (c.K - 1) (endState c 0 bits) = 0) (sent : List Bool)
    (henc : encode c bits = some sent) :
    ∃ out, decode c (sent.map soft) = some (0, out) ∧ out.length = c.len ∧ encode c out = some sent ∧
      ((∀ other, other.length = c.len → encode c other = some sent → other = bits) → out = bits) := by
  have hspec := encode_spec c hs bits hl hk (by rw [ht]; intro h; cases h)
  rw [hspec] at henc
  have hsent : sent = keep c.positions 0 (coded c bits) := (Option.some.inj henc).symm
  have hcl := coded_length c bits ht hl
  obtain ⟨f1, f2, f3⟩ := fill_soft c.positions (coded c bits) 0 []
  rw [List.append_nil, ← hsent, hcl] at f1 f3
  rw [← hsent, hcl] at f2
  have hrec : received c (c.len + (c.K - 1)) (sent.map soft) =
      fillZ c.positions 0 ((c.len + (c.K - 1)) * c.N) (sent.map soft) := rfl
  obtain ⟨v, out, h1, h2, h3, h4, h5⟩ := decode_flush c hs hw hd ht hk (sent.map soft)
    (by rw [List.length_map, f2]) ⟨bits, hl, hz, by rw [hrec, f1]; decide⟩
  have hv : v = 0 := by
    have := h5 bits hl hz
    rw [hrec, f1] at this
    omega
  subst hv
  have hsame : encode c out = some sent := by
    rw [encode_spec c hs out h2 hk (by rw [ht]; intro h; cases h), hsent]
    congr 1
    rw [← hsent, f3 (coded c out) (coded_length c out ht h2) (by rw [← hrec, h4])]
  exact ⟨out, h1, h2, hsame, fun huniq => huniq out h2 hsame⟩

/-- The same for truncated codes. -/
theorem decode_encode_truncation (c : Code) (hs : c.positions.Pairwise (· < ·)) (hw : Wf c)
    (hd : BitDetermined c) (ht : c.term = .truncation) (hk : 1 ≤ c.K) (bits : List Bool)
    (hl : bits.length = c.len) (sent : List Bool) (henc : encode c bits = some sent) :
    ∃ out, decode c (sent.map soft) = some (0, out) ∧ out.length = c.len ∧ encode c out = some sent := by
  have hcl : ∀ b : List Bool, b.length = c.len → (coded c b).length = c.len * c.N := by
    intro b hb
    unfold coded
    rw [if_neg (by rw [ht]; decide), List.append_nil, stream_length, hb]
  rw [encode_spec c hs bits hl hk (by rw [ht]; intro h; cases h)] at henc
  have hsent : sent = keep c.positions 0 (coded c bits) := (Option.some.inj henc).symm
  obtain ⟨f1, f2, f3⟩ := fill_soft c.positions (coded c bits) 0 []
  rw [List.append_nil, ← hsent, hcl bits hl] at f1 f3
  rw [← hsent, hcl bits hl] at f2
  have hrec : received c c.len (sent.map soft) = fillZ c.positions 0 (c.len * c.N) (sent.map soft) := rfl
  obtain ⟨v, out, h1, h2, h4, h5⟩ := decode_truncation c hs hw hd ht hk (sent.map soft)
    (by rw [List.length_map, f2]) ⟨bits, hl, by rw [hrec, f1]; decide⟩
  have hv : v = 0 := by
    have := h5 bits hl
    rw [hrec, f1] at this
    omega
  subst hv
  refine ⟨out, h1, h2, ?_⟩
  rw [encode_spec c hs out h2 hk (by rw [ht]; intro h; cases h)]
  rw [f3 (coded c out) (hcl out h2) (by rw [← hrec, h4])]

/-! ### When the bound is met by every codeword -/

theorem bitCost_le (b : Bool) (x : Int) (h1 : -128 ≤ x) (h2 : x ≤ 127) : bitCost b x ≤ 127 := by
  have h : ((x - if b then -127 else 127) ^ 2) ≤ 255 * 255 := by
    have ha : (x - if b then -127 else 127) ≤ 255 := by cases b <;> simp <;> omega
    have hb : -255 ≤ (x - if b then -127 else 127) := by cases b <;> simp <;> omega
    nlinarith
  unfold bitCost
  split
  · omega
  · generalize ((x - if b then -127 else 127) ^ 2) = q at h ⊢
    omega

theorem dist_le (a : List Bool) (xs : List Int) (h : ∀ x ∈ xs, -128 ≤ x ∧ x ≤ 127) :
    dist a xs ≤ 127 * xs.length := by
  induction a generalizing xs with
  | nil => simp [dist]
  | cons b bs ih =>
    cases xs with
    | nil => simp [dist]
    | cons x xs =>
      have h1 := h x List.mem_cons_self
      have h2 := bitCost_le b x h1.1 h1.2
      have h3 := ih xs fun y hy => h y (List.mem_cons_of_mem _ hy)
      simp only [dist, List.length_cons]
      omega

theorem fillZ_range (P : List Nat) (r n : Nat) (xs : List Int) (h : ∀ x ∈ xs, -128 ≤ x ∧ x ≤ 127) :
    ∀ x ∈ fillZ P r n xs, -128 ≤ x ∧ x ≤ 127 := by
  induction n generalizing r xs with
  | zero => intro x hx; simp [fillZ] at hx
  | succ n ih =>
    intro x hx
    simp only [fillZ] at hx
    split at hx
    · rcases List.mem_cons.mp hx with rfl | hx
      · omega
      · exact ih _ _ h x hx
    · rcases List.mem_cons.mp hx with rfl | hx
      · cases xs with
        | nil => simp
        | cons y ys => exact h y List.mem_cons_self
      · exact ih _ _ (fun y hy => h y (List.mem_of_mem_tail hy)) x hx

/-- Codes of up to 132104 coded bits, which every flush brings back to state 0:
whatever is received, the result is a closest codeword. -/
theorem decode_flush_any (c : Code) (hs : c.positions.Pairwise (· < ·)) (hw : Wf c) (hd : BitDetermined c)
    (ht : c.term = .flush) (hk : 1 ≤ c.K) (hz : ∀ s, s < nStates c → flushState c (c.K - 1) s = 0)
    (hsize : (c.len + (c.K - 1)) * c.N ≤ 132104) (input : List Int)
    (hr : ∀ x ∈ input, -128 ≤ x ∧ x ≤ 127)
    (hn : needed c.positions 0 ((c.len + (c.K - 1)) * c.N) ≤ input.length) :
    ∃ (v : Nat) (out : List Bool), decode c input = some ((v : Int), out) ∧ out.length = c.len ∧
      dist (coded c out) (received c (c.len + (c.K - 1)) input) = v ∧
      ∀ bits, bits.length = c.len → v ≤ dist (coded c bits) (received c (c.len + (c.K - 1)) input) := by
  have h0 : 0 < nStates c := by unfold nStates; positivity
  have hz' : ∀ bits, flushState c (c.K - 1) (endState c 0 bits) = 0 :=
    fun bits => hz _ (endState_lt c hw.1 0 h0 bits)
  obtain ⟨v, out, h1, h2, _, h4, h5⟩ := decode_flush c hs hw hd ht hk input hn
    ⟨List.replicate c.len false, by simp, hz' _, by
      have := dist_le (coded c (List.replicate c.len false)) (received c (c.len + (c.K - 1)) input)
        (fillZ_range _ _ _ _ hr)
      rw [show (received c (c.len + (c.K - 1)) input).length = (c.len + (c.K - 1)) * c.N from
        fillZ_length _ _ _ _] at this
      unfold MAX_AE
      omega⟩
  exact ⟨v, out, h1, h2, h4, fun bits hb => h5 bits hb (hz' bits)⟩

/-! ### Tail biting -/

theorem traceBack_traced {hist R s es t} (h : Traced hist R s es t) : traceBack hist R.length t = some s := by
  induction h with
  | nil s => rfl
  | cons _ _ _ hh ih =>
    simp only [List.length_cons, traceBack]
    rw [hh]
    exact ih

theorem traced_src_lt (c : Code) {hist} {ys : List (List Int)} {s es t} (h : Traced hist (scanSteps c ys) s es t)
    (hne : 0 < ys.length) : s < nStates c := by
  have key : ∀ n (zs : List (List Int)), zs.length = n + 1 → ∀ es t, Traced hist (scanSteps c zs) s es t →
      s < nStates c := by
    intro n
    induction n with
    | zero =>
      intro zs hz es t h
      obtain ⟨l, z, rfl, hl⟩ := snoc_of_length hz
      have : l = [] := List.length_eq_zero_iff.mp hl
      subst this
      simp only [scanSteps, List.nil_append, List.map_cons, List.map_nil, List.reverse_cons, List.reverse_nil] at h
      cases h with
      | cons h' he hs _ =>
        cases h'
        obtain ⟨s', _, hlt, rfl⟩ := (mem_scanEdges c _).mp he
        simp only at hs
        omega
    | succ n ih =>
      intro zs hz es t h
      obtain ⟨l, z, rfl, hl⟩ := snoc_of_length hz
      simp only [scanSteps, List.map_append, List.map_cons, List.map_nil, List.reverse_append,
        List.reverse_cons, List.reverse_nil, List.nil_append, List.singleton_append] at h
      cases h with
      | cons h' _ _ _ => exact ih l hl _ _ h'
  obtain ⟨n, hn⟩ : ∃ n, ys.length = n + 1 := ⟨ys.length - 1, by omega⟩
  exact key n ys hn es t h

theorem minCircular_spec (ae : Nat → Nat) (hist : Nat → Nat → Option Nat) (n : Nat) (l : List Nat)
    (hl : ∀ s ∈ l, ∃ t, traceBack hist n s = some t) :
    ∀ r : Nat × Int, ∃ q, minCircular ae hist n l r = some q ∧
    q.1 ≤ r.1 ∧ (∀ s ∈ l, traceBack hist n s = some s → q.1 ≤ ae s) ∧
    (q = r ∨ ∃ s ∈ l, traceBack hist n s = some s ∧ q = (ae s, (s : Int))) := by
  induction l with
  | nil => intro r; exact ⟨r, rfl, Nat.le_refl _, fun s h => absurd h (by simp), Or.inl rfl⟩
  | cons a l ih =>
    intro r
    obtain ⟨t, ht⟩ := hl a List.mem_cons_self
    simp only [minCircular, ht]
    have ih' := ih fun s hs => hl s (List.mem_cons_of_mem _ hs)
    by_cases hat : a = t
    · rw [if_neg (by simpa using hat)]
      obtain ⟨q, h1, h2, h3, h4⟩ := ih' (if ae a < r.1 then (ae a, (a : Int)) else r)
      refine ⟨q, h1, ?_, ?_, ?_⟩
      · split at h2 <;> (try simp only at h2) <;> omega
      · intro s hs hts
        rcases List.mem_cons.mp hs with rfl | hs
        · split at h2 <;> (try simp only at h2) <;> omega
        · exact h3 s hs hts
      · rcases h4 with h4 | ⟨s, hs, h5, h6⟩
        · by_cases hlt : ae a < r.1
          · rw [if_pos hlt] at h4
            right; exact ⟨a, List.mem_cons_self, by rw [ht, ← hat], h4⟩
          · rw [if_neg hlt] at h4
            left; exact h4
        · right; exact ⟨s, List.mem_cons_of_mem _ hs, h5, h6⟩
    · rw [if_pos hat]
      obtain ⟨q, h1, h2, h3, h4⟩ := ih' r
      refine ⟨q, h1, h2, ?_, ?_⟩
      · intro s hs hts
        rcases List.mem_cons.mp hs with rfl | hs
        · rw [ht] at hts
          exact absurd (Option.some.inj hts).symm hat
        · exact h3 s hs hts
      · rcases h4 with h4 | ⟨s, hs, h5⟩
        · left; exact h4
        · right; exact ⟨s, List.mem_cons_of_mem _ hs, h5⟩

/-- The symbols of a tail biting code and the two passes of the decoder over
them. -/
theorem tailBiting_passes (c : Code) (hs : c.positions.Pairwise (· < ·)) (ht : c.term = .tailBiting)
    (hk : 1 ≤ c.K) (input : List Int) (hn : needed c.positions 0 (c.len * c.N) ≤ input.length) :
    ∃ (m : Nat) (ae1 : Nat → Nat) (h1 : Nat → Nat → Option Nat) (d2 : Dec),
      Inv (decInit c 0 0).ae (scanSteps c (symList c 0 c.len input)) ae1 h1 ∧
      (∀ s, s < nStates c → m ≤ ae1 s) ∧ (m = MAX_AE ∨ ∃ s, s < nStates c ∧ m = ae1 s) ∧
      Inv (fun s => ae1 s - m) (scanSteps c (symList c 0 c.len input)) d2.ae d2.hist ∧
      d2.oIdx = c.len ∧ decode c input = getOutput c d2 false (-1) := by
  obtain ⟨d1, hsc1, hI1, ho1, hr1, ha1⟩ := scan_spec c hs (scanEdges c) (decInit c 0 0).ae c.len (decInit c 0 0) input []
    (decInit_inv c) rfl (by simp [decInit, decReset]; omega) (by simpa [decInit, decReset] using at_zero _)
    (by simpa [decInit, decReset] using hn)
  have hoi : (decInit c 0 0).oIdx = 0 := rfl
  have hri : (decInit c 0 0).rows = c.len + c.K - 1 := by simp [decInit, decReset]
  rw [hoi] at hsc1 hI1 ho1
  rw [List.append_nil] at hI1
  rw [Nat.zero_add] at ho1
  have hm : ∀ (l : List Nat) (m : Nat),
      l.foldl (fun m s => if d1.ae s < m then d1.ae s else m) m ≤ m ∧
      (∀ s ∈ l, l.foldl (fun m s => if d1.ae s < m then d1.ae s else m) m ≤ d1.ae s) ∧
      (l.foldl (fun m s => if d1.ae s < m then d1.ae s else m) m = m ∨
        ∃ s ∈ l, l.foldl (fun m s => if d1.ae s < m then d1.ae s else m) m = d1.ae s) := by
    intro l
    induction l with
    | nil => intro m; exact ⟨Nat.le_refl _, fun s h => absurd h (by simp), Or.inl rfl⟩
    | cons a l ih =>
      intro m
      simp only [List.foldl_cons]
      obtain ⟨i1, i2, i3⟩ := ih (if d1.ae a < m then d1.ae a else m)
      refine ⟨?_, ?_, ?_⟩
      · split at i1 <;> split <;> omega
      · intro s hs
        rcases List.mem_cons.mp hs with rfl | hs
        · split at i1 <;> split <;> omega
        · exact i2 s hs
      · rcases i3 with i3 | ⟨s, hs, i4⟩
        · by_cases hlt : d1.ae a < m
          · right
            exact ⟨a, List.mem_cons_self, by rw [i3, if_pos hlt]⟩
          · left
            rw [i3, if_neg hlt]
        · right
          exact ⟨s, List.mem_cons_of_mem _ hs, i4⟩
  have hI0 : Inv (decRewind c d1).ae [] (decRewind c d1).ae (decRewind c d1).hist := by
    apply Inv.init
    intro t
    have := hI1.le t
    exact Nat.le_trans (Nat.sub_le _ _) this
  obtain ⟨d2, hsc2, hI2, ho2, hr2, ha2⟩ := scan_spec c hs (scanEdges c) (decRewind c d1).ae c.len (decRewind c d1)
    input [] hI0 rfl (by show 0 + c.len ≤ d1.rows; omega)
    (by show At c.positions 0 (0 * c.N); simpa using at_zero _)
    (by show needed c.positions (0 * c.N) _ ≤ _; simpa using hn)
  have hoi2 : (decRewind c d1).oIdx = 0 := rfl
  rw [hoi2] at hsc2 hI2 ho2
  rw [List.append_nil] at hI2
  rw [Nat.zero_add] at ho2
  refine ⟨_, d1.ae, d1.hist, d2, hI1, fun s hs' => (hm _ MAX_AE).2.1 s (List.mem_range.mpr hs'), ?_, hI2, ho2, ?_⟩
  · rcases (hm (List.range (nStates c)) MAX_AE).2.2 with h | ⟨s, hs', h⟩
    · exact Or.inl h
    · exact Or.inr ⟨s, List.mem_range.mp hs', h⟩
  unfold decode
  rw [ht]
  simp only [reduceCtorEq, if_false, if_true]
  rw [hsc1]
  simp only []
  rw [hsc2]
  simp

/-- **Tail biting codes.**  What is encoded and received without error is
decoded with error 0 to the input, if no other input from any state gives the
same bits, every state can be reached, and the first pass, which starts in
state 0, prefers none to the state the code starts in.  (The last condition is
needed, see `decode_tailBiting_counterexample`.) -/
theorem decode_encode_tailBiting_partial (c : Code) (hs : c.positions.Pairwise (· < ·)) (hw : Wf c)
    (hd : BitDetermined c) (ht : c.term = .tailBiting) (hk : 1 ≤ c.K) (hkl : c.K - 1 ≤ c.len)
    (hsize : c.len * c.N ≤ 66052)
    (hreach : ∀ t, t < nStates c → ∃ bits, bits.length = c.len ∧ endState c 0 bits = t)
    (bits : List Bool) (hl : bits.length = c.len) (hst : startState c bits < nStates c)
    (hcirc : endState c (startState c bits) bits = startState c bits)
    (huniq : ∀ s other, s < nStates c → other.length = c.len →
      keep c.positions 0 (stream c s other) = keep c.positions 0 (stream c (startState c bits) bits) →
      s = startState c bits ∧ other = bits)
    (hbest : ∀ a, a.length = c.len → ∃ b, b.length = c.len ∧ endState c 0 b = startState c bits ∧
      dist (stream c 0 b) (received c c.len ((keep c.positions 0 (coded c bits)).map soft)) ≤
      dist (stream c 0 a) (received c c.len ((keep c.positions 0 (coded c bits)).map soft)))
    (sent : List Bool) (henc : encode c bits = some sent) :
    decode c (sent.map soft) = some (0, bits) := by
  have h0 : 0 < nStates c := by unfold nStates; positivity
  rw [encode_spec c hs bits hl hk (fun _ => hkl)] at henc
  have hcd : coded c bits = stream c (startState c bits) bits := by
    unfold coded
    rw [if_neg (by rw [ht]; decide), List.append_nil]
  rw [hcd] at henc hbest
  generalize startState c bits = s0 at *
  rw [Option.some.inj henc] at hbest
  have hsent : sent = keep c.positions 0 (stream c s0 bits) := (Option.some.inj henc).symm
  have hsl : ∀ s (b : List Bool), b.length = c.len → (stream c s b).length = c.len * c.N := by
    intro s b hb; rw [stream_length, hb]
  obtain ⟨f1, f2, f3⟩ := fill_soft c.positions (stream c s0 bits) 0 []
  rw [List.append_nil, ← hsent, hsl s0 bits hl] at f1 f3
  rw [← hsent, hsl s0 bits hl] at f2
  have hrange : ∀ x ∈ sent.map soft, -128 ≤ x ∧ x ≤ 127 := by
    intro x hx
    obtain ⟨b, _, rfl⟩ := List.mem_map.mp hx
    cases b <;> decide
  obtain ⟨m, ae1, hist1, d2, hI1, hm, hm1, hI2, ho2, hdec⟩ := tailBiting_passes c hs ht hk (sent.map soft)
    (by rw [List.length_map, f2])
  generalize hS : symList c 0 c.len (sent.map soft) = ys at *
  have hyl : ys.length = c.len := by rw [← hS]; exact symList_length _ _ _ _
  have hye : ∀ y ∈ ys, y.length = c.N := by rw [← hS]; exact symList_each _ _ _ _
  have hrec : ys.flatten = fillZ c.positions 0 (c.len * c.N) (sent.map soft) := by
    rw [← hS, symList_flatten, Nat.zero_mul]
  rw [← hrec] at f1 f3
  have hcost : ∀ s (b : List Bool), b.length = c.len → cost c s b ys = dist (stream c s b) ys.flatten :=
    fun s b hb => cost_eq c s b ys hye (by omega)
  have hcostle : ∀ s (b : List Bool), b.length = c.len → cost c s b ys ≤ 127 * (c.len * c.N) := by
    intro s b hb
    rw [hcost s b hb]
    have := dist_le (stream c s b) ys.flatten (by rw [hrec]; exact fillZ_range _ _ _ _ hrange)
    have hfl : ys.flatten.length = c.len * c.N := by rw [hrec, fillZ_length]
    rwa [hfl] at this
  -- after the first pass every state has a path
  have hae1 : ∀ t, t < nStates c → ae1 t ≤ 127 * (c.len * c.N) := by
    intro t htn
    obtain ⟨b, hb1, hb2⟩ := hreach t htn
    obtain ⟨es, w1, w2⟩ := walk_of_bits c hw 0 h0 c.len b ys hb1 hyl
    rw [hb2] at w1
    have := hI1.opt _ _ _ w1
    rw [decInit_ae, if_pos rfl, w2] at this
    have := hcostle 0 b hb1
    omega
  have hae2 : ∀ t, t < nStates c → d2.ae t < MAX_AE := by
    intro t htn
    obtain ⟨b, hb1, hb2⟩ := hreach t htn
    obtain ⟨es, w1, w2⟩ := walk_of_bits c hw 0 h0 c.len b ys hb1 hyl
    rw [hb2] at w1
    have h1 := hI2.opt _ _ _ w1
    rw [w2] at h1
    have h2 := hcostle 0 b hb1
    have h3 := hae1 0 h0
    unfold MAX_AE
    omega
  -- a recorded path without error is the one sent
  have htrace : ∀ t, t < nStates c → ∃ s es, Traced d2.hist (scanSteps c ys) s es t ∧
      d2.ae t = (ae1 s - m) + walkCost (scanSteps c ys) es ∧ traceBack d2.hist c.len t = some s := by
    intro t htn
    obtain ⟨s, es, h1, h2⟩ := hI2.tb t (hae2 t htn)
    refine ⟨s, es, h1, h2, ?_⟩
    have := traceBack_traced h1
    simpa [scanSteps, hyl] using this
  -- the first pass finds the state sent best
  have hm0 : ae1 s0 = m := by
    refine Nat.le_antisymm ?_ (hm s0 hst)
    rcases hm1 with hmx | ⟨t, htn, hmt⟩
    · rw [hmx]; exact hI1.le s0
    · have hlt : ae1 t < MAX_AE := by
        have := hae1 t htn
        unfold MAX_AE
        omega
      obtain ⟨s, es, h1, h2⟩ := hI1.tb t hlt
      have hs0 : s = 0 := by
        rw [decInit_ae] at h2
        by_contra hne
        rw [if_neg hne] at h2
        omega
      subst hs0
      rw [decInit_ae, if_pos rfl, Nat.zero_add] at h2
      obtain ⟨a, a1, a2, a3, _⟩ := bits_of_traced c hd hist1 0 c.len ys hyl es t h1
      obtain ⟨b, b1, b2, b3⟩ := hbest a a1
      rw [show received c c.len (sent.map soft) = ys.flatten from hrec.symm, ← hcost 0 a a1,
        ← hcost 0 b b1] at b3
      obtain ⟨es', w1, w2⟩ := walk_of_bits c hw 0 h0 c.len b ys b1 hyl
      rw [b2] at w1
      have := hI1.opt _ _ _ w1
      rw [decInit_ae, if_pos rfl, w2] at this
      omega
  have hz0 : d2.ae s0 = 0 := by
    obtain ⟨es, w1, w2⟩ := walk_of_bits c hw s0 hst c.len bits ys hl hyl
    rw [hcirc] at w1
    have := hI2.opt _ _ _ w1
    rw [w2, hcost s0 bits hl, f1] at this
    omega
  have hzero : ∀ t, t < nStates c → d2.ae t = 0 → t = s0 ∧ traceBack d2.hist c.len t = some s0 ∧
      outLoop c d2.hist c.len t [] = some bits := by
    intro t htn htz
    obtain ⟨s, es, h1, h2, h3⟩ := htrace t htn
    obtain ⟨b, b1, b2, b3, b4⟩ := bits_of_traced c hd d2.hist s c.len ys hyl es t h1
    have hsn : s < nStates c := by
      rcases Nat.eq_zero_or_pos c.len with hl0 | hpos
      · have : b = [] := List.length_eq_zero_iff.mp (by omega)
        rw [this] at b2
        simp only [endState, List.foldl_nil] at b2
        omega
      · exact traced_src_lt c h1 (by omega)
    obtain ⟨u1, u2⟩ := huniq s b hsn b1 (by
      rw [f3 (stream c s b) (hsl s b b1) (by rw [← hcost s b b1, b3]; omega), hsent])
    refine ⟨?_, by rw [h3, u1], ?_⟩
    · rw [← b2, u1, u2, hcirc]
    · rw [b4, u2, List.append_nil]
  obtain ⟨_, hc2, hc3⟩ := hzero s0 hst hz0
  obtain ⟨q, q1, q2, q3, q4⟩ := minCircular_spec d2.ae d2.hist c.len (List.range (nStates c))
    (fun s hs' => by
      obtain ⟨s', _, _, _, h⟩ := htrace s (List.mem_range.mp hs')
      exact ⟨s', h⟩) (MAX_AE, -1)
  have hq0 : q.1 = 0 := by
    have := q3 s0 (List.mem_range.mpr hst) hc2
    omega
  rcases q4 with q4 | ⟨t, htn, _, q5⟩
  · rw [q4] at hq0
    exact absurd hq0 (by decide)
  have htz : d2.ae t = 0 := by rw [q5] at hq0; exact hq0
  obtain ⟨ht0, _, hout⟩ := hzero t (List.mem_range.mp htn) htz
  rw [hdec]
  simp only [getOutput, bestEndState, ht, reduceCtorEq, if_false, if_true]
  rw [if_pos (by omega), ho2, q1]
  simp only []
  rw [if_pos (by rw [hq0]; decide)]
  simp only [q5]
  rw [if_neg (by omega)]
  simp only [Int.toNat_natCast, skipBack, Nat.sub_zero, hout, htz]
  rfl

/-- A code of rate 1/2 (polynomials 7 and 5) with two tail biting bits. -/
def shortCode : Code where
  N := 2
  K := 3
  len := 2
  term := .tailBiting
  nextOutput := fun s b => 2 * ((s / 2 + s + b.toNat) % 2) + (s / 2 + b.toNat) % 2
  nextState := fun s b => (2 * s + b.toNat) % 4
  nextTerm := none
  puncture := none

theorem two_bits {l : List Bool} (h : l.length = 2) : ∃ x y, l = [x, y] := by
  match l, h with
  | [x, y], _ => exact ⟨x, y, rfl⟩

/-- The conditions of `decode_encode_tailBiting_partial` hold for the input 00. -/
example : decode shortCode ([false, false, false, false].map soft) = some (0, [false, false]) := by
  refine decode_encode_tailBiting_partial shortCode (by simp [Code.positions, shortCode])
    ⟨fun s b _ => Nat.mod_lt _ (by decide), fun s _ => Nat.mod_lt _ (by decide)⟩ ?_ rfl (by decide) (by decide)
    (by decide) ?_ [false, false] rfl (by decide) (by decide) ?_ ?_ [false, false, false, false] (by decide)
  · intro s hs
    revert s
    decide
  · intro t ht
    have : ∀ t, t < nStates shortCode → ∃ x y, endState shortCode 0 [x, y] = t := by decide
    obtain ⟨x, y, h⟩ := this t ht
    exact ⟨[x, y], rfl, h⟩
  · intro s other hs ho
    obtain ⟨x, y, rfl⟩ := two_bits ho
    revert s x y
    decide
  · intro a ha
    refine ⟨[false, false], rfl, by decide, ?_⟩
    obtain ⟨x, y, rfl⟩ := two_bits ha
    revert x y
    decide

/-- Short tail biting blocks: all four inputs have different codes, but what
is sent for one is decoded to another one, without any error of transmission:
the first pass only starts in state 0. -/
theorem decode_tailBiting_counterexample :
    (∀ a b, a.length = 2 → b.length = 2 → encode shortCode a = encode shortCode b → a = b) ∧
    ∃ bits sent, bits.length = shortCode.len ∧ encode shortCode bits = some sent ∧
      ∃ v out, decode shortCode (sent.map soft) = some (v, out) ∧ v ≠ 0 ∧ out ≠ bits := by
  refine ⟨?_, [true, true], [true, false, true, false], rfl, by decide, 126, [true, false], by decide,
    by decide, by decide⟩
  intro a b ha hb
  obtain ⟨x, y, rfl⟩ := two_bits ha
  obtain ⟨x', y', rfl⟩ := two_bits hb
  revert x y x' y'
  decide

example : decode (exCode .flush) ([true, true, false, false, false, true, true, true, false, true].map soft) =
      some (0, [true, false, true, true]) ∧
    decode (exCode .flush) [-127, -100, 90, 100, 30, -20, -127, 5, 127, -127] =
      some (78, [true, false, true, true]) := by decide

example : Wf (exCode .flush) ∧ BitDetermined (exCode .flush) := by
  refine ⟨⟨fun s b _ => ?_, fun s _ => ?_⟩, fun s hs => ?_⟩
  · exact Nat.mod_lt _ (by decide)
  · exact Nat.mod_lt _ (by decide)
  · simp only [exCode, Bool.toNat_false, Bool.toNat_true]
    omega

end Verif.Conv
