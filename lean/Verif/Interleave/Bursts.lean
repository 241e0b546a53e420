import Verif.Interleave.Mapping
/-!
C88: from coded bits to bursts and back, for control channels, full and half rate traffic channels with diagonal interleaving and
FACCH/H.
-/
namespace Verif.Interleave

variable {α : Type}

/-- The place in a burst of bit `j` of 114: two flags are in the middle. -/
def mid (j : Nat) : Nat := if j < 57 then j else j + 2

/-! ### one burst -/

theorem foldlM_range_succ {β : Type} (f : β → Nat → Option β) (n : Nat) (b : β) :
    (List.range (n + 1)).foldlM f b = ((List.range n).foldlM f b).bind (f · n) := by
  rw [List.range_succ, List.foldlM_append]
  simp only [bind, List.foldlM_cons, List.foldlM_nil]
  cases (List.range n).foldlM f b with
  | none => rfl
  | some x => simp only [Option.bind]; cases f x n <;> rfl

/-- C88: `gsm0503_xcch_burst_map` -/
theorem xcchBurstMap_spec (i e : Nat) (iB eB : List α) (hl hn : Option α) (h1 : i + 114 ≤ iB.length) (h2 : e + 116 ≤ eB.length) :
    ∃ d, xcchBurstMap i e iB eB hl hn = some d ∧ d.length = eB.length ∧ (∀ j < 114, d[e + mid j]? = iB[i + j]?) ∧
      (d[e + 57]? = hl.or eB[e + 57]?) ∧ (d[e + 58]? = hn.or eB[e + 58]?) ∧
      ∀ r, r < e ∨ e + 116 ≤ r → d[r]? = eB[r]? := by
  obtain ⟨d1, a1, b1, c1⟩ := copy_loop1 iB eB 57 i e (by omega) (by omega)
  obtain ⟨d2, a2, b2, c2⟩ := copy_loop1 iB d1 57 (i + 57) (e + 59) (by omega) (by omega)
  have opt : ∀ (o : Option α) (q : Nat) (b : List α), q < b.length → ∃ d, copy o.toList ((List.range o.toList.length).map fun _ => (0, q)) b = some d ∧
      d.length = b.length ∧ ∀ r, d[r]? = if r = q ∧ o ≠ none then o else b[r]? := by
    intro o q b hq
    cases o with
    | none => exact ⟨b, rfl, rfl, fun r => by simp⟩
    | some x =>
      obtain ⟨d, e1, e2, e3⟩ := copy_one [x] b 0 q (by simp) hq
      refine ⟨d, by simpa using e1, e2, fun r => ?_⟩
      rw [e3]
      by_cases hr : r = q
      · simp [hr]
      · simp [hr]
  obtain ⟨d3, a3, b3, c3⟩ := opt hl (e + 57) d2 (by omega)
  obtain ⟨d4, a4, b4, c4⟩ := opt hn (e + 58) d3 (by omega)
  refine ⟨d4, ?_, by omega, ?_, ?_, ?_, ?_⟩
  · unfold xcchBurstMap
    rw [a1]; dsimp only [bind, Option.bind]
    rw [a2]; dsimp only
    rw [a3]; dsimp only
    rw [a4]
  · intro j hj
    unfold mid
    by_cases h : j < 57
    · rw [if_pos h, c4, if_neg (fun h => absurd h.1 (by omega)), c3, if_neg (fun h => absurd h.1 (by omega)), c2, if_neg (by omega), c1, if_pos (by omega)]
      exact get_congr (by omega)
    · rw [if_neg h, c4, if_neg (fun h => absurd h.1 (by omega)), c3, if_neg (fun h => absurd h.1 (by omega)), c2, if_pos (by omega)]
      exact get_congr (by omega)
  · rw [c4, if_neg (fun h => absurd h.1 (by omega)), c3]
    cases hl with
    | none => rw [if_neg (by simp), c2, if_neg (by omega), c1, if_neg (by omega)]; simp
    | some x => simp
  · rw [c4]
    cases hn with
    | none => rw [if_neg (by simp), c3, if_neg (fun h => absurd h.1 (by omega)), c2, if_neg (by omega), c1, if_neg (by omega)]; simp
    | some x => simp
  · intro r hr
    rw [c4, if_neg (fun h => absurd h.1 (by omega)), c3, if_neg (fun h => absurd h.1 (by omega)), c2, if_neg (by omega), c1, if_neg (by omega)]

/-- C88: `gsm0503_xcch_burst_unmap` -/
theorem xcchBurstUnmap_spec (i e : Nat) (iB eB : List α) (h1 : i + 114 ≤ iB.length) (h2 : e + 116 ≤ eB.length) :
    ∃ d hl hn, xcchBurstUnmap i e iB eB = some (d, hl, hn) ∧ d.length = iB.length ∧ (∀ j < 114, d[i + j]? = eB[e + mid j]?) ∧
      eB[e + 57]? = some hl ∧ eB[e + 58]? = some hn ∧ ∀ r, r < i ∨ i + 114 ≤ r → d[r]? = iB[r]? := by
  obtain ⟨d1, a1, b1, c1⟩ := copy_loop1 eB iB 57 e i (by omega) (by omega)
  obtain ⟨d2, a2, b2, c2⟩ := copy_loop1 eB d1 57 (e + 59) (i + 57) (by omega) (by omega)
  have g1 : eB[e + 57]? = some (eB[e + 57]'(by omega)) := List.getElem?_eq_getElem _
  have g2 : eB[e + 58]? = some (eB[e + 58]'(by omega)) := List.getElem?_eq_getElem _
  refine ⟨d2, _, _, ?_, by omega, ?_, g1, g2, ?_⟩
  · unfold xcchBurstUnmap
    rw [a1]; dsimp only [bind, Option.bind]
    rw [a2]; dsimp only
    rw [g1]; dsimp only
    rw [g2]
  · intro j hj
    unfold mid
    by_cases h : j < 57
    · rw [if_pos h, c2, if_neg (by omega), c1, if_pos (by omega)]
      exact get_congr (by omega)
    · rw [if_neg h, c2, if_pos (by omega)]
      exact get_congr (by omega)
  · intro r hr
    rw [c2, if_neg (by omega), c1, if_neg (by omega)]

/-- C88: `gsm0503_tch_burst_map`: the bits of one parity are copied and the flag of this parity is set; all else is left. -/
theorem tchBurstMap_spec (i e odd : Nat) (h : α) (iB eB : List α) (ho : odd ≤ 1) (h1 : i + 114 ≤ iB.length) (h2 : e + 116 ≤ eB.length) :
    ∃ d, tchBurstMap i e odd h iB eB = some d ∧ d.length = eB.length ∧ (∀ j < 114, j % 2 = odd → d[e + mid j]? = iB[i + j]?) ∧
      d[e + 58 - odd]? = some h ∧
      ∀ r, r < e ∨ e + 116 ≤ r ∨ (r ≠ e + 57 ∧ r ≠ e + 58 ∧ (r - e) % 2 ≠ odd) ∨ r = e + 57 + odd → d[r]? = eB[r]? := by
  obtain ⟨d1, a1, b1, c1⟩ := copy_loop2 iB eB (29 - odd) (i + odd) (e + odd) (by omega) (by omega)
  obtain ⟨d2, a2, b2, c2⟩ := copy_loop2 iB d1 (28 + odd) (i + 58 - odd) (e + 58 - odd + 2) (by omega) (by omega)
  obtain ⟨d3, a3, b3, c3⟩ := copy_one [h] d2 0 (e + if odd = 0 then 58 else 57) (by simp) (by split <;> omega)
  have hf : (e + if odd = 0 then 58 else 57) = e + 58 - odd := by split <;> omega
  refine ⟨d3, ?_, by omega, ?_, ?_, ?_⟩
  · unfold tchBurstMap tchPairs
    rw [copy_append, a1]; dsimp only [bind, Option.bind]
    rw [a2]; dsimp only
    rw [a3]
  · intro j hj hjo
    rw [c3, hf]
    unfold mid
    by_cases h : j < 57
    · rw [if_pos h, if_neg (by omega), c2, if_neg (by omega), c1, if_pos (by omega)]
      exact get_congr (by omega)
    · rw [if_neg h, if_neg (by omega), c2, if_pos (by omega)]
      exact get_congr (by omega)
  · rw [c3, hf, if_pos rfl]
    rfl
  · intro r hr
    rw [c3, hf, if_neg (by omega), c2, if_neg (by omega), c1, if_neg (by omega)]

/-- C88: `gsm0503_tch_burst_unmap` -/
theorem tchBurstUnmap_spec (i e odd : Nat) (iB eB : List α) (ho : odd ≤ 1) (h1 : i + 114 ≤ iB.length) (h2 : e + 116 ≤ eB.length) :
    ∃ d, tchBurstUnmap i e odd iB eB = some d ∧ d.length = iB.length ∧ (∀ j < 114, j % 2 = odd → d[i + j]? = eB[e + mid j]?) ∧
      ∀ r, r < i ∨ i + 114 ≤ r → d[r]? = iB[r]? := by
  obtain ⟨d1, a1, b1, c1⟩ := copy_loop2 eB iB (29 - odd) (e + odd) (i + odd) (by omega) (by omega)
  obtain ⟨d2, a2, b2, c2⟩ := copy_loop2 eB d1 (28 + odd) (e + 58 - odd + 2) (i + 58 - odd) (by omega) (by omega)
  refine ⟨d2, ?_, by omega, ?_, ?_⟩
  · unfold tchBurstUnmap
    rw [copy_append, a1]; dsimp only [Option.bind]
    rw [a2]
  · intro j hj hjo
    unfold mid
    by_cases h : j < 57
    · rw [if_pos h, c2, if_neg (by omega), c1, if_pos (by omega)]
      exact get_congr (by omega)
    · rw [if_neg h, c2, if_pos (by omega)]
      exact get_congr (by omega)
  · intro r hr
    rw [c2, if_neg (by omega), c1, if_neg (by omega)]

/-! ### xCCH -/

/-- C88: a block of a control channel comes back from its four bursts. -/
theorem xcch_chain (hl hn : α) (iB cB bursts cB0 iB0 : List α) (h1 : iB.length = 456) (h2 : cB.length = 456) (h3 : bursts.length = 464)
    (h4 : cB0.length = 456) (h5 : iB0.length = 456) :
    ∃ b, xcchSend hl hn iB cB bursts = some b ∧ b.length = 464 ∧ xcchReceive cB0 iB0 b = some cB ∧
      ∀ B < 4, b[116 * B + 57]? = some hl ∧ b[116 * B + 58]? = some hn := by
  obtain ⟨i, e1, e2, e3⟩ := xcch_roundtrip cB iB cB0 h2 h1 h4
  have send : ∀ n ≤ 4, ∃ b, (List.range n).foldlM (fun b k => xcchBurstMap (k * 114) (k * 116) i b (some hl) (some hn)) bursts = some b ∧
      b.length = 464 ∧ (∀ B < n, ∀ j < 114, b[116 * B + mid j]? = i[114 * B + j]?) ∧
      ∀ B < n, b[116 * B + 57]? = some hl ∧ b[116 * B + 58]? = some hn := by
    intro n
    induction n with
    | zero => intro _; exact ⟨bursts, rfl, h3, fun B h => absurd h (by omega), fun B h => absurd h (by omega)⟩
    | succ n ih =>
      intro hn4
      obtain ⟨b, f1, f2, f3, f4⟩ := ih (by omega)
      obtain ⟨d, g1, g2, g3, g4, g5, g6⟩ := xcchBurstMap_spec (n * 114) (n * 116) i b (some hl) (some hn) (by omega) (by omega)
      refine ⟨d, by rw [foldlM_range_succ, f1]; exact g1, by omega, ?_, ?_⟩
      · intro B hB j hj
        have hm : mid j < 116 := by unfold mid; split <;> omega
        by_cases h : B < n
        · rw [g6 _ (by omega), f3 B h j hj]
        · have : B = n := by omega
          subst this
          rw [Nat.mul_comm 116, g3 j hj, Nat.mul_comm]
      · intro B hB
        by_cases h : B < n
        · rw [g6 _ (by omega), g6 _ (by omega)]
          exact f4 B h
        · have : B = n := by omega
          subst this
          rw [Nat.mul_comm 116, g4, g5]
          simp
  obtain ⟨b, f1, f2, f3, f4⟩ := send 4 (by omega)
  have recv : ∀ n ≤ 4, ∃ x, (List.range n).foldlM (fun iB k => (xcchBurstUnmap (k * 114) (k * 116) iB b).map (·.1)) iB0 = some x ∧
      x.length = 456 ∧ ∀ r < 114 * n, x[r]? = i[r]? := by
    intro n
    induction n with
    | zero => intro _; exact ⟨iB0, rfl, h5, fun r h => absurd h (by omega)⟩
    | succ n ih =>
      intro hn4
      obtain ⟨x, k1, k2, k3⟩ := ih (by omega)
      obtain ⟨d, _, _, g1, g2, g3, -, -, g6⟩ := xcchBurstUnmap_spec (n * 114) (n * 116) x b (by omega) (by omega)
      refine ⟨d, ?_, by omega, ?_⟩
      · rw [foldlM_range_succ, k1]
        dsimp only [Option.bind]
        rw [g1]
        rfl
      · intro r hr
        by_cases h : r < 114 * n
        · rw [g6 r (by omega), k3 r h]
        · have := g3 (r - n * 114) (by omega)
          rw [show n * 114 + (r - n * 114) = r by omega] at this
          rw [this, Nat.mul_comm n 116, f3 n (by omega) _ (by omega)]
          exact get_congr (by omega)
  obtain ⟨x, k1, k2, k3⟩ := recv 4 (by omega)
  refine ⟨b, ?_, f2, ?_, f4⟩
  · unfold xcchSend
    rw [e1]
    exact f1
  · unfold xcchReceive
    rw [k1]
    dsimp only [bind, Option.bind]
    rw [eq_of_get k2 e2 fun r hr => k3 r (by omega), e3]

/-! ### TCH: diagonal interleaving -/

/-- A traffic channel with diagonal interleaving over `2w` bursts: the bits in the first `w` bursts of a block are at even places,
those in the others at odd ones. -/
structure Diagonal (w n : Nat) (ps : List (Nat × Nat)) : Prop where
  all : mask (ps.map Prod.fst) = some (2 ^ n - 1)
  inside : ∃ m, mask (ps.map Prod.snd) = some m ∧ m < 2 ^ (228 * w)
  parity : ∀ pq ∈ ps, pq.2 % 114 % 2 = pq.2 / 114 / w

/-- interleaving, burst mapping -/
def genSend (w : Nat) (o : Nat → Nat) (ps : List (Nat × Nat)) (base : Nat) (h : α) (iB cB bursts : List α) : Option (List α) := do
  let iB ← copy cB ps iB
  (List.range (2 * w)).foldlM (fun b i => tchBurstMap (i * 114) (base + i * 116) (o i) h iB b) bursts

/-- and back -/
def genReceive (w : Nat) (o : Nat → Nat) (ps : List (Nat × Nat)) (base : Nat) (cB iB bursts : List α) : Option (List α) := do
  let iB ← (List.range (2 * w)).foldlM (fun iB i => tchBurstUnmap (i * 114) (base + i * 116) (o i) iB bursts) iB
  copy iB (ps.map Prod.swap) cB

theorem mapLoop_spec (o : Nat → Nat) (base : Nat) (h : α) (iB bursts : List α) (N : Nat) (ho : ∀ i < N, o i ≤ 1) :
    ∀ n ≤ N, 114 * n ≤ iB.length → base + 116 * n ≤ bursts.length →
    ∃ b, (List.range n).foldlM (fun b i => tchBurstMap (i * 114) (base + i * 116) (o i) h iB b) bursts = some b ∧ b.length = bursts.length ∧
      (∀ B < n, ∀ j < 114, j % 2 = o B → b[base + 116 * B + mid j]? = iB[114 * B + j]?) ∧
      (∀ B < n, b[base + 116 * B + 58 - o B]? = some h) ∧
      ∀ r, (∀ B < n, r < base + 116 * B ∨ base + 116 * B + 116 ≤ r ∨
          (r ≠ base + 116 * B + 57 ∧ r ≠ base + 116 * B + 58 ∧ (r - (base + 116 * B)) % 2 ≠ o B) ∨ r = base + 116 * B + 57 + o B) →
        b[r]? = bursts[r]? := by
  intro n
  induction n with
  | zero => intro _ _ _; exact ⟨bursts, rfl, rfl, fun B h => absurd h (by omega), fun B h => absurd h (by omega), fun _ _ => rfl⟩
  | succ n ih =>
    intro hN h1 h2
    obtain ⟨b, f1, f2, f3, f4, f5⟩ := ih (by omega) (by omega) (by omega)
    have hon := ho n (by omega)
    obtain ⟨d, g1, g2, g3, g4, g5⟩ := tchBurstMap_spec (n * 114) (base + n * 116) (o n) h iB b hon (by omega) (by omega)
    refine ⟨d, by rw [foldlM_range_succ, f1]; exact g1, by omega, ?_, ?_, ?_⟩
    · intro B hB j hj hjo
      have hm : mid j < 116 := by unfold mid; split <;> omega
      by_cases hB' : B < n
      · rw [g5 _ (by omega), f3 B hB' j hj hjo]
      · have : B = n := by omega
        subst this
        rw [Nat.mul_comm 116, g3 j hj hjo, Nat.mul_comm]
    · intro B hB
      by_cases hB' : B < n
      · rw [g5 _ (by have := ho B (by omega); omega), f4 B hB']
      · have : B = n := by omega
        subst this
        rw [Nat.mul_comm 116, g4]
    · intro r hr
      rw [g5 r (by have := hr n (by omega); omega), f5 r (fun B hB => hr B (by omega))]

theorem unmapLoop_spec (o : Nat → Nat) (base : Nat) (iB bursts : List α) (N : Nat) (ho : ∀ i < N, o i ≤ 1) :
    ∀ n ≤ N, 114 * n ≤ iB.length → base + 116 * n ≤ bursts.length →
    ∃ x, (List.range n).foldlM (fun iB i => tchBurstUnmap (i * 114) (base + i * 116) (o i) iB bursts) iB = some x ∧ x.length = iB.length ∧
      (∀ B < n, ∀ j < 114, j % 2 = o B → x[114 * B + j]? = bursts[base + 116 * B + mid j]?) ∧ ∀ r, 114 * n ≤ r → x[r]? = iB[r]? := by
  intro n
  induction n with
  | zero => intro _ _ _; exact ⟨iB, rfl, rfl, fun B h => absurd h (by omega), fun _ _ => rfl⟩
  | succ n ih =>
    intro hN h1 h2
    obtain ⟨x, f1, f2, f3, f4⟩ := ih (by omega) (by omega) (by omega)
    obtain ⟨d, g1, g2, g3, g4⟩ := tchBurstUnmap_spec (n * 114) (base + n * 116) (o n) x bursts (ho n (by omega)) (by omega) (by omega)
    refine ⟨d, by rw [foldlM_range_succ, f1]; exact g1, by omega, ?_, ?_⟩
    · intro B hB j hj hjo
      by_cases hB' : B < n
      · rw [g4 _ (by omega), f3 B hB' j hj hjo]
      · have : B = n := by omega
        subst this
        rw [Nat.mul_comm 114, g3 j hj hjo, Nat.mul_comm]
    · intro r hr
      rw [g4 r (by omega), f4 r (by omega)]

section
variable {w n : Nat} {ps : List (Nat × Nat)} {o : Nat → Nat}

/-- What a block at `base` does to the bursts. -/
theorem genSend_spec (hd : Diagonal w n ps) (hw : 0 < w) (ho : ∀ i < 2 * w, o i = i / w) (base : Nat) (h : α) (iB cB bursts : List α)
    (h1 : iB.length = 228 * w) (h2 : cB.length = n) (h3 : base + 232 * w ≤ bursts.length) :
    ∃ b, genSend w o ps base h iB cB bursts = some b ∧ b.length = bursts.length ∧
      (∀ pq ∈ ps, b[base + 116 * (pq.2 / 114) + mid (pq.2 % 114)]? = cB[pq.1]?) ∧
      (∀ B < 2 * w, b[base + 116 * B + 58 - B / w]? = some h) ∧
      ∀ r, (∀ B < 2 * w, r < base + 116 * B ∨ base + 116 * B + 116 ≤ r ∨
          (r ≠ base + 116 * B + 57 ∧ r ≠ base + 116 * B + 58 ∧ (r - (base + 116 * B)) % 2 ≠ B / w) ∨ r = base + 116 * B + 57 + B / w) →
        b[r]? = bursts[r]? := by
  have hdiv : ∀ B < 2 * w, B / w ≤ 1 := by
    intro B hB
    have : B / w < 2 := Nat.div_lt_of_lt_mul (by omega)
    omega
  obtain ⟨m, hm, hm'⟩ := hd.inside
  obtain ⟨i, e1, e2, e3, -⟩ := pairs_spec hd.all (lt_two_pow _) hm hm' cB iB h2 h1
  obtain ⟨b, f1, f2, f3, f4, f5⟩ := mapLoop_spec o base h i bursts (2 * w) (fun k hk => by rw [ho k hk]; exact hdiv k hk) (2 * w) (Nat.le_refl _)
    (by omega) (by omega)
  refine ⟨b, ?_, f2, ?_, ?_, ?_⟩
  · unfold genSend
    rw [e1]
    exact f1
  · intro pq hpq
    have hb := (mask_sub hm hm').2 pq.2 (List.mem_map.mpr ⟨pq, hpq, rfl⟩)
    have hB : pq.2 / 114 < 2 * w := Nat.div_lt_of_lt_mul (by omega)
    rw [f3 (pq.2 / 114) hB (pq.2 % 114) (Nat.mod_lt _ (by omega)) (by rw [hd.parity pq hpq, ho _ hB]), ← e3 pq hpq]
    exact get_congr (Nat.div_add_mod _ _)
  · intro B hB
    have := f4 B hB
    rwa [ho B hB] at this
  · intro r hr
    apply f5
    intro B hB
    rw [ho B hB]
    exact hr B hB

theorem genReceive_spec (hd : Diagonal w n ps) (hw : 0 < w) (ho : ∀ i < 2 * w, o i = i / w) (base : Nat) (cB iB bursts c : List α)
    (h1 : iB.length = 228 * w) (h2 : cB.length = n) (h3 : base + 232 * w ≤ bursts.length) (hc : c.length = n)
    (h : ∀ pq ∈ ps, bursts[base + 116 * (pq.2 / 114) + mid (pq.2 % 114)]? = c[pq.1]?) :
    genReceive w o ps base cB iB bursts = some c := by
  have hdiv : ∀ B < 2 * w, B / w ≤ 1 := by
    intro B hB
    have : B / w < 2 := Nat.div_lt_of_lt_mul (by omega)
    omega
  obtain ⟨m, hm, hm'⟩ := hd.inside
  obtain ⟨x, f1, f2, f3, -⟩ := unmapLoop_spec o base iB bursts (2 * w) (fun k hk => by rw [ho k hk]; exact hdiv k hk) (2 * w) (Nat.le_refl _)
    (by omega) (by omega)
  obtain ⟨d, g1, g2, g3, -⟩ := pairs_spec (ps := ps.map Prod.swap) (by simpa [List.map_map, Function.comp_def] using hm) hm'
    (by simpa [List.map_map, Function.comp_def] using hd.all) (lt_two_pow _) x cB (f2.trans h1) h2
  unfold genReceive
  rw [f1]
  dsimp only [bind, Option.bind]
  rw [g1, eq_of_get g2 hc fun k hk => ?_]
  obtain ⟨pq, hpq, rfl⟩ := List.mem_map.mp (((mask_full hd.all).2 k).mpr hk)
  have hb := (mask_sub hm hm').2 pq.2 (List.mem_map.mpr ⟨pq, hpq, rfl⟩)
  have hB : pq.2 / 114 < 2 * w := Nat.div_lt_of_lt_mul (by omega)
  have := f3 (pq.2 / 114) hB (pq.2 % 114) (Nat.mod_lt _ (by omega)) (by rw [hd.parity pq hpq, ho _ hB])
  rw [h pq hpq, Nat.div_add_mod] at this
  exact (g3 pq.swap (List.mem_map.mpr ⟨pq, hpq, rfl⟩)).trans this

/-- A block: the flag, the coded bits, and the array on the stack before. -/
structure Block (α : Type) where
  flag : α
  coded : List α
  stack : List α

/-- Blocks sent one after the other, each starting in the middle of the one before; `t` is the number of the first. -/
def sendAll (send : Nat → α → List α → List α → List α → Option (List α)) (stride : Nat) : Nat → List (Block α) → List α → Option (List α)
  | _, [], bursts => some bursts
  | t, b :: bs, bursts => (send (stride * t) b.flag b.stack b.coded bursts).bind (sendAll send stride (t + 1) bs)

/-- The places that later blocks, from block `t` on, leave alone. -/
def Kept (w t r : Nat) : Prop := r < 116 * w * t ∨
  ∃ B < w, ∃ x, x < 116 ∧ r = 116 * w * t + 116 * B + x ∧ ((x ≠ 57 ∧ x ≠ 58 ∧ x % 2 = 1) ∨ x = 57)

theorem kept_succ {t r : Nat} (h : Kept w t r) : Kept w (t + 1) r := by
  have hm : 116 * w * (t + 1) = 116 * w * t + 116 * w := by rw [Nat.mul_succ]
  rcases h with h | ⟨B, hB, x, hx, rfl, -⟩
  · exact Or.inl (by omega)
  · exact Or.inl (by omega)

theorem sendAll_kept (hd : Diagonal w n ps) (hw : 0 < w) (ho : ∀ i < 2 * w, o i = i / w) (bs : List (Block α)) :
    ∀ (t : Nat) (bursts : List α), (∀ b ∈ bs, b.coded.length = n ∧ b.stack.length = 228 * w) →
    116 * w * (t + bs.length + 1) ≤ bursts.length →
    ∃ b, sendAll (genSend w o ps) (116 * w) t bs bursts = some b ∧ b.length = bursts.length ∧ ∀ r, Kept w t r → b[r]? = bursts[r]? := by
  induction bs with
  | nil => intro t bursts _ _; exact ⟨bursts, rfl, rfl, fun _ _ => rfl⟩
  | cons blk bs ih =>
    intro t bursts hb hl
    have hblk := hb blk (by simp)
    rw [List.length_cons, show t + (bs.length + 1) + 1 = t + bs.length + 1 + 1 by omega, Nat.mul_succ, Nat.mul_succ, Nat.mul_add] at hl
    have hp : 0 ≤ 116 * w * bs.length := Nat.zero_le _
    obtain ⟨b, f1, f2, -, -, f5⟩ := genSend_spec hd hw ho (116 * w * t) blk.flag blk.stack blk.coded bursts hblk.2 hblk.1 (by omega)
    obtain ⟨b', g1, g2, g3⟩ := ih (t + 1) b (fun x hx => hb x (by simp [hx]))
      (by rw [f2, show t + 1 + bs.length + 1 = t + bs.length + 1 + 1 by omega, Nat.mul_succ, Nat.mul_succ, Nat.mul_add]; exact hl)
    refine ⟨b', ?_, by omega, ?_⟩
    · unfold sendAll
      rw [f1]
      exact g1
    · intro r hr
      rw [g3 r (kept_succ hr), f5 r]
      intro B hB
      rcases hr with hr | ⟨B', hB', x, hx, rfl, hx'⟩
      · exact Or.inl (by omega)
      · by_cases he : B = B'
        · subst he
          rw [Nat.div_eq_of_lt hB']
          omega
        · omega

/-- All blocks come back, each with its flags, however many are sent. -/
theorem sendAll_receive (hd : Diagonal w n ps) (hw : 0 < w) (ho : ∀ i < 2 * w, o i = i / w) (bs : List (Block α)) :
    ∀ (t : Nat) (bursts : List α), (∀ b ∈ bs, b.coded.length = n ∧ b.stack.length = 228 * w) →
    116 * w * (t + bs.length + 1) ≤ bursts.length →
    ∃ b, sendAll (genSend w o ps) (116 * w) t bs bursts = some b ∧ b.length = bursts.length ∧
      ∀ k blk, bs[k]? = some blk →
        (∀ cB iB : List α, cB.length = n → iB.length = 228 * w → genReceive w o ps (116 * w * (t + k)) cB iB b = some blk.coded) ∧
        ∀ B < 2 * w, b[116 * w * (t + k) + 116 * B + 58 - B / w]? = some blk.flag := by
  induction bs with
  | nil => intro t bursts _ _; exact ⟨bursts, rfl, rfl, fun k blk h => by simp at h⟩
  | cons blk bs ih =>
    intro t bursts hb hl
    have hblk := hb blk (by simp)
    rw [List.length_cons, show t + (bs.length + 1) + 1 = t + bs.length + 1 + 1 by omega] at hl
    have hl2 := hl
    rw [Nat.mul_succ, Nat.mul_succ, Nat.mul_add] at hl2
    have hp : 0 ≤ 116 * w * bs.length := Nat.zero_le _
    obtain ⟨b, f1, f2, f3, f4, -⟩ := genSend_spec hd hw ho (116 * w * t) blk.flag blk.stack blk.coded bursts hblk.2 hblk.1 (by omega)
    have hl' : 116 * w * (t + 1 + bs.length + 1) ≤ b.length := by
      rw [f2, show t + 1 + bs.length + 1 = t + bs.length + 1 + 1 by omega]; exact hl
    obtain ⟨b', g1, g2, g3⟩ := ih (t + 1) b (fun x hx => hb x (by simp [hx])) hl'
    obtain ⟨b'', k1, -, k3⟩ := sendAll_kept hd hw ho bs (t + 1) b (fun x hx => hb x (by simp [hx])) hl'
    rw [g1] at k1
    have : b' = b'' := Option.some.inj k1
    subst this
    have hstep : 116 * w * (t + 1) = 116 * w * t + 116 * w := by rw [Nat.mul_succ]
    have keep : ∀ B < 2 * w, ∀ x, x < 116 → (w ≤ B → (x ≠ 57 ∧ x ≠ 58 ∧ x % 2 = 1) ∨ x = 57) →
        b'[116 * w * t + 116 * B + x]? = b[116 * w * t + 116 * B + x]? := by
      intro B hB x hx hw'
      apply k3
      by_cases h : B < w
      · exact Or.inl (by omega)
      · exact Or.inr ⟨B - w, by omega, x, hx, by omega, hw' (by omega)⟩
    obtain ⟨m, hm, hm'⟩ := hd.inside
    refine ⟨b', ?_, by omega, ?_⟩
    · unfold sendAll
      rw [f1]
      exact g1
    · intro k blk' hk
      cases k with
      | zero =>
        simp only [List.getElem?_cons_zero, Option.some.injEq] at hk
        subst hk
        rw [Nat.add_zero]
        refine ⟨fun cB iB hc hi => ?_, fun B hB => ?_⟩
        · apply genReceive_spec hd hw ho _ cB iB b' blk.coded hi hc (by omega) hblk.1
          intro pq hpq
          have hb := (mask_sub hm hm').2 pq.2 (List.mem_map.mpr ⟨pq, hpq, rfl⟩)
          have hB : pq.2 / 114 < 2 * w := Nat.div_lt_of_lt_mul (by omega)
          have hpar := hd.parity pq hpq
          have hj : pq.2 % 114 < 114 := Nat.mod_lt _ (by omega)
          rw [← f3 pq hpq]
          apply keep _ hB
          · unfold mid; split <;> omega
          · intro hwB
            have h1 : pq.2 / 114 / w = 1 := by
              apply Nat.div_eq_of_lt_le
              · omega
              · omega
            rw [h1] at hpar
            unfold mid
            split <;> omega
        · rw [← f4 B hB]
          by_cases h : B < w
          · rw [Nat.div_eq_of_lt h]
            exact keep B hB 58 (by omega) (by omega)
          · have h1 : B / w = 1 := by
              apply Nat.div_eq_of_lt_le
              · omega
              · omega
            rw [h1]
            exact keep B hB 57 (by omega) (by omega)
      | succ k =>
        rw [List.getElem?_cons_succ] at hk
        have := g3 k blk' hk
        rw [show t + 1 + k = t + (k + 1) by omega] at this
        exact this

end

theorem tchFr_diagonal : Diagonal 4 456 ((List.range 456).map fun k => (k, tchFrPlace k)) where
  all := by
    rw [List.map_map]
    decide +kernel
  inside := by
    obtain ⟨m, h1, h2⟩ := of_any tchFr_mask
    refine ⟨m, ?_, h2⟩
    rw [List.map_map]
    exact h1
  parity := by
    simp only [List.mem_map, List.mem_range]
    rintro _ ⟨k, hk, rfl⟩
    dsimp only
    rw [tchFrPlace_eq]
    have hx : 2 * (49 * k % 57) + k % 8 / 4 < 114 := by omega
    rw [Nat.mul_add_mod, Nat.mod_eq_of_lt hx, Nat.mul_add_div (by omega), Nat.div_eq_of_lt hx, Nat.add_zero]
    omega

theorem tchHr_diagonal : Diagonal 2 228 tchHrPairs where
  all := tchHr_fst
  inside := of_any tchHr_snd
  parity := by
    intro pq h
    rw [tchHr_parity_mem pq h]
    omega

/-- C88: full rate blocks (speech or FACCH/F), one every four bursts, each spread over eight, all come back, with their stealing
flags, however many there are and whatever was in the buffers before. -/
theorem tchFr_stream (bs : List (Block α)) (bursts : List α) (h : ∀ b ∈ bs, b.coded.length = 456 ∧ b.stack.length = 912)
    (hl : 464 * (bs.length + 1) ≤ bursts.length) :
    ∃ b, sendAll tchFrSend 464 0 bs bursts = some b ∧ b.length = bursts.length ∧ ∀ k blk, bs[k]? = some blk →
      (∀ cB iB : List α, cB.length = 456 → iB.length = 912 → tchFrReceive (464 * k) cB iB b = some blk.coded) ∧
      tchFrFlags (464 * k) b = some (List.replicate 8 blk.flag) := by
  obtain ⟨b, h1, h2, h3⟩ := sendAll_receive (o := fun i => i >>> 2) tchFr_diagonal (by omega)
    (fun i _ => by rw [Nat.shiftRight_eq_div_pow]) bs 0 bursts h (by omega)
  refine ⟨b, h1, h2, fun k blk hk => ?_⟩
  obtain ⟨g1, g2⟩ := h3 k blk hk
  rw [Nat.zero_add] at g1 g2
  refine ⟨fun cB iB hc hi => ?_, ?_⟩
  · have := g1 cB iB hc hi
    unfold genReceive at this
    rw [List.map_map] at this
    exact this
  · have e0 : tchBurstFlag (464 * k + 0 * 116) (0 >>> 2) b = some blk.flag := g2 0 (by omega)
    have e1 : tchBurstFlag (464 * k + 1 * 116) (1 >>> 2) b = some blk.flag := g2 1 (by omega)
    have e2 : tchBurstFlag (464 * k + 2 * 116) (2 >>> 2) b = some blk.flag := g2 2 (by omega)
    have e3 : tchBurstFlag (464 * k + 3 * 116) (3 >>> 2) b = some blk.flag := g2 3 (by omega)
    have e4 : tchBurstFlag (464 * k + 4 * 116) (4 >>> 2) b = some blk.flag := g2 4 (by omega)
    have e5 : tchBurstFlag (464 * k + 5 * 116) (5 >>> 2) b = some blk.flag := g2 5 (by omega)
    have e6 : tchBurstFlag (464 * k + 6 * 116) (6 >>> 2) b = some blk.flag := g2 6 (by omega)
    have e7 : tchBurstFlag (464 * k + 7 * 116) (7 >>> 2) b = some blk.flag := g2 7 (by omega)
    unfold tchFrFlags
    rw [show List.range 8 = [0, 1, 2, 3, 4, 5, 6, 7] from rfl]
    simp only [List.mapM_cons, List.mapM_nil, e0, e1, e2, e3, e4, e5, e6, e7, bind, Option.bind, pure]
    rfl

/-- C88: the same for half rate speech, one block every two bursts, each spread over four. -/
theorem tchHr_stream (bs : List (Block α)) (bursts : List α) (h : ∀ b ∈ bs, b.coded.length = 228 ∧ b.stack.length = 456)
    (hl : 232 * (bs.length + 1) ≤ bursts.length) :
    ∃ b, sendAll tchHrSend 232 0 bs bursts = some b ∧ b.length = bursts.length ∧ ∀ k blk, bs[k]? = some blk →
      (∀ cB iB : List α, cB.length = 228 → iB.length = 456 → tchHrReceive (232 * k) cB iB b = some blk.coded) ∧
      ∀ B < 4, b[232 * k + 116 * B + 58 - B / 2]? = some blk.flag := by
  obtain ⟨b, h1, h2, h3⟩ := sendAll_receive (o := fun i => i >>> 1) tchHr_diagonal (by omega)
    (fun i _ => by rw [Nat.shiftRight_eq_div_pow]) bs 0 bursts h (by omega)
  refine ⟨b, h1, h2, fun k blk hk => ?_⟩
  obtain ⟨g1, g2⟩ := h3 k blk hk
  rw [Nat.zero_add] at g1 g2
  exact ⟨fun cB iB hc hi => g1 cB iB hc hi, g2⟩

/-- C88: a FACCH/H block comes back from its six bursts; it sets all eight stealing flags. -/
theorem facchH_chain (base : Nat) (h : α) (iB cB bursts cB0 iB0 : List α) (h1 : iB.length = 912) (h2 : cB.length = 456)
    (h3 : base + 696 ≤ bursts.length) (h4 : cB0.length = 456) (h5 : iB0.length = 912) :
    ∃ b, facchHSend base h iB cB bursts = some b ∧ b.length = bursts.length ∧ facchHReceive base cB0 iB0 b = some cB ∧
      (∀ i < 4, b[base + 116 * i + 58]? = some h) ∧ ∀ i, 2 ≤ i → i < 6 → b[base + 116 * i + 57]? = some h := by
  obtain ⟨i, e1, e2, -⟩ := tchFr_roundtrip cB iB cB0 h2 h1 h4
  have e4 : ∀ k < 456, i[114 * (k % 8) + (2 * (49 * k % 57) + k % 8 / 4)]? = cB[k]? := fun k hk => tchFr_standard cB iB i h2 h1 e1 k hk
  obtain ⟨b1, f1, f2, f3, f4, -⟩ := mapLoop_spec (fun i => i >>> 2) base h i bursts 6
    (fun k hk => by rw [Nat.shiftRight_eq_div_pow]; omega) 6 (by omega) (by omega) (by omega)
  obtain ⟨b2, g1, g2, g3, g4, g5⟩ := tchBurstMap_spec (2 * 114 + 456) (base + 2 * 116) 1 h i b1 (by omega) (by omega) (by omega)
  obtain ⟨b3, k1, k2, k3, k4, k5⟩ := tchBurstMap_spec (3 * 114 + 456) (base + 3 * 116) 1 h i b2 (by omega) (by omega) (by omega)
  have hmid : ∀ j, mid j < 57 ∧ mid j = j ∨ mid j = j + 2 ∧ 57 ≤ j := by intro j; unfold mid; split <;> omega
  have hs : ∀ B < 6, B >>> 2 = B / 4 := fun B _ => Nat.shiftRight_eq_div_pow B 2
  have first : ∀ B < 6, ∀ j < 114, j % 2 = B / 4 → b3[base + 116 * B + mid j]? = i[114 * B + j]? := by
    intro B hB j hj hp
    have hm := hmid j
    rw [k5 _ (by omega), g5 _ (by omega), f3 B hB j hj (by rw [hs B hB]; exact hp)]
  have mid2 : ∀ j < 114, j % 2 = 1 → b3[base + 116 * 2 + mid j]? = i[114 * 6 + j]? := by
    intro j hj hp
    have hm := hmid j
    have := g3 j hj hp
    rw [k5 _ (by omega)]
    rw [show base + 116 * 2 + mid j = base + 2 * 116 + mid j by omega, this]
  have mid3 : ∀ j < 114, j % 2 = 1 → b3[base + 116 * 3 + mid j]? = i[114 * 7 + j]? := by
    intro j hj hp
    have := k3 j hj hp
    rw [show base + 116 * 3 + mid j = base + 3 * 116 + mid j by omega, this]
  obtain ⟨x1, l1, l2, l3, l4⟩ := unmapLoop_spec (fun i => i >>> 2) base iB0 b3 6
    (fun k hk => by rw [Nat.shiftRight_eq_div_pow]; omega) 6 (by omega) (by omega) (by omega)
  obtain ⟨x2, m1, m2, m3, m4⟩ := tchBurstUnmap_spec (2 * 114 + 456) (base + 2 * 116) 1 x1 b3 (by omega) (by omega) (by omega)
  obtain ⟨x3, n1, n2, n3, n4⟩ := tchBurstUnmap_spec (3 * 114 + 456) (base + 3 * 116) 1 x2 b3 (by omega) (by omega) (by omega)
  have back : ∀ B < 8, ∀ j < 114, j % 2 = B / 4 → x3[114 * B + j]? = i[114 * B + j]? := by
    intro B hB j hj hp
    by_cases hB6 : B < 6
    · rw [n4 _ (by omega), m4 _ (by omega), l3 B hB6 j hj (by rw [hs B hB6]; exact hp), first B hB6 j hj hp]
    · by_cases h6 : B = 6
      · subst h6
        rw [n4 _ (by omega), show 114 * 6 + j = 2 * 114 + 456 + j by omega, m3 j hj (by omega),
          show base + 2 * 116 + mid j = base + 116 * 2 + mid j by omega, mid2 j hj (by omega)]
      · have h7 : B = 7 := by omega
        subst h7
        rw [show 114 * 7 + j = 3 * 114 + 456 + j by omega, n3 j hj (by omega),
          show base + 3 * 116 + mid j = base + 116 * 3 + mid j by omega, mid3 j hj (by omega)]
  obtain ⟨m, hm1, hm2⟩ := of_any tchFr_mask
  obtain ⟨c, q1, q2, q3⟩ := gather_spec hm1 hm2 x3 cB0 (by omega) h4
  have hc : c = cB := eq_of_get q2 h2 fun k hk => by
    rw [q3 k hk, tchFrPlace_eq, back (k % 8) (by omega) _ (by omega) (by omega), e4 k hk]
  subst hc
  refine ⟨b3, ?_, by omega, ?_, ?_, ?_⟩
  · unfold facchHSend
    rw [e1]; dsimp only [bind, Option.bind]
    rw [f1]; dsimp only [bind, Option.bind]
    simp only [List.foldlM_cons, List.foldlM_nil, bind, Option.bind, g1, k1, pure]
  · unfold facchHReceive
    rw [l1]; dsimp only [bind, Option.bind]
    simp only [List.foldlM_cons, List.foldlM_nil, bind, Option.bind, m1, n1, pure]
    exact q1
  · intro B hB
    have := f4 B (by omega)
    rw [hs B (by omega), show B / 4 = 0 by omega] at this
    rw [k5 _ (by omega), g5 _ (by omega)]
    exact this
  · intro B hB hB'
    by_cases h2 : B = 2
    · subst h2
      rw [k5 _ (by omega)]
      exact g4
    · by_cases h3 : B = 3
      · subst h3
        exact k4
      · have := f4 B hB'
        rw [hs B hB', show B / 4 = 1 by omega] at this
        rw [k5 _ (by omega), g5 _ (by omega)]
        exact this

/-! Instances: odd bits in a burst; two speech blocks with a FACCH/F block between them. -/

example : (tchBurstMap 0 0 1 9 (List.range 114) (List.replicate 116 7)).map (·.take 6) = some [7, 1, 7, 3, 7, 5] ∧
    (tchBurstMap 0 0 1 9 (List.range 114) (List.replicate 116 7)).map (fun l => (l.drop 55).take 7) = some [55, 7, 9, 7, 57, 7, 59] := by
  decide +kernel

example : (tchBurstMap 0 0 0 9 (List.range 114) (List.replicate 116 7)).map (fun l => (l.drop 55).take 7) = some [7, 56, 7, 9, 7, 58, 7] := by
  decide +kernel

example (c0 c1 c2 s : List Nat) (h0 : c0.length = 456) (h1 : c1.length = 456) (h2 : c2.length = 456) (hs : s.length = 912)
    (b0 : List Nat) (hb : b0.length = 1856) : ∃ b, sendAll tchFrSend 464 0 [⟨0, c0, s⟩, ⟨1, c1, s⟩, ⟨0, c2, s⟩] b0 = some b ∧
    tchFrReceive 0 c2 s b = some c0 ∧ tchFrReceive 464 c2 s b = some c1 ∧ tchFrReceive 928 c0 s b = some c2 ∧
    tchFrFlags 464 b = some [1, 1, 1, 1, 1, 1, 1, 1] ∧ tchFrFlags 928 b = some [0, 0, 0, 0, 0, 0, 0, 0] := by
  obtain ⟨b, e1, -, e3⟩ := tchFr_stream [⟨0, c0, s⟩, ⟨1, c1, s⟩, ⟨0, c2, s⟩] b0 (by simp [h0, h1, h2, hs]) (by simp [hb])
  exact ⟨b, e1, (e3 0 _ rfl).1 _ _ h2 hs, (e3 1 _ rfl).1 _ _ h2 hs, (e3 2 _ rfl).1 _ _ h0 hs, (e3 1 _ rfl).2, (e3 2 _ rfl).2⟩

example (c s c0 b0 : List Nat) (h : c.length = 456) (hs : s.length = 912) (h0 : c0.length = 456) (hb : b0.length = 696) :
    ∃ b, facchHSend 0 1 s c b0 = some b ∧ facchHReceive 0 c0 s b = some c ∧ b[58]? = some 1 ∧ b[116 * 2 + 57]? = some 1 := by
  obtain ⟨b, e1, -, e3, e4, e5⟩ := facchH_chain 0 1 s c b0 c0 s hs h (by omega) h0 hs
  exact ⟨b, e1, e3, e4 0 (by omega), e5 2 (by omega) (by omega)⟩

end Verif.Interleave
