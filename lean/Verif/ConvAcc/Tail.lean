import Verif.ConvAcc.Props
/-!
Tail biting codes through the accelerated decoder (C95).
-/
namespace Verif.ConvAcc
open Verif.Conv

theorem inBits_split {k : Nat} {fb : Nat → Bool} (n m X : Nat) :
    inBits k fb (m + n) X = inBits k fb m (X / 2 ^ n) ++ inBits k fb n X := by
  induction n generalizing X with
  | zero => simp [inBits]
  | succ n ih =>
    have hd : X / 2 ^ (n + 1) = X / 2 / 2 ^ n := by rw [Nat.div_div_eq_div_mul, Nat.pow_succ, Nat.mul_comm 2]
    rw [← Nat.add_assoc, inBits, ih, inBits, List.append_assoc, hd]

theorem endState_app (c : Code) (s : Nat) (a b : List Bool) :
    endState c s (a ++ b) = endState c (endState c s a) b := by
  unfold endState
  rw [List.foldl_append]

theorem stream_app (c : Code) (s : Nat) (a b : List Bool) :
    stream c s (a ++ b) = stream c s a ++ stream c (endState c s a) b := by
  induction a generalizing s with
  | nil => simp [stream, endState]
  | cons x a ih => simp [stream, ih, endState]

theorem maxCircular_spec (K : Nat) (rows : List (List Nat)) (l : List Int) : ∀ (i : Nat) (r : Int × Nat),
    (∀ (j : Nat) (x : Int), l[j]? = some x → back K rows (i + j) = i + j → x ≤ (maxCircular K rows l i r).1) ∧
    r.1 ≤ (maxCircular K rows l i r).1 ∧
    (maxCircular K rows l i r = r ∨ ∃ (j : Nat) (x : Int), l[j]? = some x ∧ back K rows (i + j) = i + j ∧
      maxCircular K rows l i r = (x, i + j)) := by
  induction l with
  | nil => intro i r; simp [maxCircular]
  | cons a l ih =>
    intro i r
    by_cases hb : back K rows i ≠ i
    · obtain ⟨h2, h1, h3⟩ := ih (i + 1) r
      rw [maxCircular, if_pos hb]
      refine ⟨?_, h1, ?_⟩
      · intro j x hx hc
        cases j with
        | zero => exact absurd hc hb
        | succ j => exact h2 j x (by simpa using hx) (by rw [show i + 1 + j = i + (j + 1) by omega]; exact hc)
      · rcases h3 with h3 | ⟨j, x, hx, hc, he⟩
        · exact Or.inl h3
        · exact Or.inr ⟨j + 1, x, by simpa using hx, by rw [show i + (j + 1) = i + 1 + j by omega]; exact hc,
            by rw [he]; congr 1; omega⟩
    · rw [maxCircular, if_neg hb]
      have hb' : back K rows i = i := by simpa using hb
      obtain ⟨h2, h1, h3⟩ := ih (i + 1) (if a > r.1 then (a, i) else r)
      generalize hq : maxCircular K rows l (i + 1) (if a > r.1 then (a, i) else r) = q at *
      by_cases ha : a > r.1
      · rw [if_pos ha] at h1 h3
        simp only at h1
        refine ⟨?_, by omega, ?_⟩
        · intro j x hx hc
          cases j with
          | zero => simp at hx; omega
          | succ j => exact h2 j x (by simpa using hx) (by rw [show i + 1 + j = i + (j + 1) by omega]; exact hc)
        · rcases h3 with h3 | ⟨j, x, hx, hc, he⟩
          · exact Or.inr ⟨0, a, rfl, hb', by rw [h3]; rfl⟩
          · exact Or.inr ⟨j + 1, x, by simpa using hx, by rw [show i + (j + 1) = i + 1 + j by omega]; exact hc,
              by rw [he]; congr 1; omega⟩
      · rw [if_neg ha] at h1 h3
        refine ⟨?_, h1, ?_⟩
        · intro j x hx hc
          cases j with
          | zero => simp at hx; omega
          | succ j => exact h2 j x (by simpa using hx) (by rw [show i + 1 + j = i + (j + 1) by omega]; exact hc)
        · rcases h3 with h3 | ⟨j, x, hx, hc, he⟩
          · exact Or.inl h3
          · exact Or.inr ⟨j + 1, x, by simpa using hx, by rw [show i + (j + 1) = i + 1 + j by omega]; exact hc,
              by rw [he]; congr 1; omega⟩

/-- correlation of a walk over both passes with the soft bits, taken twice -/
def twice (c : Code) (input : List Int) (i : Nat) (w : List Bool) : Int :=
  corr (stream c i w) (received c (steps c) input ++ received c (steps c) input)

/-- a walk of two passes better than which there is none -/
def BestTwice (c : Code) (k : Nat) (input : List Int) (i : Nat) (w : List Bool) : Prop :=
  i < 2 ^ (k + 1) ∧ w.length = c.len + c.len ∧
    ∀ i' w', i' < 2 ^ (k + 1) → w'.length = c.len + c.len → twice c input i' w' ≤ twice c input i w

/-- **Tail biting.**  The output is the second half of a walk `first ++ out` over
two passes which is best among those that end in the same state; it begins in
the state it ends in or is best of all; and it is best of all if for some state
the best walks of all end there, and those that do are circular. -/
theorem decodeAcc_tailBiting {c k o fb} (h : Usable c k o fb) (ht : c.term = .tailBiting) {L w : Nat}
    (hR : Reach k o L w) (hL : L ≤ 57) (hw : 2 * w ≤ (k + 3) * c.N) (hlen : L ≤ c.len) (input : List Int)
    (hn : needed c.positions 0 (steps c * c.N) ≤ input.length) (hr : Within 127 input) :
    ∃ out first i, decodeAcc c input = some (0, out) ∧ out.length = c.len ∧ first.length = c.len ∧ i < 2 ^ (k + 1) ∧
      (∀ i' w', i' < 2 ^ (k + 1) → w'.length = c.len + c.len → endState c i' w' = endState c i (first ++ out) →
        twice c input i' w' ≤ twice c input i (first ++ out)) ∧
      (endState c i (first ++ out) = endState c i first ∨ BestTwice c k input i (first ++ out)) ∧
      ((∃ e, (∃ i' w', BestTwice c k input i' w' ∧ endState c i' w' = e) ∧
          ∀ i' w', BestTwice c k input i' w' → endState c i' w' = e → endState c i' (w'.take c.len) = e) →
        BestTwice c k input i (first ++ out)) := by
  have hk := h.reg.kk
  have hK := h.reg.hK
  have hN := h.reg.hN
  obtain ⟨tr, htr, htl, hte⟩ := trellis_spec h.reg
  obtain ⟨R, hRe⟩ : ∃ R, R = received c (steps c) input := ⟨_, rfl⟩
  have hRl : R.length = steps c * c.N := by rw [hRe, received, fillZ_length]
  have hRw : Within 127 R := by rw [hRe]; exact fillZ_within (by omega) _ _ _ _ hr
  obtain ⟨y1, y2, y3⟩ := symbols_spec c.N (steps c) R hRl
  obtain ⟨ys, hys⟩ : ∃ ys, ys = symbols c.N (steps c) R := ⟨_, rfl⟩
  rw [← hys] at y1 y2 y3
  have hst : steps c = c.len := by unfold steps; rw [if_neg (by rw [ht]; decide)]; omega
  have hd : decLen c = steps c := by unfold decLen steps; split <;> omega
  obtain ⟨F, hF⟩ : ∃ F, F = forward (2 ^ (k + 1)) (interval c) (tr.map (·.2)) 0 ys (initSums c) := ⟨_, rfl⟩
  obtain ⟨G, hG⟩ : ∃ G, G = forward (2 ^ (k + 1)) (interval c) (tr.map (·.2)) 0 ys F.1 := ⟨_, rfl⟩
  have hdec : decodeAcc c input = some (traceback c (tr.map (·.1)) G.1 G.2) := by
    have hc : ¬ (c.N < 2 ∨ c.N > 4 ∨ c.len < 1 ∨ (c.K ≠ 5 ∧ c.K ≠ 7)) := by
      have := h.nonempty
      rw [hK]
      rcases hk with rfl | rfl <;> omega
    unfold decodeAcc
    rw [if_neg hc, htr, softBits_spec c h.punct (by omega) input hn]
    simp only [Option.map_some, convDecode]
    rw [if_pos ht, ← hRe, hd, ← hys, hK, numStates_eq hk, ← hF, ← hG]
  have hou : ∀ s, s < 2 ^ (k + 1) → (tr.map (·.2)).getD (rev k s) [] = (o s).map sgn := by
    intro s hs
    apply getD_of
    rw [List.getElem?_map, hte s hs]; rfl
  have hva : ∀ s, s < 2 ^ (k + 1) → (tr.map (·.1)).getD (rev k s) 0 = (s.testBit 0 ^^ fb (s / 2)).toNat := by
    intro s hs
    apply getD_of
    rw [List.getElem?_map, hte s hs]; rfl
  have hfits : Fits k c.N o (fun _ => 0) (interval c) L :=
    { kk := hk, hN := hN, gen := h.reg.gen
      ival := by unfold ConvAcc.interval; rw [hK]
      reach := ⟨w, hR, by have := h.reg.interval; omega, hw⟩
      hinit := fun s _ => ⟨Int.le_refl _, by positivity⟩ }
  have hinit : Sums k c.N o (fun _ => 0) (interval c) 0 [] (initSums c) := by
    have hS : initSums c = List.replicate (2 ^ (k + 1)) 0 := by
      have hpos := Nat.two_pow_pos (k + 1)
      unfold initSums
      rw [if_neg (by simpa using ht), hK, numStates_eq hk, ← List.replicate_succ]
      congr 1; omega
    rw [hS]
    refine ⟨by simp, 0, ?_, fun h0 => absurd h0 (by omega), 0, Nat.two_pow_pos _, by simp [best]⟩
    intro s hs
    rw [List.getElem?_replicate, if_pos (rev_lt hk s hs)]
    rfl
  have hyw : ∀ y ∈ ys, y.length = c.N ∧ Within 127 y := fun y hy => ⟨(y3 y hy).1, fun v hv => hRw v ((y3 y hy).2 v hv)⟩
  obtain ⟨f1, f2, f3⟩ := forward_spec hfits (tr.map (·.2)) hou ys 0 [] (initSums c) []
    (Or.inl rfl) hinit trivial (by intro r hr; simp at hr) hyw
  simp only [List.append_nil] at f1 f2 f3
  rw [← hF] at f1 f2 f3
  obtain ⟨rs, hrs⟩ : ∃ rs, rs = ys.reverse := ⟨_, rfl⟩
  have hrsl : rs.length = c.len := by rw [hrs, List.length_reverse, y2, hst]
  obtain ⟨g1, g2, g3⟩ := forward_spec hfits (tr.map (·.2)) hou ys 0 ys.reverse F.1 F.2.reverse
    (Or.inr (by rw [← hrs, hrsl]; omega)) f1.restart f2 (by intro r hr; exact (hyw r (by simpa using hr)).2) hyw
  rw [← hG, ← hrs] at g1 g2
  rw [← hG] at g3
  have hfl : (rs ++ rs).reverse.flatten = R ++ R := by rw [hrs, List.reverse_append, List.reverse_reverse, List.flatten_append, y1]
  have hrsN : ∀ r ∈ rs ++ rs, r.length = c.N := fun r hr => by
    rw [hrs] at hr
    exact (y3 r (by simpa using hr)).1
  have hrow : G.2.reverse.length = rs.length := by rw [List.length_reverse, g3, hrs, List.length_reverse]
  have h2l : (rs ++ rs).length = c.len + c.len := by rw [List.length_append, hrsl]
  -- the walks
  have hwalk := fun X hX => walk_code h.reg (rs ++ rs) hrsN X hX
  rw [hfl, h2l] at hwalk
  obtain ⟨V, hV⟩ : ∃ V, V = best k o (fun _ => 0) (rs ++ rs) := ⟨_, rfl⟩
  obtain ⟨T, hT⟩ : ∃ T, T = tb k o (fun _ => 0) (rs ++ rs) := ⟨_, rfl⟩
  have hTs : ∀ e, e < 2 ^ (k + 1) → T e < 2 ^ (c.len + c.len + (k + 1)) ∧ T e % 2 ^ (k + 1) = e ∧
      pm k o (fun _ => 0) (T e) (rs ++ rs) = V e := by
    intro e he
    have := tb_spec k o (fun _ => 0) (rs ++ rs) e he
    rw [h2l] at this
    rw [hT, hV]; exact this
  have hTi : ∀ e, e < 2 ^ (k + 1) → T e / 2 ^ (c.len + c.len) < 2 ^ (k + 1) := by
    intro e he
    rw [Nat.div_lt_iff_lt_mul (Nat.two_pow_pos _), ← Nat.pow_add, Nat.add_comm]; exact (hTs e he).1
  have hTw : ∀ e, e < 2 ^ (k + 1) →
      endState c (T e / 2 ^ (c.len + c.len)) (inBits k fb (c.len + c.len) (T e)) = e ∧
      twice c input (T e / 2 ^ (c.len + c.len)) (inBits k fb (c.len + c.len) (T e)) = V e := by
    intro e he
    obtain ⟨a1, a2, a3⟩ := hTs e he
    obtain ⟨b1, b2⟩ := hwalk _ a1
    rw [a2] at b1
    rw [a3] at b2
    exact ⟨b1, by rw [twice, ← hRe, b2]⟩
  have hVle : ∀ i' w', i' < 2 ^ (k + 1) → w'.length = c.len + c.len →
      endState c i' w' < 2 ^ (k + 1) ∧ twice c input i' w' ≤ V (endState c i' w') := by
    intro i' w' hi' hw'
    obtain ⟨X, x1, x2, x3⟩ := walk_of (fb := fb) w' i' hi'
    rw [hw'] at x1 x2 x3
    obtain ⟨b1, b2⟩ := hwalk X x1
    rw [x2, x3] at b1 b2
    have := pm_le k o (fun _ => 0) (rs ++ rs) X (by rw [h2l]; exact x1)
    rw [b1, twice, ← hRe, ← b2, hV]
    exact ⟨Nat.mod_lt _ (Nat.two_pow_pos _), this⟩
  -- going back over the second pass
  have hback : ∀ e, e < 2 ^ (k + 1) → ∃ s', s' < 2 ^ (k + 1) ∧ back (k + 2) G.2.reverse (rev k e) = rev k s' ∧
      endState c (T e / 2 ^ (c.len + c.len)) (inBits k fb c.len (T e / 2 ^ c.len)) = s' := by
    intro e he
    obtain ⟨s', b1, b2, b3, b4⟩ := back_spec hk G.2.reverse rs rs F.2.reverse e he hrow g2
    refine ⟨s', b1, b2, ?_⟩
    obtain ⟨t1, t2, _⟩ := tb_spec k o (fun _ => 0) rs s' b1
    rw [hrsl, ← hT] at b3
    rw [← b3] at t1 t2
    have := (walk_code h.reg rs (fun r hr => hrsN r (by simp [hr])) _ t1).1
    rw [hrsl, Nat.div_div_eq_div_mul, ← Nat.pow_add, t2] at this
    exact this
  have hcirc : ∀ e, e < 2 ^ (k + 1) → (back (k + 2) G.2.reverse (rev k e) = rev k e ↔
      endState c (T e / 2 ^ (c.len + c.len)) (inBits k fb c.len (T e / 2 ^ c.len)) = e) := by
    intro e he
    obtain ⟨s', b1, b2, b3⟩ := hback e he
    rw [b2, b3]
    constructor
    · intro hh
      have := congrArg (rev k) hh
      rwa [rev_rev hk _ b1, rev_rev hk _ he] at this
    · intro hh; rw [hh]
  -- the state to begin with
  have hend : ∃ e, e < 2 ^ (k + 1) ∧
      traceback c (tr.map (·.1)) G.1 G.2 = (0, trace (k + 2) c.nextTerm.isSome (tr.map (·.1)) G.2.reverse (rev k e) []) ∧
      (endState c (T e / 2 ^ (c.len + c.len)) (inBits k fb c.len (T e / 2 ^ c.len)) = e ∨
        ∀ e', e' < 2 ^ (k + 1) → V e' ≤ V e) ∧
      (∀ e', e' < 2 ^ (k + 1) → (∀ e'', e'' < 2 ^ (k + 1) → V e'' ≤ V e') →
        endState c (T e' / 2 ^ (c.len + c.len)) (inBits k fb c.len (T e' / 2 ^ c.len)) = e' → V e' ≤ V e) := by
    obtain ⟨cst, q1, _, s0, q2, q3⟩ := g1.rel
    rw [← hV] at q1 q3
    have hidx : ∀ (j : Nat) (x : Int), G.1[j]? = some x → j < 2 ^ (k + 1) ∧ x = V (rev k j) + cst := by
      intro j x hj
      have hjl : j < 2 ^ (k + 1) := by
        rw [← g1.len]; exact (List.getElem?_eq_some_iff.1 hj).1
      refine ⟨hjl, ?_⟩
      have := q1 _ (rev_lt hk j hjl)
      rw [rev_rev hk j hjl, hj] at this
      simpa using this
    have hsk : G.2.length - c.len = 0 := by rw [g3, y2, hst]; omega
    have hnf : c.term ≠ .flush := by rw [ht]; decide
    obtain ⟨m2, m1, m3⟩ := maxCircular_spec (k + 2) G.2.reverse G.1 0 (-1, 0)
    obtain ⟨r, hr'⟩ : ∃ r, r = maxCircular (k + 2) G.2.reverse G.1 0 (-1, 0) := ⟨_, rfl⟩
    rw [← hr'] at m1 m2 m3
    simp only [Nat.zero_add] at m2 m3
    have htb : traceback c (tr.map (·.1)) G.1 G.2 =
        (let r' := if r.1 < 0 ∧ c.term ≠ .flush then maxState G.1 0 r else r
         if r'.1 < 0 ∧ c.term ≠ .flush then (-EPROTO, [])
         else (0, trace (k + 2) c.nextTerm.isSome (tr.map (·.1)) G.2.reverse r'.2 [])) := by
      unfold traceback
      simp only [if_pos ht, hK, ← hr', hsk, List.drop_zero, List.take_zero, back]
    by_cases hneg : r.1 < 0
    · obtain ⟨p1, p2, p3⟩ := maxState_spec G.1 0 r
      have hpos : 0 ≤ (maxState G.1 0 r).1 := Int.le_trans q3 (p2 _ _ (q1 s0 q2))
      rcases p3 with p3 | ⟨j, x, hj, hx⟩
      · rw [p3] at hpos; omega
      · obtain ⟨hjl, hjx⟩ := hidx j x hj
        have hmax : ∀ e', e' < 2 ^ (k + 1) → V e' ≤ V (rev k j) := by
          intro e' he'
          have := p2 _ _ (q1 e' he')
          rw [hx] at this
          simp only at this
          omega
        refine ⟨rev k j, rev_lt hk j hjl, ?_, Or.inr hmax, fun e' he' _ _ => hmax e' he'⟩
        have c1 : r.1 < 0 ∧ c.term ≠ .flush := ⟨hneg, hnf⟩
        rw [htb]
        simp only [if_pos c1]
        rw [hx] at hpos ⊢
        simp only at hpos ⊢
        have c2 : ¬ (x < 0 ∧ c.term ≠ .flush) := by omega
        rw [if_neg c2, rev_rev hk j hjl, Nat.zero_add]
    · rcases m3 with m3 | ⟨j, x, hj, hc, hx⟩
      · rw [m3] at hneg; simp at hneg
      · obtain ⟨hjl, hjx⟩ := hidx j x hj
        have hrl := rev_lt hk j hjl
        refine ⟨rev k j, hrl, ?_, Or.inl ?_, ?_⟩
        · have c1 : ¬ (r.1 < 0 ∧ c.term ≠ .flush) := by omega
          rw [htb]
          simp only [if_neg c1]
          rw [hx, rev_rev hk j hjl]
        · rw [← hcirc _ hrl, rev_rev hk j hjl]; exact hc
        · intro e' he' _ hce
          rw [← hcirc _ he'] at hce
          have := m2 _ _ (q1 e' he') hce
          rw [hx] at this
          simp only at this
          omega
  obtain ⟨e, he, e1, e2, e3⟩ := hend
  have htrace := trace_spec (o := o) (init := fun _ => 0) hk fb c.nextTerm.isSome (tr.map (·.1)) hva
    (fun hn s => h.reg.noterm (by simpa using hn) s)
    (fun hsome s hs => by
      obtain ⟨t, ht'⟩ := Option.isSome_iff_exists.1 hsome
      obtain ⟨i, hi, hz⟩ := (h.reg.term t ht').2
      rw [← xor_top hs]
      exact (fb_systematic h.reg ht' hi hz s (by rw [Nat.pow_succ]; omega)).2)
    G.2.reverse rs rs F.2.reverse e [] he hrow g2
  rw [List.append_nil, hrsl, ← hT] at htrace
  have hsplit : inBits k fb (c.len + c.len) (T e) = inBits k fb c.len (T e / 2 ^ c.len) ++ inBits k fb c.len (T e) :=
    inBits_split _ _ _
  obtain ⟨w1, w2⟩ := hTw e he
  refine ⟨inBits k fb c.len (T e), inBits k fb c.len (T e / 2 ^ c.len), T e / 2 ^ (c.len + c.len), ?_, inBits_length _ _,
    inBits_length _ _, hTi e he, ?_, ?_, ?_⟩
  · rw [hdec, e1, htrace]
  · rw [← hsplit, w1, w2]
    intro i' w' hi' hw' hee
    have := (hVle i' w' hi' hw').2
    rwa [hee] at this
  · rw [← hsplit, w1]
    rcases e2 with e2 | e2
    · exact Or.inl e2.symm
    · refine Or.inr ⟨hTi e he, inBits_length _ _, ?_⟩
      rw [w2]
      intro i' w' hi' hw'
      obtain ⟨q1, q2⟩ := hVle i' w' hi' hw'
      exact Int.le_trans q2 (e2 _ q1)
  · rintro ⟨e', ⟨i', w', hb, hbe⟩, hall⟩
    have he' : e' < 2 ^ (k + 1) := by rw [← hbe]; exact (hVle i' w' hb.1 hb.2.1).1
    have hmax : ∀ e'', e'' < 2 ^ (k + 1) → V e'' ≤ V e' := by
      intro e'' he''
      have a := hb.2.2 _ _ (hTi e'' he'') (inBits_length (k := k) (fb := fb) (c.len + c.len) (T e''))
      rw [(hTw e'' he'').2] at a
      have b := (hVle i' w' hb.1 hb.2.1).2
      rw [hbe] at b
      omega
    have hbt : BestTwice c k input (T e' / 2 ^ (c.len + c.len)) (inBits k fb (c.len + c.len) (T e')) := by
      refine ⟨hTi e' he', inBits_length _ _, ?_⟩
      rw [(hTw e' he').2]
      intro i'' w'' hi'' hw''
      obtain ⟨q1, q2⟩ := hVle i'' w'' hi'' hw''
      exact Int.le_trans q2 (hmax _ q1)
    have hci := hall _ _ hbt (hTw e' he').1
    rw [inBits_split, List.take_left' (inBits_length _ _)] at hci
    have hle := e3 e' he' hmax hci
    rw [← hsplit]
    refine ⟨hTi e he, inBits_length _ _, ?_⟩
    rw [w2]
    intro i'' w'' hi'' hw''
    obtain ⟨q1, q2⟩ := hVle i'' w'' hi'' hw''
    exact Int.le_trans q2 (Int.le_trans (hmax _ q1) hle)

/-- **The likeliest word.**  If a circular word is more likely than any other
walk of one pass, from whatever state, its input is the output. -/
theorem decodeAcc_tailBiting_ml {c k o fb} (h : Usable c k o fb) (ht : c.term = .tailBiting) {L w : Nat}
    (hR : Reach k o L w) (hL : L ≤ 57) (hw : 2 * w ≤ (k + 3) * c.N) (hlen : L ≤ c.len) (input : List Int)
    (hn : needed c.positions 0 (steps c * c.N) ≤ input.length) (hr : Within 127 input)
    (bits : List Bool) (hb : bits.length = c.len) (j : Nat) (hj : j < 2 ^ (k + 1)) (hcirc : endState c j bits = j)
    (hml : ∀ i other, i < 2 ^ (k + 1) → other.length = c.len → ¬ (i = j ∧ other = bits) →
      corr (stream c i other) (received c (steps c) input) < corr (stream c j bits) (received c (steps c) input)) :
    decodeAcc c input = some (0, bits) := by
  obtain ⟨out, first, i, h1, h2, h3, h4, _, _, h5⟩ := decodeAcc_tailBiting h ht hR hL hw hlen input hn hr
  have hst : steps c = c.len := by unfold steps; rw [if_neg (by rw [ht]; decide)]; omega
  have hRl : (received c (steps c) input).length = c.len * c.N := by rw [received, fillZ_length, hst]
  have hend : ∀ i b, i < 2 ^ (k + 1) → b.length = c.len → endState c i b < 2 ^ (k + 1) := by
    intro i b hi hbl
    obtain ⟨X, x1, x2, x3⟩ := walk_of (fb := fb) b i hi
    have := (walk_code h.reg (List.replicate b.length (List.replicate c.N 0))
      (fun r hr => by rw [(List.mem_replicate.1 hr).2]; simp) X (by simpa using x1)).1
    simp only [List.length_replicate] at this
    rw [x2, x3] at this
    rw [this]
    exact Nat.mod_lt _ (Nat.two_pow_pos _)
  have htw : ∀ i a b, a.length = c.len → twice c input i (a ++ b) =
      corr (stream c i a) (received c (steps c) input) +
      corr (stream c (endState c i a) b) (received c (steps c) input) := by
    intro i a b ha
    rw [twice, stream_app, corr_append (by rw [stream_length, ha, hRl])]
  have hle : ∀ i b, i < 2 ^ (k + 1) → b.length = c.len →
      corr (stream c i b) (received c (steps c) input) ≤ corr (stream c j bits) (received c (steps c) input) := by
    intro i b hi hbl
    by_cases hq : i = j ∧ b = bits
    · rw [hq.1, hq.2]
    · have := hml i b hi hbl hq; omega
  have hsp : ∀ w' : List Bool, w'.length = c.len + c.len → ∃ a b, w' = a ++ b ∧ a.length = c.len ∧ b.length = c.len := by
    intro w' hw'
    exact ⟨w'.take c.len, w'.drop c.len, (List.take_append_drop _ _).symm, by rw [List.length_take]; omega,
      by rw [List.length_drop]; omega⟩
  have hbest : BestTwice c k input j (bits ++ bits) := by
    refine ⟨hj, by rw [List.length_append, hb], ?_⟩
    intro i' w' hi' hw'
    obtain ⟨a, b, rfl, ha, hbl⟩ := hsp w' hw'
    rw [htw i' a b ha, htw j bits bits hb, hcirc]
    have q1 := hle i' a hi' ha
    have q2 := hle _ b (hend i' a hi' ha) hbl
    omega
  have huniq : ∀ i' w', BestTwice c k input i' w' → ∃ a b, w' = a ++ b ∧ a.length = c.len ∧
      endState c i' a = j ∧ b = bits := by
    intro i' w' hbt
    obtain ⟨a, b, rfl, ha, hbl⟩ := hsp w' hbt.2.1
    have q0 := hbt.2.2 j (bits ++ bits) hj (by rw [List.length_append, hb])
    rw [htw i' a b ha, htw j bits bits hb, hcirc] at q0
    have q1 := hle i' a hbt.1 ha
    refine ⟨a, b, rfl, ha, ?_⟩
    by_contra hne
    have := hml (endState c i' a) b (hend i' a hbt.1 ha) hbl hne
    omega
  have hout := h5 ⟨j, ⟨j, bits ++ bits, hbest, by rw [endState_app, hcirc, hcirc]⟩, by
    intro i' w' hbt _
    obtain ⟨a, b, rfl, ha, e1, _⟩ := huniq i' w' hbt
    rw [List.take_left' ha]
    exact e1⟩
  obtain ⟨a, b, e1, ha, _, e2⟩ := huniq _ _ hout
  obtain ⟨_, e3⟩ := List.append_inj e1 (by rw [h3, ha])
  rw [h1, e3, e2]

end Verif.ConvAcc
