import Verif.Gcr.Model
/-!
Properties of the global call reference (C154).
-/
namespace Verif.Gcr

/-- What the two structures mean as call references: the valid octets of the
network identity, the node and the call reference. -/
def Same (a b : Gcr) : Prop :=
  a.netLen = b.netLen ∧ a.net.take a.netLen.toNat = b.net.take b.netLen.toNat ∧
  a.node = b.node ∧ a.cr = b.cr

/-- The encoding: each part with its length in front, the node most significant
octet first. -/
theorem enc_spec (msg : List Byte) (g : Gcr) (hw : Wf g) (h : 3 ≤ g.netLen.toNat)
    (h' : g.netLen.toNat ≤ 5) :
    enc msg g = some (msg ++ g.netLen :: (g.net.take g.netLen.toNat ++
      (2#8 :: BitVec.ofNat 8 (g.node.toNat / 256) :: BitVec.ofNat 8 (g.node.toNat % 256) ::
        5#8 :: g.cr)), BitVec.ofNat 8 (g.netLen.toNat + 10)) := by
  unfold enc
  have e : Endian.storeBe g.node = some [BitVec.ofNat 8 (g.node.toNat / 256),
      BitVec.ofNat 8 (g.node.toNat % 256)] := by
    obtain ⟨q, e, l, v⟩ := Endian.storeBeExt_value g.node 2 (by omega)
    rw [show Endian.storeBe g.node = Endian.storeBeExt g.node 2 from rfl, e]
    match q, l with
    | [x, y], _ =>
      have := x.isLt
      have := y.isLt
      have := g.node.isLt
      simp only [Endian.beVal, List.foldl_cons, List.foldl_nil] at v
      rw [BitVec.eq_of_toNat_eq (x := x) (y := BitVec.ofNat 8 (g.node.toNat / 256))
          (by rw [BitVec.toNat_ofNat]; omega),
        BitVec.eq_of_toNat_eq (x := y) (y := BitVec.ofNat 8 (g.node.toNat % 256))
          (by rw [BitVec.toNat_ofNat]; omega)]
  rw [if_neg (by
    rw [BitVec.lt_def, gt_iff_lt, BitVec.lt_def]
    simp only [BitVec.toNat_ofNat]
    omega), e]
  simp only [Option.bind_eq_bind, Option.bind_some, lv]
  congr 2
  · have : g.cr.take (5#8).toNat = g.cr := List.take_of_length_le (by rw [hw.2]; decide)
    rw [this]
    simp

example : enc [] ⟨[1, 2, 3, 0, 0], 3, 0x1234, [9, 8, 7, 6, 5]⟩ =
    some ([3, 1, 2, 3, 2, 0x12, 0x34, 5, 9, 8, 7, 6, 5], 13) := by decide

/-- A network identity of another length is not encoded. -/
theorem enc_refuses (msg : List Byte) (g : Gcr) (h : g.netLen.toNat < 3 ∨ 5 < g.netLen.toNat) :
    enc msg g = some (msg, 0#8) := by
  unfold enc
  rw [if_pos]
  rw [BitVec.lt_def, gt_iff_lt, BitVec.lt_def]
  simpa using h

/-- Decoding, by the octets: valid length of the network identity `n`, its
octets, any octet for the length of the node, the node, the octet 5 and the call
reference. -/
theorem dec_ok (g : Gcr) (n : Byte) (net : List Byte) (x hi lo : Byte) (cr rest : List Byte)
    (h : 3 ≤ n.toNat) (h' : n.toNat ≤ 5) (hn : net.length = n.toNat) (hc : cr.length = 5) :
    dec g (n :: (net ++ x :: hi :: lo :: 5#8 :: (cr ++ rest))) =
      some (⟨net ++ g.net.drop n.toNat, n, BitVec.ofNat 16 (hi.toNat * 256 + lo.toNat), cr⟩,
        ((n.toNat + 10 : Nat) : Int)) := by
  unfold dec
  have hlen : (n :: (net ++ x :: hi :: lo :: 5#8 :: (cr ++ rest))).length =
      n.toNat + 10 + rest.length := by
    simp [hn, hc]
    omega
  rw [if_neg (by omega)]
  simp only [List.getElem?_cons_zero, Option.bind_eq_bind, Option.bind_some]
  rw [if_neg (by
    rw [BitVec.lt_def, gt_iff_lt, BitVec.lt_def]
    simp only [BitVec.toNat_ofNat]
    omega)]
  have d : ∀ k, (n :: (net ++ x :: hi :: lo :: 5#8 :: (cr ++ rest))).drop (n.toNat + 1 + k) =
      (x :: hi :: lo :: 5#8 :: (cr ++ rest)).drop k := by
    intro k
    rw [show n.toNat + 1 + k = (n.toNat + k) + 1 by omega, List.drop_succ_cons, ← hn, List.drop_append,
      List.drop_eq_nil_of_le (by omega), show net.length + k - net.length = k by omega]
    rfl
  have r1 : readAt (n :: (net ++ x :: hi :: lo :: 5#8 :: (cr ++ rest))) 1 n.toNat = some net := by
    rw [show (1 : Int) = ((1 : Nat) : Int) from rfl, readAt_eq_some (by omega)]
    rw [List.drop_succ_cons, List.drop_zero, ← hn, List.take_left]
  have r2 : readAt (n :: (net ++ x :: hi :: lo :: 5#8 :: (cr ++ rest)))
      ((1 + (n.toNat + 1) : Nat) : Int) 2 = some [hi, lo] := by
    rw [readAt_eq_some (by omega), show 1 + (n.toNat + 1) = n.toNat + 1 + 1 by omega, d 1]
    rfl
  have r3 : (n :: (net ++ x :: hi :: lo :: 5#8 :: (cr ++ rest)))[1 + (n.toNat + 1) + 2]? =
      some 5#8 := by
    rw [← List.head?_drop, show 1 + (n.toNat + 1) + 2 = n.toNat + 1 + 3 by omega, d 3]
    rfl
  have r4 : readAt (n :: (net ++ x :: hi :: lo :: 5#8 :: (cr ++ rest)))
      ((1 + (n.toNat + 1) + 2 + 1 : Nat) : Int) 5 = some cr := by
    rw [readAt_eq_some (by omega), show 1 + (n.toNat + 1) + 2 + 1 = n.toNat + 1 + 4 by omega, d 4]
    rw [show (x :: hi :: lo :: 5#8 :: (cr ++ rest)).drop 4 = cr ++ rest from rfl, ← hc, List.take_left]
  have r5 : Endian.loadBe 16 [hi, lo] = some (BitVec.ofNat 16 (hi.toNat * 256 + lo.toNat)) := by
    obtain ⟨r, e, v⟩ := Endian.loadBeExt_value 16 [hi, lo] 2 rfl (by omega) (by simp)
    rw [show Endian.loadBe 16 [hi, lo] = Endian.loadBeExt 16 [hi, lo] 2 from rfl, e]
    congr 1
    apply BitVec.eq_of_toNat_eq
    have := hi.isLt
    have := lo.isLt
    rw [v, BitVec.toNat_ofNat]
    simp only [List.take, Endian.beVal, List.foldl_cons, List.foldl_nil]
    omega
  simp only [r1, r2, r3, r4, r5, Option.bind_some]
  rw [if_neg (by simp)]
  congr 3
  omega

/-- What was encoded is decoded to the same call reference, all octets used,
whatever follows. -/
theorem round_trip (g g0 : Gcr) (rest : List Byte) (hw : Wf g) (hw0 : Wf g0)
    (h : 3 ≤ g.netLen.toNat) (h' : g.netLen.toNat ≤ 5) :
    ∃ m r g', enc [] g = some (m, r) ∧ r.toNat = m.length ∧
      dec g0 (m ++ rest) = some (g', (m.length : Int)) ∧ Same g' g ∧ Wf g' := by
  have ht : (g.net.take g.netLen.toNat).length = g.netLen.toNat := by
    rw [List.length_take, hw.1]
    omega
  have hlen : (g.netLen :: (g.net.take g.netLen.toNat ++
      (2#8 :: BitVec.ofNat 8 (g.node.toNat / 256) :: BitVec.ofNat 8 (g.node.toNat % 256) ::
        5#8 :: g.cr))).length = g.netLen.toNat + 10 := by
    simp only [List.length_cons, List.length_append, ht, hw.2]
  refine ⟨_, _, ⟨g.net.take g.netLen.toNat ++ g0.net.drop g.netLen.toNat, g.netLen, g.node, g.cr⟩,
    enc_spec [] g hw h h', ?_, ?_, ?_⟩
  · rw [List.nil_append, hlen, BitVec.toNat_ofNat]
    omega
  · rw [List.nil_append, hlen]
    have := dec_ok g0 g.netLen (g.net.take g.netLen.toNat) 2#8 (BitVec.ofNat 8 (g.node.toNat / 256))
      (BitVec.ofNat 8 (g.node.toNat % 256)) g.cr rest h h' ht hw.2
    simp only [List.cons_append, List.append_assoc]
    rw [this]
    congr 3
    apply BitVec.eq_of_toNat_eq
    have := g.node.isLt
    simp only [BitVec.toNat_ofNat]
    omega
  · refine ⟨⟨rfl, ?_, rfl, rfl⟩, ?_, hw.2⟩
    · simp only []
      rw [List.take_append_of_le_length (by omega), List.take_of_length_le (by omega)]
    · simp only [List.length_append, ht, List.length_drop, hw0.1]
      omega

example : dec ⟨[7, 7, 7, 7, 7], 0, 0, [0, 0, 0, 0, 0]⟩ [3, 1, 2, 3, 2, 0x12, 0x34, 5, 9, 8, 7, 6, 5] =
    some (⟨[1, 2, 3, 7, 7], 3, 0x1234, [9, 8, 7, 6, 5]⟩, 13) := by decide

/-- The errors: too short, a network identity of a wrong length, a call reference
of a wrong length. -/
theorem dec_errors (g : Gcr) (elem : List Byte) :
    (elem.length < 13 → dec g elem = some (g, EBADMSG)) ∧
    (∀ n l, elem = n :: l → 13 ≤ elem.length → (n.toNat < 3 ∨ 5 < n.toNat) →
      dec g elem = some ({ g with netLen := n }, EINVAL)) ∧
    (∀ n l, elem = n :: l → 13 ≤ elem.length → 3 ≤ n.toNat → n.toNat ≤ 5 →
      elem.getD (n.toNat + 4) 0#8 ≠ 5#8 → ∃ g', dec g elem = some (g', ENOENT)) := by
  refine ⟨fun h => ?_, fun n l e h hn => ?_, fun n l e h h3 h5 hx => ?_⟩
  · unfold dec
    rw [if_pos h]
  · unfold dec
    rw [if_neg (by omega)]
    subst e
    simp only [List.getElem?_cons_zero, Option.bind_eq_bind, Option.bind_some]
    rw [if_pos (by
      rw [BitVec.lt_def, gt_iff_lt, BitVec.lt_def]
      simpa using hn)]
  · have hr : ∀ o k : Nat, o + k ≤ 13 → ∃ q, readAt elem (o : Int) k = some q ∧ q.length = k := by
      intro o k hk
      exact ⟨_, readAt_eq_some (by omega), by simp; omega⟩
    obtain ⟨q1, e1, -⟩ := hr 1 n.toNat (by omega)
    obtain ⟨q2, e2, l2⟩ := hr (1 + (n.toNat + 1)) 2 (by omega)
    obtain ⟨r, e3, -⟩ := Endian.loadBeExt_value 16 q2 2 rfl (by omega) (by omega)
    have e3' : Endian.loadBe 16 q2 = some r := e3
    have e4 : elem[1 + (n.toNat + 1) + 2]? = some (elem[n.toNat + 4]'(by omega)) := by
      rw [show 1 + (n.toNat + 1) + 2 = n.toNat + 4 by omega]
      exact List.getElem?_eq_getElem (by omega)
    have e0 : elem[0]? = some n := by rw [e]; rfl
    have hx' : elem[n.toNat + 4]'(by omega) ≠ 5#8 := by
      intro h
      apply hx
      rw [List.getD_eq_getElem?_getD, List.getElem?_eq_getElem (by omega), h]
      rfl
    have e1' : readAt elem 1 n.toNat = some q1 := e1
    refine ⟨{ g with netLen := n, net := q1 ++ g.net.drop n.toNat, node := r }, ?_⟩
    unfold dec
    rw [if_neg (by omega)]
    simp only [e0, Option.bind_eq_bind, Option.bind_some]
    rw [if_neg (by
      rw [BitVec.lt_def, gt_iff_lt, BitVec.lt_def]
      simp only [BitVec.toNat_ofNat]
      omega)]
    simp only [e1', e2, e3', e4, Option.bind_some]
    rw [if_pos hx']

/-- Decoding stays within the element where it is long enough for its network
identity, 10 octets more. -/
theorem dec_defined_partial (g : Gcr) (elem : List Byte) (n : Byte) (l : List Byte)
    (e : elem = n :: l) (h : n.toNat + 10 ≤ elem.length) : ∃ g' r, dec g elem = some (g', r) := by
  by_cases hl : elem.length < 13
  · exact ⟨_, _, (dec_errors g elem).1 hl⟩
  by_cases hn : n.toNat < 3 ∨ 5 < n.toNat
  · exact ⟨_, _, (dec_errors g elem).2.1 n l e (by omega) hn⟩
  by_cases hx : elem.getD (n.toNat + 4) 0#8 ≠ 5#8
  · obtain ⟨g', h⟩ := (dec_errors g elem).2.2 n l e (by omega) (by omega) (by omega) hx
    exact ⟨g', _, h⟩
  · subst e
    simp only [List.length_cons] at h hl
    have hx : (n :: l).getD (n.toNat + 4) 0#8 = 5#8 := Decidable.byContradiction hx
    have s : l = l.take n.toNat ++ l[n.toNat]'(by omega) :: l[n.toNat + 1]'(by omega) ::
        l[n.toNat + 2]'(by omega) :: 5#8 :: ((l.drop (n.toNat + 4)).take 5 ++ l.drop (n.toNat + 9)) := by
      have h5 : l[n.toNat + 3]'(by omega) = 5#8 := by
        rw [List.getD_eq_getElem?_getD, List.getElem?_cons_succ,
          List.getElem?_eq_getElem (by omega)] at hx
        exact hx
      have t : ∀ i (hi : i < l.length), l.drop i = l[i] :: l.drop (i + 1) :=
        fun i hi => List.drop_eq_getElem_cons hi
      have e9 : (l.drop (n.toNat + 4)).take 5 ++ l.drop (n.toNat + 9) = l.drop (n.toNat + 4) := by
        rw [show l.drop (n.toNat + 9) = (l.drop (n.toNat + 4)).drop 5 by rw [List.drop_drop],
          List.take_append_drop]
      rw [e9, ← h5, ← t (n.toNat + 3) (by omega), ← t (n.toNat + 2) (by omega),
        ← t (n.toNat + 1) (by omega), ← t n.toNat (by omega), List.take_append_drop]
    rw [s]
    exact ⟨_, _, dec_ok g n _ _ _ _ _ _ (by omega) (by omega) (by simp; omega) (by simp; omega)⟩

/-- The length check asks for 13 octets only: with a network identity of 4 or 5
octets the decoder reads beyond an element of 13. -/
theorem overread_counterexample (g : Gcr) :
    dec g [5, 1, 2, 3, 4, 5, 2, 0, 0, 5, 1, 2, 3] = none ∧
    dec g [4, 1, 2, 3, 4, 2, 0, 0, 5, 1, 2, 3, 4] = none := ⟨rfl, rfl⟩

/-- Comparison says whether two valid references are the same. -/
theorem eq_spec (a b : Gcr) (ha : Wf a) (hb : Wf b) (h : a.netLen.toNat ≤ 5 ∨ b.netLen.toNat ≤ 5) :
    ∃ r, eq a b = some r ∧ (r = true ↔ Same a b) := by
  have ca : a.cr.take 5 = a.cr := List.take_of_length_le (by rw [ha.2]; omega)
  have cb : b.cr.take 5 = b.cr := List.take_of_length_le (by rw [hb.2]; omega)
  unfold eq Same
  rw [ca, cb]
  by_cases h1 : a.netLen = b.netLen
  · rw [if_neg (by simpa using h1)]
    by_cases h2 : a.node = b.node
    · rw [if_neg (by simpa using h2)]
      by_cases h3 : a.cr = b.cr
      · rw [if_neg (by simpa using h3), if_neg (by rw [h1] at h; omega)]
        refine ⟨_, rfl, ?_⟩
        rw [decide_eq_true_iff, h1]
        exact ⟨fun e => ⟨rfl, e, h2, h3⟩, fun e => e.2.1⟩
      · rw [if_pos h3]
        exact ⟨_, rfl, fun e => (by cases e), fun e => absurd e.2.2.2 h3⟩
    · rw [if_pos h2]
      exact ⟨_, rfl, fun e => (by cases e), fun e => absurd e.2.2.1 h2⟩
  · rw [if_pos h1]
    exact ⟨_, rfl, fun e => (by cases e), fun e => absurd e.1 h1⟩

example : eq ⟨[1, 2, 3, 0, 0], 3, 1, [1, 2, 3, 4, 5]⟩ ⟨[1, 2, 3, 9, 9], 3, 1, [1, 2, 3, 4, 5]⟩ =
    some true := by decide

end Verif.Gcr
