import Verif.Gad.Props
/-!
Properties of the raw PDUs of geographical areas (C153).
-/
namespace Verif.Gad

/-- The shapes of TS 23.032 as laid out in gsm_23_032.h: type, lower half of the
first octet and total length. -/
inductive Shape : Nat → Nat → Nat → Prop
  | point (s) : Shape 0 s 7
  | circle (s) : Shape 1 s 8
  | ellipse (s) : Shape 3 s 11
  | polygon (n) (h : 3 ≤ n) : Shape 5 n (1 + 6 * n)
  | altitude (s) : Shape 8 s 9
  | altEllipsoid (s) : Shape 9 s 14
  | arc (s) : Shape 10 s 13
  | haEllipse (s) : Shape 11 s 16
  | haAltEllipsoid (s) : Shape 12 s 18

theorem rawLen_iff (b : Byte) (n : Nat) :
    rawLen b = .ok n ↔ Shape (b.toNat / 16) (b.toNat % 16) n := by
  have ht : typeOf b = b.toNat / 16 := by
    unfold typeOf
    rw [BitVec.toNat_ushiftRight, Nat.shiftRight_eq_div_pow]
  have hn : numPoints b = b.toNat % 16 := by
    unfold numPoints
    rw [BitVec.toNat_and, show (0x0f#8).toNat = 2 ^ 4 - 1 from rfl, Nat.and_two_pow_sub_one_eq_mod]
  unfold rawLen
  rw [ht, hn]
  generalize b.toNat / 16 = t
  generalize b.toNat % 16 = s
  constructor
  · intro h
    split at h
    · cases h; exact .point s
    · cases h; exact .circle s
    · cases h; exact .ellipse s
    · split at h
      · cases h
      · cases h
        rw [Nat.mul_comm]
        exact .polygon s (by omega)
    · cases h; exact .altitude s
    · cases h; exact .altEllipsoid s
    · cases h; exact .arc s
    · cases h; exact .haEllipse s
    · cases h; exact .haAltEllipsoid s
    · cases h
  · intro h
    cases h with
    | polygon _ h =>
      simp only []
      rw [if_neg (by omega), Nat.mul_comm]
    | _ => rfl

/-- Reading accepts exactly the octet strings with the length their first octet
asks for, and yields them; anything else is -EINVAL. -/
theorem rawRead_iff (data : List Byte) :
    (∀ r, rawRead data = .ok r ↔ r = data ∧ ∃ b l, data = b :: l ∧
      Shape (b.toNat / 16) (b.toNat % 16) data.length) ∧
    (∀ e, rawRead data = .error e → e = EINVAL) := by
  cases data with
  | nil =>
    refine ⟨fun r => ⟨fun h => ?_, ?_⟩, fun e h => ?_⟩
    · cases h
    · rintro ⟨_, b, l, h, _⟩
      cases h
    · cases h
      rfl
  | cons b l =>
    unfold rawRead
    simp only []
    cases hr : rawLen b with
    | error e' =>
      refine ⟨fun r => ⟨fun h => ?_, ?_⟩, fun e h => ?_⟩
      · cases h
      · rintro ⟨_, b', l', h, hs⟩
        cases h
        rw [← rawLen_iff, hr] at hs
        cases hs
      · cases h
        rfl
    | ok n =>
      simp only []
      by_cases hn : n = (b :: l).length
      · rw [if_neg (by simpa using hn)]
        subst hn
        refine ⟨fun r => ⟨fun h => ?_, ?_⟩, fun e h => ?_⟩
        · cases h
          exact ⟨List.take_length, b, l, rfl, (rawLen_iff _ _).mp hr⟩
        · rintro ⟨rfl, _⟩
          rw [List.take_length]
        · cases h
      · rw [if_pos hn]
        refine ⟨fun r => ⟨fun h => ?_, ?_⟩, fun e h => ?_⟩
        · cases h
        · rintro ⟨_, b', l', h, hs⟩
          cases h
          rw [← rawLen_iff, hr] at hs
          cases hs
          exact absurd rfl hn
        · cases h
          rfl

example : rawRead (0x53#8 :: List.replicate 18 0#8) = .ok (0x53#8 :: List.replicate 18 0#8) ∧
    rawRead (0x52#8 :: List.replicate 12 0#8) = .error EINVAL := ⟨rfl, rfl⟩

/-- What was read is written back unchanged, its length returned. -/
theorem rawWrite_rawRead (msg data r : List Byte) (h : rawRead data = .ok r) :
    rawWrite msg r = some (.ok (msg ++ data, data.length)) := by
  obtain ⟨rfl, b, l, rfl, hs⟩ := ((rawRead_iff data).1 r).mp h
  unfold rawWrite
  simp only [List.head?_cons, Option.bind_eq_bind, Option.bind_some]
  rw [(rawLen_iff _ _).mpr hs]
  simp only []
  rw [if_pos (Nat.le_refl _), List.take_length]

/-- Encoding succeeds exactly for an uncertainty circle with coordinates in
range. -/
theorem enc_ok_iff (ptr type : Nat) (v : Circle) :
    (∃ r, enc ptr type v = .ok r) ↔ type = 1 ∧ -90000000 ≤ v.lat ∧ v.lat ≤ 90000000 ∧
      -180000000 ≤ v.lon ∧ v.lon ≤ 180000000 := by
  unfold enc encCircle
  by_cases ht : type = 1
  · rw [if_pos ht]
    split
    · exact ⟨fun ⟨r, h⟩ => (by cases h), fun h => (by omega)⟩
    · split
      · exact ⟨fun ⟨r, h⟩ => (by cases h), fun h => (by omega)⟩
      · refine ⟨fun _ => ⟨ht, by omega⟩, fun _ => ⟨_, rfl⟩⟩
  · rw [if_neg ht]
    exact ⟨fun ⟨r, h⟩ => (by cases h), fun h => absurd h.1 ht⟩

/-- Only two errors: the type is not supported, or a value out of range. -/
theorem enc_error (ptr type : Nat) (v : Circle) (e : Int) (h : enc ptr type v = .error e) :
    (type ≠ 1 ∧ e = ENOTSUP) ∨ (type = 1 ∧ e = EINVAL) := by
  unfold enc at h
  by_cases ht : type = 1
  · rw [if_pos ht] at h
    unfold encCircle at h
    split at h
    · cases h; exact Or.inr ⟨ht, rfl⟩
    · split at h
      · cases h; exact Or.inr ⟨ht, rfl⟩
      · cases h
  · rw [if_neg ht] at h
    cases h
    exact Or.inl ⟨ht, rfl⟩

theorem beVal_append (a b : List Byte) :
    Endian.beVal (a ++ b) = Endian.beVal a * 256 ^ b.length + Endian.beVal b := by
  have : ∀ (l : List Byte) (x : Nat),
      l.foldl (fun acc c => acc * 256 + c.toNat) x = x * 256 ^ l.length + Endian.beVal l := by
    intro l
    induction l with
    | nil => intro x; simp [Endian.beVal]
    | cons c l ih =>
      intro x
      unfold Endian.beVal
      simp only [List.foldl_cons, List.length_cons]
      rw [ih, ih (0 * 256 + c.toNat), Nat.pow_succ, Nat.add_mul, Nat.mul_assoc, Nat.mul_comm 256]
      simp [Nat.add_assoc]
  unfold Endian.beVal
  rw [List.foldl_append, this]
  rfl

/-- Decoding of a circle: latitude in octets 2 to 4, longitude in octets 5 to 7,
the uncertainty in octet 8, the upper bit of which must be clear; the lower half
of the first octet does not matter. -/
theorem dec_circle (b : Byte) (hb : b.toNat / 16 = 1) (la lo : List Byte) (u : Byte)
    (h1 : la.length = 3) (h2 : lo.length = 3) :
    dec (b :: (la ++ lo ++ [u])) =
      some (if 128 ≤ u.toNat then .error EINVAL else
        .ok ⟨decLat (Endian.beVal la), decLon (Endian.beVal lo), decUnc u⟩) := by
  have ht : typeOf b = 1 := by
    unfold typeOf
    rw [BitVec.toNat_ushiftRight, Nat.shiftRight_eq_div_pow]
    exact hb
  unfold dec
  simp only [List.head?_cons, Option.bind_eq_bind, Option.bind_some]
  rw [if_pos ht]
  unfold decCircle
  obtain ⟨r1, e1, v1⟩ := Endian.loadBeExt2_value 32 ((b :: (la ++ lo ++ [u])).drop 1) 3 rfl (by omega)
    (by simp [h1, h2])
  obtain ⟨r2, e2, v2⟩ := Endian.loadBeExt2_value 32 ((b :: (la ++ lo ++ [u])).drop 4) 3 rfl (by omega)
    (by simp [h1, h2])
  have t1 : ((b :: (la ++ lo ++ [u])).drop 1).take 3 = la := by
    simp only [List.drop_succ_cons, List.drop_zero, List.append_assoc]
    rw [← h1, List.take_left]
  have t2 : ((b :: (la ++ lo ++ [u])).drop 4).take 3 = lo := by
    simp only [List.drop_succ_cons, List.append_assoc]
    rw [← h1, List.drop_left, h1, ← h2, List.take_left]
  have t3 : (b :: (la ++ lo ++ [u]))[7]? = some u := by
    rw [List.getElem?_cons_succ, List.getElem?_append_right (by simp [h1, h2])]
    simp [h1, h2]
  rw [t1] at v1
  rw [t2] at v2
  rw [e1, e2, t3]
  simp only [Option.bind_eq_bind, Option.bind_some]
  have hm : u.msb = decide (128 ≤ u.toNat) := by
    rw [BitVec.msb_eq_decide]
  have hu : decUnc (u &&& 0x7f#8) = decUnc u := by
    unfold decUnc
    rw [BitVec.and_assoc]
    rfl
  rw [hm, v1, v2, hu]
  by_cases h : 128 ≤ u.toNat
  · simp [h]
  · simp [h]

example : dec [0x1f#8, 0x40#8, 0#8, 0#8, 0xc0#8, 0#8, 0#8, 1#8] =
    some (.ok ⟨45000000, -90000000, 1000⟩) := by
  rw [show [0x1f#8, 0x40#8, 0#8, 0#8, 0xc0#8, 0#8, 0#8, 1#8] =
    0x1f#8 :: ([0x40#8, 0#8, 0#8] ++ [0xc0#8, 0#8, 0#8] ++ [1#8]) from rfl,
    dec_circle _ rfl _ _ _ rfl rfl, if_neg (by decide),
    show decLat (Endian.beVal [0x40#8, 0#8, 0#8]) = 45000000 by decide,
    show decLon (Endian.beVal [0xc0#8, 0#8, 0#8]) = -90000000 by decide,
    show decUnc 1#8 = 1000 by decide]

/-- Every other shape is refused. -/
theorem dec_other (b : Byte) (l : List Byte) (hb : b.toNat / 16 ≠ 1) :
    dec (b :: l) = some (.error ENOTSUP) := by
  unfold dec
  simp only [List.head?_cons, Option.bind_eq_bind, Option.bind_some]
  rw [if_neg]
  unfold typeOf
  rw [BitVec.toNat_ushiftRight, Nat.shiftRight_eq_div_pow]
  exact hb

/-- A PDU that was read is decoded without reading beyond it. -/
theorem dec_defined (data r : List Byte) (h : rawRead data = .ok r) : ∃ x, dec r = some x := by
  obtain ⟨rfl, b, l, rfl, hs⟩ := ((rawRead_iff data).1 r).mp h
  by_cases hb : b.toNat / 16 = 1
  · rw [hb] at hs
    have hl : l.length = 7 := by
      generalize hn : (b :: l).length = n at hs
      cases hs
      simp only [List.length_cons] at hn
      omega
    have e : l = (l.take 3 ++ (l.drop 3).take 3) ++ [l[6]'(by omega)] := by
      apply List.ext_getElem?
      intro i
      by_cases hi : i < 7
      · rcases (by omega : i = 0 ∨ i = 1 ∨ i = 2 ∨ i = 3 ∨ i = 4 ∨ i = 5 ∨ i = 6) with
          rfl | rfl | rfl | rfl | rfl | rfl | rfl <;>
          simp [hl]
      · rw [List.getElem?_eq_none (by omega), List.getElem?_eq_none (by simp; omega)]
    rw [e, dec_circle b hb _ _ _ (by simp; omega) (by simp; omega)]
    exact ⟨_, rfl⟩
  · exact ⟨_, dec_other b l hb⟩

/-- What is encoded takes 8 octets, is accepted by the reader and decodes to the
circle with every value clamped to one that can be coded. -/
theorem round_trip (ptr : Nat) (v : Circle) (r : List Byte × Nat) (h : enc ptr 1 v = .ok r) :
    r.1.length = 8 ∧ rawRead r.1 = .ok r.1 ∧
    dec r.1 = some (.ok ⟨decLat (encLat v.lat), decLon (encLon v.lon), decUnc (encUnc v.unc)⟩) := by
  obtain ⟨q1, e1, l1, v1⟩ := Endian.storeBeExt_value (BitVec.ofNat 32 (encLat v.lat)) 3 (by omega)
  obtain ⟨q2, e2, l2, v2⟩ := Endian.storeBeExt_value (BitVec.ofNat 32 (encLon v.lon)) 3 (by omega)
  have hr : r = ((1#8 <<< 4) :: (q1 ++ q2 ++ [encUnc v.unc &&& 0x7f#8]), ptr) := by
    unfold enc at h
    rw [if_pos rfl] at h
    unfold encCircle at h
    rw [e1, e2] at h
    split at h
    · cases h
    · split at h
      · cases h
      · cases h
        rfl
  subst hr
  have w1 : Endian.beVal q1 = encLat v.lat := by
    have := (enc_lt v.lat).1
    rw [v1, BitVec.toNat_ofNat]
    omega
  have w2 : Endian.beVal q2 = encLon v.lon := by
    have := (enc_lt v.lon).2
    rw [v2, BitVec.toNat_ofNat]
    omega
  have hu : (encUnc v.unc &&& 0x7f#8) = encUnc v.unc := by
    apply BitVec.eq_of_toNat_eq
    have := (encUnc_spec v.unc).1
    rw [BitVec.toNat_and, show (0x7f#8).toNat = 2 ^ 7 - 1 from rfl, Nat.and_two_pow_sub_one_eq_mod]
    omega
  have hl : ((1#8 <<< 4) :: (q1 ++ q2 ++ [encUnc v.unc &&& 0x7f#8])).length = 8 := by simp [l1, l2]
  refine ⟨hl, ((rawRead_iff _).1 _).mpr ⟨rfl, _, _, rfl, ?_⟩, ?_⟩
  · rw [hl]
    exact Shape.circle 0
  · simp only []
    rw [dec_circle _ rfl q1 q2 _ l1 l2, hu, w1, w2,
      if_neg (by have := (encUnc_spec v.unc).1; omega)]

example : enc 8 1 ⟨45000000, -90000000, 1000⟩ =
    .ok ([0x10#8, 0x40#8, 0#8, 0#8, 0xc0#8, 0#8, 0#8, 1#8], 8) := by
  rfl

/-- Decoding and encoding gives back the octets (with the spare bits of the
first one clear), unless the latitude is the negative zero. -/
theorem decode_encode (ptr : Nat) (la lo : List Byte) (u : Byte) (b : Byte)
    (hb : b.toNat / 16 = 1) (h1 : la.length = 3) (h2 : lo.length = 3)
    (hz : la ≠ [0x80#8, 0#8, 0#8]) (v : Circle)
    (hd : dec (b :: (la ++ lo ++ [u])) = some (.ok v)) :
    enc ptr 1 v = .ok (0x10#8 :: (la ++ lo ++ [u]), ptr) := by
  rw [dec_circle b hb la lo u h1 h2] at hd
  have hu : u.toNat < 128 := by
    by_cases h : 128 ≤ u.toNat
    · rw [if_pos h] at hd
      cases hd
    · omega
  rw [if_neg (by omega)] at hd
  cases hd
  have bound : ∀ q : List Byte, q.length = 3 → Endian.beVal q < 2 ^ 24 := by
    intro q hq
    match q, hq with
    | [x, y, z], _ =>
      have := x.isLt
      have := y.isLt
      have := z.isLt
      simp only [Endian.beVal, List.foldl_cons, List.foldl_nil]
      omega
  have inj : ∀ q r : List Byte, q.length = 3 → r.length = 3 → Endian.beVal q = Endian.beVal r →
      q = r := by
    intro q r hq hr h
    match q, r, hq, hr with
    | [x, y, z], [x', y', z'], _, _ =>
      have := x.isLt
      have := y.isLt
      have := z.isLt
      have := x'.isLt
      have := y'.isLt
      have := z'.isLt
      simp only [Endian.beVal, List.foldl_cons, List.foldl_nil] at h
      rw [BitVec.eq_of_toNat_eq (x := x) (y := x') (by omega),
        BitVec.eq_of_toNat_eq (x := y) (y := y') (by omega),
        BitVec.eq_of_toNat_eq (x := z) (y := z') (by omega)]
  have n1 : encLat (decLat (Endian.beVal la)) = Endian.beVal la :=
    encLat_decLat _ (bound la h1) (fun h => hz (inj _ _ h1 rfl h))
  have n2 : encLon (decLon (Endian.beVal lo)) = Endian.beVal lo := encLon_decLon _ (bound lo h2)
  have n3 : encUnc (decUnc u) = u := by
    have := encUnc_decUnc u.toNat hu
    rw [BitVec.ofNat_toNat, BitVec.setWidth_eq] at this
    exact BitVec.eq_of_toNat_eq this
  have ri : ∃ r, enc ptr 1 ⟨decLat (Endian.beVal la), decLon (Endian.beVal lo), decUnc u⟩ = .ok r := by
    rw [enc_ok_iff]
    have b1 := bound la h1
    have b2 := bound lo h2
    refine ⟨rfl, ?_⟩
    simp only []
    generalize Endian.beVal la = x at *
    generalize Endian.beVal lo = y at *
    have g1 : -90000000 ≤ decLat x ∧ decLat x ≤ 90000000 := by
      by_cases hx : x < 2 ^ 23
      · rw [(decLat_spec x hx).1]
        omega
      · have := (decLat_spec (x - 2 ^ 23) (by omega)).2
        rw [show 2 ^ 23 + (x - 2 ^ 23) = x by omega] at this
        rw [this]
        omega
    have g2 : -180000000 ≤ decLon y ∧ decLon y ≤ 180000000 := by
      by_cases hy : y < 2 ^ 23
      · rw [(decLon_spec y (by omega)).1 hy]
        omega
      · have := (decLon_spec (2 ^ 24 - y) (by omega)).2 (by omega)
        rw [show 2 ^ 24 - (2 ^ 24 - y) = y by omega] at this
        rw [this]
        omega
    exact ⟨g1.1, g1.2, g2.1, g2.2⟩
  obtain ⟨r, hr⟩ := ri
  rw [hr]
  obtain ⟨q1, e1, l1, v1⟩ :=
    Endian.storeBeExt_value (BitVec.ofNat 32 (Endian.beVal la)) 3 (by omega)
  obtain ⟨q2, e2, l2, v2⟩ :=
    Endian.storeBeExt_value (BitVec.ofNat 32 (Endian.beVal lo)) 3 (by omega)
  have w1 : q1 = la := inj _ _ l1 h1 (by
    have := bound la h1
    rw [v1, BitVec.toNat_ofNat]
    omega)
  have w2 : q2 = lo := inj _ _ l2 h2 (by
    have := bound lo h2
    rw [v2, BitVec.toNat_ofNat]
    omega)
  have hu' : (u &&& 0x7f#8) = u := by
    apply BitVec.eq_of_toNat_eq
    rw [BitVec.toNat_and, show (0x7f#8).toNat = 2 ^ 7 - 1 from rfl, Nat.and_two_pow_sub_one_eq_mod]
    omega
  unfold enc at hr
  rw [if_pos rfl] at hr
  unfold encCircle at hr
  simp only [n1, n2, n3, e1, e2, w1, w2, hu'] at hr
  split at hr
  · cases hr
  · split at hr
    · cases hr
    · cases hr
      rfl

/-- The number of octets the encoder claims to have written is the size of a
pointer, right only where that is 8. -/
theorem enc_size_partial (v : Circle) (r : List Byte × Nat) (h : enc 8 1 v = .ok r) :
    r.2 = r.1.length := by
  have := (round_trip 8 v r h).1
  unfold enc at h
  rw [if_pos rfl] at h
  unfold encCircle at h
  split at h
  · cases h
  · split at h
    · cases h
    · cases h
      exact this.symm

/-- With pointers of 4 octets (32 bit targets) the encoder returns 4. -/
theorem enc_size_counterexample :
    ∃ r, enc 4 1 ⟨0, 0, 0⟩ = .ok r ∧ r.2 = 4 ∧ r.1.length = 8 :=
  ⟨_, rfl, rfl, rfl⟩

end Verif.Gad
