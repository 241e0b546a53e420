import Verif.V110.Props
/-!
Round trips of frames and the synchronous rate adaptation.
-/
namespace Verif.V110

/-! ### Frames and back -/

theorem val_at {t : List Sym} {fr rest : List Byte} {p i : Nat} (hfr : fr.length = 66) (hp : p < 66) (h : placeIn t p = some i) :
    (t.map (Sym.val fr) ++ rest)[i]? = fr[p]? := by
  unfold placeIn at h
  rw [List.idxOf?, List.findIdx?_eq_some_iff_getElem] at h
  obtain ⟨hi, he, _⟩ := h
  simp only [List.length_map] at hi
  simp only [List.getElem_map, beq_iff_eq] at he
  rw [List.getElem?_append_left (by simpa using hi), List.getElem?_map, List.getElem?_eq_getElem hi, Option.map_some,
    List.getElem?_eq_getElem (by omega)]
  generalize t[i] = s at he
  cases s <;> simp only [Sym.pos, Option.some.injEq, reduceCtorEq] at he <;>
    (simp only [Sym.val, Sym.pos, he, List.getD_eq_getElem?_getD]; rw [List.getElem?_eq_getElem (by omega)]; rfl)

/-- the bits of a decoded frame no frame on the line carries: S2, S5 and S7 -/
def unsent (p : Nat) : Prop := p = 56 ∨ p = 59 ∨ p = 61

/-- **Decoding an encoded frame gives its D, E, X and S bits back**, whatever the frame decoded into held and the buffer encoded into. -/
theorem frame80_roundtrip (fr old bits : List Byte) (hfr : fr.length = 66) (ho : old.length = 66) (hb : 80 ≤ bits.length) :
    ∃ b r, encodeFrame bits fr = some (80, b) ∧ b.length = bits.length ∧ decodeFrame old b = some (0, r) ∧ r.length = 66 ∧
      ∀ p, p < 66 → ¬ unsent p → r[p]? = fr[p]? := by
  have hl : (table80.map (Sym.val fr) ++ bits.drop 80).length = bits.length := by simp [table80]; omega
  obtain ⟨r, h1, h2, h3⟩ := decode80 old (table80.map (Sym.val fr) ++ bits.drop 80) ho (by omega)
  refine ⟨_, r, by rw [encode80 bits fr hfr, if_neg (by omega)], hl, h1, h2, ?_⟩
  intro p hp hu
  rw [h3 p hp]
  have key : ∀ p < 66, (placeIn table80 p).isSome ∨ p = 56 ∨ p = 59 ∨ p = 61 := by decide
  obtain ⟨i, hi⟩ := Option.isSome_iff_exists.1 ((key p hp).resolve_right hu)
  rw [hi]
  exact val_at hfr hp hi

/-- For the frame of 60 bits E1, E2, E3 stay what they were (they are to be set from elsewhere). -/
theorem frame60_roundtrip (fr old bits : List Byte) (hfr : fr.length = 66) (ho : old.length = 66) (hb : 60 ≤ bits.length) :
    ∃ b r, encodeFrame60 bits fr = some (60, b) ∧ b.length = bits.length ∧ decodeFrame60 old b = some (0, r) ∧ r.length = 66 ∧
      (∀ p, p < 66 → ¬ unsent p → ¬ (48 ≤ p ∧ p < 51) → r[p]? = fr[p]?) ∧ ∀ p, 48 ≤ p ∧ p < 51 → r[p]? = old[p]? := by
  have hl : (table60.map (Sym.val fr) ++ bits.drop 60).length = bits.length := by simp [table60]; omega
  obtain ⟨r, h1, h2, h3⟩ := decode60 old (table60.map (Sym.val fr) ++ bits.drop 60) ho (by omega)
  refine ⟨_, r, by rw [encode60 bits fr hfr, if_neg (by omega)], hl, h1, h2, ?_, ?_⟩
  · intro p hp hu he
    rw [h3 p hp]
    have key : ∀ p < 66, (placeIn table60 p).isSome ∨ (p = 56 ∨ p = 59 ∨ p = 61) ∨ (48 ≤ p ∧ p < 51) := by decide
    obtain ⟨i, hi⟩ := Option.isSome_iff_exists.1 (((key p hp).resolve_right (fun h => h.elim hu he)))
    rw [hi]
    exact val_at hfr hp hi
  · intro p hp
    rw [h3 p (by omega)]
    have key : ∀ p < 51, 48 ≤ p → placeIn table60 p = none := by decide
    rw [key p hp.2 hp.1]

/-- The frame of 36 bits carries D1, D3, .., D47; D2, D4, .. become copies of them. -/
theorem frame36_roundtrip (fr old bits : List Byte) (hfr : fr.length = 66) (ho : old.length = 66) (hb : 36 ≤ bits.length) :
    ∃ b r, encodeFrame36 bits fr = some (36, b) ∧ b.length = bits.length ∧ decodeFrame36 old b = some (0, r) ∧ r.length = 66 ∧
      (∀ p, p < 48 → r[p]? = fr[2 * (p / 2)]?) ∧
      (∀ p, 51 ≤ p → p < 66 → ¬ unsent p → r[p]? = fr[p]?) ∧ ∀ p, 48 ≤ p ∧ p < 51 → r[p]? = old[p]? := by
  have hl : (table36.map (fun s => Sym.val fr s.twice) ++ bits.drop 36).length = bits.length := by simp [table36]; omega
  have hm : table36.map (fun s => Sym.val fr s.twice) = (table36.map Sym.twice).map (Sym.val fr) := by rw [List.map_map]; rfl
  obtain ⟨r, h1, h2, h3⟩ := decode36 old (table36.map (fun s => Sym.val fr s.twice) ++ bits.drop 36) ho (by omega)
  refine ⟨_, r, by rw [encode36 bits fr hfr, if_neg (by omega)], hl, h1, h2, ?_, ?_, ?_⟩
  · intro p hp
    rw [h3 p (by omega), hm]
    have key : ∀ p < 48, (placeIn36 p).isSome ∧ placeIn36 p = placeIn (table36.map Sym.twice) (2 * (p / 2)) := by decide
    obtain ⟨i, hi⟩ := Option.isSome_iff_exists.1 (key p hp).1
    have := (key p hp).2
    rw [hi] at this ⊢
    exact val_at hfr (by omega) this.symm
  · intro p hp1 hp2 hu
    rw [h3 p hp2, hm]
    have key : ∀ p < 66, 51 ≤ p → ((placeIn36 p).isSome ∧ placeIn36 p = placeIn (table36.map Sym.twice) p) ∨ (p = 56 ∨ p = 59 ∨ p = 61) := by
      decide
    have hk := (key p hp2 hp1).resolve_right hu
    obtain ⟨i, hi⟩ := Option.isSome_iff_exists.1 hk.1
    have := hk.2
    rw [hi] at this ⊢
    exact val_at hfr (by omega) this.symm
  · intro p hp
    rw [h3 p (by omega)]
    have key : ∀ p < 51, 48 ≤ p → placeIn36 p = none := by decide
    rw [key p hp.2 hp.1]

/-- **Encoding a decoded frame gives the bits received** if the alignment bits were right. -/
theorem frame80_reencode (old bits buf : List Byte) (ho : old.length = 66) (hb : bits.length = 80) (hbuf : buf.length = 80)
    (ha : ∀ (i : Nat) (v : Byte), table80[i]? = some (.bit v) → bits[i]? = some v) :
    ∃ r, decodeFrame old bits = some (0, r) ∧ encodeFrame buf r = some (80, bits) := by
  obtain ⟨r, h1, h2, h3⟩ := decode80 old bits ho (by omega)
  refine ⟨r, h1, ?_⟩
  rw [encode80 buf r h2, if_neg (by omega), List.drop_eq_nil_of_le (by omega), List.append_nil]
  congr 2
  apply List.ext_getElem?
  intro i
  by_cases hi : i < 80
  · have hi' : i < table80.length := by simpa [table80] using hi
    rw [List.getElem?_map, List.getElem?_eq_getElem hi', Option.map_some]
    have key : ∀ i < 80, ∀ s, table80[i]? = some s → (∃ v, s = .bit v) ∨ ∃ p < 66, s.pos = some p ∧ placeIn table80 p = some i := by
      have k2 : ∀ i < 80, (match table80[i]? with
          | none => true
          | some (.bit _) => true
          | some s => match s.pos with | some p => decide (p < 66) && decide (placeIn table80 p = some i) | none => false) = true := by
        decide
      intro i hi s hs
      have := k2 i hi
      rw [hs] at this
      cases s with
      | bit v => exact Or.inl ⟨v, rfl⟩
      | D n => simp only [Sym.pos, Bool.and_eq_true, decide_eq_true_eq] at this; exact Or.inr ⟨_, this.1, rfl, this.2⟩
      | S n => simp only [Sym.pos, Bool.and_eq_true, decide_eq_true_eq] at this; exact Or.inr ⟨_, this.1, rfl, this.2⟩
      | X n => simp only [Sym.pos, Bool.and_eq_true, decide_eq_true_eq] at this; exact Or.inr ⟨_, this.1, rfl, this.2⟩
      | E n => simp only [Sym.pos, Bool.and_eq_true, decide_eq_true_eq] at this; exact Or.inr ⟨_, this.1, rfl, this.2⟩
    have hs : table80[i]? = some table80[i] := List.getElem?_eq_getElem hi'
    generalize table80[i] = s at hs
    rcases key i hi s hs with ⟨v, rfl⟩ | ⟨p, hp, hpos, hpl⟩
    · rw [ha i v hs]; rfl
    · have := h3 p hp
      rw [hpl] at this
      simp only at this
      rw [← this, List.getElem?_eq_getElem (by omega)]
      cases s <;> simp only [Sym.pos, Option.some.injEq, reduceCtorEq] at hpos <;>
        (simp only [Sym.val, Sym.pos, hpos, List.getD_eq_getElem?_getD]; rw [List.getElem?_eq_getElem (by omega)]; rfl)
  · rw [List.getElem?_eq_none (by simp [table80]; omega), List.getElem?_eq_none (by omega)]

/-! ### Rate adaptation -/

/-- ITU-T V.110 tables 6a to 6f: which user bit (from one) stands at D1 .. D48, 0 for a fill bit; by the number of user bits per frame -/
def table6 : Nat → List Nat
  | 6 => [1, 1, 1, 1, 1, 1, 1, 1, 2, 2, 2, 2, 2, 2, 2, 2, 3, 3, 3, 3, 3, 3, 3, 3,
          4, 4, 4, 4, 4, 4, 4, 4, 5, 5, 5, 5, 5, 5, 5, 5, 6, 6, 6, 6, 6, 6, 6, 6]
  | 12 => [1, 1, 1, 1, 2, 2, 2, 2, 3, 3, 3, 3, 4, 4, 4, 4, 5, 5, 5, 5, 6, 6, 6, 6,
           7, 7, 7, 7, 8, 8, 8, 8, 9, 9, 9, 9, 10, 10, 10, 10, 11, 11, 11, 11, 12, 12, 12, 12]
  | 24 => [1, 1, 2, 2, 3, 3, 4, 4, 5, 5, 6, 6, 7, 7, 8, 8, 9, 9, 10, 10, 11, 11, 12, 12,
           13, 13, 14, 14, 15, 15, 16, 16, 17, 17, 18, 18, 19, 19, 20, 20, 21, 21, 22, 22, 23, 23, 24, 24]
  | 36 => [1, 2, 3, 4, 5, 6, 7, 8, 9, 10, 0, 0, 11, 12, 0, 0, 13, 14, 0, 0, 15, 16, 17, 18,
           19, 20, 21, 22, 23, 24, 25, 26, 27, 28, 0, 0, 29, 30, 0, 0, 31, 32, 0, 0, 33, 34, 35, 36]
  | 30 => [1, 2, 3, 4, 5, 6, 7, 8, 9, 10, 0, 0, 11, 12, 0, 0, 13, 14, 0, 0, 15, 0, 0, 0,
           16, 17, 18, 19, 20, 21, 22, 23, 24, 25, 0, 0, 26, 27, 0, 0, 28, 29, 0, 0, 30, 0, 0, 0]
  | 48 => List.range' 1 48
  | _ => []

/-- ITU-T V.110 table 1 and table 5: data rate, intermediate rate, user bits per frame, E1 E2 E3 -/
def table15 : List (Nat × Nat × Nat × List Byte) :=
  [(600, 8000, 6, [1, 0, 0]), (1200, 8000, 12, [0, 1, 0]), (2400, 8000, 24, [1, 1, 0]), (4800, 8000, 48, [0, 1, 1]),
   (7200, 16000, 36, [1, 0, 1]), (9600, 16000, 48, [0, 1, 1]), (12000, 32000, 30, [0, 0, 1]), (14400, 32000, 36, [1, 0, 1]),
   (19200, 32000, 48, [0, 1, 1]), (24000, 64000, 30, [0, 0, 1]), (28800, 64000, 36, [1, 0, 1]), (38400, 64000, 48, [0, 1, 1])]

/-- what `up` must leave at each of the 66 places -/
def upOk (a : Ra1) (n : Nat) (e : List Byte) : Bool :=
  a.n = n && a.up.all (Op.fits 66 n) && e.length = 3 && n ≤ 48 &&
  (List.range 66).all fun p => orgs a.up p =
    if p < 48 then (match (table6 n)[p]? with | some (k + 1) => .src k | _ => .const 1)
    else if p < 51 then .const (e.getD (p - 48) 0) else .old

/-- what `down` must leave: each user bit from a place showing it -/
def downOk (a : Ra1) (n : Nat) (e : List Byte) : Bool :=
  eOf a.e = e && a.down.all (Op.fits n 66) &&
  (List.range n).all fun i => match orgs a.down i with
    | .src p => (table6 n)[p]? = some (i + 1)
    | _ => false

theorem rates_ok : ∀ i < 12, ∃ r d ir n e, rates[i]? = some r ∧ table15[i]? = some (d, ir, n, e) ∧ r.data = d ∧ r.intermediate = ir ∧
    r.chunk = n ∧ upOk r.ra1 n e ∧ downOk r.ra1 n e := by
  intro i hi
  match i, hi with
  | 0, _ => exact ⟨_, _, _, _, _, rfl, rfl, rfl, rfl, rfl, by decide, by decide⟩
  | 1, _ => exact ⟨_, _, _, _, _, rfl, rfl, rfl, rfl, rfl, by decide, by decide⟩
  | 2, _ => exact ⟨_, _, _, _, _, rfl, rfl, rfl, rfl, rfl, by decide, by decide⟩
  | 3, _ => exact ⟨_, _, _, _, _, rfl, rfl, rfl, rfl, rfl, by decide, by decide⟩
  | 4, _ => exact ⟨_, _, _, _, _, rfl, rfl, rfl, rfl, rfl, by decide, by decide⟩
  | 5, _ => exact ⟨_, _, _, _, _, rfl, rfl, rfl, rfl, rfl, by decide, by decide⟩
  | 6, _ => exact ⟨_, _, _, _, _, rfl, rfl, rfl, rfl, rfl, by decide, by decide⟩
  | 7, _ => exact ⟨_, _, _, _, _, rfl, rfl, rfl, rfl, rfl, by decide, by decide⟩
  | 8, _ => exact ⟨_, _, _, _, _, rfl, rfl, rfl, rfl, rfl, by decide, by decide⟩
  | 9, _ => exact ⟨_, _, _, _, _, rfl, rfl, rfl, rfl, rfl, by decide, by decide⟩
  | 10, _ => exact ⟨_, _, _, _, _, rfl, rfl, rfl, rfl, rfl, by decide, by decide⟩
  | 11, _ => exact ⟨_, _, _, _, _, rfl, rfl, rfl, rfl, rfl, by decide, by decide⟩

/-- **The rates are those of V.110 tables 1 and 6, the frames at the intermediate rate carry exactly the data rate**, and numbers beyond
the enum are refused. -/
theorem rates_table (i : Nat) :
    (∀ d ir n e, table15[i]? = some (d, ir, n, e) →
      dataRate i = d ∧ interRate i = ir ∧ chunkBits i = n ∧ dataRate i * 80 = chunkBits i * interRate i) ∧
    (12 ≤ i → dataRate i = -EINVAL ∧ interRate i = -EINVAL ∧ chunkBits i = -EINVAL ∧
      (∀ fr d, userToIr i fr d = some (-EINVAL, fr)) ∧ ∀ out fr, irToUser i out fr = some (-EINVAL, out)) := by
  constructor
  · intro d ir n e h
    have hi : i < 12 := by
      have := (List.getElem?_eq_some_iff.1 h).1
      simpa [table15] using this
    obtain ⟨r, d', ir', n', e', h1, h2, h3, h4, h5, _, _⟩ := rates_ok i hi
    rw [h] at h2
    simp only [Option.some.injEq, Prod.mk.injEq] at h2
    obtain ⟨rfl, rfl, rfl, rfl⟩ := h2
    have key : ∀ i < 12, dataRate i * 80 = chunkBits i * interRate i := by decide
    have := key i hi
    unfold dataRate interRate chunkBits at this ⊢
    rw [h1] at this ⊢
    simp only at this ⊢
    exact ⟨by rw [h3], by rw [h4], by rw [h5], this⟩
  · intro hi
    have h : rates[i]? = none := List.getElem?_eq_none (by simpa [rates] using hi)
    unfold dataRate interRate chunkBits userToIr irToUser
    rw [h]
    exact ⟨rfl, rfl, rfl, fun _ _ => rfl, fun _ _ => rfl⟩

/-- **User bits to frame**: with the right number of user bits the D bits become those of table 6 (fill bits one), E1 E2 E3 those of
table 5, and the rest of the frame stays; with any other number nothing is changed. -/
theorem user_to_ir (i d ir n : Nat) (e : List Byte) (ht : table15[i]? = some (d, ir, n, e)) (fr u : List Byte) (hfr : fr.length = 66) :
    (u.length ≠ n → userToIr i fr u = some (-EINVAL, fr)) ∧
    (u.length = n → ∃ r : List Byte, userToIr i fr u = some (0, r) ∧ r.length = 66 ∧ (readAt r 48 3 = some e) ∧
      (∀ p : Nat, 51 ≤ p → p < 66 → r[p]? = fr[p]?) ∧
      ∀ p k : Nat, (table6 n)[p]? = some k → r[p]? = if k = 0 then some 1 else u[k - 1]?) := by
  have hi : i < 12 := by
    have := (List.getElem?_eq_some_iff.1 ht).1
    simpa [table15] using this
  obtain ⟨r, d', ir', n', e', h1, h2, h3, h4, h5, hu, hd⟩ := rates_ok i hi
  rw [ht] at h2
  simp only [Option.some.injEq, Prod.mk.injEq] at h2
  obtain ⟨rfl, rfl, rfl, rfl⟩ := h2
  unfold upOk at hu
  simp only [Bool.and_eq_true, decide_eq_true_eq, List.all_eq_true, List.mem_range] at hu
  obtain ⟨⟨⟨⟨hn, hf⟩, hel⟩, hn48⟩, hp⟩ := hu
  unfold userToIr
  rw [h1]
  simp only [Ra1.toIr, hn]
  constructor
  · intro h; rw [if_pos h]
  · intro h
    rw [if_neg (by omega)]
    obtain ⟨q, q1, q2, q3⟩ := ops_run u r.ra1.up fr (by rw [hfr, h, List.all_eq_true]; exact hf)
    rw [q1]
    refine ⟨q, rfl, by omega, ?_, ?_, ?_⟩
    · have := readAt_eq_some (mem := q) (o := 48) (n := 3) (by omega)
      rw [show ((48 : Nat) : Int) = 48 from rfl] at this
      rw [this]
      congr 1
      apply List.ext_getElem?
      intro j
      by_cases hj : j < 3
      · rw [List.getElem?_take_of_lt hj, List.getElem?_drop, q3 (48 + j) (by omega), hp (48 + j) (by omega), if_neg (by omega),
          if_pos (by omega)]
        simp only [Org.get, List.getD_eq_getElem?_getD]
        rw [show 48 + j - 48 = j by omega, List.getElem?_eq_getElem (by omega)]
        rfl
      · rw [List.getElem?_eq_none (by simp; omega), List.getElem?_eq_none (by omega)]
    · intro p hp1 hp2
      rw [q3 p (by omega), hp p hp2, if_neg (by omega), if_neg (by omega)]
      rfl
    · intro p k hk
      have hp48 : p < 48 := by
        have hl : ∀ m ≤ 48, (table6 m).length ≤ 48 := by decide
        have := (List.getElem?_eq_some_iff.1 hk).1
        have := hl n hn48
        omega
      rw [q3 p (by omega), hp p (by omega), if_pos hp48, hk]
      cases k with
      | zero => rfl
      | succ k => rfl

/-- **Frame to user bits**: if E1 E2 E3 are those of the rate and the buffer is large enough, each user bit is taken from a place of table 6
showing it; otherwise the buffer is left alone. -/
theorem ir_to_user (i d ir n : Nat) (e : List Byte) (ht : table15[i]? = some (d, ir, n, e)) (fr out : List Byte) (hfr : fr.length = 66) :
    (out.length < n → irToUser i out fr = some (-ENOSPC, out)) ∧
    (n ≤ out.length → readAt fr 48 3 ≠ some e → irToUser i out fr = some (-EINVAL, out)) ∧
    (n ≤ out.length → readAt fr 48 3 = some e → ∃ o : List Byte, irToUser i out fr = some ((n : Int), o) ∧ o.length = out.length ∧
      o.drop n = out.drop n ∧ ∀ k : Nat, k < n → ∃ p : Nat, (table6 n)[p]? = some (k + 1) ∧ o[k]? = fr[p]?) := by
  have hi : i < 12 := by
    have := (List.getElem?_eq_some_iff.1 ht).1
    simpa [table15] using this
  obtain ⟨r, d', ir', n', e', h1, h2, h3, h4, h5, hu, hd⟩ := rates_ok i hi
  rw [ht] at h2
  simp only [Option.some.injEq, Prod.mk.injEq] at h2
  obtain ⟨rfl, rfl, rfl, rfl⟩ := h2
  unfold upOk at hu
  simp only [Bool.and_eq_true, decide_eq_true_eq] at hu
  have hn := hu.1.1.1.1
  unfold downOk at hd
  simp only [Bool.and_eq_true, decide_eq_true_eq] at hd
  obtain ⟨⟨he, hf⟩, hp⟩ := hd
  rw [List.all_eq_true] at hp
  have hE : sameE fr e = some (decide (readAt fr 48 3 = some e)) := by
    unfold sameE
    have := readAt_eq_some (mem := fr) (o := 48) (n := 3) (by omega)
    rw [show ((48 : Nat) : Int) = 48 from rfl] at this
    rw [show ((eOff : Nat) : Int) = 48 from rfl, this]
    simp only [Option.map_some, Option.some.injEq]
    by_cases hc : List.take 3 (List.drop 48 fr) = e <;> simp [hc]
  unfold irToUser
  rw [h1]
  simp only [Ra1.toUser, hn, he]
  refine ⟨?_, ?_, ?_⟩
  · intro h; rw [if_pos h]
  · intro h hne
    rw [if_neg (by omega), hE, decide_eq_false hne]
    rfl
  · intro h heq
    rw [if_neg (by omega), hE, decide_eq_true heq]
    obtain ⟨q, q1, q2, q3⟩ := ops_run fr r.ra1.down out (fits_mono h (by omega) hf)
    simp only [Option.bind_some, if_true]
    rw [q1]
    refine ⟨q, rfl, q2, ?_, ?_⟩
    · apply List.ext_getElem?
      intro j
      rw [List.getElem?_drop, List.getElem?_drop]
      by_cases hj : n + j < out.length
      · rw [q3 _ hj, orgs_old hf (by omega)]
        rfl
      · rw [List.getElem?_eq_none (by omega), List.getElem?_eq_none (by omega)]
    · intro k hk
      have := hp k (List.mem_range.2 hk)
      rw [q3 k (by omega)]
      cases ho : orgs r.ra1.down k with
      | src p =>
        rw [ho] at this
        simp only [decide_eq_true_eq] at this
        exact ⟨p, this, rfl⟩
      | const v => rw [ho] at this; simp at this
      | old => rw [ho] at this; simp at this

/-- a frame that agrees with the one made from the user bits at D1 .. D48 and E1 .. E3 gives them back -/
theorem carries {i d ir n : Nat} {e : List Byte} (ht : table15[i]? = some (d, ir, n, e)) {fr u r r' out : List Byte} (hfr : fr.length = 66)
    (hu : u.length = n) (hr : userToIr i fr u = some (0, r)) (hr' : r'.length = 66)
    (hs : ∀ p, p < 51 → r'[p]? = r[p]?) (ho : n ≤ out.length) :
    irToUser i out r' = some ((n : Int), u ++ out.drop n) := by
  obtain ⟨q, q1, q2, q3, q4, q5⟩ := (user_to_ir i d ir n e ht fr u hfr).2 hu
  rw [hr] at q1
  simp only [Option.some.injEq, Prod.mk.injEq, true_and] at q1
  subst q1
  have hE : readAt r' 48 3 = some e := by
    rw [← q3]
    have a := readAt_eq_some (mem := r) (o := 48) (n := 3) (by omega)
    have b := readAt_eq_some (mem := r') (o := 48) (n := 3) (by omega)
    rw [show ((48 : Nat) : Int) = 48 from rfl] at a b
    rw [a, b]
    congr 1
    apply List.ext_getElem?
    intro j
    by_cases hj : j < 3
    · rw [List.getElem?_take_of_lt hj, List.getElem?_take_of_lt hj, List.getElem?_drop, List.getElem?_drop, hs (48 + j) (by omega)]
    · rw [List.getElem?_eq_none (by simp; omega), List.getElem?_eq_none (by simp; omega)]
  obtain ⟨o, o1, o2, o3, o4⟩ := (ir_to_user i d ir n e ht r' out hr').2.2 ho hE
  rw [o1]
  congr 2
  rw [← List.take_append_drop n o, o3]
  congr 1
  apply List.ext_getElem?
  intro k
  by_cases hk : k < n
  · obtain ⟨p, p1, p2⟩ := o4 k hk
    have hp48 : p < 51 := by
      have hl : ∀ i < 12, ∀ x, table15[i]? = some x → (table6 x.2.2.1).length ≤ 48 := by
        have : ∀ x ∈ table15, (table6 x.2.2.1).length ≤ 48 := by decide
        intro i _ x hx
        exact this x (List.mem_of_getElem? hx)
      have hi : i < 12 := by
        have := (List.getElem?_eq_some_iff.1 ht).1
        simpa [table15] using this
      have := (List.getElem?_eq_some_iff.1 p1).1
      have := hl i hi _ ht
      simp only at this
      omega
    rw [List.getElem?_take_of_lt hk, p2, hs p hp48, q5 p (k + 1) p1]
    simp
  · rw [List.getElem?_eq_none (by simp; omega), List.getElem?_eq_none (by omega)]

/-- **User bits pass every rate unchanged**: adapted, sent as a frame of 80 bits, decoded and adapted back. -/
theorem ra1_roundtrip (i d ir n : Nat) (e : List Byte) (ht : table15[i]? = some (d, ir, n, e)) (fr old u bits out : List Byte)
    (hfr : fr.length = 66) (ho : old.length = 66) (hu : u.length = n) (hb : 80 ≤ bits.length) (hout : n ≤ out.length) :
    ∃ r b r', userToIr i fr u = some (0, r) ∧ encodeFrame bits r = some (80, b) ∧ decodeFrame old b = some (0, r') ∧
      irToUser i out r' = some ((n : Int), u ++ out.drop n) := by
  obtain ⟨r, r1, r2, _⟩ := (user_to_ir i d ir n e ht fr u hfr).2 hu
  obtain ⟨b, r', b1, _, b2, b3, b4⟩ := frame80_roundtrip r old bits r2 ho hb
  exact ⟨r, b, r', r1, b1, b2, carries ht hfr hu r1 b3 (fun p hp => b4 p (by omega) (by unfold unsent; omega)) hout⟩

theorem same3 {r old : List Byte} (hr : r.length = 66) (ho : old.length = 66) (h : readAt r 48 3 = readAt old 48 3) {p : Nat}
    (hp : 48 ≤ p ∧ p < 51) : old[p]? = r[p]? := by
  have a := readAt_eq_some (mem := r) (o := 48) (n := 3) (by omega)
  have b := readAt_eq_some (mem := old) (o := 48) (n := 3) (by omega)
  rw [show ((48 : Nat) : Int) = 48 from rfl] at a b
  rw [a, b, Option.some.injEq] at h
  have := congrArg (fun l : List Byte => l[p - 48]?) h
  rw [List.getElem?_take_of_lt (by omega), List.getElem?_take_of_lt (by omega), List.getElem?_drop, List.getElem?_drop,
    show 48 + (p - 48) = p by omega] at this
  exact this.symm

/-- The same through the frame of 60 bits of the 12 and 6 kbit/s radio interface if the frame decoded into holds E1 E2 E3 of the rate. -/
theorem ra1_roundtrip60 (i d ir n : Nat) (e : List Byte) (ht : table15[i]? = some (d, ir, n, e)) (fr old u bits out : List Byte)
    (hfr : fr.length = 66) (ho : old.length = 66) (hE : readAt old 48 3 = some e) (hu : u.length = n) (hb : 60 ≤ bits.length)
    (hout : n ≤ out.length) :
    ∃ r b r', userToIr i fr u = some (0, r) ∧ encodeFrame60 bits r = some (60, b) ∧ decodeFrame60 old b = some (0, r') ∧
      irToUser i out r' = some ((n : Int), u ++ out.drop n) := by
  obtain ⟨r, r1, r2, r3, _⟩ := (user_to_ir i d ir n e ht fr u hfr).2 hu
  obtain ⟨b, r', b1, _, b2, b3, b4, b5⟩ := frame60_roundtrip r old bits r2 ho hb
  refine ⟨r, b, r', r1, b1, b2, carries ht hfr hu r1 b3 (fun p hp => ?_) hout⟩
  by_cases hp2 : 48 ≤ p ∧ p < 51
  · rw [b5 p hp2]
    exact same3 r2 ho (by rw [r3, hE]) hp2
  · exact b4 p (by omega) (by unfold unsent; omega) hp2

/-- Through the frame of 36 bits of the 3.6 kbit/s radio interface for 600, 1200 and 2400 bit/s. -/
theorem ra1_roundtrip36 (i d ir n : Nat) (e : List Byte) (hi : i < 3) (ht : table15[i]? = some (d, ir, n, e)) (fr old u bits out : List Byte)
    (hfr : fr.length = 66) (ho : old.length = 66) (hE : readAt old 48 3 = some e) (hu : u.length = n) (hb : 36 ≤ bits.length)
    (hout : n ≤ out.length) :
    ∃ r b r', userToIr i fr u = some (0, r) ∧ encodeFrame36 bits r = some (36, b) ∧ decodeFrame36 old b = some (0, r') ∧
      irToUser i out r' = some ((n : Int), u ++ out.drop n) := by
  obtain ⟨r, r1, r2, r3, _, r5⟩ := (user_to_ir i d ir n e ht fr u hfr).2 hu
  obtain ⟨b, r', b1, _, b2, b3, b4, b5, b6⟩ := frame36_roundtrip r old bits r2 ho hb
  refine ⟨r, b, r', r1, b1, b2, carries ht hfr hu r1 b3 (fun p hp => ?_) hout⟩
  by_cases hp2 : 48 ≤ p
  · rw [b6 p ⟨hp2, hp⟩]
    exact same3 r2 ho (by rw [r3, hE]) ⟨hp2, hp⟩
  · rw [b4 p (by omega)]
    have key : ∀ x ∈ table15.take 3, ∀ p < 48, (table6 x.2.2.1)[2 * (p / 2)]? = (table6 x.2.2.1)[p]? ∧ ((table6 x.2.2.1)[p]?).isSome := by
      decide
    have hm : (d, ir, n, e) ∈ table15.take 3 := by
      have : (table15.take 3)[i]? = some (d, ir, n, e) := by rw [List.getElem?_take_of_lt hi, ht]
      exact List.mem_of_getElem? this
    obtain ⟨k1, k2⟩ := key _ hm p (by omega)
    simp only at k1 k2
    obtain ⟨k, hk⟩ := Option.isSome_iff_exists.1 k2
    rw [r5 p k hk, r5 (2 * (p / 2)) k (by rw [k1, hk])]

/-! ### Examples -/

/-- a frame with all bits 1 except the E bits -/
def exFrame : List Byte := List.replicate 48 1 ++ [0, 1, 1, 0, 0, 0, 0] ++ List.replicate 11 1

example : (encodeFrame (List.replicate 82 7) exFrame).map (fun r => (r.1, r.2.take 18, r.2.drop 78)) =
    some (80, [0, 0, 0, 0, 0, 0, 0, 0, 1, 1, 1, 1, 1, 1, 1, 1, 1, 1], [1, 1, 7, 7]) := by decide
example : ∃ b r, encodeFrame (List.replicate 80 7) exFrame = some (80, b) ∧ b.length = 80 ∧
    decodeFrame (List.replicate 66 9) b = some (0, r) ∧ r.length = 66 ∧ ∀ p, p < 66 → ¬ unsent p → r[p]? = exFrame[p]? := by
  simpa using frame80_roundtrip exFrame (List.replicate 66 9) (List.replicate 80 7) (by decide) (by simp) (by simp)
/-- 7200 bit/s -/
example : userToIr 4 (List.replicate 66 0) (List.replicate 36 0) =
    some (0, [0, 0, 0, 0, 0, 0, 0, 0, 0, 0, 1, 1, 0, 0, 1, 1, 0, 0, 1, 1, 0, 0, 0, 0, 0, 0, 0, 0, 0, 0, 0, 0, 0, 0, 1, 1, 0, 0, 1, 1, 0, 0,
      1, 1, 0, 0, 0, 0, 1, 0, 1] ++ List.replicate 15 0) := by decide
example : irToUser 0 (List.replicate 6 5) (List.replicate 66 0) = some (-22, List.replicate 6 5) := by decide
example : ∃ r b r', userToIr 0 exFrame [0, 1, 1, 0, 1, 0] = some (0, r) ∧ encodeFrame (List.replicate 80 0) r = some (80, b) ∧
    decodeFrame exFrame b = some (0, r') ∧ irToUser 0 (List.replicate 6 5) r' = some (6, [0, 1, 1, 0, 1, 0]) :=
  ra1_roundtrip 0 600 8000 6 [1, 0, 0] rfl exFrame exFrame _ _ _ (by decide) (by decide) rfl (by simp) (by simp)

end Verif.V110
