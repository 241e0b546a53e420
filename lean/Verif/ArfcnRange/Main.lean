import Verif.ArfcnRange.Read
/-!
C46: encoding a list of frequencies and decoding the message gives the same set.
-/
namespace Verif.ArfcnRange

/-- How the functions are used together: tests/gsm0408/gsm0408_test.c:1619-1662 and
the description at src/gsm/gsm48_arfcn_range_encode.c:147-164.  The range is chosen, the
list is filtered, its W values are computed into a zeroed array of 29, and these are written
into the message. -/
def encodeFreqList (arfcns : List Int) (cl : List Byte) : Option (List Byte) :=
  match determineRange arfcns with
  | (range, some f0) =>
    let fl := filterArfcns arfcns f0
    (encArfcns fl.1.length range.toNat fl.1 (List.replicate 29 0) 0).bind (fun r =>
      if range = 127 then enc128 cl f0 r.2
      else if range = 255 then enc256 cl f0 r.2
      else if range = 511 then enc512 cl f0 r.2
      else if range = 1023 then enc1024 cl fl.2 r.2
      else none)
  | (_, none) => none

theorem byte_of_bits (a b : List Byte) (n : Nat) (ha : n < a.length) (hb : n < b.length)
    (h : ∀ i, i < 8 → bitAt a (8 * n + i) = bitAt b (8 * n + i)) : a[n] = b[n] := by
  apply BitVec.eq_of_getMsbD_eq
  intro i hi
  have := h i hi
  simp only [bitAt] at this
  rw [show (8 * n + i) / 8 = n by omega, show (8 * n + i) % 8 = i by omega] at this
  simpa [List.getD_eq_getElem?_getD, ha, hb] using this

theorem getLsbD_small (x i : Nat) (h : i < 8) : (BitVec.ofNat 8 x).getLsbD i = x.testBit i := by
  rw [BitVec.getLsbD_ofNat, decide_eq_true h, Bool.true_and]

/-- The bits of the origin in the message. -/
theorem writeOrig_bits (id : Byte) (hid : id.getLsbD 0 = false) (n : Nat) (cl : List Byte) (hcl : 3 ≤ cl.length) :
    ∃ cl1, writeOrig id (n : Nat) cl = some cl1 ∧ cl1.length = cl.length ∧
      cl1[0]? = some (id ||| BitVec.ofNat 8 (n / 512 % 2)) ∧ ∀ i, i < 10 → bitAt cl1 (7 + i) = n.testBit (10 - 1 - i) := by
  rcases cl with _ | ⟨x, _ | ⟨y, _ | ⟨z, t⟩⟩⟩
  · simp at hcl
  · simp at hcl
  · simp at hcl
  · have e1 : ((n : Int) >>> 9 % 2).toNat = n / 512 % 2 := by
      rw [Int.shiftRight_eq_div_pow]; norm_cast
    have e2 : BitVec.ofInt 8 ((n : Int) >>> 1) = BitVec.ofNat 8 (n / 2) := by
      rw [Int.shiftRight_eq_div_pow]
      rw [show ((n : Int) / (2 ^ 1 : Nat)) = ((n / 2 : Nat) : Int) by norm_cast]
      exact BitVec.ofInt_natCast 8 (n / 2)
    have e3 : ((n : Int) % 2).toNat = n % 2 := by norm_cast
    refine ⟨_, rfl, by simp, by simp only [List.getElem?_cons_zero, e1], ?_⟩
    intro i hi
    rw [e1, e2, e3]
    have hm2 : ∀ x : Nat, (x % 2).testBit 0 = x.testBit 0 := by
      intro x; rw [Nat.testBit_zero, Nat.testBit_zero, Nat.mod_mod]
    rcases Nat.eq_zero_or_pos i with h0 | h0
    · subst h0
      simp only [bitAt]
      rw [show (7 + 0) / 8 = 0 by omega, show (7 + 0) % 8 = 7 by omega]
      simp only [List.getD_cons_zero, BitVec.getMsbD, BitVec.getLsbD_or]
      rw [show 8 - 1 - 7 = 0 by omega, hid, getLsbD_small _ _ (by omega), hm2, show (512 : Nat) = 2 ^ 9 by norm_num,
        Nat.testBit_div_two_pow]
      simp
    · rcases Nat.lt_or_ge i 9 with h9 | h9
      · simp only [bitAt]
        rw [show (7 + i) / 8 = 1 by omega, show (7 + i) % 8 = i - 1 by omega]
        simp only [List.getD_cons_succ, List.getD_cons_zero, BitVec.getMsbD]
        rw [getLsbD_small _ _ (by omega), decide_eq_true (by omega), Bool.true_and, show (n / 2) = n / 2 ^ 1 by norm_num,
          Nat.testBit_div_two_pow]
        congr 1; omega
      · have : i = 9 := by omega
        subst this
        simp only [bitAt]
        rw [show (7 + 9) / 8 = 2 by omega, show (7 + 9) % 8 = 0 by omega]
        simp only [List.getD_cons_succ, List.getD_cons_zero, BitVec.getMsbD]
        rw [getLsbD_small _ _ (by omega), decide_eq_true (by omega), Bool.true_and, Nat.testBit_shiftLeft]
        rw [show 8 - 1 - 0 - 7 = 0 by omega, hm2]
        simp

/-- The decoder gets to the format with the identification `id`. -/
theorem dispatch_orig (c0 mask : Byte) (id : Byte) (h : c0 &&& 0xce = id) (hm : mask &&& 0x8e = 0x8e#8)
    (hid : id = 0x88#8 ∨ id = 0x8a#8 ∨ id = 0x8c#8) :
    (c0 &&& 0xc0 &&& mask ≠ 0x00#8) ∧ (c0 &&& 0xc8 &&& mask ≠ 0x80#8) ∧ (c0 &&& 0xce &&& mask = id) := by
  have hmb : ∀ i, (0x8e#8).getLsbD i = true → mask.getLsbD i = true := by
    intro i hi
    rw [← hm, BitVec.getLsbD_and, Bool.and_eq_true] at hi
    exact hi.1
  have h7 : mask.getLsbD 7 = true := hmb 7 (by decide)
  have h3 : mask.getLsbD 3 = true := hmb 3 (by decide)
  have hc : ∀ i, (0xce#8).getLsbD i = true → c0.getLsbD i = id.getLsbD i := by
    intro i hi
    rw [← h, BitVec.getLsbD_and]
    have : (206 : Byte).getLsbD i = (0xce#8).getLsbD i := rfl
    rw [this, hi, Bool.and_true]
  refine ⟨?_, ?_, ?_⟩
  · intro hz
    have := congrArg (fun x => x.getLsbD 7) hz
    simp only [BitVec.getLsbD_and] at this
    rw [h7, hc 7 (by decide)] at this
    rcases hid with rfl | rfl | rfl <;> revert this <;> decide
  · intro hz
    have := congrArg (fun x => x.getLsbD 3) hz
    simp only [BitVec.getLsbD_and] at this
    rw [h3, hc 3 (by decide)] at this
    rcases hid with rfl | rfl | rfl <;> revert this <;> decide
  · rw [h]
    have : id &&& 0x8e = id := by rcases hid with rfl | rfl | rfl <;> decide
    rw [← this, BitVec.and_assoc, BitVec.and_comm _ mask]
    show id &&& (mask &&& 0x8e) = id &&& 0x8e
    rw [hm]
    rfl

theorem orig_c0 (id : Byte) (b : Nat) (hb : b < 2) (hid : id = 0x88#8 ∨ id = 0x8a#8 ∨ id = 0x8c#8) :
    (id ||| BitVec.ofNat 8 b) &&& 0xce = id := by
  have : b = 0 ∨ b = 1 := by omega
  rcases hid with rfl | rfl | rfl <;> rcases this with rfl | rfl <;> decide

/-- Once the marks are those of the list, so is the array. -/
theorem decodeFreqList_of_marks (f : Nat → Byte) (cd : List Byte) (len : Nat) (mask frqt : Byte) (marks arfcns : List Int)
    (h : decodeMarks cd len mask = some (0, marks)) (hm : ∀ i, i ∈ marks ↔ i ∈ arfcns) (hr : ∀ a ∈ arfcns, 0 ≤ a ∧ a < 1024) :
    ∃ f', decodeFreqList f cd len mask frqt = some (0, f') ∧
      ∀ i, f' i = (f i &&& ~~~frqt) ||| (if (i : Int) ∈ arfcns then frqt else 0) := by
  refine ⟨fun i => (f i &&& ~~~frqt) ||| (if (i : Int) ∈ marks then frqt else 0), ?_, ?_⟩
  · simp only [decodeFreqList, h]
    rw [if_pos]
    rw [List.all_eq_true]
    intro x hx
    exact decide_eq_true (hr x ((hm x).1 hx))
  · intro i
    simp only [hm]

theorem filter_orig (n : Nat) (t : List Int) (e : Nat) (hs : ((n : Int) :: t).Pairwise (· < ·))
    (hr : ∀ a ∈ (n : Int) :: t, 0 ≤ a ∧ a < 1024) (hmax : ∀ a ∈ t, a - n < ((2 ^ e : Nat) : Int)) :
    (filterArfcns ((n : Int) :: t) n).1 = t.map (fun a => a - (n : Int) - 1) ∧ (t.map (fun a => a - (n : Int) - 1)).Nodup ∧
      (∀ x ∈ t.map (fun a => a - (n : Int) - 1), 0 ≤ x ∧ x < ((2 ^ e - 1 : Nat) : Int)) := by
  rw [List.pairwise_cons] at hs
  have hpow := Nat.two_pow_pos e
  refine ⟨?_, ?_, ?_⟩
  · simp only [filterArfcns, List.filter_cons, ne_eq, decide_not]
    rw [if_neg (by simp)]
    have hf : t.filter (fun a => !decide (a = (n : Int))) = t := by
      rw [List.filter_eq_self]
      intro a ha
      have := hs.1 a ha
      simp only [Bool.not_eq_true', decide_eq_false_iff_not]
      omega
    rw [hf]
    apply List.map_congr_left
    intro a ha
    have h1 := hs.1 a ha
    have h2 := hr a (List.mem_cons_of_mem _ ha)
    rw [mod_eq _ _ (by omega), Int.emod_eq_of_lt (by omega) (by push_cast; omega)]
    omega
  · apply List.Nodup.map_on
    · intro x _ y _ h; omega
    · exact hs.2.imp (fun h => by omega)
  · intro x hx
    rw [List.mem_map] at hx
    obtain ⟨a, ha, rfl⟩ := hx
    have h1 := hs.1 a ha
    have h2 := hmax a ha
    omega

/-- The three formats with an origin. -/
theorem orig_roundtrip {ns : List Node} {e minLen : Nat} (hok : TableOk ns e 17 = true) (hml : minLen ≤ 16)
    (hns : ns.length ≤ 29) (id : Byte) (hid0 : id.getLsbD 0 = false) (n : Nat) (t : List Int)
    (hs : ((n : Int) :: t).Pairwise (· < ·)) (hr : ∀ a ∈ (n : Int) :: t, 0 ≤ a ∧ a < 1024)
    (hmax : ∀ a ∈ t, a - n < ((2 ^ e : Nat) : Int)) (hlen : t.length ≤ ns.length) (cl : List Byte) (hcl : 16 ≤ cl.length) :
    ∃ w cl', encArfcns (filterArfcns ((n : Int) :: t) n).1.length (2 ^ e - 1) (filterArfcns ((n : Int) :: t) n).1
        (List.replicate 29 0) 0 = some (0, w) ∧
      (writeOrig id (n : Nat) cl).bind (fun cl => writeAllWn 2 ns.length w cl 0 1 e 0 1) = some cl' ∧ cl'.length = cl.length ∧
      cl'[0]? = some (id ||| BitVec.ofNat 8 (n / 512 % 2)) ∧
      ∃ marks, decodeOrig ns minLen cl' 16 = some (0, marks) ∧ ∀ i, i ∈ marks ↔ i ∈ (n : Int) :: t := by
  obtain ⟨hf1, hf2, hf3⟩ := filter_orig n t e hs hr hmax
  obtain ⟨cl1, ho, hol, ho0, hob⟩ := writeOrig_bits id hid0 n cl (by omega)
  obtain ⟨w, hw, cl', W, h1, h2, h3, h4, h5⟩ := encode_read (ns := ns) (e := e) (off := 2) (bo := 1) hok (by omega) _ hf2 hf3
    (by rw [List.length_map]; exact hlen) hns cl1 (by omega)
  refine ⟨w, cl', by rw [hf1]; exact hw, by rw [ho, Option.bind_some]; exact h1, by omega, ?_, ?_⟩
  · have hb := byte_of_bits cl' cl1 0 (by omega) (by omega) (fun i hi => h3 _ (by omega))
    rw [List.getElem?_eq_getElem (by omega), hb, ← List.getElem?_eq_getElem (by omega)]
    exact ho0
  · have hn : n < 1024 := by have := hr n (by simp); omega
    have hw0 : readField cl' 0 origPieces = some n := by
      apply readField_value cl' origPieces 7 10 n (piecesOk_mono (n := 16) (by decide) (by omega)) (by decide) _ (by omega)
      intro i hi
      rw [h3 _ (by omega)]
      exact hob i hi
    refine ⟨(n : Int) :: (nodeValues W ns).map (fun v => ((n : Int) + v).tmod 1024), ?_, ?_⟩
    · rw [decodeOrig, if_neg (by omega), hw0, Option.bind_some, h4, Option.map_some]
    · intro i
      rw [List.mem_cons, List.mem_cons]
      have hs' := (List.pairwise_cons.1 hs).1
      have key : i ∈ (nodeValues W ns).map (fun v => ((n : Int) + v).tmod 1024) ↔ i ∈ t := by
        constructor
        · intro hi
          rw [List.mem_map] at hi
          obtain ⟨v, hv, rfl⟩ := hi
          rw [h5, List.mem_map] at hv
          obtain ⟨a, ha, hav⟩ := hv
          have hra := hr a (List.mem_cons_of_mem _ ha)
          have : (n : Int) + v = a := by omega
          rw [this, Int.tmod_eq_emod_of_nonneg hra.1, Int.emod_eq_of_lt hra.1 hra.2]
          exact ha
        · intro hi
          have hra := hr i (List.mem_cons_of_mem _ hi)
          rw [List.mem_map]
          refine ⟨i - n, (h5 _).2 (List.mem_map.2 ⟨i, hi, by omega⟩), ?_⟩
          rw [show (n : Int) + (i - n) = i by omega, Int.tmod_eq_emod_of_nonneg hra.1, Int.emod_eq_of_lt hra.1 hra.2]
      rw [key]

theorem filter_zero (arfcns : List Int) (hs : arfcns.Pairwise (· < ·)) (hr : ∀ a ∈ arfcns, 0 ≤ a ∧ a < 1024) :
    (filterArfcns arfcns 0).1.Nodup ∧ (∀ x ∈ (filterArfcns arfcns 0).1, 0 ≤ x ∧ x < ((2 ^ 10 - 1 : Nat) : Int)) ∧
      (∀ v, v - 1 ∈ (filterArfcns arfcns 0).1 ↔ v ∈ arfcns ∧ v ≠ 0) := by
  have hmap : (filterArfcns arfcns 0).1 = (arfcns.filter (fun a => decide (a ≠ 0))).map (fun a => a - 1) := by
    simp only [filterArfcns]
    apply List.map_congr_left
    intro a ha
    rw [List.mem_filter] at ha
    have h1 := hr a ha.1
    have h2 := of_decide_eq_true ha.2
    rw [mod_eq _ _ (by omega), Int.emod_eq_of_lt (by omega) (by push_cast; omega)]
    omega
  rw [hmap]
  refine ⟨?_, ?_, ?_⟩
  · apply List.Nodup.map_on
    · intro x _ y _ h; omega
    · apply List.Nodup.filter
      exact hs.imp (fun h => by omega)
  · intro x hx
    rw [List.mem_map] at hx
    obtain ⟨a, ha, rfl⟩ := hx
    rw [List.mem_filter] at ha
    have h1 := hr a ha.1
    have h2 := of_decide_eq_true ha.2
    norm_num
    omega
  · intro v
    rw [List.mem_map]
    constructor
    · rintro ⟨a, ha, hav⟩
      rw [List.mem_filter] at ha
      have : a = v := by omega
      subst this
      exact ⟨ha.1, of_decide_eq_true ha.2⟩
    · rintro ⟨h1, h2⟩
      exact ⟨v, List.mem_filter.2 ⟨h1, decide_eq_true h2⟩, rfl⟩

/-- The format without an origin, for 16 frequencies besides ARFCN 0. -/
theorem range1024_roundtrip (arfcns : List Int) (hs : arfcns.Pairwise (· < ·)) (hr : ∀ a ∈ arfcns, 0 ≤ a ∧ a < 1024)
    (hlen : (filterArfcns arfcns 0).1.length ≤ 16) (cl : List Byte) (hcl : 16 ≤ cl.length) (mask : Byte)
    (hm : mask &&& 0x8e = 0x8e#8) :
    ∃ w cl', encArfcns (filterArfcns arfcns 0).1.length (2 ^ 10 - 1) (filterArfcns arfcns 0).1 (List.replicate 29 0) 0 = some (0, w) ∧
      enc1024 cl (filterArfcns arfcns 0).2 w = some cl' ∧ cl'.length = cl.length ∧
      ∃ marks, decodeMarks cl' 16 mask = some (0, marks) ∧ ∀ i, i ∈ marks ↔ i ∈ arfcns := by
  obtain ⟨hf1, hf2, hf3⟩ := filter_zero arfcns hs hr
  rcases cl with _ | ⟨x, cl⟩
  · simp at hcl
  obtain ⟨c, hc⟩ : ∃ c, c = (0x80#8 ||| (if (filterArfcns arfcns 0).2 then 4#8 else 0#8)) := ⟨_, rfl⟩
  obtain ⟨w, hw, cl', W, h1, h2, h3, h4, h5⟩ := encode_read (ns := nodes1024) (e := 10) (off := 0) (bo := 6) nodes1024_ok (by omega)
    _ hf1 hf2 hlen (by decide) (c :: cl) (by simpa using hcl)
  have hl : 16 ≤ cl'.length := by rw [h2]; simpa using hcl
  refine ⟨w, cl', hw, by simp only [enc1024, ← hc]; exact h1, by rw [h2]; simp, ?_⟩
  have hbit : ∀ i, i < 6 → (cl'[0]).getMsbD i = c.getMsbD i := by
    intro i hi
    have := h3 i (by omega)
    simp only [bitAt] at this
    rw [show i / 8 = 0 by omega, show i % 8 = i by omega] at this
    simpa [List.getD_eq_getElem?_getD, List.getElem?_eq_getElem (show 0 < cl'.length by omega)] using this
  have hlsb : ∀ i, i < 6 → (cl'[0]).getLsbD (7 - i) = c.getLsbD (7 - i) := by
    intro i hi
    have := hbit i hi
    simp only [BitVec.getMsbD] at this
    rw [decide_eq_true (by omega : i < 8), Bool.true_and, Bool.true_and] at this
    exact this
  have hc0 : cl'[0]? = some cl'[0] := List.getElem?_eq_getElem (by omega)
  generalize cl'[0] = c0 at *
  have hm7 : mask.getLsbD 7 = true := by
    have := congrArg (fun x => x.getLsbD 7) hm
    simp only [BitVec.getLsbD_and] at this
    revert this; cases mask.getLsbD 7 <;> decide
  have b7 : c0.getLsbD 7 = true := by rw [show 7 = 7 - 0 from rfl, hlsb 0 (by omega), hc]; split <;> decide
  have b6 : c0.getLsbD 6 = false := by rw [show 6 = 7 - 1 from rfl, hlsb 1 (by omega), hc]; split <;> decide
  have b3 : c0.getLsbD 3 = false := by rw [show 3 = 7 - 4 from rfl, hlsb 4 (by omega), hc]; split <;> decide
  have b2 : c0.getLsbD 2 = (filterArfcns arfcns 0).2 := by
    rw [show 2 = 7 - 5 from rfl, hlsb 5 (by omega), hc]
    cases (filterArfcns arfcns 0).2 <;> decide
  have t1 : c0 &&& 0xc0 &&& mask ≠ 0x00#8 := by
    intro hz
    have := congrArg (fun x => x.getLsbD 7) hz
    simp only [BitVec.getLsbD_and] at this
    rw [hm7, b7] at this
    revert this; decide
  have t2 : c0 &&& 0xc8 &&& mask = 0x80#8 := by
    apply BitVec.eq_of_getLsbD_eq
    intro i hi
    simp only [BitVec.getLsbD_and]
    rcases (by omega : i = 0 ∨ i = 1 ∨ i = 2 ∨ i = 3 ∨ i = 4 ∨ i = 5 ∨ i = 6 ∨ i = 7) with
      rfl | rfl | rfl | rfl | rfl | rfl | rfl | rfl
    · rw [show (200 : Byte).getLsbD 0 = false from rfl, Bool.and_false, Bool.false_and]; rfl
    · rw [show (200 : Byte).getLsbD 1 = false from rfl, Bool.and_false, Bool.false_and]; rfl
    · rw [show (200 : Byte).getLsbD 2 = false from rfl, Bool.and_false, Bool.false_and]; rfl
    · rw [b3, Bool.false_and, Bool.false_and]; rfl
    · rw [show (200 : Byte).getLsbD 4 = false from rfl, Bool.and_false, Bool.false_and]; rfl
    · rw [show (200 : Byte).getLsbD 5 = false from rfl, Bool.and_false, Bool.false_and]; rfl
    · rw [b6, Bool.false_and, Bool.false_and]; rfl
    · rw [b7, hm7]; rfl
  have hf0 : readField cl' 0 [(0, 2, 1)] = some (if (filterArfcns arfcns 0).2 then 1 else 0) := by
    simp only [readField, readPiece, hc0, Option.map_some, Option.bind_some]
    rw [← b2, BitVec.getLsbD]
    have : c0.toNat >>> 2 % 2 ^ 1 = if c0.toNat.testBit 2 then 1 else 0 := by
      rw [Nat.testBit_eq_decide_div_mod_eq, Nat.shiftRight_eq_div_pow]
      simp only [Nat.pow_one, decide_eq_true_eq]
      split <;> omega
    rw [this]
    split <;> rfl
  have hincl : (filterArfcns arfcns 0).2 = true ↔ (0 : Int) ∈ arfcns := by
    simp only [filterArfcns, List.any_eq_true, decide_eq_true_eq]
    constructor
    · rintro ⟨x, hx, rfl⟩; exact hx
    · intro h; exact ⟨0, h, rfl⟩
  refine ⟨(if (if (filterArfcns arfcns 0).2 then (1 : Nat) else 0) ≠ 0 then [0] else []) ++ nodeValues W nodes1024, ?_, ?_⟩
  · simp only [decodeMarks, hc0]
    rw [if_neg t1, if_pos t2, if_neg (by omega), hf0, Option.bind_some, h4, Option.map_some]
  · intro i
    rw [List.mem_append, h5, hf3]
    by_cases hz : (0 : Int) ∈ arfcns
    · rw [if_pos (hincl.2 hz)]
      simp only [ne_eq, Nat.one_ne_zero, not_false_eq_true, if_true, List.mem_singleton]
      constructor
      · rintro (rfl | h)
        · exact hz
        · exact h.1
      · intro h
        by_cases h0 : i = 0
        · exact Or.inl h0
        · exact Or.inr ⟨h, h0⟩
    · rw [if_neg (fun h => hz (hincl.1 h))]
      simp only [ne_eq, not_true_eq_false, if_false, List.not_mem_nil, false_or]
      constructor
      · exact fun h => h.1
      · intro h
        exact ⟨h, fun h0 => hz (h0 ▸ h)⟩

theorem getD_last {α : Type} (l : List α) (d : α) (h : l ≠ []) : l.getD (l.length - 1) d = l.getLast h := by
  rw [List.getD_eq_getElem?_getD, List.getElem?_eq_getElem (by have := List.length_pos_iff.2 h; omega), Option.getD_some,
    List.getLast_eq_getElem]

theorem le_last (l : List Int) (hs : l.Pairwise (· < ·)) (h : l ≠ []) : ∀ a ∈ l, a ≤ l.getLast h := by
  intro a ha
  obtain ⟨i, hi, rfl⟩ := List.getElem_of_mem ha
  rw [List.getLast_eq_getElem]
  rcases Nat.lt_or_ge i (l.length - 1) with hlt | hge
  · have := List.pairwise_iff_getElem.1 hs i (l.length - 1) hi (by omega) hlt
    omega
  · have : i = l.length - 1 := by omega
    subst this
    exact Int.le_refl _

theorem filter_len_zero (arfcns : List Int)
    (h : arfcns.length ≤ 16 ∨ (arfcns.length ≤ 17 ∧ (0 : Int) ∈ arfcns)) : (filterArfcns arfcns 0).1.length ≤ 16 := by
  simp only [filterArfcns, List.length_map]
  have h1 := List.length_filter_le (fun a => decide (a ≠ (0 : Int))) arfcns
  rcases h with h | ⟨h, h0⟩
  · omega
  · have : (arfcns.filter (fun a => decide (a ≠ (0 : Int)))).length < arfcns.length := by
      rw [List.length_filter_lt_length_iff_exists]
      exact ⟨0, h0, by simp⟩
    omega

/-- C46.  A list of frequencies in ascending order for which a range is found is
encoded into 16 octets from which `gsm48_decode_freq_list` gets exactly these
frequencies, for every previous content of message and array; except when
the list is of 17 frequencies that need the range 1024 and do not include
ARFCN 0. -/
theorem freqList_roundtrip_partial (arfcns : List Int) (hne : arfcns ≠ []) (hs : arfcns.Pairwise (· < ·))
    (hr : ∀ a ∈ arfcns, 0 ≤ a ∧ a < 1024) (hrange : (determineRange arfcns).1 ≠ -1)
    (hex : (determineRange arfcns).1 = 1023 → arfcns.length ≤ 16 ∨ (0 : Int) ∈ arfcns)
    (cl : List Byte) (hcl : 16 ≤ cl.length) (f : Nat → Byte) (mask frqt : Byte) (hm : mask &&& 0x8e = 0x8e#8) :
    ∃ cl', encodeFreqList arfcns cl = some cl' ∧ cl'.length = cl.length ∧
      ∃ f', decodeFreqList f cl' 16 mask frqt = some (0, f') ∧
        ∀ i, f' i = (f i &&& ~~~frqt) ||| (if (i : Int) ∈ arfcns then frqt else 0) := by
  rcases arfcns with _ | ⟨a, t⟩
  · exact absurd rfl hne
  obtain ⟨n, rfl⟩ : ∃ n : Nat, a = n := ⟨a.toNat, by have := hr a (by simp); omega⟩
  obtain ⟨mx, hmx⟩ : ∃ mx, mx = ((n : Int) :: t).getD (((n : Int) :: t).length - 1) 0 - n := ⟨_, rfl⟩
  have hle : ∀ b ∈ t, b - n ≤ mx := by
    intro b hb
    have := le_last _ hs hne b (List.mem_cons_of_mem _ hb)
    rw [hmx, getD_last _ _ hne]
    omega
  have hlc : ((n : Int) :: t).length = t.length + 1 := rfl
  have hdr : determineRange ((n : Int) :: t) =
      if mx < 128 ∧ t.length + 1 ≤ 29 then (127, some (n : Int))
      else if mx < 256 ∧ t.length + 1 ≤ 22 then (255, some (n : Int))
      else if mx < 512 ∧ t.length + 1 ≤ 18 then (511, some (n : Int))
      else if mx < 1024 ∧ t.length + 1 ≤ 17 then (1023, some 0)
      else (-1, some (n : Int)) := by
    simp only [determineRange]
    rw [if_neg (by simp), List.getD_cons_zero, ← hmx, hlc]
  clear hmx
  by_cases c1 : mx < 128 ∧ t.length + 1 ≤ 29
  · rw [if_pos c1] at hdr
    obtain ⟨w, cl', h1, h2, h3, h4, marks, h5, h6⟩ := orig_roundtrip (e := 7) (minLen := 3) nodes128_ok (by omega) (by decide)
      0x8c#8 (by decide) n t hs hr (fun b hb => by have := hle b hb; norm_num; omega) (by show t.length ≤ 28; omega) cl hcl
    refine ⟨cl', ?_, h3, ?_⟩
    · simp only [encodeFreqList, hdr]
      rw [show (127 : Int).toNat = 2 ^ 7 - 1 by decide, h1, Option.bind_some, if_pos trivial]
      exact h2
    · have hc := orig_c0 0x8c#8 (n / 512 % 2) (by omega) (by decide)
      obtain ⟨d1, d2, d3⟩ := dispatch_orig _ mask _ hc hm (by decide)
      refine decodeFreqList_of_marks f cl' 16 mask frqt marks _ ?_ h6 hr
      simp only [decodeMarks, h4]
      rw [if_neg d1, if_neg d2, d3, if_neg (by decide), if_neg (by decide), if_pos rfl]
      exact h5
  rw [if_neg c1] at hdr
  by_cases c2 : mx < 256 ∧ t.length + 1 ≤ 22
  · rw [if_pos c2] at hdr
    obtain ⟨w, cl', h1, h2, h3, h4, marks, h5, h6⟩ := orig_roundtrip (e := 8) (minLen := 4) nodes256_ok (by omega) (by decide)
      0x8a#8 (by decide) n t hs hr (fun b hb => by have := hle b hb; norm_num; omega) (by show t.length ≤ 21; omega) cl hcl
    refine ⟨cl', ?_, h3, ?_⟩
    · simp only [encodeFreqList, hdr]
      rw [show (255 : Int).toNat = 2 ^ 8 - 1 by decide, h1, Option.bind_some, if_neg (by decide), if_pos trivial]
      exact h2
    · have hc := orig_c0 0x8a#8 (n / 512 % 2) (by omega) (by decide)
      obtain ⟨d1, d2, d3⟩ := dispatch_orig _ mask _ hc hm (by decide)
      refine decodeFreqList_of_marks f cl' 16 mask frqt marks _ ?_ h6 hr
      simp only [decodeMarks, h4]
      rw [if_neg d1, if_neg d2, d3, if_neg (by decide), if_pos rfl]
      exact h5
  rw [if_neg c2] at hdr
  by_cases c3 : mx < 512 ∧ t.length + 1 ≤ 18
  · rw [if_pos c3] at hdr
    obtain ⟨w, cl', h1, h2, h3, h4, marks, h5, h6⟩ := orig_roundtrip (e := 9) (minLen := 4) nodes512_ok (by omega) (by decide)
      0x88#8 (by decide) n t hs hr (fun b hb => by have := hle b hb; norm_num; omega) (by show t.length ≤ 17; omega) cl hcl
    refine ⟨cl', ?_, h3, ?_⟩
    · simp only [encodeFreqList, hdr]
      rw [show (511 : Int).toNat = 2 ^ 9 - 1 by decide, h1, Option.bind_some, if_neg (by decide), if_neg (by decide), if_pos trivial]
      exact h2
    · have hc := orig_c0 0x88#8 (n / 512 % 2) (by omega) (by decide)
      obtain ⟨d1, d2, d3⟩ := dispatch_orig _ mask _ hc hm (by decide)
      refine decodeFreqList_of_marks f cl' 16 mask frqt marks _ ?_ h6 hr
      simp only [decodeMarks, h4]
      rw [if_neg d1, if_neg d2, d3, if_pos rfl]
      exact h5
  rw [if_neg c3] at hdr
  by_cases c4 : mx < 1024 ∧ t.length + 1 ≤ 17
  · rw [if_pos c4] at hdr
    have hl16 : (filterArfcns ((n : Int) :: t) 0).1.length ≤ 16 := by
      apply filter_len_zero
      rcases hex (by rw [hdr]) with h | h
      · exact Or.inl h
      · exact Or.inr ⟨c4.2, h⟩
    obtain ⟨w, cl', h1, h2, h3, marks, h5, h6⟩ := range1024_roundtrip _ hs hr hl16 cl hcl mask hm
    refine ⟨cl', ?_, h3, ?_⟩
    · simp only [encodeFreqList, hdr]
      rw [show (1023 : Int).toNat = 2 ^ 10 - 1 by decide, h1, Option.bind_some, if_neg (by decide), if_neg (by decide),
        if_neg (by decide), if_pos trivial]
      exact h2
    · exact decodeFreqList_of_marks f cl' 16 mask frqt marks _ h5 h6 hr
  · rw [if_neg c4] at hdr
    rw [hdr] at hrange
    exact absurd rfl hrange

/-- When a range is found: in terms of the number of frequencies and of the
distance of the last one to the first one. -/
theorem determineRange_found (a : Int) (t : List Int) :
    (determineRange (a :: t)).1 ≠ -1 ↔
      ((a :: t).getLast (by simp) - a < 128 ∧ t.length < 29) ∨ ((a :: t).getLast (by simp) - a < 256 ∧ t.length < 22) ∨
        ((a :: t).getLast (by simp) - a < 512 ∧ t.length < 18) ∨ ((a :: t).getLast (by simp) - a < 1024 ∧ t.length < 17) := by
  simp only [determineRange]
  rw [if_neg (by simp), List.getD_cons_zero, getD_last _ _ (by simp), List.length_cons]
  generalize (a :: t).getLast (by simp) - a = mx
  split
  · simp; omega
  · split
    · simp; omega
    · split
      · simp; omega
      · split
        · simp; omega
        · simp; omega

/-- Four frequencies across the whole band. -/
example : (encodeFreqList [0, 17, 600, 1023] (List.replicate 16 0)).bind (fun cl => decodeMarks cl 16 0xce) =
    some (0, [0, 1023, 600, 17]) := by decide +kernel

/-- The hypotheses of the theorem are met by these, and by 17 with ARFCN 0. -/
example : (determineRange [0, 17, 600, 1023]).1 = 1023 ∧ (determineRange [0, 61, 121, 181, 241, 301, 361, 421, 481, 541, 601,
    661, 721, 781, 841, 901, 961]).1 = 1023 ∧ (0xce#8 &&& 0x8e = 0x8e#8) := by decide

/-- 17 frequencies in the range 1024 without ARFCN 0. -/
def seventeen : List Int := [1, 61, 121, 181, 241, 301, 361, 421, 481, 541, 601, 661, 721, 781, 841, 901, 961]

/-- `osmo_gsm48_range_enc_determine_range` finds the range 1024 for 17 frequencies
without ARFCN 0, but only 16 of them get into the message: ARFCN 1 is lost
without an error. -/
theorem freqList_counterexample :
    (determineRange seventeen).1 = 1023 ∧ seventeen.Pairwise (· < ·) ∧ (∀ a ∈ seventeen, 0 ≤ a ∧ a < 1024) ∧
      ∃ cl marks, encodeFreqList seventeen (List.replicate 16 0) = some cl ∧ decodeMarks cl 16 0xce = some (0, marks) ∧
        ∃ a ∈ seventeen, a ∉ marks := by
  refine ⟨by decide, by decide, by decide, ?_⟩
  obtain ⟨cl, hcl⟩ : ∃ cl, encodeFreqList seventeen (List.replicate 16 0) = some cl :=
    Option.isSome_iff_exists.1 (by decide +kernel)
  have : ((encodeFreqList seventeen (List.replicate 16 0)).bind (fun cl => decodeMarks cl 16 0xce)).any
      (fun r => decide (r.1 = 0) && seventeen.any (fun a => decide (a ∉ r.2))) = true := by decide +kernel
  rw [hcl, Option.bind_some] at this
  obtain ⟨⟨rc, marks⟩, h1, h2⟩ := (Option.any_eq_true _ _).1 this
  simp only [Bool.and_eq_true, decide_eq_true_eq, List.any_eq_true] at h2
  obtain ⟨h2, a, ha, hna⟩ := h2
  exact ⟨cl, marks, hcl, by rw [h1, h2], a, ha, hna⟩

end Verif.ArfcnRange
