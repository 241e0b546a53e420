import Verif.Tch.Frames
/-!
The steps of the full rate channel as functions on bits.
-/
namespace Verif.Tch
open Verif.Conv Verif.ConvAcc Verif.Interleave Verif.Chan

theorem frCrc3_shifts : Crc.shiftsDefined frCrc3 := by decide
theorem efrCrc8_shifts : Crc.shiftsDefined efrCrc8 := by decide

theorem frOrder_ok : Order frOrder 260 := by decide +kernel
theorem efrOrder_ok : Order efrOrder 260 := by decide +kernel
theorem hrUnvoiced_ok : Order hrUnvoiced 112 := by decide +kernel
theorem hrVoiced_ok : Order hrVoiced 112 := by decide +kernel

theorem tchFr_channel : Channel tchFrCode 378 7 := plain_channel 185 378 (by decide) (by decide +kernel)

/-! ### Parity -/

theorem setP_spec (code : Crc.Code 8) (hs : Crc.shiftsDefined code) (bits : List Bool) (ofs n : Nat) (p : List Byte)
    (h : ofs + n ≤ bits.length) (hp : code.bits ≤ p.length) :
    setP code (bits.map ubit) ofs n p = some ((parityOf code ((bits.drop ofs).take n)).map ubit ++ p.drop code.bits) := by
  unfold setP
  simp only [Option.bind_eq_bind]
  rw [readAt_eq_some (by simpa using h), Option.bind_some, ← List.map_drop, ← List.map_take, setBits_parity code hs,
    Option.bind_some, write_zero _ _ (by rw [List.length_map, parityOf_length]; exact hp), List.length_map, parityOf_length]

theorem checkP_spec (code : Crc.Code 8) (hs : Crc.shiftsDefined code) (bits q : List Bool) (ofs n : Nat) (rest : List Byte)
    (h : ofs + n ≤ bits.length) (hq : q.length = code.bits) :
    checkP code (bits.map ubit) ofs n (q.map ubit ++ rest) = some (if q = parityOf code ((bits.drop ofs).take n) then 0 else 1) := by
  have hc := checkParity_spec code hs ((bits.drop ofs).take n) q [] hq
  unfold checkParity at hc
  simp only [Option.bind_eq_bind] at hc
  rw [List.append_nil] at hc
  have hl : ((bits.drop ofs).take n).length = n := by simp; omega
  rw [hl, read_zero _ _ (by simp; omega), Option.bind_some,
    readAt_eq_some (by simp [hq]; omega), Option.bind_some, List.map_append] at hc
  unfold checkP
  simp only [Option.bind_eq_bind]
  rw [readAt_eq_some (by simpa using h), Option.bind_some, read_zero _ _ (by simp [hq]),
    Option.bind_some, List.take_append_of_le_length (by simp [hq]), List.take_of_length_le (l := q.map ubit) (by simp [hq]), ← List.map_drop, ← List.map_take]
  have e1 : (((bits.drop ofs).take n).map ubit ++ q.map ubit).take n = ((bits.drop ofs).take n).map ubit := by
    rw [List.take_append_of_le_length (by simp; omega), List.take_of_length_le (by simp)]
  have e2 : ((((bits.drop ofs).take n).map ubit ++ q.map ubit).drop n).take code.bits = q.map ubit := by
    rw [List.drop_append_of_le_length (by simp; omega), List.drop_of_length_le (by simp), List.nil_append,
      List.take_of_length_le (by simp [hq])]
  rw [e1, e2] at hc
  exact hc

/-! ### Order before the convolutional code -/

/-- TS 05.03 3.1.2.1: `u(k) = d(2k)` and `u(184-k) = d(2k+1)` for `k = 0..90`, `u(91+k) = p(k)` for `k = 0..2` -/
def frU (d p : List Bool) : List Bool := (List.range 185).map fun k =>
  if k < 91 then d.getD (2 * k) false else if k < 94 then p.getD (k - 91) false else d.getD (2 * (184 - k) + 1) false

/-- `d(k)` from `u` -/
def unU (u : List Bool) : List Bool := (List.range 182).map fun k => if k % 2 = 0 then u.getD (k / 2) false else u.getD (184 - k / 2) false

theorem frU_length (d p : List Bool) : (frU d p).length = 185 := by simp [frU]
theorem unU_length (u : List Bool) : (unU u).length = 182 := by simp [unU]

theorem range_get (n : Nat) (f : Nat → Bool) (k : Nat) (h : k < n) : ((List.range n).map f).getD k false = f k := by
  simp [List.getD_eq_getElem?_getD, h]

theorem getD_append_left (a b : List Bool) (k : Nat) (h : k < a.length) : (a ++ b).getD k false = a.getD k false := by
  rw [List.getD_eq_getElem?_getD, List.getElem?_append_left h, ← List.getD_eq_getElem?_getD]

theorem getD_append_right (a b : List Bool) (k : Nat) (h : a.length ≤ k) : (a ++ b).getD k false = b.getD (k - a.length) false := by
  rw [List.getD_eq_getElem?_getD, List.getElem?_append_right h, ← List.getD_eq_getElem?_getD]

theorem getD_take (a : List Bool) (n k : Nat) (h : k < n) : (a.take n).getD k false = a.getD k false := by
  rw [List.getD_eq_getElem?_getD, List.getElem?_take_of_lt h, ← List.getD_eq_getElem?_getD]

theorem getD_drop (a : List Bool) (n k : Nat) : (a.drop n).getD k false = a.getD (n + k) false := by
  rw [List.getD_eq_getElem?_getD, List.getElem?_drop, ← List.getD_eq_getElem?_getD]

theorem unU_frU (d p : List Bool) (hd : 182 ≤ d.length) : unU (frU d p) = d.take 182 := by
  apply bits_ext (n := 182) (unU_length _) (by simp; omega)
  intro i hi
  unfold unU
  rw [range_get _ _ _ hi, getD_take _ _ _ hi]
  by_cases h : i % 2 = 0
  · rw [if_pos h]
    unfold frU
    rw [range_get _ _ _ (by omega), if_pos (by omega)]
    congr 1; omega
  · rw [if_neg h]
    unfold frU
    rw [range_get _ _ _ (by omega), if_neg (by omega), if_neg (by omega)]
    congr 1; omega

theorem p_frU (d p : List Bool) (hp : p.length = 3) : ((frU d p).drop 91).take 3 = p := by
  apply bits_ext (n := 3) (by simp [frU_length]) hp
  intro i hi
  rw [getD_take _ _ _ hi, getD_drop]
  unfold frU
  rw [range_get _ _ _ (by omega), if_neg (by omega), if_pos (by omega)]
  congr 1; omega

theorem frU_unU (u rest : List Bool) (hu : u.length = 185) : frU (unU u ++ rest) ((u.drop 91).take 3) = u := by
  apply bits_ext (n := 185) (frU_length _ _) hu
  intro k hk
  unfold frU
  rw [range_get _ _ _ hk]
  by_cases h : k < 91
  · rw [if_pos h, getD_append_left _ _ _ (by rw [unU_length]; omega)]
    unfold unU
    rw [range_get _ _ _ (by omega), if_pos (by omega)]
    congr 1; omega
  · rw [if_neg h]
    by_cases h' : k < 94
    · rw [if_pos h', getD_take _ _ _ (by omega), getD_drop]
      congr 1; omega
    · rw [if_neg h', getD_append_left _ _ _ (by rw [unU_length]; omega)]
      unfold unU
      rw [range_get _ _ _ (by omega), if_neg (by omega)]
      congr 1; omega

theorem frReorder_spec (u : List Byte) (d p : List Bool) (rest : List Byte) (hu : u.length = 185) (hd : d.length = 260) (hp : p.length = 3) :
    frReorder u (d.map ubit) (p.map ubit ++ rest) = some ((frU d p).map ubit) := by
  have hl : p.map ubit ++ rest = p.map ubit ++ rest := rfl
  unfold frReorder
  simp only [Option.bind_eq_bind]
  have hcut : copy (p.map ubit ++ rest) (loop 3 1 0 91) = copy (p.map ubit) (loop 3 1 0 91) := by
    funext dst
    have := copy_two (p.map ubit) rest (loop 3 1 0 91) [] dst (by
      unfold loop; simp only [List.mem_map, List.mem_range]; rintro _ ⟨i, hi, rfl⟩; simp [hp]; omega)
    rw [List.map_nil, List.append_nil] at this
    rw [← this]
    cases copy (p.map ubit) (loop 3 1 0 91) dst <;> rfl
  rw [hcut, copy_two (d.map ubit) (p.map ubit) _ (loop 3 1 0 91) u (by
      rw [List.length_map, hd]; decide +kernel), ← List.map_append, List.length_map, hd]
  rw [copy_bits 185 _ (fun k => if k < 91 then 2 * k else if k < 94 then 260 + (k - 91) else 2 * (184 - k) + 1) (d ++ p) u
    (by decide +kernel) (by rw [List.length_append, hd, hp]; decide +kernel) hu]
  congr 2
  unfold frU
  apply List.map_congr_left
  intro k hk
  rw [List.mem_range] at hk
  by_cases h : k < 91
  · rw [if_pos h, if_pos h, getD_append_left _ _ _ (by omega)]
  · rw [if_neg h, if_neg h]
    by_cases h' : k < 94
    · rw [if_pos h', if_pos h', getD_append_right _ _ _ (by omega)]
      congr 1; omega
    · rw [if_neg h', if_neg h', getD_append_left _ _ _ (by omega)]

theorem frUnreorder_spec (d p rest : List Byte) (u : List Bool) (hd : d.length = 260) (hp : p.length = 8) (hu : u.length = 185) :
    frUnreorder d p (u.map ubit ++ rest) = some ((unU u).map ubit ++ d.drop 182, ((u.drop 91).take 3).map ubit ++ p.drop 3) := by
  have hcut : ∀ ps : List (Nat × Nat), (∀ pq ∈ ps, pq.1 < 185) → ∀ dst, copy (u.map ubit ++ rest) ps dst = copy (u.map ubit) ps dst := by
    intro ps hps dst
    have := copy_two (u.map ubit) rest ps [] dst (by rw [List.length_map, hu]; exact hps)
    rw [List.map_nil, List.append_nil] at this
    rw [← this]
    cases copy (u.map ubit) ps dst <;> rfl
  unfold frUnreorder
  simp only [Option.bind_eq_bind]
  rw [hcut _ (by decide +kernel)]
  have hdl : (d.take 182).length = 182 := by rw [List.length_take]; omega
  have hpl : (p.take 3).length = 3 := by rw [List.length_take]; omega
  have h1 : copy (u.map ubit) ((List.range 91).flatMap fun i => [(i, i <<< 1), (184 - i, (i <<< 1) + 1)]) d =
      some ((unU u).map ubit ++ d.drop 182) := by
    conv_lhs => rw [← List.take_append_drop 182 d]
    rw [copy_left _ _ _ _ (by rw [hdl]; decide +kernel),
      copy_bits 182 _ (fun k => if k % 2 = 0 then k / 2 else 184 - k / 2) u (d.take 182) (by decide +kernel)
        (by rw [hu]; decide +kernel) hdl, Option.map_some]
    rw [show (List.range 182).map (fun k => u.getD (if k % 2 = 0 then k / 2 else 184 - k / 2) false) = unU u from by
      unfold unU; apply List.map_congr_left; intro k _; split <;> rfl]
  have h2 : copy (u.map ubit) (loop 3 1 91 0) p = some (((u.drop 91).take 3).map ubit ++ p.drop 3) := by
    conv_lhs => rw [← List.take_append_drop 3 p]
    rw [copy_left _ _ _ _ (by rw [hpl]; decide +kernel),
      copy_bits 3 _ (fun k => 91 + k) u (p.take 3) (by decide +kernel) (by rw [hu]; decide +kernel) hpl, Option.map_some]
    congr 3
    apply bits_ext (n := 3) (by simp) (by simp; omega)
    intro i hi
    rw [range_get _ _ _ hi, getD_take _ _ _ hi, getD_drop]
  rw [h1, Option.bind_some, hcut _ (by decide +kernel), h2]
  rfl

/-! ### The coded block -/

/-- the arrays of src/coding/gsm0503_coding.c:1945-1946 -/
structure EncF.Ok (s : EncF) : Prop where
  x : s.x.Ok 912
  conv : s.conv.length = 185
  w : s.w.length = 260
  b : s.b.length = 65
  sv : s.s.length = 244
  d : s.d.length = 260
  p : s.p.length = 8

/-- the arrays of src/coding/gsm0503_coding.c:1861-1862 -/
structure DecF.Ok (s : DecF) : Prop where
  x : s.x.Ok 912
  conv : s.conv.length = 185
  w : s.w.length = 260
  b : s.b.length = 65
  sv : s.s.length = 244
  d : s.d.length = 260
  p : s.p.length = 8

/-- the parity of the 50 most important bits -/
def frP (d : List Bool) : List Bool := parityOf frCrc3 (d.take 50)

theorem frP_length (d : List Bool) : (frP d).length = 3 := parityOf_length _ _

theorem frP_take (d : List Bool) (n : Nat) (h : 50 ≤ n) (rest : List Bool) (hd : n ≤ d.length) : frP (d.take n ++ rest) = frP d := by
  unfold frP
  rw [List.take_append_of_le_length (by simp; omega), List.take_take, Nat.min_eq_left h]

theorem write_tail (a m l : List Byte) (h : l.length = m.length) : writeAt (a ++ m) a.length l = some (a ++ l) := by
  rw [writeAt_eq_some (by simp [h]), List.take_append_of_le_length (by omega), List.take_of_length_le (by omega),
    List.drop_of_length_le (by simp [h]), List.append_nil]

theorem frCode_spec (s : EncF) (hs : s.Ok) (d : List Bool) (hd : d.length = 260) (p : List Byte) (hp : p.length = 8) :
    ∃ sent, encode tchFrCode (frU d (frP d)) = some sent ∧ sent.length = 378 ∧
      frCode s (d.map ubit) p = some ((sent ++ d.drop 182).map ubit) := by
  obtain ⟨sent, he, hl⟩ := tchFr_channel.enc (frU d (frP d)) (frU_length _ _)
  refine ⟨sent, he, hl, ?_⟩
  unfold frCode
  simp only [Option.bind_eq_bind]
  have h1 := setP_spec frCrc3 frCrc3_shifts d 0 50 p (by omega) (by rw [hp]; decide)
  rw [List.drop_zero] at h1
  have h1' : setP frCrc3 (d.map ubit) 0 50 p = some ((frP d).map ubit ++ p.drop frCrc3.bits) := h1
  rw [h1', Option.bind_some, frReorder_spec _ _ _ _ hs.conv hd (frP_length d), Option.bind_some]
  have hr := readAt_eq_some (mem := d.map ubit) (o := 182) (n := 78) (by simp [hd])
  have hw := writeAt_eq_some (mem := s.x.cB) (bs := (d.drop 182).map ubit) (o := 378) (by simp [hd, hs.x.cB])
  rw [← List.map_drop, List.take_of_length_le (by simp [hd])] at hr
  have hr' : readAt (d.map ubit) 182 78 = some ((d.drop 182).map ubit) := hr
  have hw' : writeAt s.x.cB 378 ((d.drop 182).map ubit) = some (s.x.cB.take 378 ++ (d.drop 182).map ubit) := by
    have e : writeAt s.x.cB 378 ((d.drop 182).map ubit) = _ := hw
    rw [e, List.drop_of_length_le (l := s.x.cB) (by simp [hd, hs.x.cB]), List.append_nil]
  rw [hr', Option.bind_some, hw', Option.bind_some]
  have hc := convEncode_spec tchFrCode (frU d (frP d)) sent [] (s.x.cB.take 378 ++ (d.drop 182).map ubit) (frU_length _ _) he
    (by simp [hs.x.cB, hd, hl])
  rw [List.append_nil] at hc
  have htl : (s.x.cB.take 378).length = 378 := by rw [List.length_take, hs.x.cB]; decide
  rw [hc, Option.bind_some, hl, List.drop_append_of_le_length (by omega), List.drop_of_length_le (by omega),
    List.nil_append, List.map_append]

/-- what is decided for soft bits that are not coded -/
def hardBits (l : List Int) : List Bool := l.map fun x => decide (x < 0)

/-- `d` as received -/
def frReceived (u : List Bool) (c : List Int) : List Bool := unU u ++ hardBits c

theorem frReceived_length (u : List Bool) (c : List Int) (hc : c.length = 78) : (frReceived u c).length = 260 := by
  simp [frReceived, unU_length, hardBits, hc]

theorem frDecodeD_of (s : DecF) (hs : s.Ok) (a c : List Int) (ha : a.length = 378) (hc : c.length = 78) (u : List Bool) (hu : u.length = 185)
    (e t : Nat) (hd : decodeBer tchFrCode (a ++ c) s.conv s.x.recoded = some (u.map ubit ++ s.conv.drop 185, e, t)) :
    frDecodeD s (a ++ c) = some (if (u.drop 91).take 3 = frP (unU u) then 0 else 1, (frReceived u c).map ubit,
      ((u.drop 91).take 3).map ubit ++ s.p.drop 3, e, t) := by
  unfold frDecodeD
  simp only [Option.bind_eq_bind]
  rw [hd, Option.bind_some, frUnreorder_spec _ _ _ _ hs.d hs.p hu, Option.bind_some]
  have hh : (List.range 78).mapM (fun i => ((a ++ c)[i + 378]?).map fun x => if x < 0 then 1#8 else 0#8) = some ((hardBits c).map ubit) := by
    rw [mapM_some (g := fun i => ubit (decide (c.getD i 0 < 0)))]
    · congr 1
      apply List.ext_getElem
      · simp [hardBits, hc]
      · intro i g1 g2
        simp only [List.length_map, List.length_range] at g1
        simp only [hardBits, List.getElem_map, List.getElem_range]
        rw [List.getD_eq_getElem?_getD, List.getElem?_eq_getElem (by omega), Option.getD_some]
    · intro i hi
      rw [List.mem_range] at hi
      rw [List.getElem?_append_right (by omega), show i + 378 - a.length = i by omega, List.getElem?_eq_getElem (by omega), Option.map_some,
        List.getD_eq_getElem?_getD, List.getElem?_eq_getElem (by omega), Option.getD_some]
      by_cases h : c[i] < 0 <;> simp [ubit, h]
  rw [hh, Option.bind_some]
  have hw := write_tail ((unU u).map ubit) (s.d.drop 182) ((hardBits c).map ubit) (by simp [hardBits, hc, hs.d])
  rw [List.length_map, unU_length] at hw
  have hw' : writeAt ((unU u).map ubit ++ s.d.drop 182) 182 ((hardBits c).map ubit) = some ((frReceived u c).map ubit) := by
    have e : writeAt ((unU u).map ubit ++ s.d.drop 182) 182 ((hardBits c).map ubit) = _ := hw
    rw [e, frReceived, List.map_append]
  dsimp only
  rw [hw', Option.bind_some]
  have hp := checkP_spec frCrc3 frCrc3_shifts (frReceived u c) ((u.drop 91).take 3) 0 50 (s.p.drop 3)
    (by rw [frReceived_length _ _ hc]; omega) (by simp [hu]; rfl)
  have hp' : checkP frCrc3 ((frReceived u c).map ubit) 0 50 (((u.drop 91).take 3).map ubit ++ s.p.drop 3) = _ := hp
  rw [hp', Option.bind_some, List.drop_zero]
  have : parityOf frCrc3 ((frReceived u c).take 50) = frP (unU u) := by
    unfold frP frReceived
    rw [List.take_append_of_le_length (by rw [unU_length]; omega)]
  rw [this]

/-- few errors in the coded bits: they come back; the others are as received -/
theorem frDecodeD_corrects (s : DecF) (hs : s.Ok) (a c : List Int) (ha : a.length = 378) (hc : c.length = 78) (hr : Within 127 a)
    (u sent : List Bool) (hu : u.length = 185) (he : encode tchFrCode u = some sent) {m : Int} (hm : 0 ≤ m) (hm' : m ≤ 127)
    (hmin : ∀ v ∈ a, m ≤ v ∨ v ≤ -m) (hag : 2 * against sent a < 7 * m) :
    frDecodeD s (a ++ c) = some (if (u.drop 91).take 3 = frP (unU u) then 0 else 1, (frReceived u c).map ubit,
      ((u.drop 91).take 3).map ubit ++ s.p.drop 3, errorsIn sent a, 378) := by
  obtain ⟨-, hd⟩ := decodeBer_corrects tchFr_channel u sent a c s.conv s.x.recoded hu he ha hr hm hmin
    (by push_cast; omega) (by show _ < 127 * ((2 : Nat) : Int) * ((5 : Nat) : Int); omega) (by rw [hs.conv]; decide)
    (by rw [hs.x.recoded]; decide)
  exact frDecodeD_of s hs a c ha hc u hu _ _ hd

/-- whatever is received -/
theorem frDecodeD_total (s : DecF) (hs : s.Ok) (a c : List Int) (ha : a.length = 378) (hc : c.length = 78) (hr : Within 127 (a ++ c)) :
    ∃ u sent : List Bool, u.length = 185 ∧ encode tchFrCode u = some sent ∧
      frDecodeD s (a ++ c) = some (if (u.drop 91).take 3 = frP (unU u) then 0 else 1, (frReceived u c).map ubit,
        ((u.drop 91).take 3).map ubit ++ s.p.drop 3, errorsIn sent a, 378) := by
  obtain ⟨u, sent, hu, he, hl, -, hd⟩ := decodeBer_total tchFr_channel (a ++ c) s.conv s.x.recoded (by simp [ha]) hr
    (by rw [hs.conv]; decide) (by rw [hs.x.recoded]; decide)
  rw [errorsIn_append _ _ _ (by omega)] at hd
  exact ⟨u, sent, hu, he, frDecodeD_of s hs a c ha hc u hu _ _ hd⟩

end Verif.Tch
