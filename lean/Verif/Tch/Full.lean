import Verif.Tch.Code
/-!
C107: TCH/FS, and what it has in common with TCH/EFS.
-/
namespace Verif.Tch
open Verif.Conv Verif.ConvAcc Verif.Interleave Verif.Chan

/-! ### The order of the bits of a codec -/

/-- TS 06.10: the parameters of a frame are eight coefficients and four times the parameters of a subframe, so many bits each -/
def frWidths : List Nat := [6, 6, 5, 5, 4, 4, 3, 3] ++ (List.replicate 4 ([7, 2, 2, 6] ++ List.replicate 13 3)).flatten

theorem frMap_eq : frMap = frWidths := by decide

/-- every field in the other direction: the numbers of the bits of fields of some widths, the last bit of a field first -/
def fields : Nat → List Nat → List Nat
  | _, [] => []
  | o, w :: ws => (List.range w).reverse.map (o + ·) ++ fields (o + w) ws

/-- the number, in the frame on the network, of bit `i` of the order of the codec -/
def frNative : List Nat := fields 0 frWidths

theorem frNative_ok : Order frNative 260 := by decide +kernel

theorem down_range (k o : Nat) : (List.range (k + 2)).reverse.map (o + ·) = (k + 1 + o) :: (List.range (k + 1)).reverse.map (o + ·) := by
  rw [List.range_succ, List.reverse_append, List.map_append]
  simp [Nat.add_comm]

theorem frWalk_field (map : List Nat) (l o w w' n : Nat) (h : map[l]? = some w) (h' : map[l + 1]? = some w') : ∀ k : Nat,
    frWalk map (n + (k + 1)) (k : Int) l o =
      (frWalk map n ((w' : Int) - 1) (l + 1) (o + w)).map ((List.range (k + 1)).reverse.map (o + ·) ++ ·)
  | 0 => by
    rw [Nat.zero_add, frWalk, if_neg (by omega), if_pos (by omega), h, Option.bind_some, h', Option.bind_some]
    cases frWalk map n ((w' : Int) - 1) (l + 1) (o + w) <;> simp
  | k + 1 => by
    have ih := frWalk_field map l o w w' n h h' k
    rw [← Nat.add_assoc n, frWalk, if_neg (by omega), if_neg (by omega), show ((k + 1 : Nat) : Int) - 1 = (k : Int) by omega, ih, down_range]
    have : ((k : Int) + 1 + (o : Int)).toNat = k + 1 + o := by omega
    cases frWalk map n ((w' : Int) - 1) (l + 1) (o + w) <;> simp [this]

theorem frWalk_fields (x : Nat) (rest : List Nat) : ∀ (ws pre : List Nat) (o w : Nat), (∀ v ∈ w :: ws, 0 < v) →
    frWalk (pre ++ w :: ws ++ x :: rest) (w :: ws).sum ((w : Int) - 1) pre.length o = some (fields o (w :: ws))
  | [], pre, o, w, h => by
    have hw := h w (by simp)
    obtain ⟨k, rfl⟩ : ∃ k, w = k + 1 := ⟨w - 1, by omega⟩
    have := frWalk_field (pre ++ [k + 1] ++ x :: rest) pre.length o (k + 1) x 0 (by simp) (by simp) k
    simp only [List.sum_cons, List.sum_nil, Nat.add_zero]
    rw [Nat.zero_add] at this
    rw [show ((k + 1 : Nat) : Int) - 1 = (k : Int) by omega, this]
    simp [frWalk, fields]
  | v :: ws, pre, o, w, h => by
    have hw := h w (by simp)
    obtain ⟨k, rfl⟩ : ∃ k, w = k + 1 := ⟨w - 1, by omega⟩
    have := frWalk_field (pre ++ (k + 1) :: v :: ws ++ x :: rest) pre.length o (k + 1) v (v :: ws).sum (by simp)
      (by rw [List.append_assoc, List.getElem?_append_right (by omega)]; simp) k
    have ih := frWalk_fields x rest ws (pre ++ [k + 1]) (o + (k + 1)) v (fun u hu => h u (by simp at hu ⊢; tauto))
    simp only [List.append_assoc, List.length_append, List.length_singleton, List.cons_append, List.nil_append] at ih this
    rw [List.sum_cons, Nat.add_comm (k + 1), show ((k + 1 : Nat) : Int) - 1 = (k : Int) by omega]
    simp only [List.append_assoc, List.cons_append]
    rw [this, ih]
    simp [fields]

theorem frIndices_fields (w : Nat) (ws : List Nat) (x : Nat) (rest : List Nat) (hs : (w :: ws).sum = 260) (h : ∀ v ∈ w :: ws, 0 < v) :
    frIndices (w :: ws ++ x :: rest) = some (fields 0 (w :: ws)) := by
  have := frWalk_fields x rest ws [] 0 w h
  rw [hs] at this
  exact this

/-- what is read behind the table does not matter -/
theorem frIndices_behind (x : Nat) (rest : List Nat) : frIndices (frMap ++ x :: rest) = some frNative := by
  unfold frNative
  rw [frMap_eq]
  have h1 : frWidths = 6 :: frWidths.tail := by decide
  have h2 : (6 :: frWidths.tail).sum = 260 := by decide
  have h3 : ∀ v ∈ 6 :: frWidths.tail, 0 < v := by decide
  rw [h1]
  generalize frWidths.tail = t at h2 h3 ⊢
  exact frIndices_fields 6 t x rest h2 h3

/-- but it is read -/
theorem frIndices_exact : frIndices frMap = none := by decide +kernel

/-- the table is not used, or there is something behind it -/
def Readable (net : Bool) (map : List Nat) : Prop := net = true ∨ ∃ x rest, map = frMap ++ x :: rest

/-- the number of bit `i` of a frame among the 260, on the network or in the order of the codec -/
def frBit (net : Bool) (i : Nat) : Nat := if net then i else frNative.getD i 0

/-- the rank of bit `i` of a frame, from the most to the least important -/
def frRank (net : Bool) (i : Nat) : Nat := frOrder.idxOf (frBit net i)

/-- the bits of a frame, most important first -/
def frD (net : Bool) (bits : List Bool) : List Bool := ordered frOrder (if net then bits else placed frNative bits)

/-- and back -/
def frUnD (net : Bool) (d : List Bool) : List Bool := if net then placed frOrder d else ordered frNative (placed frOrder d)

theorem frD_length (net : Bool) (bits : List Bool) : (frD net bits).length = 260 := by
  unfold frD; rw [ordered_length]; exact frOrder_ok.1

theorem frUnD_length (net : Bool) (d : List Bool) : (frUnD net d).length = 260 := by
  unfold frUnD
  split
  · rw [placed_length]; exact frOrder_ok.1
  · rw [ordered_length]; exact frNative_ok.1

theorem frUnD_frD (net : Bool) (bits : List Bool) (h : bits.length = 260) : frUnD net (frD net bits) = bits := by
  unfold frUnD frD
  cases net
  · simp only [Bool.false_eq_true, if_false]
    rw [placed_ordered frOrder_ok _ (by rw [placed_length]; exact frNative_ok.1), ordered_placed frNative_ok _ h]
  · simp only [if_true]
    rw [placed_ordered frOrder_ok _ h]

theorem frD_frUnD (net : Bool) (d : List Bool) (h : d.length = 260) : frD net (frUnD net d) = d := by
  unfold frUnD frD
  cases net
  · simp only [Bool.false_eq_true, if_false]
    rw [placed_ordered frNative_ok _ (by rw [placed_length]; exact frOrder_ok.1), ordered_placed frOrder_ok _ h]
  · simp only [if_true]
    rw [ordered_placed frOrder_ok _ h]

theorem Order.lt {tab : List Nat} {n : Nat} (h : Order tab n) (i : Nat) (hi : i < n) : tab.getD i 0 < n := by
  rw [List.getD_eq_getElem?_getD, List.getElem?_eq_getElem (by rw [h.1]; exact hi), Option.getD_some]
  exact ((mask_full h.2).2 _).1 (List.getElem_mem _)

theorem Order.idx {tab : List Nat} {n : Nat} (h : Order tab n) (i : Nat) (hi : i < n) : tab.idxOf i < n := by
  rw [← h.1]
  exact List.idxOf_lt_length_of_mem (((mask_full h.2).2 _).2 hi)

theorem frBit_lt (net : Bool) (i : Nat) (h : i < 260) : frBit net i < 260 := by
  unfold frBit
  split
  · exact h
  · exact frNative_ok.lt i h

theorem frRank_lt (net : Bool) (i : Nat) (h : i < 260) : frRank net i < 260 := frOrder_ok.idx _ (frBit_lt net i h)

theorem placed_at {tab : List Nat} {n : Nat} (h : Order tab n) (d : List Bool) (k : Nat) (hk : k < n) :
    (placed tab d).getD k false = d.getD (tab.idxOf k) false := by
  unfold placed
  rw [range_get _ _ _ (by rw [h.1]; exact hk)]

theorem frUnD_get (net : Bool) (d : List Bool) (i : Nat) (h : i < 260) : (frUnD net d).getD i false = d.getD (frRank net i) false := by
  have hb := frBit_lt net i h
  unfold frUnD frRank
  cases net
  · simp only [Bool.false_eq_true, if_false]
    rw [ordered_get _ _ _ (by rw [frNative_ok.1]; exact h)]
    exact placed_at frOrder_ok d _ hb
  · simp only [if_true]
    exact placed_at frOrder_ok d _ hb

/-! ### Frames -/

theorem frToD_spec (map : List Nat) (s : EncF) (hs : s.Ok) (tch : List Byte) (net : Bool) (hm : Readable net map) (ht : 33 ≤ tch.length) :
    frToD map s tch net = some ((frD net (msbBits 4 260 tch)).map ubit) := by
  unfold frToD frDisassemble frBtoD frD
  cases net
  · obtain ⟨x, rest, rfl⟩ : ∃ x rest, map = frMap ++ x :: rest := by
      rcases hm with h | h
      · cases h
      · exact h
    simp only [Bool.false_eq_true, if_false, Option.bind_eq_bind]
    rw [unpackMsb_spec _ _ _ _ (by omega) (by rw [List.length_replicate]), Option.bind_some, frIndices_behind, Option.bind_some,
      List.drop_of_length_le (by rw [List.length_replicate]), List.append_nil,
      copy_placed frNative_ok _ (msbBits_length _ _ _) _ hs.w, Option.bind_some,
      copy_ordered frOrder_ok _ (by rw [placed_length]; exact frNative_ok.1) _ hs.d]
  · simp only [if_true, Option.bind_eq_bind]
    rw [unpackMsb_spec _ _ _ _ (by omega) (by rw [hs.w]), Option.bind_some,
      List.drop_of_length_le (by rw [hs.w]), List.append_nil, copy_ordered frOrder_ok _ (msbBits_length _ _ _) _ hs.d]

theorem frFromD_spec (map : List Nat) (s : DecF) (hs : s.Ok) (tch : List Byte) (net : Bool) (hm : Readable net map) (ht : 33 ≤ tch.length)
    (d : List Bool) (hd : d.length = 260) :
    ∃ f, Frame 0xd0#8 4 260 (frUnD net d) f ∧ frFromD map s tch (d.map ubit) net = some (33, f ++ tch.drop 33) := by
  obtain ⟨f, h1, h2⟩ := write_frame 0xd0#8 32 4 260 tch [] (frUnD net d) ht rfl (by omega) (frUnD_length _ _) (by decide)
  refine ⟨f, h1, ?_⟩
  rw [List.append_nil] at h2
  unfold frFromD frDtoB frReassemble
  simp only [Option.bind_eq_bind]
  rw [copy_placed frOrder_ok _ hd _ hs.w, Option.bind_some]
  cases net
  · obtain ⟨x, rest, rfl⟩ : ∃ x rest, map = frMap ++ x :: rest := by
      rcases hm with h | h
      · cases h
      · exact h
    simp only [Bool.false_eq_true, if_false]
    rw [frIndices_behind]
    simp only [Option.bind_some]
    rw [copy_ordered frNative_ok _ (by rw [placed_length]; exact frOrder_ok.1) _ List.length_replicate]
    simp only [Option.bind_some]
    rw [show ordered frNative (placed frOrder d) = frUnD false d from rfl, h2]
    rfl
  · simp only [if_true]
    rw [show placed frOrder d = frUnD true d from rfl, h2]
    rfl

/-! ### The channel -/

/-- the places of the coded bits of class 1 -/
def tchFClass1 : List Nat := (List.range 378).map tchFPos

/-- the place of the bit of rank `j` of class 2 (182 and more), which is not coded -/
def tchFPlain (j : Nat) : Nat := tchFPos (196 + j)

/-- `d` is sent in `b` -/
def FrSent (d : List Bool) (b : List Byte) : Prop :=
  ∃ sent, encode tchFrCode (frU d (frP d)) = some sent ∧ pick 0#8 tchFClass1 b = sent.map ubit ∧
    ∀ j, 182 ≤ j → j < 260 → b.getD (tchFPlain j) 0#8 = ubit (d.getD j false)

theorem split_places : (List.range 456).map tchFPos = tchFClass1 ++ (List.range 78).map fun i => tchFPlain (182 + i) := by
  unfold tchFClass1 tchFPlain
  rw [show 456 = 378 + 78 from rfl, List.range_add, List.map_append, List.map_map]
  refine congrArg₂ (· ++ ·) rfl (List.map_congr_left fun i _ => ?_)
  show tchFPos (378 + i) = tchFPos (196 + (182 + i))
  rw [← Nat.add_assoc]

theorem pick_split {α : Type} (z : α) (l : List α) :
    pick z ((List.range 456).map tchFPos) l = pick z tchFClass1 l ++ (List.range 78).map fun i => l.getD (tchFPlain (182 + i)) z := by
  rw [split_places]
  unfold pick
  rw [List.map_append, List.map_map]
  rfl

/-- what is known of the bursts after any block -/
structure Sent (flag : Byte) (bursts b : List Byte) : Prop where
  len : b.length = bursts.length
  bits : ∀ p ∈ tchFData, b.getD p 0#8 = 0#8 ∨ b.getD p 0#8 = 1#8
  flags : ∀ p ∈ tchFFlags, b[p]? = some flag
  rest : ∀ p, p ∉ tchFData → p ∉ tchFFlags → b[p]? = bursts[p]?

theorem send_bits (flag : Byte) (iB bursts : List Byte) (bits : List Bool) (h1 : iB.length = 912) (h2 : bits.length = 456)
    (h3 : 928 ≤ bursts.length) :
    ∃ b, tchFrSend 0 flag iB (bits.map ubit) bursts = some b ∧ Sent flag bursts b ∧ pick 0#8 ((List.range 456).map tchFPos) b = bits.map ubit := by
  obtain ⟨b, b1, b2, b3, b4, b5⟩ := tchFrSend_pick flag iB (bits.map ubit) bursts h1 (by simpa using h2) h3
  exact ⟨b, b1, ⟨b2, bits_at tchF_perm b3, b4, b5⟩, b3⟩

theorem frCode_send (s : EncF) (hs : s.Ok) (d : List Bool) (hd : d.length = 260) (p : List Byte) (hp : p.length = 8) (bursts : List Byte)
    (h3 : 928 ≤ bursts.length) :
    ∃ b, ((frCode s (d.map ubit) p).bind fun cB => (tchFrSend 0 0#8 s.x.iB cB bursts).map fun b => ((0 : Int), b)) = some (0, b) ∧
      Sent 0#8 bursts b ∧ FrSent d b := by
  obtain ⟨sent, e1, e2, e3⟩ := frCode_spec s hs d hd p hp
  obtain ⟨b, b1, b2, b3⟩ := send_bits 0#8 s.x.iB bursts (sent ++ d.drop 182) hs.x.iB (by simp [e2, hd]) h3
  refine ⟨b, ?_, b2, sent, e1, ?_, ?_⟩
  · rw [e3, Option.bind_some, b1]; rfl
  · rw [pick_split, List.map_append] at b3
    exact (List.append_inj b3 (by simp [pick, tchFClass1, e2])).1
  · rw [pick_split, List.map_append] at b3
    have h := (List.append_inj b3 (by simp [pick, tchFClass1, e2])).2
    intro j h1 h2
    have := congrArg (fun l => l.getD (j - 182) 0#8) h
    simp only [getD_map_ubit, getD_drop] at this
    rw [show 182 + (j - 182) = j by omega] at this
    rw [← this, List.getD_eq_getElem?_getD (l := List.map _ _), List.getElem?_map, List.getElem?_range (by omega), Option.map_some, Option.getD_some,
      show 182 + (j - 182) = j by omega]

/-- a soft bit as a bit -/
def hard (r : List Int) (p : Nat) : Bool := decide (r.getD p 0 < 0)

/-- the bits in the order of importance as received: of class 2 what the soft bits say -/
def frGot (d : List Bool) (r : List Int) : List Bool := (List.range 260).map fun j => if j < 182 then d.getD j false else hard r (tchFPlain j)

theorem frGot_length (d : List Bool) (r : List Int) : (frGot d r).length = 260 := by simp [frGot]

theorem frGot_get (d : List Bool) (r : List Int) (j : Nat) (h : j < 260) :
    (frGot d r).getD j false = if j < 182 then d.getD j false else hard r (tchFPlain j) := range_get _ _ _ h

theorem frReceived_got (u d : List Bool) (r : List Int) (h : unU u = d.take 182) :
    frReceived u ((List.range 78).map fun i => r.getD (tchFPlain (182 + i)) 0) = frGot d r := by
  apply bits_ext (n := 260) (frReceived_length _ _ (by simp)) (frGot_length _ _)
  intro j hj
  rw [frGot_get _ _ _ hj]
  unfold frReceived hardBits
  by_cases h' : j < 182
  · rw [getD_append_left _ _ _ (by rw [unU_length]; exact h'), h, getD_take _ _ _ h', if_pos h']
  · rw [getD_append_right _ _ _ (by rw [unU_length]; omega), unU_length, if_neg h', List.map_map, range_get _ _ _ (by omega)]
    show decide (r.getD (tchFPlain (182 + (j - 182))) 0 < 0) = _
    rw [show 182 + (j - 182) = j by omega]
    rfl

theorem frP_got (d : List Bool) (r : List Int) (hd : d.length = 260) : frP (frGot d r) = frP d := by
  unfold frP
  congr 1
  apply bits_ext (n := 50) (by simp [frGot_length]) (by simp [hd])
  intro i hi
  rw [getD_take _ _ _ hi, getD_take _ _ _ hi, frGot_get _ _ _ (by omega), if_pos (by omega)]

theorem frU_congr (d d' p : List Bool) (h : ∀ j < 182, d.getD j false = d'.getD j false) : frU d p = frU d' p := by
  unfold frU
  apply List.map_congr_left
  intro k hk
  rw [List.mem_range] at hk
  by_cases h1 : k < 91
  · rw [if_pos h1, if_pos h1, h _ (by omega)]
  · rw [if_neg h1, if_neg h1]
    by_cases h2 : k < 94
    · rw [if_pos h2, if_pos h2]
    · rw [if_neg h2, if_neg h2, h _ (by omega)]

/-- few errors in class 1: `d` comes back, of class 2 as received -/
theorem frDecodeD_soft (s : DecF) (hs : s.Ok) (d : List Bool) (hd : d.length = 260) (b : List Byte) (hb : FrSent d b) (r : List Int)
    {m : Int} (hm : 0 ≤ m) (hm' : m ≤ 127) (hsoft : SoftAt tchFClass1 m r) (hc : 2 * contra tchFClass1 b r < 7 * m) :
    frDecodeD s (pick 0 ((List.range 456).map tchFPos) r) =
      some (0, (frGot d r).map ubit, (frP d).map ubit ++ s.p.drop 3, wrong tchFClass1 b r, 378) := by
  obtain ⟨sent, e1, e2, -⟩ := hb
  obtain ⟨w1, w2⟩ := soft_pick (List.Perm.refl _) hsoft
  rw [pick_split, frDecodeD_corrects s hs _ _ (by simp [pick, tchFClass1]) (by simp) w1 (frU d (frP d)) sent (frU_length _ _) e1 hm hm' w2
    (by rw [against_pick b r _ sent e2]; exact hc), errorsIn_pick b r _ sent e2, p_frU _ _ (frP_length _), unU_frU _ _ (by omega),
    frReceived_got _ d r (unU_frU _ _ (by omega))]
  have : frP (d.take 182) = frP d := by
    unfold frP; rw [List.take_take]; rfl
  rw [this, if_pos rfl]

/-- whatever is received -/
theorem frDecodeD_any (s : DecF) (hs : s.Ok) (r : List Int) (hr : ∀ p ∈ tchFData, -127 ≤ r.getD p 0 ∧ r.getD p 0 ≤ 127) :
    (∃ d p e, frDecodeD s (pick 0 ((List.range 456).map tchFPos) r) = some (1, d, p, e, 378)) ∨
    (∃ (d : List Bool) (e : Nat), d.length = 260 ∧ (∀ j, 182 ≤ j → j < 260 → d.getD j false = hard r (tchFPlain j)) ∧
      frDecodeD s (pick 0 ((List.range 456).map tchFPos) r) = some (0, d.map ubit, (frP d).map ubit ++ s.p.drop 3, e, 378) ∧
      ∀ (d' : List Bool) (b : List Byte), d'.length = 260 → (∀ j < 182, d'.getD j false = d.getD j false) → FrSent d' b →
        e = wrong tchFClass1 b r) := by
  have w1 : Within 127 (pick 0 ((List.range 456).map tchFPos) r) := by
    intro v hv
    obtain ⟨p, hp', rfl⟩ := List.mem_map.1 hv
    exact hr p (tchF_perm.mem_iff.1 hp')
  rw [pick_split] at w1 ⊢
  obtain ⟨u, sent, hu, he, hd⟩ := frDecodeD_total s hs (pick 0 tchFClass1 r) _ (by simp [pick, tchFClass1]) (by simp) w1
  rw [hd]
  by_cases hp : (u.drop 91).take 3 = frP (unU u)
  · right
    rw [if_pos hp]
    have hg : frReceived u ((List.range 78).map fun i => r.getD (tchFPlain (182 + i)) 0) = frGot (unU u) r :=
      frReceived_got u (unU u) r (by rw [List.take_of_length_le (by rw [unU_length])])
    have hpg : frP (frGot (unU u) r) = frP (unU u) := by
      unfold frP
      refine congrArg (parityOf frCrc3) (bits_ext (n := 50) (by simp [frGot_length]) (by simp [unU_length]) fun i hi => ?_)
      rw [getD_take _ _ _ hi, getD_take _ _ _ hi, frGot_get _ _ _ (by omega), if_pos (by omega)]
    refine ⟨frGot (unU u) r, _, frGot_length _ _, ?_, by rw [hg, hp, hpg], ?_⟩
    · intro j h1 h2
      rw [frGot_get _ _ _ h2, if_neg (by omega)]
    · rintro d' b hd' hj ⟨sent', s1, s2, -⟩
      have hpd : frP d' = frP (frGot (unU u) r) := by
        unfold frP
        refine congrArg (parityOf frCrc3) (bits_ext (n := 50) (by simp [hd']) (by simp [frGot_length]) fun i hi => ?_)
        rw [getD_take _ _ _ hi, getD_take _ _ _ hi, hj i (by omega)]
      have hfu : frU d' (frP d') = u := by
        rw [hpd, hpg, ← hp]
        conv_rhs => rw [← frU_unU u [] hu]
        apply frU_congr
        intro j hj'
        rw [hj j hj', frGot_get _ _ _ (by omega), if_pos hj', List.append_nil]
      rw [hfu, he] at s1
      obtain rfl := Option.some.inj s1
      exact errorsIn_pick b r _ _ s2
  · left
    rw [if_neg hp]
    exact ⟨_, _, _, rfl⟩

/-! ### C107: TCH/FS -/

theorem flags_spec (r : List Int) (hr : 928 ≤ r.length) : ∃ fl, tchFrFlags 0 r = some fl ∧ fl.sum = flagSum tchFFlags r := by
  refine ⟨tchFFlags.map fun p => r.getD p 0, ?_, rfl⟩
  have h : ∀ p, p < 928 → r[p]? = some (r.getD p 0) := by
    intro p hp
    rw [List.getD_eq_getElem?_getD, List.getElem?_eq_getElem (by omega), Option.getD_some]
  unfold tchFrFlags
  rw [mapM_some (g := fun i => r.getD (i * 116 + 58 - i / 4) 0)]
  · rfl
  · intro i hi
    rw [List.mem_range] at hi
    unfold tchBurstFlag
    rw [Nat.zero_add, Nat.shiftRight_eq_div_pow, ← h _ (by omega)]
    by_cases h4 : i < 4
    · rw [if_pos (by omega), show i * 116 + 58 - i / 4 = i * 116 + 58 by omega]
    · rw [if_neg (by omega), show i * 116 + 58 - i / 4 = i * 116 + 57 by omega]

end Verif.Tch
