import Verif.Tch.Fs
/-!
C108: TCH/HS.
-/
namespace Verif.Tch
open Verif.Conv Verif.ConvAcc Verif.Interleave Verif.Chan

/-! ### Places -/

/-- the place of coded bit `k` among those of four bursts -/
def tchHPlace (k : Nat) : Nat := (tchHrTable.map fun e => e.2 * 114 + e.1).getD k 0

/-- the place of coded bit `k` in the bursts -/
def tchHPos (k : Nat) : Nat := 116 * (tchHPlace k / 114) + mid (tchHPlace k % 114)

/-- the even bits of two bursts and the odd bits of the next two -/
def tchHData : List Nat := (List.range 464).filter fun p => p % 116 ≠ 57 ∧ p % 116 ≠ 58 ∧ p % 116 % 2 = p / 116 / 2

/-- the stealing flags of a half rate block -/
def tchHFlags : List Nat := [58, 174, 289, 405]

theorem tchH_perm : ((List.range 228).map tchHPos).Perm tchHData := perm_of_same (by decide +kernel) (by decide +kernel)

theorem pairs_mem {pq : Nat × Nat} (h : pq ∈ tchHrPairs) : pq.1 < 228 ∧ pq.2 = tchHPlace pq.1 := by
  have hl : (tchHrTable.map fun e => e.2 * 114 + e.1).length = 228 := by decide +kernel
  unfold tchHrPairs at h
  unfold tchHPlace
  generalize (tchHrTable.map fun e => e.2 * 114 + e.1) = L at h hl
  obtain ⟨i, hi, e⟩ := List.getElem_of_mem h
  rw [List.getElem_zip] at e
  simp only [List.length_zip, List.length_range, hl] at hi
  rw [← e]
  dsimp only
  rw [List.getElem_range]
  refine ⟨by omega, ?_⟩
  rw [List.getD_eq_getElem?_getD, List.getElem?_eq_getElem (by omega), Option.getD_some]

theorem tchHrReceive_spec {α : Type} (cB iB r : List α) (z : α) (h1 : cB.length = 228) (h2 : iB.length = 456) (h3 : 464 ≤ r.length) :
    tchHrReceive 0 cB iB r = some (pick z ((List.range 228).map tchHPos) r) := by
  have key := genReceive_spec (o := fun i => i >>> 1) tchHr_diagonal (by omega) (fun i _ => by rw [Nat.shiftRight_eq_div_pow]) 0
    cB iB r (pick z ((List.range 228).map tchHPos) r) (by omega) h1 (by omega) (by simp [pick]) (by
      intro pq hpq
      obtain ⟨e1, e2⟩ := pairs_mem hpq
      obtain ⟨m, hm1, hm2⟩ := tchHr_diagonal.inside
      have hlt : pq.2 < 456 := by
        have hb := ((mask_spec _ m hm1).2 pq.2).2 (List.mem_map.2 ⟨pq, hpq, rfl⟩)
        rcases Nat.lt_or_ge pq.2 456 with h | h
        · exact h
        · rw [Nat.testBit_lt_two_pow (Nat.lt_of_lt_of_le hm2 (Nat.pow_le_pow_right (by omega) h))] at hb
          exact absurd hb (by simp)
      have hm : mid (pq.2 % 114) < 116 := by unfold mid; split <;> omega
      have hlt : 116 * (pq.2 / 114) + mid (pq.2 % 114) < r.length := by omega
      simp only [pick, List.getElem?_map, List.getElem?_range e1, Option.map_some]
      show _ = some (r.getD (tchHPos pq.1) z)
      unfold tchHPos
      rw [← e2, Nat.zero_add, List.getD_eq_getElem?_getD, List.getElem?_eq_getElem hlt, Option.getD_some])
  exact key

theorem tchHrSend_pick (h : Byte) (iB cB bursts : List Byte) (h1 : iB.length = 456) (h2 : cB.length = 228) (h3 : 464 ≤ bursts.length) :
    ∃ b, tchHrSend 0 h iB cB bursts = some b ∧ b.length = bursts.length ∧ pick 0#8 ((List.range 228).map tchHPos) b = cB ∧
      (∀ p ∈ tchHFlags, b[p]? = some h) ∧ ∀ p, p ∉ tchHData → p ∉ tchHFlags → b[p]? = bursts[p]? := by
  obtain ⟨b, e1, e2, e3, e4, e5⟩ := genSend_spec (o := fun i => i >>> 1) tchHr_diagonal (by omega)
    (fun i _ => by rw [Nat.shiftRight_eq_div_pow]) 0 h iB cB bursts (by omega) h2 (by omega)
  have hlen := e2
  have hs : tchHrSend 0 h iB cB bursts = some b := e1
  obtain ⟨b', f1, -, f3⟩ := tchHr_stream [⟨h, cB, iB⟩] bursts (by simp; omega) (by simp; omega)
  have hbb : b' = b := by
    simp only [sendAll, Nat.mul_zero, hs, Option.bind_some] at f1
    exact (Option.some.inj f1).symm
  subst hbb
  obtain ⟨f3, -⟩ := f3 0 _ rfl
  have f4 := f3 cB iB h2 h1
  rw [Nat.mul_zero, tchHrReceive_spec _ _ _ 0#8 h2 h1 (by omega)] at f4
  refine ⟨b', hs, e2, Option.some.inj f4, ?_, ?_⟩
  · intro p hp
    simp only [tchHFlags, List.mem_cons, List.not_mem_nil, or_false] at hp
    rcases hp with rfl | rfl | rfl | rfl
    · exact e4 0 (by omega)
    · exact e4 1 (by omega)
    · exact e4 2 (by omega)
    · exact e4 3 (by omega)
  · intro p hp hf
    refine e5 p fun B hB => ?_
    simp only [tchHFlags, List.mem_cons, List.not_mem_nil, or_false] at hf
    simp only [tchHData, List.mem_filter, List.mem_range, decide_eq_true_eq] at hp
    by_cases hB' : 116 * B ≤ p ∧ p < 116 * B + 116
    · have q1 : p / 116 = B := by omega
      have q2 : p % 116 = p - 116 * B := by omega
      rw [q1, q2] at hp
      rw [Nat.zero_add]
      generalize p - 116 * B = y at *
      omega
    · omega

/-! ### Bits -/

theorem tchHr_channel : Channel tchHr.code 211 9 :=
  channel_of (Punctured.usable (by decide) tchHr_ok) rfl (Punctured.corrects (by decide) tchHr_ok) (by decide +kernel)

/-- the arrays of src/coding/gsm0503_coding.c:2111-2112 -/
structure EncH.Ok (s : EncH) : Prop where
  x : s.x.Ok 912
  conv : s.conv.length = 98
  b : s.b.length = 112
  d : s.d.length = 112
  p : s.p.length = 3

/-- the arrays of src/coding/gsm0503_coding.c:2009-2010 -/
structure DecH.Ok (s : DecH) : Prop where
  x : s.x.Ok 912
  conv : s.conv.length = 98
  b : s.b.length = 112
  d : s.d.length = 112
  p : s.p.length = 3

/-- the order of importance, which depends on the mode (TS 06.20: the two bits of the mode are the bits 34 and 35 of a frame) -/
def hrTab (x y : Bool) : List Nat := if !x && !y then hrUnvoiced else hrVoiced

theorem hrTab_ok (x y : Bool) : Order (hrTab x y) 112 := by
  unfold hrTab
  split
  · exact hrUnvoiced_ok
  · exact hrVoiced_ok

/-- the mode has the ranks 93 and 94 in both modes -/
theorem hrTab_mode (x y : Bool) : (hrTab x y).getD 93 0 = 35 ∧ (hrTab x y).getD 94 0 = 34 := by
  cases x <;> cases y <;> decide

theorem hrOrder_ubit (x y : Bool) : hrOrder (ubit x) (ubit y) = hrTab x y := by
  unfold hrOrder hrTab
  cases x <;> cases y <;> rfl

/-- the bits of a frame, most important first -/
def hrD (b : List Bool) : List Bool := ordered (hrTab (b.getD 34 false) (b.getD 35 false)) b

/-- and back -/
def hrUnD (d : List Bool) : List Bool := placed (hrTab (d.getD 94 false) (d.getD 93 false)) d

theorem hrD_length (b : List Bool) : (hrD b).length = 112 := by
  unfold hrD; rw [ordered_length]; exact (hrTab_ok _ _).1

theorem hrUnD_length (b : List Bool) : (hrUnD b).length = 112 := by
  unfold hrUnD; rw [placed_length]; exact (hrTab_ok _ _).1

theorem hrD_mode (b : List Bool) : (hrD b).getD 93 false = b.getD 35 false ∧ (hrD b).getD 94 false = b.getD 34 false := by
  have hl := (hrTab_ok (b.getD 34 false) (b.getD 35 false)).1
  have hm := hrTab_mode (b.getD 34 false) (b.getD 35 false)
  unfold hrD
  rw [ordered_get _ _ _ (by omega), ordered_get _ _ _ (by omega), hm.1, hm.2]
  exact ⟨rfl, rfl⟩

theorem hrUnD_hrD (b : List Bool) (h : b.length = 112) : hrUnD (hrD b) = b := by
  unfold hrUnD
  rw [(hrD_mode b).1, (hrD_mode b).2]
  unfold hrD
  rw [placed_ordered (hrTab_ok _ _) _ h]

theorem hrUnD_mode (d : List Bool) : (hrUnD d).getD 34 false = d.getD 94 false ∧ (hrUnD d).getD 35 false = d.getD 93 false := by
  have ho := hrTab_ok (d.getD 94 false) (d.getD 93 false)
  have hm := hrTab_mode (d.getD 94 false) (d.getD 93 false)
  have h1 := placed_get ho d 93 (by omega)
  have h2 := placed_get ho d 94 (by omega)
  rw [hm.1] at h1
  rw [hm.2] at h2
  exact ⟨h2, h1⟩

theorem hrD_hrUnD (d : List Bool) (h : d.length = 112) : hrD (hrUnD d) = d := by
  unfold hrD
  rw [(hrUnD_mode d).1, (hrUnD_mode d).2]
  unfold hrUnD
  rw [ordered_placed (hrTab_ok _ _) _ h]

/-- the parity of the bits of rank 73 to 94 -/
def hrP (d : List Bool) : List Bool := parityOf frCrc3 ((d.drop 73).take 22)

theorem hrP_length (d : List Bool) : (hrP d).length = 3 := parityOf_length _ _

theorem map_get (l : List Bool) (k : Nat) (h : k < l.length) : (l.map ubit)[k]? = some (ubit (l.getD k false)) := by
  rw [List.getElem?_map, List.getElem?_eq_getElem h, Option.map_some, List.getD_eq_getElem?_getD, List.getElem?_eq_getElem h, Option.getD_some]

theorem write_at (mem l : List Byte) (o : Nat) (h : o + l.length ≤ mem.length) :
    writeAt mem o l = some (mem.take o ++ l ++ mem.drop (o + l.length)) := writeAt_eq_some h

theorem read_at (mem : List Byte) (o n : Nat) (h : o + n ≤ mem.length) : readAt mem o n = some ((mem.drop o).take n) := readAt_eq_some h

theorem hrToConv_spec (s : EncH) (hs : s.Ok) (tch : List Byte) (ht : 14 ≤ tch.length) :
    hrToConv s tch = some (((hrD (msbBits 0 112 tch)).take 95 ++ hrP (hrD (msbBits 0 112 tch))).map ubit,
      s.x.cB.take 211 ++ ((hrD (msbBits 0 112 tch)).drop 95).map ubit ++ s.x.cB.drop 228) := by
  have hl := msbBits_length 0 112 tch
  generalize hB : msbBits 0 112 tch = B at *
  have hd := hrD_length B
  unfold hrToConv hrDisassemble hrBtoD
  simp only [Option.bind_eq_bind]
  rw [unpackMsb_spec _ _ _ _ (by omega) (by rw [hs.b]), Option.bind_some, List.drop_of_length_le (l := s.b) (by rw [hs.b]), List.append_nil, hB,
    map_get _ 34 (by omega), Option.bind_some, map_get _ 35 (by omega), Option.bind_some, hrOrder_ubit,
    copy_ordered (hrTab_ok _ _) _ hl _ hs.d, Option.bind_some, show ordered (hrTab (B.getD 34 false) (B.getD 35 false)) B = hrD B from rfl]
  generalize hrD B = d at *
  have hp := setP_spec frCrc3 frCrc3_shifts d 73 22 s.p (by omega) (by rw [hs.p]; decide)
  rw [List.drop_of_length_le (l := s.p) (by rw [hs.p]; decide), List.append_nil, show parityOf frCrc3 ((d.drop 73).take 22) = hrP d from rfl] at hp
  have hd1 := read_zero (d.map ubit) 95 (by simp [hd])
  have hc1 := write_zero s.conv ((d.map ubit).take 95) (by simp [hd, hs.conv])
  have ep1 := read_zero ((hrP d).map ubit) 3 (by rw [List.length_map, hrP_length])
  have ec2 := read_at (d.map ubit) 95 17 (by simp [hd])
  have ec3 := write_at s.x.cB (((d.map ubit).drop 95).take 17) 211 (by simp [hd, hs.x.cB])
  have el : ((d.map ubit).take 95).length = 95 := by simp [hd]
  have ec4 := write_at ((d.map ubit).take 95 ++ s.conv.drop 95) ((hrP d).map ubit) 95 (by simp [hrP_length, hs.conv, hd])
  have el2 : (((d.map ubit).drop 95).take 17) = (d.drop 95).map ubit := by
    rw [List.take_of_length_le (by simp [hd]), List.map_drop]
  rw [el] at hc1
  rw [List.take_of_length_le (by rw [List.length_map, hrP_length])] at ep1
  rw [hp, Option.bind_some, hd1, Option.bind_some, hc1, Option.bind_some, ep1, Option.bind_some]
  have ec4' : writeAt ((d.map ubit).take 95 ++ s.conv.drop 95) 95 ((hrP d).map ubit) = some ((d.take 95 ++ hrP d).map ubit) := by
    have : writeAt ((d.map ubit).take 95 ++ s.conv.drop 95) 95 ((hrP d).map ubit) = _ := ec4
    rw [this, List.take_append_of_le_length (by omega), List.take_of_length_le (l := (d.map ubit).take 95) (by omega),
      List.drop_of_length_le (by simp [hs.conv, hrP_length, hd]), List.append_nil, List.map_append, List.map_take]
  have ec2' : readAt (d.map ubit) 95 17 = _ := ec2
  have ec3' : writeAt s.x.cB 211 (((d.map ubit).drop 95).take 17) = _ := ec3
  rw [ec4', Option.bind_some, ec2', Option.bind_some, ec3', Option.bind_some, el2]
  have : 211 + ((d.drop 95).map ubit).length = 228 := by simp [hd]
  rw [this]

/-- the first 228 elements of a list of 456 -/
theorem hrSend_spec (s : EncH) (hs : s.Ok) (bursts : List Byte) (hb : 464 ≤ bursts.length) (u c : List Bool) (hu : u.length = 98) (hc : c.length = 17)
    (rest : List Byte) (a : List Byte) (ha : a.length = 211) (hr : rest.length = 228) :
    ∃ sent b, encode tchHr.code u = some sent ∧ hrSend s bursts (u.map ubit) (a ++ c.map ubit ++ rest) = some b ∧ b.length = bursts.length ∧
      pick 0#8 ((List.range 228).map tchHPos) b = (sent ++ c).map ubit ∧ sent.length = 211 ∧
      (∀ p ∈ tchHFlags, b[p]? = some 0#8) ∧ ∀ p, p ∉ tchHData → p ∉ tchHFlags → b[p]? = bursts[p]? := by
  obtain ⟨sent, he, hl⟩ := tchHr_channel.enc u hu
  have hcv := convEncode_spec tchHr.code u sent [] (a ++ c.map ubit ++ rest) hu he (by simp [ha, hl])
  rw [List.append_nil, hl, List.append_assoc, List.drop_append_of_le_length (by omega), List.drop_of_length_le (l := a) (by omega),
    List.nil_append, ← List.append_assoc a] at hcv
  obtain ⟨b, b1, b2, b3, b4, b5⟩ := tchHrSend_pick 0#8 (s.x.iB.take 456) ((sent ++ c).map ubit) bursts (by simp [hs.x.iB])
    (by simp [hl, hc]) hb
  refine ⟨sent, b, he, ?_, b2, b3, hl, b4, b5⟩
  unfold hrSend
  simp only [Option.bind_eq_bind]
  rw [hcv, Option.bind_some]
  dsimp only
  rw [← List.append_assoc, ← List.map_append, List.take_append_of_le_length (by simp [hl, hc]),
    List.take_of_length_le (l := (sent ++ c).map ubit) (by simp [hl, hc])]
  exact b1

/-- the places of the coded bits of class 1 -/
def tchHClass1 : List Nat := (List.range 211).map tchHPos

/-- the place of the bit of rank `j` of class 2 (95 and more), which is not coded -/
def tchHPlain (j : Nat) : Nat := tchHPos (116 + j)

theorem splitH {α : Type} (z : α) (l : List α) :
    pick z ((List.range 228).map tchHPos) l = pick z tchHClass1 l ++ (List.range 17).map fun i => l.getD (tchHPlain (95 + i)) z := by
  unfold pick tchHClass1 tchHPlain
  rw [show 228 = 211 + 17 from rfl, List.range_add, List.map_append, List.map_append, List.map_map (l := List.map _ (List.range 17)),
    List.map_map (l := List.range 17)]
  refine congrArg₂ (· ++ ·) rfl (List.map_congr_left fun i _ => ?_)
  show l.getD (tchHPos (211 + i)) z = l.getD (tchHPos (116 + (95 + i))) z
  rw [← Nat.add_assoc]

/-- `d` is sent in `b` -/
def HrSent (d : List Bool) (b : List Byte) : Prop :=
  ∃ sent, encode tchHr.code (d.take 95 ++ hrP d) = some sent ∧ pick 0#8 tchHClass1 b = sent.map ubit ∧
    ∀ j, 95 ≤ j → j < 112 → b.getD (tchHPlain j) 0#8 = ubit (d.getD j false)

/-- what is known of the bursts after any block of speech -/
structure SentH (bursts b : List Byte) : Prop where
  len : b.length = bursts.length
  bits : ∀ p ∈ tchHData, b.getD p 0#8 = 0#8 ∨ b.getD p 0#8 = 1#8
  flags : ∀ p ∈ tchHFlags, b[p]? = some 0#8
  rest : ∀ p, p ∉ tchHData → p ∉ tchHFlags → b[p]? = bursts[p]?

theorem hr_send (s : EncH) (hs : s.Ok) (bursts tch : List Byte) (hb : 464 ≤ bursts.length) (ht : 14 ≤ tch.length) :
    ∃ b, ((hrToConv s tch).bind fun c => (hrSend s bursts c.1 c.2).map fun b => ((0 : Int), b)) = some (0, b) ∧ SentH bursts b ∧
      HrSent (hrD (msbBits 0 112 tch)) b := by
  have hd := hrD_length (msbBits 0 112 tch)
  rw [hrToConv_spec s hs tch ht, Option.bind_some]
  generalize hrD (msbBits 0 112 tch) = d at *
  obtain ⟨sent, b, e1, e2, e3, e4, e5, e6, e7⟩ := hrSend_spec s hs bursts hb (d.take 95 ++ hrP d) (d.drop 95) (by simp [hd, hrP_length])
    (by simp [hd]) (s.x.cB.drop 228) (s.x.cB.take 211) (by simp [hs.x.cB]) (by simp [hs.x.cB])
  refine ⟨b, ?_, ⟨e3, bits_at tchH_perm e4, e6, e7⟩, sent, e1, ?_, ?_⟩
  · rw [e2]; rfl
  · rw [splitH, List.map_append] at e4
    exact (List.append_inj e4 (by simp [pick, tchHClass1, e5])).1
  · rw [splitH, List.map_append] at e4
    have h := (List.append_inj e4 (by simp [pick, tchHClass1, e5])).2
    intro j h1 h2
    have := congrArg (fun l => l.getD (j - 95) 0#8) h
    simp only [getD_map_ubit, getD_drop] at this
    rw [show 95 + (j - 95) = j by omega] at this
    rw [← this, List.getD_eq_getElem?_getD (l := List.map _ _), List.getElem?_map, List.getElem?_range (by omega), Option.map_some, Option.getD_some,
      show 95 + (j - 95) = j by omega]

/-! ### Decoding -/

/-- the bits in the order of importance, from those decoded and the soft bits of class 2 -/
def hrGot (u : List Bool) (r : List Int) : List Bool := (List.range 112).map fun j => if j < 95 then u.getD j false else hard r (tchHPlain j)

theorem hrGot_length (u : List Bool) (r : List Int) : (hrGot u r).length = 112 := by simp [hrGot]

theorem hrGot_get (u : List Bool) (r : List Int) (j : Nat) (h : j < 112) :
    (hrGot u r).getD j false = if j < 95 then u.getD j false else hard r (tchHPlain j) := range_get _ _ _ h

theorem hrDtoB_spec (b : List Byte) (hb : b.length = 112) (d : List Bool) (hd : d.length = 112) : hrDtoB b (d.map ubit) = some ((hrUnD d).map ubit) := by
  unfold hrDtoB
  have h : hrOrder (ubit (d.getD 93 false)) (ubit (d.getD 94 false)) = hrTab (d.getD 94 false) (d.getD 93 false) := by
    rw [hrOrder_ubit]
    unfold hrTab
    rw [Bool.and_comm]
  rw [map_get _ 93 (by omega), Option.bind_some, map_get _ 94 (by omega), Option.bind_some, h, copy_placed (hrTab_ok _ _) _ hd _ hb]
  rfl

theorem hrDecodeCB_of (s : DecH) (hs : s.Ok) (out : List Byte) (ho : 14 ≤ out.length) (r : List Int) (u : List Bool) (hu : u.length = 98) (e t : Nat)
    (hd : decodeBer tchHr.code (pick 0 ((List.range 228).map tchHPos) r) s.conv s.x.recoded = some (u.map ubit, e, t)) :
    ∃ f, Frame 0#8 0 112 (hrUnD (hrGot u r)) f ∧ hrDecodeCB s out (pick 0 ((List.range 228).map tchHPos) r) =
      some (if u.drop 95 = hrP (hrGot u r) then { rv := 14, data := f ++ out.drop 14, errors := e, total := t }
        else { rv := -1, data := out, errors := e, total := t }) := by
  obtain ⟨f, h1, h2⟩ := write_frame 0#8 13 0 112 out [] (hrUnD (hrGot u r)) (by omega) rfl (by omega) (hrUnD_length _) (by decide)
  refine ⟨f, h1, ?_⟩
  rw [List.append_nil] at h2
  unfold hrDecodeCB
  simp only [Option.bind_eq_bind]
  rw [hd, Option.bind_some]
  dsimp only
  have a1 := read_zero (u.map ubit) 95 (by simp [hu])
  have a2 := write_zero s.d ((u.map ubit).take 95) (by simp [hu, hs.d])
  have a3 : readAt (u.map ubit) 95 3 = _ := read_at (u.map ubit) 95 3 (by simp [hu])
  have a4 := write_zero s.p (((u.map ubit).drop 95).take 3) (by simp [hu, hs.p])
  have a5 : ((u.map ubit).drop 95).take 3 = (u.drop 95).map ubit := by rw [List.take_of_length_le (by simp [hu]), List.map_drop]
  have a6 : ((u.map ubit).take 95).length = 95 := by simp [hu]
  rw [a5, List.drop_of_length_le (l := s.p) (by simp [hu, hs.p]), List.append_nil] at a4
  rw [a6] at a2
  rw [a1, Option.bind_some, a2, Option.bind_some, a3, Option.bind_some, a5, a4, Option.bind_some]
  have hh : (List.range 17).mapM (fun i => ((pick 0 ((List.range 228).map tchHPos) r)[i + 211]?).map fun x => if x < 0 then 1#8 else 0#8) =
      some ((List.range 17).map fun i => ubit (hard r (tchHPlain (95 + i)))) := by
    apply mapM_some
    intro i hi
    rw [List.mem_range] at hi
    unfold pick
    rw [List.getElem?_map, List.getElem?_map, List.getElem?_range (by omega), Option.map_some, Option.map_some, Option.map_some]
    unfold hard tchHPlain
    rw [show 116 + (95 + i) = i + 211 by omega]
    by_cases h : r.getD (tchHPos (i + 211)) 0 < 0
    · rw [if_pos h, decide_eq_true h]; rfl
    · rw [if_neg h, decide_eq_false h]; rfl
  rw [hh, Option.bind_some]
  have a7 := write_tail ((u.map ubit).take 95) (s.d.drop 95) ((List.range 17).map fun i => ubit (hard r (tchHPlain (95 + i)))) (by simp [hs.d])
  rw [a6] at a7
  have a8 : writeAt ((u.map ubit).take 95 ++ s.d.drop 95) 95 ((List.range 17).map fun i => ubit (hard r (tchHPlain (95 + i)))) =
      some ((hrGot u r).map ubit) := by
    have : writeAt ((u.map ubit).take 95 ++ s.d.drop 95) 95 ((List.range 17).map fun i => ubit (hard r (tchHPlain (95 + i)))) = _ := a7
    rw [this]
    have e : (List.range 17).map (fun i => ubit (hard r (tchHPlain (95 + i)))) = ((List.range 17).map fun i => hard r (tchHPlain (95 + i))).map ubit := by
      rw [List.map_map]; rfl
    rw [e, ← List.map_take, ← List.map_append]
    refine congrArg (fun l : List Bool => some (l.map ubit)) ?_
    apply bits_ext (n := 112) (by simp [hu]) (hrGot_length _ _)
    intro j hj
    rw [hrGot_get _ _ _ hj]
    by_cases h : j < 95
    · rw [if_pos h, getD_append_left _ _ _ (by simp [hu]; omega), getD_take _ _ _ h]
    · rw [if_neg h, getD_append_right _ _ _ (by simp [hu]; omega), List.length_take, hu, range_get _ _ _ (by omega),
        show 95 + (j - min 95 98) = j by omega]
  rw [a8, Option.bind_some]
  have hc := checkP_spec frCrc3 frCrc3_shifts (hrGot u r) (u.drop 95) 73 22 [] (by rw [hrGot_length]; omega) (by simp [hu]; rfl)
  rw [List.append_nil, show parityOf frCrc3 (((hrGot u r).drop 73).take 22) = hrP (hrGot u r) from rfl] at hc
  rw [hc, Option.bind_some]
  by_cases hq : u.drop 95 = hrP (hrGot u r)
  · rw [if_pos hq, if_pos hq, if_neg (by simp), hrDtoB_spec _ hs.b _ (hrGot_length _ _), Option.bind_some]
    unfold hrReassemble
    simp only [Option.bind_eq_bind]
    rw [show List.replicate 14 0#8 = 0#8 :: List.replicate 13 0#8 from rfl, h2]
    rfl
  · rw [if_neg hq, if_neg hq, if_pos (by simp)]

theorem hrP_got (d u : List Bool) (r : List Int) (hd : d.length = 112) (h : ∀ j < 95, u.getD j false = d.getD j false) : hrP (hrGot u r) = hrP d := by
  unfold hrP
  refine congrArg (parityOf frCrc3) (bits_ext (n := 22) (by simp [hrGot_length]) (by simp [hd]) fun i hi => ?_)
  rw [getD_take _ _ _ hi, getD_take _ _ _ hi, getD_drop, getD_drop, hrGot_get _ _ _ (by omega), if_pos (by omega), h _ (by omega)]

/-- few errors in class 1: `d` comes back, of class 2 as received -/
theorem hrDecodeCB_soft (s : DecH) (hs : s.Ok) (out : List Byte) (ho : 14 ≤ out.length) (d : List Bool) (hd : d.length = 112) (b : List Byte)
    (hb : HrSent d b) (r : List Int) {m : Int} (hm : 0 ≤ m) (hm' : m ≤ 127) (hsoft : SoftAt tchHClass1 m r) (hc : 2 * contra tchHClass1 b r < 9 * m) :
    ∃ f, Frame 0#8 0 112 (hrUnD (hrGot d r)) f ∧ hrDecodeCB s out (pick 0 ((List.range 228).map tchHPos) r) =
      some { rv := 14, data := f ++ out.drop 14, errors := wrong tchHClass1 b r, total := 211 } := by
  obtain ⟨sent, e1, e2, -⟩ := hb
  obtain ⟨w1, w2⟩ := soft_pick (List.Perm.refl _) hsoft
  obtain ⟨-, h⟩ := decodeBer_corrects tchHr_channel (d.take 95 ++ hrP d) sent (pick 0 tchHClass1 r)
    ((List.range 17).map fun i => r.getD (tchHPlain (95 + i)) 0) s.conv s.x.recoded (by simp [hd, hrP_length]; rfl) e1 (by simp [pick, tchHClass1]) w1 hm w2
    (by rw [against_pick b r _ sent e2]; push_cast; omega)
    (by rw [against_pick b r _ sent e2]; show _ < 127 * ((3 : Nat) : Int) * ((7 : Nat) : Int); omega) (by rw [hs.conv]; decide)
    (by rw [hs.x.recoded]; decide)
  rw [← splitH, List.drop_of_length_le (l := s.conv) (by rw [hs.conv]; decide), List.append_nil, errorsIn_pick b r _ sent e2] at h
  obtain ⟨f, f1, f2⟩ := hrDecodeCB_of s hs out ho r (d.take 95 ++ hrP d) (by simp [hd, hrP_length]) _ _ h
  have hg : hrGot (d.take 95 ++ hrP d) r = hrGot d r := by
    apply bits_ext (n := 112) (hrGot_length _ _) (hrGot_length _ _)
    intro j hj
    rw [hrGot_get _ _ _ hj, hrGot_get _ _ _ hj]
    by_cases h : j < 95
    · rw [if_pos h, if_pos h, getD_append_left _ _ _ (by simp; omega), getD_take _ _ _ h]
    · rw [if_neg h, if_neg h]
  rw [hg] at f1 f2
  refine ⟨f, f1, ?_⟩
  rw [f2, if_pos]
  rw [hrP_got d d r hd (fun _ _ => rfl), List.drop_append_of_le_length (by simp; omega), List.drop_of_length_le (by simp), List.nil_append]

/-- whatever is received -/
theorem hrDecodeCB_any (s : DecH) (hs : s.Ok) (out : List Byte) (ho : 14 ≤ out.length) (r : List Int)
    (hr : ∀ p ∈ tchHData, -127 ≤ r.getD p 0 ∧ r.getD p 0 ≤ 127) :
    ∃ res, hrDecodeCB s out (pick 0 ((List.range 228).map tchHPos) r) = some res ∧ res.total = 211 ∧
      ((res.rv = -1 ∧ res.data = out) ∨ (res.rv = 14 ∧ ∃ (d : List Bool) (f : List Byte), d.length = 112 ∧ Frame 0#8 0 112 (hrUnD d) f ∧
        res.data = f ++ out.drop 14 ∧ (∀ j, 95 ≤ j → j < 112 → d.getD j false = hard r (tchHPlain j)) ∧
        ∀ b, HrSent d b → res.errors = wrong tchHClass1 b r)) := by
  have w1 : Within 127 (pick 0 ((List.range 228).map tchHPos) r) := by
    intro v hv
    obtain ⟨p, hp', rfl⟩ := List.mem_map.1 hv
    exact hr p (tchH_perm.mem_iff.1 hp')
  obtain ⟨u, sent, hu, he, hl, -, h⟩ := decodeBer_total tchHr_channel _ s.conv s.x.recoded (by simp [pick]) w1
    (by rw [hs.conv]; decide) (by rw [hs.x.recoded]; decide)
  rw [List.drop_of_length_le (l := s.conv) (by rw [hs.conv]; decide), List.append_nil] at h
  have hu : u.length = 98 := hu
  obtain ⟨f, f1, f2⟩ := hrDecodeCB_of s hs out ho r u hu _ _ h
  rw [f2]
  by_cases hq : u.drop 95 = hrP (hrGot u r)
  · rw [if_pos hq]
    refine ⟨_, rfl, rfl, .inr ⟨rfl, hrGot u r, f, hrGot_length _ _, f1, rfl, ?_, ?_⟩⟩
    · intro j h1 h2
      rw [hrGot_get _ _ _ h2, if_neg (by omega)]
    · rintro b ⟨sent', s1, s2, -⟩
      have hfu : (hrGot u r).take 95 ++ hrP (hrGot u r) = u := by
        rw [← hq]
        conv_rhs => rw [← List.take_append_drop 95 u]
        refine congrArg (· ++ u.drop 95) ?_
        apply bits_ext (n := 95) (by simp [hrGot_length]) (by simp [hu])
        intro j hj
        rw [getD_take _ _ _ hj, getD_take _ _ _ hj, hrGot_get _ _ _ (by omega), if_pos hj]
      rw [hfu, he] at s1
      obtain rfl := Option.some.inj s1
      have : errorsIn sent (pick 0 tchHClass1 r) = wrong tchHClass1 b r := errorsIn_pick b r _ _ s2
      rw [← this, splitH]
      exact errorsIn_append _ _ _ (by simp [pick, tchHClass1]; omega)
  · rw [if_neg hq]
    exact ⟨_, rfl, rfl, .inl ⟨rfl, rfl⟩⟩

end Verif.Tch
