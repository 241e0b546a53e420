import Verif.Tch.Fs
/-!
C107: TCH/EFS.
-/
namespace Verif.Tch
open Verif.Conv Verif.ConvAcc Verif.Interleave Verif.Chan

/-! ### The order of the bits -/

/-- TS 05.03 3.1.1.2: the bit of the frame, or from 244 on of the parity, that is sent as `w(k)`; four bits are sent three times -/
def efrSource : List Nat := List.range 71 ++ [69, 69] ++ (List.range 50).map (71 + ·) ++ [119, 119] ++ (List.range 53).map (121 + ·) ++
  [172, 172] ++ (List.range 50).map (174 + ·) ++ [222, 222] ++ (List.range 20).map (224 + ·) ++ (List.range 8).map (244 + ·)

/-- the first place of bit `i` in `w` -/
def efrIndex (i : Nat) : Nat := if i < 71 then i else if i < 121 then i + 2 else if i < 174 then i + 4 else if i < 224 then i + 6 else i + 8

/-- the bits that are sent three times, and the second place of each in `w` -/
def efrThrice : List (Nat × Nat) := [(69, 71), (119, 123), (172, 178), (222, 230)]

/-- the preliminary parity, of 65 bits -/
def efrP (s : List Bool) : List Bool := parityOf efrCrc8 ((efrProtectedBits.map (· - 1)).map fun k => s.getD k false)

theorem efrP_length (s : List Bool) : (efrP s).length = 8 := parityOf_length _ _

/-- the bits with repetitions -/
def efrW (s : List Bool) : List Bool := (List.range 260).map fun k => (s ++ efrP s).getD (efrSource.getD k 0) false

/-- the majority of three -/
def maj (a b c : Bool) : Bool := (a && b) || (a && c) || (b && c)

/-- bit `i` of the frame or the parity from the received `w` -/
def efrBack (w : List Bool) (i : Nat) : Bool :=
  match efrThrice.lookup i with
  | some k => maj (w.getD (efrIndex i) false) (w.getD k false) (w.getD (k + 1) false)
  | none => w.getD (efrIndex i) false

theorem efrW_length (s : List Bool) : (efrW s).length = 260 := by simp [efrW]

theorem efrReorder_spec (w : List Byte) (s : List Bool) (hw : w.length = 260) (hs : s.length = 244) :
    efrReorder w (s.map ubit) ((efrP s).map ubit) = some ((efrW s).map ubit) := by
  unfold efrReorder
  rw [Option.bind_eq_bind, copy_two (s.map ubit) ((efrP s).map ubit) _ (loop 8 1 0 252) w (by rw [List.length_map, hs]; decide +kernel),
    ← List.map_append, List.length_map, hs]
  rw [copy_bits 260 _ (fun k => efrSource.getD k 0) (s ++ efrP s) w (by decide +kernel)
    (by rw [List.length_append, hs, efrP_length]; decide +kernel) hw]
  rfl

theorem efrProtected_spec (s : List Bool) (hs : s.length = 244) (b : List Byte) (hb : b.length = 65) :
    efrProtected (s.map ubit) b = some (((efrProtectedBits.map (· - 1)).map fun k => s.getD k false).map ubit) := by
  unfold efrProtected
  rw [copy_bits 65 _ (fun k => (efrProtectedBits.map (· - 1)).getD k 0) s b (by decide +kernel) (by rw [hs]; decide +kernel) hb]
  congr 2

theorem seg (W A : List Bool) (t : List Byte) (n p : Nat) (hp : p + n ≤ W.length) (ht : n ≤ t.length) :
    copy (W.map ubit) (loop n 1 p A.length) (A.map ubit ++ t) = some ((A ++ (W.drop p).take n).map ubit ++ t.drop n) := by
  obtain ⟨d, e1, e2, e3⟩ := copy_loop1 (W.map ubit) (A.map ubit ++ t) n p A.length (by simpa using hp) (by simp; omega)
  rw [e1]
  congr 1
  apply List.ext_getElem?
  intro r
  rw [e3 r]
  have hl : ((W.drop p).take n).length = n := by simp; omega
  by_cases h1 : r < A.length
  · rw [if_neg (by omega), List.getElem?_append_left (by simpa using h1), List.getElem?_append_left (by simp; omega), List.map_append,
      List.getElem?_append_left (by simpa using h1)]
  · by_cases h2 : r < A.length + n
    · rw [if_pos (by omega), List.getElem?_append_left (by rw [List.length_map, List.length_append, hl]; exact h2), List.map_append,
        List.getElem?_append_right (by simp; omega), List.getElem?_map, List.getElem?_map, List.length_map,
        List.getElem?_take_of_lt (by omega), List.getElem?_drop]
    · rw [if_neg (by omega), List.getElem?_append_right (by simp; omega),
        List.getElem?_append_right (by rw [List.length_map, List.length_append, hl]; omega), List.getElem?_drop, List.length_map, List.length_map,
        List.length_append, hl]
      congr 1; omega

theorem majority_spec (W A : List Bool) (t : List Byte) (i j : Nat) (hi : i < A.length) (hj : j + 1 < W.length) :
    majority i j (A.map ubit ++ t) (W.map ubit) =
      some ((A.set i (maj (A.getD i false) (W.getD j false) (W.getD (j + 1) false))).map ubit ++ t) := by
  unfold majority
  simp only [Option.bind_eq_bind]
  rw [List.getElem?_append_left (by simpa using hi), List.getElem?_map, List.getElem?_eq_getElem hi, Option.map_some, Option.bind_some,
    List.getElem?_map, List.getElem?_eq_getElem (by omega : j < W.length), Option.map_some, Option.bind_some, List.getElem?_map,
    List.getElem?_eq_getElem hj, Option.map_some, Option.bind_some, List.set_append_left _ _ (by simpa using hi), List.map_set,
    List.getD_eq_getElem?_getD, List.getElem?_eq_getElem hi, Option.getD_some, List.getD_eq_getElem?_getD,
    List.getElem?_eq_getElem (by omega : j < W.length), Option.getD_some, List.getD_eq_getElem?_getD, List.getElem?_eq_getElem hj, Option.getD_some]
  congr 3
  cases A[i] <;> cases W[j] <;> cases W[j + 1] <;> decide

/-- the bits of the frame as decided -/
def efrS (w : List Bool) : List Bool := (List.range 244).map (efrBack w)

theorem getD_set (l : List Bool) (i j : Nat) (x : Bool) (h : i < l.length) : (l.set i x).getD j false = if i = j then x else l.getD j false := by
  rw [List.getD_eq_getElem?_getD, List.getElem?_set]
  by_cases e : i = j
  · subst e; rw [if_pos rfl, if_pos rfl, if_pos h]; rfl
  · rw [if_neg e, if_neg e, ← List.getD_eq_getElem?_getD]

theorem take_drop_get (W : List Bool) (p n k : Nat) (h : k < n) : ((W.drop p).take n).getD k false = W.getD (p + k) false := by
  rw [getD_take _ _ _ h, getD_drop]

theorem efrUnreorder_spec (s p : List Byte) (W : List Bool) (hs : s.length = 244) (hp : p.length = 8) (hW : W.length = 260) :
    efrUnreorder s p (W.map ubit) = some ((efrS W).map ubit, ((W.drop 252).take 8).map ubit) := by
  unfold efrUnreorder
  simp only [Option.bind_eq_bind]
  have s1 := seg W [] s 71 0 (by omega) (by omega)
  rw [List.map_nil, List.nil_append, List.nil_append, List.length_nil] at s1
  rw [s1, Option.bind_some]
  clear s1
  generalize hA : (W.drop 0).take 71 = A
  have lA : A.length = 71 := by rw [← hA]; simp; omega
  have gA : ∀ k < 71, A.getD k false = W.getD k false := by
    intro k hk; rw [← hA, take_drop_get _ _ _ _ hk, Nat.zero_add]
  clear hA
  rw [majority_spec W A _ 69 71 (by omega) (by omega), Option.bind_some]
  generalize hA' : A.set 69 (maj (A.getD 69 false) (W.getD 71 false) (W.getD (71 + 1) false)) = A'
  have lA' : A'.length = 71 := by rw [← hA', List.length_set, lA]
  have gA' : ∀ k < 71, A'.getD k false = efrBack W k := by
    intro k hk
    rw [← hA', getD_set _ _ _ _ (by omega)]
    by_cases h : 69 = k
    · subst h; rw [if_pos rfl, gA _ (by omega)]; rfl
    · rw [if_neg h, gA _ hk]
      have : efrThrice.lookup k = none ∧ efrIndex k = k := by
        have : ∀ k < 71, ¬ 69 = k → efrThrice.lookup k = none ∧ efrIndex k = k := by decide
        exact this k hk h
      unfold efrBack
      rw [this.1, this.2]
  clear hA' gA lA A
  have s2 := seg W A' (s.drop 71) 50 73 (by omega) (by rw [List.length_drop]; omega)
  rw [lA'] at s2
  rw [s2, Option.bind_some, List.drop_drop]
  clear s2
  generalize hB : A' ++ (W.drop 73).take 50 = B
  have lB : B.length = 121 := by rw [← hB]; simp; omega
  rw [majority_spec W B _ 119 123 (by omega) (by omega), Option.bind_some]
  generalize hB' : B.set 119 (maj (B.getD 119 false) (W.getD 123 false) (W.getD (123 + 1) false)) = B'
  have lB' : B'.length = 121 := by rw [← hB', List.length_set, lB]
  have gB' : ∀ k < 121, B'.getD k false = efrBack W k := by
    intro k hk
    have gB : 71 ≤ k → B.getD k false = W.getD (k + 2) false := by
      intro h; rw [← hB, getD_append_right _ _ _ (by omega), take_drop_get _ _ _ _ (by omega)]; congr 1; omega
    rw [← hB', getD_set _ _ _ _ (by omega)]
    by_cases h : 119 = k
    · subst h; rw [if_pos rfl, gB (by omega)]; rfl
    · rw [if_neg h]
      by_cases h7 : k < 71
      · rw [← hB, getD_append_left _ _ _ (by omega), gA' _ h7]
      · rw [gB (by omega)]
        have : efrThrice.lookup k = none ∧ efrIndex k = k + 2 := by
          have : ∀ k < 121, 71 ≤ k → ¬ 119 = k → efrThrice.lookup k = none ∧ efrIndex k = k + 2 := by decide
          exact this k hk (by omega) h
        unfold efrBack
        rw [this.1, this.2]
  clear hB' hB lB gA' lA' A' B
  have s2 := seg W B' (s.drop (71 + 50)) 53 125 (by omega) (by rw [List.length_drop]; omega)
  rw [lB'] at s2
  rw [s2, Option.bind_some, List.drop_drop]
  clear s2
  generalize hC : B' ++ (W.drop 125).take 53 = C
  have lC : C.length = 174 := by rw [← hC]; simp; omega
  rw [majority_spec W C _ 172 178 (by omega) (by omega), Option.bind_some]
  generalize hC' : C.set 172 (maj (C.getD 172 false) (W.getD 178 false) (W.getD (178 + 1) false)) = C'
  have lC' : C'.length = 174 := by rw [← hC', List.length_set, lC]
  have gC' : ∀ k < 174, C'.getD k false = efrBack W k := by
    intro k hk
    have gC : 121 ≤ k → C.getD k false = W.getD (k + 4) false := by
      intro h; rw [← hC, getD_append_right _ _ _ (by omega), take_drop_get _ _ _ _ (by omega)]; congr 1; omega
    rw [← hC', getD_set _ _ _ _ (by omega)]
    by_cases h : 172 = k
    · subst h; rw [if_pos rfl, gC (by omega)]; rfl
    · rw [if_neg h]
      by_cases h7 : k < 121
      · rw [← hC, getD_append_left _ _ _ (by omega), gB' _ h7]
      · rw [gC (by omega)]
        have : efrThrice.lookup k = none ∧ efrIndex k = k + 4 := by
          have : ∀ k < 174, 121 ≤ k → ¬ 172 = k → efrThrice.lookup k = none ∧ efrIndex k = k + 4 := by decide +kernel
          exact this k hk (by omega) h
        unfold efrBack
        rw [this.1, this.2]
  clear hC' hC lC gB' lB' B' C
  have s2 := seg W C' (s.drop (71 + 50 + 53)) 50 180 (by omega) (by rw [List.length_drop]; omega)
  rw [lC'] at s2
  rw [s2, Option.bind_some, List.drop_drop]
  clear s2
  generalize hD : C' ++ (W.drop 180).take 50 = D
  have lD : D.length = 224 := by rw [← hD]; simp; omega
  rw [majority_spec W D _ 222 230 (by omega) (by omega), Option.bind_some]
  generalize hD' : D.set 222 (maj (D.getD 222 false) (W.getD 230 false) (W.getD (230 + 1) false)) = D'
  have lD' : D'.length = 224 := by rw [← hD', List.length_set, lD]
  have gD' : ∀ k < 224, D'.getD k false = efrBack W k := by
    intro k hk
    have gD : 174 ≤ k → D.getD k false = W.getD (k + 6) false := by
      intro h; rw [← hD, getD_append_right _ _ _ (by omega), take_drop_get _ _ _ _ (by omega)]; congr 1; omega
    rw [← hD', getD_set _ _ _ _ (by omega)]
    by_cases h : 222 = k
    · subst h; rw [if_pos rfl, gD (by omega)]; rfl
    · rw [if_neg h]
      by_cases h7 : k < 174
      · rw [← hD, getD_append_left _ _ _ (by omega), gC' _ h7]
      · rw [gD (by omega)]
        have : efrThrice.lookup k = none ∧ efrIndex k = k + 6 := by
          have : ∀ k < 224, 174 ≤ k → ¬ 222 = k → efrThrice.lookup k = none ∧ efrIndex k = k + 6 := by decide +kernel
          exact this k hk (by omega) h
        unfold efrBack
        rw [this.1, this.2]
  clear hD' hD lD gC' lC' C' D
  have s2 := seg W D' (s.drop (71 + 50 + 53 + 50)) 20 232 (by omega) (by rw [List.length_drop]; omega)
  rw [lD'] at s2
  rw [s2, Option.bind_some, List.drop_drop, List.drop_of_length_le (l := s) (by omega), List.append_nil]
  have s3 := seg W [] p 8 252 (by omega) (by omega)
  rw [List.map_nil, List.nil_append, List.nil_append, List.length_nil, List.drop_of_length_le (l := p) (by omega), List.append_nil] at s3
  rw [s3, Option.bind_some]
  have : D' ++ (W.drop 232).take 20 = efrS W := by
    apply bits_ext (n := 244) (by simp; omega) (by simp [efrS])
    intro k hk
    unfold efrS
    rw [range_get _ _ _ hk]
    by_cases h : k < 224
    · rw [getD_append_left _ _ _ (by omega), gD' _ h]
    · rw [getD_append_right _ _ _ (by omega), take_drop_get _ _ _ _ (by omega)]
      have : efrThrice.lookup k = none ∧ efrIndex k = 232 + (k - D'.length) := by
        rw [lD']
        have : ∀ k < 244, 224 ≤ k → efrThrice.lookup k = none ∧ efrIndex k = 232 + (k - 224) := by decide +kernel
        exact this k hk (by omega)
      unfold efrBack
      rw [this.1, this.2]
  rw [this]

theorem maj_self (a : Bool) : maj a a a = a := by cases a <;> rfl

/-- what was repeated comes back -/
theorem efrBack_efrW (s : List Bool) (i : Nat) (hi : i < 252) : efrBack (efrW s) i = (s ++ efrP s).getD i false := by
  have h1 : ∀ i < 252, efrIndex i < 260 ∧ efrSource.getD (efrIndex i) 0 = i := by decide +kernel
  have h2 : ∀ i < 252, ∀ k ∈ efrThrice.lookup i, k + 1 < 260 ∧ efrSource.getD k 0 = i ∧ efrSource.getD (k + 1) 0 = i := by decide +kernel
  have g : ∀ k < 260, (efrW s).getD k false = (s ++ efrP s).getD (efrSource.getD k 0) false := fun k hk => range_get _ _ _ hk
  unfold efrBack
  split
  · rename_i k hk
    obtain ⟨a, b, c⟩ := h2 i hi k hk
    rw [g _ (h1 i hi).1, g k (by omega), g _ a, (h1 i hi).2, b, c, maj_self]
  · rw [g _ (h1 i hi).1, (h1 i hi).2]

/-! ### C107: TCH/EFS -/

/-- the rank of `w(k)`, from the most to the least important -/
def efrRank (k : Nat) : Nat := efrOrder.idxOf k

/-- the bits of a frame, most important first -/
def efrD (s : List Bool) : List Bool := ordered efrOrder (efrW s)

theorem efrD_length (s : List Bool) : (efrD s).length = 260 := by
  unfold efrD; rw [ordered_length]; exact efrOrder_ok.1

theorem efrRank_lt (k : Nat) (h : k < 260) : efrRank k < 260 := efrOrder_ok.idx k h

theorem efrD_get (s : List Bool) (k : Nat) (h : k < 260) : (efrD s).getD (efrRank k) false = (s ++ efrP s).getD (efrSource.getD k 0) false := by
  rw [efrRank, ← placed_at efrOrder_ok _ _ h, efrD, placed_ordered efrOrder_ok _ (efrW_length s)]
  exact range_get _ _ _ h

theorem efrToD_spec (s : EncF) (hs : s.Ok) (tch : List Byte) (ht : 31 ≤ tch.length) :
    efrToD s tch = some ((efrD (msbBits 4 244 tch)).map ubit, (efrP (msbBits 4 244 tch)).map ubit) := by
  have hl := msbBits_length 4 244 tch
  unfold efrToD efrDisassemble efrWtoD efrD
  simp only [Option.bind_eq_bind]
  rw [unpackMsb_spec _ _ _ _ (by omega) (by rw [hs.sv]), Option.bind_some, List.drop_of_length_le (l := s.s) (by rw [hs.sv]), List.append_nil,
    efrProtected_spec _ hl _ hs.b, Option.bind_some]
  have hp := setP_spec efrCrc8 efrCrc8_shifts ((efrProtectedBits.map (· - 1)).map fun k => (msbBits 4 244 tch).getD k false) 0 65 s.p
    (by simp [efrProtectedBits]) (by rw [hs.p]; decide)
  rw [List.drop_zero, List.take_of_length_le (by simp [efrProtectedBits]), List.drop_of_length_le (l := s.p) (by rw [hs.p]; decide),
    List.append_nil] at hp
  have hp' : setP efrCrc8 (((efrProtectedBits.map (· - 1)).map fun k => (msbBits 4 244 tch).getD k false).map ubit) 0 65 s.p =
    some ((efrP (msbBits 4 244 tch)).map ubit) := hp
  rw [hp', Option.bind_some, efrReorder_spec _ _ hs.w hl, Option.bind_some, copy_ordered efrOrder_ok _ (efrW_length _) _ hs.d, Option.bind_some]

theorem efrFromD_spec (s : DecF) (hs : s.Ok) (tch p : List Byte) (hp : p.length = 8) (ht : 31 ≤ tch.length) (d : List Bool) (hd : d.length = 260) :
    ∃ f, Frame 0xc0#8 4 244 (efrS (placed efrOrder d)) f ∧
      efrFromD s tch (d.map ubit) p = some (if ((placed efrOrder d).drop 252).take 8 = efrP (efrS (placed efrOrder d)) then (31, f ++ tch.drop 31)
        else (-1, tch)) := by
  have hS : (efrS (placed efrOrder d)).length = 244 := by simp [efrS]
  have hW : (placed efrOrder d).length = 260 := by rw [placed_length]; exact efrOrder_ok.1
  obtain ⟨f, h1, h2⟩ := write_frame 0xc0#8 30 4 244 tch [] (efrS (placed efrOrder d)) ht rfl (by omega) hS (by decide)
  refine ⟨f, h1, ?_⟩
  rw [List.append_nil] at h2
  unfold efrFromD efrDtoW efrReassemble
  simp only [Option.bind_eq_bind]
  rw [copy_placed efrOrder_ok _ hd _ hs.w, Option.bind_some, efrUnreorder_spec _ _ _ hs.sv hp hW, Option.bind_some]
  dsimp only
  rw [efrProtected_spec _ hS _ hs.b, Option.bind_some]
  have hc := checkP_spec efrCrc8 efrCrc8_shifts ((efrProtectedBits.map (· - 1)).map fun k => (efrS (placed efrOrder d)).getD k false)
    (((placed efrOrder d).drop 252).take 8) 0 65 [] (by simp [efrProtectedBits]) (by simp [hW]; rfl)
  rw [List.drop_zero, List.take_of_length_le (l := List.map _ _) (by simp [efrProtectedBits]), List.append_nil] at hc
  have hc' : checkP efrCrc8 (((efrProtectedBits.map (· - 1)).map fun k => (efrS (placed efrOrder d)).getD k false).map ubit) 0 65
    ((((placed efrOrder d).drop 252).take 8).map ubit) =
      some (if ((placed efrOrder d).drop 252).take 8 = efrP (efrS (placed efrOrder d)) then 0 else 1) := hc
  rw [hc', Option.bind_some]
  by_cases hq : ((placed efrOrder d).drop 252).take 8 = efrP (efrS (placed efrOrder d))
  · rw [if_pos hq, if_pos hq, if_neg (by simp), h2]
    rfl
  · rw [if_neg hq, if_neg hq, if_pos (by simp)]

/-- a frame of 31 bytes: `f` has the signature `0xc`, and its bits, `bit i` each -/
structure EfrFrame (bit : Nat → Bool) (f : List Byte) : Prop where
  len : f.length = 31
  sig : (f.getD 0 0#8).toNat / 16 = 0xc
  bits : ∀ i < 244, bitAt false f (4 + i) = bit i

theorem EfrFrame.of {bits : List Bool} {f : List Byte} (h : Frame 0xc0#8 4 244 bits f) : EfrFrame (fun i => bits.getD i false) f where
  len := by have := h.1; omega
  sig := sig_of _ _ h.2.1
  bits := by
    intro i hi
    rw [← h.2.2, msbBits_get _ _ _ _ hi]

/-- `w(k)`, being `x`, as received: what the soft bit says, if it is of class 2 -/
def efrGot (x : Bool) (r : List Int) (k : Nat) : Bool := if efrRank k < 182 then x else hard r (tchFPlain (efrRank k))

/-- bit `i` of a frame, being `x`, as received: by majority, if it was sent three times -/
def efrDecided (x : Bool) (r : List Int) (i : Nat) : Bool :=
  match efrThrice.lookup i with
  | some k => maj (efrGot x r (efrIndex i)) (efrGot x r k) (efrGot x r (k + 1))
  | none => efrGot x r (efrIndex i)

theorem got_get (s : List Bool) (r : List Int) (k : Nat) (h : k < 260) :
    (placed efrOrder (frGot (efrD s) r)).getD k false = efrGot ((s ++ efrP s).getD (efrSource.getD k 0) false) r k := by
  rw [placed_at efrOrder_ok _ _ h, show efrOrder.idxOf k = efrRank k from rfl, frGot_get _ _ _ (efrRank_lt k h), efrD_get _ _ h]
  rfl

theorem index_source : ∀ i < 252, efrIndex i < 260 ∧ efrSource.getD (efrIndex i) 0 = i := by decide +kernel

theorem thrice_source : ∀ i < 252, ∀ k ∈ efrThrice.lookup i, k + 1 < 260 ∧ efrSource.getD k 0 = i ∧ efrSource.getD (k + 1) 0 = i := by
  decide +kernel

theorem back_got (s : List Bool) (r : List Int) (i : Nat) (hi : i < 252) :
    efrBack (placed efrOrder (frGot (efrD s) r)) i = efrDecided ((s ++ efrP s).getD i false) r i := by
  have h1 := index_source i hi
  unfold efrBack efrDecided
  split
  · rename_i k hk
    obtain ⟨a, b, c⟩ := thrice_source i hi k hk
    rw [got_get _ _ _ h1.1, got_get _ _ k (by omega), got_get _ _ _ a, h1.2, b, c]
  · rw [got_get _ _ _ h1.1, h1.2]

/-- the protected bits and their parity are sent once and in class 1 -/
theorem protected_class1 : (∀ i ∈ efrProtectedBits.map (· - 1), i < 244 ∧ efrThrice.lookup i = none ∧ efrRank (efrIndex i) < 182) ∧
    ∀ i < 8, efrRank (252 + i) < 182 ∧ efrSource.getD (252 + i) 0 = 244 + i := by decide +kernel

theorem efrP_congr (s s' : List Bool) (h : ∀ i ∈ efrProtectedBits.map (· - 1), s.getD i false = s'.getD i false) : efrP s = efrP s' := by
  unfold efrP
  rw [List.map_congr_left h]

theorem parity_got (s : List Bool) (hs : s.length = 244) (r : List Int) :
    ((placed efrOrder (frGot (efrD s) r)).drop 252).take 8 = efrP (efrS (placed efrOrder (frGot (efrD s) r))) := by
  have hW : (placed efrOrder (frGot (efrD s) r)).length = 260 := by rw [placed_length]; exact efrOrder_ok.1
  have h1 : efrP (efrS (placed efrOrder (frGot (efrD s) r))) = efrP s := by
    apply efrP_congr
    intro i hi
    obtain ⟨a, b, c⟩ := protected_class1.1 i hi
    unfold efrS
    rw [range_get _ _ _ a, back_got _ _ _ (by omega)]
    unfold efrDecided efrGot
    rw [b]
    dsimp only
    rw [if_pos c, getD_append_left _ _ _ (by omega)]
  rw [h1]
  apply bits_ext (n := 8) (by simp [hW]) (efrP_length s)
  intro i hi
  rw [take_drop_get _ _ _ _ hi, got_get _ _ _ (by omega)]
  obtain ⟨a, b⟩ := protected_class1.2 i hi
  unfold efrGot
  rw [if_pos a, b, getD_append_right _ _ _ (by omega), show 244 + i - s.length = i by omega]

/-- C107: **TCH/EFS.**  A frame of 31 bytes (the first four bits do not matter) is encoded to eight bursts, with the stealing flags clear
and no other places written.  What has rank 182 or more is sent as it is.  From soft bits that speak against the coded bits of class 1 by
less than 7/2 of the weakest one, the flags, taken together, not saying stolen, a frame of 31 bytes with signature `0xc` comes back: the
bits that are sent in class 1 are those sent; others are as received, or what is received for at least two of three copies. -/
theorem efr_roundtrip_soft (es : EncF) (hes : es.Ok) (map : List Nat) (net : Bool) (bursts tch : List Byte)
    (hb : 928 ≤ bursts.length) (ht : 31 ≤ tch.length) :
    ∃ b, tchFEncode map es bursts tch 31 net = some (0, b) ∧ Sent 0#8 bursts b ∧
      (∀ k < 252, 182 ≤ efrRank k → b.getD (tchFPlain (efrRank k)) 0#8 = ubit (bitAt false tch (4 + efrSource.getD k 0))) ∧
      ∀ (ds : DecF) (map' : List Nat) (net' : Bool) (out : List Byte) (r : List Int) (m : Int), ds.Ok → 31 ≤ out.length → 928 ≤ r.length →
        0 ≤ m → m ≤ 127 → SoftAt tchFClass1 m r → 2 * contra tchFClass1 b r < 7 * m → 0 ≤ flagSum tchFFlags r →
        ∃ f, EfrFrame (fun i => efrDecided (bitAt false tch (4 + i)) r i) f ∧
          tchFDecode map' ds out r net' true = some { rv := 31, data := f ++ out.drop 31, errors := wrong tchFClass1 b r, total := 378 } := by
  have hl := msbBits_length 4 244 tch
  obtain ⟨b, b1, b2, b3⟩ := frCode_send es hes (efrD (msbBits 4 244 tch)) (efrD_length _) ((efrP (msbBits 4 244 tch)).map ubit)
    (by rw [List.length_map, efrP_length]) bursts hb
  refine ⟨b, ?_, b2, ?_, ?_⟩
  · unfold tchFEncode
    rw [if_pos rfl, efrToD_spec es hes tch ht, Option.bind_some]
    exact b1
  · intro k hk h2
    obtain ⟨sent, -, -, h⟩ := b3
    have hsrc : efrSource.getD k 0 < 244 := by
      have : ∀ k < 252, efrSource.getD k 0 < 244 := by decide +kernel
      exact this k hk
    rw [h _ h2 (efrRank_lt _ (by omega)), efrD_get _ _ (by omega), getD_append_left _ _ _ (by omega), msbBits_get _ _ _ _ hsrc]
  · intro ds map' net' out r m hds ho hr hm hm' hsoft hc hf
    obtain ⟨fl, f1, f2⟩ := flags_spec r hr
    obtain ⟨f, g1, g2⟩ := efrFromD_spec ds hds out ((frP (efrD (msbBits 4 244 tch))).map ubit ++ ds.p.drop 3)
      (by rw [List.length_append, List.length_map, frP_length, List.length_drop, hds.p]) ho (frGot (efrD (msbBits 4 244 tch)) r) (frGot_length _ _)
    refine ⟨f, ?_, ?_⟩
    · have := EfrFrame.of g1
      refine ⟨this.len, this.sig, fun i hi => ?_⟩
      rw [this.bits i hi]
      unfold efrS
      rw [range_get _ _ _ hi, back_got _ _ _ (by omega), getD_append_left _ _ _ (by omega), msbBits_get _ _ _ _ hi]
    · rw [if_pos (parity_got _ hl r)] at g2
      unfold tchFDecode
      simp only [Option.bind_eq_bind]
      rw [f1, Option.bind_some, tchFrReceive_spec _ _ _ 0 hds.x.cB hds.x.iB hr, Option.bind_some, if_neg (by omega),
        frDecodeD_soft ds hds _ (efrD_length _) b b3 r hm hm' hsoft hc, Option.bind_some]
      dsimp only
      rw [if_neg (by simp), if_pos trivial, g2]
      rfl

/-- C107: the bits that are sent three times are sent in class 2, and are right if two of their copies are. -/
theorem efr_two_of_three (x : Bool) (r : List Int) (i k : Nat) (h : (i, k) ∈ efrThrice) :
    (182 ≤ efrRank (efrIndex i) ∧ 182 ≤ efrRank k ∧ 182 ≤ efrRank (k + 1)) ∧
    ((hard r (tchFPlain (efrRank (efrIndex i))) = x ∧ hard r (tchFPlain (efrRank k)) = x) ∨
      (hard r (tchFPlain (efrRank (efrIndex i))) = x ∧ hard r (tchFPlain (efrRank (k + 1))) = x) ∨
      (hard r (tchFPlain (efrRank k)) = x ∧ hard r (tchFPlain (efrRank (k + 1))) = x) → efrDecided x r i = x) := by
  have h1 : ∀ q ∈ efrThrice, efrThrice.lookup q.1 = some q.2 ∧ 182 ≤ efrRank (efrIndex q.1) ∧ 182 ≤ efrRank q.2 ∧ 182 ≤ efrRank (q.2 + 1) := by
    decide +kernel
  obtain ⟨a, b, c, d⟩ := h1 (i, k) h
  dsimp only at a b c d
  refine ⟨⟨b, c, d⟩, fun h2 => ?_⟩
  unfold efrDecided efrGot
  rw [a]
  dsimp only
  rw [if_neg (by omega), if_neg (by omega), if_neg (by omega)]
  unfold maj
  rcases h2 with ⟨e1, e2⟩ | ⟨e1, e2⟩ | ⟨e1, e2⟩ <;> rw [e1, e2] <;> cases x <;> simp

/-- C107: **three wrong bits** of class 1 are always corrected. -/
theorem efr_corrects (es : EncF) (hes : es.Ok) (map : List Nat) (net : Bool) (bursts tch b : List Byte)
    (hb : 928 ≤ bursts.length) (ht : 31 ≤ tch.length) (he : tchFEncode map es bursts tch 31 net = some (0, b)) (ds : DecF) (hds : ds.Ok)
    (out : List Byte) (ho : 31 ≤ out.length) (r : List Int) (hr : 928 ≤ r.length)
    (hh : ∀ p ∈ tchFClass1, r.getD p 0 = 127 ∨ r.getD p 0 = -127) (hw : wrong tchFClass1 b r ≤ 3) (hf : 0 ≤ flagSum tchFFlags r) :
    ∃ f, EfrFrame (fun i => efrDecided (bitAt false tch (4 + i)) r i) f ∧
      tchFDecode map ds out r net true = some { rv := 31, data := f ++ out.drop 31, errors := wrong tchFClass1 b r, total := 378 } := by
  obtain ⟨b', e1, -, -, e5⟩ := efr_roundtrip_soft es hes map net bursts tch hb ht
  rw [he] at e1
  obtain rfl := (Prod.mk.inj (Option.some.inj e1)).2
  refine e5 ds map net out r 127 hds ho hr (by omega) (by omega) (fun p hp => ?_) ?_ hf
  · rcases hh p hp with h | h <;> rw [h] <;> omega
  · rw [contra_hard _ _ _ hh]; omega

/-- C107: without errors the frame comes back, with signature `0xc`. -/
theorem efr_roundtrip (es : EncF) (hes : es.Ok) (map : List Nat) (net : Bool) (bursts tch : List Byte)
    (hb : 928 ≤ bursts.length) (ht : tch.length = 31) (hsig : (tch.getD 0 0#8).toNat / 16 = 0xc) :
    ∃ b, tchFEncode map es bursts tch 31 net = some (0, b) ∧ ∀ (ds : DecF) (out : List Byte), ds.Ok → 31 ≤ out.length →
      tchFDecode map ds out (clean b) net true = some { rv := 31, data := tch ++ out.drop 31, errors := 0, total := 378 } := by
  obtain ⟨b, e1, e2, e3, e4⟩ := efr_roundtrip_soft es hes map net bursts tch hb (by omega)
  have hbl : 928 ≤ b.length := by rw [e2.len]; exact hb
  refine ⟨b, e1, fun ds out hds ho => ?_⟩
  have hc : ∀ p ∈ tchFClass1, (clean b).getD p 0 = 127 ∨ (clean b).getD p 0 = -127 := by
    intro p hp
    rw [clean_get _ _ (by have := class1_lt p hp; omega)]
    split
    · exact .inl rfl
    · exact .inr rfl
  have hw := clean_wrong b tchFClass1 (fun p hp => by have := class1_lt p hp; omega)
  obtain ⟨f, g1, g2⟩ := e4 ds map net out (clean b) 127 hds ho (by simpa [clean] using hbl) (by omega) (by omega)
    (fun p hp => by rcases hc p hp with h | h <;> rw [h] <;> omega) (by rw [contra_hard _ _ _ hc, hw]; omega)
    (by rw [clean_flags b hbl e2.flags]; omega)
  rw [g2, hw]
  have hgot : ∀ k < 252, efrGot (bitAt false tch (4 + efrSource.getD k 0)) (clean b) k = bitAt false tch (4 + efrSource.getD k 0) := by
    intro k hk
    unfold efrGot
    split
    · rfl
    · exact clean_hard b _ (by have := tchF_place_lt (196 + efrRank k); unfold tchFPlain; omega) _ (e3 k hk (by omega))
  have : f = tch := by
    apply ext_msb (by rw [g1.len, ht])
    intro j
    by_cases h1 : j < 248
    · by_cases h2 : j < 4
      · exact high_bits f tch (by rw [g1.sig, hsig]) j h2
      · have h3 := g1.bits (j - 4) (by omega)
        have h5 : ∀ i < 244, efrIndex i < 252 ∧ efrSource.getD (efrIndex i) 0 = i := by decide +kernel
        have h6 : ∀ i < 244, ∀ k ∈ efrThrice.lookup i, k + 1 < 252 ∧ efrSource.getD k 0 = i ∧ efrSource.getD (k + 1) 0 = i := by decide +kernel
        obtain ⟨h5, h5'⟩ := h5 (j - 4) (by omega)
        have k1 := hgot _ h5
        rw [h5'] at k1
        rw [show 4 + (j - 4) = j by omega] at h3 k1
        rw [h3]
        unfold efrDecided
        split
        · rename_i k hk
          obtain ⟨a1, a2, a3⟩ := h6 (j - 4) (by omega) k hk
          have k2 := hgot k (by omega)
          have k3 := hgot _ a1
          rw [a2, show 4 + (j - 4) = j by omega] at k2
          rw [a3, show 4 + (j - 4) = j by omega] at k3
          rw [k1, k2, k3, maj_self]
        · exact k1
    · unfold bitAt
      rw [List.getD_eq_getElem?_getD, List.getD_eq_getElem?_getD, List.getElem?_eq_none (by rw [g1.len]; omega),
        List.getElem?_eq_none (by rw [ht]; omega)]
  rw [this]

/-- class 1 has nothing that is sent three times -/
theorem class1_once : ∀ k < 260, efrRank k < 182 → efrThrice.lookup (efrSource.getD k 0) = none ∧ efrIndex (efrSource.getD k 0) = k ∧
    efrSource.getD k 0 < 252 := by decide +kernel

theorem index_high : ∀ i < 252, 244 ≤ i → efrIndex i = 252 + (i - 244) := by decide +kernel

/-- C107: **whatever is received** and not stolen is refused, the buffer being left alone, or the bytes returned are a frame that, sent,
differs from what was received in as many bits of class 1 as reported, and otherwise only in bits sent three times. -/
theorem efr_decode_sound (ds : DecF) (hds : ds.Ok) (map : List Nat) (net : Bool) (out : List Byte)
    (ho : 31 ≤ out.length) (r : List Int) (hr : 928 ≤ r.length) (hs : ∀ p ∈ tchFData, -127 ≤ r.getD p 0 ∧ r.getD p 0 ≤ 127)
    (hf : 0 ≤ flagSum tchFFlags r) :
    ∃ res, tchFDecode map ds out r net true = some res ∧ res.total = 378 ∧
      ((res.rv = -1 ∧ res.data = out) ∨
        (res.rv = 31 ∧ ∃ f, f.length = 31 ∧ (f.getD 0 0#8).toNat / 16 = 0xc ∧ res.data = f ++ out.drop 31 ∧
          ∀ (es : EncF) (map' : List Nat) (net' : Bool) (bursts b : List Byte), es.Ok → 928 ≤ bursts.length →
            tchFEncode map' es bursts f 31 net' = some (0, b) →
            res.errors = wrong tchFClass1 b r ∧ ∀ i < 244, efrThrice.lookup i = none → 182 ≤ efrRank (efrIndex i) →
              b.getD (tchFPlain (efrRank (efrIndex i))) 0#8 = ubit (hard r (tchFPlain (efrRank (efrIndex i)))))) := by
  obtain ⟨fl, f1, f2⟩ := flags_spec r hr
  unfold tchFDecode
  simp only [Option.bind_eq_bind]
  rw [f1, Option.bind_some, tchFrReceive_spec _ _ _ 0 hds.x.cB hds.x.iB hr, Option.bind_some, if_neg (by omega)]
  rcases frDecodeD_any ds hds r hs with ⟨d, p, e, h⟩ | ⟨d, e, h1, h2, h3, h4⟩
  · rw [h, Option.bind_some]
    dsimp only
    rw [if_pos (by decide)]
    exact ⟨_, rfl, rfl, .inl ⟨rfl, rfl⟩⟩
  · obtain ⟨f, g1, g2⟩ := efrFromD_spec ds hds out ((frP d).map ubit ++ ds.p.drop 3)
      (by rw [List.length_append, List.length_map, frP_length, List.length_drop, hds.p]) ho d h1
    rw [h3, Option.bind_some]
    dsimp only
    rw [if_neg (by simp), if_pos trivial, g2]
    have hW : (placed efrOrder d).length = 260 := by rw [placed_length]; exact efrOrder_ok.1
    have gf := EfrFrame.of g1
    have hbits := g1.2.2
    generalize hWe : placed efrOrder d = W at *
    by_cases hq : (W.drop 252).take 8 = efrP (efrS W)
    · rw [if_pos hq]
      refine ⟨_, rfl, rfl, .inr ⟨rfl, f, gf.len, gf.sig, rfl, ?_⟩⟩
      intro es map' net' bursts b hes hb he
      obtain ⟨b', b1, -, b3⟩ := frCode_send es hes (efrD (msbBits 4 244 f)) (efrD_length _) ((efrP (msbBits 4 244 f)).map ubit)
        (by rw [List.length_map, efrP_length]) bursts hb
      unfold tchFEncode at he
      rw [if_pos rfl, efrToD_spec es hes f (by rw [gf.len]), Option.bind_some] at he
      obtain rfl : b = b' := (Prod.mk.inj (Option.some.inj (he.symm.trans b1))).2
      rw [hbits] at b3
      have hS : (efrS W).length = 244 := by simp [efrS]
      have hd : ∀ k < 260, d.getD (efrRank k) false = W.getD k false := by
        intro k hk
        rw [← hWe, placed_at efrOrder_ok _ _ hk]
        rfl
      have hback : ∀ k < 260, efrThrice.lookup (efrSource.getD k 0) = none → efrIndex (efrSource.getD k 0) = k → efrSource.getD k 0 < 252 →
          (efrD (efrS W)).getD (efrRank k) false = d.getD (efrRank k) false := by
        intro k hk a1 a2 a3
        rw [efrD_get _ _ hk, hd k hk]
        by_cases hh : efrSource.getD k 0 < 244
        · rw [getD_append_left _ _ _ (by omega)]
          unfold efrS
          rw [range_get _ _ _ hh]
          unfold efrBack
          rw [a1]
          dsimp only
          rw [a2]
        · rw [getD_append_right _ _ _ (by omega), ← hq, take_drop_get _ _ _ _ (by omega)]
          have := index_high _ a3 (by omega)
          rw [a2] at this
          rw [hS, ← this]
      refine ⟨h4 _ b (efrD_length _) ?_ b3, ?_⟩
      · intro j hj
        have e1 : efrRank (efrOrder.getD j 0) = j := by
          unfold efrRank
          rw [List.getD_eq_getElem?_getD, List.getElem?_eq_getElem (by rw [efrOrder_ok.1]; omega), Option.getD_some]
          exact (mask_full efrOrder_ok.2).1.idxOf_getElem _ _
        obtain ⟨a1, a2, a3⟩ := class1_once (efrOrder.getD j 0) (efrOrder_ok.lt j (by omega)) (by omega)
        have := hback _ (efrOrder_ok.lt j (by omega)) a1 a2 a3
        rw [e1] at this
        exact this
      · intro i hi h5 h6
        obtain ⟨c1, c2⟩ := index_source i (by omega)
        obtain ⟨sent, -, -, b3⟩ := b3
        have := hback (efrIndex i) c1 (by rw [c2]; exact h5) (by rw [c2]) (by rw [c2]; omega)
        rw [b3 _ h6 (efrRank_lt _ c1), this, h2 _ h6 (efrRank_lt _ c1)]
    · rw [if_neg hq]
      exact ⟨_, rfl, rfl, .inl ⟨rfl, rfl⟩⟩

end Verif.Tch
