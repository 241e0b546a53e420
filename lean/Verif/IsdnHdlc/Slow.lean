import Verif.IsdnHdlc.Spec
/-!
A receiver of HDLC frames that takes bit after bit, and what it makes of the bits of
`Spec.lean`.  The decoder of src/core/isdnhdlc.c is compared to it in `Dec.lean`.
-/
namespace Verif.IsdnHdlc

open Verif.Crc (crc16CcittByte)

/-- State of the receiver. -/
structure S where
  ones : Nat
  nbits : Nat
  reg : Byte
  crc : BitVec 16
  recv : Bool
  data : List Byte
deriving DecidableEq, Repr

/-- After a flag. -/
def fresh : S := { ones := 0, nbits := 0, reg := 0, crc := 0xffff, recv := false, data := [] }

/-- An event: return value and octets received with it. -/
abbrev Event := Int × List Byte

/-- The verdict on a frame. -/
def verdict (data : List Byte) (crc : BitVec 16) : Int :=
  if data.length < 2 then -1 else if crc ≠ 0xf0b8#16 then -2 else ((data.length - 2 : Nat) : Int)

/-- A bit of data; `none` if there is no room. -/
def shiftIn (dsize : Nat) (s : S) (b : Bool) (ones : Nat) : Option S :=
  let reg := (s.reg >>> 1) ||| (if b then 0x80 else 0)
  if s.nbits + 1 = 8 then
    if s.data.length < dsize then
      some { ones := ones, nbits := 0, reg := reg, crc := crc16CcittByte s.crc reg, recv := true, data := s.data ++ [reg] }
    else none
  else some { s with ones := ones, nbits := s.nbits + 1, reg := reg }

/-- A bit; `none` at the seventh one in a row or if there is no room. -/
def sstep (dsize : Nat) (s : S) (b : Bool) : Option (S × List Event) :=
  if b then
    if s.ones = 5 then some ({ s with ones := 6 }, [])
    else if s.ones ≥ 6 then none
    else (shiftIn dsize s true (s.ones + 1)).map (fun s => (s, []))
  else if s.ones = 5 then some ({ s with ones := 0 }, [])
  else if s.ones = 6 then
    some (fresh, if s.recv = true ∧ verdict s.data s.crc ≠ 0 then [(verdict s.data s.crc, s.data)] else [])
  else (shiftIn dsize s false 0).map (fun s => (s, []))

/-- Bit after bit. -/
def srun (dsize : Nat) : S → List Bool → Option (S × List Event)
  | s, [] => some (s, [])
  | s, b :: bs => (sstep dsize s b).bind (fun r => (srun dsize r.1 bs).map (fun q => (q.1, r.2 ++ q.2)))

theorem srun_append (dsize : Nat) (x y : List Bool) (s : S) :
    srun dsize s (x ++ y) = (srun dsize s x).bind (fun r => (srun dsize r.1 y).map (fun q => (q.1, r.2 ++ q.2))) := by
  induction x generalizing s with
  | nil => simp [srun]
  | cons b x ih =>
    simp only [List.cons_append, srun]
    cases sstep dsize s b with
    | none => rfl
    | some r =>
      simp only [Option.bind_some, ih]
      cases srun dsize r.1 x with
      | none => rfl
      | some q =>
        simp only [Option.bind_some, Option.map_some]
        cases srun dsize q.1 y with
        | none => rfl
        | some q => simp

/-- Ones in a row after a bit, counting anew after a stuffed zero. -/
def nextOnes (n : Nat) (b : Bool) : Nat := if b then (if n + 1 = 5 then 0 else n + 1) else 0

/-- Bits of data without stuffing. -/
def shiftAll (dsize : Nat) : S → List Bool → Option S
  | s, [] => some s
  | s, b :: bs => (shiftIn dsize s b (nextOnes s.ones b)).bind (fun s => shiftAll dsize s bs)

theorem shiftIn_ones {dsize : Nat} {s : S} {b : Bool} {n : Nat} {t : S} (h : shiftIn dsize s b n = some t) : t.ones = n := by
  unfold shiftIn at h
  dsimp only at h
  split at h
  · split at h
    · cases h; rfl
    · cases h
  · cases h; rfl

theorem shiftIn_change {dsize : Nat} {s : S} {b : Bool} (n m : Nat) :
    (shiftIn dsize s b n).map (fun t => { t with ones := m }) = shiftIn dsize s b m := by
  unfold shiftIn
  dsimp only
  split
  · split <;> rfl
  · rfl

theorem srun_stuff (dsize : Nat) (bits z : List Bool) : ∀ s : S, s.ones < 5 →
    srun dsize s (stuff s.ones bits ++ z) = (shiftAll dsize s bits).bind (fun t => srun dsize t z) := by
  induction bits with
  | nil => intro s _; rfl
  | cons b bits ih =>
    intro s hs
    cases b with
    | false =>
      simp only [stuff, List.cons_append, srun, shiftAll, nextOnes, sstep, Bool.false_eq_true, if_false,
        if_neg (show ¬ s.ones = 5 by omega), if_neg (show ¬ s.ones = 6 by omega)]
      cases h : shiftIn dsize s false 0 with
      | none => rfl
      | some t =>
        have h1 := shiftIn_ones h
        have h2 := ih t (by omega)
        rw [h1] at h2
        simp [h2]
    | true =>
      by_cases h5 : s.ones + 1 = 5
      · simp only [stuff, if_pos h5, List.cons_append, srun, shiftAll, nextOnes, sstep, if_true,
          if_neg (show ¬ s.ones = 5 by omega), if_neg (show ¬ s.ones ≥ 6 by omega)]
        rw [← shiftIn_change (s.ones + 1) 0]
        cases h : shiftIn dsize s true (s.ones + 1) with
        | none => rfl
        | some t =>
          have h1 := shiftIn_ones h
          have h2 := ih { t with ones := 0 } (by simp)
          simp only at h2
          simp [h1, h5, h2]
      · simp only [stuff, if_neg h5, List.cons_append, srun, shiftAll, nextOnes, sstep, if_true,
          if_neg (show ¬ s.ones = 5 by omega), if_neg (show ¬ s.ones ≥ 6 by omega)]
        cases h : shiftIn dsize s true (s.ones + 1) with
        | none => rfl
        | some t =>
          have h1 := shiftIn_ones h
          have h2 := ih t (by omega)
          rw [h1] at h2
          simp [h2]

theorem nextOnes_lt {n : Nat} (b : Bool) (h : n < 5) : nextOnes n b < 5 := by
  unfold nextOnes
  split
  · split <;> omega
  · omega

theorem reg_octet (r b : Byte) :
    (lsbBits b).foldl (fun (r : Byte) (b : Bool) => (r >>> 1) ||| (if b then (0x80 : Byte) else 0)) r = b := by
  have h : ∀ i, i < 8 → ((lsbBits b).foldl (fun (r : Byte) (b : Bool) => (r >>> 1) ||| (if b then (0x80 : Byte) else 0)) r).getLsbD i = b.getLsbD i := by
    have h1 : ∀ (x : Byte) (c : Bool) (i : Nat), ((x >>> 1) ||| (if c then (0x80 : Byte) else 0)).getLsbD i =
        (x.getLsbD (1 + i) || (c && decide (i = 7))) := by
      intro x c i
      rw [BitVec.getLsbD_or, BitVec.getLsbD_ushiftRight]
      congr 1
      cases c
      · simp
      · by_cases hi : i < 8
        · have := (by decide : ∀ j : Fin 8, (0x80#8).getLsbD j.val = (true && decide (j.val = 7))) ⟨i, hi⟩
          simpa using this
        · rw [if_pos rfl, BitVec.getLsbD_of_ge _ _ (by omega)]
          simp; omega
    intro i hi
    have h2 : lsbBits b = [b.getLsbD 0, b.getLsbD 1, b.getLsbD 2, b.getLsbD 3, b.getLsbD 4, b.getLsbD 5, b.getLsbD 6, b.getLsbD 7] := rfl
    rw [h2]
    simp only [List.foldl_cons, List.foldl_nil, h1]
    have : i = 0 ∨ i = 1 ∨ i = 2 ∨ i = 3 ∨ i = 4 ∨ i = 5 ∨ i = 6 ∨ i = 7 := by omega
    rcases this with rfl | rfl | rfl | rfl | rfl | rfl | rfl | rfl <;> simp
  exact BitVec.eq_of_getLsbD_eq (fun i hi => h i hi)

theorem shiftAll_octet (dsize : Nat) (s : S) (b : Byte) (bits : List Bool) (hn : s.nbits = 0) (ho : s.ones < 5)
    (hd : s.data.length < dsize) :
    ∃ t : S, t.ones < 5 ∧ t.nbits = 0 ∧ t.crc = crc16CcittByte s.crc b ∧ t.recv = true ∧ t.data = s.data ++ [b] ∧
      shiftAll dsize s (lsbBits b ++ bits) = shiftAll dsize t bits := by
  have h2 : lsbBits b = [b.getLsbD 0, b.getLsbD 1, b.getLsbD 2, b.getLsbD 3, b.getLsbD 4, b.getLsbD 5, b.getLsbD 6, b.getLsbD 7] := rfl
  have hr := reg_octet s.reg b
  have key : ∃ n, n < 5 ∧ shiftAll dsize s (lsbBits b ++ bits) =
      shiftAll dsize { ones := n, nbits := 0, reg := b, crc := crc16CcittByte s.crc b, recv := true, data := s.data ++ [b] } bits := by
    obtain ⟨ones, nbits, reg, crc, recv, data⟩ := s
    simp only at hn ho hd hr
    subst hn
    rw [h2] at hr ⊢
    simp only [List.foldl_cons, List.foldl_nil] at hr
    refine ⟨nextOnes (nextOnes (nextOnes (nextOnes (nextOnes (nextOnes (nextOnes (nextOnes ones _) _) _) _) _) _) _) _,
      nextOnes_lt (b.getLsbD 7) (nextOnes_lt (b.getLsbD 6) (nextOnes_lt (b.getLsbD 5) (nextOnes_lt (b.getLsbD 4)
        (nextOnes_lt (b.getLsbD 3) (nextOnes_lt (b.getLsbD 2) (nextOnes_lt (b.getLsbD 1) (nextOnes_lt (b.getLsbD 0) ho))))))), ?_⟩
    simp only [List.cons_append, List.nil_append, shiftAll, shiftIn, Option.bind_some, reduceIte, if_pos hd,
      Nat.zero_add, Nat.reduceAdd, Nat.reduceEqDiff, hr]
  obtain ⟨n, h1, h3⟩ := key
  exact ⟨_, h1, rfl, rfl, rfl, rfl, h3⟩

theorem shiftAll_octets (dsize : Nat) (l : List Byte) : ∀ s : S, s.nbits = 0 → s.ones < 5 → s.data.length + l.length ≤ dsize →
    ∃ t : S, shiftAll dsize s (l.flatMap lsbBits) = some t ∧ t.ones < 5 ∧ t.nbits = 0 ∧ t.crc = l.foldl crc16CcittByte s.crc ∧
      t.recv = (s.recv || !l.isEmpty) ∧ t.data = s.data ++ l := by
  induction l with
  | nil => intro s h1 h2 _; exact ⟨s, rfl, h2, h1, rfl, by simp, by simp⟩
  | cons b l ih =>
    intro s h1 h2 h3
    rw [List.length_cons] at h3
    obtain ⟨t, a1, a2, a3, a4, a5, a6⟩ := shiftAll_octet dsize s b (l.flatMap lsbBits) h1 h2 (by omega)
    obtain ⟨u, b1, b2, b3, b4, b5, b6⟩ := ih t a2 a1 (by rw [a5, List.length_append, List.length_singleton]; omega)
    refine ⟨u, ?_, b2, b3, ?_, ?_, ?_⟩
    · rw [List.flatMap_cons, a6, b1]
    · rw [b4, a3]; rfl
    · rw [b5, a4]; simp
    · rw [b6, a5]; simp

/-- The flag at the end of octets of data. -/
theorem srun_flag (dsize : Nat) (s : S) (hn : s.nbits = 0) (ho : s.ones < 5) (z : List Bool) :
    srun dsize s (flag ++ z) = (srun dsize fresh z).map
      (fun q => (q.1, (if s.recv = true ∧ verdict s.data s.crc ≠ 0 then [(verdict s.data s.crc, s.data)] else []) ++ q.2)) := by
  obtain ⟨ones, nbits, reg, crc, recv, data⟩ := s
  simp only at hn ho
  subst hn
  unfold flag
  simp [srun, sstep, shiftIn, if_neg (show ¬ ones = 5 by omega), if_neg (show ¬ ones = 6 by omega), Function.comp_def]

/-- Flags before a frame mean nothing. -/
theorem srun_fresh_flag (dsize : Nat) (z : List Bool) : srun dsize fresh (flag ++ z) = srun dsize fresh z := by
  rw [srun_flag dsize fresh rfl (by decide)]
  simp [fresh]

/-- A frame and the flag after it are one event. -/
theorem srun_frame (dsize : Nat) (payload : List Byte) (hp : payload ≠ []) (hd : payload.length + 2 ≤ dsize) (z : List Bool) :
    srun dsize fresh (frameBits payload ++ (flag ++ z)) = (srun dsize fresh z).map
      (fun q => (q.1, ((payload.length : Int), payload ++ fcs payload) :: q.2)) := by
  unfold frameBits
  have hl : (fcs payload).length = 2 := rfl
  have h0 := srun_stuff dsize ((payload ++ fcs payload).flatMap lsbBits) (flag ++ z) fresh (by decide)
  obtain ⟨t, h1, h2, h3, h4, h5, h6⟩ := shiftAll_octets dsize (payload ++ fcs payload) fresh rfl (by decide)
    (by rw [List.length_append, hl]; simpa [fresh] using hd)
  rw [show (fresh.ones) = 0 from rfl] at h0
  rw [h0, h1, Option.bind_some, srun_flag dsize t h3 h2]
  have hc : t.crc = 0xf0b8#16 := by rw [h4]; exact crc_residue payload
  have hdl : t.data = payload ++ fcs payload := by rw [h6]; rfl
  have hr : t.recv = true := by
    rw [h5]
    cases payload with
    | nil => exact absurd rfl hp
    | cons _ _ => rfl
  have hpos : 0 < payload.length := List.length_pos_iff.mpr hp
  have hv : verdict t.data t.crc = (payload.length : Int) := by
    unfold verdict
    rw [hdl, hc, List.length_append, hl, if_neg (by omega), if_neg (by simp)]
    congr 1
  rw [hv, hr, hdl, if_pos ⟨rfl, by omega⟩]
  rfl

end Verif.IsdnHdlc
