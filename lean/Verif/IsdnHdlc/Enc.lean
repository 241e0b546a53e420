import Verif.IsdnHdlc.Spec
/-!
What the encoder of src/core/isdnhdlc.c puts on the line (B channel, 64 kbit/s).
-/
namespace Verif.IsdnHdlc

open Verif.Crc (crc16CcittByte)

/-- The `n` low bits of `cbin`, the highest one first: those put there so far. -/
def low (c : Byte) : Nat → List Bool
  | 0 => []
  | n + 1 => c.getLsbD n :: low c n

/-- The next `k` bits of the shift register. -/
def lsb (r : Byte) : Nat → List Bool
  | 0 => []
  | k + 1 => r.getLsbD 0 :: lsb (r >>> 1) k

/-- Stuffing, if after five ones the zero still is to come. -/
def pendStuff (n : Nat) (bits : List Bool) : List Bool := if n = 5 then false :: stuff 0 bits else stuff n bits

/-- The complement of the CRC, low octet first. -/
def fcsBits (c : BitVec 16) : List Bool := lsbBits ((c ^^^ 0xffff#16).setWidth 8) ++ lsbBits (((c ^^^ 0xffff#16) >>> 8).setWidth 8)

/-- The last `d` bits of the flag. -/
def flagEnd (d : Nat) : List Bool := flag.drop (8 - d)

/-- Between frames, `d` bits of the flag to go. -/
structure Ready (h : Tx) (d : Nat) (rev : Bool) : Prop where
  state : h.state = .sendFastFlag
  shift : h.bitShift = 0
  bits : h.dataBits = d
  ff : h.ffvalue = xfastFlagValue.getD d 0
  le : d ≤ 8
  init : d = 8 → h.cbin = 0x7e
  chan : h.dchannel = false
  adapt : h.doAdapt56 = false
  rev : h.doBitreverse = rev
  closing : h.doClosing = true → d = 0

/-- Within a frame: `R` is what is still to come, up to the flag after the frame; `m`
bits at most are waiting. -/
structure Busy (m : Nat) (h : Tx) (src : List Byte) (R : List Bool) (rev : Bool) : Prop where
  chan : h.dchannel = false
  adapt : h.doAdapt56 = false
  rev : h.doBitreverse = rev
  bits : h.dataBits ≤ m
  shift : h.bitShift ≤ 8
  ones : h.ones ≤ 5
  todo : (h.state = .sendData ∧ h.dataReceived = true ∧ h.doClosing = decide (src = []) ∧
      R = low h.cbin h.dataBits ++ (pendStuff h.ones (lsb h.shiftReg h.bitShift ++ (src.flatMap lsbBits ++
        fcsBits (src.foldl crc16CcittByte (if h.bitShift = 8 then crc16CcittByte h.crc h.shiftReg else h.crc)))) ++ flag)) ∨
    (h.state = .sendCrc1 ∧ src = [] ∧ 1 ≤ h.bitShift ∧
      R = low h.cbin h.dataBits ++ (pendStuff h.ones (lsb h.shiftReg h.bitShift ++ lsbBits ((h.crc >>> 8).setWidth 8)) ++ flag)) ∨
    (h.state = .sendCrc2 ∧ src = [] ∧ 1 ≤ h.bitShift ∧
      R = low h.cbin h.dataBits ++ (pendStuff h.ones (lsb h.shiftReg h.bitShift) ++ flag)) ∨
    (h.state = .sendClosingFlag ∧ src = [] ∧ 1 ≤ h.bitShift ∧
      R = low h.cbin h.dataBits ++ (pendStuff h.ones [] ++ lsb h.shiftReg h.bitShift))

theorem low_put (c : Byte) (b : Bool) {n : Nat} (h : n ≤ 7) : low ((c <<< 1) + (if b then 1 else 0)) (n + 1) = low c n ++ [b] := by
  have key : ∀ n : Fin 8, ∀ b : Bool, ∀ c : Fin 256,
      low (((BitVec.ofFin (w := 8) c) <<< 1) + (if b then 1 else 0)) (n.val + 1) = low (BitVec.ofFin (w := 8) c) n.val ++ [b] := by
    decide +kernel
  exact key ⟨n, by omega⟩ b c.toFin

theorem low_eight (c : Byte) : low c 8 = pend c 8 :=
  byte_forall (p := fun c => low c 8 = pend c 8) (by decide +kernel) c

theorem lsb_eight (c : Byte) : lsb c 8 = lsbBits c :=
  byte_forall (p := fun c => lsb c 8 = lsbBits c) (by decide +kernel) c

theorem low_length (c : Byte) (n : Nat) : (low c n).length = n := by
  induction n with
  | zero => rfl
  | succ n ih => simp [low, ih]

/-- One octet on the line. -/
theorem line_out (h : Tx) (b : Byte) : lineBits h.doBitreverse [outByte h b] = pend b 8 := by
  have : outByte h b = conv h.doBitreverse b := rfl
  rw [lineBits_cons, this, conv_conv, lineBits_nil, List.append_nil]

theorem pendStuff_bit {n : Nat} (b : Bool) (bits : List Bool) (h : n < 5) :
    pendStuff n (b :: bits) = b :: pendStuff (if b then n + 1 else 0) bits := by
  unfold pendStuff
  rw [if_neg (by omega)]
  cases b with
  | false => simp [stuff]
  | true =>
    by_cases h5 : n + 1 = 5
    · simp [stuff, h5]
    · simp [stuff, h5]

theorem pendStuff_zero (bits : List Bool) : pendStuff 5 bits = false :: pendStuff 0 bits := by
  simp [pendStuff]

/-- The octet goes out when it is complete. -/
theorem out_cases (l : TxLoop) (ha : l.h.doAdapt56 = false) (hb : l.h.dataBits ≤ 8) :
    ∃ (h' : Tx) (o : List Byte), txOut l = { l with h := h', out := l.out ++ o, dsize := l.dsize - o.length } ∧
      h' = { l.h with dataBits := h'.dataBits } ∧ h'.dataBits ≤ 7 ∧ l.h.dataBits = h'.dataBits + 8 * o.length ∧
      low l.h.cbin l.h.dataBits = lineBits l.h.doBitreverse o ++ low h'.cbin h'.dataBits ∧ o.length = l.h.dataBits / 8 := by
  have had : txAdapt l.h = l.h := by
    unfold txAdapt
    rw [if_neg (by rw [ha]; simp)]
  unfold txOut
  rw [had]
  dsimp only
  by_cases h8 : l.h.dataBits = 8
  · rw [if_pos h8]
    refine ⟨{ l.h with dataBits := 0 }, [outByte l.h l.h.cbin], by simp, rfl, by simp, by simp [h8], ?_, by simp [h8]⟩
    rw [h8, low_eight, line_out]
    simp [low]
  · rw [if_neg h8]
    refine ⟨l.h, [], by simp, rfl, by omega, by simp, by simp [lineBits_nil], ?_⟩
    simp; omega

theorem lsb_zero (r : Byte) : lsb r 0 = [] := rfl

theorem load_busy (h : Tx) (src : List Byte) (R : List Bool) (rev : Bool) (hB : Busy 7 h src R rev) :
    Busy 7 (txLoad h src).1 (txLoad h src).2 R rev ∧ 1 ≤ (txLoad h src).1.bitShift ∧ (txLoad h src).1.dataBits = h.dataBits := by
  obtain ⟨b1, b2, b3, b4, b5, b6, b7⟩ := hB
  unfold txLoad
  by_cases h0 : h.bitShift = 0
  · rw [if_pos h0]
    rcases b7 with ⟨c1, c2, c3, c4⟩ | ⟨_, _, c3, _⟩ | ⟨_, _, c3, _⟩ | ⟨_, _, c3, _⟩
    · cases src with
      | nil =>
        rw [if_neg (by simp), if_pos c1, if_pos c2]
        refine ⟨⟨b1, b2, b3, b4, by simp, b6, Or.inr (Or.inl ⟨rfl, rfl, by simp, ?_⟩)⟩, by simp, rfl⟩
        rw [c4, h0]
        simp only [List.flatMap_nil, List.foldl_nil, fcsBits, lsb_zero, List.nil_append, if_neg (show ¬ (0 = 8) by omega), lsb_eight]
        rfl
      | cons b t =>
        rw [if_pos ⟨by simp, by rw [c3]; simp⟩]
        refine ⟨⟨b1, b2, b3, b4, by simp, b6, Or.inl ⟨c1, c2, ?_, ?_⟩⟩, by simp, rfl⟩
        · cases t <;> simp
        · rw [c4, h0]
          simp only [List.flatMap_cons, List.foldl_cons, lsb_zero, List.nil_append, if_neg (show ¬ (0 = 8) by omega), lsb_eight, if_true,
            List.headD_cons, List.tail_cons, List.append_assoc]
    · omega
    · omega
    · omega
  · rw [if_neg h0]
    exact ⟨⟨b1, b2, b3, b4, b5, b6, b7⟩, by simp only; omega, rfl⟩

theorem stuff_busy (h : Tx) (src : List Byte) (R : List Bool) (rev : Bool) (hB : Busy 7 h src R rev) (h5 : h.ones = 5) :
    Busy 8 { putBit h false with ones := 0 } src R rev := by
  obtain ⟨b1, b2, b3, b4, b5, b6, b7⟩ := hB
  have hlow : ∀ X : List Bool, low ((h.cbin <<< 1) + (if false then 1 else 0)) (h.dataBits + 1) ++ X = low h.cbin h.dataBits ++ (false :: X) := by
    intro X
    rw [low_put h.cbin false b4]
    simp
  refine ⟨b1, b2, b3, by simp only [putBit]; omega, b5, by simp, ?_⟩
  rcases b7 with ⟨c1, c2, c3, c4⟩ | ⟨c1, c2, c3, c4⟩ | ⟨c1, c2, c3, c4⟩ | ⟨c1, c2, c3, c4⟩
  · refine Or.inl ⟨c1, c2, c3, ?_⟩
    rw [c4, h5, pendStuff_zero]
    exact (hlow _).symm
  · refine Or.inr (Or.inl ⟨c1, c2, c3, ?_⟩)
    rw [c4, h5, pendStuff_zero]
    exact (hlow _).symm
  · refine Or.inr (Or.inr (Or.inl ⟨c1, c2, c3, ?_⟩))
    rw [c4, h5, pendStuff_zero]
    exact (hlow _).symm
  · refine Or.inr (Or.inr (Or.inr ⟨c1, c2, c3, ?_⟩))
    rw [c4, h5, pendStuff_zero]
    exact (hlow _).symm

/-- The flag after the frame is complete. -/
def Closed (h : Tx) (src : List Byte) (R : List Bool) (rev : Bool) : Prop :=
  h.dataBits ≤ 8 ∧ 1 ≤ h.dataBits ∧ R = low h.cbin h.dataBits ∧ src = [] ∧ h.state = .sendFastFlag ∧ h.bitShift = 0 ∧
  h.ffvalue = xfastFlagValue.getD h.dataBits 0 ∧ h.dchannel = false ∧ h.doAdapt56 = false ∧ h.doBitreverse = rev

theorem xfast_get {n : Nat} (h8 : n ≤ 8) : xfastFlagValue[n]? = some (xfastFlagValue.getD n 0) := by
  have : n = 0 ∨ n = 1 ∨ n = 2 ∨ n = 3 ∨ n = 4 ∨ n = 5 ∨ n = 6 ∨ n = 7 ∨ n = 8 := by omega
  rcases this with rfl | rfl | rfl | rfl | rfl | rfl | rfl | rfl | rfl <;> rfl

/-- The switch puts one bit. -/
theorem switch_busy (l : TxLoop) (R : List Bool) (rev : Bool) (hB : Busy 7 l.h l.src R rev) (hk : 1 ≤ l.h.bitShift) :
    ∃ l', txSwitch l = some l' ∧ l'.out = l.out ∧ l'.h.dataBits = l.h.dataBits + 1 ∧
      ((l'.dsize = l.dsize ∧ Busy 8 l'.h l'.src R rev) ∨ (l'.dsize = (if l.dsize > 1 then 1 else l.dsize) ∧ Closed l'.h l'.src R rev)) := by
  by_cases h5 : l.h.ones = 5
  · have hs : txSwitch l = some { l with h := { putBit l.h false with ones := 0 } } := by
      unfold txSwitch
      dsimp only
      rcases hB.todo with ⟨c1, _⟩ | ⟨c1, _⟩ | ⟨c1, _⟩ | ⟨c1, _⟩ <;> rw [c1] <;> dsimp only <;> rw [if_pos h5] <;> simp [c1]
    exact ⟨_, hs, rfl, rfl, Or.inl ⟨rfl, stuff_busy l.h l.src R rev hB h5⟩⟩
  · obtain ⟨b1, b2, b3, b4, b5, b6, b7⟩ := hB
    obtain ⟨k, hk⟩ : ∃ k, l.h.bitShift = k + 1 := ⟨l.h.bitShift - 1, by omega⟩
    have hbit : ∀ (rest X : List Bool), low l.h.cbin l.h.dataBits ++ (pendStuff l.h.ones (lsb l.h.shiftReg l.h.bitShift ++ rest) ++ X) =
        low ((l.h.cbin <<< 1) + (if l.h.shiftReg.getLsbD 0 then 1 else 0)) (l.h.dataBits + 1) ++
          (pendStuff (if l.h.shiftReg.getLsbD 0 then l.h.ones + 1 else 0) (lsb (l.h.shiftReg >>> 1) k ++ rest) ++ X) := by
      intro rest X
      rw [low_put _ _ b4, hk, lsb, List.cons_append, pendStuff_bit _ _ (by omega)]
      simp
    have hones : (if l.h.shiftReg.getLsbD 0 = true then l.h.ones + 1 else 0) ≤ 5 := by split <;> omega
    unfold txSwitch
    dsimp only
    rcases b7 with ⟨c1, c2, c3, c4⟩ | ⟨c1, c2, c3, c4⟩ | ⟨c1, c2, c3, c4⟩ | ⟨c1, c2, c3, c4⟩
    · rw [c1]
      dsimp only
      rw [if_neg h5]
      refine ⟨_, rfl, rfl, ?_, Or.inl ⟨rfl, ?_⟩⟩
      · simp only [shiftOut, putBit]; split <;> rfl
      · have hdone : ∀ (c : BitVec 16), c = (if l.h.bitShift = 8 then crc16CcittByte l.h.crc l.h.shiftReg else l.h.crc) →
            Busy 8 (shiftOut { l.h with crc := c }) l.src R rev := by
          intro c hc
          refine ⟨b1, b2, b3, by simp only [shiftOut, putBit]; omega, by simp only [shiftOut]; omega, hones, Or.inl ⟨c1, c2, c3, ?_⟩⟩
          rw [c4, hbit, ← hc]
          simp only [shiftOut, putBit, hk, Nat.add_sub_cancel, if_neg (show ¬ k = 8 by omega)]
        by_cases h8 : l.h.bitShift = 8
        · rw [if_pos h8]
          have q := hdone _ (by rw [if_pos h8])
          simp only [c1] at q
          exact q
        · rw [if_neg h8]
          exact hdone l.h.crc (by rw [if_neg h8])
    · rw [c1]
      dsimp only
      rw [if_neg h5]
      by_cases hk0 : k = 0
      · rw [if_pos (by simp only [shiftOut]; omega)]
        refine ⟨_, rfl, rfl, rfl, Or.inl ⟨rfl, ⟨b1, b2, b3, by simp only [shiftOut, putBit]; omega, by simp, hones, Or.inr (Or.inr (Or.inl ⟨rfl, c2, by simp, ?_⟩))⟩⟩⟩
        rw [c4, hbit]
        simp only [shiftOut, putBit, hk0, lsb_zero, List.nil_append, lsb_eight]
      · rw [if_neg (by simp only [shiftOut]; omega)]
        refine ⟨_, rfl, rfl, rfl, Or.inl ⟨rfl, ⟨b1, b2, b3, by simp only [shiftOut, putBit]; omega, by simp only [shiftOut]; omega, hones, Or.inr (Or.inl ⟨c1, c2, by simp only [shiftOut]; omega, ?_⟩)⟩⟩⟩
        rw [c4, hbit]
        simp only [shiftOut, putBit, hk, Nat.add_sub_cancel]
    · have hbit' := hbit [] flag
      rw [List.append_nil, List.append_nil] at hbit'
      rw [c1]
      dsimp only
      rw [if_neg h5]
      by_cases hk0 : k = 0
      · rw [if_pos (by simp only [shiftOut]; omega)]
        refine ⟨_, rfl, rfl, rfl, Or.inl ⟨rfl, ⟨b1, b2, b3, by simp only [shiftOut, putBit]; omega, by simp, hones, Or.inr (Or.inr (Or.inr ⟨rfl, c2, by simp, ?_⟩))⟩⟩⟩
        rw [c4, hbit', hk0]
        simp only [shiftOut, putBit, lsb_eight]
        rfl
      · rw [if_neg (by simp only [shiftOut]; omega)]
        refine ⟨_, rfl, rfl, rfl, Or.inl ⟨rfl, ⟨b1, b2, b3, by simp only [shiftOut, putBit]; omega, by simp only [shiftOut]; omega, hones, Or.inr (Or.inr (Or.inl ⟨c1, c2, by simp only [shiftOut]; omega, ?_⟩))⟩⟩⟩
        rw [c4, hbit']
        simp only [shiftOut, putBit, hk, Nat.add_sub_cancel]
    · have hbit2 : low l.h.cbin l.h.dataBits ++ (pendStuff l.h.ones [] ++ lsb l.h.shiftReg l.h.bitShift) =
          low ((l.h.cbin <<< 1) + (if l.h.shiftReg.getLsbD 0 then 1 else 0)) (l.h.dataBits + 1) ++ (pendStuff l.h.ones [] ++ lsb (l.h.shiftReg >>> 1) k) := by
        rw [low_put _ _ b4, hk, lsb]
        simp [pendStuff, h5, stuff]
      rw [c1]
      dsimp only
      rw [if_neg h5]
      by_cases hk0 : k = 0
      · rw [if_pos (by omega), show (putBit l.h (l.h.shiftReg.getLsbD 0)).dataBits = l.h.dataBits + 1 from rfl, xfast_get (by omega), Option.map_some,
          if_neg (by rw [show (putBit l.h (l.h.shiftReg.getLsbD 0)).dchannel = l.h.dchannel from rfl, b1]; simp)]
        refine ⟨_, rfl, rfl, rfl, Or.inr ⟨rfl, ?_⟩⟩
        refine ⟨by simp only; omega, by simp, ?_, c2, ?_, ?_, rfl, b1, b2, b3⟩
        · rw [c4, hbit2, hk0]
          simp [lsb, pendStuff, h5, stuff, putBit]
        · show (if l.h.doAdapt56 = true then _ else _) = _
          rw [b2]
          rfl
        · simp only; omega
      · rw [if_neg (by omega)]
        refine ⟨_, rfl, rfl, rfl, Or.inl ⟨rfl, ⟨b1, b2, b3, by simp only [putBit]; omega, by simp only; omega, b6, Or.inr (Or.inr (Or.inr ⟨c1, c2, by simp only; omega, ?_⟩))⟩⟩⟩
        rw [c4, hbit2]
        simp only [putBit, hk, Nat.add_sub_cancel]

/-- `R` is the end of bits ending with a flag. -/
def FlagLast (R : List Bool) : Prop := (∃ Q, R = Q ++ flag) ∨ ∃ Q, flag = Q ++ R

theorem flagLast_drop {A R : List Bool} (h : FlagLast (A ++ R)) : FlagLast R := by
  rcases h with ⟨Q, h⟩ | ⟨Q, h⟩
  · rcases List.append_eq_append_iff.mp h with ⟨as, h1, h2⟩ | ⟨bs, h1, h2⟩
    · exact Or.inl ⟨as, h2⟩
    · exact Or.inr ⟨bs, h2⟩
  · exact Or.inr ⟨Q ++ A, by rw [h, List.append_assoc]⟩

theorem flagLast_eq {R : List Bool} (h : FlagLast R) (hl : R.length ≤ 8) : R = flagEnd R.length := by
  have h8 : flag.length = 8 := rfl
  unfold flagEnd
  rcases h with ⟨Q, h⟩ | ⟨Q, h⟩
  · have : Q.length = 0 := by
      have := congrArg List.length h
      rw [List.length_append, h8] at this
      omega
    rw [List.length_eq_zero_iff.mp this, List.nil_append] at h
    rw [h]
    rfl
  · have h1 := congrArg List.length h
    rw [List.length_append, h8] at h1
    rw [h, show 8 - R.length = Q.length from by omega, List.drop_left]

/-- The rest of an octet after the flag: the begin of the next flag. -/
theorem ff_octet {d : Nat} (h1 : d ≤ 8) : pend (xfastFlagValue.getD d 0) 8 = flagEnd d ++ flag.take (8 - d) := by
  have : d = 0 ∨ d = 1 ∨ d = 2 ∨ d = 3 ∨ d = 4 ∨ d = 5 ∨ d = 6 ∨ d = 7 ∨ d = 8 := by omega
  rcases this with rfl | rfl | rfl | rfl | rfl | rfl | rfl | rfl | rfl <;> decide +kernel

theorem out_busy (l : TxLoop) (R : List Bool) (rev : Bool) (hB : Busy 8 l.h l.src R rev) :
    ∃ (h' : Tx) (o : List Byte) (R' : List Bool), txOut l = { l with h := h', out := l.out ++ o, dsize := l.dsize - o.length } ∧
      l.h.dataBits = h'.dataBits + 8 * o.length ∧ R = lineBits rev o ++ R' ∧ Busy 7 h' l.src R' rev := by
  obtain ⟨b1, b2, b3, b4, b5, b6, b7⟩ := hB
  obtain ⟨h', o, o1, o2, o3, o4, o5, o6⟩ := out_cases l b2 b4
  rw [b3] at o5
  have hc : h'.cbin = l.h.cbin := by rw [o2]
  have hs : h'.bitShift = l.h.bitShift := by rw [o2]
  have key : ∀ X, R = low l.h.cbin l.h.dataBits ++ X → R = lineBits rev o ++ (low h'.cbin h'.dataBits ++ X) := by
    intro X hX
    rw [hX, o5, List.append_assoc]
  rcases b7 with ⟨c1, c2, c3, c4⟩ | ⟨c1, c2, c3, c4⟩ | ⟨c1, c2, c3, c4⟩ | ⟨c1, c2, c3, c4⟩
  · refine ⟨h', o, _, o1, o4, key _ c4, ?_⟩
    rw [o2]
    rw [o2] at o3
    exact ⟨b1, b2, b3, o3, b5, b6, Or.inl ⟨c1, c2, c3, rfl⟩⟩
  · refine ⟨h', o, _, o1, o4, key _ c4, ?_⟩
    rw [o2]
    rw [o2] at o3
    exact ⟨b1, b2, b3, o3, b5, b6, Or.inr (Or.inl ⟨c1, c2, c3, rfl⟩)⟩
  · refine ⟨h', o, _, o1, o4, key _ c4, ?_⟩
    rw [o2]
    rw [o2] at o3
    exact ⟨b1, b2, b3, o3, b5, b6, Or.inr (Or.inr (Or.inl ⟨c1, c2, c3, rfl⟩))⟩
  · refine ⟨h', o, _, o1, o4, key _ c4, ?_⟩
    rw [o2]
    rw [o2] at o3
    exact ⟨b1, b2, b3, o3, b5, b6, Or.inr (Or.inr (Or.inr ⟨c1, c2, c3, rfl⟩))⟩

/-- How a call that is within a frame ends: either the room is used up, or the flag after
the frame is out, with the begin of the next flag in the rest of its octet. -/
def Ends (rev : Bool) (R : List Bool) (n : Nat) (l : TxLoop) (o : List Byte) : Prop :=
  (o.length = n ∧ ∃ R', R = lineBits rev o ++ R' ∧ Busy 7 l.h l.src R' rev) ∨
  (o.length ≤ n ∧ l.src = [] ∧ ∃ d, d < 8 ∧ Ready l.h d rev ∧ lineBits rev o = R ++ flag.take ((8 - d) % 8))

/-- A flag goes out as long as there is nothing to send. -/
theorem idle_round (h : Tx) (out : List Byte) (dsize : Int) (h1 : h.state = .sendFastFlag) (h2 : h.bitShift = 0) (h3 : h.doAdapt56 = false)
    (h4 : h.dataBits ≠ 8) :
    txRound { h := h, src := [], out := out, dsize := dsize } =
      some { h := { h with doClosing := false }, src := [], out := out ++ [outByte h h.ffvalue], dsize := dsize - 1 } := by
  have hl : txLoad h [] = (h, []) := by
    unfold txLoad
    rw [if_pos h2, if_neg (by simp), if_neg (by rw [h1]; simp)]
  unfold txRound
  dsimp only
  rw [hl]
  unfold txSwitch
  dsimp only
  rw [h1]
  dsimp only
  rw [if_pos rfl, Option.map_some]
  unfold txOut txAdapt
  dsimp only
  simp only [h3, h1, Bool.false_eq_true, false_and, if_false, if_neg h4]
  rfl

theorem loop_busy (rev : Bool) : ∀ (fuel n : Nat) (l : TxLoop) (R : List Bool), Busy 7 l.h l.src R rev → FlagLast R → l.dsize = n →
    8 * n + 10 ≤ fuel + l.h.dataBits →
    ∃ (l' : TxLoop) (o : List Byte), encLoop fuel l = some l' ∧ l'.out = l.out ++ o ∧ Ends rev R n l' o := by
  intro fuel
  induction fuel with
  | zero =>
    intro n l R hB hF hn hf
    have := hB.bits
    omega
  | succ fuel ih =>
    intro n l R hB hF hn hf
    unfold encLoop
    by_cases h0 : l.dsize > 0
    · rw [if_pos h0]
      obtain ⟨b1, b2, b3⟩ := load_busy l.h l.src R rev hB
      obtain ⟨l1, s1, s2, s3, s4⟩ := switch_busy { l with h := (txLoad l.h l.src).1, src := (txLoad l.h l.src).2 } R rev b1 b2
      unfold txRound
      dsimp only
      rw [s1, Option.map_some, Option.bind_some]
      simp only [b3] at s3
      rcases s4 with ⟨s4, s5⟩ | ⟨s4, s5⟩
      · obtain ⟨h', o, R', o1, o2, o3, o4⟩ := out_busy l1 R rev s5
        have hol : o.length ≤ 1 := by have := s5.bits; omega
        obtain ⟨l', o', e1, e2, e3⟩ := ih (n - o.length) { l1 with h := h', out := l1.out ++ o, dsize := l1.dsize - o.length } R' o4
          (flagLast_drop (by rw [← o3]; exact hF)) (by simp only [s4]; omega) (by simp only; omega)
        refine ⟨l', o ++ o', by rw [o1]; exact e1, by rw [e2, s2]; simp, ?_⟩
        rcases e3 with ⟨f1, R'', f2, f3⟩ | ⟨f1, f2, d, f3, f4, f5⟩
        · refine Or.inl ⟨by rw [List.length_append]; omega, R'', ?_, f3⟩
          rw [o3, f2, lineBits_append, List.append_assoc]
        · refine Or.inr ⟨by rw [List.length_append]; omega, f2, d, f3, f4, ?_⟩
          rw [lineBits_append, f5, o3, List.append_assoc]
      · obtain ⟨c1, c2, c3, c4, c5, c6, c7, c8, c9, c10⟩ := s5
        have hd1 : l1.dsize = 1 := by
          simp only at s4
          rw [s4]
          split <;> omega
        have hRl : R.length = l1.h.dataBits := by rw [c3, low_length]
        obtain ⟨g, hg⟩ : ∃ g, fuel = g + 2 := ⟨fuel - 2, by have := hB.bits; omega⟩
        have had : txAdapt l1.h = l1.h := by
          unfold txAdapt
          rw [if_neg (by rw [c9]; simp)]
        by_cases h8 : l1.h.dataBits = 8
        · have ho : txOut l1 = { h := { l1.h with dataBits := 0 }, src := [], out := l1.out ++ [outByte l1.h l1.h.cbin], dsize := 0 } := by
            unfold txOut
            rw [had]
            dsimp only
            rw [if_pos h8, hd1, c4]
            rfl
          rw [ho, hg, encLoop, if_neg (by simp)]
          refine ⟨_, [outByte l1.h l1.h.cbin], rfl, by rw [s2], Or.inr ⟨?_, rfl, 0, by omega, ?_, ?_⟩⟩
          · simp only [List.length_singleton]; omega
          · exact ⟨c5, c6, rfl, by simp only [c7, h8]; rfl, by omega, by omega, c8, c9, c10, fun _ => rfl⟩
          · rw [← c10, line_out, c3, h8, low_eight]
            rfl
        · have ho : txOut l1 = l1 := by
            unfold txOut
            rw [had]
            dsimp only
            rw [if_neg h8]
          have hready : Ready { l1.h with doClosing := false } l1.h.dataBits rev :=
            ⟨c5, c6, rfl, c7, c1, fun h => absurd h h8, c8, c9, c10, fun h => by cases h⟩
          have hround : txRound l1 = some { h := { l1.h with doClosing := false }, src := [], out := l1.out ++ [outByte l1.h l1.h.ffvalue], dsize := 0 } := by
            have := idle_round l1.h l1.out l1.dsize c5 c6 c9 h8
            rw [← c4] at this
            rw [show l1 = { h := l1.h, src := l1.src, out := l1.out, dsize := l1.dsize } from rfl, this, hd1, c4]
            rfl
          rw [ho, hg, encLoop, if_pos (by omega), hround, Option.bind_some, encLoop, if_neg (by simp)]
          refine ⟨_, [outByte l1.h l1.h.ffvalue], rfl, by rw [s2], Or.inr ⟨?_, rfl, l1.h.dataBits, by omega, hready, ?_⟩⟩
          · simp only [List.length_singleton]; omega
          · rw [← c10, line_out, c7, ff_octet c1, Nat.mod_eq_of_lt (by omega)]
            have := flagLast_eq hF (by omega)
            rw [hRl] at this
            rw [← this]
    · rw [if_neg h0]
      refine ⟨l, [], rfl, by simp, Or.inl ⟨by simp; omega, R, rfl, hB⟩⟩

end Verif.IsdnHdlc
