import Verif.IsdnHdlc.Slow
/-!
The decoder of src/core/isdnhdlc.c does what the receiver of `Slow.lean` does, as long as
there are no seven ones in a row and there is room in the destination.
-/
namespace Verif.IsdnHdlc

open Verif.Crc (crc16CcittByte)

/-- The receiver after a flag and the first `n - 1` bits of the next one. -/
def V (n : Nat) : S :=
  if n = 8 then { ones := 6, nbits := 6, reg := 0xf8, crc := 0xffff, recv := false, data := [] }
  else { ones := n - 2, nbits := n - 1, reg := fastAbort.getD (n - 1) 0, crc := 0xffff, recv := false, data := [] }

/-- The decoder stands for the receiver; `w` is the number of bits it has taken from the
source and not used yet while in fast flag mode. -/
def Rel (w : Nat) (h : Rx) (dst : List Byte) (s : S) : Prop :=
  h.doAdapt56 = false ∧ h.bitShift ≤ 8 ∧
  ((h.state = .getData ∧ h.ones = s.ones ∧ h.dataBits = s.nbits ∧ h.shiftReg = s.reg ∧ h.crc = s.crc ∧ h.dataReceived = s.recv ∧
      h.dstpos = s.data.length ∧ dst.take s.data.length = s.data ∧ (s.recv = false → s.data = []) ∧ s.nbits < 8) ∨
   (h.state = .fastFlag ∧ 1 ≤ h.ffbitShift ∧ h.ffbitShift ≤ 8 ∧ h.bitShift = w ∧ h.ffvalue = fastFlagValue.getD h.ffbitShift 0 ∧
      h.crc = 0xffff ∧ h.dstpos = 0 ∧ s = V h.ffbitShift) ∨
   (h.state = .getFlagB7 ∧ 1 ≤ h.bitShift ∧ h.dstpos = 0 ∧ s = V 8))

theorem range8 {n : Nat} (h1 : 1 ≤ n) (h8 : n ≤ 8) :
    n = 1 ∨ n = 2 ∨ n = 3 ∨ n = 4 ∨ n = 5 ∨ n = 6 ∨ n = 7 ∨ n = 8 := by omega

theorem fast_enter (dsize : Nat) {n : Nat} (h1 : 1 ≤ n) (h8 : n ≤ 8) :
    srun dsize fresh (pend (fastFlag.getD n 0 <<< 1) (n - 1)) = some (V n, []) := by
  rcases range8 h1 h8 with rfl | rfl | rfl | rfl | rfl | rfl | rfl | rfl <;> rfl

theorem fast_stay (dsize : Nat) {n : Nat} (h1 : 1 ≤ n) (h8 : n ≤ 8) :
    srun dsize (V n) (pend (fastFlagValue.getD n 0) 8) = some (V n, []) := by
  rcases range8 h1 h8 with rfl | rfl | rfl | rfl | rfl | rfl | rfl | rfl <;> rfl

theorem fast_idle (dsize : Nat) {n : Nat} (h1 : 1 ≤ n) (h8 : n ≤ 8) : srun dsize (V n) (pend 0xff 8) = none := by
  rcases range8 h1 h8 with rfl | rfl | rfl | rfl | rfl | rfl | rfl | rfl <;> rfl

/-- What a round of the loop does to the receiver. -/
def Good (dsize : Nat) (h : Rx) (dst : List Byte) (s : S) (r : RxRes) : Prop :=
  r.dst.length = dst.length ∧ r.h.doBitreverse = h.doBitreverse ∧
  ∃ (x : List Bool) (s' : S) (ev : List Event), pend h.cbin h.bitShift = x ++ pend r.h.cbin r.h.bitShift ∧
    srun dsize s x = some (s', ev) ∧ Rel 0 r.h r.dst s' ∧
    (r.h.bitShift < h.bitShift ∨ (r.h.bitShift = h.bitShift ∧ h.state = .fastFlag ∧ r.h.state ≠ .fastFlag)) ∧
    ((r.ret = false ∧ r.status = 0 ∧ ev = []) ∨
     (∃ e : Event, r.ret = true ∧ ev = [e] ∧ r.status = e.1 ∧ e.1 ≠ 0 ∧ r.dst.take e.2.length = e.2))

theorem take_set_end (dst data : List Byte) (b : Byte) (h : dst.take data.length = data) (hl : data.length < dst.length) :
    (dst.set data.length b).take (data ++ [b]).length = data ++ [b] := by
  apply List.ext_getElem?
  intro i
  rw [List.getElem?_take]
  by_cases h1 : i < data.length
  · rw [if_pos (by simp; omega), List.getElem?_set_ne (by omega), List.getElem?_append_left h1]
    have h2 : data[i]? = (dst.take data.length)[i]? := by rw [h]
    rw [h2, List.getElem?_take, if_pos h1]
  · by_cases h2 : i = data.length
    · subst h2
      rw [if_pos (by simp), List.getElem?_set_self hl]
      simp
    · rw [if_neg (by simp; omega), List.getElem?_eq_none (by simp; omega)]

theorem checkFrame_verdict (h : Rx) (s : S) (hd : h.dstpos = s.data.length) (hc : h.crc = s.crc) :
    (checkFrame h).2 = verdict s.data s.crc ∧ (checkFrame h).1 = { h with dstpos := (checkFrame h).1.dstpos } ∧
    ((checkFrame h).2 = 0 → (checkFrame h).1.dstpos = 0) := by
  unfold checkFrame verdict
  rw [← hd, ← hc]
  split
  · exact ⟨rfl, rfl, by simp⟩
  · split
    · exact ⟨rfl, rfl, by simp⟩
    · refine ⟨rfl, rfl, ?_⟩
      intro h
      simp only at h ⊢
      omega

theorem data_shift (dsize : Nat) (h : Rx) (dst : List Byte) (s t : S) (k n : Nat) (b : Bool) (hR : h.doAdapt56 = false) (hk : h.bitShift = k + 1)
    (hk8 : k ≤ 7) (hb : h.cbin.getLsbD 7 = b) (hs : h.state = .getData)
    (h2 : h.dataBits = s.nbits) (h3 : h.shiftReg = s.reg) (h4 : h.crc = s.crc) (h5 : h.dataReceived = s.recv)
    (h6 : h.dstpos = s.data.length) (h7 : dst.take s.data.length = s.data) (h8 : s.recv = false → s.data = [])
    (hdd : dsize ≤ dst.length) (hn8 : s.nbits < 8) (ht : shiftIn dsize s b n = some t) (hst : sstep dsize s b = some (t, []))
    (hg : getDataBit h 0 = some ({ h with ones := n, shiftReg := (h.shiftReg >>> 1) ||| (if b then 0x80 else 0), dataBits := h.dataBits + 1 }, 0)) :
    ∃ r, getData h dst dsize 0 = some r ∧ Good dsize h dst s r := by
  unfold getData
  rw [hg]
  simp only [Option.bind_some, ne_eq, not_true_eq_false, if_false]
  unfold shiftIn at ht
  dsimp only at ht
  rw [h2, h3]
  have hx : pend h.cbin h.bitShift = [b] ++ pend (h.cbin <<< 1) (h.bitShift - 1) := by
    rw [hk, pend, hb]; rfl
  have hrun : srun dsize s [b] = some (t, []) := by simp [srun, hst]
  by_cases hn : s.nbits + 1 = 8
  · rw [if_pos hn] at ht
    by_cases hl : s.data.length < dsize
    · rw [if_pos hl] at ht
      cases ht
      rw [if_pos hn, h6, if_pos hl, if_pos (by omega)]
      refine ⟨_, rfl, by simp, rfl, [b], _, [], hx, hrun, ⟨hR, ?_, Or.inl ?_⟩, Or.inl ?_, Or.inl ⟨rfl, rfl, rfl⟩⟩
      · simp only [nextBit]; omega
      · refine ⟨hs, rfl, rfl, rfl, ?_, rfl, ?_, ?_, ?_, by simp⟩
        · simp only [nextBit, h4]
        · simp [nextBit]
        · exact take_set_end dst s.data _ h7 (by omega)
        · intro h; cases h
      · simp only [nextBit]; omega
    · rw [if_neg hl] at ht; cases ht
  · rw [if_neg hn] at ht
    cases ht
    rw [if_neg hn]
    refine ⟨_, rfl, rfl, rfl, [b], _, [], hx, hrun, ⟨hR, ?_, Or.inl ?_⟩, Or.inl ?_, Or.inl ⟨rfl, rfl, rfl⟩⟩
    · simp only [nextBit]; omega
    · exact ⟨hs, rfl, rfl, rfl, h4, h5, h6, h7, h8, by simp only; omega⟩
    · simp only [nextBit]; omega

theorem fastFlag_get {n : Nat} (h8 : n ≤ 8) :
    fastFlag[n]? = some (fastFlag.getD n 0) ∧ fastFlagValue[n]? = some (fastFlagValue.getD n 0) := by
  have : n = 0 ∨ n = 1 ∨ n = 2 ∨ n = 3 ∨ n = 4 ∨ n = 5 ∨ n = 6 ∨ n = 7 ∨ n = 8 := by omega
  rcases this with rfl | rfl | rfl | rfl | rfl | rfl | rfl | rfl | rfl <;> exact ⟨rfl, rfl⟩

theorem data_flag (dsize : Nat) (h : Rx) (dst : List Byte) (s : S) (z : List Bool) (hR : h.doAdapt56 = false) (k : Nat) (hk : h.bitShift = k + 1)
    (hk8 : k ≤ 7) (hb : h.cbin.getLsbD 7 = false) (h4 : h.crc = s.crc) (h5 : h.dataReceived = s.recv)
    (h6 : h.dstpos = s.data.length) (h7 : dst.take s.data.length = s.data) (h8 : s.recv = false → s.data = [])
    (h10 : h.ones = 6) (h11 : s.ones = 6) :
    ∃ r, getData h dst dsize 0 = some r ∧ Good dsize h dst s r := by
  -- the verdict
  obtain ⟨p, st, hc, hst⟩ : ∃ (p : Nat) (st : Int), (if h.dataReceived then checkFrame h else (h, 0)) = ({ h with dstpos := p }, st) ∧
      (st = 0 → p = 0) ∧ sstep dsize s false = some (fresh, if st ≠ 0 then [(st, s.data)] else []) := by
    have hss : sstep dsize s false = some (fresh, if s.recv = true ∧ verdict s.data s.crc ≠ 0 then [(verdict s.data s.crc, s.data)] else []) := by
      unfold sstep
      rw [if_neg (by simp), if_neg (by omega), if_pos h11]
    cases hr : s.recv with
    | false =>
      refine ⟨h.dstpos, 0, ?_, ?_, ?_⟩
      · rw [if_neg (by rw [h5, hr]; simp)]
      · intro _; rw [h6, h8 hr]; rfl
      · rw [hss, hr]; rfl
    | true =>
      obtain ⟨c1, c2, c3⟩ := checkFrame_verdict h s h6 h4
      refine ⟨(checkFrame h).1.dstpos, (checkFrame h).2, ?_, c3, ?_⟩
      · rw [if_pos (by rw [h5, hr]), ← c2]
      · rw [hss, hr, c1]; simp
  obtain ⟨hp, hss⟩ := hst
  have hx : pend h.cbin h.bitShift = false :: pend (h.cbin <<< 1) k := by
    rw [hk, pend, hb]
  -- the state after the flag
  obtain ⟨h', x, s', hf, hb', hrev, hpend, hrun, hrel⟩ : ∃ (h' : Rx) (x : List Bool) (s' : S),
      handleFastFlag { h with dstpos := p, crc := 0xffff, shiftReg := 0, dataBits := 0 } = some h' ∧
      h'.dataBits = 0 ∧ h'.doBitreverse = h.doBitreverse ∧ pend (h.cbin <<< 1) k = x ++ pend (h'.cbin <<< 1) (h'.bitShift - 1) ∧
      srun dsize fresh x = some (s', []) ∧
      (h'.bitShift ≤ h.bitShift ∧ 1 ≤ h'.bitShift) ∧ h'.dstpos = p ∧ ∀ d, Rel 0 { nextBit h' with ones := 0, dstpos := 0 } d s' := by
    unfold handleFastFlag
    simp only [(fastFlag_get (show h.bitShift ≤ 8 by omega)).1, (fastFlag_get (show h.bitShift ≤ 8 by omega)).2, Option.bind_some, Option.map_some]
    by_cases hm : h.cbin = fastFlag.getD h.bitShift 0
    · rw [if_pos hm]
      refine ⟨_, pend (h.cbin <<< 1) k, V h.bitShift, rfl, rfl, rfl, by simp [pend], ?_, ⟨by simp only; omega, by simp⟩, rfl, ?_⟩
      · have := fast_enter dsize (show 1 ≤ h.bitShift by omega) (by omega)
        rw [hm]
        rw [show h.bitShift - 1 = k from by omega] at this
        exact this
      · intro d
        refine ⟨hR, by simp [nextBit], Or.inr (Or.inl ⟨rfl, ?_, ?_, by simp [nextBit], rfl, rfl, rfl, rfl⟩)⟩ <;> simp only [nextBit] <;> omega
    · rw [if_neg hm]
      refine ⟨_, [], fresh, rfl, rfl, rfl, by simp [hk], rfl, ⟨by simp, by simp only; omega⟩, rfl, ?_⟩
      intro d
      refine ⟨hR, by simp only [nextBit]; omega, Or.inl ⟨rfl, rfl, rfl, rfl, rfl, rfl, rfl, rfl, fun _ => rfl, by decide⟩⟩
  have hg : getDataBit h 0 = some ({ h' with ones := 0 }, st) := by
    unfold getDataBit
    rw [if_neg (by rw [hb]; simp), if_neg (by omega), if_pos h10, hc]
    simp only [hR, Bool.false_eq_true, if_false]
    rw [hR] at hf
    rw [hf]
    rfl
  unfold getData
  rw [hg]
  simp only [Option.bind_some]
  have hrun2 : srun dsize s (false :: x) = some (s', if st ≠ 0 then [(st, s.data)] else []) := by
    simp [srun, hss, hrun]
  by_cases h0 : st = 0
  · rw [if_neg (by simpa using h0), if_neg (by show ¬ h'.dataBits = 8; omega)]
    refine ⟨_, rfl, rfl, hrev, false :: x, s', [], ?_, ?_, ?_, Or.inl ?_, Or.inl ⟨rfl, rfl, rfl⟩⟩
    · simp only [nextBit]; rw [hx, hpend]; rfl
    · rw [hrun2, if_neg (by simpa using h0)]
    · have := hrel.2.2 dst
      have he : ({ nextBit h' with ones := 0, dstpos := 0 } : Rx) = nextBit { h' with ones := 0 } := by
        simp [nextBit, hrel.2.1, hp h0]
      rw [he] at this
      exact this
    · simp only [nextBit]; omega
  · rw [if_pos h0]
    refine ⟨_, rfl, rfl, hrev, false :: x, s', [(st, s.data)], ?_, ?_, hrel.2.2 dst, Or.inl ?_, Or.inr ⟨(st, s.data), rfl, rfl, rfl, h0, h7⟩⟩
    · simp only [nextBit]; rw [hx, hpend]; rfl
    · rw [hrun2, if_pos h0]
    · simp only [nextBit]; omega

theorem switch_data (dsize : Nat) (h : Rx) (dst : List Byte) (s : S) (z : List Bool) (hR : h.doAdapt56 = false) (k : Nat) (hk : h.bitShift = k + 1)
    (hk8 : k ≤ 7) (hs : h.state = .getData) (h1 : h.ones = s.ones)
    (h2 : h.dataBits = s.nbits) (h3 : h.shiftReg = s.reg) (h4 : h.crc = s.crc) (h5 : h.dataReceived = s.recv)
    (h6 : h.dstpos = s.data.length) (h7 : dst.take s.data.length = s.data) (h8 : s.recv = false → s.data = [])
    (hdd : dsize ≤ dst.length) (hn8 : s.nbits < 8) (hok : srun dsize s (pend h.cbin h.bitShift ++ z) ≠ none) :
    ∃ r, getData h dst dsize 0 = some r ∧ Good dsize h dst s r := by
  have hst : sstep dsize s (h.cbin.getLsbD 7) ≠ none := by
    intro h9
    apply hok
    rw [hk, pend, List.cons_append, srun, h9]
    rfl
  have hx : ∀ b, h.cbin.getLsbD 7 = b → pend h.cbin h.bitShift = [b] ++ pend (h.cbin <<< 1) (h.bitShift - 1) := by
    intro b hb
    rw [hk, pend, hb]; rfl
  cases hb : h.cbin.getLsbD 7 with
  | true =>
    rw [hb] at hst
    have hst2 := hst
    unfold sstep at hst2
    rw [if_pos rfl] at hst2
    by_cases h9 : s.ones = 5
    · have hg : getDataBit h 0 = some ({ h with ones := h.ones + 1 }, 0) := by
        unfold getDataBit
        rw [if_pos hb]
        simp only [if_pos (show h.ones + 1 = 6 by omega)]
      unfold getData
      rw [hg]
      simp only [Option.bind_some, ne_eq, not_true_eq_false, if_false]
      rw [if_neg (by omega)]
      refine ⟨_, rfl, rfl, rfl, [true], { s with ones := 6 }, [], hx true hb, by simp [srun, sstep, h9], ⟨hR, ?_, Or.inl ?_⟩, Or.inl ?_,
        Or.inl ⟨rfl, rfl, rfl⟩⟩
      · simp only [nextBit]; omega
      · exact ⟨hs, by simp only [nextBit]; omega, h2, h3, h4, h5, h6, h7, h8, hn8⟩
      · simp only [nextBit]; omega
    · rw [if_neg h9] at hst2
      by_cases h10 : s.ones ≥ 6
      · rw [if_pos h10] at hst2; exact absurd rfl hst2
      · rw [if_neg h10] at hst2
        cases ht : shiftIn dsize s true (s.ones + 1) with
        | none => rw [ht] at hst2; exact absurd rfl hst2
        | some t =>
          refine data_shift dsize h dst s t k (s.ones + 1) true hR hk hk8 hb hs h2 h3 h4 h5 h6 h7 h8 hdd hn8 ht ?_ ?_
          · unfold sstep
            rw [if_pos rfl, if_neg h9, if_neg h10, ht]; rfl
          · unfold getDataBit
            rw [if_pos hb]
            simp only [if_neg (show ¬ h.ones + 1 = 6 by omega), if_neg (show ¬ h.ones + 1 = 7 by omega), if_true]
            rw [h1]
  | false =>
    rw [hb] at hst
    have hst2 := hst
    unfold sstep at hst2
    rw [if_neg (by simp)] at hst2
    by_cases h9 : s.ones = 5
    · have hg : getDataBit h 0 = some ({ h with ones := 0 }, 0) := by
        unfold getDataBit
        rw [if_neg (by rw [hb]; simp), if_pos (by omega)]
      unfold getData
      rw [hg]
      simp only [Option.bind_some, ne_eq, not_true_eq_false, if_false]
      rw [if_neg (by omega)]
      refine ⟨_, rfl, rfl, rfl, [false], { s with ones := 0 }, [], hx false hb, by simp [srun, sstep, h9], ⟨hR, ?_, Or.inl ?_⟩, Or.inl ?_,
        Or.inl ⟨rfl, rfl, rfl⟩⟩
      · simp only [nextBit]; omega
      · exact ⟨hs, rfl, h2, h3, h4, h5, h6, h7, h8, hn8⟩
      · simp only [nextBit]; omega
    · rw [if_neg h9] at hst2
      by_cases h10 : s.ones = 6
      · exact data_flag dsize h dst s z hR k hk hk8 hb h4 h5 h6 h7 h8 (by omega) (by omega)
      · rw [if_neg h10] at hst2
        cases ht : shiftIn dsize s false 0 with
        | none => rw [ht] at hst2; exact absurd rfl hst2
        | some t =>
          refine data_shift dsize h dst s t k 0 false hR hk hk8 hb hs h2 h3 h4 h5 h6 h7 h8 hdd hn8 ht ?_ ?_
          · unfold sstep
            rw [if_neg (by simp), if_neg h9, if_neg h10, ht]; rfl
          · unfold getDataBit
            rw [if_neg (by rw [hb]; simp), if_neg (by omega), if_neg (by omega)]
            simp

/-- A round of the loop, after the octet was fetched. -/
theorem switch_sim (dsize : Nat) (h : Rx) (dst : List Byte) (s : S) (z : List Bool) (hR : Rel 8 h dst s) (hk : 1 ≤ h.bitShift)
    (hdd : dsize ≤ dst.length) (hok : srun dsize s (pend h.cbin h.bitShift ++ z) ≠ none) :
    ∃ r, rxSwitch h dst dsize 0 = some r ∧ Good dsize h dst s r := by
  obtain ⟨ha, hb, hR⟩ := hR
  rcases hR with ⟨hs, h1, h2, h3, h4, h5, h6, h7, h8, h9⟩ | ⟨hs, h1, h2, h3, h4, h5, h6, h7⟩ | ⟨hs, h1, h2, h3⟩
  · unfold rxSwitch
    rw [hs]
    exact switch_data dsize h dst s z ha (h.bitShift - 1) (by omega) (by omega) hs h1 h2 h3 h4 h5 h6 h7 h8 hdd h9 hok
  · unfold rxSwitch
    rw [hs]
    dsimp only
    by_cases hv : h.cbin = h.ffvalue
    · rw [if_pos hv]
      refine ⟨_, rfl, rfl, rfl, pend h.cbin h.bitShift, s, [], by simp [pend], ?_, ?_, Or.inl (by simp only; omega), Or.inl ⟨rfl, rfl, rfl⟩⟩
      · rw [hv, h3, h4, h7]
        exact fast_stay dsize h1 h2
      · exact ⟨ha, by simp, Or.inr (Or.inl ⟨rfl, h1, h2, rfl, h4, h5, h6, h7⟩)⟩
    · rw [if_neg hv]
      by_cases hi : h.cbin = 0xff
      · exfalso
        apply hok
        rw [srun_append, hi, h3, h7, fast_idle dsize h1 h2]
        rfl
      · rw [if_neg hi]
        by_cases h88 : h.ffbitShift = 8
        · rw [if_pos h88]
          refine ⟨_, rfl, rfl, rfl, [], s, [], by simp, rfl, ⟨ha, hb, Or.inr (Or.inr ⟨rfl, hk, h6, by rw [h7, h88]⟩)⟩,
            Or.inr ⟨rfl, hs, by simp⟩, Or.inl ⟨rfl, rfl, rfl⟩⟩
        · rw [if_neg h88]
          have hab : handleAbort h = some { h with
              shiftReg := fastAbort.getD (h.ffbitShift - 1) 0, ones := h.ffbitShift - 2, dataBits := h.ffbitShift - 1, state := .getData, dataReceived := false } := by
            unfold handleAbort
            rw [if_neg (by omega)]
            have : fastAbort[h.ffbitShift - 1]? = some (fastAbort.getD (h.ffbitShift - 1) 0) := by
              rcases range8 h1 h2 with e | e | e | e | e | e | e | e <;> rw [e] <;> rfl
            rw [this]
            rfl
          rw [hab]
          refine ⟨_, rfl, rfl, rfl, [], s, [], by simp, rfl, ⟨ha, hb, Or.inl ?_⟩, Or.inr ⟨rfl, hs, by simp⟩, Or.inl ⟨rfl, rfl, rfl⟩⟩
          have hV : V h.ffbitShift = { ones := h.ffbitShift - 2, nbits := h.ffbitShift - 1, reg := fastAbort.getD (h.ffbitShift - 1) 0, crc := 0xffff, recv := false, data := [] } := by
            unfold V
            rw [if_neg h88]
          rw [h7, hV]
          exact ⟨rfl, rfl, rfl, rfl, h5, rfl, h6, rfl, fun _ => rfl, by simp only; omega⟩
  · unfold rxSwitch
    rw [hs]
    dsimp only
    obtain ⟨k, hk⟩ : ∃ k, h.bitShift = k + 1 := ⟨h.bitShift - 1, by omega⟩
    have hx : pend h.cbin h.bitShift = [h.cbin.getLsbD 7] ++ pend (h.cbin <<< 1) (h.bitShift - 1) := by
      rw [hk]; rfl
    cases hbit : h.cbin.getLsbD 7 with
    | true =>
      exfalso
      apply hok
      rw [hx, hbit, h3]
      rfl
    | false =>
      refine ⟨_, rfl, rfl, rfl, [false], fresh, [], ?_, ?_, ⟨ha, ?_, Or.inl ?_⟩, Or.inl ?_, Or.inl ⟨rfl, rfl, rfl⟩⟩
      · rw [hx, hbit]; rfl
      · rw [h3]; rfl
      · simp [nextBit]; omega
      · exact ⟨rfl, rfl, rfl, rfl, rfl, rfl, h2, rfl, fun _ => rfl, by decide⟩
      · simp [nextBit]; omega

theorem fetch_rel (h : Rx) (dst : List Byte) (s : S) (src : List Byte) (hR : Rel 0 h dst s) (hsrc : src ≠ []) :
    Rel 8 (fetch h src).1 dst s ∧ 1 ≤ (fetch h src).1.bitShift ∧ (fetch h src).1.state = h.state ∧
    (fetch h src).1.doBitreverse = h.doBitreverse ∧
    pend h.cbin h.bitShift ++ lineBits h.doBitreverse src =
      pend (fetch h src).1.cbin (fetch h src).1.bitShift ++ lineBits h.doBitreverse (fetch h src).2 := by
  obtain ⟨ha, hb, hR⟩ := hR
  unfold fetch
  by_cases h0 : h.bitShift = 0
  · rw [if_pos h0]
    cases src with
    | nil => exact absurd rfl hsrc
    | cons b src =>
      simp only [ha, Bool.false_eq_true, if_false, h0]
      refine ⟨⟨rfl, by simp, ?_⟩, by simp, trivial, trivial, ?_⟩
      · rcases hR with hR | ⟨hs, h1, h2, h3, h4⟩ | ⟨hs, h1, h2, h3⟩
        · exact Or.inl hR
        · exact Or.inr (Or.inl ⟨hs, h1, h2, rfl, h4⟩)
        · omega
      · rw [lineBits_cons]
        rfl
  · rw [if_neg h0]
    refine ⟨⟨ha, hb, ?_⟩, by simp only; omega, rfl, rfl, rfl⟩
    rcases hR with hR | ⟨hs, h1, h2, h3, h4⟩ | hR
    · exact Or.inl hR
    · exact absurd h3 h0
    · exact Or.inr (Or.inr hR)

/-- Bits to go, twice, and one more in fast flag mode. -/
def togo (h : Rx) (src : List Byte) : Nat := 2 * (h.bitShift + 8 * src.length) + if h.state = .fastFlag then 1 else 0

theorem loop_sim (dsize : Nat) (rev : Bool) : ∀ (fuel : Nat) (h : Rx) (src dst : List Byte) (s : S), togo h src < fuel → Rel 0 h dst s →
    h.doBitreverse = rev → dsize ≤ dst.length → srun dsize s (pend h.cbin h.bitShift ++ lineBits rev src) ≠ none →
    ∃ (h' : Rx) (src' dst' : List Byte) (rc : Int) (x : List Bool) (s' : S) (ev : List Event),
      decLoop dsize fuel h src dst 0 = some (h', src', dst', rc) ∧
      pend h.cbin h.bitShift ++ lineBits rev src = x ++ (pend h'.cbin h'.bitShift ++ lineBits rev src') ∧
      srun dsize s x = some (s', ev) ∧ Rel 0 h' dst' s' ∧ dst'.length = dst.length ∧ h'.doBitreverse = rev ∧
      (∃ pre, src = pre ++ src') ∧
      ((rc = 0 ∧ ev = [] ∧ src' = []) ∨
       (∃ e : Event, ev = [e] ∧ rc = e.1 ∧ e.1 ≠ 0 ∧ dst'.take e.2.length = e.2)) := by
  intro fuel
  induction fuel with
  | zero => intro h src dst s hf; omega
  | succ fuel ih =>
    intro h src dst s hf hR hrev hdd hok
    unfold decLoop
    by_cases hsrc : src = []
    · rw [if_pos hsrc]
      subst hsrc
      exact ⟨h, [], dst, 0, [], s, [], rfl, rfl, rfl, hR, rfl, hrev, ⟨[], rfl⟩, Or.inl ⟨rfl, rfl, rfl⟩⟩
    · rw [if_neg hsrc]
      dsimp only
      obtain ⟨f1, f2, f3, f4, f5⟩ := fetch_rel h dst s src hR hsrc
      rw [hrev] at f5
      have hpre : ∃ pre, src = pre ++ (fetch h src).2 := by
        unfold fetch
        split
        · cases src with
          | nil => exact ⟨[], rfl⟩
          | cons b src => exact ⟨[b], rfl⟩
        · exact ⟨[], rfl⟩
      obtain ⟨r, hr, g1, g2, x, s', ev, g3, g4, g5, g6, g7⟩ := switch_sim dsize (fetch h src).1 dst s (lineBits rev (fetch h src).2) f1 f2 hdd (by rw [← f5]; exact hok)
      rw [hr, Option.bind_some]
      rcases g7 with ⟨a1, a2, a3⟩ | ⟨e, a1, a2, a3, a4, a5⟩
      · rw [if_neg (by rw [a1]; simp), a2]
        have hlen := congrArg List.length f5
        simp only [List.length_append, pend_length, lineBits_length] at hlen
        have hall : pend h.cbin h.bitShift ++ lineBits rev src = x ++ (pend r.h.cbin r.h.bitShift ++ lineBits rev (fetch h src).2) := by
          rw [f5, g3, List.append_assoc]
        obtain ⟨h', src', dst', rc, y, s'', ev', b1, b2, b3, b4, b5, b6, b7, b8⟩ := ih r.h (fetch h src).2 r.dst s' (by
            unfold togo at hf ⊢
            rw [f3] at g6
            rcases g6 with g6 | ⟨g6, g8, g9⟩
            · split <;> split at hf <;> omega
            · rw [if_neg g9]
              rw [if_pos g8] at hf
              omega) g5 (by rw [g2, f4, hrev]) (by omega) (by
            intro hn
            apply hok
            rw [hall, srun_append, g4, Option.bind_some, hn]
            rfl)
        refine ⟨h', src', dst', rc, x ++ y, s'', ev', b1, ?_, ?_, b4, by omega, b6, ?_, b8⟩
        · rw [hall, b2, List.append_assoc]
        · rw [srun_append, g4, Option.bind_some, b3, a3]
          rfl
        · obtain ⟨p1, hp1⟩ := hpre
          obtain ⟨p2, hp2⟩ := b7
          exact ⟨p1 ++ p2, by rw [List.append_assoc, ← hp2, ← hp1]⟩
      · rw [if_pos a1]
        refine ⟨r.h, (fetch h src).2, r.dst, r.status, x, s', ev, rfl, ?_, g4, g5, g1, by rw [g2, f4, hrev], hpre, Or.inr ⟨e, a2, a3, a4, a5⟩⟩
        rw [f5, g3, List.append_assoc]

/-- One call. -/
theorem decode_sim (dsize : Nat) (h : Rx) (src dst : List Byte) (s : S) (hR : Rel 0 h dst s) (hdd : dsize ≤ dst.length)
    (hok : srun dsize s (pend h.cbin h.bitShift ++ lineBits h.doBitreverse src) ≠ none) :
    ∃ (h' : Rx) (src' dst' : List Byte) (rc : Int) (x : List Bool) (s' : S) (ev : List Event),
      decode h src dst dsize = some (h', src', dst', rc) ∧
      pend h.cbin h.bitShift ++ lineBits h.doBitreverse src = x ++ (pend h'.cbin h'.bitShift ++ lineBits h.doBitreverse src') ∧
      srun dsize s x = some (s', ev) ∧ Rel 0 h' dst' s' ∧ dst'.length = dst.length ∧ h'.doBitreverse = h.doBitreverse ∧
      (∃ pre, src = pre ++ src') ∧
      ((rc = 0 ∧ ev = [] ∧ src' = []) ∨
       (∃ e : Event, ev = [e] ∧ rc = e.1 ∧ e.1 ≠ 0 ∧ dst'.take e.2.length = e.2)) :=
  loop_sim dsize h.doBitreverse _ h src dst s (by
    unfold togo
    have := hR.2.1
    split <;> omega) hR rfl hdd hok

end Verif.IsdnHdlc
