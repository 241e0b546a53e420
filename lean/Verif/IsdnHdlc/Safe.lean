import Verif.IsdnHdlc.Dec
/-!
The decoder on any input.
-/
namespace Verif.IsdnHdlc

open Verif.Crc (crc16CcittByte)

/-- What holds of the decoder between calls; `w` is the number of bits of the octet in the fast modes. -/
structure Inv (w : Nat) (dsize : Nat) (h : Rx) : Prop where
  shift : h.bitShift ≤ 8
  fast : h.state = .fastIdle ∨ h.state = .fastFlag → h.bitShift = w ∧ h.doAdapt56 = false
  ff : h.state = .fastFlag → 1 ≤ h.ffbitShift ∧ h.ffbitShift ≤ 8
  pos : h.dstpos ≤ dsize

/-- Result of a round. -/
structure Ok (dsize : Nat) (h : Rx) (dst : List Byte) (r : RxRes) : Prop where
  inv : Inv 0 dsize r.h
  len : r.dst.length = dst.length
  rest : r.dst.drop dsize = dst.drop dsize
  low : -3 ≤ r.status
  high : r.status ≤ 0 ∨ r.status + 2 ≤ (dsize : Int)
  ret : r.ret = true → r.status ≠ 0
  less : r.h.bitShift < h.bitShift ∨
    (r.h.bitShift = h.bitShift ∧ (h.state = .fastFlag ∨ h.state = .fastIdle) ∧ r.h.state ≠ .fastFlag ∧ r.h.state ≠ .fastIdle)
  same : r.h.doAdapt56 = h.doAdapt56

theorem fastAbort_get {n : Nat} (h : n ≤ 9) : ∃ v, fastAbort[n]? = some v := by
  have : n < fastAbort.length := by simp [fastAbort]; omega
  exact ⟨fastAbort[n], List.getElem?_eq_getElem this⟩

theorem handleFastFlag_ok (h : Rx) (h1 : 1 ≤ h.bitShift) (h8 : h.bitShift ≤ 8) :
    ∃ h', handleFastFlag h = some h' ∧ h'.dstpos = h.dstpos ∧ h'.doAdapt56 = h.doAdapt56 ∧ h'.dataBits = h.dataBits ∧ 1 ≤ h'.bitShift ∧ h'.bitShift ≤ h.bitShift ∧
      ((h'.state = .fastFlag ∧ h'.bitShift = 1 ∧ 1 ≤ h'.ffbitShift ∧ h'.ffbitShift ≤ 8) ∨ h'.state = .getData) := by
  unfold handleFastFlag
  simp only [(fastFlag_get h8).1, (fastFlag_get h8).2, Option.bind_some, Option.map_some]
  split
  · exact ⟨_, rfl, rfl, rfl, rfl, by simp, h1, Or.inl ⟨rfl, rfl, h1, h8⟩⟩
  · exact ⟨_, rfl, rfl, rfl, rfl, h1, Nat.le_refl _, Or.inr rfl⟩

/-- A bit of data. -/
theorem getDataBit_ok (dsize : Nat) (h : Rx) (status : Int) (hi : Inv 8 dsize h) (h1 : 1 ≤ h.bitShift) (hs : h.state = .getData)
    (hl : -3 ≤ status) (hh : status ≤ 0) :
    ∃ h' st, getDataBit h status = some (h', st) ∧ h'.dstpos ≤ dsize ∧ h'.doAdapt56 = h.doAdapt56 ∧ 1 ≤ h'.bitShift ∧ h'.bitShift ≤ h.bitShift ∧
      -3 ≤ st ∧ (st ≤ 0 ∨ st + 2 ≤ (dsize : Int)) ∧
      (((h'.state = .fastFlag ∨ h'.state = .fastIdle) ∧ h'.bitShift = 1 ∧ h'.doAdapt56 = false ∧ (h'.state = .fastFlag → 1 ≤ h'.ffbitShift ∧ h'.ffbitShift ≤ 8)) ∨
        h'.state = .getData ∨ h'.state = .getFlagB0) := by
  have h8 := hi.shift
  have hp := hi.pos
  unfold getDataBit
  dsimp only
  split
  · split
    · exact ⟨_, _, rfl, hp, rfl, h1, Nat.le_refl _, hl, Or.inl hh, Or.inr (Or.inl hs)⟩
    · split
      · have hst : -3 ≤ (if h.dataReceived = true then (-1 : Int) else status) ∧ (if h.dataReceived = true then (-1 : Int) else status) ≤ 0 := by
          split <;> omega
        split
        · exact ⟨_, _, rfl, hp, rfl, h1, Nat.le_refl _, hst.1, Or.inl hst.2, Or.inr (Or.inr rfl)⟩
        · next hna =>
          obtain ⟨v, hv⟩ := fastAbort_get (show h.bitShift + 1 ≤ 9 by omega)
          rw [hv, Option.map_some]
          split
          · exact ⟨_, _, rfl, hp, rfl, by simp, h1, hst.1, Or.inl hst.2, Or.inl ⟨Or.inr rfl, rfl, by simpa using hna, fun h => by cases h⟩⟩
          · exact ⟨_, _, rfl, hp, rfl, h1, Nat.le_refl _, hst.1, Or.inl hst.2, Or.inr (Or.inl hs)⟩
      · exact ⟨_, _, rfl, hp, rfl, h1, Nat.le_refl _, hl, Or.inl hh, Or.inr (Or.inl hs)⟩
  · split
    · exact ⟨_, _, rfl, hp, rfl, h1, Nat.le_refl _, hl, Or.inl hh, Or.inr (Or.inl hs)⟩
    · split
      · obtain ⟨p, st, hc, c1, c2, c3⟩ : ∃ (p : Nat) (st : Int), (if h.dataReceived then checkFrame h else (h, status)) = ({ h with dstpos := p }, st) ∧
            p ≤ dsize ∧ -3 ≤ st ∧ (st ≤ 0 ∨ st + 2 ≤ (dsize : Int)) := by
          split
          · unfold checkFrame
            split
            · exact ⟨h.dstpos, -1, rfl, hp, by omega, by omega⟩
            · split
              · exact ⟨h.dstpos, -2, rfl, hp, by omega, by omega⟩
              · exact ⟨h.dstpos - 2, _, rfl, by omega, by omega, by omega⟩
          · exact ⟨h.dstpos, status, rfl, hp, hl, Or.inl hh⟩
        rw [hc]
        dsimp only
        split
        · exact ⟨_, _, rfl, c1, rfl, h1, Nat.le_refl _, c2, c3, Or.inr (Or.inl rfl)⟩
        · next hna =>
          obtain ⟨h', e1, e2, e3, e4, e5, e6, e7⟩ := handleFastFlag_ok { h with dstpos := p, crc := 0xffff, shiftReg := 0, dataBits := 0 } h1 h8
          rw [e1, Option.map_some]
          refine ⟨_, _, rfl, by rw [e2]; exact c1, e3, e5, e6, c2, c3, ?_⟩
          rcases e7 with ⟨f1, f2, f3⟩ | f1
          · exact Or.inl ⟨Or.inl f1, f2, by rw [e3]; simpa using hna, fun _ => f3⟩
          · exact Or.inr (Or.inl f1)
      · exact ⟨_, _, rfl, hp, rfl, h1, Nat.le_refl _, hl, Or.inl hh, Or.inr (Or.inl hs)⟩

theorem inv_slow {dsize : Nat} {h : Rx} (h1 : h.bitShift ≤ 8) (h2 : h.state ≠ .fastIdle) (h3 : h.state ≠ .fastFlag) (h4 : h.dstpos ≤ dsize) : Inv 0 dsize h :=
  ⟨h1, fun h => by rcases h with h | h <;> contradiction, fun h => absurd h h3, h4⟩

theorem drop_set_lt (dst : List Byte) (i dsize : Nat) (b : Byte) (h : i < dsize) : (dst.set i b).drop dsize = dst.drop dsize := by
  rw [List.drop_set, if_pos h]

theorem getData_ok (dsize : Nat) (h : Rx) (dst : List Byte) (status : Int) (hi : Inv 8 dsize h) (h1 : 1 ≤ h.bitShift) (hs : h.state = .getData)
    (hl : -3 ≤ status) (hh : status ≤ 0) (hdd : dsize ≤ dst.length) :
    ∃ r, getData h dst dsize status = some r ∧ Ok dsize h dst r ∧ (r.ret = false → r.status ≤ 0) := by
  obtain ⟨h', st, e1, e2, e3, e4, e5, e6, e7, e8⟩ := getDataBit_ok dsize h status hi h1 hs hl hh
  have h8 := hi.shift
  unfold getData
  rw [e1, Option.bind_some]
  dsimp only
  -- the state after the bit
  have hinv : ∀ g : Rx, g.state = h'.state → g.bitShift = h'.bitShift → g.ffbitShift = h'.ffbitShift → g.doAdapt56 = h'.doAdapt56 → g.dstpos ≤ dsize →
      Inv 0 dsize (nextBit g) ∧ (nextBit g).bitShift < h.bitShift := by
    intro g g1 g2 g3 g4 g5
    refine ⟨⟨by simp only [nextBit]; omega, ?_, ?_, g5⟩, by simp only [nextBit]; omega⟩
    · intro hf
      simp only [nextBit] at hf ⊢
      rw [g1] at hf
      rcases e8 with ⟨_, f2, f3, _⟩ | f1 | f1
      · exact ⟨by omega, by rw [g4, f3]⟩
      · rw [f1] at hf; rcases hf with hf | hf <;> cases hf
      · rw [f1] at hf; rcases hf with hf | hf <;> cases hf
    · intro hf
      simp only [nextBit] at hf ⊢
      rw [g1] at hf
      rcases e8 with ⟨_, _, _, f4⟩ | f1 | f1
      · rw [g3]; exact f4 hf
      · rw [f1] at hf; cases hf
      · rw [f1] at hf; cases hf
  by_cases h0 : st = 0
  · rw [if_neg (by simpa using h0)]
    by_cases hb : h'.dataBits = 8
    · rw [if_pos hb]
      by_cases hd : h'.dstpos < dsize
      · rw [if_pos hd, if_pos (by omega)]
        obtain ⟨i1, i2⟩ := hinv { h' with dataBits := 0, dataReceived := true, crc := crc16CcittByte h'.crc h'.shiftReg, dstpos := h'.dstpos + 1 } rfl rfl rfl rfl (by simp only; omega)
        exact ⟨_, rfl, ⟨i1, by simp, drop_set_lt _ _ _ _ hd, by simp, by simp, by simp, Or.inl i2, e3⟩, by simp⟩
      · rw [if_neg hd]
        obtain ⟨i1, i2⟩ := hinv { h' with dataBits := 0, dataReceived := true, crc := crc16CcittByte h'.crc h'.shiftReg, dstpos := 0 } rfl rfl rfl rfl (by simp)
        exact ⟨_, rfl, ⟨i1, rfl, rfl, by simp, by simp, by simp, Or.inl i2, e3⟩, by simp⟩
    · rw [if_neg hb]
      obtain ⟨i1, i2⟩ := hinv h' rfl rfl rfl rfl e2
      exact ⟨_, rfl, ⟨i1, rfl, rfl, by simp, by simp, by simp, Or.inl i2, e3⟩, by simp⟩
  · rw [if_pos h0]
    obtain ⟨i1, i2⟩ := hinv { h' with dstpos := 0 } rfl rfl rfl rfl (by simp)
    exact ⟨_, rfl, ⟨i1, rfl, rfl, e6, e7, fun _ => h0, Or.inl i2, e3⟩, by simp⟩

theorem switch_ok (dsize : Nat) (h : Rx) (dst : List Byte) (status : Int) (hi : Inv 8 dsize h) (h1 : 1 ≤ h.bitShift)
    (hl : -3 ≤ status) (hh : status ≤ 0) (hdd : dsize ≤ dst.length) :
    ∃ r, rxSwitch h dst dsize status = some r ∧ Ok dsize h dst r ∧ (r.ret = false → r.status ≤ 0) := by
  obtain ⟨h8, hfast, hff, hp⟩ := hi
  unfold rxSwitch
  cases hs : h.state with
  | fastIdle =>
    obtain ⟨f1, f2⟩ := hfast (Or.inl hs)
    dsimp only
    split
    · exact ⟨_, rfl, ⟨⟨by simp, fun _ => ⟨rfl, f2⟩, (fun h => by cases h), hp⟩, rfl, rfl, hl, Or.inl hh, by simp, Or.inl (by simp only; omega), rfl⟩, fun _ => hh⟩
    · refine ⟨_, rfl, ⟨inv_slow (by simp) (by simp) (by simp) hp, rfl, rfl, hl, Or.inl hh, by simp, Or.inr ⟨f1.symm, Or.inr hs, by simp, by simp⟩, rfl⟩, fun _ => hh⟩
  | getFlagB0 =>
    dsimp only
    split
    · split
      · exact ⟨_, rfl, ⟨inv_slow (by simp only [nextBit]; omega) (by simp [nextBit, hs]) (by simp [nextBit, hs]) hp, rfl, rfl, hl, Or.inl hh, by simp, Or.inl (by simp only [nextBit]; omega), rfl⟩, fun _ => hh⟩
      · next hna =>
        split
        · next hc =>
          exact ⟨_, rfl, ⟨⟨by simp only [nextBit]; omega, fun _ => ⟨by simp only [nextBit]; omega, by simpa [nextBit] using hna⟩, (fun h => by cases h), hp⟩,
            rfl, rfl, hl, Or.inl hh, by simp, Or.inl (by simp only [nextBit]; omega), rfl⟩, fun _ => hh⟩
        · exact ⟨_, rfl, ⟨inv_slow (by simp only [nextBit]; omega) (by simp [nextBit]) (by simp [nextBit]) hp, rfl, rfl, hl, Or.inl hh, by simp, Or.inl (by simp only [nextBit]; omega), rfl⟩, fun _ => hh⟩
    · exact ⟨_, rfl, ⟨inv_slow (by simp only [nextBit]; omega) (by simp [nextBit]) (by simp [nextBit]) hp, rfl, rfl, hl, Or.inl hh, by simp, Or.inl (by simp only [nextBit]; omega), rfl⟩, fun _ => hh⟩
  | getFlagB1A6 =>
    dsimp only
    split
    · split <;> exact ⟨_, rfl, ⟨inv_slow (by simp only [nextBit]; omega) (by simp [nextBit, hs]) (by simp [nextBit, hs]) hp, rfl, rfl, hl, Or.inl hh, by simp, Or.inl (by simp only [nextBit]; omega), rfl⟩, fun _ => hh⟩
    · exact ⟨_, rfl, ⟨inv_slow (by simp only [nextBit]; omega) (by simp [nextBit, hs]) (by simp [nextBit, hs]) hp, rfl, rfl, hl, Or.inl hh, by simp, Or.inl (by simp only [nextBit]; omega), rfl⟩, fun _ => hh⟩
  | getFlagB7 =>
    dsimp only
    split <;> exact ⟨_, rfl, ⟨inv_slow (by simp only [nextBit]; omega) (by simp [nextBit, hs]) (by simp [nextBit, hs]) hp, rfl, rfl, hl, Or.inl hh, by simp, Or.inl (by simp only [nextBit]; omega), rfl⟩, fun _ => hh⟩
  | getData => exact getData_ok dsize h dst status ⟨h8, hfast, hff, hp⟩ h1 hs hl hh hdd
  | fastFlag =>
    obtain ⟨f1, f2⟩ := hfast (Or.inr hs)
    obtain ⟨g1, g2⟩ := hff hs
    dsimp only
    split
    · exact ⟨_, rfl, ⟨⟨by simp, fun _ => ⟨rfl, f2⟩, fun _ => ⟨g1, g2⟩, hp⟩, rfl, rfl, hl, Or.inl hh, by simp, Or.inl (by simp only; omega), rfl⟩, fun _ => hh⟩
    · split
      · exact ⟨_, rfl, ⟨⟨by simp, fun _ => ⟨rfl, f2⟩, (fun h => by cases h), hp⟩, rfl, rfl, hl, Or.inl hh, by simp, Or.inl (by simp only; omega), rfl⟩, fun _ => hh⟩
      · split
        · exact ⟨_, rfl, ⟨inv_slow h8 (by simp) (by simp) hp, rfl, rfl, hl, Or.inl hh, by simp, Or.inr ⟨rfl, Or.inl hs, by simp, by simp⟩, rfl⟩, fun _ => hh⟩
        · unfold handleAbort
          obtain ⟨v, hv⟩ := fastAbort_get (show h.ffbitShift - 1 ≤ 9 by omega)
          rw [if_neg (by omega), hv]
          exact ⟨_, rfl, ⟨inv_slow h8 (by simp) (by simp) hp, rfl, rfl, hl, Or.inl hh, by simp, Or.inr ⟨rfl, Or.inl hs, by simp, by simp⟩, rfl⟩, fun _ => hh⟩

theorem fetch_ok (dsize : Nat) (h : Rx) (src : List Byte) (hi : Inv 0 dsize h) (hs : src ≠ []) :
    Inv 8 dsize (fetch h src).1 ∧ 1 ≤ (fetch h src).1.bitShift ∧ (fetch h src).1.state = h.state ∧
      (fetch h src).1.bitShift + 8 * (fetch h src).2.length ≤ h.bitShift + 8 * src.length ∧ ∃ pre, src = pre ++ (fetch h src).2 := by
  obtain ⟨h1, h2, h3, h4⟩ := hi
  unfold fetch
  by_cases h0 : h.bitShift = 0
  · rw [if_pos h0]
    cases src with
    | nil => exact absurd rfl hs
    | cons b src =>
      refine ⟨⟨by simp only; split <;> omega, ?_, h3, h4⟩, by simp only; split <;> omega, rfl, ?_, [b], rfl⟩
      · intro hf
        obtain ⟨_, f2⟩ := h2 hf
        exact ⟨by simp [f2], f2⟩
      · simp only [List.length_cons]
        split <;> omega
  · rw [if_neg h0]
    refine ⟨⟨h1, ?_, h3, h4⟩, by simp only; omega, rfl, by simp only; omega, [], rfl⟩
    intro hf
    obtain ⟨f1, _⟩ := h2 hf
    exact absurd f1 h0

/-- Rounds to go. -/
def rounds (h : Rx) (src : List Byte) : Nat := 2 * (h.bitShift + 8 * src.length) + if h.state = .fastFlag ∨ h.state = .fastIdle then 1 else 0

theorem loop_total (dsize : Nat) : ∀ (fuel : Nat) (h : Rx) (src dst : List Byte) (status : Int), rounds h src < fuel → Inv 0 dsize h →
    -3 ≤ status → status ≤ 0 → dsize ≤ dst.length →
    ∃ (h' : Rx) (src' dst' : List Byte) (rc : Int), decLoop dsize fuel h src dst status = some (h', src', dst', rc) ∧ Inv 0 dsize h' ∧
      dst'.length = dst.length ∧ dst'.drop dsize = dst.drop dsize ∧ (∃ pre, src = pre ++ src') ∧ -3 ≤ rc ∧ (rc ≤ 0 ∨ rc + 2 ≤ (dsize : Int)) ∧
      (rc = 0 → src' = []) := by
  intro fuel
  induction fuel with
  | zero => intro h src dst status hf; omega
  | succ fuel ih =>
    intro h src dst status hf hi hl hh hdd
    unfold decLoop
    by_cases hs : src = []
    · rw [if_pos hs]
      exact ⟨h, src, dst, 0, rfl, hi, rfl, rfl, ⟨[], rfl⟩, by omega, by omega, fun _ => hs⟩
    · rw [if_neg hs]
      dsimp only
      obtain ⟨f1, f2, f3, f4, pre, f5⟩ := fetch_ok dsize h src hi hs
      obtain ⟨r, hr, ⟨a1, a2, a3, a4, a5, a6, a7, a8⟩, hz⟩ := switch_ok dsize (fetch h src).1 dst status f1 f2 hl hh hdd
      rw [hr, Option.bind_some]
      cases hret : r.ret with
      | true =>
        rw [if_pos rfl]
        exact ⟨_, _, _, _, rfl, a1, a2, a3, ⟨pre, f5⟩, a4, a5, fun h => absurd h (a6 hret)⟩
      | false =>
        rw [if_neg (by simp)]
        obtain ⟨h', src', dst', rc, b1, b2, b3, b4, ⟨p2, b5⟩, b6, b7, b8⟩ := ih r.h (fetch h src).2 r.dst r.status (by
          unfold rounds at hf ⊢
          rw [f3] at a7
          rcases a7 with a7 | ⟨a7, a9, a10, a11⟩
          · split <;> split at hf <;> omega
          · rw [if_neg (by rintro (h | h) <;> contradiction)]
            rw [if_pos a9] at hf
            omega) a1 a4 (hz hret) (by omega)
        exact ⟨h', src', dst', rc, b1, b2, by omega, by rw [b4, a3], ⟨pre ++ p2, by rw [List.append_assoc, ← b5, ← f5]⟩, b6, b7, b8⟩

theorem rcvInit_inv (dsize : Nat) (adapt rev : Bool) : Inv 0 dsize (rcvInit adapt rev) :=
  inv_slow (by simp [rcvInit]) (by simp [rcvInit]) (by simp [rcvInit]) (by simp [rcvInit])

/-- C71: whatever comes on the line, a call of the decoder ends, reads nothing outside of the
source or the tables, writes nothing outside of the first `dsize` octets of the destination,
and returns an error code, 0, or a length that is at least two less than `dsize`; after 0
all of the source has been used; and what is assumed of the decoder's state holds again. -/
theorem decode_total (dsize : Nat) (h : Rx) (src dst : List Byte) (hi : Inv 0 dsize h) (hdd : dsize ≤ dst.length) :
    ∃ (h' : Rx) (src' dst' : List Byte) (rc : Int), decode h src dst dsize = some (h', src', dst', rc) ∧ Inv 0 dsize h' ∧
      dst'.length = dst.length ∧ dst'.drop dsize = dst.drop dsize ∧ (∃ pre, src = pre ++ src') ∧ -3 ≤ rc ∧ (rc ≤ 0 ∨ rc + 2 ≤ (dsize : Int)) ∧
      (rc = 0 → src' = []) :=
  loop_total dsize _ h src dst 0 (by
    unfold rounds
    have := hi.shift
    split <;> omega) hi (by omega) (by omega) hdd

/-- Calls with one source after the other, in one buffer, whatever the return values: the rest of a source is dropped. -/
def decodeMany (dsize : Nat) : Rx → List Byte → List (List Byte) → Option (Rx × List Byte × List Int)
  | h, dst, [] => some (h, dst, [])
  | h, dst, src :: rest =>
    (decode h src dst dsize).bind (fun r => (decodeMany dsize r.1 r.2.2.1 rest).map (fun q => (q.1, q.2.1, r.2.2.2 :: q.2.2)))

/-- C71: so it is for any number of calls after `osmo_isdnhdlc_rcv_init`, with any
features. -/
theorem decode_calls_total (dsize : Nat) (adapt rev : Bool) (dst : List Byte) (srcs : List (List Byte)) (hdd : dsize ≤ dst.length) :
    ∃ h' dst' rcs, decodeMany dsize (rcvInit adapt rev) dst srcs = some (h', dst', rcs) ∧ dst'.length = dst.length ∧ dst'.drop dsize = dst.drop dsize ∧
      rcs.length = srcs.length ∧ ∀ rc ∈ rcs, -3 ≤ rc ∧ (rc ≤ 0 ∨ rc + 2 ≤ (dsize : Int)) := by
  have key : ∀ (srcs : List (List Byte)) (h : Rx) (dst : List Byte), Inv 0 dsize h → dsize ≤ dst.length →
      ∃ h' dst' rcs, decodeMany dsize h dst srcs = some (h', dst', rcs) ∧ dst'.length = dst.length ∧ dst'.drop dsize = dst.drop dsize ∧
        rcs.length = srcs.length ∧ ∀ rc ∈ rcs, -3 ≤ rc ∧ (rc ≤ 0 ∨ rc + 2 ≤ (dsize : Int)) := by
    intro srcs
    induction srcs with
    | nil => intro h dst _ _; exact ⟨h, dst, [], rfl, rfl, rfl, rfl, by simp⟩
    | cons src srcs ih =>
      intro h dst hi hdd
      obtain ⟨h', src', dst', rc, e1, e2, e3, e4, _, e5, e6, _⟩ := decode_total dsize h src dst hi hdd
      obtain ⟨h'', dst'', rcs, f1, f2, f3, f4, f5⟩ := ih h' dst' e2 (by omega)
      refine ⟨h'', dst'', rc :: rcs, ?_, by omega, by rw [f3, e4], by simp [f4], ?_⟩
      · simp only [decodeMany, e1, Option.bind_some, f1, Option.map_some]
      · intro r hr
        rcases List.mem_cons.mp hr with rfl | hr
        · exact ⟨e5, e6⟩
        · exact f5 r hr
  exact key srcs _ dst (rcvInit_inv dsize adapt rev) hdd

/-- An abort in a frame, then noise. -/
example : ((decodeMany 4 (rcvInit false false) (List.replicate 6 0x55) [[0x7e, 0x31, 0xff, 0xff], [0x7e, 0x7f, 0x01, 0x7f, 0x80]]).map
    (fun r => (r.2.1, r.2.2))) = some ([0x5f, 0xc0, 0x55, 0x55, 0x55, 0x55], [-1, -1]) := by decide +kernel

end Verif.IsdnHdlc
