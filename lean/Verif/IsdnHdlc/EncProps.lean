import Verif.IsdnHdlc.Enc
/-!
Frames and flags on the line, over any number of calls of the encoder.
-/
namespace Verif.IsdnHdlc

open Verif.Crc (crc16CcittByte)

theorem low_flag {d : Nat} (h : d ≤ 8) : low (xfastFlagValue.getD d 0 >>> (8 - d)) d = flagEnd d := by
  have : d = 0 ∨ d = 1 ∨ d = 2 ∨ d = 3 ∨ d = 4 ∨ d = 5 ∨ d = 6 ∨ d = 7 ∨ d = 8 := by omega
  rcases this with rfl | rfl | rfl | rfl | rfl | rfl | rfl | rfl | rfl <;> decide +kernel

theorem frameBits_eq (b : Byte) (t : List Byte) :
    frameBits (b :: t) = pendStuff 0 (lsb b 8 ++ (t.flatMap lsbBits ++ fcsBits (t.foldl crc16CcittByte (crc16CcittByte 0xffff b)))) := by
  have hx : ∀ c : BitVec 16, c ^^^ 0xffff#16 = ~~~c := by
    intro c
    rw [show (0xffff#16) = BitVec.allOnes 16 from rfl, BitVec.xor_allOnes]
  unfold frameBits pendStuff fcs fcsBits
  rw [if_neg (by omega), lsb_eight, hx]
  simp only [List.cons_append, List.flatMap_cons, List.flatMap_append, List.foldl_cons, List.flatMap_nil, List.append_nil]
  rfl

/-- The round that takes the first octet of a frame. -/
theorem start_round (h : Tx) (b : Byte) (t : List Byte) (out : List Byte) (n d : Nat) (rev : Bool) (hr : Ready { h with state := .sendFastFlag } d rev)
    (hc : h.doClosing = false) (hs : (h.state = .sendFastFlag ∧ t ≠ []) ∨ (h.state = .sendFlagOne ∧ t = [])) :
    ∃ (h' : Tx) (o : List Byte) (R' : List Bool),
      txRound { h := h, src := b :: t, out := out, dsize := n } = some { h := h', src := t, out := out ++ o, dsize := n - o.length } ∧
      d = h'.dataBits + 8 * o.length ∧ flagEnd d ++ (frameBits (b :: t) ++ flag) = lineBits rev o ++ R' ∧ Busy 7 h' t R' rev := by
  obtain ⟨r1, r2, r3, r4, r5, r6, r7, r8, r9, r10⟩ := hr
  simp only at r2 r3 r4 r6 r7 r8 r9
  have hl : txLoad h (b :: t) = ({ h with shiftReg := b, doClosing := decide (t = []), bitShift := 8 }, t) := by
    unfold txLoad
    rw [if_pos r2, if_pos ⟨by simp, hc⟩]
    cases t <;> simp
  have hsw : txSwitch { h := { h with shiftReg := b, doClosing := decide (t = []), bitShift := 8 }, src := t, out := out, dsize := n } =
      some { h := { h with shiftReg := b, doClosing := decide (t = []), bitShift := 8, cbin := h.ffvalue >>> (8 - h.dataBits), state := .sendData, crc := 0xffff, ones := 0, dataReceived := true },
             src := t, out := out, dsize := n } := by
    unfold txSwitch
    dsimp only
    rcases hs with ⟨hs, ht⟩ | ⟨hs, ht⟩
    · rw [hs]
      dsimp only
      rw [if_neg ht]
      unfold txFlagOne
      simp [ht]
    · rw [hs]
      dsimp only
      unfold txFlagOne
      simp [ht]
  have hB : Busy 8 { h with shiftReg := b, doClosing := decide (t = []), bitShift := 8, cbin := h.ffvalue >>> (8 - h.dataBits), state := .sendData, crc := 0xffff, ones := 0, dataReceived := true }
      t (flagEnd d ++ (frameBits (b :: t) ++ flag)) rev := by
    refine ⟨r7, r8, r9, by simp only; omega, by simp, by simp, Or.inl ⟨rfl, rfl, rfl, ?_⟩⟩
    simp only [if_true]
    rw [r3, r4, low_flag r5, frameBits_eq]
  obtain ⟨h', o, R', o1, o2, o3, o4⟩ := out_busy { h := _, src := t, out := out, dsize := (n : Int) } _ rev hB
  refine ⟨h', o, R', ?_, by rw [← r3]; exact o2, o3, o4⟩
  unfold txRound
  dsimp only
  rw [hl]
  dsimp only
  rw [hsw, Option.map_some, o1]

theorem flagLast_frame (d : Nat) (X : List Bool) : FlagLast (flagEnd d ++ (X ++ flag)) := Or.inl ⟨flagEnd d ++ X, by rw [List.append_assoc]⟩

/-- The call that gets a new frame. -/
theorem encode_start (fuel n : Nat) (h : Tx) (p : List Byte) (d : Nat) (rev : Bool) (hr : Ready h d rev) (hp : p ≠ [])
    (h1 : p.length = 1 → h.doClosing = false) (hn : 1 ≤ n) (hf : 8 * n + 20 ≤ fuel) :
    ∃ (l : TxLoop), encode fuel h p n = some (l.h, l.src, l.out) ∧ Ends rev (flagEnd d ++ (frameBits p ++ flag)) n l l.out := by
  obtain ⟨b, t, rfl⟩ : ∃ b t, p = b :: t := by
    cases p with
    | nil => exact absurd rfl hp
    | cons b t => exact ⟨b, t, rfl⟩
  -- from the round that takes the first octet on
  have main : ∀ (g : Nat) (h' : Tx), 8 * n + 19 ≤ g → Ready { h' with state := .sendFastFlag } d rev → h'.doClosing = false →
      ((h'.state = .sendFastFlag ∧ t ≠ []) ∨ (h'.state = .sendFlagOne ∧ t = [])) →
      ∃ (l : TxLoop), encLoop g { h := h', src := b :: t, out := [], dsize := n } = some l ∧
        Ends rev (flagEnd d ++ (frameBits (b :: t) ++ flag)) n l l.out := by
    intro g h' hg hr' hc hs
    obtain ⟨h2, o, R', o1, o2, o3, o4⟩ := start_round h' b t [] n d rev hr' hc hs
    obtain ⟨g, rfl⟩ : ∃ k, g = k + 1 := ⟨g - 1, by omega⟩
    rw [encLoop, if_pos (by simp only; omega), o1, Option.bind_some]
    have hol : o.length ≤ 1 := by have := hr'.le; omega
    obtain ⟨l, o', e1, e2, e3⟩ := loop_busy rev g (n - o.length) { h := h2, src := t, out := [] ++ o, dsize := n - o.length } R' o4
      (flagLast_drop (by rw [← o3]; exact flagLast_frame _ _)) (by simp only; omega) (by omega)
    refine ⟨l, e1, ?_⟩
    rw [e2]
    simp only [List.nil_append]
    rcases e3 with ⟨f1, R'', f2, f3⟩ | ⟨f1, f2, d', f3, f4, f5⟩
    · refine Or.inl ⟨by rw [List.length_append]; omega, R'', ?_, f3⟩
      rw [o3, f2, lineBits_append, List.append_assoc]
    · refine Or.inr ⟨by rw [List.length_append]; omega, f2, d', f3, f4, ?_⟩
      rw [lineBits_append, f5, o3, List.append_assoc]
  have hst := hr.state
  unfold encode txEnter
  cases t with
  | nil =>
    rw [if_pos ⟨rfl, hst⟩]
    have hc := h1 rfl
    obtain ⟨l, e1, e2⟩ := main fuel { h with state := .sendFlagOne } (by omega) ⟨rfl, hr.shift, hr.bits, hr.ff, hr.le, hr.init, hr.chan, hr.adapt, hr.rev, hr.closing⟩ hc (Or.inr ⟨rfl, rfl⟩)
    exact ⟨l, by rw [e1]; rfl, e2⟩
  | cons c t =>
    rw [if_neg (by simp)]
    have hr1 : ∀ q : Bool, q = false → Ready { h with doClosing := q, state := .sendFastFlag } d rev := fun q hq =>
      ⟨rfl, hr.shift, hr.bits, hr.ff, hr.le, hr.init, hr.chan, hr.adapt, hr.rev, fun h => by rw [hq] at h; cases h⟩
    cases hc : h.doClosing with
    | false =>
      obtain ⟨l, e1, e2⟩ := main fuel h (by omega) (by have := hr1 h.doClosing hc; exact this) hc (Or.inl ⟨hst, by simp⟩)
      exact ⟨l, by rw [e1]; rfl, e2⟩
    | true =>
      have hd := hr.closing hc
      obtain ⟨g, rfl⟩ : ∃ k, fuel = k + 1 := ⟨fuel - 1, by omega⟩
      have hround : txRound { h := h, src := b :: c :: t, out := [], dsize := n } = some { h := { h with doClosing := false }, src := b :: c :: t, out := [], dsize := n } := by
        have hl : txLoad h (b :: c :: t) = (h, b :: c :: t) := by
          unfold txLoad
          rw [if_pos hr.shift, if_neg (by simp [hc]), if_neg (by rw [hst]; simp)]
        unfold txRound
        dsimp only
        rw [hl]
        unfold txSwitch
        dsimp only
        rw [hst]
        dsimp only
        rw [if_neg (by simp), Option.map_some]
        unfold txOut txAdapt txFlagOne
        have hb := hr.bits
        rw [hd] at hb
        simp [hr.shift, hr.adapt, hb]
      rw [encLoop, if_pos (by simp only; omega), hround, Option.bind_some]
      obtain ⟨l, e1, e2⟩ := main g { h with doClosing := false } (by omega) (by have := hr1 false rfl; exact this) rfl (Or.inl ⟨hst, by simp⟩)
      exact ⟨l, by rw [e1]; rfl, e2⟩

/-- A call within a frame. -/
theorem encode_continue (fuel n : Nat) (h : Tx) (src : List Byte) (R : List Bool) (rev : Bool) (hB : Busy 7 h src R rev) (hF : FlagLast R)
    (hf : 8 * n + 20 ≤ fuel) :
    ∃ (l : TxLoop), encode fuel h src n = some (l.h, l.src, l.out) ∧ Ends rev R n l l.out := by
  have he : txEnter h src = h := by
    unfold txEnter
    rw [if_neg]
    rintro ⟨_, h2⟩
    rcases hB.todo with ⟨c1, _⟩ | ⟨c1, _⟩ | ⟨c1, _⟩ | ⟨c1, _⟩ <;> rw [c1] at h2 <;> cases h2
  obtain ⟨l, o, e1, e2, e3⟩ := loop_busy rev fuel n { h := h, src := src, out := [], dsize := n } R hB hF rfl (by simp only; omega)
  simp only [List.nil_append] at e2
  subst e2
  refine ⟨l, ?_, e3⟩
  unfold encode
  rw [he, e1]
  rfl

/-- Flags, if there is nothing to send. -/
theorem idle_loop (rev : Bool) (d : Nat) (hd : d < 8) : ∀ (n fuel : Nat) (h : Tx) (out : List Byte), Ready h d rev → n + 1 ≤ fuel →
    ∃ (h' : Tx) (o : List Byte), encLoop fuel { h := h, src := [], out := out, dsize := n } = some { h := h', src := [], out := out ++ o, dsize := 0 } ∧
      Ready h' d rev ∧ o.length = n ∧ (0 < n → h'.doClosing = false) ∧ lineBits rev o ++ flagEnd d = flagEnd d ++ (List.replicate n flag).flatten := by
  intro n
  induction n with
  | zero =>
    intro fuel h out hr hf
    obtain ⟨g, rfl⟩ : ∃ k, fuel = k + 1 := ⟨fuel - 1, by omega⟩
    exact ⟨h, [], by simp [encLoop], hr, rfl, by omega, by simp [lineBits_nil]⟩
  | succ n ih =>
    intro fuel h out hr hf
    obtain ⟨g, rfl⟩ : ∃ k, fuel = k + 1 := ⟨fuel - 1, by omega⟩
    have hb8 : h.dataBits ≠ 8 := by have := hr.bits; omega
    rw [encLoop, if_pos (by simp only; omega), idle_round h out _ hr.state hr.shift hr.adapt hb8, Option.bind_some]
    obtain ⟨h', o, e1, e2, e3, e4, e5⟩ := ih g { h with doClosing := false } (out ++ [outByte h h.ffvalue])
      ⟨hr.state, hr.shift, hr.bits, hr.ff, hr.le, hr.init, hr.chan, hr.adapt, hr.rev, fun h => by cases h⟩ (by omega)
    refine ⟨h', outByte h h.ffvalue :: o, ?_, e2, by simp [e3], ?_, ?_⟩
    · rw [show (((n + 1 : Nat) : Int) - 1) = (n : Int) from by omega, e1]
      simp
    · intro _
      by_cases hn : 0 < n
      · exact e4 hn
      · have hn0 : n = 0 := by omega
        subst hn0
        obtain ⟨g, rfl⟩ : ∃ k, g = k + 1 := ⟨g - 1, by omega⟩
        simp only [encLoop] at e1
        rw [if_neg (by simp)] at e1
        simp only [Option.some.injEq, TxLoop.mk.injEq] at e1
        rw [← e1.1]
    · rw [show outByte h h.ffvalue :: o = [outByte h h.ffvalue] ++ o from rfl, lineBits_append, ← hr.rev, line_out, hr.ff, hr.rev, ff_octet hr.le,
        List.append_assoc, e5, List.append_assoc, List.replicate_succ, List.flatten_cons]
      congr 1
      rw [← List.append_assoc, show flag.take (8 - d) ++ flagEnd d = flag from List.take_append_drop _ _]

/-- Flags in a row. -/
def flags (m : Nat) : List Bool := (List.replicate m flag).flatten

theorem flags_add (m n : Nat) : flags m ++ flags n = flags (m + n) := by
  unfold flags
  rw [← List.flatten_append, List.replicate_append_replicate]

/-- A call without anything to send. -/
theorem encode_idle (fuel n : Nat) (h : Tx) (d : Nat) (rev : Bool) (hr : Ready h d rev) (hn : 1 ≤ n) (h2 : d = 8 → 2 ≤ n) (hf : 8 * n + 20 ≤ fuel) :
    ∃ (h' : Tx) (o : List Byte) (d' m : Nat), encode fuel h [] n = some (h', [], o) ∧ Ready h' d' rev ∧ d' < 8 ∧ o.length = n ∧ h'.doClosing = false ∧
      lineBits rev o ++ flagEnd d' = flagEnd d ++ flags m ∧ n ≤ m + 1 := by
  have he : txEnter h [] = h := by
    unfold txEnter
    rw [if_neg (by simp)]
  unfold encode
  rw [he]
  by_cases hd : d = 8
  · subst hd
    obtain ⟨g, rfl⟩ : ∃ k, fuel = k + 1 := ⟨fuel - 1, by omega⟩
    have h2' := h2 rfl
    have hff : h.ffvalue = 0x7e := by rw [hr.ff]; rfl
    have hround : txRound { h := h, src := [], out := [], dsize := n } =
        some { h := { h with doClosing := false, dataBits := 0 }, src := [], out := [outByte h 0x7e, outByte h 0x7e], dsize := (n - 2 : Nat) } := by
      have hl : txLoad h [] = (h, []) := by
        unfold txLoad
        rw [if_pos hr.shift, if_neg (by simp), if_neg (by rw [hr.state]; simp)]
      unfold txRound
      dsimp only
      rw [hl]
      unfold txSwitch
      dsimp only
      rw [hr.state]
      dsimp only
      rw [if_pos rfl, Option.map_some]
      unfold txOut txAdapt
      simp only [hr.adapt, hr.bits, hr.state, hff, hr.init rfl, Bool.false_eq_true, false_and, if_false, if_true, List.nil_append]
      have : ((n : Int) - 1 - 1) = ((n - 2 : Nat) : Int) := by omega
      rw [this]
      rfl
    rw [encLoop, if_pos (by simp only; omega), hround, Option.bind_some]
    obtain ⟨h', o, e1, e2, e3, e4, e5⟩ := idle_loop rev 0 (by omega) (n - 2) g { h with doClosing := false, dataBits := 0 } [outByte h 0x7e, outByte h 0x7e]
      ⟨hr.state, hr.shift, rfl, hff, by omega, by omega, hr.chan, hr.adapt, hr.rev, fun h => by cases h⟩ (by omega)
    refine ⟨h', [outByte h 0x7e, outByte h 0x7e] ++ o, 0, n - 1, by rw [e1]; rfl, e2, by omega, by simp [e3]; omega, ?_, ?_, by omega⟩
    · by_cases hn2 : 0 < n - 2
      · exact e4 hn2
      · have hn0 : n - 2 = 0 := by omega
        rw [hn0] at e1
        obtain ⟨g, rfl⟩ : ∃ k, g = k + 1 := ⟨g - 1, by omega⟩
        simp only [encLoop] at e1
        rw [if_neg (by simp)] at e1
        simp only [Option.some.injEq, TxLoop.mk.injEq] at e1
        rw [← e1.1]
    · rw [lineBits_append, List.append_assoc, e5, show flagEnd 0 = [] from rfl, List.nil_append,
        show [outByte h 0x7e, outByte h 0x7e] = [outByte h 0x7e] ++ [outByte h 0x7e] from rfl, lineBits_append, ← hr.rev, line_out]
      have h7e : pend 0x7e 8 = flag := by decide +kernel
      rw [h7e, show flagEnd 8 = flag from rfl, List.append_assoc, show flag ++ (List.replicate (n - 2) flag).flatten = flags (n - 2 + 1) from rfl,
        show n - 2 + 1 = n - 1 from by omega]
  · obtain ⟨h', o, e1, e2, e3, e4, e5⟩ := idle_loop rev d (by have := hr.le; omega) n fuel h [] hr (by omega)
    exact ⟨h', o, d, n, by rw [e1]; rfl, e2, by have := hr.le; omega, e3, e4 (by omega), e5, by omega⟩

/-- Calls one after the other, each with what the one before left of the source: state, rest of the source, and all
octets written. -/
def sendAll (fuel : Nat) : Tx → List Byte → List Nat → Option (Tx × List Byte × List Byte)
  | h, src, [] => some (h, src, [])
  | h, src, n :: ns =>
    (encode fuel h src n).bind (fun r => (sendAll fuel r.1 r.2.1 ns).map (fun q => (q.1, q.2.1, r.2.2 ++ q.2.2)))

theorem sendAll_ready (fuel : Nat) (rev : Bool) (ns : List Nat) : ∀ (h : Tx) (d : Nat), Ready h d rev → d < 8 → (∀ n ∈ ns, 1 ≤ n ∧ 8 * n + 20 ≤ fuel) →
    ∃ (h' : Tx) (d' : Nat) (o : List Byte) (m : Nat), sendAll fuel h [] ns = some (h', [], o) ∧ Ready h' d' rev ∧ d' < 8 ∧
      lineBits rev o ++ flagEnd d' = flagEnd d ++ flags m := by
  induction ns with
  | nil => intro h d hr hd _; exact ⟨h, d, [], 0, rfl, hr, hd, by simp [flags, lineBits_nil]⟩
  | cons n ns ih =>
    intro h d hr hd hns
    obtain ⟨hn1, hn2⟩ := hns n (by simp)
    obtain ⟨h', o, d', m, e1, e2, e3, e4, e5, e6, e7⟩ := encode_idle fuel n h d rev hr hn1 (by omega) hn2
    obtain ⟨h'', d'', o', m', f1, f2, f3, f4⟩ := ih h' d' e2 e3 (fun k hk => hns k (by simp [hk]))
    refine ⟨h'', d'', o ++ o', m + m', ?_, f2, f3, ?_⟩
    · simp only [sendAll, e1, Option.bind_some, f1, Option.map_some]
    · rw [lineBits_append, List.append_assoc, f4, ← List.append_assoc, e6, List.append_assoc, flags_add]

/-- After calls within a frame, or when it is out. -/
def Sent (rev : Bool) (R : List Bool) (total : Nat) (h : Tx) (src o : List Byte) : Prop :=
  (o.length = total ∧ ∃ R', R = lineBits rev o ++ R' ∧ Busy 7 h src R' rev) ∨
  (src = [] ∧ ∃ d m, d < 8 ∧ Ready h d rev ∧ lineBits rev o ++ flagEnd d = R ++ flags m)

theorem ends_sent {rev : Bool} {R : List Bool} {n : Nat} {l : TxLoop} {o : List Byte} (h : Ends rev R n l o) : Sent rev R n l.h l.src o := by
  rcases h with h | ⟨_, h2, d, h3, h4, h5⟩
  · exact Or.inl h
  · by_cases hd : d = 0
    · refine Or.inr ⟨h2, d, 0, h3, h4, ?_⟩
      rw [h5, hd]
      simp [flagEnd, flags, flag]
    · refine Or.inr ⟨h2, d, 1, h3, h4, ?_⟩
      rw [h5, Nat.mod_eq_of_lt (by omega), List.append_assoc, show flag.take (8 - d) ++ flagEnd d = flag from List.take_append_drop _ _]
      rfl

theorem sendAll_more (fuel : Nat) (rev : Bool) (ns : List Nat) : ∀ (h : Tx) (src o : List Byte) (R : List Bool) (total : Nat), Sent rev R total h src o → FlagLast R →
    (∀ n ∈ ns, 1 ≤ n ∧ 8 * n + 20 ≤ fuel) →
    ∃ (h' : Tx) (src' o' : List Byte), sendAll fuel h src ns = some (h', src', o') ∧ Sent rev R (total + ns.sum) h' src' (o ++ o') := by
  induction ns with
  | nil => intro h src o R total hS _ _; exact ⟨h, src, [], rfl, by simpa using hS⟩
  | cons n ns ih =>
    intro h src o R total hS hF hns
    obtain ⟨hn1, hn2⟩ := hns n (by simp)
    rcases hS with ⟨s1, R', s2, s3⟩ | ⟨rfl, d, m, s3, s4, s5⟩
    · obtain ⟨l, e1, e2⟩ := encode_continue fuel n h src R' rev s3 (flagLast_drop (by rw [← s2]; exact hF)) hn2
      have hS2 : Sent rev R (total + n) l.h l.src (o ++ l.out) := by
        rcases ends_sent e2 with ⟨f1, R'', f2, f3⟩ | ⟨f1, d, m, f2, f3, f4⟩
        · refine Or.inl ⟨by rw [List.length_append]; omega, R'', ?_, f3⟩
          rw [s2, f2, lineBits_append, List.append_assoc]
        · refine Or.inr ⟨f1, d, m, f2, f3, ?_⟩
          rw [lineBits_append, List.append_assoc, f4, s2, List.append_assoc]
      obtain ⟨h', src', o', f1, f2⟩ := ih l.h l.src (o ++ l.out) R (total + n) hS2 hF (fun k hk => hns k (by simp [hk]))
      refine ⟨h', src', l.out ++ o', ?_, ?_⟩
      · simp only [sendAll, e1, Option.bind_some, f1, Option.map_some]
      · rw [List.sum_cons, ← List.append_assoc, ← Nat.add_assoc]
        exact f2
    · obtain ⟨h', d', o', m', e1, e2, e3, e4⟩ := sendAll_ready fuel rev (n :: ns) h d s4 s3 hns
      refine ⟨h', [], o', e1, Or.inr ⟨rfl, d', m + m', e3, e2, ?_⟩⟩
      rw [lineBits_append, List.append_assoc, e4, ← List.append_assoc, s5, List.append_assoc, flags_add]

theorem stuff_length (bits : List Bool) : ∀ n, n < 5 → 5 * (stuff n bits).length ≤ 6 * bits.length + n := by
  induction bits with
  | nil => intro n _; simp [stuff]
  | cons b bits ih =>
    intro n hn
    cases b with
    | false =>
      have := ih 0 (by omega)
      simp only [stuff, List.length_cons]
      omega
    | true =>
      by_cases h5 : n + 1 = 5
      · have := ih 0 (by omega)
        simp only [stuff, if_pos h5, List.length_cons]
        omega
      · have := ih (n + 1) (by omega)
        simp only [stuff, if_neg h5, List.length_cons]
        omega

theorem frameBits_length (p : List Byte) : 5 * (frameBits p).length ≤ 48 * (p.length + 2) := by
  have h := stuff_length ((p ++ fcs p).flatMap lsbBits) 0 (by omega)
  have h2 : ∀ l : List Byte, (l.flatMap lsbBits).length = 8 * l.length := by
    intro l
    induction l with
    | nil => rfl
    | cons b l ih =>
      rw [List.flatMap_cons, List.length_append, ih, List.length_cons, show (lsbBits b).length = 8 from rfl]
      omega
  rw [h2, List.length_append, show (fcs p).length = 2 from rfl] at h
  unfold frameBits
  omega

theorem flagEnd_length {d : Nat} (h : d ≤ 8) : (flagEnd d).length = d := by
  unfold flagEnd
  rw [List.length_drop, show flag.length = 8 from rfl]
  omega

/-- A frame, with room enough in all calls together. -/
theorem send_frame (fuel : Nat) (rev : Bool) (ns : List Nat) (h : Tx) (p : List Byte) (d : Nat) (hr : Ready h d rev) (hp : p ≠ [])
    (h1 : p.length = 1 → h.doClosing = false) (hns : ∀ n ∈ ns, 1 ≤ n ∧ 8 * n + 20 ≤ fuel) (hsum : 6 * (p.length + 2) + 11 ≤ 5 * ns.sum) :
    ∃ (h' : Tx) (o : List Byte) (d' m : Nat), sendAll fuel h p ns = some (h', [], o) ∧ d' < 8 ∧ Ready h' d' rev ∧
      lineBits rev o ++ flagEnd d' = flagEnd d ++ (frameBits p ++ (flag ++ flags m)) := by
  cases ns with
  | nil => simp at hsum
  | cons n ns =>
    obtain ⟨hn1, hn2⟩ := hns n (by simp)
    obtain ⟨l, e1, e2⟩ := encode_start fuel n h p d rev hr hp h1 hn1 hn2
    obtain ⟨h', src', o', f1, f2⟩ := sendAll_more fuel rev ns l.h l.src l.out _ n (ends_sent e2) (flagLast_frame _ _) (fun k hk => hns k (by simp [hk]))
    have hall : sendAll fuel h p (n :: ns) = some (h', src', l.out ++ o') := by
      simp only [sendAll, e1, Option.bind_some, f1, Option.map_some]
    rcases f2 with ⟨g1, R', g2, g3⟩ | ⟨rfl, d', m, g2, g3, g4⟩
    · exfalso
      have hlen := congrArg List.length g2
      simp only [List.length_append, lineBits_length, flagEnd_length hr.le, show flag.length = 8 from rfl] at hlen
      rw [List.length_append] at g1
      have := frameBits_length p
      have := hr.le
      rw [List.sum_cons] at hsum
      omega
    · refine ⟨h', l.out ++ o', d', m, hall, g2, g3, ?_⟩
      rw [g4]
      simp only [List.append_assoc]

end Verif.IsdnHdlc
