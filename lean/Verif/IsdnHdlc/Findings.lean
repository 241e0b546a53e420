import Verif.IsdnHdlc.Main
/-!
What the encoder and the decoder do outside of the conditions of
`hdlc_roundtrip_partial`.
-/
namespace Verif.IsdnHdlc

/-- A round that changes nothing. -/
theorem stuck_round (h : Tx) (b : Byte) (n : Int) (h1 : h.state = .sendFlagOne) (h2 : h.bitShift = 0) (h3 : h.doClosing = true) (h4 : h.dataBits = 0)
    (h5 : h.doAdapt56 = false) : txRound { h := h, src := [b], out := [], dsize := n } = some { h := h, src := [b], out := [], dsize := n } := by
  have hl : txLoad h [b] = (h, [b]) := by
    unfold txLoad
    rw [if_pos h2, if_neg (by simp [h3]), if_neg (by rw [h1]; simp)]
  unfold txRound
  dsimp only
  rw [hl]
  unfold txSwitch
  dsimp only
  rw [h1]
  dsimp only
  unfold txFlagOne
  rw [if_neg (by omega), Option.map_some]
  unfold txOut txAdapt
  simp [h4, h5]

theorem stuck_loop (h : Tx) (b : Byte) (n : Nat) (hn : 1 ≤ n) (h1 : h.state = .sendFlagOne) (h2 : h.bitShift = 0) (h3 : h.doClosing = true) (h4 : h.dataBits = 0)
    (h5 : h.doAdapt56 = false) : ∀ fuel, encLoop fuel { h := h, src := [b], out := [], dsize := n } = none := by
  intro fuel
  induction fuel with
  | zero => rfl
  | succ fuel ih => rw [encLoop, if_pos (by simp only; omega), stuck_round h b n h1 h2 h3 h4 h5, Option.bind_some, ih]

/-- C45: after a frame of `01 02`, whose closing flag ends with an octet, the call with
a frame of one octet never returns: no number of rounds is enough, whatever the octet
and the room. -/
theorem encode_one_octet_counterexample :
    ∃ (h : Tx) (o : List Byte), encode 1000 (outInit false false false) [0x01, 0x02] 64 = some (h, [], o) ∧
      ∀ (fuel : Nat) (b : Byte) (n : Nat), 1 ≤ n → encode fuel h [b] n = none := by
  have hr : ∃ r, encode 1000 (outInit false false false) [0x01, 0x02] 64 = some r ∧ r.2.1 = [] ∧ r.1.state = .sendFastFlag ∧ r.1.bitShift = 0 ∧ r.1.doClosing = true ∧
      r.1.dataBits = 0 ∧ r.1.doAdapt56 = false :=
    ⟨((encode 1000 (outInit false false false) [0x01, 0x02] 64).getD (outInit false false false, [], [])), by decide +kernel⟩
  obtain ⟨⟨h, src, o⟩, e1, e2, e3, e4, e5, e6, e7⟩ := hr
  simp only at e2 e3 e4 e5 e6 e7
  subst e2
  refine ⟨h, o, e1, ?_⟩
  intro fuel b n hn
  unfold encode txEnter
  rw [if_pos ⟨rfl, e3⟩, stuck_loop { h with state := .sendFlagOne } b n hn rfl e4 e5 e6 e7, Option.map_none]

/-- The octets of that first frame. -/
example : (encode 1000 (outInit false false false) [0x01, 0x02] 64).map (fun r => r.2.2) = some [0x7e, 0x01, 0x02, 0x8d, 0x35, 0x7e] := by decide +kernel

/-- C45: the first call after `osmo_isdnhdlc_out_init`, with nothing to send and room for
one octet, stores two. -/
theorem encode_overflow_counterexample : ¬ ∀ (fuel : Nat) (rev : Bool) (src : List Byte) (dsize : Nat) (h : Tx) (rest o : List Byte),
    encode fuel (outInit false false rev) src dsize = some (h, rest, o) → o.length ≤ dsize := by
  intro hall
  have h1 : ∃ h, encode 10 (outInit false false false) [] 1 = some (h, [], [0x7e, 0x7e]) :=
    ⟨((encode 10 (outInit false false false) [] 1).getD (outInit false false false, [], [])).1, by decide +kernel⟩
  obtain ⟨h, h1⟩ := h1
  exact absurd (hall 10 false [] 1 h [] _ h1) (by simp)

/-- C45: a frame that is too long for the destination (six octets, room for four) is
reported as too long, but what follows the octet that did not fit is then returned as
a good frame, since it is collected in the same way and the CRC goes on. -/
theorem overlong_frame_counterexample :
    ∃ (h : Tx) (o : List Byte), encode 1000 (outInit false false false) [0x11, 0x22, 0x33, 0x44, 0x54, 0x66] 64 = some (h, [], o) ∧
      ((receive 4 (rcvInit false false) (List.replicate 4 0) [o ++ [0x7e, 0x7e]]).map (fun r => r.2.2)) = some [(-3, []), (1, [0x66])] :=
  ⟨((encode 1000 (outInit false false false) [0x11, 0x22, 0x33, 0x44, 0x54, 0x66] 64).getD (outInit false false false, [], [])).1,
   ((encode 1000 (outInit false false false) [0x11, 0x22, 0x33, 0x44, 0x54, 0x66] 64).getD (outInit false false false, [], [])).2.2, by decide +kernel⟩

/-- C45: with D channel signalling, the second frame does not arrive. -/
theorem dchannel_counterexample :
    ∃ (h h' : Tx) (o o' : List Byte), encode 1000 (outInit false true false) [0x01, 0x02, 0x03] 64 = some (h, [], o) ∧
      encode 1000 h [0x01, 0x02, 0x03] 64 = some (h', [], o') ∧
      ((receive 64 (rcvInit false false) (List.replicate 64 0) [o ++ o' ++ [0xff, 0xff]]).map (fun r => r.2.2)) = some [(3, [0x01, 0x02, 0x03]), (-2, [])] := by
  refine ⟨((encode 1000 (outInit false true false) [0x01, 0x02, 0x03] 64).getD (outInit false true false, [], [])).1,
   ((encode 1000 ((encode 1000 (outInit false true false) [0x01, 0x02, 0x03] 64).getD (outInit false true false, [], [])).1 [0x01, 0x02, 0x03] 64).getD (outInit false true false, [], [])).1,
   ((encode 1000 (outInit false true false) [0x01, 0x02, 0x03] 64).getD (outInit false true false, [], [])).2.2,
   ((encode 1000 ((encode 1000 (outInit false true false) [0x01, 0x02, 0x03] 64).getD (outInit false true false, [], [])).1 [0x01, 0x02, 0x03] 64).getD (outInit false true false, [], [])).2.2, ?_⟩
  decide +kernel

end Verif.IsdnHdlc
