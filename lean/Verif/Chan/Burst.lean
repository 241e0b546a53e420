import Verif.Chan.Std
/-!
C106: the access burst and the synchronization burst.
-/
namespace Verif.Chan
open Verif.Conv Verif.ConvAcc Verif.Interleave Polynomial

theorem pick_range {α : Type} (z : α) (n : Nat) (r : List α) (h : n ≤ r.length) : pick z (List.range n) r = r.take n := by
  apply List.ext_getElem?
  intro i
  by_cases hi : i < n
  · simp [pick, hi, List.getElem?_eq_getElem (show i < r.length by omega)]
  · simp [pick, hi]

theorem split_pick (n : Nat) (r : List Int) (h : n ≤ r.length) : r = pick 0 (List.range n) r ++ r.drop n := by
  rw [pick_range 0 n r h, List.take_append_drop]

/-! ### SCH -/

/-- the 35 bits that are coded -/
def schBlock (sb : List Byte) : List Bool := lsbBits 25 sb ++ parityOf schCrc10 (lsbBits 25 sb)

theorem schBlock_length (sb : List Byte) : (schBlock sb).length = 35 := by
  unfold schBlock
  rw [List.length_append, lsbBits_length, parityOf_length]
  rfl

theorem schEncode_spec (conv burst sb : List Byte) (h1 : conv.length = 35) (h2 : 78 ≤ burst.length) (h3 : sb.length = 4) :
    ∃ sent : List Bool, sent.length = 78 ∧ encode schCode (schBlock sb) = some sent ∧
      schEncode conv burst sb = some (sent.map ubit ++ burst.drop 78) := by
  obtain ⟨sent, he, hs⟩ := sch_channel.enc (schBlock sb) (schBlock_length sb)
  refine ⟨sent, hs, he, ?_⟩
  unfold schEncode
  rw [pbit2ubit_spec conv sb 25 (by omega) (by omega) (by decide)]
  dsimp only [bind, Option.bind]
  have hp := setParity_spec schCrc10 schCrc_shifts (lsbBits 25 sb) (conv.drop 25) (by rw [List.length_drop, h1]; decide)
  rw [lsbBits_length] at hp
  rw [hp]
  dsimp only
  have hc := convEncode_spec schCode (schBlock sb) sent ((conv.drop 25).drop schCrc10.bits) burst (schBlock_length sb) he (by omega)
  rw [show (lsbBits 25 sb ++ parityOf schCrc10 (lsbBits 25 sb)) = schBlock sb from rfl, hc]
  dsimp only
  rw [hs]

/-- the low 25 bits of one buffer, the others of another -/
def Merged (n : Nat) (sb out o : List Byte) : Prop :=
  o.length = out.length ∧ (∀ j < n, bitAt true o j = bitAt true sb j) ∧ ∀ j, n ≤ j → bitAt true o j = bitAt true out j

theorem lsbBits_at {n : Nat} {a b : List Byte} (h : lsbBits n a = lsbBits n b) (j : Nat) (hj : j < n) : bitAt true a j = bitAt true b j := by
  have := congrArg (fun l => l[j]?) h
  simpa [lsbBits, hj] using this

/-- C106: **the synchronization burst.**  25 bits are encoded to 78.  From soft bits that speak against what was sent by less than 7/2 of
the weakest one they come back; the other bits of the buffer are kept. -/
theorem sch_roundtrip_soft (conv burst sb : List Byte) (h1 : conv.length = 35) (h2 : 78 ≤ burst.length) (h3 : sb.length = 4) :
    ∃ b, schEncode conv burst sb = some b ∧ b.length = burst.length ∧
      (∀ p < 78, b.getD p 0#8 = 0#8 ∨ b.getD p 0#8 = 1#8) ∧ (∀ p, 78 ≤ p → b[p]? = burst[p]?) ∧
      ∀ (conv' out : List Byte) (r : List Int) (m : Int), conv'.length = 35 → 4 ≤ out.length → 78 ≤ r.length → 0 ≤ m → m ≤ 127 →
        SoftAt (List.range 78) m r → 2 * contra (List.range 78) b r < 7 * m →
        ∃ o, schDecode conv' out r = some (0, o) ∧ Merged 25 sb out o := by
  obtain ⟨sent, s1, s2, s3⟩ := schEncode_spec conv burst sb h1 h2 h3
  have hp : pick 0#8 (List.range 78) (sent.map ubit ++ burst.drop 78) = sent.map ubit := by
    rw [pick_range _ _ _ (by simp; omega), List.take_append_of_le_length (by simp; omega), List.take_of_length_le (by simp; omega)]
  refine ⟨_, s3, by simp; omega, fun p hp' => bits_at (List.Perm.refl _) hp p (List.mem_range.2 hp'), ?_, ?_⟩
  · intro p hp'
    rw [List.getElem?_append_right (by simp; omega), List.getElem?_drop]
    simp only [List.length_map, s1]
    congr 1
    omega
  · intro conv' out r m hc' ho hr hm hm' hsoft hc
    obtain ⟨w1, w2⟩ := soft_pick (List.Perm.refl (List.range 78)) hsoft
    have ha := against_pick _ r _ sent hp
    obtain ⟨hd, -⟩ := decodeBer_corrects sch_channel (schBlock sb) sent (pick 0 (List.range 78) r) (r.drop 78) conv' (List.replicate 78 0#8)
      (schBlock_length sb) s2 (by simp [pick]) w1 hm w2 (by rw [ha]; push_cast; omega)
      (by rw [ha]; show _ < 127 * ((2 : Nat) : Int) * ((5 : Nat) : Int); omega) (by rw [hc']; decide) (by simp)
    rw [← split_pick 78 r hr] at hd
    have hch := checkParity_spec schCrc10 schCrc_shifts (lsbBits 25 sb) (parityOf schCrc10 (lsbBits 25 sb)) (conv'.drop schCode.len)
      (parityOf_length _ _)
    rw [lsbBits_length, if_pos rfl, show (lsbBits 25 sb ++ parityOf schCrc10 (lsbBits 25 sb)) = schBlock sb from rfl] at hch
    obtain ⟨o, u, u1, u2, u3, u4⟩ := ubit2pbit_spec out (lsbBits 25 sb)
      ((parityOf schCrc10 (lsbBits 25 sb)).map ubit ++ conv'.drop schCode.len) 25 (lsbBits_length _ _) (by omega)
    rw [← List.append_assoc, ← List.map_append] at u1
    refine ⟨o, ?_, u2, fun j hj => lsbBits_at u3 j hj, u4⟩
    unfold schDecode
    rw [hd]
    dsimp only [bind, Option.bind]
    rw [hch]
    dsimp only
    rw [if_neg (by decide)]
    rw [show schBlock sb = lsbBits 25 sb ++ parityOf schCrc10 (lsbBits 25 sb) from rfl, u1]

/-- C106: three wrong bits of a synchronization burst are corrected. -/
theorem sch_corrects (conv burst sb b : List Byte) (h1 : conv.length = 35) (h2 : 78 ≤ burst.length) (h3 : sb.length = 4)
    (he : schEncode conv burst sb = some b) (conv' out : List Byte) (hc' : conv'.length = 35) (ho : 4 ≤ out.length) (r : List Int)
    (hr : 78 ≤ r.length) (hh : ∀ p < 78, r.getD p 0 = 127 ∨ r.getD p 0 = -127) (hw : wrong (List.range 78) b r ≤ 3) :
    ∃ o, schDecode conv' out r = some (0, o) ∧ Merged 25 sb out o := by
  obtain ⟨b', e1, -, -, -, e5⟩ := sch_roundtrip_soft conv burst sb h1 h2 h3
  rw [he] at e1
  obtain rfl := Option.some.inj e1
  have hh' : ∀ p ∈ List.range 78, r.getD p 0 = 127 ∨ r.getD p 0 = -127 := fun p hp => hh p (List.mem_range.1 hp)
  refine e5 conv' out r 127 hc' ho hr (by omega) (by omega) (fun p hp => ?_) ?_
  · rcases hh' p hp with h | h <;> rw [h] <;> omega
  · rw [contra_hard _ _ _ hh']; omega

/-- C106: whatever is received as a synchronization burst, there is a result; if it is refused nothing is written, otherwise
nothing but the 25 bits. -/
theorem sch_decode_total (conv out : List Byte) (h1 : conv.length = 35) (ho : 4 ≤ out.length) (r : List Int) (hr : 78 ≤ r.length)
    (hs : Within 127 r) :
    ∃ rv o, schDecode conv out r = some (rv, o) ∧ ((rv = -1 ∧ o = out) ∨
      (rv = 0 ∧ ∃ sb, sb.length = 4 ∧ Merged 25 sb out o)) := by
  obtain ⟨bits, sent, hb, he, hs', hcd, -⟩ := decodeBer_total sch_channel r conv (List.replicate 78 0#8) hr hs (by rw [h1]; decide) (by simp)
  have hb' : bits.length = 35 := hb
  have hch := checkParity_spec schCrc10 schCrc_shifts (bits.take 25) (bits.drop 25) (conv.drop schCode.len)
    (by rw [List.length_drop, hb']; rfl)
  rw [List.take_append_drop, List.length_take, hb', show min 25 35 = 25 from rfl] at hch
  unfold schDecode
  rw [hcd]
  dsimp only [bind, Option.bind]
  rw [hch]
  dsimp only
  by_cases hp : bits.drop 25 = parityOf schCrc10 (bits.take 25)
  · rw [if_pos hp, if_neg (by decide)]
    obtain ⟨o, u, u1, u2, u3, u4⟩ := ubit2pbit_spec out (bits.take 25) ((bits.drop 25).map ubit ++ conv.drop schCode.len) 25
      (by simp [hb']) (by omega)
    rw [← List.append_assoc, ← List.map_append, List.take_append_drop] at u1
    rw [u1]
    refine ⟨0, o, rfl, .inr ⟨rfl, o.take 4, by simp; omega, u2, ?_, u4⟩⟩
    intro j hj
    have e1 := bitAt_append (o.take 4) (o.drop 4) j
    rw [List.take_append_drop, if_pos (by rw [List.length_take]; omega)] at e1
    exact e1
  · rw [if_neg hp, if_pos (by decide)]
    exact ⟨-1, out, rfl, .inl ⟨rfl, rfl⟩⟩

/-- C106: **as in TS 05.03**: 25 bits, the low ones of a byte first, and 10 parity bits, coded -/
theorem sch_standard (conv burst sb b : List Byte) (h1 : conv.length = 35) (h2 : 78 ≤ burst.length) (h3 : sb.length = 4)
    (he : schEncode conv burst sb = some b) :
    ∃ u : List Bool, u.length = 35 ∧ (∀ k < 25, u[k]? = some ((sb.getD (k / 8) 0#8).getLsbD (k % 8))) ∧
      X ^ 10 + X ^ 8 + X ^ 6 + X ^ 5 + X ^ 4 + X ^ 2 + 1 ∣ bitsPoly u - ∑ i ∈ Finset.range 10, X ^ i ∧
      ∀ k : Nat, k < 39 → b[2 * k]? = some (ubit (uAt u k ^^ uAt u (k - 3) ^^ uAt u (k - 4))) ∧
        b[2 * k + 1]? = some (ubit (uAt u k ^^ uAt u (k - 1) ^^ uAt u (k - 3) ^^ uAt u (k - 4))) := by
  obtain ⟨sent, s1, s2, s3⟩ := schEncode_spec conv burst sb h1 h2 h3
  rw [he] at s3
  obtain rfl := Option.some.inj s3
  refine ⟨schBlock sb, schBlock_length sb, ?_, ?_, ?_⟩
  · intro k hk
    unfold schBlock
    rw [List.getElem?_append_left (by rw [lsbBits_length]; exact hk)]
    simp [lsbBits, hk, bitAt, bitNum]
  · have h := parity_standard schCrc10 schCrc_shifts rfl (lsbBits 25 sb)
    rw [schCrc_poly, regPoly_ones _ _ (by decide)] at h
    exact h
  · intro k hk
    obtain ⟨c1, c2⟩ := code_standard 35 (schBlock sb) sent (schBlock_length sb) s2 k (by omega)
    rw [List.getElem?_append_left (by simp; omega), List.getElem?_append_left (by simp; omega), List.getElem?_map, List.getElem?_map, c1, c2]
    exact ⟨rfl, rfl⟩

/-! ### RACH -/

/-- the six bits of a base station identity code, the highest first -/
def bsicBits (bsic : Byte) : List Bool := (List.range 6).map fun i => bsic.getLsbD (5 - i)

theorem ubit_xor (a : Bool) (bsic : Byte) (i : Nat) : ubit a ^^^ ((bsic >>> i) &&& 1#8) = ubit (a ^^ bsic.getLsbD i) := by
  apply BitVec.eq_of_getLsbD_eq
  intro j hj
  have hu : ∀ x : Bool, (ubit x).getLsbD j = (decide (j = 0) && x) := by
    intro x
    cases x
    · simp [ubit]
    · unfold ubit
      simp only [if_true, Bool.and_true, BitVec.getLsbD_one]
      simp
  simp only [BitVec.getLsbD_xor, BitVec.getLsbD_and, hu, BitVec.getLsbD_ushiftRight]
  by_cases hj0 : j = 0
  · subst hj0; simp
  · simp [hj0]

theorem rachApplyBsic_spec (data p : List Bool) (rest : List Byte) (hp : p.length = 6) (bsic : Byte) :
    rachApplyBsic ((data ++ p).map ubit ++ rest) bsic data.length =
      some ((data ++ List.zipWith xor p (bsicBits bsic)).map ubit ++ rest) := by
  obtain ⟨p0, p1, p2, p3, p4, p5, rfl⟩ : ∃ p0 p1 p2 p3 p4 p5, p = [p0, p1, p2, p3, p4, p5] := by
    match p, hp with
    | [p0, p1, p2, p3, p4, p5], _ => exact ⟨p0, p1, p2, p3, p4, p5, rfl⟩
  have key : ∀ (pre : List Byte) (x : Byte) (post : List Byte) (i : Nat), pre.length = data.length + i →
      ((pre ++ x :: post)[data.length + i]?).map (fun y => (pre ++ x :: post).set (data.length + i) (y ^^^ ((bsic >>> (5 - i)) &&& 1#8))) = some (pre ++ (x ^^^ ((bsic >>> (5 - i)) &&& 1#8)) :: post) := by
    intro pre x post i h
    rw [List.getElem?_append_right (by omega), show data.length + i - pre.length = 0 by omega]
    simp only [List.getElem?_cons_zero, Option.map_some]
    rw [List.set_append_right _ _ (by omega), show data.length + i - pre.length = 0 by omega]
    rfl
  unfold rachApplyBsic
  rw [show (List.range 6) = [0, 1, 2, 3, 4, 5] from rfl]
  simp only [List.foldlM_cons, List.foldlM_nil, List.map_append, List.map_cons, List.map_nil, List.append_assoc, List.cons_append,
    List.nil_append]
  have k0 := key (data.map ubit) (ubit p0) (ubit p1 :: ubit p2 :: ubit p3 :: ubit p4 :: ubit p5 :: rest) 0 (by simp)
  rw [k0, Option.bind_eq_bind, Option.bind_some]
  have k1 := key (data.map ubit ++ [ubit p0 ^^^ ((bsic >>> (5 - 0)) &&& 1#8)]) (ubit p1) (ubit p2 :: ubit p3 :: ubit p4 :: ubit p5 :: rest) 1
    (by simp)
  simp only [List.append_assoc, List.cons_append, List.nil_append] at k1
  rw [k1, Option.bind_some]
  have k2 := key (data.map ubit ++ [ubit p0 ^^^ ((bsic >>> (5 - 0)) &&& 1#8), ubit p1 ^^^ ((bsic >>> (5 - 1)) &&& 1#8)]) (ubit p2)
    (ubit p3 :: ubit p4 :: ubit p5 :: rest) 2 (by simp)
  simp only [List.append_assoc, List.cons_append, List.nil_append] at k2
  rw [k2, Option.bind_some]
  have k3 := key (data.map ubit ++ [ubit p0 ^^^ ((bsic >>> (5 - 0)) &&& 1#8), ubit p1 ^^^ ((bsic >>> (5 - 1)) &&& 1#8),
    ubit p2 ^^^ ((bsic >>> (5 - 2)) &&& 1#8)]) (ubit p3) (ubit p4 :: ubit p5 :: rest) 3 (by simp)
  simp only [List.append_assoc, List.cons_append, List.nil_append] at k3
  rw [k3, Option.bind_some]
  have k4 := key (data.map ubit ++ [ubit p0 ^^^ ((bsic >>> (5 - 0)) &&& 1#8), ubit p1 ^^^ ((bsic >>> (5 - 1)) &&& 1#8),
    ubit p2 ^^^ ((bsic >>> (5 - 2)) &&& 1#8), ubit p3 ^^^ ((bsic >>> (5 - 3)) &&& 1#8)]) (ubit p4) (ubit p5 :: rest) 4 (by simp)
  simp only [List.append_assoc, List.cons_append, List.nil_append] at k4
  rw [k4, Option.bind_some]
  have k5 := key (data.map ubit ++ [ubit p0 ^^^ ((bsic >>> (5 - 0)) &&& 1#8), ubit p1 ^^^ ((bsic >>> (5 - 1)) &&& 1#8),
    ubit p2 ^^^ ((bsic >>> (5 - 2)) &&& 1#8), ubit p3 ^^^ ((bsic >>> (5 - 3)) &&& 1#8), ubit p4 ^^^ ((bsic >>> (5 - 4)) &&& 1#8)])
    (ubit p5) rest 5 (by simp)
  simp only [List.append_assoc, List.cons_append, List.nil_append] at k5
  rw [k5, Option.bind_some]
  simp only [ubit_xor]
  rfl

/-- the bytes of an access request -/
def raBytes (ra11 : BitVec 16) (is11 : Bool) : List Byte :=
  if is11 then [(ra11 >>> 3).setWidth 8, (ra11 &&& 0x07#16).setWidth 8] else [ra11.setWidth 8, 0#8]

def raLen (is11 : Bool) : Nat := if is11 then 11 else 8

/-- the bits that are coded: those of the request, the lowest bit of each byte first, and the parity plus the BSIC -/
def rachBlock (ra11 : BitVec 16) (bsic : Byte) (is11 : Bool) : List Bool :=
  lsbBits (raLen is11) (raBytes ra11 is11) ++
    List.zipWith xor (parityOf rachCrc6 (lsbBits (raLen is11) (raBytes ra11 is11))) (bsicBits bsic)

def rachCodeOf (is11 : Bool) : Code := if is11 then rachExt.code else rachCode

theorem rachBlock_length (ra11 : BitVec 16) (bsic : Byte) (is11 : Bool) : (rachBlock ra11 bsic is11).length = (rachCodeOf is11).len := by
  unfold rachBlock
  rw [List.length_append, lsbBits_length, List.length_zipWith, parityOf_length]
  cases is11 <;> rfl

theorem rach_chan (is11 : Bool) : Channel (rachCodeOf is11) 36 (if is11 then 5 else 7) := by
  cases is11
  · exact rach_channel
  · exact rachExt_channel

theorem raBytes_length (ra11 : BitVec 16) (is11 : Bool) : (raBytes ra11 is11).length = 2 := by cases is11 <;> rfl

theorem rachExtEncode_spec (conv burst : List Byte) (ra11 : BitVec 16) (bsic : Byte) (is11 : Bool) (h1 : conv.length = 17)
    (h2 : 36 ≤ burst.length) :
    ∃ sent : List Bool, sent.length = 36 ∧ encode (rachCodeOf is11) (rachBlock ra11 bsic is11) = some sent ∧
      rachExtEncode conv burst ra11 bsic is11 = some (sent.map ubit ++ burst.drop 36) := by
  obtain ⟨sent, he, hs⟩ := (rach_chan is11).enc (rachBlock ra11 bsic is11) (rachBlock_length ra11 bsic is11)
  refine ⟨sent, hs, he, ?_⟩
  have hn : raLen is11 ≤ 11 := by cases is11 <;> decide
  unfold rachExtEncode
  have hd : (do
      let conv ← Bits.pbit2ubitExt conv 0 (raBytes ra11 is11) 0 (raLen is11) true
      let conv ← setParity rachCrc6 (raLen is11) conv.1
      let conv ← rachApplyBsic conv bsic (raLen is11)
      let r ← convEncode (rachCodeOf is11) conv burst
      some r.1) = some (sent.map ubit ++ burst.drop 36) := by
    rw [pbit2ubit_spec conv (raBytes ra11 is11) (raLen is11) (by rw [raBytes_length]; omega) (by omega) (by omega)]
    dsimp only [bind, Option.bind]
    have hp := setParity_spec rachCrc6 rachCrc_shifts (lsbBits (raLen is11) (raBytes ra11 is11)) (conv.drop (raLen is11))
      (by rw [List.length_drop, h1, show rachCrc6.bits = 6 from rfl]; omega)
    rw [lsbBits_length] at hp
    rw [hp]
    dsimp only
    have hb := rachApplyBsic_spec (lsbBits (raLen is11) (raBytes ra11 is11)) (parityOf rachCrc6 (lsbBits (raLen is11) (raBytes ra11 is11)))
      ((conv.drop (raLen is11)).drop rachCrc6.bits) (parityOf_length _ _) bsic
    rw [lsbBits_length] at hb
    rw [hb]
    dsimp only
    have hc := convEncode_spec (rachCodeOf is11) (rachBlock ra11 bsic is11) sent ((conv.drop (raLen is11)).drop rachCrc6.bits) burst
      (rachBlock_length ra11 bsic is11) he (by omega)
    rw [show lsbBits (raLen is11) (raBytes ra11 is11) ++ List.zipWith xor (parityOf rachCrc6 (lsbBits (raLen is11) (raBytes ra11 is11)))
      (bsicBits bsic) = rachBlock ra11 bsic is11 from rfl, hc]
    dsimp only
    rw [hs]
  exact hd

/-- C106: **as in TS 05.03**: 8 bits, the low ones first, or 11, of which the three lowest last, and six parity bits to which the BSIC,
its highest bit first, is added; coded; of 11 bits, the coded bits 0, 2, 5, 37, 39 and 41 are left out -/
theorem rach_standard (conv burst b : List Byte) (ra11 : BitVec 16) (bsic : Byte) (is11 : Bool) (h1 : conv.length = 17)
    (h2 : 36 ≤ burst.length) (he : rachExtEncode conv burst ra11 bsic is11 = some b) :
    ∃ (data parity u : List Bool) (c : Nat → Bool), u = data ++ List.zipWith xor parity ((List.range 6).map fun i => bsic.getLsbD (5 - i)) ∧
      data = (if is11 then (List.range 8).map (fun k => ra11.getLsbD (k + 3)) ++ (List.range 3).map (fun k => ra11.getLsbD k)
        else (List.range 8).map fun k => ra11.getLsbD k) ∧ parity.length = 6 ∧
      X ^ 6 + X ^ 5 + X ^ 3 + X ^ 2 + X + 1 ∣ bitsPoly (data ++ parity) - ∑ i ∈ Finset.range 6, X ^ i ∧
      (∀ k < u.length + 4, c (2 * k) = (uAt u k ^^ uAt u (k - 3) ^^ uAt u (k - 4)) ∧
        c (2 * k + 1) = (uAt u k ^^ uAt u (k - 1) ^^ uAt u (k - 3) ^^ uAt u (k - 4))) ∧
      b.take 36 = (if is11 then ((List.range 42).filter fun i => decide (i ∉ [0, 2, 5, 37, 39, 41])) else List.range 36).map fun i => ubit (c i) := by
  obtain ⟨sent, s1, s2, s3⟩ := rachExtEncode_spec conv burst ra11 bsic is11 h1 h2
  rw [he] at s3
  obtain rfl := Option.some.inj s3
  have htake : (sent.map ubit ++ burst.drop 36).take 36 = sent.map ubit := by
    rw [List.take_append_of_le_length (by simp; omega), List.take_of_length_le (by simp; omega)]
  have hlen := rachBlock_length ra11 bsic is11
  have hdata : lsbBits (raLen is11) (raBytes ra11 is11) =
      (if is11 then (List.range 8).map (fun k => ra11.getLsbD (k + 3)) ++ (List.range 3).map (fun k => ra11.getLsbD k)
        else (List.range 8).map fun k => ra11.getLsbD k) := by
    cases is11
    · simp [raLen, raBytes, lsbBits, bitAt, bitNum, List.range_succ]
    · simp [raLen, raBytes, lsbBits, bitAt, bitNum, List.range_succ, Nat.add_comm]
  have hpar := parity_standard rachCrc6 rachCrc_shifts rfl (lsbBits (raLen is11) (raBytes ra11 is11))
  rw [rachCrc_poly, regPoly_ones _ _ (by decide)] at hpar
  obtain ⟨c, hc1, hc2⟩ : ∃ c : Nat → Bool, (∀ k < (rachBlock ra11 bsic is11).length + 4,
      c (2 * k) = (uAt (rachBlock ra11 bsic is11) k ^^ uAt (rachBlock ra11 bsic is11) (k - 3) ^^ uAt (rachBlock ra11 bsic is11) (k - 4)) ∧
      c (2 * k + 1) = (uAt (rachBlock ra11 bsic is11) k ^^ uAt (rachBlock ra11 bsic is11) (k - 1) ^^
        uAt (rachBlock ra11 bsic is11) (k - 3) ^^ uAt (rachBlock ra11 bsic is11) (k - 4))) ∧
      sent = (if is11 then ((List.range 42).filter fun i => decide (i ∉ [0, 2, 5, 37, 39, 41])) else List.range 36).map c := by
    cases is11
    · have hl : (rachBlock ra11 bsic false).length = 14 := hlen
      refine ⟨fun i => sent.getD i false, ?_, ?_⟩
      · intro k hk
        obtain ⟨c1, c2⟩ := code_standard 14 _ sent hl s2 k (by omega)
        dsimp only
        rw [List.getD_eq_getElem?_getD, List.getD_eq_getElem?_getD, c1, c2]
        exact ⟨rfl, rfl⟩
      · apply List.ext_getElem?
        intro i
        rw [if_neg (by decide)]
        by_cases hi : i < 36
        · simp [hi, List.getElem?_eq_getElem (show i < sent.length by omega)]
        · rw [List.getElem?_eq_none (by omega), List.getElem?_eq_none (by simp; omega)]
    · have hl : (rachBlock ra11 bsic true).length = 17 := hlen
      obtain ⟨c, c1, c2⟩ := code_standard_punctured 17 [0, 2, 5, 37, 39, 41] (by decide) _ sent hl s2
      exact ⟨c, fun k hk => c1 k (by omega), c2⟩
  refine ⟨_, parityOf rachCrc6 (lsbBits (raLen is11) (raBytes ra11 is11)), rachBlock ra11 bsic is11, c, ?_, hdata, parityOf_length _ _, hpar,
    hc1, ?_⟩
  · rfl
  · rw [htake]
    conv_lhs => rw [hc2]
    rw [List.map_map]
    rfl

/-- the value an access request stands for -/
def raValue (ra11 : BitVec 16) (is11 : Bool) : Nat := if is11 then ra11.toNat % 2048 else ra11.toNat % 256

theorem xor_cancel (p q : List Bool) (h : p.length ≤ q.length) : List.zipWith xor (List.zipWith xor p q) q = p := by
  induction p generalizing q with
  | nil => rfl
  | cons x p ih =>
    match q, h with
    | y :: q, h => simp only [List.zipWith_cons_cons]; rw [ih q (by simpa using h)]; simp

theorem xor_right_inj (p q q' : List Bool) (h : p.length = q.length) (h' : p.length = q'.length)
    (he : List.zipWith xor p q = List.zipWith xor p q') : q = q' := by
  induction p generalizing q q' with
  | nil =>
    rw [List.eq_nil_of_length_eq_zero h.symm, List.eq_nil_of_length_eq_zero h'.symm]
  | cons x p ih =>
    match q, q', h, h' with
    | y :: q, y' :: q', h, h' =>
      simp only [List.zipWith_cons_cons, List.cons.injEq] at he
      rw [ih q q' (by simpa using h) (by simpa using h') he.2]
      have : y = y' := by
        have := he.1
        revert this
        cases x <;> cases y <;> cases y' <;> decide
      rw [this]

theorem bsicBits_eq (a b : Byte) : bsicBits a = bsicBits b ↔ a.toNat % 64 = b.toNat % 64 := by
  constructor
  · intro h
    apply Nat.eq_of_testBit_eq
    intro i
    rw [show 64 = 2 ^ 6 from rfl, Nat.testBit_mod_two_pow, Nat.testBit_mod_two_pow]
    by_cases hi : i < 6
    · have := congrArg (fun l => l[5 - i]?) h
      simp only [bsicBits, List.getElem?_map, List.getElem?_range (show 5 - i < 6 by omega), Option.map_some] at this
      rw [show 5 - (5 - i) = i by omega] at this
      have := Option.some.inj this
      simp only [hi, decide_true, Bool.true_and]
      rw [BitVec.testBit_toNat, BitVec.testBit_toNat, this]
    · simp [hi]
  · intro h
    unfold bsicBits
    apply List.map_congr_left
    intro i hi
    have hi := List.mem_range.1 hi
    have := congrArg (fun n => n.testBit (5 - i)) h
    simp only [show 64 = 2 ^ 6 from rfl, Nat.testBit_mod_two_pow, show 5 - i < 6 by omega, decide_true, Bool.true_and,
      BitVec.testBit_toNat] at this
    exact this

/-- decoding the request from its bits -/
theorem raBytes_back (ra11 : BitVec 16) (is11 : Bool) (rest : List Byte) :
    ∃ r, Bits.ubit2pbitExt [0#8, 0#8] 0 ((lsbBits (raLen is11) (raBytes ra11 is11)).map ubit ++ rest) 0 (raLen is11) true =
      some (raBytes ra11 is11, r) := by
  obtain ⟨o, r, u1, u2, u3, u4⟩ := ubit2pbit_spec [0#8, 0#8] (lsbBits (raLen is11) (raBytes ra11 is11)) rest (raLen is11)
    (lsbBits_length _ _) (by cases is11 <;> decide)
  refine ⟨r, ?_⟩
  rw [u1]
  have : o = raBytes ra11 is11 := by
    apply eq_of_bits
    · rw [u2, raBytes_length]; rfl
    · intro j
      by_cases hj : j < raLen is11
      · exact lsbBits_at u3 j hj
      · rw [u4 j (by omega)]
        have hz : bitAt true [0#8, 0#8] j = false := by
          unfold bitAt
          by_cases h0 : j / 8 = 0
          · rw [h0]; simp
          · by_cases h1 : j / 8 = 1
            · rw [h1]; simp
            · rw [List.getD_eq_getElem?_getD, List.getElem?_eq_none (by simp; omega)]; simp
        rw [hz]
        symm
        unfold bitAt
        cases is11
        · have hj : 8 ≤ j := by simpa [raLen] using hj
          by_cases h1 : j / 8 = 1
          · rw [h1]; simp [raBytes]
          · rw [List.getD_eq_getElem?_getD, List.getElem?_eq_none (by simp [raBytes]; omega)]; simp
        · have hj : 11 ≤ j := by simpa [raLen] using hj
          by_cases h1 : j / 8 = 1
          · rw [h1]
            have h7 : ∀ i : Fin 8, 3 ≤ i.1 → (0x07#16).getLsbD i.1 = false := by decide
            have hb : bitNum true j = j % 8 := rfl
            have := h7 ⟨j % 8, Nat.mod_lt _ (by omega)⟩ (by dsimp only; omega)
            simp only [raBytes, if_true, hb, List.getD_cons_succ, List.getD_cons_zero, BitVec.getLsbD_setWidth, BitVec.getLsbD_and]
            dsimp only at this
            rw [this]
            simp
          · rw [List.getD_eq_getElem?_getD, List.getElem?_eq_none (by simp [raBytes]; omega)]; simp
  rw [this]

theorem raBytes_value (ra11 : BitVec 16) (is11 : Bool) :
    (if is11 then (((((raBytes ra11 is11).getD 0 0#8).toNat <<< 3) ||| (((raBytes ra11 is11).getD 1 0#8).toNat &&& 0x07) : Nat) : Int)
      else (((raBytes ra11 is11).getD 0 0#8).toNat : Int)) = raValue ra11 is11 := by
  cases is11
  · simp [raBytes, raValue]
  · simp only [raBytes, raValue, if_true, List.getD_cons_succ, List.getD_cons_zero, BitVec.toNat_setWidth, BitVec.toNat_ushiftRight,
      BitVec.toNat_and]
    have h7 : ∀ x, x &&& 7 = x % 2 ^ 3 := fun x => Nat.and_two_pow_sub_one_eq_mod x 3
    rw [show (0x07#16).toNat = 7 from rfl, h7, h7, ← Nat.shiftLeft_add_eq_or_of_lt (by omega), Nat.shiftLeft_eq, Nat.shiftRight_eq_div_pow]
    congr 1
    omega

/-- decoding, once the bits are known -/
theorem rachDecode_bits (conv recoded : List Byte) (r : List Int) (bsic bsic' : Byte) (ra11 : BitVec 16) (is11 : Bool) (rest : List Byte)
    (e n : Nat) (hd : decodeBer (rachCodeOf is11) r conv recoded = some ((rachBlock ra11 bsic is11).map ubit ++ rest, e, n)) :
    rachDecode conv recoded r bsic' is11 =
      some (if bsic'.toNat % 64 = bsic.toNat % 64 then (raValue ra11 is11 : Int) else -1, e, n) := by
  have hb := rachApplyBsic_spec (lsbBits (raLen is11) (raBytes ra11 is11))
    (List.zipWith xor (parityOf rachCrc6 (lsbBits (raLen is11) (raBytes ra11 is11))) (bsicBits bsic)) rest
    (by rw [List.length_zipWith, parityOf_length]; rfl) bsic'
  have hc := checkParity_spec rachCrc6 rachCrc_shifts (lsbBits (raLen is11) (raBytes ra11 is11))
    (List.zipWith xor (List.zipWith xor (parityOf rachCrc6 (lsbBits (raLen is11) (raBytes ra11 is11))) (bsicBits bsic)) (bsicBits bsic')) rest
    (by rw [List.length_zipWith, List.length_zipWith, parityOf_length]; rfl)
  rw [lsbBits_length] at hb hc
  have hp6 : (parityOf rachCrc6 (lsbBits (raLen is11) (raBytes ra11 is11))).length = 6 := parityOf_length _ _
  obtain ⟨u, hu⟩ := raBytes_back ra11 is11
    ((List.zipWith xor (List.zipWith xor (parityOf rachCrc6 (lsbBits (raLen is11) (raBytes ra11 is11))) (bsicBits bsic)) (bsicBits bsic')).map
      ubit ++ rest)
  rw [← List.append_assoc, ← List.map_append] at hu
  have key : (do
      let x ← decodeBer (rachCodeOf is11) r conv recoded
      let conv ← rachApplyBsic x.1 bsic' (raLen is11)
      let rv ← checkParity rachCrc6 (raLen is11) conv
      if rv ≠ 0 then some (-1, x.2)
      else do
        let ra ← Bits.ubit2pbitExt [0#8, 0#8] 0 conv 0 (raLen is11) true
        some (if is11 then ((((ra.1.getD 0 0#8).toNat <<< 3) ||| ((ra.1.getD 1 0#8).toNat &&& 0x07) : Nat) : Int)
          else ((ra.1.getD 0 0#8).toNat : Int), x.2)) =
      some (if bsic'.toNat % 64 = bsic.toNat % 64 then (raValue ra11 is11 : Int) else -1, e, n) := by
    rw [hd]
    dsimp only [bind, Option.bind]
    rw [show rachBlock ra11 bsic is11 = lsbBits (raLen is11) (raBytes ra11 is11) ++
      List.zipWith xor (parityOf rachCrc6 (lsbBits (raLen is11) (raBytes ra11 is11))) (bsicBits bsic) from rfl, hb]
    dsimp only
    rw [hc]
    dsimp only
    by_cases hq : bsic'.toNat % 64 = bsic.toNat % 64
    · rw [if_pos hq, (bsicBits_eq _ _).2 hq, xor_cancel _ _ (by rw [hp6]; exact Nat.le_refl 6), if_pos rfl, if_neg (by decide)]
      rw [(bsicBits_eq _ _).2 hq, xor_cancel _ _ (by rw [hp6]; exact Nat.le_refl 6)] at hu
      rw [hu]
      dsimp only
      rw [raBytes_value]
    · have hne : ¬ List.zipWith xor (List.zipWith xor (parityOf rachCrc6 (lsbBits (raLen is11) (raBytes ra11 is11))) (bsicBits bsic))
          (bsicBits bsic') = parityOf rachCrc6 (lsbBits (raLen is11) (raBytes ra11 is11)) := ?_
      · rw [if_neg hq, if_neg hne, if_pos (by decide)]
      intro he
      apply hq
      rw [← bsicBits_eq]
      have h2 : List.zipWith xor (List.zipWith xor (parityOf rachCrc6 (lsbBits (raLen is11) (raBytes ra11 is11))) (bsicBits bsic)) (bsicBits bsic') =
          List.zipWith xor (List.zipWith xor (parityOf rachCrc6 (lsbBits (raLen is11) (raBytes ra11 is11))) (bsicBits bsic)) (bsicBits bsic) := by
        rw [he, xor_cancel _ _ (by rw [hp6]; exact Nat.le_refl 6)]
      exact xor_right_inj _ _ _ (by rw [List.length_zipWith, hp6]; rfl) (by rw [List.length_zipWith, hp6]; rfl) h2
  exact key

/-- C106: **the access burst.**  A request of 8 or 11 bits is encoded to 36 bits.  From soft bits that speak against what was sent by less
than 7/2 (8 bits) or 5/2 (11 bits) of the weakest one it comes back if the base station identity code is the one it was meant for, and is
refused for any other. -/
theorem rach_roundtrip_soft (conv burst : List Byte) (ra11 : BitVec 16) (bsic : Byte) (is11 : Bool) (h1 : conv.length = 17)
    (h2 : 36 ≤ burst.length) :
    ∃ b, rachExtEncode conv burst ra11 bsic is11 = some b ∧ b.length = burst.length ∧
      (∀ p < 36, b.getD p 0#8 = 0#8 ∨ b.getD p 0#8 = 1#8) ∧ (∀ p, 36 ≤ p → b[p]? = burst[p]?) ∧
      ∀ (conv' recoded : List Byte) (r : List Int) (m : Int) (bsic' : Byte), conv'.length = 17 → recoded.length = 1836 → 36 ≤ r.length →
        0 ≤ m → m ≤ 127 → SoftAt (List.range 36) m r → 2 * contra (List.range 36) b r < (if is11 then 5 else 7) * m →
        rachDecode conv' recoded r bsic' is11 =
          some (if bsic'.toNat % 64 = bsic.toNat % 64 then (raValue ra11 is11 : Int) else -1, wrong (List.range 36) b r, 36) := by
  obtain ⟨sent, s1, s2, s3⟩ := rachExtEncode_spec conv burst ra11 bsic is11 h1 h2
  have hp : pick 0#8 (List.range 36) (sent.map ubit ++ burst.drop 36) = sent.map ubit := by
    rw [pick_range _ _ _ (by simp; omega), List.take_append_of_le_length (by simp; omega), List.take_of_length_le (by simp; omega)]
  refine ⟨_, s3, by simp; omega, fun p hp' => bits_at (List.Perm.refl _) hp p (List.mem_range.2 hp'), ?_, ?_⟩
  · intro p hp'
    rw [List.getElem?_append_right (by simp; omega), List.getElem?_drop]
    simp only [List.length_map, s1]
    congr 1
    omega
  · intro conv' recoded r m bsic' hc' hre hr hm hm' hsoft hc
    obtain ⟨w1, w2⟩ := soft_pick (List.Perm.refl (List.range 36)) hsoft
    have ha := against_pick _ r _ sent hp
    have hNK : (rachCodeOf is11).N = 2 ∧ (rachCodeOf is11).K = 5 ∧ (rachCodeOf is11).len ≤ 17 := by cases is11 <;> decide +kernel
    obtain ⟨-, hd⟩ := decodeBer_corrects (rach_chan is11) (rachBlock ra11 bsic is11) sent (pick 0 (List.range 36) r) (r.drop 36) conv' recoded
      (rachBlock_length ra11 bsic is11) s2 (by simp [pick]) w1 hm w2
      (by rw [ha]; cases is11 <;> (simp only [if_true, if_false, Bool.false_eq_true] at hc ⊢; push_cast; omega))
      (by rw [ha, hNK.1, hNK.2.1]; cases is11 <;> (simp only [if_true, if_false, Bool.false_eq_true] at hc ⊢; push_cast; omega))
      (by omega) (by omega)
    rw [← split_pick 36 r hr, errorsIn_pick _ r _ sent hp] at hd
    exact rachDecode_bits conv' recoded r bsic bsic' ra11 is11 _ _ _ hd

/-- C106: three wrong bits of an 8 bit access burst, two of an 11 bit one, are corrected. -/
theorem rach_corrects (conv burst b : List Byte) (ra11 : BitVec 16) (bsic : Byte) (is11 : Bool) (h1 : conv.length = 17)
    (h2 : 36 ≤ burst.length) (he : rachExtEncode conv burst ra11 bsic is11 = some b) (conv' recoded : List Byte) (hc' : conv'.length = 17)
    (hre : recoded.length = 1836) (r : List Int) (hr : 36 ≤ r.length) (hh : ∀ p < 36, r.getD p 0 = 127 ∨ r.getD p 0 = -127)
    (hw : wrong (List.range 36) b r ≤ if is11 then 2 else 3) (bsic' : Byte) :
    rachDecode conv' recoded r bsic' is11 =
      some (if bsic'.toNat % 64 = bsic.toNat % 64 then (raValue ra11 is11 : Int) else -1, wrong (List.range 36) b r, 36) := by
  obtain ⟨b', e1, -, -, -, e5⟩ := rach_roundtrip_soft conv burst ra11 bsic is11 h1 h2
  rw [he] at e1
  obtain rfl := Option.some.inj e1
  have hh' : ∀ p ∈ List.range 36, r.getD p 0 = 127 ∨ r.getD p 0 = -127 := fun p hp => hh p (List.mem_range.1 hp)
  refine e5 conv' recoded r 127 bsic' hc' hre hr (by omega) (by omega) (fun p hp => ?_) ?_
  · rcases hh' p hp with h | h <;> rw [h] <;> omega
  · rw [contra_hard _ _ _ hh']
    cases is11 <;> (simp only [if_true, if_false, Bool.false_eq_true] at hw ⊢; omega)

def ofBits (w : Nat) (f : Nat → Bool) : BitVec w := (BitVec.ofBoolListLE ((List.range w).map f)).setWidth w

theorem ofBits_get (w : Nat) (f : Nat → Bool) (i : Nat) (h : i < w) : (ofBits w f).getLsbD i = f i := by
  unfold ofBits
  rw [BitVec.getLsbD_setWidth, BitVec.getLsbD_ofBoolListLE]
  simp [h]

theorem raBits_surj (bits : List Bool) (is11 : Bool) (hl : bits.length = raLen is11) :
    ∃ ra11, lsbBits (raLen is11) (raBytes ra11 is11) = bits := by
  cases is11
  · have h8 : raLen false = 8 := rfl
    rw [h8] at hl ⊢
    refine ⟨ofBits 16 fun i => bits.getD i false, ?_⟩
    apply List.ext_getElem?
    intro i
    by_cases hi : i < 8
    · have h0 : i / 8 = 0 := by omega
      have h1 : i % 8 = i := by omega
      have hb := ofBits_get 16 (fun i => bits.getD i false) i (by omega)
      have e : bitAt true (raBytes (ofBits 16 fun i => bits.getD i false) false) i = bits.getD i false := by
        unfold bitAt bitNum raBytes
        rw [h0, h1]
        simp only [if_true, Bool.false_eq_true, if_false, List.getD_cons_zero, BitVec.getLsbD_setWidth, hb]
        simp [hi]
      unfold lsbBits
      rw [List.getElem?_map, List.getElem?_range hi, Option.map_some, e, List.getElem?_eq_getElem (by omega)]
      simp [List.getElem?_eq_getElem (show i < bits.length by omega)]
    · rw [List.getElem?_eq_none (by rw [lsbBits_length]; omega), List.getElem?_eq_none (by omega)]
  · have h8 : raLen true = 11 := rfl
    rw [h8] at hl ⊢
    refine ⟨ofBits 16 fun i => if i < 3 then bits.getD (i + 8) false else bits.getD (i - 3) false, ?_⟩
    apply List.ext_getElem?
    intro i
    by_cases hi : i < 11
    · have e : bitAt true (raBytes (ofBits 16 fun i => if i < 3 then bits.getD (i + 8) false else bits.getD (i - 3) false) true) i =
          bits.getD i false := by
        unfold bitAt bitNum raBytes
        by_cases h3 : i < 8
        · have hb := ofBits_get 16 (fun i => if i < 3 then bits.getD (i + 8) false else bits.getD (i - 3) false) (3 + i) (by omega)
          rw [show i / 8 = 0 by omega, show i % 8 = i by omega]
          simp only [if_true, List.getD_cons_zero, BitVec.getLsbD_setWidth, BitVec.getLsbD_ushiftRight, hb]
          rw [if_neg (by omega), show 3 + i - 3 = i by omega]
          simp [h3]
        · have hb := ofBits_get 16 (fun i => if i < 3 then bits.getD (i + 8) false else bits.getD (i - 3) false) (i - 8) (by omega)
          have h7 : ∀ i : Fin 3, (0x07#16).getLsbD i.1 = true := by decide
          have h7 := h7 ⟨i - 8, by omega⟩
          dsimp only at h7
          rw [show i / 8 = 1 by omega, show i % 8 = i - 8 by omega]
          simp only [if_true, List.getD_cons_succ, List.getD_cons_zero, BitVec.getLsbD_setWidth, BitVec.getLsbD_and, hb, h7]
          rw [if_pos (by omega), show i - 8 + 8 = i by omega]
          simp [show i - 8 < 8 by omega]
      unfold lsbBits
      rw [List.getElem?_map, List.getElem?_range hi, Option.map_some, e, List.getElem?_eq_getElem (by omega)]
      simp [List.getElem?_eq_getElem (show i < bits.length by omega)]
    · rw [List.getElem?_eq_none (by rw [lsbBits_length]; omega), List.getElem?_eq_none (by omega)]

theorem bsicBits_surj (p : List Bool) (h : p.length = 6) : ∃ bsic, bsicBits bsic = p := by
  refine ⟨ofBits 8 fun i => p.getD (5 - i) false, ?_⟩
  apply List.ext_getElem?
  intro i
  unfold bsicBits
  by_cases hi : i < 6
  · rw [List.getElem?_map, List.getElem?_range hi, Option.map_some, ofBits_get _ _ _ (by omega), show 5 - (5 - i) = i by omega,
      List.getElem?_eq_getElem (by omega)]
    simp [List.getElem?_eq_getElem (show i < p.length by omega)]
  · rw [List.getElem?_eq_none (by simp; omega), List.getElem?_eq_none (by omega)]

/-- any bits of the right length are a block -/
theorem rachBlock_surj (bits : List Bool) (is11 : Bool) (hb : bits.length = (rachCodeOf is11).len) :
    ∃ ra11 bsic, rachBlock ra11 bsic is11 = bits := by
  have hl : bits.length = raLen is11 + 6 := by rw [hb]; cases is11 <;> rfl
  obtain ⟨ra11, hra⟩ := raBits_surj (bits.take (raLen is11)) is11 (by rw [List.length_take]; omega)
  have hp6 : (parityOf rachCrc6 (bits.take (raLen is11))).length = 6 := parityOf_length _ _
  have hd6 : (bits.drop (raLen is11)).length = 6 := by rw [List.length_drop]; omega
  obtain ⟨bsic, hbs⟩ := bsicBits_surj (List.zipWith xor (bits.drop (raLen is11)) (parityOf rachCrc6 (bits.take (raLen is11))))
    (by rw [List.length_zipWith, hp6, hd6]; rfl)
  refine ⟨ra11, bsic, ?_⟩
  unfold rachBlock
  rw [hra, hbs, List.zipWith_comm_of_comm (fun x y => Bool.xor_comm x y), xor_cancel _ _ (by omega), List.take_append_drop]

theorem rachBlock_bsic (ra11 : BitVec 16) (b b' : Byte) (is11 : Bool) (h : b.toNat % 64 = b'.toNat % 64) :
    rachBlock ra11 b is11 = rachBlock ra11 b' is11 := by
  unfold rachBlock
  rw [(bsicBits_eq b b').2 h]

/-- C106: **whatever is received** as an access burst is refused, or a request is returned that would be sent, for this base station, with
as many differences as reported. -/
theorem rach_decode_sound (conv recoded : List Byte) (h1 : conv.length = 17) (h2 : recoded.length = 1836) (r : List Int) (hr : 36 ≤ r.length)
    (hs : Within 127 r) (bsic : Byte) (is11 : Bool) :
    ∃ rv e, rachDecode conv recoded r bsic is11 = some (rv, e, 36) ∧ (rv = -1 ∨ ∃ ra11, rv = (raValue ra11 is11 : Int) ∧
      ∀ c burst b : List Byte, c.length = 17 → 36 ≤ burst.length → rachExtEncode c burst ra11 bsic is11 = some b →
        e = wrong (List.range 36) b r) := by
  have hlen : (rachCodeOf is11).len ≤ 17 := by cases is11 <;> decide +kernel
  obtain ⟨bits, sent, hb, he, hs', -, hd⟩ := decodeBer_total (rach_chan is11) r conv recoded hr hs (by omega) (by omega)
  obtain ⟨ra11, bsic0, hblk⟩ := rachBlock_surj bits is11 hb
  subst hblk
  have hd' := rachDecode_bits conv recoded r bsic0 bsic ra11 is11 _ _ _ hd
  refine ⟨_, _, hd', ?_⟩
  by_cases hq : bsic.toNat % 64 = bsic0.toNat % 64
  · rw [if_pos hq]
    refine .inr ⟨ra11, rfl, ?_⟩
    intro c burst b hc hbu hen
    obtain ⟨sent', t1, t2, t3⟩ := rachExtEncode_spec c burst ra11 bsic is11 hc hbu
    rw [hen] at t3
    obtain rfl := Option.some.inj t3
    rw [rachBlock_bsic ra11 bsic bsic0 is11 hq, he] at t2
    obtain rfl := Option.some.inj t2
    have hp : pick 0#8 (List.range 36) (sent.map ubit ++ burst.drop 36) = sent.map ubit := by
      rw [pick_range _ _ _ (by simp; omega), List.take_append_of_le_length (by simp; omega), List.take_of_length_le (by simp; omega)]
    have := errorsIn_pick _ r _ sent hp
    rw [← this]
    conv_lhs => rw [split_pick 36 r hr]
    exact errorsIn_append _ _ _ (by simp [pick]; omega)
  · rw [if_neg hq]
    exact .inl rfl

/-- C106: the API functions: 0 and the request, or negative and nothing written -/
theorem rach_api (conv recoded : List Byte) (h1 : conv.length = 17) (h2 : recoded.length = 1836) (r : List Int) (hr : 36 ≤ r.length)
    (hs : Within 127 r) (bsic : Byte) (ra : BitVec 16) (ra8 : Byte) :
    (∃ rv e, rachDecode conv recoded r bsic true = some (rv, e) ∧ rachExtDecodeBer conv recoded ra r bsic =
      some (if rv < 0 then (-1, ra, e) else (0, BitVec.ofNat 16 rv.toNat, e)) ∧ rv < 2048) ∧
    (∃ rv e, rachDecode conv recoded r bsic false = some (rv, e) ∧ rachDecodeBer conv recoded ra8 r bsic =
      some (if rv < 0 then (-1, ra8, e) else (0, BitVec.ofNat 8 rv.toNat, e)) ∧ rv < 256) := by
  constructor
  · obtain ⟨rv, e, hd, hrv⟩ := rach_decode_sound conv recoded h1 h2 r hr hs bsic true
    refine ⟨rv, (e, 36), hd, ?_, ?_⟩
    · unfold rachExtDecodeBer
      rw [hd, Option.bind_eq_bind, Option.bind_some]
      dsimp only
      rcases hrv with rfl | ⟨ra11, rfl, -⟩
      · rfl
      · rw [if_neg (by omega), if_neg (by omega)]
        rfl
    · rcases hrv with rfl | ⟨ra11, rfl, -⟩
      · decide
      · unfold raValue; rw [if_pos rfl]; omega
  · obtain ⟨rv, e, hd, hrv⟩ := rach_decode_sound conv recoded h1 h2 r hr hs bsic false
    refine ⟨rv, (e, 36), hd, ?_, ?_⟩
    · unfold rachDecodeBer
      rw [hd, Option.bind_eq_bind, Option.bind_some]
      dsimp only
      rcases hrv with rfl | ⟨ra11, rfl, -⟩
      · rfl
      · rw [if_neg (by omega), if_neg (by omega)]
        rfl
    · rcases hrv with rfl | ⟨ra11, rfl, -⟩
      · decide
      · unfold raValue; rw [if_neg (by decide)]; omega

/-- **`gsm0503_rach_encode` and `gsm0503_rach_decode_ber`.**  The eight bits of an access burst come back through the functions that
are called: 0 and the bits if the BSIC is the one encoded with, else -1 and the output is left. -/
theorem rach8_roundtrip (conv burst : List Byte) (ra : Byte) (bsic : Byte) (h1 : conv.length = 17) (h2 : 36 ≤ burst.length) :
    ∃ b, rachEncode conv burst ra bsic = some b ∧ b.length = burst.length ∧
      ∀ (conv' recoded : List Byte) (r : List Int) (m : Int) (bsic' ra' : Byte), conv'.length = 17 → recoded.length = 1836 → 36 ≤ r.length →
        0 ≤ m → m ≤ 127 → SoftAt (List.range 36) m r → 2 * contra (List.range 36) b r < 7 * m →
        rachDecodeBer conv' recoded ra' r bsic' = some (if bsic'.toNat % 64 = bsic.toNat % 64 then (0, ra, wrong (List.range 36) b r, 36)
          else (-1, ra', wrong (List.range 36) b r, 36)) := by
  obtain ⟨b, e1, e2, -, -, e3⟩ := rach_roundtrip_soft conv burst (ra.setWidth 16) bsic false h1 h2
  refine ⟨b, e1, e2, ?_⟩
  intro conv' recoded r m bsic' ra' c1 c2 c3 c4 c5 c6 c7
  have h := e3 conv' recoded r m bsic' c1 c2 c3 c4 c5 c6 c7
  have hv : raValue (ra.setWidth 16) false = ra.toNat := by
    unfold raValue
    rw [if_neg (by decide), BitVec.toNat_setWidth]
    have := ra.isLt
    omega
  unfold rachDecodeBer
  rw [h, Option.bind_eq_bind, Option.bind_some, hv]
  dsimp only
  split
  · rw [if_neg (by omega)]
    have h8 : BitVec.ofInt 8 (ra.toNat : Int) = ra := by
      apply BitVec.eq_of_toNat_eq
      rw [BitVec.toNat_ofInt]
      have := ra.isLt
      omega
    rw [h8]
  · rw [if_pos (by decide)]

end Verif.Chan
