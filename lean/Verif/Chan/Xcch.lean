import Verif.Chan.Places
/-!
C105: control channel blocks (SACCH, SDCCH, CCCH, BCCH) and FACCH, from 23 bytes to bursts and back.
-/
namespace Verif.Chan
open Verif.Conv Verif.ConvAcc Verif.Interleave

theorem fire_shifts : Crc.shiftsDefined fireCrc40 := by decide
theorem rachCrc_shifts : Crc.shiftsDefined rachCrc6 := by decide
theorem schCrc_shifts : Crc.shiftsDefined schCrc10 := by decide

/-- the 224 bits that are coded for 23 bytes -/
def xcchBlock (l2 : List Byte) : List Bool := lsbBits 184 l2 ++ parityOf fireCrc40 (lsbBits 184 l2)

theorem xcchBlock_length (l2 : List Byte) : (xcchBlock l2).length = 224 := by
  unfold xcchBlock
  rw [List.length_append, lsbBits_length, parityOf_length]
  rfl

/-- the 456 coded bits -/
theorem xcchEncodeCB_spec (conv cB l2 : List Byte) (h1 : conv.length = 224) (h2 : cB.length = 456) (h3 : l2.length = 23) :
    ∃ sent : List Bool, sent.length = 456 ∧ encode xcchCode (xcchBlock l2) = some sent ∧ xcchEncodeCB conv cB l2 = some (sent.map ubit) := by
  obtain ⟨sent, he, hs⟩ := xcch_channel.enc (xcchBlock l2) (xcchBlock_length l2)
  refine ⟨sent, hs, he, ?_⟩
  unfold xcchEncodeCB
  rw [pbit2ubit_spec conv l2 184 (by omega) (by omega) (by decide)]
  dsimp only [bind, Option.bind]
  have hp := setParity_spec fireCrc40 fire_shifts (lsbBits 184 l2) (conv.drop 184) (by rw [List.length_drop, h1]; decide)
  rw [lsbBits_length] at hp
  rw [hp]
  dsimp only
  have hc := convEncode_spec xcchCode (xcchBlock l2) sent ((conv.drop 184).drop fireCrc40.bits) cB (xcchBlock_length l2) he (by omega)
  rw [show (lsbBits 184 l2 ++ parityOf fireCrc40 (lsbBits 184 l2)) = xcchBlock l2 from rfl, hc]
  dsimp only
  rw [hs, List.drop_of_length_le (by omega), List.append_nil]

theorem xcchDecodeCB_corrects (conv recoded out l2 : List Byte) (cB : List Int) (sent : List Bool) (h1 : conv.length = 224)
    (h2 : recoded.length = 1836) (h3 : l2.length = 23) (h4 : 23 ≤ out.length) (h5 : cB.length = 456) (hr : Within 127 cB)
    (he : encode xcchCode (xcchBlock l2) = some sent) {m : Int} (hm : 0 ≤ m) (hm' : m ≤ 127) (hmin : ∀ v ∈ cB, m ≤ v ∨ v ≤ -m)
    (ha : 2 * against sent cB < 7 * m) :
    xcchDecodeCB conv recoded out cB = some { rv := 0, data := l2 ++ out.drop 23, errors := errorsIn sent cB, total := 456 } := by
  obtain ⟨-, hd⟩ := decodeBer_corrects xcch_channel (xcchBlock l2) sent cB [] conv recoded (xcchBlock_length l2) he h5 hr hm hmin
    (by push_cast; omega) (by show _ < 127 * ((2 : Nat) : Int) * ((5 : Nat) : Int); omega) (by rw [h1]; decide) (by omega)
  rw [List.append_nil] at hd
  unfold xcchDecodeCB
  rw [hd]
  dsimp only [bind, Option.bind]
  have hc := checkParity_spec fireCrc40 fire_shifts (lsbBits 184 l2) (parityOf fireCrc40 (lsbBits 184 l2)) (conv.drop xcchCode.len)
    (parityOf_length _ _)
  rw [lsbBits_length, if_pos rfl, show (lsbBits 184 l2 ++ parityOf fireCrc40 (lsbBits 184 l2)) = xcchBlock l2 from rfl] at hc
  rw [hc]
  dsimp only
  rw [if_neg (by decide)]
  obtain ⟨r, hu⟩ := ubit2pbit_bytes out l2 ((parityOf fireCrc40 (lsbBits 184 l2)).map ubit ++ conv.drop xcchCode.len) (by omega)
  rw [h3, ← List.append_assoc, ← List.map_append] at hu
  rw [show xcchBlock l2 = lsbBits (8 * 23) l2 ++ parityOf fireCrc40 (lsbBits 184 l2) from rfl, show (184 : Nat) = 8 * 23 from rfl] 
  rw [show (184 : Nat) = 8 * 23 from rfl] at hu
  rw [hu]

/-- any soft bits: a block is found whose encoding is `errors` bits away, or the parity is wrong -/
theorem xcchDecodeCB_total (conv recoded out : List Byte) (cB : List Int) (h1 : conv.length = 224)
    (h2 : recoded.length = 1836) (h4 : 23 ≤ out.length) (h5 : cB.length = 456) (hr : Within 127 cB) :
    ∃ res, xcchDecodeCB conv recoded out cB = some res ∧ res.total = 456 ∧
      ((res.rv = -1 ∧ res.data = out) ∨
        (res.rv = 0 ∧ ∃ l2 sent, l2.length = 23 ∧ res.data = l2 ++ out.drop 23 ∧ encode xcchCode (xcchBlock l2) = some sent ∧
          res.errors = errorsIn sent cB)) := by
  obtain ⟨bits, sent, hb, he, hs, -, hd⟩ := decodeBer_total xcch_channel cB conv recoded (by omega) hr (by rw [h1]; decide) (by omega)
  have hb' : bits.length = 224 := hb
  have hsplit : bits = bits.take 184 ++ bits.drop 184 := (List.take_append_drop 184 bits).symm
  have hc := checkParity_spec fireCrc40 fire_shifts (bits.take 184) (bits.drop 184) (conv.drop xcchCode.len)
    (by rw [List.length_drop, hb']; rfl)
  rw [List.take_append_drop, List.length_take, hb', show min 184 224 = 184 from rfl] at hc
  by_cases hp : bits.drop 184 = parityOf fireCrc40 (bits.take 184)
  · rw [if_pos hp] at hc
    obtain ⟨o, r, u1, u2, u3, u4⟩ := ubit2pbit_spec out (bits.take 184) ((bits.drop 184).map ubit ++ conv.drop xcchCode.len) 184
      (by simp [hb']) (by omega)
    rw [← List.append_assoc, ← List.map_append, List.take_append_drop] at u1
    refine ⟨{ rv := 0, data := o, errors := errorsIn sent cB, total := 456 }, ?_, rfl, .inr ⟨rfl, o.take 23, sent, ?_, ?_, ?_, rfl⟩⟩
    · unfold xcchDecodeCB
      rw [hd]
      dsimp only [bind, Option.bind]
      rw [hc]
      dsimp only
      rw [if_neg (by decide), u1]
    · rw [List.length_take]; omega
    · show o = _
      apply eq_of_bits
      · simp; omega
      · intro j
        have hl : (o.take 23).length = 23 := by rw [List.length_take]; omega
        have e1 := bitAt_append (o.take 23) (o.drop 23) j
        have e2 := bitAt_append (o.take 23) (out.drop 23) j
        have e3 := bitAt_append (out.take 23) (out.drop 23) j
        rw [List.take_append_drop] at e1 e3
        rw [hl] at e1 e2
        have hl' : (out.take 23).length = 23 := by rw [List.length_take]; omega
        rw [hl'] at e3
        rw [e2]
        split
        · rename_i hj
          rw [e1, if_pos hj]
        · rename_i hj
          rw [u4 j (by omega), e3, if_neg hj]
    · have hbits : xcchBlock (o.take 23) = bits := by
        have : lsbBits 184 (o.take 23) = lsbBits 184 o := by
          unfold lsbBits
          apply List.map_congr_left
          intro j hj
          rw [List.mem_range] at hj
          have e1 := bitAt_append (o.take 23) (o.drop 23) j
          rw [List.take_append_drop, if_pos (by rw [List.length_take]; omega)] at e1
          exact e1.symm
        unfold xcchBlock
        rw [this, u3, ← hp, List.take_append_drop]
      rw [hbits]
      exact he
  · rw [if_neg hp] at hc
    refine ⟨{ rv := -1, data := out, errors := errorsIn sent cB, total := 456 }, ?_, rfl, .inl ⟨rfl, rfl⟩⟩
    unfold xcchDecodeCB
    rw [hd]
    dsimp only [bind, Option.bind]
    rw [hc]
    dsimp only
    rw [if_pos (by decide)]

/-- the arrays of src/coding/gsm0503_coding.c:659-659 and 3745-3745 -/
structure EncStack.Ok (s : EncStack) (n : Nat) : Prop where
  conv : s.conv.length = 224
  cB : s.cB.length = 456
  iB : s.iB.length = n

structure DecStack.Ok (s : DecStack) (n : Nat) : Prop where
  conv : s.conv.length = 224
  recoded : s.recoded.length = 1836
  cB : s.cB.length = 456
  iB : s.iB.length = n

/-- soft bits at some places: in range and at least `m` in magnitude -/
def SoftAt (places : List Nat) (m : Int) (r : List Int) : Prop :=
  ∀ p ∈ places, -127 ≤ r.getD p 0 ∧ r.getD p 0 ≤ 127 ∧ (m ≤ r.getD p 0 ∨ r.getD p 0 ≤ -m)

theorem soft_pick {pos data : List Nat} (hp : pos.Perm data) {m : Int} {r : List Int} (h : SoftAt data m r) :
    Within 127 (pick 0 pos r) ∧ ∀ v ∈ pick 0 pos r, m ≤ v ∨ v ≤ -m := by
  constructor
  · intro v hv
    obtain ⟨p, hp', rfl⟩ := List.mem_map.1 hv
    have := h p (hp.mem_iff.1 hp')
    exact ⟨this.1, this.2.1⟩
  · intro v hv
    obtain ⟨p, hp', rfl⟩ := List.mem_map.1 hv
    exact (h p (hp.mem_iff.1 hp')).2.2

/-- a block decoded from the places where its bits are -/
theorem cb_soft {pos data : List Nat} (hperm : pos.Perm data) (hlen : pos.length = 456) {sent : List Bool} {b l2 : List Byte}
    (h3 : l2.length = 23) (s2 : encode xcchCode (xcchBlock l2) = some sent) (hp : pick 0#8 pos b = sent.map ubit) {n : Nat} {ds : DecStack}
    (hds : ds.Ok n) {out : List Byte} (ho : 23 ≤ out.length) {r : List Int} {m : Int} (hm : 0 ≤ m) (hm' : m ≤ 127)
    (hsoft : SoftAt data m r) (hc : 2 * contra data b r < 7 * m) :
    xcchDecodeCB ds.conv ds.recoded out (pick 0 pos r) =
      some { rv := 0, data := l2 ++ out.drop 23, errors := wrong data b r, total := 456 } := by
  obtain ⟨w1, w2⟩ := soft_pick hperm hsoft
  have ha := against_pick b r _ sent hp
  rw [contra_perm hperm] at ha
  rw [xcchDecodeCB_corrects ds.conv ds.recoded out l2 _ sent hds.conv hds.recoded h3 ho (by simp [pick, hlen]) w1 s2 hm hm' w2
    (by rw [ha]; exact hc), errorsIn_pick b r _ sent hp, wrong_perm hperm]

theorem cb_sound {pos data : List Nat} (hperm : pos.Perm data) (hlen : pos.length = 456) {n : Nat} {ds : DecStack} (hds : ds.Ok n)
    {out : List Byte} (ho : 23 ≤ out.length) {r : List Int} (hs : ∀ p ∈ data, -127 ≤ r.getD p 0 ∧ r.getD p 0 ≤ 127) :
    ∃ res, xcchDecodeCB ds.conv ds.recoded out (pick 0 pos r) = some res ∧ res.total = 456 ∧
      ((res.rv = -1 ∧ res.data = out) ∨
        (res.rv = 0 ∧ ∃ l2, l2.length = 23 ∧ res.data = l2 ++ out.drop 23 ∧
          ∀ (sent : List Bool) (b : List Byte), encode xcchCode (xcchBlock l2) = some sent → pick 0#8 pos b = sent.map ubit →
            res.errors = wrong data b r)) := by
  have w1 : Within 127 (pick 0 pos r) := by
    intro v hv
    obtain ⟨p, hp', rfl⟩ := List.mem_map.1 hv
    exact hs p (hperm.mem_iff.1 hp')
  obtain ⟨res, t1, t2, t3⟩ := xcchDecodeCB_total ds.conv ds.recoded out _ hds.conv hds.recoded ho
    (show (pick 0 pos r).length = 456 by simp [pick, hlen]) w1
  refine ⟨res, t1, t2, ?_⟩
  rcases t3 with t3 | ⟨t3, l2, sent, l1, l2', l3, l4⟩
  · exact .inl t3
  · refine .inr ⟨t3, l2, l1, l2', fun sent' b he hp => ?_⟩
    rw [l3] at he
    obtain rfl := Option.some.inj he
    rw [l4, errorsIn_pick b r _ sent hp, wrong_perm hperm]

/-- the sent places hold bits -/
theorem bits_at {pos data : List Nat} (hperm : pos.Perm data) {sent : List Bool} {b : List Byte} (hp : pick 0#8 pos b = sent.map ubit)
    (p : Nat) (hp' : p ∈ data) : b.getD p 0#8 = 0#8 ∨ b.getD p 0#8 = 1#8 := by
  have : b.getD p 0#8 ∈ pick 0#8 pos b := List.mem_map.2 ⟨p, hperm.mem_iff.2 hp', rfl⟩
  rw [hp] at this
  obtain ⟨x, -, hx⟩ := List.mem_map.1 this
  rw [← hx]
  cases x
  · exact .inl rfl
  · exact .inr rfl

theorem xcchSend_pick (es : EncStack) (hes : es.Ok 456) (bursts : List Byte) (sent : List Bool) (s1 : sent.length = 456)
    (hb : bursts.length = 464) :
    ∃ b, xcchSend 1#8 1#8 es.iB (sent.map ubit) bursts = some b ∧ b.length = 464 ∧
      pick 0#8 ((List.range 456).map xcchPos) b = sent.map ubit ∧ ∀ B < 4, b[116 * B + 57]? = some 1#8 ∧ b[116 * B + 58]? = some 1#8 := by
  obtain ⟨b, b1, b2, b3, b4⟩ := xcch_chain 1#8 1#8 es.iB (sent.map ubit) bursts (sent.map ubit) es.iB hes.iB (by simpa using s1) hb
    (by simpa using s1) hes.iB
  refine ⟨b, b1, b2, ?_, b4⟩
  rw [xcchReceive_spec _ _ _ 0#8 (by simpa using s1) hes.iB b2] at b3
  exact Option.some.inj b3

/-- C105: **control channels.**  23 bytes are encoded to four bursts with both stealing flags set.  Decoded from soft bits that speak
against what was sent by less than 7/2 of the weakest one, they come back, and the number of errors is that of the wrong bits; the flags
do not matter, nor does what the buffers contain before. -/
theorem xcch_roundtrip_soft (es : EncStack) (hes : es.Ok 456) (bursts l2 : List Byte) (hb : bursts.length = 464) (h3 : l2.length = 23) :
    ∃ b, xcchEncode es bursts l2 = some b ∧ b.length = 464 ∧ (∀ p ∈ xcchData, b.getD p 0#8 = 0#8 ∨ b.getD p 0#8 = 1#8) ∧
      (∀ B < 4, b[116 * B + 57]? = some 1#8 ∧ b[116 * B + 58]? = some 1#8) ∧
      ∀ (ds : DecStack) (out : List Byte) (r : List Int) (m : Int), ds.Ok 456 → 23 ≤ out.length → r.length = 464 → 0 ≤ m → m ≤ 127 →
        SoftAt xcchData m r → 2 * contra xcchData b r < 7 * m →
        xcchDecode ds out r = some { rv := 0, data := l2 ++ out.drop 23, errors := wrong xcchData b r, total := 456 } := by
  obtain ⟨sent, s1, s2, s3⟩ := xcchEncodeCB_spec es.conv es.cB l2 hes.conv hes.cB h3
  obtain ⟨b, b1, b2, b3, b4⟩ := xcchSend_pick es hes bursts sent s1 hb
  refine ⟨b, ?_, b2, bits_at xcch_perm b3, b4, ?_⟩
  · unfold xcchEncode
    rw [s3]
    exact b1
  · intro ds out r m hds ho hr hm hm' hsoft hc
    unfold xcchDecode
    rw [xcchReceive_spec _ _ _ 0 hds.cB hds.iB hr, Option.bind_eq_bind, Option.bind_some,
      cb_soft xcch_perm (by simp) h3 s2 b3 hds ho hm hm' hsoft hc]

theorem wrong_cons (p : Nat) (ps : List Nat) (b : List Byte) (r : List Int) :
    wrong (p :: ps) b r = wrong ps b r + if Says (r.getD p 0) (b.getD p 0#8 ≠ 0#8) then 0 else 1 := by
  unfold wrong
  rw [List.filter_cons]
  by_cases h : Says (r.getD p 0) (decide (b.getD p 0#8 ≠ 0#8))
  · rw [if_neg (by simpa using h), if_pos h]; rfl
  · rw [if_pos (by simpa using h), if_neg h]; rfl

/-- hard bits: the contradiction is 127 for every wrong bit -/
theorem contra_hard (places : List Nat) (b : List Byte) (r : List Int) (h : ∀ p ∈ places, r.getD p 0 = 127 ∨ r.getD p 0 = -127) :
    contra places b r = 127 * (wrong places b r : Int) := by
  induction places with
  | nil => rfl
  | cons p ps ih =>
    have ih := ih fun q hq => h q (by simp [hq])
    have hp := h p (by simp)
    rw [wrong_cons]
    unfold contra at ih ⊢
    simp only [List.map_cons, List.sum_cons]
    rw [ih]
    generalize wrong ps b r = w
    generalize b.getD p 0#8 = y
    by_cases hz : y = 0#8
    · have hd : decide (y ≠ 0#8) = false := by simpa using hz
      rcases hp with e | e <;> (rw [e, hd, if_pos hz]; simp [Says]; try omega)
    · have hd : decide (y ≠ 0#8) = true := by simpa using hz
      rcases hp with e | e <;> (rw [e, hd, if_neg hz]; simp [Says]; try omega)

/-- C105: **three wrong bits** among the 456 are always corrected. -/
theorem xcch_corrects (es : EncStack) (hes : es.Ok 456) (bursts l2 b : List Byte) (hb : bursts.length = 464) (h3 : l2.length = 23)
    (he : xcchEncode es bursts l2 = some b) (ds : DecStack) (hds : ds.Ok 456) (out : List Byte) (ho : 23 ≤ out.length) (r : List Int)
    (hr : r.length = 464) (hh : ∀ p ∈ xcchData, r.getD p 0 = 127 ∨ r.getD p 0 = -127) (hw : wrong xcchData b r ≤ 3) :
    xcchDecode ds out r = some { rv := 0, data := l2 ++ out.drop 23, errors := wrong xcchData b r, total := 456 } := by
  obtain ⟨b', e1, -, -, -, e5⟩ := xcch_roundtrip_soft es hes bursts l2 hb h3
  rw [he] at e1
  obtain rfl := Option.some.inj e1
  refine e5 ds out r 127 hds ho hr (by omega) (by omega) (fun p hp => ?_) ?_
  · rcases hh p hp with h | h <;> rw [h] <;> omega
  · rw [contra_hard _ _ _ hh]; omega

/-- C105: **whatever is received** is either refused, the buffer being left alone, or the bytes returned are a block whose encoding
differs from what was received in as many bits as reported. -/
theorem xcch_decode_sound (ds : DecStack) (hds : ds.Ok 456) (out : List Byte) (ho : 23 ≤ out.length) (r : List Int)
    (hr : r.length = 464) (hs : ∀ p ∈ xcchData, -127 ≤ r.getD p 0 ∧ r.getD p 0 ≤ 127) :
    ∃ res, xcchDecode ds out r = some res ∧ res.total = 456 ∧
      ((res.rv = -1 ∧ res.data = out) ∨
        (res.rv = 0 ∧ ∃ l2, l2.length = 23 ∧ res.data = l2 ++ out.drop 23 ∧
          ∀ (es : EncStack) (bursts b : List Byte), es.Ok 456 → bursts.length = 464 → xcchEncode es bursts l2 = some b →
            res.errors = wrong xcchData b r)) := by
  obtain ⟨res, t1, t2, t3⟩ := cb_sound xcch_perm (by simp) hds ho hs
  refine ⟨res, ?_, t2, ?_⟩
  · unfold xcchDecode
    rw [xcchReceive_spec _ _ _ 0 hds.cB hds.iB hr, Option.bind_eq_bind, Option.bind_some]
    exact t1
  · rcases t3 with t3 | ⟨t3, l2, l1, l2', l3⟩
    · exact .inl t3
    · refine .inr ⟨t3, l2, l1, l2', ?_⟩
      intro es bursts b hes hb he
      obtain ⟨sent, s1, s2, s3⟩ := xcchEncodeCB_spec es.conv es.cB l2 hes.conv hes.cB l1
      obtain ⟨b', b1, b2, b3, b4⟩ := xcchSend_pick es hes bursts sent s1 hb
      unfold xcchEncode at he
      rw [s3] at he
      obtain rfl : b = b' := Option.some.inj (he.symm.trans b1)
      exact l3 sent b s2 b3

end Verif.Chan
