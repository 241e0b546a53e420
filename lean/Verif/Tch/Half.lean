import Verif.Tch.Hs
/-!
C108: TCH/HS, continued.
-/
namespace Verif.Tch
open Verif.Conv Verif.ConvAcc Verif.Interleave Verif.Chan

/-- the rank of bit `i` of the half rate frame `t`: the order depends on the mode, bits 34 and 35 of the frame -/
def hrRank (t : List Byte) (i : Nat) : Nat := (hrTab (bitAt false t 34) (bitAt false t 35)).idxOf i

theorem hrRank_lt (t : List Byte) (i : Nat) (h : i < 112) : hrRank t i < 112 := (hrTab_ok _ _).idx i h

theorem hrRank_get (t : List Byte) (i : Nat) (h : i < 112) : (hrD (msbBits 0 112 t)).getD (hrRank t i) false = bitAt false t i := by
  have e : (hrUnD (hrD (msbBits 0 112 t))).getD i false = bitAt false t i := by
    rw [hrUnD_hrD _ (msbBits_length _ _ _), msbBits_get _ _ _ _ h, Nat.zero_add]
  rw [← e]
  unfold hrUnD
  rw [(hrD_mode _).1, (hrD_mode _).2, msbBits_get _ _ _ _ (by omega), msbBits_get _ _ _ _ (by omega), placed_at (hrTab_ok _ _) _ _ h]
  rfl

/-- the block is taken for speech: either a FACCH block cannot end here, or the flags of the six bursts say no -/
def Speech (odd : Bool) (r : List Int) : Prop := 464 ≤ r.length ∧ (odd = false → 696 ≤ r.length ∧ 0 ≤ flagSum facchHFlags r)

theorem hrSteal_speech {odd : Bool} {r : List Int} (h : Speech odd r) : ∃ st, hrSteal odd r = some st ∧ st ≤ 0 := by
  unfold hrSteal
  cases odd
  · obtain ⟨h1, h2⟩ := h.2 rfl
    have hst := steal_spec facchHFlags r (fun p hp => by
      simp only [facchHFlags, List.mem_cons, List.not_mem_nil, or_false] at hp; omega)
    refine ⟨-flagSum facchHFlags r, ?_, by omega⟩
    rw [if_neg (by simp)]
    exact hst
  · exact ⟨0, rfl, by omega⟩

theorem decode2_speech (ds : DecH) (hds : ds.Ok) (out : List Byte) (r : List Int) (odd : Bool) (h : Speech odd r) :
    tchHDecode2 ds out r odd = hrDecodeCB ds out (pick 0 ((List.range 228).map tchHPos) r) := by
  obtain ⟨st, h1, h2⟩ := hrSteal_speech h
  unfold tchHDecode2
  simp only [Option.bind_eq_bind]
  rw [h1, Option.bind_some, if_neg (by omega), tchHrReceive_spec _ _ _ 0 (by simp [hds.x.cB]) (by simp [hds.x.iB]) h.1, Option.bind_some]

theorem hr_bits {d : List Bool} {f : List Byte} (h : Frame 0#8 0 112 (hrUnD d) f) : f.length = 14 ∧ ∀ i < 112, bitAt false f i = (hrUnD d).getD i false := by
  refine ⟨by have := h.1; omega, fun i hi => ?_⟩
  rw [← h.2.2, msbBits_get _ _ _ _ hi, Nat.zero_add]

/-- C108: **a half rate frame comes through.**  It is sent in the even bits of two bursts and the odd bits of the next two, with the stealing
flags clear and nothing else changed.  Received with soft bits of a magnitude of `m` or more at the coded places, of which those against
what was sent sum up to less than 4.5 `m`, it is returned with the 95 most important bits as sent and of the 17 others what was received;
the errors in the coded bits are counted. -/
theorem hr_roundtrip_soft (es : EncH) (hes : es.Ok) (bursts tch : List Byte) (hb : 464 ≤ bursts.length) (ht : 14 ≤ tch.length) :
    ∃ b, tchHEncode es bursts tch 14 = some (0, b) ∧ SentH bursts b ∧
      (∀ i < 112, 95 ≤ hrRank tch i → b.getD (tchHPlain (hrRank tch i)) 0#8 = ubit (bitAt false tch i)) ∧
      ∀ (ds : DecH) (out : List Byte) (r : List Int) (m : Int) (odd : Bool), ds.Ok → 14 ≤ out.length → Speech odd r →
        0 ≤ m → m ≤ 127 → SoftAt tchHClass1 m r → 2 * contra tchHClass1 b r < 9 * m →
        ∃ f, f.length = 14 ∧ (∀ i < 112, bitAt false f i = if hrRank tch i < 95 then bitAt false tch i else hard r (tchHPlain (hrRank tch i))) ∧
          tchHDecode2 ds out r odd = some { rv := 14, data := f ++ out.drop 14, errors := wrong tchHClass1 b r, total := 211 } := by
  obtain ⟨b, b1, b2, b3⟩ := hr_send es hes bursts tch hb ht
  refine ⟨b, ?_, b2, ?_, ?_⟩
  · unfold tchHEncode
    rw [if_neg (by omega), if_pos rfl]
    exact b1
  · intro i hi h2
    obtain ⟨sent, -, -, h⟩ := b3
    rw [h _ h2 (hrRank_lt _ _ hi), hrRank_get _ _ hi]
  · intro ds out r m odd hds ho hsp hm hm' hsoft hc
    obtain ⟨f, g1, g2⟩ := hrDecodeCB_soft ds hds out ho _ (hrD_length _) b b3 r hm hm' hsoft hc
    obtain ⟨l1, l2⟩ := hr_bits g1
    refine ⟨f, l1, fun i hi => ?_, ?_⟩
    · rw [l2 i hi]
      unfold hrUnD
      rw [hrGot_get _ _ _ (by omega), hrGot_get _ _ _ (by omega), if_pos (by omega), if_pos (by omega), (hrD_mode _).1, (hrD_mode _).2,
        msbBits_get _ _ _ _ (by omega), msbBits_get _ _ _ _ (by omega), placed_at (hrTab_ok _ _) _ _ hi]
      show (hrGot _ r).getD (hrRank tch i) false = _
      rw [hrGot_get _ _ _ (hrRank_lt _ _ hi), hrRank_get _ _ hi]
    · rw [decode2_speech ds hds out r odd hsp, g2]

/-- C108: **four wrong bits** of class 1 are always corrected. -/
theorem hr_corrects (es : EncH) (hes : es.Ok) (bursts tch b : List Byte) (hb : 464 ≤ bursts.length) (ht : 14 ≤ tch.length)
    (he : tchHEncode es bursts tch 14 = some (0, b)) (ds : DecH) (hds : ds.Ok) (out : List Byte) (ho : 14 ≤ out.length) (r : List Int) (odd : Bool)
    (hsp : Speech odd r) (hh : ∀ p ∈ tchHClass1, r.getD p 0 = 127 ∨ r.getD p 0 = -127) (hw : wrong tchHClass1 b r ≤ 4) :
    ∃ f, f.length = 14 ∧ (∀ i < 112, bitAt false f i = if hrRank tch i < 95 then bitAt false tch i else hard r (tchHPlain (hrRank tch i))) ∧
      tchHDecode2 ds out r odd = some { rv := 14, data := f ++ out.drop 14, errors := wrong tchHClass1 b r, total := 211 } := by
  obtain ⟨b', e1, -, -, e5⟩ := hr_roundtrip_soft es hes bursts tch hb ht
  rw [he] at e1
  obtain rfl := (Prod.mk.inj (Option.some.inj e1)).2
  refine e5 ds out r 127 odd hds ho hsp (by omega) (by omega) (fun p hp => ?_) ?_
  · rcases hh p hp with h | h <;> rw [h] <;> omega
  · rw [contra_hard _ _ _ hh]; omega

theorem tchH_place_lt (k : Nat) (h : k < 228) : tchHPos k < 464 := by
  have : tchHPos k ∈ tchHData := tchH_perm.mem_iff.1 (List.mem_map.2 ⟨k, List.mem_range.2 h, rfl⟩)
  exact List.mem_range.1 (List.mem_filter.1 this).1

theorem classH_lt (p : Nat) (h : p ∈ tchHClass1) : p < 464 := by
  obtain ⟨k, hk, rfl⟩ := List.mem_map.1 h
  exact tchH_place_lt k (by have := List.mem_range.1 hk; omega)

theorem clean_bound (b : List Byte) (p : Nat) : -127 ≤ (clean b).getD p 0 := by
  by_cases h : p < b.length
  · rw [clean_get _ _ h]; split <;> omega
  · rw [List.getD_eq_getElem?_getD, List.getElem?_eq_none (by simpa [clean] using h)]; simp

/-- whatever the flags of the blocks sent before and after, those of this one are enough -/
theorem clean_speech (bursts b : List Byte) (h : SentH bursts b) (odd : Bool) (hb : 464 ≤ b.length) (h6 : odd = false → 696 ≤ b.length) :
    Speech odd (clean b) := by
  refine ⟨by simpa [clean] using hb, fun ho => ⟨by simpa [clean] using h6 ho, ?_⟩⟩
  have hf : ∀ p ∈ tchHFlags, (clean b).getD p 0 = 127 := by
    intro p hp
    have hl : p < b.length := by
      simp only [tchHFlags, List.mem_cons, List.not_mem_nil, or_false] at hp; omega
    rw [clean_get _ _ hl, List.getD_eq_getElem?_getD, h.flags p hp]
    rfl
  have h1 := hf 58 (by decide)
  have h2 := hf 174 (by decide)
  have h3 := hf 289 (by decide)
  have h4 := hf 405 (by decide)
  have h5 := clean_bound b 290
  have h6 := clean_bound b 406
  have h7 := clean_bound b 521
  have h8 := clean_bound b 637
  simp only [flagSum, facchHFlags, List.map_cons, List.map_nil, List.sum_cons, List.sum_nil]
  omega

/-- C108: **unchanged,** a half rate frame is returned byte for byte, whatever else was sent in the bursts before or after. -/
theorem hr_roundtrip (es : EncH) (hes : es.Ok) (bursts tch : List Byte) (hb : 696 ≤ bursts.length) (ht : tch.length = 14) :
    ∃ b, tchHEncode es bursts tch 14 = some (0, b) ∧ ∀ (ds : DecH) (out : List Byte) (odd : Bool), ds.Ok → 14 ≤ out.length →
      tchHDecode2 ds out (clean b) odd = some { rv := 14, data := tch ++ out.drop 14, errors := 0, total := 211 } := by
  obtain ⟨b, e1, e2, e3, e4⟩ := hr_roundtrip_soft es hes bursts tch (by omega) (by omega)
  have hbl : 696 ≤ b.length := by rw [e2.len]; exact hb
  refine ⟨b, e1, fun ds out odd hds ho => ?_⟩
  have hc : ∀ p ∈ tchHClass1, (clean b).getD p 0 = 127 ∨ (clean b).getD p 0 = -127 := by
    intro p hp
    rw [clean_get _ _ (by have := classH_lt p hp; omega)]
    split
    · exact .inl rfl
    · exact .inr rfl
  have hw := clean_wrong b tchHClass1 (fun p hp => by have := classH_lt p hp; omega)
  obtain ⟨f, g1, g2, g3⟩ := e4 ds out (clean b) 127 odd hds ho (clean_speech bursts b e2 odd (by omega) fun _ => hbl) (by omega) (by omega)
    (fun p hp => by rcases hc p hp with h | h <;> rw [h] <;> omega) (by rw [contra_hard _ _ _ hc, hw]; omega)
  rw [g3, hw]
  have : f = tch := by
    apply ext_msb (by rw [g1, ht])
    intro j
    by_cases h1 : j < 112
    · rw [g2 j h1]
      have hl := hrRank_lt tch j h1
      split
      · rfl
      · refine clean_hard b _ (by have := tchH_place_lt (116 + hrRank tch j) (by omega); unfold tchHPlain; omega) _ ?_
        exact e3 j h1 (by omega)
    · unfold bitAt
      rw [List.getD_eq_getElem?_getD, List.getD_eq_getElem?_getD, List.getElem?_eq_none (by rw [g1]; omega),
        List.getElem?_eq_none (by rw [ht]; omega)]
  rw [this]

/-- C108: **whatever is received** and taken for speech is refused, the buffer being left alone, or the bytes returned are a frame that is
sent as received: it differs only in the coded bits, and there in as many as reported. -/
theorem hr_decode_sound (ds : DecH) (hds : ds.Ok) (out : List Byte) (ho : 14 ≤ out.length) (r : List Int) (odd : Bool) (hsp : Speech odd r)
    (hs : ∀ p ∈ tchHData, -127 ≤ r.getD p 0 ∧ r.getD p 0 ≤ 127) :
    ∃ res, tchHDecode2 ds out r odd = some res ∧ res.total = 211 ∧
      ((res.rv = -1 ∧ res.data = out) ∨
        (res.rv = 14 ∧ ∃ f, f.length = 14 ∧ res.data = f ++ out.drop 14 ∧
          ∀ (es : EncH) (bursts b : List Byte), es.Ok → 464 ≤ bursts.length → tchHEncode es bursts f 14 = some (0, b) →
            res.errors = wrong tchHClass1 b r ∧ ∀ k, 211 ≤ k → k < 228 → b.getD (tchHPos k) 0#8 = ubit (hard r (tchHPos k)))) := by
  rw [decode2_speech ds hds out r odd hsp]
  obtain ⟨res, h1, h2, h3 | ⟨h3, d, f, d1, d2, d3, d4, d5⟩⟩ := hrDecodeCB_any ds hds out ho r hs
  · exact ⟨res, h1, h2, .inl h3⟩
  · refine ⟨res, h1, h2, .inr ⟨h3, f, (hr_bits d2).1, d3, ?_⟩⟩
    intro es bursts b hes hb he
    obtain ⟨b', b1, b2, b3⟩ := hr_send es hes bursts f hb (by rw [(hr_bits d2).1])
    unfold tchHEncode at he
    rw [if_neg (by omega), if_pos rfl] at he
    obtain rfl : b = b' := (Prod.mk.inj (Option.some.inj (he.symm.trans b1))).2
    rw [d2.2.2, hrD_hrUnD _ d1] at b3
    refine ⟨d5 b b3, ?_⟩
    obtain ⟨sent, -, -, b3⟩ := b3
    intro k k1 k2
    have := b3 (k - 116) (by omega) (by omega)
    rw [d4 (k - 116) (by omega) (by omega)] at this
    unfold tchHPlain at this
    rw [show 116 + (k - 116) = k by omega] at this
    exact this

/-- C108: **the prefixed form.**  With 15 bytes, the first is left out: the others are sent as the frame of 14. -/
theorem hr_prefixed (es : EncH) (bursts tch : List Byte) (x : Byte) : tchHEncode es bursts (x :: tch) 15 = tchHEncode es bursts tch 14 := by
  unfold tchHEncode
  rw [if_pos rfl, if_neg (by omega), if_pos rfl]
  rfl

/-- C108: the older decoder returns what the newer one does, except that a frame is preceded by a zero byte. -/
theorem hr_legacy (ds : DecH) (out : List Byte) (r : List Int) (odd : Bool) (res : Decoded) (ho : 15 ≤ res.data.length)
    (h : tchHDecode2 ds out r odd = some res) :
    tchHDecode ds out r odd = some (if res.rv = 14 then { res with rv := 15, data := 0#8 :: (res.data.take 14 ++ res.data.drop 15) } else res) := by
  unfold tchHDecode
  simp only [Option.bind_eq_bind]
  rw [h, Option.bind_some]
  by_cases hr : res.rv = 14
  · rw [if_neg (by omega), if_pos hr, read_zero _ 14 (by omega), Option.bind_some]
    have e1 : writeAt res.data 1 (res.data.take 14) = _ := write_at res.data (res.data.take 14) 1 (by rw [List.length_take]; omega)
    rw [e1, Option.bind_some, write_zero _ _ (by simp; omega), Option.bind_some]
    have hl : 1 + (res.data.take 14).length = 15 := by rw [List.length_take]; omega
    rw [hl]
    have : (List.take 1 res.data ++ List.take 14 res.data ++ List.drop 15 res.data).drop [0#8].length = List.take 14 res.data ++ List.drop 15 res.data := by
      rw [List.append_assoc, List.drop_append_of_le_length (by simp; omega), List.drop_of_length_le (l := List.take 1 res.data) (by simp), List.nil_append]
    rw [this]
    rfl
  · rw [if_pos hr, if_neg hr]

/-- C108: a frame of 23 bytes is sent as a FACCH block (C105) -/
theorem tchH_facch_encode (es : EncH) (bursts tch : List Byte) :
    tchHEncode es bursts tch 23 = (facchHEncode es.x bursts tch).map fun b => (0, b) := by
  unfold tchHEncode facchHEncode
  rw [if_neg (by omega), if_neg (by omega), if_neg (by omega), if_pos rfl]
  cases xcchEncodeCB es.x.conv es.x.cB tch <;> rfl

/-- C108: what is stolen is decoded as a FACCH block (C105) if one can end here -/
theorem tchH_facch_decode (ds : DecH) (hds : ds.Ok) (out : List Byte) (r : List Int) (hr : 696 ≤ r.length) (hf : flagSum facchHFlags r < 0) (e t : Nat) :
    tchHDecode2 ds out r false = facchHDecode ds.x out r e t := by
  have hst := steal_spec facchHFlags r (fun p hp => by
    simp only [facchHFlags, List.mem_cons, List.not_mem_nil, or_false] at hp; omega)
  unfold tchHDecode2 facchHDecode hrSteal
  simp only [Option.bind_eq_bind, Bool.false_eq_true, if_false]
  rw [show ([0, 1, 2, 3].map (fun i => i * 116 + 58) ++ [2, 3, 4, 5].map fun i => i * 116 + 57) = facchHFlags from rfl, hst, Option.bind_some,
    Option.bind_some, if_pos (by omega), if_neg (by omega), facchHReceive_spec _ _ _ 0 hds.x.cB hds.x.iB hr, Option.bind_some, Option.bind_some]
  cases h : xcchDecodeCB ds.x.conv ds.x.recoded out (pick 0 ((List.range 456).map facchHPos) r) with
  | none => rfl
  | some v => rfl

/-- C108: any other length is refused and the bursts are left alone. -/
theorem tchH_length (es : EncH) (bursts tch : List Byte) (len : Int) (h : len ∉ ([0, 14, 15, 23] : List Int)) :
    tchHEncode es bursts tch len = some (-1, bursts) := by
  simp only [List.mem_cons, List.not_mem_nil, or_false, not_or] at h
  unfold tchHEncode
  rw [if_neg h.2.2.1, if_neg h.2.1, if_neg h.1, if_neg h.2.2.2]

/-- C108: **no data.**  What is sent for no data is refused at the other end, with up to four wrong bits in class 1. -/
theorem tchH_no_data (es : EncH) (hes : es.Ok) (bursts tch : List Byte) (hb : 464 ≤ bursts.length) :
    ∃ b, tchHEncode es bursts tch 0 = some (0, b) ∧ SentH bursts b ∧
      ∀ (ds : DecH) (out : List Byte) (r : List Int) (m : Int) (odd : Bool), ds.Ok → 14 ≤ out.length → Speech odd r → 0 ≤ m → m ≤ 127 →
        SoftAt tchHClass1 m r → 2 * contra tchHClass1 b r < 9 * m →
        tchHDecode2 ds out r odd = some { rv := -1, data := out, errors := wrong tchHClass1 b r, total := 211 } := by
  obtain ⟨sent, b, e1, e2, e3, e4, e5, e6, e7⟩ := hrSend_spec es hes bursts hb (List.replicate 98 false) (List.replicate 17 false) List.length_replicate
    List.length_replicate (es.x.cB.drop 228) (es.x.cB.take 211) (by simp [hes.x.cB]) (by simp [hes.x.cB])
  refine ⟨b, ?_, ⟨e3, bits_at tchH_perm e4, e6, e7⟩, ?_⟩
  · unfold tchHEncode
    rw [if_neg (by omega), if_neg (by omega), if_pos rfl]
    have hw : writeAt es.x.cB 211 (List.replicate 17 0#8) = _ := write_at es.x.cB (List.replicate 17 0#8) 211 (by rw [List.length_replicate, hes.x.cB]; omega)
    rw [hw, Option.bind_some, List.length_replicate]
    rw [List.map_replicate, List.map_replicate] at e2
    have e2' : hrSend es bursts (List.replicate 98 0#8) (es.x.cB.take 211 ++ List.replicate 17 0#8 ++ es.x.cB.drop 228) = some b := e2
    rw [show 211 + 17 = 228 from rfl, e2']
    rfl
  · intro ds out r m odd hds ho hsp hm hm' hsoft hc
    rw [splitH, List.map_append] at e4
    have e4 := (List.append_inj e4 (by simp [pick, tchHClass1, e5])).1
    obtain ⟨w1, w2⟩ := soft_pick (List.Perm.refl _) hsoft
    obtain ⟨-, h⟩ := decodeBer_corrects tchHr_channel (List.replicate 98 false) sent (pick 0 tchHClass1 r)
      ((List.range 17).map fun i => r.getD (tchHPlain (95 + i)) 0) ds.conv ds.x.recoded List.length_replicate e1 (by simp [pick, tchHClass1]) w1 hm w2
      (by rw [against_pick b r _ sent e4]; push_cast; omega)
      (by rw [against_pick b r _ sent e4]; show _ < 127 * ((3 : Nat) : Int) * ((7 : Nat) : Int); omega) (by rw [hds.conv]; decide)
      (by rw [hds.x.recoded]; decide)
    rw [← splitH, List.drop_of_length_le (l := ds.conv) (by rw [hds.conv]; decide), List.append_nil, errorsIn_pick b r _ sent e4] at h
    obtain ⟨f, f1, f2⟩ := hrDecodeCB_of ds hds out ho r (List.replicate 98 false) List.length_replicate _ _ h
    rw [decode2_speech ds hds out r odd hsp, f2, if_neg]
    rw [hrP_got (List.replicate 112 false) _ _ List.length_replicate (fun j hj => by
      rw [List.getD_eq_getElem?_getD, List.getD_eq_getElem?_getD, List.getElem?_replicate, List.getElem?_replicate, if_pos (by omega), if_pos (by omega)])]
    decide +kernel

end Verif.Tch
