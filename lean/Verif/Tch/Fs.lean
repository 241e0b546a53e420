import Verif.Tch.Full
/-!
C107: TCH/FS.
-/
namespace Verif.Tch
open Verif.Conv Verif.ConvAcc Verif.Interleave Verif.Chan

/-- a frame of 33 bytes: `f` has the signature `0xd`, and its bits, `bit i` each -/
structure FrFrame (bit : Nat → Bool) (f : List Byte) : Prop where
  len : f.length = 33
  sig : (f.getD 0 0#8).toNat / 16 = 0xd
  bits : ∀ i < 260, bitAt false f (4 + i) = bit i

theorem nibble (x : Byte) : x.toNat / 16 = 8 * (x.getLsbD 7).toNat + 4 * (x.getLsbD 6).toNat + 2 * (x.getLsbD 5).toNat + (x.getLsbD 4).toNat := by
  have : ∀ x : BitVec 8, x.toNat / 16 = 8 * (x.getLsbD 7).toNat + 4 * (x.getLsbD 6).toNat + 2 * (x.getLsbD 5).toNat + (x.getLsbD 4).toNat := by
    decide
  exact this x

theorem sig_of (nib : Byte) (f : List Byte) (h : msbBits 0 4 f = msbBits 0 4 [nib]) : (f.getD 0 0#8).toNat / 16 = nib.toNat / 16 := by
  have hb : ∀ i < 4, bitAt false f i = bitAt false [nib] i := by
    intro i hi
    have := congrArg (fun l => l.getD i false) h
    simp only [msbBits_get _ _ _ _ hi, Nat.zero_add] at this
    exact this
  have h0 : (f.getD 0 0#8).getLsbD 7 = nib.getLsbD 7 := hb 0 (by omega)
  have h1 : (f.getD 0 0#8).getLsbD 6 = nib.getLsbD 6 := hb 1 (by omega)
  have h2 : (f.getD 0 0#8).getLsbD 5 = nib.getLsbD 5 := hb 2 (by omega)
  have h3 : (f.getD 0 0#8).getLsbD 4 = nib.getLsbD 4 := hb 3 (by omega)
  rw [nibble, nibble nib, h0, h1, h2, h3]

theorem nibble_bit (x y : Byte) (h : x.toNat / 16 = y.toNat / 16) (k : Nat) : x.getLsbD (4 + k) = y.getLsbD (4 + k) := by
  have hx : (x.toNat / 2 ^ 4).testBit k = x.toNat.testBit (k + 4) := Nat.testBit_div_two_pow x.toNat k
  have hy : (y.toNat / 2 ^ 4).testBit k = y.toNat.testBit (k + 4) := Nat.testBit_div_two_pow y.toNat k
  rw [show 2 ^ 4 = 16 from rfl] at hx hy
  rw [h, hy] at hx
  rw [Nat.add_comm]
  exact hx.symm

theorem high_bits (f g : List Byte) (h : (f.getD 0 0#8).toNat / 16 = (g.getD 0 0#8).toNat / 16) (j : Nat) (hj : j < 4) :
    bitAt false f j = bitAt false g j := by
  have := nibble_bit _ _ h (3 - j)
  obtain rfl | rfl | rfl | rfl : j = 0 ∨ j = 1 ∨ j = 2 ∨ j = 3 := by omega
  all_goals exact this

theorem FrFrame.of {bits : List Bool} {f : List Byte} (h : Frame 0xd0#8 4 260 bits f) : FrFrame (fun i => bits.getD i false) f where
  len := by have := h.1; omega
  sig := sig_of _ _ h.2.1
  bits := by
    intro i hi
    rw [← h.2.2, msbBits_get _ _ _ _ hi]

/-- C107: **TCH/FS.**  A frame of 33 bytes (the first four bits do not matter) is encoded to eight bursts, with the stealing flags clear
and no other places written.  The bits of rank 182 and more are sent as they are.  From soft bits that speak against the coded bits of
class 1 by less than 7/2 of the weakest one, the flags, taken together, not saying stolen, a frame of 33 bytes with signature `0xd` comes
back: the 182 more important bits are those sent, the others as received.  The errors counted are those of class 1. -/
theorem fr_roundtrip_soft (es : EncF) (hes : es.Ok) (map : List Nat) (net : Bool) (hmap : Readable net map) (bursts tch : List Byte)
    (hb : 928 ≤ bursts.length) (ht : 33 ≤ tch.length) :
    ∃ b, tchFEncode map es bursts tch 33 net = some (0, b) ∧ Sent 0#8 bursts b ∧
      (∀ i < 260, 182 ≤ frRank net i → b.getD (tchFPlain (frRank net i)) 0#8 = ubit (bitAt false tch (4 + i))) ∧
      ∀ (ds : DecF) (map' : List Nat) (out : List Byte) (r : List Int) (m : Int), ds.Ok → Readable net map' → 33 ≤ out.length → 928 ≤ r.length →
        0 ≤ m → m ≤ 127 → SoftAt tchFClass1 m r → 2 * contra tchFClass1 b r < 7 * m → 0 ≤ flagSum tchFFlags r →
        ∃ f, FrFrame (fun i => if frRank net i < 182 then bitAt false tch (4 + i) else hard r (tchFPlain (frRank net i))) f ∧
          tchFDecode map' ds out r net false = some { rv := 33, data := f ++ out.drop 33, errors := wrong tchFClass1 b r, total := 378 } := by
  obtain ⟨b, b1, b2, b3⟩ := frCode_send es hes (frD net (msbBits 4 260 tch)) (frD_length _ _) es.p hes.p bursts hb
  have hget : ∀ i < 260, (frD net (msbBits 4 260 tch)).getD (frRank net i) false = bitAt false tch (4 + i) := by
    intro i hi
    rw [← frUnD_get _ _ _ hi, frUnD_frD _ _ (msbBits_length _ _ _), msbBits_get _ _ _ _ hi]
  refine ⟨b, ?_, b2, ?_, ?_⟩
  · unfold tchFEncode
    rw [if_neg (by omega), if_pos rfl, frToD_spec map es hes tch net hmap ht, Option.bind_some]
    exact b1
  · intro i hi h2
    obtain ⟨sent, -, -, h⟩ := b3
    rw [h _ h2 (frRank_lt _ _ hi), hget i hi]
  · intro ds map' out r m hds hmap' ho hr hm hm' hsoft hc hf
    obtain ⟨fl, f1, f2⟩ := flags_spec r hr
    obtain ⟨f, g1, g2⟩ := frFromD_spec map' ds hds out net hmap' ho (frGot (frD net (msbBits 4 260 tch)) r) (frGot_length _ _)
    refine ⟨f, ?_, ?_⟩
    · have := FrFrame.of g1
      refine ⟨this.len, this.sig, fun i hi => ?_⟩
      rw [this.bits i hi, frUnD_get _ _ _ hi, frGot_get _ _ _ (frRank_lt _ _ hi), hget i hi]
    · unfold tchFDecode
      simp only [Option.bind_eq_bind]
      rw [f1, Option.bind_some, tchFrReceive_spec _ _ _ 0 hds.x.cB hds.x.iB hr, Option.bind_some, if_neg (by omega),
        frDecodeD_soft ds hds _ (frD_length _ _) b b3 r hm hm' hsoft hc, Option.bind_some]
      dsimp only
      rw [if_neg (by simp), if_neg (by simp), g2]
      rfl

/-- C107: **three wrong bits** of class 1 are always corrected. -/
theorem fr_corrects (es : EncF) (hes : es.Ok) (map : List Nat) (net : Bool) (hmap : Readable net map) (bursts tch b : List Byte)
    (hb : 928 ≤ bursts.length) (ht : 33 ≤ tch.length) (he : tchFEncode map es bursts tch 33 net = some (0, b)) (ds : DecF) (hds : ds.Ok)
    (out : List Byte) (ho : 33 ≤ out.length) (r : List Int) (hr : 928 ≤ r.length)
    (hh : ∀ p ∈ tchFClass1, r.getD p 0 = 127 ∨ r.getD p 0 = -127) (hw : wrong tchFClass1 b r ≤ 3) (hf : 0 ≤ flagSum tchFFlags r) :
    ∃ f, FrFrame (fun i => if frRank net i < 182 then bitAt false tch (4 + i) else hard r (tchFPlain (frRank net i))) f ∧
      tchFDecode map ds out r net false = some { rv := 33, data := f ++ out.drop 33, errors := wrong tchFClass1 b r, total := 378 } := by
  obtain ⟨b', e1, -, -, e5⟩ := fr_roundtrip_soft es hes map net hmap bursts tch hb ht
  rw [he] at e1
  obtain rfl := (Prod.mk.inj (Option.some.inj e1)).2
  refine e5 ds map out r 127 hds hmap ho hr (by omega) (by omega) (fun p hp => ?_) ?_ hf
  · rcases hh p hp with h | h <;> rw [h] <;> omega
  · rw [contra_hard _ _ _ hh]; omega

/-- the bits as sent, as soft bits -/
def clean (b : List Byte) : List Int := b.map fun x => if x = 0#8 then 127 else -127

theorem clean_get (b : List Byte) (p : Nat) (h : p < b.length) : (clean b).getD p 0 = if b.getD p 0#8 = 0#8 then 127 else -127 := by
  simp [clean, List.getD_eq_getElem?_getD, h]

theorem clean_hard (b : List Byte) (p : Nat) (h : p < b.length) (x : Bool) (hx : b.getD p 0#8 = ubit x) : hard (clean b) p = x := by
  unfold hard
  rw [clean_get _ _ h, hx]
  cases x <;> decide

theorem clean_wrong (b : List Byte) (places : List Nat) (h : ∀ p ∈ places, p < b.length) : wrong places b (clean b) = 0 := by
  induction places with
  | nil => rfl
  | cons p ps ih =>
    rw [wrong_cons, ih fun q hq => h q (by simp [hq]), clean_get _ _ (h p (by simp))]
    generalize b.getD p 0#8 = y
    by_cases hz : y = 0#8
    · have hd : decide (y ≠ 0#8) = false := by simpa using hz
      rw [hd, if_pos hz]; simp [Says]
    · have hd : decide (y ≠ 0#8) = true := by simpa using hz
      rw [hd, if_neg hz]; simp [Says]

theorem tchF_place_lt (k : Nat) : tchFPos k < 928 := by
  unfold tchFPos mid
  split <;> omega

theorem class1_lt (p : Nat) (h : p ∈ tchFClass1) : p < 928 := by
  obtain ⟨k, -, rfl⟩ := List.mem_map.1 h
  exact tchF_place_lt k

theorem clean_flags (b : List Byte) (h : 928 ≤ b.length) (hf : ∀ p ∈ tchFFlags, b[p]? = some 0#8) : flagSum tchFFlags (clean b) = 1016 := by
  have : ∀ p ∈ tchFFlags, (clean b).getD p 0 = 127 := by
    intro p hp
    have hl : p < b.length := by
      simp only [tchFFlags, List.mem_cons, List.not_mem_nil, or_false] at hp; omega
    rw [clean_get _ _ hl, List.getD_eq_getElem?_getD, hf p hp]
    rfl
  unfold flagSum
  rw [List.map_congr_left this]
  rfl

/-- C107: without errors the frame comes back, with signature `0xd`. -/
theorem fr_roundtrip (es : EncF) (hes : es.Ok) (map : List Nat) (net : Bool) (hmap : Readable net map) (bursts tch : List Byte)
    (hb : 928 ≤ bursts.length) (ht : tch.length = 33) (hsig : (tch.getD 0 0#8).toNat / 16 = 0xd) :
    ∃ b, tchFEncode map es bursts tch 33 net = some (0, b) ∧ ∀ (ds : DecF) (out : List Byte), ds.Ok → 33 ≤ out.length →
      tchFDecode map ds out (clean b) net false = some { rv := 33, data := tch ++ out.drop 33, errors := 0, total := 378 } := by
  obtain ⟨b, e1, e2, e3, e4⟩ := fr_roundtrip_soft es hes map net hmap bursts tch hb (by omega)
  have hbl : 928 ≤ b.length := by rw [e2.len]; exact hb
  refine ⟨b, e1, fun ds out hds ho => ?_⟩
  have hc : ∀ p ∈ tchFClass1, (clean b).getD p 0 = 127 ∨ (clean b).getD p 0 = -127 := by
    intro p hp
    rw [clean_get _ _ (by have := class1_lt p hp; omega)]
    split
    · exact .inl rfl
    · exact .inr rfl
  have hw := clean_wrong b tchFClass1 (fun p hp => by have := class1_lt p hp; omega)
  obtain ⟨f, g1, g2⟩ := e4 ds map out (clean b) 127 hds hmap ho (by simpa [clean] using hbl) (by omega) (by omega)
    (fun p hp => by rcases hc p hp with h | h <;> rw [h] <;> omega) (by rw [contra_hard _ _ _ hc, hw]; omega)
    (by rw [clean_flags b hbl e2.flags]; omega)
  rw [g2, hw]
  have : f = tch := by
    apply ext_msb (by rw [g1.len, ht])
    intro j
    by_cases h1 : j < 264
    · by_cases h2 : j < 4
      · exact high_bits f tch (by rw [g1.sig, hsig]) j h2
      · have h3 := g1.bits (j - 4) (by omega)
        rw [show 4 + (j - 4) = j by omega] at h3
        rw [h3]
        split
        · rfl
        · rename_i h4
          refine clean_hard b _ (by have := tchF_place_lt (196 + frRank net (j - 4)); unfold tchFPlain; omega) _ ?_
          have := e3 (j - 4) (by omega) (by omega)
          rw [show 4 + (j - 4) = j by omega] at this
          exact this
    · unfold bitAt
      rw [List.getD_eq_getElem?_getD, List.getD_eq_getElem?_getD, List.getElem?_eq_none (by rw [g1.len]; omega),
        List.getElem?_eq_none (by rw [ht]; omega)]
  rw [this]

/-- C107: **whatever is received** and not stolen is refused, the buffer being left alone, or the bytes returned are a frame that is sent as
received: it differs from it only in class 1, and there in as many bits as reported. -/
theorem fr_decode_sound (ds : DecF) (hds : ds.Ok) (map : List Nat) (net : Bool) (hmap : Readable net map) (out : List Byte)
    (ho : 33 ≤ out.length) (r : List Int) (hr : 928 ≤ r.length) (hs : ∀ p ∈ tchFData, -127 ≤ r.getD p 0 ∧ r.getD p 0 ≤ 127)
    (hf : 0 ≤ flagSum tchFFlags r) :
    ∃ res, tchFDecode map ds out r net false = some res ∧ res.total = 378 ∧
      ((res.rv = -1 ∧ res.data = out) ∨
        (res.rv = 33 ∧ ∃ f, f.length = 33 ∧ (f.getD 0 0#8).toNat / 16 = 0xd ∧ res.data = f ++ out.drop 33 ∧
          ∀ (es : EncF) (map' : List Nat) (bursts b : List Byte), es.Ok → Readable net map' → 928 ≤ bursts.length →
            tchFEncode map' es bursts f 33 net = some (0, b) →
            res.errors = wrong tchFClass1 b r ∧ ∀ k, 378 ≤ k → k < 456 → b.getD (tchFPos k) 0#8 = ubit (hard r (tchFPos k)))) := by
  obtain ⟨fl, f1, f2⟩ := flags_spec r hr
  unfold tchFDecode
  simp only [Option.bind_eq_bind]
  rw [f1, Option.bind_some, tchFrReceive_spec _ _ _ 0 hds.x.cB hds.x.iB hr, Option.bind_some, if_neg (by omega)]
  rcases frDecodeD_any ds hds r hs with ⟨d, p, e, h⟩ | ⟨d, e, h1, h2, h3, h4⟩
  · rw [h, Option.bind_some]
    dsimp only
    rw [if_pos (by decide)]
    exact ⟨_, rfl, rfl, .inl ⟨rfl, rfl⟩⟩
  · obtain ⟨f, g1, g2⟩ := frFromD_spec map ds hds out net hmap ho d h1
    rw [h3, Option.bind_some]
    dsimp only
    rw [if_neg (by simp), if_neg (by simp), g2]
    have gf := FrFrame.of g1
    refine ⟨_, rfl, rfl, .inr ⟨rfl, f, gf.len, gf.sig, rfl, ?_⟩⟩
    intro es map' bursts b hes hmap' hb he
    obtain ⟨b', b1, -, b3⟩ := frCode_send es hes (frD net (msbBits 4 260 f)) (frD_length _ _) es.p hes.p bursts hb
    unfold tchFEncode at he
    rw [if_neg (by omega), if_pos rfl, frToD_spec map' es hes f net hmap' (by rw [gf.len]), Option.bind_some] at he
    obtain rfl : b = b' := (Prod.mk.inj (Option.some.inj (he.symm.trans b1))).2
    have hd : frD net (msbBits 4 260 f) = d := by
      rw [g1.2.2, frD_frUnD _ _ h1]
    rw [hd] at b3
    refine ⟨h4 d b h1 (fun _ _ => rfl) b3, ?_⟩
    obtain ⟨sent, -, -, b3⟩ := b3
    intro k k1 k2
    have := b3 (k - 196) (by omega) (by omega)
    rw [h2 (k - 196) (by omega) (by omega)] at this
    unfold tchFPlain at this
    rw [show 196 + (k - 196) = k by omega] at this
    exact this

/-- C107: in the order of the codec (`net_order` 0), the element behind the table of the widths of the parameters is read: without one,
the behaviour is not defined, whatever the frame. -/
theorem fr_native_overread_counterexample (es : EncF) (bursts tch : List Byte) :
    tchFEncode frMap es bursts tch 33 false = none := by
  unfold tchFEncode frToD frDisassemble
  rw [if_neg (by omega), if_pos rfl]
  simp only [Bool.false_eq_true, if_false, Option.bind_eq_bind, frIndices_exact, Option.bind_none]
  cases unpackMsb 260 4 tch (List.replicate 260 0#8) <;> rfl

/-! ### C107: FACCH, no data and other lengths -/

/-- C107: 23 bytes are sent as a FACCH/F block. -/
theorem tchF_facch_encode (map : List Nat) (es : EncF) (bursts tch : List Byte) (net : Bool) :
    tchFEncode map es bursts tch 23 net = (facchFEncode es.x bursts tch).map fun b => (0, b) := by
  unfold tchFEncode facchFEncode
  rw [if_neg (by omega), if_neg (by omega), if_neg (by omega), if_pos rfl]
  cases xcchEncodeCB es.x.conv es.x.cB tch <;> rfl

/-- C107: if the flags say stolen, what is received is decoded as a FACCH/F block. -/
theorem tchF_facch_decode (map : List Nat) (ds : DecF) (hds : ds.Ok) (out : List Byte) (r : List Int) (hr : 928 ≤ r.length) (net efr : Bool)
    (hf : flagSum tchFFlags r < 0) (e t : Nat) : tchFDecode map ds out r net efr = facchFDecode ds.x out r e t := by
  obtain ⟨fl, f1, f2⟩ := flags_spec r hr
  have hst := steal_spec tchFFlags r (fun p hp => by
    simp only [tchFFlags, List.mem_cons, List.not_mem_nil, or_false] at hp; omega)
  unfold tchFDecode facchFDecode
  simp only [Option.bind_eq_bind]
  rw [f1, Option.bind_some, tchFrReceive_spec _ _ _ 0 hds.x.cB hds.x.iB hr, Option.bind_some, if_pos (by omega),
    show ([0, 1, 2, 3].map (fun i => i * 116 + 58) ++ [4, 5, 6, 7].map fun i => i * 116 + 57) = tchFFlags from rfl, hst, Option.bind_some,
    if_neg (by omega), Option.bind_some]
  cases h : xcchDecodeCB ds.x.conv ds.x.recoded out (pick 0 ((List.range 456).map tchFPos) r) with
  | none => rfl
  | some v =>
    rfl

/-- C107: any other length is refused and the bursts are left alone. -/
theorem tchF_length (map : List Nat) (es : EncF) (bursts tch : List Byte) (len : Int) (net : Bool) (h : len ∉ ([0, 23, 31, 33] : List Int)) :
    tchFEncode map es bursts tch len net = some (-1, bursts) := by
  simp only [List.mem_cons, List.not_mem_nil, or_false, not_or] at h
  unfold tchFEncode
  rw [if_neg h.2.2.1, if_neg h.2.2.2, if_neg h.1, if_neg h.2.1]

theorem frNoData_spec (s : EncF) (hs : s.Ok) :
    ∃ sent, encode tchFrCode (List.replicate 185 false) = some sent ∧ sent.length = 378 ∧
      frNoData s = some ((sent ++ List.replicate 78 false).map ubit) := by
  obtain ⟨sent, he, hl⟩ := tchFr_channel.enc (List.replicate 185 false) List.length_replicate
  refine ⟨sent, he, hl, ?_⟩
  have htl : (s.x.cB.take 378).length = 378 := by rw [List.length_take, hs.x.cB]; decide
  have hw := write_tail (s.x.cB.take 378) (s.x.cB.drop 378) (List.replicate 78 0#8) (by rw [List.length_replicate, List.length_drop, hs.x.cB])
  rw [List.take_append_drop, htl] at hw
  have hw' : writeAt s.x.cB 378 (List.replicate 78 0#8) = some (s.x.cB.take 378 ++ List.replicate 78 0#8) := hw
  have hc := convEncode_spec tchFrCode (List.replicate 185 false) sent [] (s.x.cB.take 378 ++ List.replicate 78 0#8) List.length_replicate he
    (by rw [List.length_append, htl, hl]; omega)
  rw [List.append_nil, List.map_replicate] at hc
  unfold frNoData
  simp only [Option.bind_eq_bind]
  rw [hw', Option.bind_some, show List.replicate 185 0#8 = List.replicate 185 (ubit false) from rfl, hc, Option.bind_some, hl,
    List.drop_append_of_le_length (by omega), List.drop_of_length_le (by omega), List.nil_append, List.map_append, List.map_replicate]
  rfl

/-- C107: **no data.**  What is sent for no data is refused at the other end, as FR and as EFR, with up to three wrong bits in class 1. -/
theorem tchF_no_data (map : List Nat) (es : EncF) (hes : es.Ok) (bursts tch : List Byte) (net : Bool) (hb : 928 ≤ bursts.length) :
    ∃ b, tchFEncode map es bursts tch 0 net = some (0, b) ∧ Sent 0#8 bursts b ∧
      ∀ (ds : DecF) (map' : List Nat) (out : List Byte) (r : List Int) (m : Int) (net' efr : Bool), ds.Ok → 928 ≤ r.length → 0 ≤ m → m ≤ 127 →
        SoftAt tchFClass1 m r → 2 * contra tchFClass1 b r < 7 * m → 0 ≤ flagSum tchFFlags r →
        tchFDecode map' ds out r net' efr = some { rv := -1, data := out, errors := wrong tchFClass1 b r, total := 378 } := by
  obtain ⟨sent, e1, e2, e3⟩ := frNoData_spec es hes
  obtain ⟨b, b1, b2, b3⟩ := send_bits 0#8 es.x.iB bursts (sent ++ List.replicate 78 false) hes.x.iB
    (by rw [List.length_append, List.length_replicate, e2]) hb
  rw [pick_split, List.map_append] at b3
  have b3 := (List.append_inj b3 (by simp [pick, tchFClass1, e2])).1
  refine ⟨b, ?_, b2, ?_⟩
  · unfold tchFEncode
    rw [if_neg (by omega), if_neg (by omega), if_pos rfl, e3, Option.bind_some, b1]
    rfl
  · intro ds map' out r m net' efr hds hr hm hm' hsoft hc hf
    obtain ⟨fl, f1, f2⟩ := flags_spec r hr
    obtain ⟨w1, w2⟩ := soft_pick (List.Perm.refl _) hsoft
    have hp : ((List.replicate 185 false).drop 91).take 3 ≠ frP (unU (List.replicate 185 false)) := by decide +kernel
    unfold tchFDecode
    simp only [Option.bind_eq_bind]
    rw [f1, Option.bind_some, tchFrReceive_spec _ _ _ 0 hds.x.cB hds.x.iB hr, Option.bind_some, if_neg (by omega), pick_split,
      frDecodeD_corrects ds hds _ _ (by simp [pick, tchFClass1]) (by simp) w1 (List.replicate 185 false) sent List.length_replicate e1 hm hm'
        w2 (by rw [against_pick b r _ sent b3]; exact hc), if_neg hp, Option.bind_some]
    dsimp only
    rw [if_pos (by decide), errorsIn_pick b r _ sent b3]

end Verif.Tch
