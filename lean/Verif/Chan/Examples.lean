import Verif.Chan.Burst
/-! Examples for C105 and C106. -/
namespace Verif.Chan
open Verif.Conv Verif.ConvAcc Verif.Interleave

def exEnc (n : Nat) : EncStack := ⟨List.replicate 224 7#8, List.replicate 456 0#8, List.replicate n 9#8⟩
def exDec (n : Nat) : DecStack := ⟨List.replicate 224 7#8, List.replicate 1836 3#8, List.replicate 456 0, List.replicate n 9⟩

theorem exEnc_ok (n : Nat) : (exEnc n).Ok n := ⟨List.length_replicate, List.length_replicate, List.length_replicate⟩
theorem exDec_ok (n : Nat) : (exDec n).Ok n :=
  ⟨List.length_replicate, List.length_replicate, List.length_replicate, List.length_replicate⟩

def exMsg : List Byte := 3#8 :: List.replicate 22 0x2b#8

/-- bursts as received, with wrong bits at some places -/
def received (places : List Nat) (b : List Byte) : List Int :=
  (List.range b.length).map fun p => if (b.getD p 0#8 = 0#8) = (p ∉ places) then 127 else -127

theorem received_length (places : List Nat) (b : List Byte) : (received places b).length = b.length := by simp [received]

theorem received_at (places : List Nat) (b : List Byte) (p : Nat) (h : p < b.length) :
    (received places b).getD p 0 = if (b.getD p 0#8 = 0#8) = (p ∉ places) then 127 else -127 := by
  simp [received, h]

theorem received_hard (places : List Nat) (b : List Byte) (p : Nat) (h : p < b.length) :
    (received places b).getD p 0 = 127 ∨ (received places b).getD p 0 = -127 := by
  rw [received_at places b p h]
  split
  · exact .inl rfl
  · exact .inr rfl

theorem received_wrong (places data : List Nat) (b : List Byte) (h : ∀ p ∈ data, p < b.length) :
    wrong data b (received places b) = (data.filter fun p => decide (p ∈ places)).length := by
  unfold wrong
  congr 1
  apply List.filter_congr
  intro p hp
  rw [received_at places b p (h p hp)]
  generalize b.getD p 0#8 = y
  by_cases h1 : y = 0#8 <;> by_cases h2 : p ∈ places <;> simp [h1, h2, Says]

/-- three wrong bits and a wrong flag -/
example : ∃ b, xcchEncode (exEnc 456) (List.replicate 464 5#8) exMsg = some b ∧
    xcchDecode (exDec 456) [1#8, 1#8, 1#8, 1#8, 1#8, 1#8, 1#8, 1#8, 1#8, 1#8, 1#8, 1#8, 1#8, 1#8, 1#8, 1#8, 1#8, 1#8, 1#8, 1#8, 1#8, 1#8, 1#8,
      8#8, 9#8] (received [0, 57, 200, 463] b) = some { rv := 0, data := exMsg ++ [8#8, 9#8], errors := 3, total := 456 } := by
  obtain ⟨b, hb, hl, -⟩ := xcch_roundtrip_soft (exEnc 456) (exEnc_ok 456) (List.replicate 464 5#8) exMsg List.length_replicate rfl
  refine ⟨b, hb, ?_⟩
  have hd : ∀ p ∈ xcchData, p < b.length := fun p hp => by
    rw [hl]; exact List.mem_range.1 (List.mem_filter.1 hp).1
  have hw : wrong xcchData b (received [0, 57, 200, 463] b) = 3 := by
    rw [received_wrong _ _ _ hd]
    decide +kernel
  rw [xcch_corrects (exEnc 456) (exEnc_ok 456) _ exMsg b List.length_replicate rfl hb (exDec 456) (exDec_ok 456) _ (by decide)
    (received [0, 57, 200, 463] b) (by rw [received_length, hl]) (fun p hp => received_hard _ _ _ (hd p hp)) (by omega), hw]
  rfl

/-- two wrong bits, three wrong flags of the eight -/
example : ∃ b, facchFEncode (exEnc 912) (List.replicate 928 0#8) exMsg = some b ∧
    facchFDecode (exDec 912) (List.replicate 23 0#8) (received [0, 58, 174, 465, 521] b) 8 9 =
      some { rv := 23, data := exMsg ++ (List.replicate 23 0#8).drop 23, errors := 2, total := 456 } := by
  obtain ⟨b, hb, hl, -, hf, -⟩ := facchF_roundtrip_soft (exEnc 912) (exEnc_ok 912) (List.replicate 928 0#8) exMsg
    (by rw [List.length_replicate]) rfl
  rw [List.length_replicate] at hl
  refine ⟨b, hb, ?_⟩
  have hd : ∀ p ∈ tchFData, p < b.length := fun p hp => by
    rw [hl]; exact List.mem_range.1 (List.mem_filter.1 hp).1
  have hw : wrong tchFData b (received [0, 58, 174, 465, 521] b) = 2 := by
    rw [received_wrong _ _ _ hd]
    decide +kernel
  have hfl : flagSum tchFFlags (received [0, 58, 174, 465, 521] b) < 0 := by
    have hfp : ∀ p ∈ tchFFlags, p < b.length ∧ b.getD p 0#8 = 1#8 := by
      intro p hp
      have h1 := hf p hp
      have h2 : p < b.length := (List.getElem?_eq_some_iff.1 h1).1
      exact ⟨h2, by rw [List.getD_eq_getElem?_getD, h1]; rfl⟩
    have he : tchFFlags.map (fun p => (received [0, 58, 174, 465, 521] b).getD p 0) =
        tchFFlags.map fun p => if p ∈ [0, 58, 174, 465, 521] then 127 else -127 := by
      apply List.map_congr_left
      intro p hp
      rw [received_at _ _ _ (hfp p hp).1, (hfp p hp).2]
      by_cases h : p ∈ [0, 58, 174, 465, 521]
      · rw [if_pos h, if_pos (by simp [h])]
      · rw [if_neg h, if_neg (by simp [h])]
    unfold flagSum
    rw [he]
    decide
  rw [facchF_corrects (exEnc 912) (exEnc_ok 912) _ exMsg b (by rw [List.length_replicate]) rfl hb (exDec 912) (exDec_ok 912)
    (List.replicate 23 0#8) (by decide) (received [0, 58, 174, 465, 521] b) (by rw [received_length, hl])
    (fun p hp => received_hard _ _ _ (hd p hp)) (by omega) hfl 8 9, hw]

/-- nothing stolen -/
example : facchHDecode (exDec 912) (List.replicate 23 0#8) (List.replicate 696 100) 8 9 =
    some { rv := -1, data := List.replicate 23 0#8, errors := 8, total := 9 } :=
  (facchH_decode_sound (exDec 912) (exDec_ok 912) _ (by decide) _ (by rw [List.length_replicate]) (by decide +kernel) 8 9).1
    (by decide +kernel)

/-- the access burst of TS 05.03 for 0x13 and BSIC 0x15 -/
example : rachEncode (List.replicate 17 0#8) (List.replicate 36 0#8) 0x13#8 0x15#8 = some ([1, 1, 1, 0, 0, 1, 1, 1, 1, 1, 1, 0, 0, 0, 1, 1, 0,
    0, 0, 1, 0, 0, 1, 1, 0, 0, 0, 1, 0, 0, 1, 1, 1, 1, 0, 0].map (BitVec.ofNat 8)) := by decide +kernel

/-- two wrong bits in an 11 bit access burst; for another cell it is refused -/
example : ∃ b, rachExtEncode (List.replicate 17 0#8) (List.replicate 36 0#8) 0x5a5#16 0x3f#8 true = some b ∧
    rachDecode (List.replicate 17 7#8) (List.replicate 1836 3#8) (received [3, 30] b) 0xff#8 true = some (0x5a5, 2, 36) ∧
    rachDecode (List.replicate 17 7#8) (List.replicate 1836 3#8) (received [3, 30] b) 0x3e#8 true = some (-1, 2, 36) := by
  obtain ⟨b, hb, hl, -⟩ := rach_roundtrip_soft (List.replicate 17 0#8) (List.replicate 36 0#8) 0x5a5#16 0x3f#8 true List.length_replicate
    (by decide)
  rw [List.length_replicate] at hl
  have hw : wrong (List.range 36) b (received [3, 30] b) = 2 := by
    rw [received_wrong _ _ _ fun p hp => by rw [hl]; exact List.mem_range.1 hp]
    decide
  have key := fun x => rach_corrects _ _ b 0x5a5#16 0x3f#8 true List.length_replicate (by decide) hb (List.replicate 17 7#8)
    (List.replicate 1836 3#8) List.length_replicate List.length_replicate (received [3, 30] b) (by rw [received_length]; omega)
    (fun p hp => received_hard _ _ _ (by omega)) (by rw [hw]; decide) x
  refine ⟨b, hb, ?_⟩
  rw [key, key, hw]
  exact ⟨rfl, rfl⟩

/-- the seven high bits of the last byte are kept -/
example : ∃ b o, schEncode (List.replicate 35 0#8) (List.replicate 78 0#8) [0x12#8, 0x34#8, 0x56#8, 1#8] = some b ∧
    schDecode (List.replicate 35 7#8) [0#8, 0#8, 0#8, 0xaa#8] (received [3, 30, 77] b) = some (0, o) ∧
    Merged 25 [0x12#8, 0x34#8, 0x56#8, 1#8] [0#8, 0#8, 0#8, 0xaa#8] o := by
  obtain ⟨b, hb, hl, -⟩ := sch_roundtrip_soft (List.replicate 35 0#8) (List.replicate 78 0#8) [0x12#8, 0x34#8, 0x56#8, 1#8]
    List.length_replicate (by rw [List.length_replicate]) rfl
  rw [List.length_replicate] at hl
  have hw : wrong (List.range 78) b (received [3, 30, 77] b) = 3 := by
    rw [received_wrong _ _ _ fun p hp => by rw [hl]; exact List.mem_range.1 hp]
    decide
  obtain ⟨o, ho, hm⟩ := sch_corrects _ _ _ b List.length_replicate (by rw [List.length_replicate]) rfl hb (List.replicate 35 7#8)
    [0#8, 0#8, 0#8, 0xaa#8] List.length_replicate (by decide) (received [3, 30, 77] b) (by rw [received_length]; omega)
    (fun p hp => received_hard _ _ _ (by omega)) (by omega)
  exact ⟨b, o, hb, ho, hm⟩

end Verif.Chan
