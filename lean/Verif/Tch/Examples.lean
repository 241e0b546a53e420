import Verif.Tch.Std
import Verif.Chan.Examples
/-! Examples for C107 and C108. -/
namespace Verif.Tch
open Verif.Conv Verif.ConvAcc Verif.Interleave Verif.Chan

def exEncF : EncF := ⟨exEnc 912, List.replicate 185 7#8, List.replicate 260 1#8, List.replicate 65 1#8, List.replicate 244 0#8,
  List.replicate 260 0#8, List.replicate 8 0#8⟩
def exDecF : DecF := ⟨exDec 912, List.replicate 185 7#8, List.replicate 244 1#8, List.replicate 260 1#8, List.replicate 65 0#8,
  List.replicate 260 0#8, List.replicate 8 0#8⟩
def exEncH : EncH := ⟨exEnc 912, List.replicate 98 7#8, List.replicate 112 1#8, List.replicate 112 1#8, List.replicate 3 0#8⟩
def exDecH : DecH := ⟨exDec 912, List.replicate 98 7#8, List.replicate 112 1#8, List.replicate 112 1#8, List.replicate 3 0#8⟩

theorem exEncF_ok : exEncF.Ok := ⟨exEnc_ok 912, List.length_replicate, List.length_replicate, List.length_replicate, List.length_replicate,
  List.length_replicate, List.length_replicate⟩
theorem exDecF_ok : exDecF.Ok := ⟨exDec_ok 912, List.length_replicate, List.length_replicate, List.length_replicate, List.length_replicate,
  List.length_replicate, List.length_replicate⟩
theorem exEncH_ok : exEncH.Ok := ⟨exEnc_ok 912, List.length_replicate, List.length_replicate, List.length_replicate, List.length_replicate⟩
theorem exDecH_ok : exDecH.Ok := ⟨exDec_ok 912, List.length_replicate, List.length_replicate, List.length_replicate, List.length_replicate⟩

/-- a full rate frame -/
def exFr : List Byte := 0xd3#8 :: List.replicate 32 0x5a#8

example : ∃ b, tchFEncode frMap exEncF (List.replicate 928 0#8) exFr 33 true = some (0, b) ∧
    tchFDecode frMap exDecF (List.replicate 33 9#8) (clean b) true false = some { rv := 33, data := exFr, errors := 0, total := 378 } := by
  obtain ⟨b, h1, h2⟩ := fr_roundtrip exEncF exEncF_ok frMap true (.inl rfl) (List.replicate 928 0#8) exFr (by rw [List.length_replicate]) rfl rfl
  exact ⟨b, h1, h2 exDecF (List.replicate 33 9#8) exDecF_ok (by decide)⟩

/-- in the order of the codec, if something is behind the table -/
example : ∃ b, tchFEncode (frMap ++ [0]) exEncF (List.replicate 928 0#8) exFr 33 false = some (0, b) ∧
    tchFDecode (frMap ++ [0]) exDecF (List.replicate 33 9#8) (clean b) false false = some { rv := 33, data := exFr, errors := 0, total := 378 } := by
  obtain ⟨b, h1, h2⟩ := fr_roundtrip exEncF exEncF_ok (frMap ++ [0]) false (.inr ⟨0, [], rfl⟩) (List.replicate 928 0#8) exFr
    (by rw [List.length_replicate]) rfl rfl
  exact ⟨b, h1, h2 exDecF (List.replicate 33 9#8) exDecF_ok (by decide)⟩

theorem received_flags (places : List Nat) (b : List Byte) (h : 928 ≤ b.length) (hf : ∀ p ∈ tchFFlags, b[p]? = some 0#8) :
    flagSum tchFFlags (received places b) = (tchFFlags.map fun p => if p ∈ places then -127 else 127).sum := by
  unfold flagSum
  refine congrArg List.sum (List.map_congr_left fun p hp => ?_)
  have hl : p < b.length := by
    simp only [tchFFlags, List.mem_cons, List.not_mem_nil, or_false] at hp; omega
  rw [received_at _ _ _ hl, List.getD_eq_getElem?_getD, hf p hp]
  by_cases hq : p ∈ places <;> simp [hq]

/-- three wrong coded bits, a flag and a bit of class 2: bit 227 of the frame, the one of rank 182 -/
example : ∃ b f, tchFEncode frMap exEncF (List.replicate 928 0#8) exFr 33 true = some (0, b) ∧
    tchFDecode frMap exDecF (List.replicate 33 9#8) (received [tchFPos 0, tchFPos 1, tchFPos 2, 58, tchFPos 378] b) true false =
      some { rv := 33, data := f, errors := 3, total := 378 } ∧
    (∀ i < 260, i ≠ frOrder.getD 182 0 → bitAt false f (4 + i) = bitAt false exFr (4 + i)) := by
  obtain ⟨b, hb, hs, h3, -⟩ := fr_roundtrip_soft exEncF exEncF_ok frMap true (.inl rfl) (List.replicate 928 0#8) exFr
    (by rw [List.length_replicate]) (by decide)
  have hl : b.length = 928 := by rw [hs.len, List.length_replicate]
  have hw : wrong tchFClass1 b (received [tchFPos 0, tchFPos 1, tchFPos 2, 58, tchFPos 378] b) = 3 := by
    rw [received_wrong _ _ _ fun p hp => by rw [hl]; exact class1_lt p hp]
    decide +kernel
  obtain ⟨f, f1, f2⟩ := fr_corrects exEncF exEncF_ok frMap true (.inl rfl) _ exFr b (by rw [List.length_replicate]) (by decide) hb exDecF exDecF_ok
    (List.replicate 33 9#8) (by decide) (received [tchFPos 0, tchFPos 1, tchFPos 2, 58, tchFPos 378] b) (by rw [received_length, hl])
    (fun p hp => received_hard _ _ _ (by rw [hl]; exact class1_lt p hp)) (by omega)
    (by rw [received_flags _ _ (by omega) hs.flags]; decide)
  rw [hw] at f2
  refine ⟨b, f, hb, ?_, ?_⟩
  · rw [f2, List.drop_of_length_le (l := List.replicate 33 9#8) (by rw [List.length_replicate]), List.append_nil]
  · intro i hi hne
    rw [f1.bits i hi]
    split
    · rfl
    · rename_i h4
      have hp : ∀ k < 260, 182 ≤ frRank true k → k ≠ frOrder.getD 182 0 → tchFPlain (frRank true k) ∉ [tchFPos 0, tchFPos 1, tchFPos 2, 58, tchFPos 378] := by
        decide +kernel
      have hpl : tchFPlain (frRank true i) < b.length := by rw [hl]; exact tchF_place_lt _
      have hn := hp i hi (by omega) hne
      unfold hard
      rw [received_at _ _ _ hpl, h3 i hi (by omega)]
      generalize tchFPlain (frRank true i) = q at *
      cases bitAt false exFr (4 + i) <;> simp [hn, ubit]

/-- an enhanced full rate frame -/
def exEfr : List Byte := 0xc3#8 :: List.replicate 30 0xa5#8

example : ∃ b, tchFEncode frMap exEncF (List.replicate 928 0#8) exEfr 31 true = some (0, b) ∧
    tchFDecode frMap exDecF (List.replicate 31 9#8) (clean b) true true = some { rv := 31, data := exEfr, errors := 0, total := 378 } := by
  obtain ⟨b, h1, h2⟩ := efr_roundtrip exEncF exEncF_ok frMap true (List.replicate 928 0#8) exEfr (by rw [List.length_replicate]) rfl rfl
  exact ⟨b, h1, h2 exDecF (List.replicate 31 9#8) exDecF_ok (by decide)⟩

/-- one of the three places of a bit sent thrice is wrong -/
example : efrDecided true ((List.replicate 928 (-127)).set (tchFPlain (efrRank 71)) 127) 69 = true :=
  (efr_two_of_three true _ 69 71 (by decide)).2 (by decide +kernel)

/-- a voiced half rate frame -/
def exHr : List Byte := [1, 2, 3, 4, 0x35, 6, 7, 8, 9, 10, 11, 12, 13, 0xfe].map (BitVec.ofNat 8)

example : hrRank exHr 50 ≠ hrRank (List.replicate 14 0#8) 50 := by decide

example : ∃ b, tchHEncode exEncH (List.replicate 696 1#8) exHr 14 = some (0, b) ∧
    tchHDecode2 exDecH (List.replicate 14 9#8) (clean b) false = some { rv := 14, data := exHr, errors := 0, total := 211 } := by
  obtain ⟨b, h1, h2⟩ := hr_roundtrip exEncH exEncH_ok (List.replicate 696 1#8) exHr (by rw [List.length_replicate]) rfl
  exact ⟨b, h1, h2 exDecH (List.replicate 14 9#8) false exDecH_ok (by decide)⟩

/-- the older functions -/
example : ∃ b, tchHEncode exEncH (List.replicate 696 1#8) (0x55#8 :: exHr) 15 = some (0, b) ∧
    tchHDecode exDecH (List.replicate 15 9#8) (clean b) true = some { rv := 15, data := 0#8 :: exHr, errors := 0, total := 211 } := by
  obtain ⟨b, h1, h2⟩ := hr_roundtrip exEncH exEncH_ok (List.replicate 696 1#8) exHr (by rw [List.length_replicate]) rfl
  refine ⟨b, by rw [hr_prefixed, h1], ?_⟩
  rw [hr_legacy _ _ _ _ _ (by decide) (h2 exDecH (List.replicate 15 9#8) true exDecH_ok (by decide))]
  rfl

/-- four wrong coded bits -/
example : ∃ b f, tchHEncode exEncH (List.replicate 464 0#8) exHr 14 = some (0, b) ∧
    tchHDecode2 exDecH (List.replicate 14 9#8) (received [tchHPos 0, tchHPos 1, tchHPos 2, tchHPos 3] b) true =
      some { rv := 14, data := f ++ (List.replicate 14 9#8).drop 14, errors := 4, total := 211 } := by
  obtain ⟨b, hb, hs, -⟩ := hr_roundtrip_soft exEncH exEncH_ok (List.replicate 464 0#8) exHr (by rw [List.length_replicate]) (by decide)
  have hl : b.length = 464 := by rw [hs.len, List.length_replicate]
  have hw : wrong tchHClass1 b (received [tchHPos 0, tchHPos 1, tchHPos 2, tchHPos 3] b) = 4 := by
    rw [received_wrong _ _ _ fun p hp => by rw [hl]; exact classH_lt p hp]
    decide +kernel
  obtain ⟨f, -, -, f2⟩ := hr_corrects exEncH exEncH_ok _ exHr b (by rw [List.length_replicate]) (by decide) hb exDecH exDecH_ok
    (List.replicate 14 9#8) (by decide) (received [tchHPos 0, tchHPos 1, tchHPos 2, tchHPos 3] b) true
    ⟨by rw [received_length, hl], fun h => by simp at h⟩
    (fun p hp => received_hard _ _ _ (by rw [hl]; exact classH_lt p hp)) (by omega)
  rw [hw] at f2
  exact ⟨b, f, hb, f2⟩

/-- no data is refused -/
example : ∃ b, tchHEncode exEncH (List.replicate 696 0#8) [] 0 = some (0, b) ∧
    tchHDecode2 exDecH (List.replicate 14 9#8) (clean b) true = some { rv := -1, data := List.replicate 14 9#8, errors := 0, total := 211 } := by
  obtain ⟨b, hb, hs, h⟩ := tchH_no_data exEncH exEncH_ok (List.replicate 696 0#8) [] (by rw [List.length_replicate]; omega)
  have hl : b.length = 696 := by rw [hs.len, List.length_replicate]
  have hw := clean_wrong b tchHClass1 (fun p hp => by have := classH_lt p hp; omega)
  have hc : ∀ p ∈ tchHClass1, (clean b).getD p 0 = 127 ∨ (clean b).getD p 0 = -127 := by
    intro p hp
    rw [clean_get _ _ (by have := classH_lt p hp; omega)]
    split
    · exact .inl rfl
    · exact .inr rfl
  refine ⟨b, hb, ?_⟩
  rw [h exDecH (List.replicate 14 9#8) (clean b) 127 true exDecH_ok (by decide) (clean_speech _ b hs true (by omega) (by omega)) (by omega) (by omega)
    (fun p hp => by rcases hc p hp with h | h <;> rw [h] <;> omega) (by rw [contra_hard _ _ _ hc, hw]; omega), hw]

end Verif.Tch
