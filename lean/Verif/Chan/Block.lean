import Verif.Chan.Model
import Verif.Bits.Props
import Verif.Crc.GenProps
/-!
Bits, parity and convolutional code of a block.
-/
namespace Verif.Chan
open Verif.Conv Verif.ConvAcc Verif.Interleave

/-! ### Bits -/

theorem ubit_eq : ubit = Bits.ubitOf := rfl

theorem ubit_ne (b : Bool) : decide (ubit b ≠ 0#8) = b := by cases b <;> decide

theorem mapM_bit : ∀ l : List Bool, (l.map ubit).mapM bit? = some l
  | [] => rfl
  | b :: l => by
    rw [List.map_cons, List.mapM_cons, mapM_bit l]
    cases b <;> rfl

/-- the first `n` bits of some bytes, the least significant bit of a byte first -/
def lsbBits (n : Nat) (l : List Byte) : List Bool := (List.range n).map (bitAt true l)

theorem lsbBits_length (n : Nat) (l : List Byte) : (lsbBits n l).length = n := by simp [lsbBits]

theorem eq_of_bits {a b : List Byte} (hl : a.length = b.length) (h : ∀ j, bitAt true a j = bitAt true b j) : a = b := by
  apply List.ext_getElem hl
  intro i h1 h2
  apply BitVec.eq_of_getLsbD_eq
  intro k hk
  have := h (8 * i + k)
  unfold bitAt at this
  have e1 : (8 * i + k) / 8 = i := by omega
  have e2 : bitNum true (8 * i + k) = k := by simp [bitNum]; omega
  rw [e1, e2] at this
  simpa [List.getD, h1, h2] using this

theorem bitAt_append (a b : List Byte) (j : Nat) :
    bitAt true (a ++ b) j = if j < 8 * a.length then bitAt true a j else bitAt true b (j - 8 * a.length) := by
  unfold bitAt
  have e : bitNum true (j - 8 * a.length) = if j < 8 * a.length then bitNum true (j - 8 * a.length) else bitNum true j := by
    split
    · rfl
    · simp only [bitNum, if_true]; omega
  by_cases h : j < 8 * a.length
  · rw [if_pos h, List.getD_eq_getElem?_getD, List.getElem?_append_left (by omega), ← List.getD_eq_getElem?_getD]
  · rw [if_neg h, List.getD_eq_getElem?_getD, List.getElem?_append_right (by omega), ← List.getD_eq_getElem?_getD, e, if_neg h]
    congr 2
    omega

theorem pbit2ubit_spec (out inp : List Byte) (n : Nat) (hi : n ≤ 8 * inp.length) (ho : n ≤ out.length) (h32 : n < 2 ^ 32) :
    Bits.pbit2ubitExt out 0 inp 0 n true = some ((lsbBits n inp).map ubit ++ out.drop n, n) := by
  obtain ⟨o, h1, h2, h3, h4⟩ := Bits.pbit2ubit_ext_spec out inp 0 0 n true (by omega) (by omega) (by omega)
  rw [h1]
  simp only [Nat.zero_add] at h3 h4 ⊢
  congr 2
  apply List.ext_getElem
  · simp [lsbBits, h2]; omega
  · intro i g1 g2
    by_cases hn : i < n
    · have := h3 i hn
      rw [List.getElem_append_left (by simpa [lsbBits] using hn)]
      simp only [lsbBits, List.getElem_map, List.getElem_range, ubit_eq]
      rw [← this, List.getD_eq_getElem?_getD, List.getElem?_eq_getElem g1, Option.getD_some]
    · have := h4 i (by omega)
      rw [List.getElem_append_right (by simp [lsbBits]; omega)]
      rw [List.getD_eq_getElem?_getD, List.getElem?_eq_getElem g1, Option.getD_some, List.getD_eq_getElem?_getD,
        List.getElem?_eq_getElem (by omega), Option.getD_some] at this
      rw [this, List.getElem_drop]
      congr 1
      simp [lsbBits]; omega

/-- the bits go to the buffer, and nothing else changes -/
theorem ubit2pbit_spec (out : List Byte) (bits : List Bool) (rest : List Byte) (n : Nat) (hn : bits.length = n) (h : n ≤ 8 * out.length) :
    ∃ o r, Bits.ubit2pbitExt out 0 (bits.map ubit ++ rest) 0 n true = some (o, r) ∧ o.length = out.length ∧
      lsbBits n o = bits ∧ ∀ j, n ≤ j → bitAt true o j = bitAt true out j := by
  obtain ⟨o, r, h1, h2, h3, h4, -⟩ := Bits.ubit2pbit_ext_partial out (bits.map ubit ++ rest) 0 0 n true (by simp [hn]) (by omega)
  refine ⟨o, r, h1, h2, ?_, fun j hj => h4 j (by omega)⟩
  apply List.ext_getElem
  · simp [lsbBits, hn]
  · intro i g1 g2
    simp only [lsbBits, List.getElem_map, List.getElem_range]
    have := h3 i (by omega)
    simp only [Nat.zero_add] at this
    rw [this, List.getElem_append_left (by simpa using g2), List.getElem_map, ubit_ne]

/-- whole bytes come back -/
theorem ubit2pbit_bytes (out l rest : List Byte) (h : l.length ≤ out.length) :
    ∃ r, Bits.ubit2pbitExt out 0 ((lsbBits (8 * l.length) l).map ubit ++ rest) 0 (8 * l.length) true =
      some (l ++ out.drop l.length, r) := by
  obtain ⟨o, r, h1, h2, h3, h4⟩ := ubit2pbit_spec out (lsbBits (8 * l.length) l) rest (8 * l.length) (lsbBits_length _ _) (by omega)
  refine ⟨r, ?_⟩
  rw [h1]
  congr 2
  apply eq_of_bits
  · simp [h2]; omega
  · intro j
    rw [bitAt_append]
    split
    · rename_i hj
      have := congrArg (fun l => l[j]?) h3
      simp only [lsbBits, List.getElem?_map, List.getElem?_range hj, Option.map_some, Option.some.injEq] at this
      exact this
    · rename_i hj
      rw [h4 j (by omega)]
      have := bitAt_append (out.take l.length) (out.drop l.length) j
      rw [List.take_append_drop, List.length_take, Nat.min_eq_left h, if_neg hj] at this
      exact this

/-! ### Parity -/

/-- the parity bits of a block -/
def parityOf {W : Nat} (code : Crc.Code W) (data : List Bool) : List Bool :=
  (List.range code.bits).map fun i =>
    ((data.map ubit).foldl (Crc.crcStep code) code.init ^^^ code.remainder).getLsbD (code.bits - i - 1)

theorem parityOf_length {W : Nat} (code : Crc.Code W) (data : List Bool) : (parityOf code data).length = code.bits := by simp [parityOf]

theorem setBits_parity {W : Nat} (code : Crc.Code W) (hs : Crc.shiftsDefined code) (data : List Bool) :
    Crc.setBits code (data.map ubit) = some ((parityOf code data).map ubit) := by
  unfold Crc.setBits Crc.computeBits
  rw [if_pos (.inr hs), Option.map_some]
  congr 1
  unfold parityOf
  rw [List.map_map]
  rfl

theorem setParity_spec {W : Nat} (code : Crc.Code W) (hs : Crc.shiftsDefined code) (data : List Bool) (rest : List Byte)
    (hr : code.bits ≤ rest.length) :
    setParity code data.length (data.map ubit ++ rest) =
      some ((data ++ parityOf code data).map ubit ++ rest.drop code.bits) := by
  have hp := parityOf_length code data
  unfold setParity
  have h0 := readAt_eq_some (mem := data.map ubit ++ rest) (o := 0) (n := data.length) (by simp)
  simp only [Int.natCast_zero, List.drop_zero] at h0
  rw [h0, List.take_append_of_le_length (by simp), List.take_of_length_le (by simp)]
  dsimp only [bind, Option.bind]
  rw [setBits_parity code hs]
  dsimp only
  rw [writeAt_eq_some (by simp [hp]; omega), List.take_append_of_le_length (by simp), List.take_of_length_le (by simp)]
  congr 1
  rw [List.map_append, List.append_assoc, List.append_assoc, List.drop_append]
  simp [hp]

theorem ubits_inj {a b : List Bool} (h : a.map ubit = b.map ubit) : a = b := by
  have := congrArg (fun l => l.mapM bit?) h
  simp only [mapM_bit] at this
  exact Option.some.inj this

theorem checkParity_spec {W : Nat} (code : Crc.Code W) (hs : Crc.shiftsDefined code) (data p : List Bool) (rest : List Byte)
    (hp : p.length = code.bits) :
    checkParity code data.length ((data ++ p).map ubit ++ rest) = some (if p = parityOf code data then 0 else 1) := by
  unfold checkParity
  have h0 := readAt_eq_some (mem := (data ++ p).map ubit ++ rest) (o := 0) (n := data.length) (by simp)
  simp only [Int.natCast_zero, List.drop_zero] at h0
  have h1 := readAt_eq_some (mem := (data ++ p).map ubit ++ rest) (o := data.length) (n := code.bits) (by simp [hp])
  have e0 : ((data ++ p).map ubit ++ rest).take data.length = data.map ubit := by
    rw [List.map_append, List.append_assoc, List.take_append_of_le_length (by simp), List.take_of_length_le (by simp)]
  have e1 : (((data ++ p).map ubit ++ rest).drop data.length).take code.bits = p.map ubit := by
    rw [List.map_append, List.append_assoc, List.drop_append_of_le_length (by simp), List.drop_of_length_le (by simp), List.nil_append,
      List.take_append_of_le_length (by simp [hp]), List.take_of_length_le (by simp [hp])]
  rw [e0] at h0
  rw [e1] at h1
  rw [h0]
  dsimp only [bind, Option.bind]
  rw [h1]
  dsimp only
  obtain ⟨c1, c2⟩ := Crc.check_iff_set code (data.map ubit) (p.map ubit) (.inr hs) (by simp [hp])
  rw [setBits_parity code hs, Option.some.injEq] at c1
  by_cases h : p = parityOf code data
  · rw [if_pos h, c1.2 (by rw [h])]
  · rw [if_neg h]
    rcases c2 with c2 | c2
    · exact absurd (ubits_inj (c1.1 c2)).symm h
    · exact c2

/-! ### Convolutional code -/

theorem convEncode_spec (c : Code) (bits sent : List Bool) (rest output : List Byte) (hb : bits.length = c.len)
    (he : encode c bits = some sent) (ho : sent.length ≤ output.length) :
    convEncode c (bits.map ubit ++ rest) output = some (sent.map ubit ++ output.drop sent.length, sent.length) := by
  unfold convEncode
  rw [List.take_append_of_le_length (by simp [hb]), List.take_of_length_le (by simp [hb]), mapM_bit]
  dsimp only [bind, Option.bind]
  rw [he]
  dsimp only
  have := writeAt_eq_some (mem := output) (bs := sent.map ubit) (o := 0) (by simpa using ho)
  simp only [Int.natCast_zero, List.take_zero, List.nil_append, List.length_map, Nat.zero_add] at this
  rw [this]

theorem convDecode_spec (c : Code) (input : List Int) (bits : List Bool) (rv : Int) (output : List Byte)
    (hd : decodeAcc c input = some (rv, bits)) (ho : bits.length ≤ output.length) :
    convDecode c input output = some (bits.map ubit ++ output.drop bits.length) := by
  unfold convDecode
  rw [hd]
  dsimp only [bind, Option.bind]
  have := writeAt_eq_some (mem := output) (bs := bits.map ubit) (o := 0) (by simpa using ho)
  simp only [Int.natCast_zero, List.take_zero, List.nil_append, List.length_map, Nat.zero_add] at this
  rw [this]

/-- a soft bit says that the bit is `b` -/
def Says (x : Int) (b : Bool) : Prop := if b then x < 0 else 0 < x

instance (x : Int) (b : Bool) : Decidable (Says x b) := by unfold Says; infer_instance

/-- the number of soft bits that do not say what the bit is -/
def errorsIn (bits : List Bool) (input : List Int) : Nat := ((bits.zip input).filter fun p => decide (¬ Says p.2 p.1)).length

theorem bitErrors_spec : ∀ (bits : List Bool) (input : List Int), bits.length ≤ input.length →
    bitErrors (bits.map ubit) input = some (errorsIn bits input)
  | [], _, _ => by simp [bitErrors, errorsIn]
  | _ :: _, [], h => by simp at h
  | b :: bs, x :: xs, h => by
    simp only [List.length_cons] at h
    simp only [List.map_cons, bitErrors]
    rw [bitErrors_spec bs xs (by omega), Option.map_some]
    congr 1
    unfold errorsIn
    rw [List.zip_cons_cons, List.filter_cons]
    have e : ((ubit b = 1#8 ∧ x < 0) ∨ (ubit b = 0#8 ∧ 0 < x)) ↔ Says x b := by
      unfold Says
      cases b <;> simp [ubit]
    by_cases hs : Says x b
    · rw [if_pos (e.2 hs)]; simp [hs]
    · rw [if_neg (fun h => hs (e.1 h))]; simp [hs]

theorem errorsIn_append (bits : List Bool) (input rest : List Int) (h : bits.length ≤ input.length) :
    errorsIn bits (input ++ rest) = errorsIn bits input := by
  unfold errorsIn
  congr 2
  induction bits generalizing input with
  | nil => rfl
  | cons b bs ih =>
    cases input with
    | nil => simp at h
    | cons x xs => simp only [List.cons_append, List.zip_cons_cons]; rw [ih xs (by simpa using h)]

/-- what is needed of a code: `n` bits are sent, at a distance of `d` -/
structure Channel (c : Code) (n d : Nat) : Prop where
  enc : ∀ bits, bits.length = c.len → ∃ sent, encode c bits = some sent ∧ sent.length = n
  corr : Corrects c d
  total : ∀ input, n ≤ input.length → Within 127 input → ∃ bits, decodeAcc c input = some (0, bits) ∧ bits.length = c.len

theorem channel_of {c k o fb} (h : Usable c k o fb) (ht : c.term = .flush) {n d : Nat} (hc : Corrects c d)
    (hn : needed c.positions 0 (steps c * c.N) = n) : Channel c n d where
  enc := by
    intro bits hb
    have ht' : c.term ≠ .tailBiting := by rw [ht]; decide
    have hK := h.reg.hK
    refine ⟨_, encode_spec c h.punct bits hb (by omega) (fun e => absurd e ht'), ?_⟩
    rw [keep_needed, coded_eq c ht', codedFrom_length c 0 bits hb, hn]
  corr := hc
  total := by
    intro input hl hr
    obtain ⟨out, j, h1, h2, -⟩ := decodeAcc_best h (by rw [ht]; decide) input (by rw [hn]; exact hl) hr
    exact ⟨out, h1, h2⟩

/-- `osmo_conv_decode_ber` for any input: some block is found, and the number of errors is the distance to its encoding -/
theorem decodeBer_total {c : Code} {n d : Nat} (h : Channel c n d) (input : List Int) (output recoded : List Byte) (hi : n ≤ input.length)
    (hr : Within 127 input) (ho : c.len ≤ output.length) (hre : n ≤ recoded.length) :
    ∃ bits sent, bits.length = c.len ∧ encode c bits = some sent ∧ sent.length = n ∧
      convDecode c input output = some (bits.map ubit ++ output.drop c.len) ∧
      decodeBer c input output recoded = some (bits.map ubit ++ output.drop c.len, errorsIn sent input, n) := by
  obtain ⟨bits, hd, hb⟩ := h.total input hi hr
  obtain ⟨sent, he, hs⟩ := h.enc bits hb
  have h1 := convDecode_spec c input bits 0 output hd (by omega)
  rw [hb] at h1
  refine ⟨bits, sent, hb, he, hs, h1, ?_⟩
  unfold decodeBer
  rw [h1]
  dsimp only [bind, Option.bind]
  rw [convEncode_spec c bits sent _ recoded hb he (by omega)]
  dsimp only
  rw [List.take_append_of_le_length (by simp), List.take_of_length_le (by simp), bitErrors_spec _ _ (by omega), hs]

/-- `osmo_conv_decode_ber` for an input with few errors -/
theorem decodeBer_corrects {c : Code} {n d : Nat} (h : Channel c n d) (bits sent : List Bool) (input rest : List Int) (output recoded : List Byte)
    (hb : bits.length = c.len) (he : encode c bits = some sent) (hi : input.length = n) (hr : Within 127 input) {m : Int} (hm : 0 ≤ m)
    (hmin : ∀ v ∈ input, m ≤ v ∨ v ≤ -m) (ha : 2 * against sent input < m * d) (ha' : 2 * against sent input < 127 * (c.N : Int) * c.K)
    (ho : c.len ≤ output.length) (hre : n ≤ recoded.length) :
    convDecode c (input ++ rest) output = some (bits.map ubit ++ output.drop c.len) ∧
    decodeBer c (input ++ rest) output recoded = some (bits.map ubit ++ output.drop c.len, errorsIn sent input, n) := by
  obtain ⟨sent', he', hs⟩ := h.enc bits hb
  rw [he] at he'
  obtain rfl := Option.some.inj he'
  have hd := h.corr bits sent input rest m hb he (by omega) hr hm hmin ha ha'
  have h1 := convDecode_spec c (input ++ rest) bits 0 output hd (by omega)
  rw [hb] at h1
  refine ⟨h1, ?_⟩
  unfold decodeBer
  rw [h1]
  dsimp only [bind, Option.bind]
  rw [convEncode_spec c bits sent _ recoded hb he (by omega)]
  dsimp only
  rw [List.take_append_of_le_length (by simp), List.take_of_length_le (by simp),
    bitErrors_spec _ _ (by simp [hi]; omega), errorsIn_append _ _ _ (by omega), hs]

theorem plain_channel (len n : Nat) (hl : 1 ≤ len) (hn : needed [] 0 ((len + 4) * 2) = n) :
    Channel (genCode [(G0, 1), (G1, 1)] len .flush none) n 7 := by
  have hmem : ([(G0, 1), (G1, 1)] : List (Nat × Nat)) ∈ gsmPolys := by decide
  have hf : (([(G0, 1), (G1, 1)] : List (Nat × Nat)), 3, [7, 2, 3, 3, 3, 5, 4, 4, 5, 3, 5, 5, 5, 4, 5, 5]) ∈ gsmFree := List.mem_cons_self
  exact channel_of (gsm_usable _ hmem len hl .flush none (by simp)) rfl (plain_corrects _ hf len hl) hn

theorem xcch_channel : Channel xcchCode 456 7 := plain_channel 224 456 (by decide) (by decide +kernel)
theorem rach_channel : Channel rachCode 36 7 := plain_channel 14 36 (by decide) (by decide +kernel)
theorem sch_channel : Channel schCode 78 7 := plain_channel 35 78 (by decide) (by decide +kernel)
theorem rachExt_channel : Channel rachExt.code 36 5 :=
  channel_of (Punctured.usable (by decide) rachExt_ok) rfl (Punctured.corrects (by decide) rachExt_ok) (by decide +kernel)

end Verif.Chan
