import Verif.MobileId.Spec
/-!
C91, decoding: `osmo_mobile_identity_decode` accepts exactly the octets of the
standard's encoding of a valid identity.
-/
namespace Verif.MobileId
open Verif.Utils

theorem odd_bit : ∀ b : Byte, (b &&& 8#8 ≠ 0#8) ↔ 8 ≤ b.toNat % 16 := by decide +kernel
theorem type_bits : ∀ b : Byte, b &&& 7#8 = BitVec.ofNat 8 (b.toNat % 8) := by decide +kernel
theorem hi_bits : ∀ b : Byte, (b &&& 0xf0#8 ≠ 0xf0#8) ↔ b.toNat / 16 ≠ 15 := by decide +kernel
theorem up_dec : ∀ n, n < 16 → n < 10 ∨ 9 < n := by omega

theorem nibs_append (a b : List Byte) : nibs (a ++ b) = nibs a ++ nibs b := by
  induction a with
  | nil => rfl
  | cons x a ih => simp [nibs, ih]

theorem zeroU_splice {n size : Nat} (h : n < size) (hs : size ≤ 17) (t : List Byte) :
    (t ++ 0#8 :: (zeroU.take size).drop (n + 1)) ++ zeroU.drop size = t ++ List.replicate (17 - n) 0#8 := by
  unfold zeroU
  rw [List.take_replicate, List.drop_replicate, List.drop_replicate, List.append_assoc, List.cons_append,
    List.replicate_append_replicate, ← List.replicate_succ]
  congr 2
  omega

/-- number of digits announced by the first octet and the length -/
def digitsOf (data : List Byte) : Nat :=
  (data.length - 1) * 2 + if 8 ≤ (data.getD 0 0#8).toNat % 16 then 1 else 0

/-- the digits of an encoded identity -/
def digitList (data : List Byte) : List Nat := ((nibs data).drop 1).take (digitsOf data)

/-- size of the string member -/
def Kind.size : Kind → Nat
  | .imeisv => 17
  | _ => 16

theorem lengthCheck_num (k : Kind) (n : Nat) :
    lengthCheck (BitVec.ofNat 8 k.code) n =
      if k.okLen n then .inr k.size else .inl EBADMSG := by
  cases k
  · by_cases h : 6 ≤ n ∧ n ≤ 15
    · simp [lengthCheck, Kind.code, Kind.okLen, Kind.size, h]
    · simp [lengthCheck, Kind.code, Kind.okLen, h]
  · by_cases h : n = 14 ∨ n = 15
    · simp [lengthCheck, Kind.code, Kind.okLen, Kind.size, h]; omega
    · simp [lengthCheck, Kind.code, Kind.okLen, h]; omega
  · by_cases h : n = 16
    · simp [lengthCheck, Kind.code, Kind.okLen, Kind.size, h]
    · simp [lengthCheck, Kind.code, Kind.okLen, h]

theorem code_ne4 (k : Kind) : BitVec.ofNat 8 k.code ≠ 4#8 := by cases k <;> decide

theorem getD_last {data : List Byte} (h : data ≠ []) :
    data[data.length - 1]? = some (data.getD (data.length - 1) 0#8) := by
  have : 0 < data.length := List.length_pos_iff.2 h
  rw [List.getElem?_eq_getElem (by omega), getD_of_lt (by omega)]

theorem digitsOf_le (data : List Byte) (h : data ≠ []) : 1 + digitsOf data ≤ 2 * data.length := by
  have : 0 < data.length := List.length_pos_iff.2 h
  unfold digitsOf
  split <;> omega

/-- decoding octets whose type field says IMSI, IMEI or IMEISV -/
theorem decode_num (data tail : List Byte) (hex : Bool) (k : Kind) (hd : data ≠ [])
    (ht : (data.getD 0 0#8).toNat % 8 = k.code) :
    decode (data ++ tail) data.length hex =
      if k.okLen (digitsOf data) ∧
          (8 ≤ (data.getD 0 0#8).toNat % 16 ∨ (data.getD (data.length - 1) 0#8).toNat / 16 = 15) ∧
          (hex = false → ∀ d ∈ digitList data, d < 10)
      then some ((Ident.num k (digitList data)).canon, 0) else failed EBADMSG := by
  have hl : 0 < data.length := List.length_pos_iff.2 hd
  have h0 : (data ++ tail)[0]? = some (data.getD 0 0#8) := by
    rw [List.getElem?_append_left hl, List.getElem?_eq_getElem hl, getD_of_lt hl]
  have hlast : (data ++ tail)[data.length - 1]? = some (data.getD (data.length - 1) 0#8) := by
    rw [List.getElem?_append_left (by omega), getD_last hd]
  unfold decode
  rw [if_neg (by omega), h0, Option.bind_some]
  simp only [odd_bit, hi_bits, type_bits, ht]
  have hn : (data.length - 1) * 2 + (if 8 ≤ (data.getD 0 0#8).toNat % 16 then 1 else 0) = digitsOf data := rfl
  rw [hn, lengthCheck_num]
  by_cases hk : k.okLen (digitsOf data)
  · rw [if_pos hk]
    simp only [hk, true_and]
    rw [if_neg (code_ne4 k), hlast, Option.bind_some]
    by_cases hf : 8 ≤ (data.getD 0 0#8).toNat % 16 ∨ (data.getD (data.length - 1) 0#8).toNat / 16 = 15
    · rw [if_neg (by omega)]
      simp only [hf, true_and]
      generalize hsz : k.size = size
      have hs : digitsOf data < size ∧ size ≤ 17 := by
        cases k <;> simp only [Kind.okLen] at hk <;> simp only [Kind.size] at hsz <;> omega
      have hsl : (zeroU.take size).length = size := by simp [zeroU]; omega
      have hle := digitsOf_le data hd
      have spec := bcd2str_spec (zeroU.take size) (data ++ tail) 1 (1 + (digitsOf data : Int)) hex (by omega)
        (by simp; omega)
      simp only [hsl] at spec
      have hmin : min (size - 1) ((1 + (digitsOf data : Int)).toNat - 1) = digitsOf data := by omega
      rw [hmin] at spec
      rw [show ((1 : Nat) : Int) = 1 from rfl] at spec
      rw [spec, Option.bind_some]
      have htext : nibbleText (data ++ tail) 1 (digitsOf data) = digitText (digitList data) := by
        rw [nibbleText_eq _ _ _ (by simp; omega), nibs_append]
        unfold digitList
        congr 1
        rw [List.drop_append_of_le_length (by rw [nibs_length]; omega),
          List.take_append_of_le_length (by rw [List.length_drop, nibs_length]; omega)]
      have hmem : (hex = false ∧ ∃ j, j < digitsOf data ∧ 9 < nibbleAt false (data ++ tail) (1 + j)) ↔
          ¬ (hex = false → ∀ d ∈ digitList data, d < 10) := by
        have hg : ∀ j, j < digitsOf data → (digitList data)[j]? = some (nibbleAt false (data ++ tail) (1 + j)) := by
          intro j hj
          unfold digitList
          rw [List.getElem?_take_of_lt hj, List.getElem?_drop,
            ← nibs_getElem? (data ++ tail) (1 + j) (by simp; omega), nibs_append,
            List.getElem?_append_left (by rw [nibs_length]; omega)]
        have hlen : (digitList data).length = digitsOf data := by
          unfold digitList
          rw [List.length_take, List.length_drop, nibs_length]
          omega
        rw [Classical.not_imp]
        refine and_congr_right fun _ => ?_
        constructor
        · rintro ⟨j, hj, h9⟩ hall
          have := hall _ (List.mem_of_getElem? (hg j hj))
          omega
        · intro hno
          rw [Classical.not_forall] at hno
          obtain ⟨d, hno⟩ := hno
          rw [Classical.not_imp] at hno
          obtain ⟨hm, hd9⟩ := hno
          obtain ⟨j, hj, e⟩ := List.getElem_of_mem hm
          have h1 := hg j (by omega)
          rw [List.getElem?_eq_getElem hj, e, Option.some.injEq] at h1
          exact ⟨j, by omega, by omega⟩
      dsimp only
      by_cases hall : hex = false → ∀ d ∈ digitList data, d < 10
      · have hno := mt hmem.1 (fun h => h hall)
        rw [if_pos hall, if_neg hno]
        have hn1 : 1 ≤ digitsOf data := by
          cases k <;> simp only [Kind.okLen] at hk <;> omega
        rw [htext, if_neg (by omega), zeroU_splice hs.1 hs.2]
        have hlen : (digitList data).length = digitsOf data := by
          unfold digitList
          rw [List.length_take, List.length_drop, nibs_length]
          omega
        simp only [Ident.canon, hlen]
      · rw [if_neg hall, if_pos (hmem.2 hall), if_pos (.inl (by decide))]
    · rw [if_pos (by omega), if_neg (by simp only [hf, false_and, not_false_eq_true])]
  · simp only [hk, false_and, if_false]

theorem leBytes (v : BitVec 32) : Endian.storeLe v = some [BitVec.ofNat 8 v.toNat, BitVec.ofNat 8 (v.toNat / 2 ^ 8),
      BitVec.ofNat 8 (v.toNat / 2 ^ 16), BitVec.ofNat 8 (v.toNat / 2 ^ 24)] := by
  obtain ⟨q, h1, h2, h3⟩ := Endian.storeLeExt_value v 4 (by decide)
  show Endian.storeLeExt v 4 = _
  rw [h1]
  congr 1
  apply Endian.leVal_inj (by simp [h2])
  rw [h3]
  have := v.isLt
  simp only [Endian.leVal, BitVec.toNat_ofNat]
  omega

theorem beBytes (v : BitVec 32) : Endian.storeBe v = some [BitVec.ofNat 8 (v.toNat / 2 ^ 24),
      BitVec.ofNat 8 (v.toNat / 2 ^ 16), BitVec.ofNat 8 (v.toNat / 2 ^ 8), BitVec.ofNat 8 v.toNat] := by
  obtain ⟨q, h1, h2, h3⟩ := Endian.storeBeExt_value v 4 (by decide)
  show Endian.storeBeExt v 4 = _
  rw [h1]
  congr 1
  match q, h2 with
  | [a, b, c, d], _ =>
    simp only [Endian.beVal, List.foldl] at h3
    have := v.isLt
    have := a.isLt; have := b.isLt; have := c.isLt; have := d.isLt
    rw [List.cons.injEq, List.cons.injEq, List.cons.injEq, List.cons.injEq]
    refine ⟨?_, ?_, ?_, ?_, rfl⟩ <;> apply BitVec.eq_of_toNat_eq <;> simp only [BitVec.toNat_ofNat] <;> omega

theorem loadBe_bytes (a b c d : Byte) (tail : List Byte) :
    ∃ v : BitVec 32, Endian.loadBe 32 (a :: b :: c :: d :: tail) = some v ∧
      v.toNat = a.toNat * 2 ^ 24 + b.toNat * 2 ^ 16 + c.toNat * 2 ^ 8 + d.toNat := by
  obtain ⟨r, h1, h2⟩ := Endian.loadBeExt_value 32 (a :: b :: c :: d :: tail) 4 (by decide) (by decide)
    (by simp only [List.length_cons]; omega)
  refine ⟨r, h1, ?_⟩
  rw [h2]
  simp only [List.take_succ_cons, List.take_zero, Endian.beVal, List.foldl]
  omega

theorem putTmsi_zero (t : Byte) (v : BitVec 32) :
    putTmsi { type := t, u := zeroU } v = some { (Ident.tmsi v).canon with type := t } := by
  unfold putTmsi
  rw [leBytes, Option.bind_some]
  dsimp only
  rw [show (0 : Int) = ((0 : Nat) : Int) from rfl, writeAt_eq_some (by simp [zeroU]), Option.map_some]
  rfl

/-- decoding octets whose type field says TMSI -/
theorem decode_tmsi (data tail : List Byte) (hex : Bool) (hd : data ≠ [])
    (ht : (data.getD 0 0#8).toNat % 8 = 4) :
    (∃ v, data = (Ident.tmsi v).wire ∧ decode (data ++ tail) data.length hex = some ((Ident.tmsi v).canon, 0)) ∨
    ((∀ v, data ≠ (Ident.tmsi v).wire) ∧ decode (data ++ tail) data.length hex = failed EBADMSG) := by
  have hl : 0 < data.length := List.length_pos_iff.2 hd
  have h0 : (data ++ tail)[0]? = some (data.getD 0 0#8) := by
    rw [List.getElem?_append_left hl, List.getElem?_eq_getElem hl, getD_of_lt hl]
  unfold decode
  rw [if_neg (by omega), h0, Option.bind_some]
  simp only [odd_bit, hi_bits, type_bits, ht]
  generalize hn : (data.length - 1) * 2 + (if 8 ≤ (data.getD 0 0#8).toNat % 16 then 1 else 0) = n
  have hlc : lengthCheck (BitVec.ofNat 8 4) n = if n ≠ 8 then .inl EBADMSG else .inr 0 := by
    unfold lengthCheck; rfl
  rw [hlc]
  by_cases h8 : n = 8
  · rw [if_neg (by omega)]
    simp only [if_true]
    have hlen : data.length = 5 ∧ (data.getD 0 0#8).toNat % 16 < 8 := by
      rw [h8] at hn
      split at hn <;> omega
    obtain ⟨h5, hev⟩ := hlen
    match data, h5 with
    | [b0, a, b, c, d], _ =>
      simp only [List.getD_cons_zero] at ht hev ⊢
      by_cases hf : b0.toNat / 16 = 15
      · rw [if_neg (by omega)]
        left
        obtain ⟨v, h1, h2⟩ := loadBe_bytes a b c d tail
        refine ⟨v, ?_, ?_⟩
        · have := b0.isLt
          have := v.isLt
          have := a.isLt; have := b.isLt; have := c.isLt; have := d.isLt
          simp only [Ident.wire]
          rw [List.cons.injEq, List.cons.injEq, List.cons.injEq, List.cons.injEq, List.cons.injEq]
          refine ⟨?_, ?_, ?_, ?_, ?_, rfl⟩ <;> apply BitVec.eq_of_toNat_eq <;>
            simp only [BitVec.toNat_ofNat] <;> omega
        · simp only [List.cons_append, List.nil_append, List.drop_succ_cons, List.drop_zero]
          rw [h1, Option.bind_some, putTmsi_zero, Option.map_some]
          rfl
      · rw [if_pos hf]
        right
        refine ⟨?_, rfl⟩
        intro v hv
        simp only [Ident.wire, List.cons.injEq] at hv
        rw [hv.1] at hf
        exact hf (by decide)
  · rw [if_pos h8]
    right
    refine ⟨?_, rfl⟩
    intro v hv
    rw [hv] at hn
    simp [Ident.wire] at hn
    omega

/-- decoding octets whose type field is none of the known ones -/
theorem decode_unknown (data tail : List Byte) (hex : Bool) (hd : data ≠ [])
    (ht : (data.getD 0 0#8).toNat % 8 = 0 ∨ 5 ≤ (data.getD 0 0#8).toNat % 8) :
    decode (data ++ tail) data.length hex = failed EINVAL := by
  have hl : 0 < data.length := List.length_pos_iff.2 hd
  have h0 : (data ++ tail)[0]? = some (data.getD 0 0#8) := by
    rw [List.getElem?_append_left hl, List.getElem?_eq_getElem hl, getD_of_lt hl]
  unfold decode
  rw [if_neg (by omega), h0, Option.bind_some]
  simp only [type_bits]
  have hlc : ∀ t, t < 8 → t = 0 ∨ 5 ≤ t → ∀ n, lengthCheck (BitVec.ofNat 8 t) n = .inl EINVAL := by
    intro t h8 h n
    have : ∀ t, t < 8 → t = 0 ∨ 5 ≤ t → BitVec.ofNat 8 t ≠ 4#8 ∧ BitVec.ofNat 8 t ≠ 1#8 ∧
      BitVec.ofNat 8 t ≠ 2#8 ∧ BitVec.ofNat 8 t ≠ 3#8 := by decide
    obtain ⟨a, b, c, d⟩ := this t h8 h
    simp [lengthCheck, a, b, c, d]
  rw [hlc _ (by omega) ht]

theorem wire_ne_nil (i : Ident) : i.wire ≠ [] := by
  cases i with
  | tmsi v => simp [Ident.wire]
  | num k ds =>
    intro h
    have := wire_length k ds
    rw [h] at this
    simp at this

theorem getD0_nibs (data : List Byte) (h : data ≠ []) :
    (data.getD 0 0#8).toNat % 16 = (nibs data).getD 0 0 := by
  cases data with
  | nil => exact absurd rfl h
  | cons x r => simp [nibs]

theorem last_nibs (data : List Byte) (h : data ≠ []) :
    (nibs data)[2 * data.length - 1]? = some ((data.getD (data.length - 1) 0#8).toNat / 16) := by
  have hl : 0 < data.length := List.length_pos_iff.2 h
  rw [nibs_getElem? data _ (by omega)]
  unfold nibbleAt
  have e1 : (2 * data.length - 1) / 2 = data.length - 1 := by omega
  have e2 : (2 * data.length - 1) % 2 = 1 := by omega
  simp [e1, e2]

/-- octets with a consistent filler are the encoding of the digits in them -/
theorem wire_of_data (data : List Byte) (k : Kind) (hd : data ≠ []) (ht : (data.getD 0 0#8).toNat % 8 = k.code)
    (hf : 8 ≤ (data.getD 0 0#8).toNat % 16 ∨ (data.getD (data.length - 1) 0#8).toNat / 16 = 15)
    (hk : k.okLen (digitsOf data)) :
    data = (Ident.num k (digitList data)).wire := by
  have hl : 0 < data.length := List.length_pos_iff.2 hd
  have hdl : (digitList data).length = digitsOf data := by
    unfold digitList
    rw [List.length_take, List.length_drop, nibs_length]
    have := digitsOf_le data hd
    omega
  have hsem : nibs data = (Ident.num k (digitList data)).semis := by
    have hcons : nibs data = (data.getD 0 0#8).toNat % 16 :: (nibs data).drop 1 := by
      cases data with
      | nil => exact absurd rfl hd
      | cons x r => simp [nibs]
    simp only [Ident.semis, hdl]
    by_cases ho : 8 ≤ (data.getD 0 0#8).toNat % 16
    · have hdo : digitsOf data = 2 * data.length - 1 := by unfold digitsOf; rw [if_pos ho]; omega
      rw [if_pos (by omega), if_pos (by omega), List.append_nil, hcons]
      unfold digitList
      rw [List.take_of_length_le (by rw [List.length_drop, nibs_length]; omega)]
      congr 1
      omega
    · have hdo : digitsOf data = 2 * data.length - 2 := by unfold digitsOf; rw [if_neg ho]; omega
      rw [if_neg (by omega), if_neg (by omega), hcons]
      have hlast := last_nibs data hd
      have h15 := hf.resolve_left ho
      rw [h15] at hlast
      have hpos : 0 < digitsOf data := by
        cases k <;> simp only [Kind.okLen] at hk <;> omega
      have hsplit : (nibs data).drop 1 = digitList data ++ [15] := by
        unfold digitList
        conv => lhs; rw [← List.take_append_drop (digitsOf data) ((nibs data).drop 1)]
        congr 1
        rw [List.drop_drop]
        apply List.ext_getElem?
        intro j
        rw [List.getElem?_drop]
        match j with
        | 0 => rw [show 1 + digitsOf data + 0 = 2 * data.length - 1 by omega, hlast]; rfl
        | j + 1 =>
          rw [List.getElem?_eq_none (by rw [nibs_length]; omega), List.getElem?_eq_none (by simp)]
      rw [hsplit]
      simp only [List.cons_append, List.cons.injEq, and_true]
      omega
  show data = packNibs _
  rw [← hsem, pack_nibs]

theorem digits_of_wire {k : Kind} {ds : List Nat} (h16 : ∀ d ∈ ds, d < 16) :
    ((Ident.num k ds).wire.getD 0 0#8).toNat % 8 = k.code ∧
    digitsOf (Ident.num k ds).wire = ds.length ∧ digitList (Ident.num k ds).wire = ds ∧
    (8 ≤ ((Ident.num k ds).wire.getD 0 0#8).toNat % 16 ∨
      ((Ident.num k ds).wire.getD ((Ident.num k ds).wire.length - 1) 0#8).toNat / 16 = 15) := by
  have hnil := wire_ne_nil (.num k ds)
  have hn := wire_nibs (k := k) h16
  have hlen := wire_length k ds
  have h0 := getD0_nibs _ hnil
  have hlast := last_nibs _ hnil
  rw [hn] at h0 hlast
  have hc : k.code < 8 := by cases k <;> decide
  have h0' : ((Ident.num k ds).wire.getD 0 0#8).toNat % 16 = k.code + if ds.length % 2 = 1 then 8 else 0 := by
    rw [h0]; simp [Ident.semis]
  have hdo : digitsOf (Ident.num k ds).wire = ds.length := by
    unfold digitsOf
    rw [h0', hlen]
    by_cases ho : ds.length % 2 = 1
    · rw [if_pos ho, if_pos (by omega)]; omega
    · rw [if_neg ho, if_neg (by omega)]; omega
  refine ⟨?_, hdo, ?_, ?_⟩
  · by_cases ho : ds.length % 2 = 1
    · rw [if_pos ho] at h0'; omega
    · rw [if_neg ho] at h0'; omega
  · unfold digitList
    rw [hdo, hn]
    simp only [Ident.semis, List.cons_append, List.drop_succ_cons, List.drop_zero]
    rw [List.take_append_of_le_length (Nat.le_refl _), List.take_length]
  · by_cases ho : ds.length % 2 = 1
    · left; rw [h0', if_pos ho]; omega
    · right
      rw [hlen] at hlast
      simp only [Ident.semis, if_neg ho] at hlast
      rw [List.getElem?_append_right (by simp; omega)] at hlast
      simp only [List.length_cons] at hlast
      rw [show 2 * ((ds.length + 2) / 2) - 1 - (ds.length + 1) = 0 by omega] at hlast
      simp only [List.getElem?_cons_zero, Option.some.injEq] at hlast
      rw [hlen]
      exact hlast.symm

/-- **C91a.** Decoding the standard's octets of a valid identity gives exactly
this identity, whatever follows them in memory. -/
theorem decode_wire (i : Ident) (hex : Bool) (h : i.Valid hex) (tail : List Byte) :
    decode (i.wire ++ tail) i.wire.length hex = some (i.canon, 0) := by
  cases i with
  | tmsi v =>
    rcases decode_tmsi (Ident.tmsi v).wire tail hex (wire_ne_nil _) (by simp [Ident.wire]) with ⟨w, h1, h2⟩ | ⟨h1, _⟩
    · rw [h2]
      have : w = v := by
        simp only [Ident.wire, List.cons.injEq, and_true, true_and] at h1
        obtain ⟨a, b, c, d⟩ := h1
        have a' := congrArg BitVec.toNat a
        have b' := congrArg BitVec.toNat b
        have c' := congrArg BitVec.toNat c
        have d' := congrArg BitVec.toNat d
        simp only [BitVec.toNat_ofNat] at a' b' c' d'
        have := v.isLt
        have := w.isLt
        apply BitVec.eq_of_toNat_eq
        omega
      rw [this]
    · exact absurd rfl (h1 v)
  | num k ds =>
    obtain ⟨a, b, c, d⟩ := digits_of_wire (k := k) h.lt16
    rw [decode_num _ tail hex k (wire_ne_nil _) a, b, c]
    rw [if_pos]
    refine ⟨h.1, d, ?_⟩
    intro hx e he
    have := h.2 e he
    rw [hx] at this
    simpa using this

/-- **C91b.** Nothing else is accepted: if decoding `len` octets succeeds, they
are the standard's encoding of a valid identity, and the result is that
identity.  Otherwise the structure is zeroed and the error is `-EINVAL` for an
unknown type of identity, `-EBADMSG` in all other cases.  No octet outside the
`len` given ones is needed. -/
theorem decode_only (data tail : List Byte) (hex : Bool) :
    (∃ i : Ident, i.Valid hex ∧ data = i.wire ∧ decode (data ++ tail) data.length hex = some (i.canon, 0)) ∨
    ((¬ ∃ i : Ident, i.Valid hex ∧ data = i.wire) ∧
      decode (data ++ tail) data.length hex =
        some ({ type := 0#8, u := List.replicate 17 0#8 },
          if data ≠ [] ∧ ((data.getD 0 0#8).toNat % 8 = 0 ∨ 5 ≤ (data.getD 0 0#8).toNat % 8)
            then -EINVAL else -EBADMSG)) := by
  by_cases hd : data = []
  · subst hd
    right
    refine ⟨?_, ?_⟩
    · rintro ⟨i, -, h⟩
      exact wire_ne_nil i h.symm
    · unfold decode
      simp [failed, zeroU]
  · by_cases hu : (data.getD 0 0#8).toNat % 8 = 0 ∨ 5 ≤ (data.getD 0 0#8).toNat % 8
    · right
      refine ⟨?_, ?_⟩
      · rintro ⟨i, hv, h⟩
        have h1 := decode_unknown data tail hex hd hu
        have h2 := decode_wire i hex hv tail
        rw [← h, h1] at h2
        simp [failed, EINVAL] at h2
      · rw [decode_unknown data tail hex hd hu, if_pos ⟨hd, hu⟩]
        rfl
    · rw [if_neg (fun h => hu h.2)]
      by_cases h4 : (data.getD 0 0#8).toNat % 8 = 4
      · rcases decode_tmsi data tail hex hd h4 with ⟨v, h1, h2⟩ | ⟨h1, h2⟩
        · exact .inl ⟨.tmsi v, trivial, h1, h2⟩
        · right
          refine ⟨?_, h2⟩
          rintro ⟨i, hv, h⟩
          have h3 := decode_wire i hex hv tail
          rw [← h, h2] at h3
          simp [failed, EBADMSG] at h3
      · have hk : ∃ k : Kind, (data.getD 0 0#8).toNat % 8 = k.code := by
          rcases (show (data.getD 0 0#8).toNat % 8 = 1 ∨ (data.getD 0 0#8).toNat % 8 = 2 ∨
            (data.getD 0 0#8).toNat % 8 = 3 by omega) with h | h | h
          · exact ⟨.imsi, h⟩
          · exact ⟨.imei, h⟩
          · exact ⟨.imeisv, h⟩
        obtain ⟨k, hk⟩ := hk
        have hdec := decode_num data tail hex k hd hk
        split at hdec
        · rename_i hc
          left
          refine ⟨.num k (digitList data), ⟨?_, ?_⟩, wire_of_data data k hd hk hc.2.1 hc.1, hdec⟩
          · have : (digitList data).length = digitsOf data := by
              unfold digitList
              rw [List.length_take, List.length_drop, nibs_length]
              have := digitsOf_le data hd
              omega
            rw [this]
            exact hc.1
          · intro d hm
            have h16 : d < 16 := by
              apply nibs_lt data
              exact List.mem_of_mem_drop (List.mem_of_mem_take hm)
            cases hex with
            | true => simpa using h16
            | false => simpa using hc.2.2 rfl d hm
        · right
          refine ⟨?_, hdec⟩
          rintro ⟨i, hv, h⟩
          have h3 := decode_wire i hex hv tail
          rw [← h, hdec] at h3
          simp [failed, EBADMSG] at h3

/-- non-vacuity: an IMSI with an even number of digits, an IMEI, a TMSI; a
missing filler, a hexadecimal digit and an unknown type are refused -/
example : (Ident.num .imsi [2, 6, 2, 4, 2, 0]).Valid false ∧
    (Ident.num .imsi [2, 6, 2, 4, 2, 0]).wire = [0x21, 0x26, 0x24, 0xf0] ∧
    (Ident.tmsi 0x1234abcd#32).wire = [0xf4, 0x12, 0x34, 0xab, 0xcd] ∧
    (decode [0x21, 0x26, 0x24, 0xf0, 0x77] 4 false).map (·.2) = some 0 ∧
    (decode [0x21, 0x26, 0x24, 0x00] 4 false).map (·.2) = some (-74) ∧
    (decode [0x21, 0x2a, 0x24, 0xf0] 4 false).map (·.2) = some (-74) ∧
    (decode [0x21, 0x2a, 0x24, 0xf0] 4 true).map (·.2) = some 0 ∧
    (decode [0x25, 0x26, 0x24, 0xf0] 4 false).map (·.2) = some (-22) := by
  refine ⟨⟨?_, ?_⟩, ?_⟩ <;> decide

end Verif.MobileId
