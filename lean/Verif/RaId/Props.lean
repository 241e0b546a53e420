import Verif.RaId.Model
import Verif.Gsm23003.Props
import Verif.MobileId.Encode
import Verif.Msgb.Spec
/-!
C92: location and routing area identities.
-/
namespace Verif.RaId
open Verif.Gsm23003 Verif.Msgb

/-! ### vocabulary -/

/-- decimal digits of MCC and MNC as the standard's six semi-octets: 1111 in
place of the third MNC digit if there are two -/
def plmnSemis (mcc mnc : Nat) (three : Prop) [Decidable three] : List Nat :=
  [mcc / 100 % 10, mcc / 10 % 10, mcc % 10] ++
    if three then [mnc % 10, mnc / 100 % 10, mnc / 10 % 10] else [15, mnc / 10 % 10, mnc % 10]

/-- the octets of a location area identity: the semi-octets two by two, lower
half first, and the LAC, most significant octet first -/
def laiWire (l : Lai) : List Byte :=
  MobileId.packNibs (plmnSemis l.plmn.mcc.toNat l.plmn.mnc.toNat (l.plmn.mnc3 = true ∨ 99 < l.plmn.mnc.toNat)) ++
    [BitVec.ofNat 8 (l.lac.toNat / 256), BitVec.ofNat 8 l.lac.toNat]

/-- the octets of a routing area identity -/
def raiWire (r : Rai) : List Byte := laiWire r.lai ++ [r.rac]

/-- the same identity in the other structure -/
def toRai (g : GprsRa) : Rai :=
  { lai := { plmn := { mcc := g.mcc, mnc := g.mnc, mnc3 := g.mnc3 }, lac := g.lac }, rac := g.rac }

/-- MCC and MNC have at most three digits -/
def InRange (l : Lai) : Prop := l.plmn.mcc.toNat < 1000 ∧ l.plmn.mnc.toNat < 1000

/-- the flag is ignored for an MNC above 99 -/
def Lai.norm (l : Lai) : Lai := { l with plmn := l.plmn.norm }
def Rai.norm (r : Rai) : Rai := { r with lai := Lai.norm r.lai }

/-- octets whose digits are decimal (or 1111 as the third digit of the MNC) -/
def Decimal (m : List Byte) : Prop :=
  ∃ x0 x1 x2 x3 x4 x5 rest, MobileId.nibs m = x0 :: x1 :: x2 :: x3 :: x4 :: x5 :: rest ∧
    x0 < 10 ∧ x1 < 10 ∧ x2 < 10 ∧ (x3 < 10 ∨ x3 = 15) ∧ x4 < 10 ∧ x5 < 10

/-! ### octets -/

theorem be16_eq (v : BitVec 16) : be16 v = [BitVec.ofNat 8 (v.toNat / 256), BitVec.ofNat 8 v.toNat] := by
  unfold be16
  congr 1
  · apply BitVec.eq_of_toNat_eq
    simp [Nat.shiftRight_eq_div_pow]

theorem ld16_eq (a b : Byte) : (ld16 a b).toNat = a.toNat * 256 + b.toNat := by
  have ha := a.isLt
  have hb := b.isLt
  unfold ld16
  rw [BitVec.toNat_or, BitVec.toNat_shiftLeft, BitVec.toNat_setWidth, BitVec.toNat_setWidth,
    Nat.mod_eq_of_lt (by omega : a.toNat < 2 ^ 16), Nat.mod_eq_of_lt (by omega : b.toNat < 2 ^ 16), Nat.shiftLeft_eq,
    Nat.mod_eq_of_lt (by omega), Nat.mul_comm, ← Nat.two_pow_add_eq_or_of_lt (by omega : b.toNat < 2 ^ 8)]

theorem ld16_be16 (v : BitVec 16) : ld16 (BitVec.ofNat 8 (v.toNat / 256)) (BitVec.ofNat 8 v.toNat) = v := by
  apply BitVec.eq_of_toNat_eq
  have := v.isLt
  rw [ld16_eq]
  simp only [BitVec.toNat_ofNat]
  omega

theorem be16_ld16 (a b : Byte) :
    [BitVec.ofNat 8 ((ld16 a b).toNat / 256), BitVec.ofNat 8 (ld16 a b).toNat] = [a, b] := by
  have ha := a.isLt
  have hb := b.isLt
  rw [ld16_eq]
  congr 1
  · apply BitVec.eq_of_toNat_eq; simp only [BitVec.toNat_ofNat]; omega
  · congr 1; apply BitVec.eq_of_toNat_eq; simp only [BitVec.toNat_ofNat]; omega

theorem plmn_octets (p : Plmn) :
    [(plmnToBcd p).1, (plmnToBcd p).2.1, (plmnToBcd p).2.2] =
      MobileId.packNibs (plmnSemis p.mcc.toNat p.mnc.toNat (p.mnc3 = true ∨ 99 < p.mnc.toNat)) := by
  have hs := semi_toBcd p
  have hgt : p.mnc > 99#16 ↔ 99 < p.mnc.toNat := BitVec.lt_def
  have hn : MobileId.nibs [(plmnToBcd p).1, (plmnToBcd p).2.1, (plmnToBcd p).2.2] = semi (plmnToBcd p) := rfl
  rw [← MobileId.pack_nibs [(plmnToBcd p).1, (plmnToBcd p).2.1, (plmnToBcd p).2.2], hn, hs]
  congr 1
  unfold plmnSemis
  have e : ∀ n : Nat, n / 10 / 10 = n / 100 := fun n => by omega
  by_cases c : p.mnc > 99#16 ∨ p.mnc3 = true
  · rw [if_pos c, if_pos (by rw [hgt] at c; exact c.symm)]
    simp only [e, List.cons_append, List.nil_append]
  · rw [if_neg c, if_neg (by rw [hgt] at c; exact fun h => c h.symm)]
    simp only [e, List.cons_append, List.nil_append]

theorem generateLai2_wire (l : Lai) : generateLai2 l = laiWire l := by
  unfold generateLai2 laiWire
  dsimp only
  rw [plmn_octets, be16_eq]

theorem laiWire_length (l : Lai) : (laiWire l).length = 5 := by
  rw [← generateLai2_wire]; rfl

theorem raiWire_length (r : Rai) : (raiWire r).length = 6 := by simp [raiWire, laiWire_length]

/-- **C92a.** `osmo_routing_area_id_encode_buf` writes the six octets of the
standard and nothing else (for values above 999: of the three lowest digits);
a smaller buffer is refused untouched. -/
theorem raiEncode_spec (buf : List Byte) (r : Rai) :
    raiEncodeBuf buf r =
      some (if buf.length < 6 then (buf, -ENOSPC) else (raiWire r ++ buf.drop 6, 6)) := by
  unfold raiEncodeBuf
  by_cases h : buf.length < 6
  · rw [if_pos h, if_pos h]
  · rw [if_neg h, if_neg h, generateLai2_wire]
    have hl := laiWire_length r.lai
    have w1 := writeAt_eq_some (mem := buf) (o := 0) (bs := laiWire r.lai) (by omega)
    simp only [Int.natCast_zero, List.take_zero, List.nil_append, Nat.zero_add, hl] at w1
    rw [w1, Option.bind_some]
    have w2 := writeAt_eq_some (mem := laiWire r.lai ++ buf.drop 5) (o := 5) (bs := [r.rac]) (by simp [hl]; omega)
    have e5 : ((5 : Nat) : Int) = 5 := rfl
    rw [e5] at w2
    rw [w2, Option.map_some]
    congr 2
    rw [List.take_left' hl]
    simp only [List.length_singleton, raiWire]
    congr 1
    rw [show 5 + 1 = (laiWire r.lai).length + 1 by rw [hl], List.drop_append, List.drop_eq_nil_of_le (by omega),
      List.nil_append, List.drop_drop, hl]

/-- **C92b.** `gsm48_encode_ra` and `gsm48_construct_ra` write the same octets,
for all values of the fields. -/
theorem encodeRa_spec (g : GprsRa) : encodeRa g = raiWire (toRai g) := by
  rw [raiWire, ← generateLai2_wire]
  unfold encodeRa generateLai2 toRai
  have e100 : ∀ v : BitVec 16, v / 100#16 % 10#16 = v / 10#16 / 10#16 % 10#16 := by
    intro v
    apply BitVec.eq_of_toNat_eq
    simp only [BitVec.toNat_umod, BitVec.toNat_udiv]
    show v.toNat / 100 % 10 = v.toNat / 10 / 10 % 10
    omega
  have sh : ∀ v : BitVec 16, u8 ((v % 10#16) <<< 4) = (BitVec.setWidth 8 (v % 10#16)) <<< 4 := by
    intro v
    apply BitVec.eq_of_toNat_eq
    have : (v % 10#16).toNat < 10 := by
      simp only [BitVec.toNat_umod]; exact Nat.mod_lt _ (by decide)
    simp only [u8, BitVec.toNat_setWidth, BitVec.toNat_shiftLeft, Nat.shiftLeft_eq]
    omega
  have hc : (g.mnc < 100#16 ∧ g.mnc3 = false) ↔ ¬ (g.mnc > 99#16 ∨ g.mnc3 = true) := by
    have a : g.mnc < 100#16 ↔ g.mnc.toNat < 100 := BitVec.lt_def
    have b : g.mnc > 99#16 ↔ 99 < g.mnc.toNat := BitVec.lt_def
    rw [a, b]
    cases g.mnc3 <;> simp
    omega
  unfold plmnToBcd toBcd
  dsimp only
  by_cases c : g.mnc > 99#16 ∨ g.mnc3 = true
  · rw [if_pos c, if_neg (by rw [hc]; exact fun h => h c)]
    simp only [e100, sh, List.append_assoc]; rfl
  · rw [if_neg c, if_pos (hc.2 c)]
    simp only [e100, sh, List.append_assoc]; rfl

/-- **C92c.** `osmo_routing_area_id_decode` inverts the encoding, whatever
follows in memory. -/
theorem raiDecode_wire (r : Rai) (tail : List Byte) (h : InRange r.lai) :
    raiDecode (raiWire r ++ tail) = some (some (Rai.norm r), 6) := by
  obtain ⟨⟨p, lac⟩, rac⟩ := r
  unfold raiDecode
  rw [if_neg (by simp [raiWire_length])]
  have hw : raiWire ⟨⟨p, lac⟩, rac⟩ ++ tail = (plmnToBcd p).1 :: (plmnToBcd p).2.1 :: (plmnToBcd p).2.2 ::
      BitVec.ofNat 8 (lac.toNat / 256) :: BitVec.ofNat 8 lac.toNat :: rac :: tail := by
    unfold raiWire
    rw [← generateLai2_wire]
    unfold generateLai2
    dsimp only
    rw [be16_eq]
    rfl
  rw [hw]
  simp only [decodeLai2, Option.bind_some, List.getElem?_cons_succ, List.getElem?_cons_zero, Option.map_some]
  rw [ld16_be16, plmn_roundtrip p h.1 h.2]
  rfl

theorem raiDecode_total (m : List Byte) :
    (m.length < 6 ∧ raiDecode m = some (none, -ENOSPC)) ∨
    (∃ r, 6 ≤ m.length ∧ raiDecode m = some (some r, 6)) := by
  match m with
  | [] | [_] | [_, _] | [_, _, _] | [_, _, _, _] | [_, _, _, _, _] => left; exact ⟨by simp, rfl⟩
  | a :: b :: c :: d :: e :: f :: rest =>
    right
    exact ⟨_, by simp, by simp [raiDecode, decodeLai2]; rfl⟩

/-- **C92d.** and the encoding reproduces received octets whose digits are decimal. -/
theorem raiDecode_encode (m : List Byte) (hd : Decimal m) (r : Rai) (rc : Int) (h : raiDecode m = some (some r, rc)) :
    rc = 6 ∧ raiWire r = m.take 6 := by
  match m with
  | [] | [_] | [_, _] | [_, _, _] | [_, _, _, _] | [_, _, _, _, _] => simp [raiDecode] at h
  | a :: b :: c :: d :: e :: f :: rest =>
    simp only [raiDecode, decodeLai2, Option.bind_some, List.getElem?_cons_succ, List.getElem?_cons_zero,
      Option.map_some, List.length_cons] at h
    rw [if_neg (by omega)] at h
    simp only [Option.some.injEq, Prod.mk.injEq] at h
    obtain ⟨rfl, rfl⟩ := h
    refine ⟨rfl, ?_⟩
    obtain ⟨x0, x1, x2, x3, x4, x5, r', hn, h0, h1, h2, h3, h4, h5⟩ := hd
    simp only [MobileId.nibs, List.cons.injEq] at hn
    obtain ⟨n0, n1, n2, n3, n4, n5, -⟩ := hn
    have hb := bcd_roundtrip (a, b, c) x0 x1 x2 x3 x4 x5 (by unfold semi; simp only [n0, n1, n2, n3, n4, n5])
      h0 h1 h2 h3 h4 h5
    unfold raiWire
    rw [← generateLai2_wire]
    unfold generateLai2
    dsimp only
    rw [hb, be16_eq, be16_ld16]
    rfl

/-- **C92e.** `gsm48_parse_ra` reads the same identity as
`osmo_routing_area_id_decode`, for all octets. -/
theorem parseRa_spec (m : List Byte) (r : Rai) (rc : Int) (h : raiDecode m = some (some r, rc)) :
    (parseRa m).map toRai = some r := by
  match m with
  | [] | [_] | [_, _] | [_, _, _] | [_, _, _, _] | [_, _, _, _, _] => simp [raiDecode] at h
  | b0 :: b1 :: b2 :: b3 :: b4 :: b5 :: rest =>
    simp only [raiDecode, decodeLai2, Option.bind_some, List.getElem?_cons_succ, List.getElem?_cons_zero,
      Option.map_some, List.length_cons] at h
    rw [if_neg (by omega)] at h
    simp only [Option.some.injEq, Prod.mk.injEq] at h
    obtain ⟨rfl, -⟩ := h
    have hc : ∀ b : BitVec 8, (b >>> 4 = 0x0f#8) ↔ (b &&& 0xf0#8 = 0xf0#8) := by decide +kernel
    unfold parseRa plmnFromBcd
    dsimp only [Option.map_some]
    by_cases c : b1 &&& 0xf0#8 = 0xf0#8
    · rw [if_pos c, if_pos ((hc b1).2 c)]
      simp [toRai]
    · rw [if_neg c, if_neg (fun h => c ((hc b1).1 h))]
      simp [toRai]

/-- **C92f.** `gsm48_ra_equal` is equality of all the fields. -/
theorem raEqual_iff (a b : GprsRa) : raEqual a b = true ↔ a = b := by
  obtain ⟨a1, a2, a3, a4, a5⟩ := a
  obtain ⟨b1, b2, b3, b4, b5⟩ := b
  unfold raEqual
  dsimp only
  constructor
  · intro h
    repeat' split at h
    all_goals first | exact absurd h (by decide) | skip
    simp_all
  · intro h
    simp only [GprsRa.mk.injEq] at h
    obtain ⟨rfl, rfl, rfl, rfl, rfl⟩ := h
    simp

/-- **C92g.** What is parsed back after `gsm48_construct_ra`: the same identity,
but `gsm48_ra_equal` says so only if the flag was set for an MNC above 99
(`osmo_rai_cmp` always does). -/
theorem construct_parse (g : GprsRa) (tail : List Byte) (h : g.mcc.toNat < 1000 ∧ g.mnc.toNat < 1000) :
    ∃ g', parseRa (encodeRa g ++ tail) = some g' ∧ raiCmp (toRai g) (toRai g') = 0 ∧
      (raEqual g g' = true ↔ (99 < g.mnc.toNat → g.mnc3 = true)) := by
  have hd := raiDecode_wire (toRai g) tail h
  rw [← encodeRa_spec] at hd
  have hp := parseRa_spec _ _ _ hd
  obtain ⟨g', hg, hg'⟩ := Option.map_eq_some_iff.1 hp
  refine ⟨g', hg, ?_, ?_⟩
  · rw [hg', raiCmp_lex.eq]
    simp only [Rai.key, Lai.key, Plmn.key, mncKey, Rai.norm, Lai.norm, Plmn.norm]
    congr 3
    simp only [List.cons.injEq, true_and, and_true, Bool.or_eq_true, decide_eq_true_eq]
    have this : ((toRai g).lai.plmn.mnc3 = true ∨ 99 < (toRai g).lai.plmn.mnc.toNat) ↔
      (((toRai g).lai.plmn.mnc3 = true ∨ 99 < (toRai g).lai.plmn.mnc.toNat) ∨ 99 < (toRai g).lai.plmn.mnc.toNat) := by
      constructor
      · exact Or.inl
      · rintro (h | h)
        · exact h
        · exact .inr h
    exact if_congr this rfl rfl
  · rw [raEqual_iff]
    obtain ⟨a1, a2, a3, a4, a5⟩ := g
    obtain ⟨b1, b2, b3, b4, b5⟩ := g'
    simp only [toRai, Rai.norm, Lai.norm, Plmn.norm, Gsm23003.Rai.mk.injEq, Gsm23003.Lai.mk.injEq,
      Gsm23003.Plmn.mk.injEq] at hg'
    obtain ⟨⟨⟨rfl, rfl, h3⟩, rfl⟩, rfl⟩ := hg'
    simp only [GprsRa.mk.injEq, true_and, and_true, h3]
    cases a3
    · simp only [Bool.false_or, Bool.false_eq_true, imp_false]
      by_cases c : 99 < b2.toNat <;> simp [c]
    · simp

/-- so an identity does not always compare equal to itself read back -/
theorem ra_equal_counterexample :
    ∃ g g' : GprsRa, parseRa (encodeRa g) = some g' ∧ g.mcc.toNat < 1000 ∧ g.mnc.toNat < 1000 ∧ raEqual g g' = false :=
  ⟨{ mcc := 1, mnc := 123, mnc3 := false, lac := 7, rac := 9 }, { mcc := 1, mnc := 123, mnc3 := true, lac := 7, rac := 9 },
    by decide, by decide, by decide, by decide⟩

/-! ### location area -/

/-- **C92h.** Location area identities are encoded as in the standard and read
back; nothing behind the five octets is looked at. -/
theorem lai_roundtrip (l : Lai) (tail : List Byte) :
    generateLai2 l = laiWire l ∧ (InRange l → decodeLai2 (laiWire l ++ tail) = some (Lai.norm l)) := by
  refine ⟨generateLai2_wire l, fun h => ?_⟩
  obtain ⟨p, lac⟩ := l
  rw [← generateLai2_wire]
  unfold generateLai2
  dsimp only
  rw [be16_eq]
  simp only [List.cons_append, List.nil_append, decodeLai2]
  rw [ld16_be16, plmn_roundtrip p h.1 h.2]
  rfl

/-- **C92i.** The legacy functions without the flag: the numbers come back, and
the octets are those of the flag's natural value. -/
theorem legacy_lai (mcc mnc lac : BitVec 16) (tail : List Byte) (h1 : mcc.toNat < 1000) (h2 : mnc.toNat < 1000) :
    generateLai mcc mnc lac = laiWire ⟨⟨mcc, mnc, decide (99 < mnc.toNat)⟩, lac⟩ ∧
    decodeLai (generateLai mcc mnc lac ++ tail) = some (mcc, mnc, lac) ∧
    mccMncFromBcd (mccMncToBcd mcc mnc) = (mcc, mnc) := by
  have hr := (lai_roundtrip ⟨⟨mcc, mnc, false⟩, lac⟩ tail).2 ⟨h1, h2⟩
  refine ⟨?_, ?_, ?_⟩
  · unfold generateLai
    rw [generateLai2_wire]
    unfold laiWire
    simp
  · unfold generateLai decodeLai
    rw [generateLai2_wire, hr]
    rfl
  · unfold mccMncFromBcd mccMncToBcd
    dsimp only
    rw [plmn_roundtrip _ h1 h2]
    rfl

/-- Through the legacy functions an MNC of three digits with leading zero
becomes another one. -/
theorem legacy_leading_zero_counterexample :
    ∃ l : Lai, InRange l ∧ ∃ mcc mnc lac, decodeLai (laiWire l) = some (mcc, mnc, lac) ∧
      generateLai mcc mnc lac ≠ laiWire l :=
  ⟨⟨⟨262, 7, true⟩, 1⟩, by unfold InRange; decide, 262, 7, 1, by decide, by decide⟩

/-! ### appending to a message -/

/-- **C92j.** Appending to a message: if the encoder fits `n` octets into the
tail room they are appended to the payload, else the message is unchanged. -/
theorem encodeMsgb_spec (enc : List Byte → Option (List Byte × Int)) (w : List Byte) (err : List Byte → Int)
    (hw : 0 < w.length) (henc : ∀ buf, err buf < 0 ∧
      enc buf = some (if buf.length < w.length then (buf, err buf) else (w ++ buf.drop w.length, (w.length : Int))))
    (m : Msgb) (d : Deq) (h : Presents m d) :
    if d.tr < w.length then encodeMsgb enc m = some (m, err (m.mem.drop m.tail.toNat))
    else ∃ m', encodeMsgb enc m = some (m', (w.length : Int)) ∧
      Presents m' { d with pl := d.pl ++ w, tr := d.tr - w.length } := by
  obtain ⟨h1, h2, h3, h4, h5, pre, post, h6, h7, h8⟩ := h
  have hml : m.mem.length = d.hr + d.pl.length + d.tr := by rw [h6]; simp; omega
  have htail : m.tail.toNat = (pre ++ d.pl).length := by rw [h3]; simp; omega
  have hdrop : m.mem.drop m.tail.toNat = post := by rw [htail, h6, List.drop_left]
  have htake : m.mem.take m.tail.toNat = pre ++ d.pl := by rw [htail, h6, List.take_left]
  have henc' : encodeMsgb enc m = (enc post).bind fun r =>
      if r.2 ≤ 0 then some (m, r.2)
      else some ((({ m with mem := m.mem.take m.tail.toNat ++ r.1 } : Msgb).put r.2.toNat).2, r.2) := by
    unfold encodeMsgb
    rw [if_neg (by omega), hdrop]
  obtain ⟨e1, e3⟩ := henc post
  rw [h8] at e3
  by_cases c : d.tr < w.length
  · rw [if_pos c]
    rw [if_pos c] at e3
    rw [henc', e3, Option.bind_some, hdrop]
    dsimp only
    rw [if_pos (by omega)]
  · rw [if_neg c]
    rw [if_neg c] at e3
    refine ⟨_, by rw [henc', e3, Option.bind_some]; dsimp only; rw [if_neg (by omega)], ?_⟩
    rw [htake]
    unfold Msgb.put
    refine ⟨h1, h2, ?_, ?_, ?_, pre, post.drop w.length, ?_, h7, ?_⟩
    · simp only [List.length_append]; omega
    · simp only [List.length_append, toU16]; omega
    · simp only [List.length_append, List.length_drop]; omega
    · simp
    · simp [h8]

/-- **C92k.** `osmo_routing_area_id_encode_msgb` -/
theorem raiEncodeMsgb_spec (m : Msgb) (d : Deq) (h : Presents m d) (r : Rai) :
    if d.tr < 6 then raiEncodeMsgb m r = some (m, -ENOSPC)
    else ∃ m', raiEncodeMsgb m r = some (m', 6) ∧ Presents m' { d with pl := d.pl ++ raiWire r, tr := d.tr - 6 } := by
  have := encodeMsgb_spec (raiEncodeBuf · r) (raiWire r) (fun _ => -ENOSPC) (by simp [raiWire_length])
    (fun buf => ⟨by decide, by rw [raiEncode_spec, raiWire_length]; rfl⟩) m d h
  rw [raiWire_length] at this
  by_cases c : d.tr < 6
  · rw [if_pos c] at this ⊢
    exact this
  · rw [if_neg c] at this ⊢
    exact this

/-- **C92l.** `osmo_mobile_identity_encode_msgb` -/
theorem miEncodeMsgb_spec (m : Msgb) (d : Deq) (h : Presents m d) (mi : MobileId.MobId) (i : MobileId.Ident) (hex : Bool)
    (hd : MobileId.Denotes mi i) (hv : i.Valid hex) :
    if d.tr < i.wire.length then ∃ e, e < 0 ∧ miEncodeMsgb m (some mi) hex = some (m, e)
    else ∃ m', miEncodeMsgb m (some mi) hex = some (m', (i.wire.length : Int)) ∧
      Presents m' { d with pl := d.pl ++ i.wire, tr := d.tr - i.wire.length } := by
  have hl : 0 < i.wire.length := List.length_pos_iff.2 (MobileId.wire_ne_nil i)
  have := encodeMsgb_spec (MobileId.encodeBuf · (some mi) hex) i.wire
    (fun buf => if buf = [] then -MobileId.EIO else -MobileId.ENOSPC) hl
    (fun buf => ⟨by split <;> decide, by
      rw [(MobileId.encode_spec mi i buf hex hd hv).2]
      by_cases hb : buf = []
      · subst hb; simp [hl]
      · rw [if_neg hb, if_neg hb]⟩) m d h
  by_cases c : d.tr < i.wire.length
  · rw [if_pos c] at this ⊢
    exact ⟨_, by split <;> decide, this⟩
  · rw [if_neg c] at this ⊢
    exact this

/-- non-vacuity: RAI 262-42-13135-7 -/
example : raiWire ⟨⟨⟨262, 42, false⟩, 13135⟩, 7⟩ = [0x62, 0xf2, 0x24, 0x33, 0x4f, 7] ∧
    raiDecode [0x62, 0xf2, 0x24, 0x33, 0x4f, 7] = some (some ⟨⟨⟨262, 42, false⟩, 13135⟩, 7⟩, 6) := by decide +kernel

end Verif.RaId
