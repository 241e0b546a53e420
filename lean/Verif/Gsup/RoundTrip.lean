import Verif.Gsup.Stages
/-!
C130: what one side encodes, the other side decodes to the same message.
-/
namespace Verif.Gsup

theorem imsi_len (m : Msg) (h : MsgOk m) {bs : List Byte} (hp : Bcd.Packed m.imsi bs) : bs.length ≤ 8 := by
  have := hp.1
  have := h.imsi.1
  omega

/-- the message type and the IMSI -/
theorem head_eq (m : Msg) (h : MsgOk m) :
    ∃ bs, Bcd.Packed m.imsi bs ∧ encHead m = [.put [BitVec.ofNat 8 m.messageType], .put (tlv 0x01 bs)] := by
  have h1 := h.imsi.1
  obtain ⟨bs, hp, he⟩ := Bcd.encode_spec (List.replicate 32 0) 32 0 m.imsi h.imsi.2
    (by show 0 + (m.imsi.length + 1) / 2 ≤ 32; omega) (by simp; omega)
  refine ⟨bs, hp, ?_⟩
  have h8 := imsi_len m h hp
  have ht := h.messageType
  unfold encHead
  rw [if_neg (by omega), he]
  simp only
  rw [if_neg (by omega)]
  congr 2
  simp
  rw [show (1 + (bs.length : Int)).toNat - 1 = bs.length by omega, List.take_left']
  rfl

/-- decoding goes on behind the IMSI -/
theorem head_decodes (m : Msg) (h : MsgOk m) {bs : List Byte} (hp : Bcd.Packed m.imsi bs) (rest : List Byte) :
    decode ([BitVec.ofNat 8 m.messageType] ++ (tlv 0x01 bs ++ rest)) = loop topIe rest (st0 m) := by
  have h8 := imsi_len m h hp
  have h1 := h.imsi.1
  rw [tlv_eq (by omega)]
  have hn : (BitVec.ofNat 8 bs.length : Byte).toNat = bs.length := byte_toNat (by omega)
  have hs : Tlv.matchShiftTlv (0x01 :: BitVec.ofNat 8 bs.length :: bs ++ rest) 0x01 =
      { rc := (bs.length + 2 : Nat), rest := rest, window := some (2, bs.length) } := by
    simp only [Tlv.matchShiftTlv, Tlv.shiftTlv, List.cons_append, List.length_cons, List.length_append, hn]
    rw [if_neg (by omega)]
    simp
  have hv : ∀ d : List Byte, Tlv.shiftVFixed (BitVec.ofNat 8 m.messageType :: d) 1 =
      { rc := 1, rest := d, window := some (0, 1) } := by
    intro d
    rw [Tlv.shiftVFixed, if_neg (by simp)]
    rfl
  have hd := (Bcd.decode_spec 17 (BitVec.ofNat 8 bs.length :: bs) 0).2.2.2 _ bs (by omega) rfl (by omega)
  simp only [hn, List.take_length, List.drop_zero, Bcd.packed_filler h.imsi.2 hp] at hd
  rw [if_pos (by omega)] at hd
  have hstr : Bcd.cstr ((((Bcd.nibblesOf bs).map Bcd.charOf).take (17 - 1)) ++ [0]) = m.imsi := by
    rw [hp.2, Bcd.takeWhile_digits h.imsi.2 _ _ (by omega)]
    have : Bcd.cstr ((if m.imsi.length % 2 = 1 then ([0] : List Byte) else []).take (17 - 1 - m.imsi.length) ++ [0]) = [] := by
      split
      · cases 17 - 1 - m.imsi.length <;> simp [Bcd.cstr]
      · simp [Bcd.cstr]
    rw [this, List.append_nil]
  have e : ((0x01 :: BitVec.ofNat 8 bs.length :: bs ++ rest : List Byte).drop (2 - 1)).take (bs.length + 1) =
      BitVec.ofNat 8 bs.length :: bs := by simp
  unfold decode
  rw [List.singleton_append, hv]
  simp only
  rw [if_neg (by omega), hs]
  simp only
  rw [if_neg (by omega), if_neg (by omega), e, hd]
  simp only
  rw [if_neg (by simp), hstr]
  show loop topIe rest { messageType := decodeBe [BitVec.ofNat 8 m.messageType], imsi := m.imsi } = _
  rw [be1, byte_toNat h.messageType.2]
  rfl

/-! ## The only error for want of tailroom is that of the AN-APDU -/

/-- the errors for want of tailroom are `-EINVAL` -/
def needOk (ps : List Piece) : Prop := ∀ n rc, .need n rc ∈ ps → rc = -22

theorem needOk_nil : needOk [] := by intro n rc h; cases h

theorem needOk_cons {p : Piece} {ps : List Piece} (hp : ∀ n rc, p = .need n rc → rc = -22) (h : needOk ps) : needOk (p :: ps) := by
  intro n rc hm
  rcases List.mem_cons.1 hm with hh | hh
  · exact hp n rc hh.symm
  · exact h n rc hh

theorem needOk_append {a b : List Piece} (ha : needOk a) (hb : needOk b) : needOk (a ++ b) := by
  intro n rc hm
  rcases List.mem_append.1 hm with hh | hh
  · exact ha n rc hh
  · exact hb n rc hh

theorem needOk_put (bs : List Byte) : needOk [.put bs] := needOk_cons (fun _ _ h => by cases h) needOk_nil

theorem needOk_fail (rc : Int) : needOk [.fail rc] := needOk_cons (fun _ _ h => by cases h) needOk_nil

theorem needOk_undef : needOk [.undef] := needOk_cons (fun _ _ h => by cases h) needOk_nil

theorem need_opt (t : Byte) (o : Option (List Byte)) : needOk (putOpt t o) := by
  cases o
  · exact needOk_nil
  · exact needOk_put _

theorem need_u8 (t : Byte) (n : Nat) : needOk (putU8 t n) := by
  unfold putU8; split
  · exact needOk_put _
  · exact needOk_nil

theorem need_dec (t : Byte) (n : Nat) : needOk (putU8Dec t n) := by
  unfold putU8Dec; split
  · exact needOk_put _
  · exact needOk_nil

theorem need_enum (t : Byte) (n : Nat) : needOk (putEnum t n) := by
  unfold putEnum; split
  · exact needOk_put _
  · exact needOk_nil

theorem need_ptr (t : Byte) (o : Option (Option Byte)) : needOk (putPtr t o) := by
  match o with
  | none => exact needOk_nil
  | some none => exact needOk_undef
  | some (some _) => exact needOk_put _

theorem need_fixed (t : Byte) (n : Nat) (o : Option (List Byte)) : needOk (putFixed t n o) := by
  cases o
  · exact needOk_nil
  · unfold putFixed
    simp only
    split
    · exact needOk_undef
    · exact needOk_put _

theorem need_flag (b : Bool) (bs : List Byte) : needOk (if b then [.put bs] else []) := by
  cases b
  · exact needOk_nil
  · exact needOk_put _

theorem need_pdp (arr : List PdpInfo) : ∀ n idx, needOk (encodePdpInfos arr n idx)
  | 0, _ => needOk_nil
  | n + 1, idx => by
    unfold encodePdpInfos
    split
    · exact needOk_undef
    · refine needOk_append ?_ (need_pdp arr n (idx + 1))
      split
      · exact needOk_nil
      · split
        · unfold encodePdpInfo
          simp only
          split
          · split
            · exact needOk_undef
            · exact needOk_put _
          · exact needOk_put _
        · exact needOk_put _

theorem need_auths (arr : List AuthVec) : ∀ n idx, needOk (encodeAuthInfos arr n idx)
  | 0, _ => needOk_nil
  | n + 1, idx => by
    unfold encodeAuthInfos
    split
    · exact needOk_undef
    · refine needOk_append (a := [_]) ?_ (need_auths arr n (idx + 1))
      unfold encodeAuthInfo
      simp only
      split
      · exact needOk_undef
      · exact needOk_put _

theorem need_auth (m : Msg) : needOk (encAuth m) := by
  unfold encAuth; split
  · exact need_u8 _ _
  · exact need_auths _ _ _

theorem need_pco (m : Msg) : needOk (encPco m) := by
  unfold encPco; split
  · exact needOk_nil
  · split
    · split
      · exact needOk_fail _
      · exact needOk_put _
    · exact needOk_nil

theorem need_session (m : Msg) : needOk (encSession m) := by
  unfold encSession; split
  · exact needOk_append (a := [_]) (needOk_put _) (needOk_put _)
  · exact needOk_nil

theorem need_smRpOpt (t : Byte) (i : Bool) (ty : Nat) (id : Option (List Byte)) :
    needOk (if ty ≠ 0 then encodeSmRp t i ty id else []) := by
  split
  · unfold encodeSmRp
    simp only
    split
    · split
      · exact needOk_fail _
      · exact needOk_put _
    · split
      · exact needOk_put _
      · exact needOk_fail _
  · exact needOk_nil

theorem need_an (m : Msg) : needOk (encAnApdu m) := by
  unfold encAnApdu; split
  · refine needOk_cons (fun n rc h => ?_) (needOk_put _)
    cases h
    rfl
  · exact needOk_nil

theorem need_rat : ∀ (rs : List Nat) (n : Nat), needOk (encodeRats rs n)
  | [], _ => needOk_nil
  | _ :: _, 0 => needOk_undef
  | r :: rs, n + 1 => by
    unfold encodeRats; split
    · exact needOk_fail _
    · exact needOk_append (a := [_]) (needOk_put _) (need_rat rs n)

theorem need_rats (m : Msg) : needOk (encRats m) := by
  unfold encRats; split
  · exact needOk_append (a := [_]) (needOk_put _) (need_rat _ _)
  · exact needOk_nil

theorem need_tail (m : Msg) : needOk (encTail m).flatten := by
  unfold encTail
  refine needOk_append (b := List.flatten _) (need_opt _ _) ?_
  refine needOk_append (b := List.flatten _) (need_opt _ _) ?_
  refine needOk_append (b := List.flatten _) (need_u8 _ _) ?_
  refine needOk_append (b := List.flatten _) (need_dec _ _) ?_
  refine needOk_append (b := List.flatten _) (need_flag _ _) ?_
  refine needOk_append (b := List.flatten _) (need_flag _ _) ?_
  refine needOk_append (b := List.flatten _) (need_pdp _ _ _) ?_
  refine needOk_append (b := List.flatten _) (need_auth m) ?_
  refine needOk_append (b := List.flatten _) (need_fixed _ _ _) ?_
  refine needOk_append (b := List.flatten _) (need_fixed _ _ _) ?_
  refine needOk_append (b := List.flatten _) (need_pco m) ?_
  refine needOk_append (b := List.flatten _) (need_enum _ _) ?_
  refine needOk_append (b := List.flatten _) (need_opt _ _) ?_
  refine needOk_append (b := List.flatten _) (need_session m) ?_
  refine needOk_append (b := List.flatten _) (need_opt _ _) ?_
  refine needOk_append (b := List.flatten _) (need_ptr _ _) ?_
  refine needOk_append (b := List.flatten _) (need_smRpOpt _ _ _ _) ?_
  refine needOk_append (b := List.flatten _) (need_smRpOpt _ _ _ _) ?_
  refine needOk_append (b := List.flatten _) (need_opt _ _) ?_
  refine needOk_append (b := List.flatten _) (need_ptr _ _) ?_
  refine needOk_append (b := List.flatten _) (need_ptr _ _) ?_
  refine needOk_append (b := List.flatten _) (need_u8 _ _) ?_
  refine needOk_append (b := List.flatten _) (need_opt _ _) ?_
  refine needOk_append (b := List.flatten _) (need_dec _ _) ?_
  refine needOk_append (b := List.flatten _) (need_enum _ _) ?_
  refine needOk_append (b := List.flatten _) (need_opt _ _) ?_
  refine needOk_append (b := List.flatten _) (need_opt _ _) ?_
  refine needOk_append (b := List.flatten _) (need_an m) ?_
  refine needOk_append (b := List.flatten _) (need_flag _ _) ?_
  refine needOk_append (b := List.flatten _) (need_flag _ _) ?_
  refine needOk_append (b := List.flatten _) (need_u8 _ _) ?_
  refine needOk_append (b := List.flatten _) (need_rats m) ?_
  refine needOk_append (b := List.flatten _) (need_enum _ _) ?_
  exact needOk_nil

/-- C130: with enough tailroom a message is encoded to octets that are decoded
to the same message, in all of its fields; otherwise `msgb_put` stops the
program or the encoder returns an error -/
theorem round_trip (m : Msg) (h : MsgOk m) :
    ∃ bytes, decode bytes = .ok m ∧
      (∀ room, bytes.length ≤ room → encode room m = .done 0 bytes) ∧
      (∀ room, room < bytes.length → encode room m = .abort ∨ ∃ o, encode room m = .done (-22) o) := by
  obtain ⟨bs, hp, he⟩ := head_eq m h
  have hg : good (encHead m ++ (encTail m).flatten) := good_append (by rw [he]; trivial) (tail_good m h)
  refine ⟨bytesOf (encHead m ++ (encTail m).flatten), ?_, ?_, ?_⟩
  · rw [bytesOf_append, he]
    simp only [bytesOf, List.append_nil, List.append_assoc]
    rw [head_decodes m h hp, tail_decodes m h]
  · intro room hr
    have := run_good room _ [] hg (by simpa using hr)
    rwa [List.nil_append] at this
  · intro room hr
    rcases run_no_room room _ [] hg (by simp) (by simpa using hr) with h1 | ⟨n, rc, o, hn, h1⟩
    · exact .inl h1
    · right
      have : rc = -22 := needOk_append (by rw [he]; exact needOk_append (a := [_]) (needOk_put _) (needOk_put _)) (need_tail m) n rc hn
      rw [this] at h1
      exact ⟨o, h1⟩

end Verif.Gsup
