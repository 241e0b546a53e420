import Verif.Gsup.RoundTrip
/-!
C130: messages that do not come through.
-/
namespace Verif.Gsup

/-- a message with one PDP context -/
def onePdp (t : Nat) (imsi : List Byte) (p : PdpInfo) : Msg :=
  { messageType := t, imsi := imsi, pdpInfos := p :: List.replicate 9 {}, numPdp := 1 }

/-- what the beginning of a message needs -/
theorem bare_ok (t : Nat) (imsi : List Byte) (ht : 1 ≤ t ∧ t ≤ 255) (hi : imsi.length ≤ 16 ∧ ∀ c ∈ imsi, Bcd.isDigit c) :
    MsgOk { messageType := t, imsi := imsi } where
  messageType := ht
  imsi := hi
  msisdn := by intro v h; cases h
  hlr := by intro v h; cases h
  cause := by simp
  cancelType := by simp
  numPdp := by simp
  pdpLen := rfl
  pdp := by simp
  pdpRest := rfl
  authLen := rfl
  authReq := by simp
  numAuth := by simp
  auth := by simp
  authRest := by simp
  auts := by intro v h; cases h
  rand := by intro v h; cases h
  pco := by intro v h; cases h
  cnDomain := by simp
  pdpCharg := by intro v h; cases h
  sessionState := by simp
  sessionId := by simp
  ssInfo := by intro v h; cases h
  smRpMr := by simp [PtrOk]
  smRpDa := .inl ⟨rfl, rfl⟩
  smRpOa := .inl ⟨rfl, rfl⟩
  smRpUi := by intro v h; cases h
  smRpMms := by simp [PtrOk]
  smRpCause := by simp [PtrOk]
  smAlertRsn := by simp
  imei := by intro v h; cases h
  imeiResult := by simp
  messageClass := by simp
  sourceName := by intro v h; cases h
  destName := by intro v h; cases h
  an := by simp
  causeRr := by simp
  causeBssap := by simp
  causeSm := by simp
  rats := by simp
  currentRat := by simp

/-- a message of nothing but one more IE -/
theorem one_ie (t : Nat) (imsi : List Byte) (ht : 1 ≤ t ∧ t ≤ 255) (hi : imsi.length ≤ 16 ∧ ∀ c ∈ imsi, Bcd.isDigit c)
    (m : Msg) (hm : m.messageType = t ∧ m.imsi = imsi) (ie : List Byte) (htail : (encTail m).flatten = [.put ie]) :
    ∃ pre : List Byte, pre.length = 3 + (imsi.length + 1) / 2 ∧
      (∀ room, pre.length + ie.length ≤ room → encode room m = .done 0 (pre ++ ie)) ∧
      decode (pre ++ ie) = loop topIe ie { messageType := t, imsi := imsi } := by
  have hb := bare_ok t imsi ht hi
  obtain ⟨bs, hp, he⟩ := head_eq _ hb
  have hl := imsi_len _ hb hp
  have hh : encHead m = encHead { messageType := t, imsi := imsi } := by
    unfold encHead; rw [hm.1, hm.2]
  refine ⟨[BitVec.ofNat 8 t] ++ tlv 0x01 bs, ?_, ?_, ?_⟩
  · have := hp.1
    rw [List.length_append, tlv_length (by omega)]
    simp at this ⊢
    omega
  · intro room hr
    unfold encode
    rw [htail, hh, he]
    have := run_good room [.put [BitVec.ofNat 8 t], .put (tlv 0x01 bs), .put ie] [] trivial
      (by simp [bytesOf] at hr ⊢; omega)
    simpa [bytesOf] using this
  · rw [List.append_assoc]
    exact head_decodes _ hb hp ie

/-- C130: an IPv4v6 context with its two addresses is encoded without an error
(but only with the IPv4 address), and the result is rejected by the decoder -/
theorem ipv4v6_counterexample (t : Nat) (imsi : List Byte) (ht : 1 ≤ t ∧ t ≤ 255)
    (hi : imsi.length ≤ 16 ∧ ∀ c ∈ imsi, Bcd.isDigit c) (ctx : Nat) (hc : 1 ≤ ctx ∧ ctx ≤ 255)
    (a b : List Byte) (ha : a.length = 4) (_hb : b.length = 16) :
    ∃ bytes, (∀ room, bytes.length ≤ room →
        encode room (onePdp t imsi { contextId := ctx, haveInfo := true, typeOrg := 1, typeNr := 0x8d, addr0 := .inet a,
                                     addr1 := .inet6 b }) = .done 0 bytes) ∧
      decode bytes = .err (-111) := by
  match a, ha with
  | [a0, a1, a2, a3], _ =>
    obtain ⟨pre, _, h1, h2⟩ := one_ie t imsi ht hi
      (onePdp t imsi { contextId := ctx, haveInfo := true, typeOrg := 1, typeNr := 0x8d, addr0 := .inet [a0, a1, a2, a3], addr1 := .inet6 b })
      ⟨rfl, rfl⟩ [0x05, 11, 0x10, 1, BitVec.ofNat 8 ctx, 0x11, 6, 0xf1, 0x8d, a0, a1, a2, a3]
      (by
        have : ctx ≠ 0 := by omega
        simp [encTail, onePdp, encodePdpInfos, this, putOpt, putU8, putU8Dec, putEnum, putFixed, putPtr, encAuth, encPco,
          encSession, encAnApdu, encRats, encodeAuthInfos, SEND_AUTH_INFO_REQUEST, encodePdpInfo, pdpAddressValue, optBytes, tlv])
    refine ⟨_, fun room hr => h1 room (by simpa using hr), ?_⟩
    rw [h2]
    rfl

/-- C130: the RAND of a vector that is only for UMTS is not sent: the octets
do not depend on it -/
theorem umts_rand_counterexample (room : Nat) (t : Nat) (imsi : List Byte) (a : AuthVec) (rest : List AuthVec) (n : Nat) (r : List Byte)
    (hg : a.gsm = false) :
    encode room { messageType := t, imsi := imsi, authVecs := { a with rand := r } :: rest, numAuth := n } =
      encode room { messageType := t, imsi := imsi, authVecs := a :: rest, numAuth := n } := by
  have : ∀ n, encodeAuthInfos ({ a with rand := r } :: rest) n 0 = encodeAuthInfos (a :: rest) n 0 := by
    intro n
    have key : ∀ n idx, encodeAuthInfos ({ a with rand := r } :: rest) n (idx + 1) = encodeAuthInfos (a :: rest) n (idx + 1) := by
      intro n
      induction n with
      | zero => intro idx; rfl
      | succ n ih => intro idx; simp only [encodeAuthInfos, List.getElem?_cons_succ, ih]
    cases n with
    | zero => rfl
    | succ n =>
      simp only [encodeAuthInfos, List.getElem?_cons_zero, key]
      simp [encodeAuthInfo, hg]
  simp only [encode, encHead, encTail, encAuth, this]
  rfl

/-- C130: the length of an IE is one octet; a number of 256 octets is sent as
an empty one, without an error -/
theorem long_blob_counterexample (t : Nat) (imsi : List Byte) (ht : 1 ≤ t ∧ t ≤ 255)
    (hi : imsi.length ≤ 16 ∧ ∀ c ∈ imsi, Bcd.isDigit c) (v : List Byte) (hv : v.length = 256) :
    ∃ bytes, (∀ room, bytes.length ≤ room → encode room { messageType := t, imsi := imsi, msisdn := some v } = .done 0 bytes) ∧
      decode bytes = .ok { messageType := t, imsi := imsi, msisdn := some [] } := by
  obtain ⟨pre, _, h1, h2⟩ := one_ie t imsi ht hi { messageType := t, imsi := imsi, msisdn := some v } ⟨rfl, rfl⟩ [0x08, 0]
    (by
      simp [encTail, encodePdpInfos, putOpt, putU8, putU8Dec, putEnum, putFixed, putPtr, encAuth, encPco,
        encSession, encAnApdu, encRats, encodeAuthInfos, SEND_AUTH_INFO_REQUEST, tlv, hv])
  refine ⟨_, fun room hr => h1 room (by simpa using hr), ?_⟩
  rw [h2]
  rfl

/-- C130: the check of the tailroom for an AN-APDU forgets the octet of the
protocol: one octet too few stops the program instead of giving the error
that two octets too few give -/
theorem an_apdu_counterexample (t : Nat) (ht : 1 ≤ t ∧ t ≤ 255) (proto : Nat) (d : List Byte) (hp : proto ≠ 0) :
    encode (3 + (2 + d.length)) { messageType := t, anProto := proto, anData := d } = .abort ∧
    (∃ o, encode (3 + (1 + d.length)) { messageType := t, anProto := proto, anData := d } = .done (-22) o) ∧
    (∃ o, encode (3 + (3 + d.length)) { messageType := t, anProto := proto, anData := d } = .done 0 o) := by
  have ht0 : t ≠ 0 := by omega
  have hh : encHead { messageType := t, anProto := proto, anData := d } = [.put [BitVec.ofNat 8 t], .put [0x01, 0]] := by
    have he : Bcd.encodeNumber (List.replicate 32 0) 32 0 [] = some (1, List.replicate 32 0) := by decide
    unfold encHead
    rw [if_neg ht0]
    simp only [he]
    rfl
  have htail : (encTail { messageType := t, anProto := proto, anData := d }).flatten =
      [.need (2 + d.length) (-22), .put (0x62 :: BitVec.ofNat 8 (1 + d.length) :: BitVec.ofNat 8 proto :: d)] := by
    simp [encTail, encodePdpInfos, putOpt, putU8, putU8Dec, putEnum, putFixed, putPtr, encAuth, encPco,
      encSession, encAnApdu, encRats, encodeAuthInfos, SEND_AUTH_INFO_REQUEST, hp, EINVAL]
  unfold encode
  rw [hh, htail]
  refine ⟨?_, Exists.intro ([BitVec.ofNat 8 t] ++ [0x01, 0]) ?_, Exists.intro ([BitVec.ofNat 8 t] ++ [0x01, 0] ++ (0x62 :: BitVec.ofNat 8 (1 + d.length) :: BitVec.ofNat 8 proto :: d)) ?_⟩
  · simp only [List.cons_append, List.nil_append, run, List.length_cons, List.length_nil]
    rw [if_pos (by omega), if_pos (by omega), if_neg (by omega), if_neg (by omega)]
  · simp only [List.cons_append, List.nil_append, run, List.length_cons, List.length_nil]
    rw [if_pos (by omega), if_pos (by omega), if_pos (by omega)]
  · simp only [List.cons_append, List.nil_append, run, List.length_cons, List.length_nil]
    rw [if_pos (by omega), if_pos (by omega), if_neg (by omega), if_pos (by omega)]

end Verif.Gsup
