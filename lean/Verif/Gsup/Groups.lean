import Verif.Gsup.Fields
/-!
The IEs that are made of more than one field.
-/
namespace Verif.Gsup

/-! ## PDP contexts -/

theorem loop_opt {α : Type} (f : α → Byte → List Byte → List Byte → Res α) (t : Byte) (o : Option (List Byte)) (rest : List Byte)
    (a a' : α) (hv : ieSize o ≤ 257) (hn : o = none → a = a') (hs : ∀ v, o = some v → f a t v rest = .ok a') :
    loop f (optBytes t o ++ rest) a = loop f rest a' := by
  cases o with
  | none => rw [hn rfl]; rfl
  | some v => exact loop_tlv f t v rest a a' (by simp only [ieSize] at hv; omega) (hs v rfl)

theorem tlv_length {t : Byte} {v : List Byte} (h : v.length < 256) : (tlv t v).length = 2 + v.length := by
  rw [tlv_eq h]; simp; omega

theorem optBytes_length (t : Byte) (o : Option (List Byte)) (h : ieSize o ≤ 257) : (optBytes t o).length = ieSize o := by
  cases o with
  | none => rfl
  | some v => exact tlv_length (by simp only [ieSize] at h; omega)

/-- the address, as octets -/
def addrBytes : Addr → List Byte
  | .unspec => []
  | .inet a => a
  | .inet6 a => a

theorem pdpAddress_value {p : PdpInfo} (h : PdpOk p) : pdpAddressValue p = some (0xf1 :: p.typeNr :: addrBytes p.addr0) := by
  unfold pdpAddressValue
  rcases h.addr with ha | ⟨ht, a, hl, ha⟩ | ⟨ht, a, hl, ha⟩
  · rw [ha]; simp [addrBytes]
  · rw [ha, ht]; simp [addrBytes]
  · rw [ha, ht]; simp [addrBytes]

theorem pdpAddress_decode {p : PdpInfo} (h : PdpOk p) (ho : p.typeOrg = 1) (q : PdpInfo) :
    decodePdpAddress (0xf1 :: p.typeNr :: addrBytes p.addr0) q =
      .ok { q with typeOrg := p.typeOrg, typeNr := p.typeNr, addr0 := p.addr0, addr1 := p.addr1 } := by
  rw [ho, h.noAddr1]
  have h1 : (0xf1 : Byte) &&& 0x0f = 1 := by decide
  unfold decodePdpAddress
  simp only [h1]
  rcases h.addr with ha | ⟨ht, a, hl, ha⟩ | ⟨ht, a, hl, ha⟩
  · rw [ha]; simp [addrBytes]
  · rw [ha, ht]; simp [addrBytes, hl]
  · rw [ha, ht]; simp [addrBytes, hl]

theorem addrBytes_length (a : Addr) : (addrBytes a).length = addrSize a := by cases a <;> rfl

/-- the octets of a PDP info -/
def pdpInner (p : PdpInfo) : List Byte :=
  tlv 0x10 [BitVec.ofNat 8 p.contextId] ++
  ((if p.typeOrg = 1 then tlv 0x11 (0xf1 :: p.typeNr :: addrBytes p.addr0) else []) ++
  (optBytes 0x12 p.apn ++ (optBytes 0x13 p.qos ++ (optBytes 0x14 p.charg ++ []))))

theorem pdpInner_length {p : PdpInfo} (h : PdpOk p) : (pdpInner p).length ≤ 255 := by
  have hs := h.size
  simp only [pdpInner, List.length_append]
  rw [tlv_length (by simp), optBytes_length _ _ (by omega), optBytes_length _ _ (by omega), optBytes_length _ _ (by omega)]
  split
  · rename_i ho
    rw [if_pos ho] at hs
    rw [tlv_length (by simp only [List.length_cons, addrBytes_length]; omega)]
    simp only [List.length_cons, List.length_nil, addrBytes_length]
    omega
  · rename_i ho
    rw [if_neg ho] at hs
    simp only [List.length_cons, List.length_nil]
    omega

theorem encodePdpInfo_eq {p : PdpInfo} (h : PdpOk p) :
    encodePdpInfo p = .put (0x05 :: BitVec.ofNat 8 (pdpInner p).length :: pdpInner p) := by
  unfold encodePdpInfo pdpInner
  by_cases ho : p.typeOrg = 1
  · simp only [ho, if_true, pdpAddress_value h, List.append_nil, List.append_assoc]
  · simp only [ho, if_false, List.append_nil, List.append_assoc, List.nil_append]

theorem decodePdpInfo_eq {p : PdpInfo} (h : PdpOk p) : decodePdpInfo (pdpInner p) = .ok { p with haveInfo := false } := by
  have hs := h.size
  show loop (fun p t v _ => pdpInfoIe p t v) (pdpInner p) {} = _
  rw [pdpInner]
  rw [loop_tlv (a' := { contextId := p.contextId }) _ _ _ _ _ (by simp)
    (by
      show Res.ok ({ contextId := u32 (decodeBe [BitVec.ofNat 8 p.contextId]) } : PdpInfo) = _
      rw [be1_u32 h.ctx.2])]
  have hstep : loop (fun p t v _ => pdpInfoIe p t v)
      ((if p.typeOrg = 1 then tlv 0x11 (0xf1 :: p.typeNr :: addrBytes p.addr0) else []) ++
        (optBytes 0x12 p.apn ++ (optBytes 0x13 p.qos ++ (optBytes 0x14 p.charg ++ [])))) { contextId := p.contextId } =
      loop (fun p t v _ => pdpInfoIe p t v) (optBytes 0x12 p.apn ++ (optBytes 0x13 p.qos ++ (optBytes 0x14 p.charg ++ [])))
        { contextId := p.contextId, typeOrg := p.typeOrg, typeNr := p.typeNr, addr0 := p.addr0, addr1 := p.addr1 } := by
    by_cases ho : p.typeOrg = 1
    · rw [if_pos ho]
      rw [if_pos ho] at hs
      refine loop_tlv _ _ _ _ _ _ (by simp only [List.length_cons, addrBytes_length]; omega) ?_
      exact pdpAddress_decode h ho _
    · rw [if_neg ho]
      obtain ⟨h1, h2, h3⟩ := h.noType ho
      rw [h1, h2, h3, h.noAddr1]
      rfl
  rw [hstep]
  rw [loop_opt (a' :=
    { contextId := p.contextId, typeOrg := p.typeOrg, typeNr := p.typeNr, addr0 := p.addr0,
      addr1 := p.addr1, apn := p.apn }) _ _ _ _ _ (by omega) (fun hn => by rw [hn]) (fun v hv => by rw [hv]; rfl)]
  rw [loop_opt (a' :=
    { contextId := p.contextId, typeOrg := p.typeOrg, typeNr := p.typeNr, addr0 := p.addr0,
      addr1 := p.addr1, apn := p.apn, qos := p.qos }) _ _ _ _ _ (by omega) (fun hn => by rw [hn]) (fun v hv => by rw [hv]; rfl)]
  rw [loop_opt (a' := { p with haveInfo := false }) _ _ _ _ _ (by omega) (fun hn => by rw [hn]) (fun v hv => by rw [hv]; rfl)]
  rfl

theorem set_next {α : Type} (d : α) (arr : List α) (n idx : Nat) (p : α) (h : arr[idx]? = some p) (hn : idx < n) :
    (arr.take idx ++ List.replicate (n - idx) d).set idx p = arr.take (idx + 1) ++ List.replicate (n - (idx + 1)) d := by
  have hlt : idx < arr.length := by
    rcases Nat.lt_or_ge idx arr.length with hh | hh
    · exact hh
    · rw [List.getElem?_eq_none hh] at h; cases h
  have hl : (arr.take idx).length = idx := by simp; omega
  rw [List.set_append_right _ _ (by omega), hl, Nat.sub_self, show n - idx = (n - (idx + 1)) + 1 by omega, List.replicate_succ,
    List.set_cons_zero, List.take_add_one, h]
  simp

theorem encodePdpInfos_loop (arr : List PdpInfo) : ∀ (n idx : Nat) (acc : Msg) (rest : List Byte),
    (∀ i p, i < idx + n → arr[i]? = some p → PdpOk p) → idx + n ≤ 10 → arr.length = 10 →
    acc.numPdp = idx → acc.pdpInfos = arr.take idx ++ List.replicate (10 - idx) ({} : PdpInfo) →
    good (encodePdpInfos arr n idx) ∧
    loop topIe (bytesOf (encodePdpInfos arr n idx) ++ rest) acc =
      loop topIe rest { acc with pdpInfos := arr.take (idx + n) ++ List.replicate (10 - (idx + n)) ({} : PdpInfo), numPdp := idx + n } := by
  intro n
  induction n with
  | zero =>
    intro idx acc rest _ _ _ hn hp
    refine ⟨trivial, ?_⟩
    rw [Nat.add_zero, ← hp, ← hn]
    rfl
  | succ n ih =>
    intro idx acc rest hok h10 hlen hn hp
    have hget : arr[idx]? = some (arr[idx]'(by omega)) := List.getElem?_eq_getElem _
    generalize arr[idx]'(by omega) = p at hget
    have hpo := hok idx p (by omega) hget
    have hset := set_next ({} : PdpInfo) arr 10 idx p hget (by omega)
    rw [encodePdpInfos, hget]
    simp only
    rw [if_neg (by have := hpo.ctx; omega)]
    have key : ∀ (bs : List Byte), loop topIe (bs ++ (bytesOf (encodePdpInfos arr n (idx + 1)) ++ rest)) acc =
        loop topIe (bytesOf (encodePdpInfos arr n (idx + 1)) ++ rest)
          { acc with pdpInfos := acc.pdpInfos.set acc.numPdp p, numPdp := acc.numPdp + 1 } →
        good (encodePdpInfos arr n (idx + 1)) ∧
        loop topIe (bytesOf ([Piece.put bs] ++ encodePdpInfos arr n (idx + 1)) ++ rest) acc =
          loop topIe rest { acc with pdpInfos := arr.take (idx + (n + 1)) ++ List.replicate (10 - (idx + (n + 1))) {},
                                     numPdp := idx + (n + 1) } := by
      intro bs hbs
      obtain ⟨hg, hl⟩ := ih (idx + 1) { acc with pdpInfos := acc.pdpInfos.set acc.numPdp p, numPdp := acc.numPdp + 1 } rest
        (fun i q hi hq => hok i q (by omega) hq) (by omega) hlen (by simp only [hn]) (by simp only [hn, hp, hset])
      refine ⟨hg, ?_⟩
      rw [bytesOf_append, bytesOf_one, List.append_assoc, hbs, hl, show idx + 1 + n = idx + (n + 1) by omega]
    cases hi : p.haveInfo with
    | true =>
      simp only [if_true]
      rw [encodePdpInfo_eq hpo]
      obtain ⟨hg, hl⟩ := key _ (by
        have hil := pdpInner_length hpo
        rw [loop_cons _ _ _ _ _ _ (by rw [byte_toNat hil])]
        have : topIe acc 5 (pdpInner p) (bytesOf (encodePdpInfos arr n (idx + 1)) ++ rest) =
            .ok { acc with pdpInfos := acc.pdpInfos.set acc.numPdp p, numPdp := acc.numPdp + 1 } := by
          show (if acc.numPdp ≥ 10 then Res.err (-COND_IE_ERR)
            else match decodePdpInfo (pdpInner p) with
              | .undef => .undef
              | .err rc => .err rc
              | .ok p => .ok { acc with pdpInfos := acc.pdpInfos.set acc.numPdp { p with haveInfo := true },
                                        numPdp := acc.numPdp + 1 }) = _
          rw [if_neg (by omega), decodePdpInfo_eq hpo]
          have : ({ p with haveInfo := true } : PdpInfo) = p := by rw [← hi]
          simp only [this]
        rw [this])
      exact ⟨hg, hl⟩
    | false =>
      simp only [Bool.false_eq_true, if_false]
      obtain ⟨hg, hl⟩ := key (tlv 0x10 [BitVec.ofNat 8 p.contextId]) (by
        refine loop_tlv topIe _ _ _ _ _ (by simp) ?_
        show (if acc.numPdp ≥ 10 then Res.err (-COND_IE_ERR)
          else .ok { acc with pdpInfos := acc.pdpInfos.set acc.numPdp { contextId := u32 (decodeBe [BitVec.ofNat 8 p.contextId]) },
                              numPdp := acc.numPdp + 1 }) = _
        rw [if_neg (by omega), be1_u32 hpo.ctx.2, ← hpo.bare hi])
      exact ⟨hg, hl⟩

/-! ## Authentication vectors -/

/-- the octets of a vector -/
def vecInner (a : AuthVec) : List Byte :=
  (if a.gsm then tlv 0x20 a.rand ++ tlv 0x21 a.sres ++ tlv 0x22 a.kc else []) ++
  (if a.umts then tlv 0x23 a.ik ++ tlv 0x24 a.ck ++ tlv 0x25 a.autn ++ tlv 0x27 (a.res.take a.resLen) else [])

theorem vecInner_length {a : AuthVec} (h : VecOk a) : (vecInner a).length ≤ 255 := by
  have h1 := h.resLen
  have h2 := h.res
  have h3 : (a.res.take a.resLen).length ≤ 16 := by simp; omega
  unfold vecInner
  rw [List.length_append]
  have g : (if a.gsm = true then tlv 0x20 a.rand ++ tlv 0x21 a.sres ++ tlv 0x22 a.kc else []).length ≤ 34 := by
    split
    · simp only [List.length_append]
      rw [tlv_length (by rw [h.rand]; omega), tlv_length (by rw [h.sres]; omega), tlv_length (by rw [h.kc]; omega),
        h.rand, h.sres, h.kc]
    · simp
  have u : (if a.umts = true then tlv 0x23 a.ik ++ tlv 0x24 a.ck ++ tlv 0x25 a.autn ++ tlv 0x27 (a.res.take a.resLen)
      else []).length ≤ 72 := by
    split
    · simp only [List.length_append]
      rw [tlv_length (by rw [h.ik]; omega), tlv_length (by rw [h.ck]; omega), tlv_length (by rw [h.autn]; omega),
        tlv_length (by omega), h.ik, h.ck, h.autn]
      omega
    · simp
  omega

theorem encodeAuthInfo_eq {a : AuthVec} (h : VecOk a) :
    encodeAuthInfo a = .put (0x03 :: BitVec.ofNat 8 (vecInner a).length :: vecInner a) := by
  have := h.resLen
  unfold encodeAuthInfo vecInner
  simp only
  rw [if_neg (by omega)]

theorem decodeAuthInfo_eq {a : AuthVec} (h : VecOk a) : decodeAuthInfo (vecInner a) = .ok a := by
  show loop (fun a t v _ => authInfoIe a t v) (vecInner a) {} = _
  have hrl : (a.res.take a.resLen).length = a.resLen := by
    have := h.res
    have := h.resLen
    simp
    omega
  have hg : ∀ rest, loop (fun a t v _ => authInfoIe a t v)
      ((if a.gsm = true then tlv 0x20 a.rand ++ tlv 0x21 a.sres ++ tlv 0x22 a.kc else []) ++ rest) {} =
      loop (fun a t v _ => authInfoIe a t v) rest { rand := a.rand, sres := a.sres, kc := a.kc, gsm := a.gsm } := by
    intro rest
    cases hgs : a.gsm with
    | false =>
      obtain ⟨h1, h2, h3⟩ := h.noGsm hgs
      rw [h1, h2, h3]
      rfl
    | true =>
      simp only [if_true, List.append_assoc]
      rw [loop_tlv (a' := { rand := a.rand, gsm := true }) _ _ _ _ _ (by rw [h.rand]; omega)
        (by
          show (if a.rand.length ≠ 16 then Res.err (-1) else _) = _
          rw [if_neg (by rw [h.rand]; omega)])]
      rw [loop_tlv (a' := { rand := a.rand, sres := a.sres, gsm := true }) _ _ _ _ _ (by rw [h.sres]; omega)
        (by
          show (if a.sres.length ≠ 4 then Res.err (-1) else _) = _
          rw [if_neg (by rw [h.sres]; omega)])]
      rw [loop_tlv (a' := { rand := a.rand, sres := a.sres, kc := a.kc, gsm := true }) _ _ _ _ _ (by rw [h.kc]; omega)
        (by
          show (if a.kc.length ≠ 8 then Res.err (-1) else _) = _
          rw [if_neg (by rw [h.kc]; omega)])]
  rw [vecInner, hg]
  cases hum : a.umts with
  | false =>
    obtain ⟨h1, h2, h3, h4⟩ := h.noUmts hum
    have h5 := h.resTail
    rw [h4, List.drop_zero] at h5
    have : a = { rand := a.rand, sres := a.sres, kc := a.kc, gsm := a.gsm } := by
      cases a
      simp only at h1 h2 h3 h4 h5 hum
      subst h1 h2 h3 h4 h5 hum
      rfl
    rw [← this]
    rfl
  | true =>
    simp only [if_true, List.append_assoc]
    rw [loop_tlv (a' := { rand := a.rand, sres := a.sres, kc := a.kc, gsm := a.gsm, ik := a.ik, umts := true }) _ _ _ _ _
      (by rw [h.ik]; omega)
      (by
        show (if a.ik.length ≠ 16 then Res.err (-1) else _) = _
        rw [if_neg (by rw [h.ik]; omega)])]
    rw [loop_tlv (a' := { rand := a.rand, sres := a.sres, kc := a.kc, gsm := a.gsm, ik := a.ik, ck := a.ck, umts := true })
      _ _ _ _ _ (by rw [h.ck]; omega)
      (by
        show (if a.ck.length ≠ 16 then Res.err (-1) else _) = _
        rw [if_neg (by rw [h.ck]; omega)])]
    rw [loop_tlv (a' := { rand := a.rand, sres := a.sres, kc := a.kc, gsm := a.gsm, ik := a.ik, ck := a.ck, autn := a.autn,
                          umts := true }) _ _ _ _ _ (by rw [h.autn]; omega)
      (by
        show (if a.autn.length ≠ 16 then Res.err (-1) else _) = _
        rw [if_neg (by rw [h.autn]; omega)])]
    have e : tlv 0x27 (a.res.take a.resLen) = tlv 0x27 (a.res.take a.resLen) ++ [] := by simp
    rw [e, loop_tlv (a' := a) _ _ _ _ _ (by have := h.resLen; omega)
      (by
        show (if (a.res.take a.resLen).length > 16 then Res.err (-1) else
          Res.ok ({ rand := a.rand, sres := a.sres, kc := a.kc, gsm := a.gsm, ik := a.ik, ck := a.ck, autn := a.autn, umts := true,
                    res := a.res.take a.resLen ++ (List.replicate 16 0).drop (a.res.take a.resLen).length,
                    resLen := (a.res.take a.resLen).length } : AuthVec)) = _
        rw [hrl, if_neg (by have := h.resLen; omega), List.drop_replicate, ← h.resTail, List.take_append_drop, ← hum])]
    rfl

theorem encodeAuthInfos_loop (arr : List AuthVec) : ∀ (n idx : Nat) (acc : Msg) (rest : List Byte),
    (∀ i a, i < idx + n → arr[i]? = some a → VecOk a) → idx + n ≤ 5 → arr.length = 5 →
    acc.numAuth = idx → acc.authVecs = arr.take idx ++ List.replicate (5 - idx) ({} : AuthVec) →
    good (encodeAuthInfos arr n idx) ∧
    loop topIe (bytesOf (encodeAuthInfos arr n idx) ++ rest) acc =
      loop topIe rest { acc with authVecs := arr.take (idx + n) ++ List.replicate (5 - (idx + n)) ({} : AuthVec), numAuth := idx + n } := by
  intro n
  induction n with
  | zero =>
    intro idx acc rest _ _ _ hn hp
    refine ⟨trivial, ?_⟩
    rw [Nat.add_zero, ← hp, ← hn]
    rfl
  | succ n ih =>
    intro idx acc rest hok h5 hlen hn hp
    have hget : arr[idx]? = some (arr[idx]'(by omega)) := List.getElem?_eq_getElem _
    generalize arr[idx]'(by omega) = a at hget
    have hao := hok idx a (by omega) hget
    have hset := set_next ({} : AuthVec) arr 5 idx a hget (by omega)
    rw [encodeAuthInfos, hget]
    simp only
    rw [encodeAuthInfo_eq hao]
    obtain ⟨hg, hl⟩ := ih (idx + 1) { acc with authVecs := acc.authVecs.set acc.numAuth a, numAuth := acc.numAuth + 1 } rest
      (fun i q hi hq => hok i q (by omega) hq) (by omega) hlen (by simp only [hn]) (by simp only [hn, hp, hset])
    refine ⟨hg, ?_⟩
    rw [bytesOf, List.append_assoc, loop_cons _ _ _ _ _ _ (by rw [byte_toNat (vecInner_length hao)])]
    have : topIe acc 3 (vecInner a) (bytesOf (encodeAuthInfos arr n (idx + 1)) ++ rest) =
        .ok { acc with authVecs := acc.authVecs.set acc.numAuth a, numAuth := acc.numAuth + 1 } := by
      show (if acc.numAuth ≥ 5 then Res.err (-INV_MAND_INFO)
        else match decodeAuthInfo (vecInner a) with
          | .undef => .undef
          | .err rc => .err rc
          | .ok a => .ok { acc with authVecs := acc.authVecs.set acc.numAuth a, numAuth := acc.numAuth + 1 }) = _
      rw [if_neg (by omega), decodeAuthInfo_eq hao]
    rw [this]
    simp only
    rw [hl, show idx + 1 + n = idx + (n + 1) by omega]

theorem mem_take_of_get {α : Type} {l : List α} {i n : Nat} {x : α} (h : l[i]? = some x) (hi : i < n) : x ∈ l.take n := by
  have : (l.take n)[i]? = some x := by rw [List.getElem?_take, if_pos hi, h]
  exact List.mem_of_getElem? this

theorem g_pdp (m acc : Msg) (rest : List Byte) (h : MsgOk m) (h1 : acc.numPdp = 0) (h2 : acc.pdpInfos = List.replicate 10 ({} : PdpInfo)) :
    good (encodePdpInfos m.pdpInfos m.numPdp 0) ∧
    loop topIe (bytesOf (encodePdpInfos m.pdpInfos m.numPdp 0) ++ rest) acc =
      loop topIe rest { acc with pdpInfos := m.pdpInfos, numPdp := m.numPdp } := by
  have key := encodePdpInfos_loop m.pdpInfos m.numPdp 0 acc rest
    (fun i p hi hp => h.pdp p (mem_take_of_get hp (by omega))) (by have := h.numPdp; omega) h.pdpLen h1 (by rw [h2]; rfl)
  rw [Nat.zero_add, ← h.pdpRest, List.take_append_drop] at key
  exact key

theorem g_auth (m acc : Msg) (rest : List Byte) (h : MsgOk m) (h0 : acc.messageType = m.messageType)
    (h1 : acc.numAuth = 0) (h2 : acc.authVecs = List.replicate 5 ({} : AuthVec)) :
    good (encAuth m) ∧
    loop topIe (bytesOf (encAuth m) ++ rest) acc =
      loop topIe rest { acc with authVecs := m.authVecs, numAuth := m.numAuth } := by
  unfold encAuth
  by_cases hr : m.messageType = SEND_AUTH_INFO_REQUEST
  · obtain ⟨h3, h4⟩ := h.authReq hr
    rw [if_pos hr]
    refine ⟨good_u8 _ _, ?_⟩
    rw [h4, ← h2]
    by_cases hz : m.numAuth = 0
    · rw [hz, putU8, if_neg (by simp), ← h1]
      rfl
    · rw [putU8, if_pos (fun hh => hz ((byte_eq_zero h3).1 hh)), bytesOf_one]
      refine loop_tlv topIe _ [BitVec.ofNat 8 m.numAuth] rest acc _ (by simp) ?_
      show (if acc.messageType = SEND_AUTH_INFO_REQUEST then
        Res.ok { acc with numAuth := (BitVec.ofNat 8 m.numAuth : Byte).toNat } else Res.ok acc) = _
      rw [if_pos (by rw [h0, hr]), byte_toNat h3]
  · rw [if_neg hr]
    have key := encodeAuthInfos_loop m.authVecs m.numAuth 0 acc rest
      (fun i p hi hp => h.auth hr p (mem_take_of_get hp (by omega))) (by have := h.numAuth hr; omega) h.authLen h1
      (by rw [h2]; rfl)
    rw [Nat.zero_add, ← h.authRest hr, List.take_append_drop] at key
    exact key

/-! ## The others -/

theorem g_pco (m acc : Msg) (rest : List Byte) (h : ∀ v, m.pco = some v → 1 ≤ v.length ∧ v.length ≤ 251) (hd : acc.pco = none) :
    good (encPco m) ∧ loop topIe (bytesOf (encPco m) ++ rest) acc = loop topIe rest { acc with pco := m.pco } := by
  unfold encPco
  cases hp : m.pco with
  | none =>
    refine ⟨trivial, ?_⟩
    show loop topIe rest acc = _
    rw [← hd]
  | some v =>
    obtain ⟨h1, h2⟩ := h v hp
    simp only
    rw [if_pos (by omega), if_neg (by omega)]
    refine ⟨trivial, ?_⟩
    rw [bytesOf_one]
    exact loop_tlv topIe _ v rest acc _ (by omega) rfl

theorem be32 {n : Nat} (h : n < 2 ^ 32) : u32 (decodeBe (encodeBe32 n)) = n := by
  simp only [encodeBe32, decodeBe, List.foldl_cons, List.foldl_nil, BitVec.toNat_ofNat, u32]
  omega

theorem g_session (m acc : Msg) (rest : List Byte) (h1 : m.sessionState ≤ 255)
    (h2 : m.sessionId < 2 ^ 32 ∧ (m.sessionState = 0 → m.sessionId = 0)) (hd : acc.sessionState = 0) (hd2 : acc.sessionId = 0) :
    good (encSession m) ∧
    loop topIe (bytesOf (encSession m) ++ rest) acc =
      loop topIe rest { acc with sessionId := m.sessionId, sessionState := m.sessionState } := by
  unfold encSession
  by_cases hz : m.sessionState = 0
  · rw [if_neg (by simp [hz])]
    refine ⟨trivial, ?_⟩
    rw [hz, h2.2 hz]
    show loop topIe rest acc = _
    have : ({ acc with sessionId := 0, sessionState := 0 } : Msg) = acc := by
      cases acc
      simp only at hd hd2
      subst hd hd2
      rfl
    rw [this]
  · rw [if_pos (fun hh => hz ((byte_eq_zero h1).1 hh))]
    refine ⟨trivial, ?_⟩
    simp only [bytesOf, List.append_assoc, List.append_nil]
    rw [loop_tlv (a' := { acc with sessionId := m.sessionId }) topIe _ (encodeBe32 m.sessionId) _ acc (by simp [encodeBe32])
      (by
        show Res.ok { acc with sessionId := u32 (decodeBe (encodeBe32 m.sessionId)) } = _
        rw [be32 h2.1])]
    refine loop_tlv topIe _ [BitVec.ofNat 8 m.sessionState] rest _ _ (by simp) ?_
    show Res.ok { acc with sessionId := m.sessionId, sessionState := (BitVec.ofNat 8 m.sessionState : Byte).toNat } = _
    rw [byte_toNat h1]

theorem smRp (tag : Byte) (imsi : Bool) (types : List Nat) (htypes : types = if imsi then [1, 2, 3] else [2, 3])
    (type : Nat) (id : Option (List Byte)) (h : SmRpOk types type id) (h0 : type ≠ 0) :
    ∃ v, encodeSmRp tag imsi type id = [.put (tag :: BitVec.ofNat 8 v.length :: v)] ∧ v.length ≤ 255 ∧
      decodeSmRp v = .ok (type, id) := by
  rcases h with ⟨h, _⟩ | ⟨ht, v, hv, h1, h2⟩ | ⟨ht, hv⟩
  · exact absurd h h0
  · subst hv
    refine ⟨BitVec.ofNat 8 type :: v, ?_, by simp; omega, ?_⟩
    · unfold encodeSmRp
      simp only [Option.getD_some, List.length_cons]
      rw [if_pos, if_neg (by omega)]
      cases imsi <;> simp [htypes] at ht ⊢ <;> omega
    · have hv : v ≠ [] := by rintro rfl; simp at h1
      have : type = 1 ∨ type = 2 ∨ type = 3 := by
        cases imsi <;> simp [htypes] at ht <;> omega
      rcases this with rfl | rfl | rfl <;> simp [decodeSmRp, hv]
  · subst hv
    subst ht
    refine ⟨[BitVec.ofNat 8 255], ?_, by simp, by simp [decodeSmRp]⟩
    unfold encodeSmRp
    simp

theorem g_da (m acc : Msg) (rest : List Byte) (h : SmRpOk [1, 2, 3] m.smRpDaType m.smRpDa) (hd : acc.smRpDaType = 0)
    (hd2 : acc.smRpDa = none) :
    good (if m.smRpDaType ≠ 0 then encodeSmRp 0x41 true m.smRpDaType m.smRpDa else []) ∧
    loop topIe (bytesOf (if m.smRpDaType ≠ 0 then encodeSmRp 0x41 true m.smRpDaType m.smRpDa else []) ++ rest) acc =
      loop topIe rest { acc with smRpDaType := m.smRpDaType, smRpDa := m.smRpDa } := by
  by_cases h0 : m.smRpDaType = 0
  · rw [if_neg (by omega)]
    refine ⟨trivial, ?_⟩
    have hn : m.smRpDa = none := by
      rcases h with h | h | h
      · exact h.2
      · rw [h0] at h; simp at h
      · rw [h0] at h; simp at h
    rw [h0, hn]
    show loop topIe rest acc = _
    have : ({ acc with smRpDaType := 0, smRpDa := none } : Msg) = acc := by
      cases acc
      simp only at hd hd2
      subst hd hd2
      rfl
    rw [this]
  · rw [if_pos h0]
    obtain ⟨v, he, hl, hdec⟩ := smRp 0x41 true [1, 2, 3] rfl _ _ h h0
    rw [he]
    refine ⟨trivial, ?_⟩
    rw [bytesOf_one, loop_cons _ _ _ _ _ _ (by rw [byte_toNat hl])]
    have : topIe acc 0x41 v rest = .ok { acc with smRpDaType := m.smRpDaType, smRpDa := m.smRpDa } := by
      show (match decodeSmRp v with
        | .undef => Res.undef
        | .err rc => .err rc
        | .ok (t, id) => Res.ok { acc with smRpDaType := t, smRpDa := id }) = _
      rw [hdec]
    rw [this]

theorem g_oa (m acc : Msg) (rest : List Byte) (h : SmRpOk [2, 3] m.smRpOaType m.smRpOa) (hd : acc.smRpOaType = 0)
    (hd2 : acc.smRpOa = none) :
    good (if m.smRpOaType ≠ 0 then encodeSmRp 0x42 false m.smRpOaType m.smRpOa else []) ∧
    loop topIe (bytesOf (if m.smRpOaType ≠ 0 then encodeSmRp 0x42 false m.smRpOaType m.smRpOa else []) ++ rest) acc =
      loop topIe rest { acc with smRpOaType := m.smRpOaType, smRpOa := m.smRpOa } := by
  by_cases h0 : m.smRpOaType = 0
  · rw [if_neg (by omega)]
    refine ⟨trivial, ?_⟩
    have hn : m.smRpOa = none := by
      rcases h with h | h | h
      · exact h.2
      · rw [h0] at h; simp at h
      · rw [h0] at h; simp at h
    rw [h0, hn]
    show loop topIe rest acc = _
    have : ({ acc with smRpOaType := 0, smRpOa := none } : Msg) = acc := by
      cases acc
      simp only at hd hd2
      subst hd hd2
      rfl
    rw [this]
  · rw [if_pos h0]
    obtain ⟨v, he, hl, hdec⟩ := smRp 0x42 false [2, 3] rfl _ _ h h0
    rw [he]
    refine ⟨trivial, ?_⟩
    rw [bytesOf_one, loop_cons _ _ _ _ _ _ (by rw [byte_toNat hl])]
    have : topIe acc 0x42 v rest = .ok { acc with smRpOaType := m.smRpOaType, smRpOa := m.smRpOa } := by
      show (match decodeSmRp v with
        | .undef => Res.undef
        | .err rc => .err rc
        | .ok (t, id) => Res.ok { acc with smRpOaType := t, smRpOa := id }) = _
      rw [hdec]
    rw [this]

theorem g_an (m acc : Msg) (rest : List Byte) (h : m.anProto ≤ 255 ∧ m.anData.length ≤ 254) (hd : acc.anProto = 0)
    (hd2 : acc.anData = []) :
    good (encAnApdu m) ∧
    loop topIe (bytesOf (encAnApdu m) ++ rest) acc = loop topIe rest { acc with anProto := m.anProto, anData := m.anData } := by
  unfold encAnApdu
  by_cases hc : m.anProto ≠ 0 ∨ m.anData.length ≠ 0
  · rw [if_pos hc]
    refine ⟨⟨by simp [bytesOf]; omega, trivial⟩, ?_⟩
    simp only [bytesOf, List.append_nil]
    have e : (0x62 :: BitVec.ofNat 8 (1 + m.anData.length) :: BitVec.ofNat 8 m.anProto :: m.anData ++ rest : List Byte) =
        0x62 :: BitVec.ofNat 8 (1 + m.anData.length) :: (BitVec.ofNat 8 m.anProto :: m.anData) ++ rest := rfl
    rw [e, loop_cons _ _ _ _ _ _ (by rw [byte_toNat (by omega)]; simp; omega)]
    show loop topIe rest { acc with anProto := (BitVec.ofNat 8 m.anProto : Byte).toNat, anData := m.anData } = _
    rw [byte_toNat h.1]
  · have h1 : m.anProto = 0 := by omega
    have h2 : m.anData = [] := List.eq_nil_of_length_eq_zero (by omega)
    rw [if_neg hc, h1, h2]
    refine ⟨trivial, ?_⟩
    show loop topIe rest acc = _
    have : ({ acc with anProto := 0, anData := [] } : Msg) = acc := by
      cases acc
      simp only at hd hd2
      subst hd hd2
      rfl
    rw [this]

theorem g_rr (m acc : Msg) (rest : List Byte) (h : m.causeRr ≤ 255 ∧ (m.causeRrSet = false → m.causeRr = 0))
    (hd : acc.causeRr = 0) (hd2 : acc.causeRrSet = false) :
    good (if m.causeRrSet then [Piece.put (tlv 0x63 [BitVec.ofNat 8 m.causeRr])] else []) ∧
    loop topIe (bytesOf (if m.causeRrSet then [Piece.put (tlv 0x63 [BitVec.ofNat 8 m.causeRr])] else []) ++ rest) acc =
      loop topIe rest { acc with causeRr := m.causeRr, causeRrSet := m.causeRrSet } := by
  cases hs : m.causeRrSet with
  | false =>
    refine ⟨trivial, ?_⟩
    rw [h.2 hs]
    show loop topIe rest acc = _
    have : ({ acc with causeRr := 0, causeRrSet := false } : Msg) = acc := by
      cases acc
      simp only at hd hd2
      subst hd hd2
      rfl
    rw [this]
  | true =>
    refine ⟨trivial, ?_⟩
    rw [if_pos rfl, bytesOf_one]
    refine loop_tlv topIe _ [BitVec.ofNat 8 m.causeRr] rest acc _ (by simp) ?_
    show Res.ok { acc with causeRr := (BitVec.ofNat 8 m.causeRr : Byte).toNat, causeRrSet := true } = _
    rw [byte_toNat h.1]

theorem g_bssap (m acc : Msg) (rest : List Byte) (h : m.causeBssap ≤ 255 ∧ (m.causeBssapSet = false → m.causeBssap = 0))
    (hd : acc.causeBssap = 0) (hd2 : acc.causeBssapSet = false) :
    good (if m.causeBssapSet then [Piece.put (tlv 0x64 [BitVec.ofNat 8 m.causeBssap])] else []) ∧
    loop topIe (bytesOf (if m.causeBssapSet then [Piece.put (tlv 0x64 [BitVec.ofNat 8 m.causeBssap])] else []) ++ rest) acc =
      loop topIe rest { acc with causeBssap := m.causeBssap, causeBssapSet := m.causeBssapSet } := by
  cases hs : m.causeBssapSet with
  | false =>
    refine ⟨trivial, ?_⟩
    rw [h.2 hs]
    show loop topIe rest acc = _
    have : ({ acc with causeBssap := 0, causeBssapSet := false } : Msg) = acc := by
      cases acc
      simp only at hd hd2
      subst hd hd2
      rfl
    rw [this]
  | true =>
    refine ⟨trivial, ?_⟩
    rw [if_pos rfl, bytesOf_one]
    refine loop_tlv topIe _ [BitVec.ofNat 8 m.causeBssap] rest acc _ (by simp) ?_
    show Res.ok { acc with causeBssap := (BitVec.ofNat 8 m.causeBssap : Byte).toNat, causeBssapSet := true } = _
    rw [byte_toNat h.1]

theorem rats_eq : ∀ (rs : List Nat) (n : Nat), rs.length ≤ n → (∀ r ∈ rs, 1 ≤ r ∧ r ≤ 3) →
    good (encodeRats rs n) ∧ bytesOf (encodeRats rs n) = rs.map (BitVec.ofNat 8)
  | [], n, _, _ => by cases n <;> exact ⟨trivial, rfl⟩
  | r :: rs, 0, h, _ => by simp at h
  | r :: rs, n + 1, h, hr => by
    obtain ⟨h1, h2⟩ := rats_eq rs n (by simpa using h) fun x hx => hr x (by simp [hx])
    have := hr r (by simp)
    rw [encodeRats, if_neg (by omega)]
    exact ⟨h1, by simp [bytesOf, h2]⟩

theorem g_rats (m acc : Msg) (rest : List Byte) (h : m.supportedRats.length ≤ 8 ∧ ∀ r ∈ m.supportedRats, 1 ≤ r ∧ r ≤ 3)
    (hd : acc.supportedRats = []) :
    good (encRats m) ∧ loop topIe (bytesOf (encRats m) ++ rest) acc = loop topIe rest { acc with supportedRats := m.supportedRats } := by
  unfold encRats
  by_cases hz : m.supportedRats = []
  · rw [if_neg (by simp [hz]), hz]
    refine ⟨trivial, ?_⟩
    show loop topIe rest acc = _
    rw [← hd]
  · have hl : m.supportedRats.length ≠ 0 := fun hh => hz (List.eq_nil_of_length_eq_zero hh)
    obtain ⟨h1, h2⟩ := rats_eq m.supportedRats 8 h.1 h.2
    rw [if_pos hl]
    refine ⟨h1, ?_⟩
    rw [bytesOf, h2]
    have e : ([0x29, BitVec.ofNat 8 m.supportedRats.length] ++ m.supportedRats.map (BitVec.ofNat 8) ++ rest : List Byte) =
        0x29 :: BitVec.ofNat 8 m.supportedRats.length :: m.supportedRats.map (BitVec.ofNat 8) ++ rest := rfl
    rw [e, loop_cons _ _ _ _ _ _ (by rw [byte_toNat (by omega)]; simp)]
    have : topIe acc 0x29 (m.supportedRats.map (BitVec.ofNat 8)) rest = .ok { acc with supportedRats := m.supportedRats } := by
      show (if (m.supportedRats.map (BitVec.ofNat 8)).length > 8 then Res.err (-COND_IE_ERR)
        else .ok { acc with supportedRats := (m.supportedRats.map (BitVec.ofNat 8)).map BitVec.toNat }) = _
      rw [if_neg (by simp; omega), List.map_map]
      have : m.supportedRats.map (BitVec.toNat ∘ BitVec.ofNat 8) = m.supportedRats := by
        conv => rhs; rw [← List.map_id m.supportedRats]
        apply List.map_congr_left
        intro r hr
        have := h.2 r hr
        exact byte_toNat (by omega)
      rw [this]
    rw [this]

end Verif.Gsup
