import Verif.Gsup.Loop
import Verif.Gsup.Spec
/-!
Each IE by itself: its octets are read back into the field that they were
written from.
-/
namespace Verif.Gsup

theorem byte_toNat {n : Nat} (h : n ≤ 255) : (BitVec.ofNat 8 n : Byte).toNat = n := by
  simp only [BitVec.toNat_ofNat]; omega

theorem byte_eq_zero {n : Nat} (h : n ≤ 255) : (BitVec.ofNat 8 n : Byte) = 0 ↔ n = 0 := by
  constructor
  · intro h0
    have := congrArg BitVec.toNat h0
    rw [byte_toNat h] at this
    exact this
  · rintro rfl; rfl

theorem be1 (b : Byte) : decodeBe [b] = b.toNat := by
  have := b.isLt
  simp only [decodeBe, List.foldl_cons, List.foldl_nil]
  omega

theorem be1_u32 {n : Nat} (h : n ≤ 255) : u32 (decodeBe [BitVec.ofNat 8 n]) = n := by
  rw [be1, byte_toNat h, u32]
  omega

theorem be1_dec {n : Nat} (h : n ≤ 255) (h0 : n ≠ 0) : u32 (decodeBe [BitVec.ofNat 8 n - 1] + 1) = n := by
  have : (BitVec.ofNat 8 n - 1 : Byte) = BitVec.ofNat 8 (n - 1) := by
    apply BitVec.eq_of_toNat_eq
    rw [BitVec.toNat_sub, byte_toNat h, byte_toNat (by omega), show BitVec.toNat (1 : Byte) = 1 from rfl]
    omega
  rw [be1, this, byte_toNat (by omega), u32]
  omega

theorem bytesOf_one (bs : List Byte) : bytesOf [.put bs] = bs := by simp [bytesOf]

theorem good_opt (tag : Byte) (o : Option (List Byte)) : good (putOpt tag o) := by cases o <;> trivial

theorem good_u8 (tag : Byte) (n : Nat) : good (putU8 tag n) := by unfold putU8; split <;> trivial

theorem good_dec (tag : Byte) (n : Nat) : good (putU8Dec tag n) := by unfold putU8Dec; split <;> trivial

theorem good_enum (tag : Byte) (n : Nat) : good (putEnum tag n) := by unfold putEnum; split <;> trivial

theorem good_ptr (tag : Byte) (o : Option (Option Byte)) (h : PtrOk o) : good (putPtr tag o) := by
  match o, h with
  | none, _ => trivial
  | some none, h => exact absurd rfl h
  | some (some _), _ => trivial

theorem good_fixed (tag : Byte) (n : Nat) (o : Option (List Byte)) (h : ∀ v, o = some v → v.length = n) :
    good (putFixed tag n o) := by
  cases o with
  | none => trivial
  | some v => rw [putFixed, if_neg (by rw [h v rfl]; omega)]; trivial

theorem g_msisdn (acc : Msg) (o : Option (List Byte)) (rest : List Byte) (h : Blob o) (hd : acc.msisdn = none) :
    loop topIe (bytesOf (putOpt 0x08 o) ++ rest) acc = loop topIe rest { acc with msisdn := o } := by
  cases o with
  | none =>
    show loop topIe rest acc = _
    rw [← hd]
  | some v =>
    rw [putOpt, bytesOf_one]
    exact loop_tlv topIe _ v rest acc _ (Nat.lt_succ_of_le (h v rfl)) rfl

theorem g_hlr (acc : Msg) (o : Option (List Byte)) (rest : List Byte) (h : Blob o) (hd : acc.hlr = none) :
    loop topIe (bytesOf (putOpt 0x09 o) ++ rest) acc = loop topIe rest { acc with hlr := o } := by
  cases o with
  | none =>
    show loop topIe rest acc = _
    rw [← hd]
  | some v =>
    rw [putOpt, bytesOf_one]
    exact loop_tlv topIe _ v rest acc _ (Nat.lt_succ_of_le (h v rfl)) rfl

theorem g_cause (acc : Msg) (n : Nat) (rest : List Byte) (h : n ≤ 255) (hd : acc.cause = 0) :
    loop topIe (bytesOf (putU8 0x02 n) ++ rest) acc = loop topIe rest { acc with cause := n } := by
  by_cases h0 : n = 0
  · subst h0
    rw [putU8, if_neg (by simp)]
    show loop topIe rest acc = _
    rw [← hd]
  · rw [putU8, if_pos (fun hh => h0 ((byte_eq_zero h).1 hh)), bytesOf_one]
    refine loop_tlv topIe _ [BitVec.ofNat 8 n] rest acc _ (by simp) ?_
    show Res.ok { acc with cause := u32 (decodeBe [BitVec.ofNat 8 n]) } = _
    rw [be1_u32 h]

theorem g_cancelType (acc : Msg) (n : Nat) (rest : List Byte) (h : n ≤ 255) (hd : acc.cancelType = 0) :
    loop topIe (bytesOf (putU8Dec 0x06 n) ++ rest) acc = loop topIe rest { acc with cancelType := n } := by
  by_cases h0 : n = 0
  · subst h0
    rw [putU8Dec, if_neg (by simp)]
    show loop topIe rest acc = _
    rw [← hd]
  · rw [putU8Dec, if_pos (fun hh => h0 ((byte_eq_zero h).1 hh)), bytesOf_one]
    refine loop_tlv topIe _ [BitVec.ofNat 8 n - 1] rest acc _ (by simp) ?_
    show Res.ok { acc with cancelType := u32 (decodeBe [BitVec.ofNat 8 n - 1] + 1) } = _
    rw [be1_dec h h0]

theorem g_pdpInfoCompl (acc : Msg) (b : Bool) (rest : List Byte) (hd : acc.pdpInfoCompl = false) :
    loop topIe (bytesOf (if b then [.put (tlv 0x04 [])] else []) ++ rest) acc = loop topIe rest { acc with pdpInfoCompl := b } := by
  cases b with
  | false =>
    show loop topIe rest acc = _
    rw [← hd]
  | true =>
    rw [if_pos rfl, bytesOf_one]
    exact loop_tlv topIe _ [] rest acc _ (by simp) rfl

theorem g_freezePtmsi (acc : Msg) (b : Bool) (rest : List Byte) (hd : acc.freezePtmsi = false) :
    loop topIe (bytesOf (if b then [.put (tlv 0x07 [])] else []) ++ rest) acc = loop topIe rest { acc with freezePtmsi := b } := by
  cases b with
  | false =>
    show loop topIe rest acc = _
    rw [← hd]
  | true =>
    rw [if_pos rfl, bytesOf_one]
    exact loop_tlv topIe _ [] rest acc _ (by simp) rfl

theorem g_auts (acc : Msg) (o : Option (List Byte)) (rest : List Byte) (h : ∀ v, o = some v → v.length = 14)
    (hd : acc.auts = none) :
    loop topIe (bytesOf (putFixed 0x26 14 o) ++ rest) acc = loop topIe rest { acc with auts := o } := by
  cases o with
  | none =>
    show loop topIe rest acc = _
    rw [← hd]
  | some v =>
    have hv := h v rfl
    rw [putFixed, if_neg (by omega), bytesOf_one, List.take_of_length_le (by omega)]
    refine loop_tlv topIe _ v rest acc _ (by omega) ?_
    show (if v.length ≠ 14 then Res.err (-COND_IE_ERR) else Res.ok _) = _
    rw [if_neg (by omega)]

theorem g_rand (acc : Msg) (o : Option (List Byte)) (rest : List Byte) (h : ∀ v, o = some v → v.length = 16)
    (hd : acc.rand = none) :
    loop topIe (bytesOf (putFixed 0x20 16 o) ++ rest) acc = loop topIe rest { acc with rand := o } := by
  cases o with
  | none =>
    show loop topIe rest acc = _
    rw [← hd]
  | some v =>
    have hv := h v rfl
    rw [putFixed, if_neg (by omega), bytesOf_one, List.take_of_length_le (by omega)]
    refine loop_tlv topIe _ v rest acc _ (by omega) ?_
    show (if v.length ≠ 16 then Res.err (-COND_IE_ERR) else Res.ok _) = _
    rw [if_neg (by omega)]

theorem g_cnDomain (acc : Msg) (n : Nat) (rest : List Byte) (h : n ≤ 255) (hd : acc.cnDomain = 0) :
    loop topIe (bytesOf (putEnum 0x28 n) ++ rest) acc = loop topIe rest { acc with cnDomain := n } := by
  by_cases h0 : n = 0
  · subst h0
    rw [putEnum, if_neg (by simp)]
    show loop topIe rest acc = _
    rw [← hd]
  · rw [putEnum, if_pos h0, bytesOf_one]
    refine loop_tlv topIe _ [BitVec.ofNat 8 n] rest acc _ (by simp) ?_
    show Res.ok { acc with cnDomain := (BitVec.ofNat 8 n : Byte).toNat } = _
    rw [byte_toNat h]

theorem g_pdpCharg (acc : Msg) (o : Option (List Byte)) (rest : List Byte) (h : Blob o) (hd : acc.pdpCharg = none) :
    loop topIe (bytesOf (putOpt 0x14 o) ++ rest) acc = loop topIe rest { acc with pdpCharg := o } := by
  cases o with
  | none =>
    show loop topIe rest acc = _
    rw [← hd]
  | some v =>
    rw [putOpt, bytesOf_one]
    exact loop_tlv topIe _ v rest acc _ (Nat.lt_succ_of_le (h v rfl)) rfl

theorem g_ssInfo (acc : Msg) (o : Option (List Byte)) (rest : List Byte) (h : Blob o) (hd : acc.ssInfo = none) :
    loop topIe (bytesOf (putOpt 0x35 o) ++ rest) acc = loop topIe rest { acc with ssInfo := o } := by
  cases o with
  | none =>
    show loop topIe rest acc = _
    rw [← hd]
  | some v =>
    rw [putOpt, bytesOf_one]
    exact loop_tlv topIe _ v rest acc _ (Nat.lt_succ_of_le (h v rfl)) rfl

theorem g_smRpMr (acc : Msg) (o : Option (Option Byte)) (rest : List Byte) (h : PtrOk o) (hd : acc.smRpMr = none) :
    loop topIe (bytesOf (putPtr 0x40 o) ++ rest) acc = loop topIe rest { acc with smRpMr := o } := by
  match o, h with
  | none, _ =>
    show loop topIe rest acc = _
    rw [← hd]
  | some none, h => exact absurd rfl h
  | some (some b), _ =>
    rw [putPtr, bytesOf_one]
    exact loop_tlv topIe _ [b] rest acc _ (by simp) rfl

theorem g_smRpUi (acc : Msg) (o : Option (List Byte)) (rest : List Byte) (h : Blob o) (hd : acc.smRpUi = none) :
    loop topIe (bytesOf (putOpt 0x43 o) ++ rest) acc = loop topIe rest { acc with smRpUi := o } := by
  cases o with
  | none =>
    show loop topIe rest acc = _
    rw [← hd]
  | some v =>
    rw [putOpt, bytesOf_one]
    exact loop_tlv topIe _ v rest acc _ (Nat.lt_succ_of_le (h v rfl)) rfl

theorem g_smRpMms (acc : Msg) (o : Option (Option Byte)) (rest : List Byte) (h : PtrOk o) (hd : acc.smRpMms = none) :
    loop topIe (bytesOf (putPtr 0x45 o) ++ rest) acc = loop topIe rest { acc with smRpMms := o } := by
  match o, h with
  | none, _ =>
    show loop topIe rest acc = _
    rw [← hd]
  | some none, h => exact absurd rfl h
  | some (some b), _ =>
    rw [putPtr, bytesOf_one]
    exact loop_tlv topIe _ [b] rest acc _ (by simp) rfl

theorem g_smRpCause (acc : Msg) (o : Option (Option Byte)) (rest : List Byte) (h : PtrOk o) (hd : acc.smRpCause = none) :
    loop topIe (bytesOf (putPtr 0x44 o) ++ rest) acc = loop topIe rest { acc with smRpCause := o } := by
  match o, h with
  | none, _ =>
    show loop topIe rest acc = _
    rw [← hd]
  | some none, h => exact absurd rfl h
  | some (some b), _ =>
    rw [putPtr, bytesOf_one]
    exact loop_tlv topIe _ [b] rest acc _ (by simp) rfl

theorem g_smAlertRsn (acc : Msg) (n : Nat) (rest : List Byte) (h : n ≤ 255) (hd : acc.smAlertRsn = 0) :
    loop topIe (bytesOf (putU8 0x46 n) ++ rest) acc = loop topIe rest { acc with smAlertRsn := n } := by
  by_cases h0 : n = 0
  · subst h0
    rw [putU8, if_neg (by simp)]
    show loop topIe rest acc = _
    rw [← hd]
  · rw [putU8, if_pos (fun hh => h0 ((byte_eq_zero h).1 hh)), bytesOf_one]
    refine loop_tlv topIe _ [BitVec.ofNat 8 n] rest acc _ (by simp) ?_
    show Res.ok { acc with smAlertRsn := (BitVec.ofNat 8 n : Byte).toNat } = _
    rw [byte_toNat h]

theorem g_imei (acc : Msg) (o : Option (List Byte)) (rest : List Byte) (h : Blob o) (hd : acc.imei = none) :
    loop topIe (bytesOf (putOpt 0x50 o) ++ rest) acc = loop topIe rest { acc with imei := o } := by
  cases o with
  | none =>
    show loop topIe rest acc = _
    rw [← hd]
  | some v =>
    rw [putOpt, bytesOf_one]
    exact loop_tlv topIe _ v rest acc _ (Nat.lt_succ_of_le (h v rfl)) rfl

theorem g_imeiResult (acc : Msg) (n : Nat) (rest : List Byte) (h : n ≤ 255) (hd : acc.imeiResult = 0) :
    loop topIe (bytesOf (putU8Dec 0x51 n) ++ rest) acc = loop topIe rest { acc with imeiResult := n } := by
  by_cases h0 : n = 0
  · subst h0
    rw [putU8Dec, if_neg (by simp)]
    show loop topIe rest acc = _
    rw [← hd]
  · rw [putU8Dec, if_pos (fun hh => h0 ((byte_eq_zero h).1 hh)), bytesOf_one]
    refine loop_tlv topIe _ [BitVec.ofNat 8 n - 1] rest acc _ (by simp) ?_
    show Res.ok { acc with imeiResult := u32 (decodeBe [BitVec.ofNat 8 n - 1] + 1) } = _
    rw [be1_dec h h0]

theorem g_messageClass (acc : Msg) (n : Nat) (rest : List Byte) (h : n ≤ 255) (hd : acc.messageClass = 0) :
    loop topIe (bytesOf (putEnum 0x0a n) ++ rest) acc = loop topIe rest { acc with messageClass := n } := by
  by_cases h0 : n = 0
  · subst h0
    rw [putEnum, if_neg (by simp)]
    show loop topIe rest acc = _
    rw [← hd]
  · rw [putEnum, if_pos h0, bytesOf_one]
    refine loop_tlv topIe _ [BitVec.ofNat 8 n] rest acc _ (by simp) ?_
    show Res.ok { acc with messageClass := (BitVec.ofNat 8 n : Byte).toNat } = _
    rw [byte_toNat h]

theorem g_sourceName (acc : Msg) (o : Option (List Byte)) (rest : List Byte) (h : Blob o) (hd : acc.sourceName = none) :
    loop topIe (bytesOf (putOpt 0x60 o) ++ rest) acc = loop topIe rest { acc with sourceName := o } := by
  cases o with
  | none =>
    show loop topIe rest acc = _
    rw [← hd]
  | some v =>
    rw [putOpt, bytesOf_one]
    exact loop_tlv topIe _ v rest acc _ (Nat.lt_succ_of_le (h v rfl)) rfl

theorem g_destName (acc : Msg) (o : Option (List Byte)) (rest : List Byte) (h : Blob o) (hd : acc.destName = none) :
    loop topIe (bytesOf (putOpt 0x61 o) ++ rest) acc = loop topIe rest { acc with destName := o } := by
  cases o with
  | none =>
    show loop topIe rest acc = _
    rw [← hd]
  | some v =>
    rw [putOpt, bytesOf_one]
    exact loop_tlv topIe _ v rest acc _ (Nat.lt_succ_of_le (h v rfl)) rfl

theorem g_causeSm (acc : Msg) (n : Nat) (rest : List Byte) (h : n ≤ 255) (hd : acc.causeSm = 0) :
    loop topIe (bytesOf (putU8 0x65 n) ++ rest) acc = loop topIe rest { acc with causeSm := n } := by
  by_cases h0 : n = 0
  · subst h0
    rw [putU8, if_neg (by simp)]
    show loop topIe rest acc = _
    rw [← hd]
  · rw [putU8, if_pos (fun hh => h0 ((byte_eq_zero h).1 hh)), bytesOf_one]
    refine loop_tlv topIe _ [BitVec.ofNat 8 n] rest acc _ (by simp) ?_
    show Res.ok { acc with causeSm := (BitVec.ofNat 8 n : Byte).toNat } = _
    rw [byte_toNat h]

theorem g_currentRat (acc : Msg) (n : Nat) (rest : List Byte) (h : n ≤ 255) (hd : acc.currentRat = 0) :
    loop topIe (bytesOf (putEnum 0x2a n) ++ rest) acc = loop topIe rest { acc with currentRat := n } := by
  by_cases h0 : n = 0
  · subst h0
    rw [putEnum, if_neg (by simp)]
    show loop topIe rest acc = _
    rw [← hd]
  · rw [putEnum, if_pos h0, bytesOf_one]
    refine loop_tlv topIe _ [BitVec.ofNat 8 n] rest acc _ (by simp) ?_
    show Res.ok { acc with currentRat := (BitVec.ofNat 8 n : Byte).toNat } = _
    rw [byte_toNat h]

end Verif.Gsup
