import Verif.MobileId.Encode
import Verif.Gsm23003.Props
/-!
C91: extraction from layer 3 messages, comparison, printing and the deprecated
functions.
-/
namespace Verif.MobileId
open Verif.Utils

/-! ### layer 3 messages -/

/-- length and value -/
def lv (x : List Byte) : List Byte := BitVec.ofNat 8 x.length :: x

/-- The messages of 3GPP TS 24.008 / 44.018 with a mobile identity, as octets:
`Carries l3 mi` if `l3` is such a message and `mi` the value of its mobile
identity.  `pd` is the first octet (skip indicator in the upper half), `mt` the
message type (N(SD) in the two upper bits for MM). -/
inductive Carries : List Byte → List Byte → Prop
  /-- LOCATION UPDATING REQUEST: update type, LAI and classmark 1 come first -/
  | locUpd (pd mt : Byte) (pre mi rest : List Byte) : pd.toNat % 16 = 5 → mt.toNat % 64 = 8 → pre.length = 7 →
      mi.length < 256 → Carries (pd :: mt :: (pre ++ lv mi ++ rest)) mi
  /-- CM SERVICE REQUEST and CM RE-ESTABLISHMENT REQUEST -/
  | cmReq (pd mt ck : Byte) (cm2 mi rest : List Byte) : pd.toNat % 16 = 5 →
      mt.toNat % 64 = 0x24 ∨ mt.toNat % 64 = 0x28 → cm2.length < 256 → mi.length < 256 →
      Carries (pd :: mt :: ck :: (lv cm2 ++ lv mi ++ rest)) mi
  /-- IMSI DETACH INDICATION -/
  | detach (pd mt cm1 : Byte) (mi rest : List Byte) : pd.toNat % 16 = 5 → mt.toNat % 64 = 1 → mi.length < 256 →
      Carries (pd :: mt :: cm1 :: (lv mi ++ rest)) mi
  /-- IDENTITY RESPONSE -/
  | idResp (pd mt : Byte) (mi rest : List Byte) : pd.toNat % 16 = 5 → mt.toNat % 64 = 0x19 → mi.length < 256 →
      Carries (pd :: mt :: (lv mi ++ rest)) mi
  /-- PAGING RESPONSE -/
  | pagResp (pd ck : Byte) (cm2 mi rest : List Byte) : pd.toNat % 16 = 6 → cm2.length < 256 → mi.length < 256 →
      Carries (pd :: 0x27#8 :: ck :: (lv cm2 ++ lv mi ++ rest)) mi
  /-- TALKER INDICATION -/
  | talker (pd : Byte) (cm2 mi rest : List Byte) : pd.toNat % 16 = 6 → cm2.length = 3 → mi.length < 256 →
      Carries (pd :: 0x11#8 :: (lv cm2 ++ lv mi ++ rest)) mi

/-- the first two octets announce one of the messages above -/
def Supported (pd mt : Byte) : Prop :=
  (pd.toNat % 16 = 5 ∧ (mt.toNat % 64) ∈ [0x08, 0x24, 0x28, 0x01, 0x19]) ∨
  (pd.toNat % 16 = 6 ∧ mt.toNat ∈ [0x27, 0x11])

theorem pdisc5 : ∀ b : Byte, hdrPdisc b = 5#8 ↔ b.toNat % 16 = 5 := by decide +kernel
theorem pdisc6 : ∀ b : Byte, hdrPdisc b = 6#8 ↔ b.toNat % 16 = 6 := by decide +kernel
theorem msgtype_mask : ∀ b : Byte, b &&& 0x3f#8 = BitVec.ofNat 8 (b.toNat % 64) := by decide +kernel

theorem hdrMsgType_mm {pd mt : Byte} (h : hdrPdisc pd = 5#8) : hdrMsgType pd mt = BitVec.ofNat 8 (mt.toNat % 64) := by
  unfold hdrMsgType
  rw [h, if_pos (by decide), msgtype_mask]

theorem hdrMsgType_rr {pd mt : Byte} (h : hdrPdisc pd = 6#8) : hdrMsgType pd mt = mt := by
  unfold hdrMsgType
  rw [h, if_neg (by decide)]

theorem lenByte (b : Byte) : b = BitVec.ofNat 8 b.toNat := by simp

theorem failed_type {l3 : List Byte} {off n : Nat} {hex : Bool} :
    (off + n ≤ l3.length ∧ ∃ i : Ident, i.Valid hex ∧ (l3.drop off).take n = i.wire ∧ i.wire.length = n ∧
      gotMi l3 off n hex = some (i.canon, 0)) ∨
    (∃ m rc, gotMi l3 off n hex = some (m, rc) ∧ m.type = 0#8 ∧ (rc = -EBADMSG ∨ rc = -EINVAL)) := by
  unfold gotMi
  by_cases h : off + n > l3.length
  · right
    rw [if_pos h]
    exact ⟨_, _, rfl, rfl, .inl rfl⟩
  · rw [if_neg h]
    have hl : ((l3.drop off).take n).length = n := by rw [List.length_take, List.length_drop]; omega
    have hsplit := List.take_append_drop n (l3.drop off)
    rcases decode_only ((l3.drop off).take n) ((l3.drop off).drop n) hex with ⟨i, a, b, c⟩ | ⟨-, c⟩
    · left
      rw [hl, hsplit] at c
      exact ⟨by omega, i, a, b, by rw [← b, hl], c⟩
    · right
      rw [hl, hsplit] at c
      refine ⟨_, _, c, rfl, ?_⟩
      split
      · exact .inr rfl
      · exact .inl rfl

theorem gotMi_at {pre mi rest : List Byte} {n : Nat} (hex : Bool) (i : Ident) (hv : i.Valid hex) (hm : mi = i.wire)
    (hn : n = mi.length) : gotMi (pre ++ (mi ++ rest)) pre.length n hex = some (i.canon, 0) := by
  unfold gotMi
  rw [if_neg (by simp; omega), List.drop_left, hn, hm]
  exact decode_wire i hex hv rest

theorem len_toNat {x : List Byte} (h : x.length < 256) : (BitVec.ofNat 8 x.length).toNat = x.length := by
  simp only [BitVec.toNat_ofNat]; omega

theorem gotCm2_at {pre cm2 mi rest : List Byte} {n : Nat} (hex : Bool) (i : Ident) (hv : i.Valid hex) (hm : mi = i.wire)
    (hl : mi.length < 256) (hn : n = cm2.length) :
    gotCm2 (pre ++ (cm2 ++ (lv mi ++ rest))) pre.length n hex = some (i.canon, 0) := by
  subst hn
  unfold gotCm2
  rw [if_neg (by simp [lv]; omega)]
  have e : (pre ++ (cm2 ++ (lv mi ++ rest)))[pre.length + cm2.length]? = some (BitVec.ofNat 8 mi.length) := by
    rw [List.getElem?_append_right (by omega), List.getElem?_append_right (by omega)]
    simp [lv]
  rw [e, Option.bind_some, len_toNat hl]
  have := gotMi_at (pre := pre ++ cm2 ++ [BitVec.ofNat 8 mi.length]) (mi := mi) (rest := rest) hex i hv hm rfl
  simp only [List.length_append, List.length_cons, List.length_nil] at this
  rw [← this]
  simp [lv]

theorem wire_min {i : Ident} {hex : Bool} (h : i.Valid hex) : 4 ≤ i.wire.length ∧ i.wire.length ≤ 9 := by
  cases i with
  | tmsi v => simp [tmsi_wire_length]
  | num k ds =>
    have := h.1
    rw [wire_length]
    cases k <;> simp only [Kind.okLen] at this <;> omega

/-- **C91f.** From each of these messages the identity is extracted. -/
theorem l3_carries (l3 : List Byte) (i : Ident) (hex : Bool) (h : Carries l3 i.wire) (hv : i.Valid hex) :
    decodeFromL3 l3 hex = some (i.canon, 0) := by
  have hmin := wire_min hv
  generalize hmi : i.wire = mi at h hmin
  unfold decodeFromL3
  cases h with
  | locUpd pd mt pre mi rest h1 h2 h3 h4 =>
    rw [if_neg (by simp)]
    simp only [List.getElem?_cons_zero, List.getElem?_cons_succ, Option.bind_some]
    have hp := (pdisc5 pd).2 h1
    rw [if_pos hp, hdrMsgType_mm hp, h2, if_pos rfl]
    rw [if_neg (by simp [lv]; omega)]
    have e : (pre ++ lv mi ++ rest)[7]? = some (BitVec.ofNat 8 mi.length) := by
      rw [List.append_assoc, List.getElem?_append_right (by omega), h3]
      simp [lv]
    rw [e, Option.bind_some, len_toNat h4, if_neg (by simp [lv]; omega)]
    have := gotMi_at (pre := pd :: mt :: (pre ++ [BitVec.ofNat 8 mi.length])) (mi := mi) (rest := rest) hex i hv hmi.symm rfl
    rw [← this]
    simp [lv, h3]
  | cmReq pd mt ck cm2 mi rest h1 h2 h3 h4 =>
    rw [if_neg (by simp)]
    simp only [List.getElem?_cons_zero, List.getElem?_cons_succ, Option.bind_some]
    have hp := (pdisc5 pd).2 h1
    rw [if_pos hp, hdrMsgType_mm hp]
    have hmt : ¬ BitVec.ofNat 8 (mt.toNat % 64) = 0x08#8 ∧
        (BitVec.ofNat 8 (mt.toNat % 64) = 0x24#8 ∨ BitVec.ofNat 8 (mt.toNat % 64) = 0x28#8) := by
      rcases h2 with h2 | h2 <;> rw [h2] <;> decide
    rw [if_neg hmt.1, if_pos hmt.2, if_neg (by simp [lv])]
    have e : (lv cm2 ++ lv mi ++ rest)[0]? = some (BitVec.ofNat 8 cm2.length) := by simp [lv]
    rw [e, Option.bind_some]
    have := gotCm2_at (pre := [pd, mt, ck, BitVec.ofNat 8 cm2.length]) (cm2 := cm2) (mi := mi) (rest := rest) hex i hv
      hmi.symm h4 (len_toNat h3)
    rw [← this]
    simp [lv]
  | detach pd mt cm1 mi rest h1 h2 h3 =>
    rw [if_neg (by simp)]
    simp only [List.getElem?_cons_zero, List.getElem?_cons_succ, Option.bind_some]
    have hp := (pdisc5 pd).2 h1
    rw [if_pos hp, hdrMsgType_mm hp, h2, if_neg (by decide), if_neg (by decide), if_pos rfl, if_neg (by simp [lv])]
    have e : (lv mi ++ rest)[0]? = some (BitVec.ofNat 8 mi.length) := by simp [lv]
    rw [e, Option.bind_some, len_toNat h3]
    have := gotMi_at (pre := [pd, mt, cm1, BitVec.ofNat 8 mi.length]) (mi := mi) (rest := rest) hex i hv hmi.symm rfl
    rw [← this]
    simp [lv]
  | idResp pd mt mi rest h1 h2 h3 =>
    rw [if_neg (by simp)]
    simp only [List.getElem?_cons_zero, List.getElem?_cons_succ, Option.bind_some]
    have hp := (pdisc5 pd).2 h1
    rw [if_pos hp, hdrMsgType_mm hp, h2, if_neg (by decide), if_neg (by decide), if_neg (by decide), if_pos rfl,
      if_neg (by simp [lv]; omega)]
    have e : (lv mi ++ rest)[0]? = some (BitVec.ofNat 8 mi.length) := by simp [lv]
    rw [e, Option.bind_some, len_toNat h3]
    have := gotMi_at (pre := [pd, mt, BitVec.ofNat 8 mi.length]) (mi := mi) (rest := rest) hex i hv hmi.symm rfl
    rw [← this]
    simp [lv]
  | pagResp pd ck cm2 mi rest h1 h2 h3 =>
    rw [if_neg (by simp)]
    simp only [List.getElem?_cons_zero, List.getElem?_cons_succ, Option.bind_some]
    have hp := (pdisc6 pd).2 h1
    have n5 : ¬ hdrPdisc pd = 5#8 := by rw [hp]; decide
    rw [if_neg n5, if_pos hp, hdrMsgType_rr hp, if_pos rfl, if_neg (by simp [lv]; omega)]
    have e : (lv cm2 ++ lv mi ++ rest)[0]? = some (BitVec.ofNat 8 cm2.length) := by simp [lv]
    rw [e, Option.bind_some]
    have := gotCm2_at (pre := [pd, 0x27#8, ck, BitVec.ofNat 8 cm2.length]) (cm2 := cm2) (mi := mi) (rest := rest) hex i hv
      hmi.symm h3 (len_toNat h2)
    rw [← this]
    simp [lv]
  | talker pd cm2 mi rest h1 h2 h3 =>
    rw [if_neg (by simp)]
    simp only [List.getElem?_cons_zero, List.getElem?_cons_succ, Option.bind_some]
    have hp := (pdisc6 pd).2 h1
    have n5 : ¬ hdrPdisc pd = 5#8 := by rw [hp]; decide
    rw [if_neg n5, if_pos hp, hdrMsgType_rr hp, if_neg (by decide), if_pos rfl, if_neg (by simp [lv]; omega)]
    have e : (lv cm2 ++ lv mi ++ rest)[0]? = some (BitVec.ofNat 8 cm2.length) := by simp [lv]
    rw [e, Option.bind_some, h2, if_neg (by decide)]
    have := gotCm2_at (pre := [pd, 0x11#8, 3#8]) (cm2 := cm2) (mi := mi) (rest := rest) hex i hv
      hmi.symm h3 h2.symm
    rw [show (BitVec.ofNat 8 3).toNat = 3 from rfl, ← this]
    simp [lv, h2]

/-- outcome of a helper: success with the identity at `off`, or an error of the decoder -/
theorem gotCm2_cases {l3 : List Byte} {off n : Nat} {hex : Bool} :
    (∃ (i : Ident) (cm2 rest : List Byte), i.Valid hex ∧ cm2.length = n ∧
      l3.drop off = cm2 ++ lv i.wire ++ rest ∧ gotCm2 l3 off n hex = some (i.canon, 0)) ∨
    (∃ m rc, gotCm2 l3 off n hex = some (m, rc) ∧ m.type = 0#8 ∧ (rc = -EBADMSG ∨ rc = -EINVAL)) := by
  unfold gotCm2
  by_cases h : off + n + 1 > l3.length
  · right
    rw [if_pos h]
    exact ⟨_, _, rfl, rfl, .inl rfl⟩
  · rw [if_neg h, List.getElem?_eq_getElem (by omega), Option.bind_some]
    rcases failed_type (l3 := l3) (off := off + n + 1) (n := (l3[off + n]).toNat) (hex := hex) with
      ⟨h1, i, hv, hw, hl, he⟩ | h2
    · left
      refine ⟨i, (l3.drop off).take n, (l3.drop (off + n + 1)).drop i.wire.length, hv, ?_, ?_, he⟩
      · rw [List.length_take, List.length_drop]; omega
      · have e1 : (l3.drop off).drop n = l3[off + n] :: l3.drop (off + n + 1) := by
          rw [List.drop_drop, List.drop_eq_getElem_cons (by omega)]
        conv => lhs; rw [← List.take_append_drop n (l3.drop off), e1]
        rw [List.append_assoc]
        congr 1
        have e2 : i.wire ++ (l3.drop (off + n + 1)).drop i.wire.length = l3.drop (off + n + 1) := by
          conv => rhs; rw [← List.take_append_drop (l3[off + n]).toNat (l3.drop (off + n + 1)), hw]
          rw [hl]
        unfold lv
        rw [List.cons_append, e2, hl, ← lenByte]
    · exact .inr h2

theorem gotMi_cases {l3 : List Byte} {off : Nat} {n : Byte} {hex : Bool} :
    (∃ (i : Ident) (rest : List Byte), i.Valid hex ∧ n = BitVec.ofNat 8 i.wire.length ∧
      l3.drop off = i.wire ++ rest ∧ gotMi l3 off n.toNat hex = some (i.canon, 0)) ∨
    (∃ m rc, gotMi l3 off n.toNat hex = some (m, rc) ∧ m.type = 0#8 ∧ (rc = -EBADMSG ∨ rc = -EINVAL)) := by
  rcases failed_type (l3 := l3) (off := off) (n := n.toNat) (hex := hex) with ⟨h1, i, hv, hw, hl, he⟩ | h2
  · left
    refine ⟨i, (l3.drop off).drop n.toNat, hv, ?_, ?_, he⟩
    · rw [hl, ← lenByte]
    · rw [← hw, List.take_append_drop]
  · exact .inr h2

/-- outcome of the extraction; `unsup` says that the message is not supported -/
def Outcome (l3 : List Byte) (hex : Bool) (unsup : Prop) : Prop :=
  ∃ m rc, decodeFromL3 l3 hex = some (m, rc) ∧
    ((rc = 0 ∧ ∃ i : Ident, i.Valid hex ∧ Carries l3 i.wire ∧ m = i.canon) ∨
     (rc < 0 ∧ m.type = 0#8 ∧ ¬ ∃ i : Ident, i.Valid hex ∧ Carries l3 i.wire)) ∧
    (rc = -ENOTSUP ↔ unsup)

/-- a failure excludes a carried identity, by the previous theorem -/
theorem fail_excludes {l3 : List Byte} {hex : Bool} {m : MobId} {rc : Int} (h : decodeFromL3 l3 hex = some (m, rc))
    (hrc : rc < 0) : ¬ ∃ i : Ident, i.Valid hex ∧ Carries l3 i.wire := by
  rintro ⟨i, hv, hc⟩
  rw [l3_carries l3 i hex hc hv] at h
  simp only [Option.some.injEq, Prod.mk.injEq] at h
  omega

theorem outcome_bad {l3 : List Byte} {hex : Bool} {P : Prop} (hP : ¬ P)
    (h : ∃ m rc, decodeFromL3 l3 hex = some (m, rc) ∧ m.type = 0#8 ∧ (rc = -EBADMSG ∨ rc = -EINVAL)) :
    Outcome l3 hex P := by
  obtain ⟨m, rc, h1, h2, h3⟩ := h
  have hneg : rc < 0 := by rcases h3 with h3 | h3 <;> rw [h3] <;> decide
  refine ⟨m, rc, h1, .inr ⟨hneg, h2, fail_excludes h1 hneg⟩, ?_⟩
  constructor
  · intro h4
    rcases h3 with h3 | h3 <;> rw [h3] at h4 <;> exact absurd h4 (by decide)
  · intro h4; exact absurd h4 hP

theorem outcome_short {l3 : List Byte} {hex : Bool} {P : Prop} (hP : ¬ P)
    (h : decodeFromL3 l3 hex = l3Failed EBADMSG) : Outcome l3 hex P :=
  outcome_bad hP ⟨_, _, h, rfl, .inl rfl⟩

theorem outcome_good {l3 : List Byte} {hex : Bool} {P : Prop} (hP : ¬ P) (i : Ident) (hv : i.Valid hex)
    (hc : Carries l3 i.wire) : Outcome l3 hex P := by
  refine ⟨_, _, l3_carries l3 i hex hc hv, .inl ⟨rfl, i, hv, hc, rfl⟩, ?_⟩
  constructor
  · intro h; exact absurd h (by decide)
  · intro h; exact absurd h hP

theorem outcome_unsup {l3 : List Byte} {hex : Bool} {P : Prop} (hP : P)
    (h : decodeFromL3 l3 hex = l3Failed ENOTSUP) : Outcome l3 hex P :=
  ⟨_, _, h, .inr ⟨by decide, rfl, fail_excludes h (by decide)⟩, fun _ => hP, fun _ => rfl⟩

theorem mm_type (mt : Byte) (c : Nat) (hc : c < 64) :
    BitVec.ofNat 8 (mt.toNat % 64) = BitVec.ofNat 8 c ↔ mt.toNat % 64 = c := by
  constructor
  · intro h
    have := congrArg BitVec.toNat h
    simp only [BitVec.toNat_ofNat] at this
    omega
  · intro h; rw [h]

theorem l3_mm {pd mt : Byte} {t : List Byte} {hex : Bool} (h5 : pd.toNat % 16 = 5) :
    decodeFromL3 (pd :: mt :: t) hex =
      if mt.toNat % 64 = 0x08 then
        if t.length < 8 then l3Failed EBADMSG
        else (t[7]?).bind fun n =>
          if t.length < 8 + n.toNat then l3Failed EBADMSG else gotMi (pd :: mt :: t) 10 n.toNat hex
      else if mt.toNat % 64 = 0x24 ∨ mt.toNat % 64 = 0x28 then
        if t.length < 2 then l3Failed EBADMSG
        else (t[1]?).bind fun n => gotCm2 (pd :: mt :: t) 4 n.toNat hex
      else if mt.toNat % 64 = 0x01 then
        if t.length < 2 then l3Failed EBADMSG
        else (t[1]?).bind fun n => gotMi (pd :: mt :: t) 4 n.toNat hex
      else if mt.toNat % 64 = 0x19 then
        if t.length < 2 then l3Failed EBADMSG
        else (t[0]?).bind fun n => gotMi (pd :: mt :: t) 3 n.toNat hex
      else l3Failed ENOTSUP := by
  have hp := (pdisc5 pd).2 h5
  unfold decodeFromL3
  rw [if_neg (by simp)]
  simp only [List.getElem?_cons_zero, List.getElem?_cons_succ, Option.bind_some]
  rw [if_pos hp, hdrMsgType_mm hp]
  simp only [mm_type mt 0x08 (by decide), mm_type mt 0x24 (by decide), mm_type mt 0x28 (by decide),
    mm_type mt 0x01 (by decide), mm_type mt 0x19 (by decide), List.length_cons]
  have e : ∀ a b : Nat, (a + 1 + 1 < 2 + b) = (a < b) := by intro a b; apply propext; omega
  have e' : ∀ a b : Nat, (a + 1 + 1 < 2 + 8 + b) = (a < 8 + b) := by intro a b; apply propext; omega
  simp only [e, e']

theorem l3_rr {pd mt : Byte} {t : List Byte} {hex : Bool} (h6 : pd.toNat % 16 = 6) :
    decodeFromL3 (pd :: mt :: t) hex =
      if mt = 0x27#8 then
        if t.length < 6 then l3Failed EBADMSG
        else (t[1]?).bind fun n => gotCm2 (pd :: mt :: t) 4 n.toNat hex
      else if mt = 0x11#8 then
        if t.length < 6 then l3Failed EBADMSG
        else (t[0]?).bind fun n =>
          if n ≠ 3#8 then l3Failed EBADMSG else gotCm2 (pd :: mt :: t) 3 n.toNat hex
      else l3Failed ENOTSUP := by
  have hp := (pdisc6 pd).2 h6
  have n5 : ¬ hdrPdisc pd = 5#8 := by rw [hp]; decide
  unfold decodeFromL3
  rw [if_neg (by simp)]
  simp only [List.getElem?_cons_zero, List.getElem?_cons_succ, Option.bind_some]
  rw [if_neg n5, if_pos hp, hdrMsgType_rr hp]
  simp only [List.length_cons]
  have e' : ∀ a : Nat, (a + 1 + 1 < 2 + 4 + 2) = (a < 6) := by intro a; apply propext; omega
  simp only [e']

theorem l3_other {pd mt : Byte} {t : List Byte} {hex : Bool} (h5 : pd.toNat % 16 ≠ 5) (h6 : pd.toNat % 16 ≠ 6) :
    decodeFromL3 (pd :: mt :: t) hex = l3Failed ENOTSUP := by
  have n5 : ¬ hdrPdisc pd = 5#8 := fun h => h5 ((pdisc5 pd).1 h)
  have n6 : ¬ hdrPdisc pd = 6#8 := fun h => h6 ((pdisc6 pd).1 h)
  unfold decodeFromL3
  rw [if_neg (by simp)]
  simp only [List.getElem?_cons_zero, List.getElem?_cons_succ, Option.bind_some]
  rw [if_neg n5, if_neg n6]

theorem two_of {t : List Byte} (h : ¬ t.length < 2) : ∃ a b r, t = a :: b :: r := by
  rcases t with _ | ⟨a, _ | ⟨b, r⟩⟩
  · exact absurd (by simp) h
  · exact absurd (by simp) h
  · exact ⟨a, b, r, rfl⟩

theorem mm_outcome {pd mt : Byte} {t : List Byte} {hex : Bool} (h5 : pd.toNat % 16 = 5) :
    Outcome (pd :: mt :: t) hex (¬ (mt.toNat % 64) ∈ [0x08, 0x24, 0x28, 0x01, 0x19]) := by
  have h0 := l3_mm (mt := mt) (t := t) (hex := hex) h5
  by_cases m8 : mt.toNat % 64 = 0x08
  · have hP : ¬ ¬ (mt.toNat % 64) ∈ [0x08, 0x24, 0x28, 0x01, 0x19] := by simp [m8]
    rw [if_pos m8] at h0
    by_cases hlen : t.length < 8
    · rw [if_pos hlen] at h0
      exact outcome_short hP h0
    · rw [if_neg hlen, List.getElem?_eq_getElem (by omega), Option.bind_some] at h0
      by_cases hn : t.length < 8 + (t[7]'(by omega)).toNat
      · rw [if_pos hn] at h0
        exact outcome_short hP h0
      · rw [if_neg hn] at h0
        rcases gotMi_cases (l3 := pd :: mt :: t) (off := 10) (n := t[7]'(by omega)) (hex := hex) with
          ⟨i, rest, hv, hnb, hd, -⟩ | hbad
        · have hm := wire_min hv
          have ht : t = t.take 7 ++ lv i.wire ++ rest := by
            simp only [List.drop_succ_cons] at hd
            rw [lv, ← hnb, List.append_assoc, List.cons_append, ← hd]
            rw [show t[7]'(by omega) :: t.drop 8 = t.drop 7 from (List.drop_eq_getElem_cons (by omega)).symm,
              List.take_append_drop]
          have hc := Carries.locUpd pd mt (t.take 7) i.wire rest h5 m8 (by rw [List.length_take]; omega) (by omega)
          rw [← ht] at hc
          exact outcome_good hP i hv hc
        · rw [← h0] at hbad
          exact outcome_bad hP hbad
  · rw [if_neg m8] at h0
    by_cases mc : mt.toNat % 64 = 0x24 ∨ mt.toNat % 64 = 0x28
    · have hP : ¬ ¬ (mt.toNat % 64) ∈ [0x08, 0x24, 0x28, 0x01, 0x19] := by
        rcases mc with h | h <;> simp [h]
      rw [if_pos mc] at h0
      by_cases hlen : t.length < 2
      · rw [if_pos hlen] at h0
        exact outcome_short hP h0
      · rw [if_neg hlen] at h0
        obtain ⟨ck, n, t, rfl⟩ := two_of hlen
        simp only [List.getElem?_cons_zero, List.getElem?_cons_succ, Option.bind_some] at h0
        rcases gotCm2_cases (l3 := pd :: mt :: ck :: n :: t) (off := 4) (n := n.toNat) (hex := hex) with
          ⟨i, cm2, rest, hv, hc, hd, -⟩ | hbad
        · have hm := wire_min hv
          simp only [List.drop_succ_cons, List.drop_zero] at hd
          have hn' : n :: t = lv cm2 ++ lv i.wire ++ rest := by
            rw [lv, hc, ← lenByte, hd]; rfl
          have hc' := Carries.cmReq pd mt ck cm2 i.wire rest h5 mc (by rw [hc]; exact n.isLt) (by omega)
          rw [← hn'] at hc'
          exact outcome_good hP i hv hc'
        · rw [← h0] at hbad
          exact outcome_bad hP hbad
    · rw [if_neg mc] at h0
      by_cases m1 : mt.toNat % 64 = 0x01
      · have hP : ¬ ¬ (mt.toNat % 64) ∈ [0x08, 0x24, 0x28, 0x01, 0x19] := by simp [m1]
        rw [if_pos m1] at h0
        by_cases hlen : t.length < 2
        · rw [if_pos hlen] at h0
          exact outcome_short hP h0
        · rw [if_neg hlen] at h0
          obtain ⟨cm1, n, t, rfl⟩ := two_of hlen
          simp only [List.getElem?_cons_zero, List.getElem?_cons_succ, Option.bind_some] at h0
          rcases gotMi_cases (l3 := pd :: mt :: cm1 :: n :: t) (off := 4) (n := n) (hex := hex) with
            ⟨i, rest, hv, hnb, hd, -⟩ | hbad
          · have hm := wire_min hv
            simp only [List.drop_succ_cons, List.drop_zero] at hd
            have hn' : n :: t = lv i.wire ++ rest := by rw [lv, ← hnb, hd]; rfl
            have hc := Carries.detach pd mt cm1 i.wire rest h5 m1 (by omega)
            rw [← hn'] at hc
            exact outcome_good hP i hv hc
          · rw [← h0] at hbad
            exact outcome_bad hP hbad
      · rw [if_neg m1] at h0
        by_cases m19 : mt.toNat % 64 = 0x19
        · have hP : ¬ ¬ (mt.toNat % 64) ∈ [0x08, 0x24, 0x28, 0x01, 0x19] := by simp [m19]
          rw [if_pos m19] at h0
          by_cases hlen : t.length < 2
          · rw [if_pos hlen] at h0
            exact outcome_short hP h0
          · rw [if_neg hlen] at h0
            obtain ⟨n, b, t, rfl⟩ := two_of hlen
            simp only [List.getElem?_cons_zero, Option.bind_some] at h0
            rcases gotMi_cases (l3 := pd :: mt :: n :: b :: t) (off := 3) (n := n) (hex := hex) with
              ⟨i, rest, hv, hnb, hd, -⟩ | hbad
            · have hm := wire_min hv
              simp only [List.drop_succ_cons, List.drop_zero] at hd
              have hn' : n :: b :: t = lv i.wire ++ rest := by rw [lv, ← hnb, hd]; rfl
              have hc := Carries.idResp pd mt i.wire rest h5 m19 (by omega)
              rw [← hn'] at hc
              exact outcome_good hP i hv hc
            · rw [← h0] at hbad
              exact outcome_bad hP hbad
        · rw [if_neg m19] at h0
          refine outcome_unsup ?_ h0
          simp only [List.mem_cons, List.not_mem_nil, or_false]
          omega

theorem rr_outcome {pd mt : Byte} {t : List Byte} {hex : Bool} (h6 : pd.toNat % 16 = 6) :
    Outcome (pd :: mt :: t) hex (¬ mt.toNat ∈ [0x27, 0x11]) := by
  have h0 := l3_rr (mt := mt) (t := t) (hex := hex) h6
  by_cases m27 : mt = 0x27#8
  · have hP : ¬ ¬ mt.toNat ∈ [0x27, 0x11] := by rw [m27]; decide
    rw [if_pos m27] at h0
    by_cases hlen : t.length < 6
    · rw [if_pos hlen] at h0
      exact outcome_short hP h0
    · rw [if_neg hlen] at h0
      obtain ⟨ck, n, t, rfl⟩ := two_of (by omega : ¬ t.length < 2)
      simp only [List.getElem?_cons_zero, List.getElem?_cons_succ, Option.bind_some] at h0
      rcases gotCm2_cases (l3 := pd :: mt :: ck :: n :: t) (off := 4) (n := n.toNat) (hex := hex) with
        ⟨i, cm2, rest, hv, hc, hd, -⟩ | hbad
      · have hm := wire_min hv
        simp only [List.drop_succ_cons, List.drop_zero] at hd
        have hn' : n :: t = lv cm2 ++ lv i.wire ++ rest := by
          rw [lv, hc, ← lenByte, hd]; rfl
        have hc' := Carries.pagResp pd ck cm2 i.wire rest h6 (by rw [hc]; exact n.isLt) (by omega)
        rw [← hn', ← m27] at hc'
        exact outcome_good hP i hv hc'
      · rw [← h0] at hbad
        exact outcome_bad hP hbad
  · rw [if_neg m27] at h0
    by_cases m11 : mt = 0x11#8
    · have hP : ¬ ¬ mt.toNat ∈ [0x27, 0x11] := by rw [m11]; decide
      rw [if_pos m11] at h0
      by_cases hlen : t.length < 6
      · rw [if_pos hlen] at h0
        exact outcome_short hP h0
      · rw [if_neg hlen] at h0
        obtain ⟨n, b, t, rfl⟩ := two_of (by omega : ¬ t.length < 2)
        simp only [List.getElem?_cons_zero, Option.bind_some] at h0
        by_cases hn3 : n ≠ 3#8
        · rw [if_pos hn3] at h0
          exact outcome_short hP h0
        · rw [if_neg hn3] at h0
          have hn3' : n = 3#8 := Classical.not_not.1 hn3
          rcases gotCm2_cases (l3 := pd :: mt :: n :: b :: t) (off := 3) (n := n.toNat) (hex := hex) with
            ⟨i, cm2, rest, hv, hc, hd, -⟩ | hbad
          · have hm := wire_min hv
            simp only [List.drop_succ_cons, List.drop_zero] at hd
            have hn' : n :: b :: t = lv cm2 ++ lv i.wire ++ rest := by
              rw [lv, hc, ← lenByte, hd]; rfl
            have hc' := Carries.talker pd cm2 i.wire rest h6 (by rw [hc, hn3']; rfl) (by omega)
            rw [← hn', ← m11] at hc'
            exact outcome_good hP i hv hc'
          · rw [← h0] at hbad
            exact outcome_bad hP hbad
    · rw [if_neg m11] at h0
      refine outcome_unsup ?_ h0
      intro h
      simp only [List.mem_cons, List.not_mem_nil, or_false] at h
      rcases h with h | h
      · exact m27 (BitVec.eq_of_toNat_eq h)
      · exact m11 (BitVec.eq_of_toNat_eq h)

/-- **C91g.** Nothing else is extracted, and no octet outside the message is
read: for every octet string the function returns either 0 and the identity the
message carries, or a negative error and type `NONE`; `-ENOTSUP` exactly for a
message (of at least two octets) that is none of the above. -/
theorem l3_only (l3 : List Byte) (hex : Bool) :
    ∃ m rc, decodeFromL3 l3 hex = some (m, rc) ∧
      ((rc = 0 ∧ ∃ i : Ident, i.Valid hex ∧ Carries l3 i.wire ∧ m = i.canon) ∨
       (rc < 0 ∧ m.type = 0#8 ∧ ¬ ∃ i : Ident, i.Valid hex ∧ Carries l3 i.wire)) ∧
      (rc = -ENOTSUP ↔ ∃ pd mt rest, l3 = pd :: mt :: rest ∧ ¬ Supported pd mt) := by
  show Outcome l3 hex _
  have conv : ∀ pd mt t P, Outcome (pd :: mt :: t) hex P → (P ↔ ¬ Supported pd mt) →
      Outcome (pd :: mt :: t) hex
        (∃ pd' mt' rest, pd :: mt :: t = pd' :: mt' :: rest ∧ ¬ Supported pd' mt') := by
    rintro pd mt t P ⟨m, rc, h1, h2, h3⟩ hp
    refine ⟨m, rc, h1, h2, h3.trans (hp.trans ?_)⟩
    constructor
    · intro h; exact ⟨pd, mt, t, rfl, h⟩
    · rintro ⟨pd', mt', rest, h, hn⟩
      simp only [List.cons.injEq] at h
      obtain ⟨rfl, rfl, -⟩ := h
      exact hn
  match l3 with
  | [] =>
    refine outcome_short ?_ (by simp [decodeFromL3])
    rintro ⟨_, _, _, h, _⟩; cases h
  | [_] =>
    refine outcome_short ?_ (by simp [decodeFromL3])
    rintro ⟨_, _, _, h, _⟩; cases h
  | pd :: mt :: t =>
    by_cases h5 : pd.toNat % 16 = 5
    · refine conv pd mt t _ (mm_outcome h5) ?_
      unfold Supported
      simp [h5]
    · by_cases h6 : pd.toNat % 16 = 6
      · refine conv pd mt t _ (rr_outcome h6) ?_
        unfold Supported
        simp [h6]
      · refine conv pd mt t True (outcome_unsup trivial (l3_other h5 h6)) ?_
        unfold Supported
        simp only [h5, h6, false_and, or_false, not_false_eq_true]

/-- non-vacuity: a CM SERVICE REQUEST with a one-octet classmark and a TMSI -/
example : Carries [0x05, 0x64, 0x71, 0x01, 0x33, 0x05, 0xf4, 1, 2, 3, 4] (Ident.tmsi 0x01020304#32).wire ∧
    decodeFromL3 [0x05, 0x64, 0x71, 0x01, 0x33, 0x05, 0xf4, 1, 2, 3, 4] false =
      some ((Ident.tmsi 0x01020304#32).canon, 0) ∧
    (decodeFromL3 [0x05, 0x64, 0x71, 0x01, 0x33, 0x05, 0xf4, 1, 2, 3] false).map (·.2) = some (-74) ∧
    (decodeFromL3 [0x05, 0x02, 0x71] false).map (·.2) = some (-95) := by
  refine ⟨?_, by decide, by decide, by decide⟩
  exact Carries.cmReq 0x05 0x64 0x71 [0x33] (Ident.tmsi 0x01020304#32).wire [] (by decide) (by decide) (by decide)
    (by decide)

end Verif.MobileId
