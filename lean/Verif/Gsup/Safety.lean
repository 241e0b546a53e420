import Verif.Gsup.Limits
/-!
C131, C132: what the decoder does with octets from anywhere.
-/
namespace Verif.Gsup

/-- what holds of the accumulator, and never goes wrong, at every IE -/
theorem loop_inv {α : Type} (f : α → Byte → List Byte → List Byte → Res α) (P : α → List Byte → Prop) (Q : Res α → Prop)
    (herr : ∀ rc, Q (.err rc)) (hend : ∀ a, P a [] → Q (.ok a))
    (hstep : ∀ a t l v rest, v.length = l.toNat → P a (t :: l :: v ++ rest) →
      (∃ rc, f a t v rest = .err rc) ∨ (f a t v rest = .undef ∧ Q .undef) ∨ ∃ a', f a t v rest = .ok a' ∧ P a' rest) :
    ∀ (n : Nat) (data : List Byte) (a : α), data.length = n → P a data → Q (loop f data a) := by
  intro n
  induction n using Nat.strongRecOn with
  | ind n ih =>
    intro data a hn hp
    by_cases hnil : data = []
    · subst hnil; exact hend a hp
    · by_cases hd : ∃ t l v rest, data = t :: l :: v ++ rest ∧ v.length = l.toNat
      · obtain ⟨t, l, v, rest, rfl, hl⟩ := hd
        rw [loop_cons f t l v rest a hl]
        rcases hstep a t l v rest hl hp with ⟨rc, h⟩ | ⟨h, hq⟩ | ⟨a', h, hp'⟩
        · rw [h]; exact herr rc
        · rw [h]; exact hq
        · rw [h]
          exact ih rest.length (by simp at hn; omega) rest a' rfl hp'
      · rw [loop_broken f data a hnil hd]
        exact herr _

theorem decodePdpAddress_def (v : List Byte) (p : PdpInfo) : decodePdpAddress v p ≠ .undef := by
  unfold decodePdpAddress
  simp only
  repeat' split
  all_goals (intro h; cases h)

theorem pdpInfoIe_def (p : PdpInfo) (t : Byte) (v : List Byte) : pdpInfoIe p t v ≠ .undef := by
  unfold pdpInfoIe
  split
  all_goals first
    | exact decodePdpAddress_def _ _
    | (intro h; cases h)

theorem authInfoIe_def (a : AuthVec) (t : Byte) (v : List Byte) : authInfoIe a t v ≠ .undef := by
  unfold authInfoIe
  repeat' split
  all_goals (intro h; cases h)

theorem loop_def {α : Type} (g : α → Byte → List Byte → Res α) (hg : ∀ a t v, g a t v ≠ .undef) (v : List Byte) (a : α) :
    ieLoop (fun a t v _ => g a t v) v.length v a ≠ .undef := by
  refine loop_inv (fun a t v _ => g a t v) (fun _ _ => True) (fun r => r ≠ .undef) (fun _ h => by cases h)
    (fun _ _ h => by cases h) ?_ _ v a rfl trivial
  intro a t l v rest _ _
  cases h : g a t v with
  | undef => exact absurd h (hg a t v)
  | err rc => exact .inl ⟨rc, rfl⟩
  | ok a' => exact .inr (.inr ⟨a', rfl, trivial⟩)

theorem decodePdpInfo_def (v : List Byte) : decodePdpInfo v ≠ .undef := loop_def pdpInfoIe pdpInfoIe_def v {}

theorem decodeAuthInfo_def (v : List Byte) : decodeAuthInfo v ≠ .undef := loop_def authInfoIe authInfoIe_def v {}

theorem decodeSmRp_def (v : List Byte) : decodeSmRp v ≠ .undef := by
  unfold decodeSmRp
  repeat' split
  all_goals (intro h; cases h)

/-! ## The head of a message -/

theorem nibbles_take {v : List Byte} (h : v.length ≤ 8) : (Bcd.dropFiller (Bcd.nibblesOf v)).length ≤ 16 := by
  have h1 := Bcd.nibblesOf_length v
  unfold Bcd.dropFiller
  split
  · rw [List.length_dropLast]; omega
  · omega

/-- the type, the IMSI, and whatever comes behind it -/
theorem decode_head (t l : Byte) (v rest : List Byte) (hl : v.length = l.toNat) :
    decode (t :: (0x01 :: l :: v ++ rest)) =
      if v.length ≤ 8 then loop topIe rest { messageType := t.toNat, imsi := Bcd.cstr ((Bcd.nibblesOf v).map Bcd.charOf ++ [0]) }
      else .err (-96) := by
  have hv : Tlv.shiftVFixed (t :: (0x01 :: l :: v ++ rest)) 1 =
      { rc := 1, rest := 0x01 :: l :: v ++ rest, window := some (0, 1) } := by
    rw [Tlv.shiftVFixed, if_neg (by simp)]
    rfl
  have hm : Tlv.matchShiftTlv (0x01 :: l :: v ++ rest) 0x01 =
      { rc := (v.length + 2 : Nat), rest := rest, window := some (2, v.length) } := by
    simp only [Tlv.matchShiftTlv, Tlv.shiftTlv, List.cons_append, List.length_cons, List.length_append, ← hl]
    rw [if_neg (by omega)]
    simp
  by_cases h8 : v.length ≤ 8
  · rw [if_pos h8]
    have e : ((0x01 :: l :: v ++ rest : List Byte).drop (2 - 1)).take (v.length + 1) = l :: v := by simp
    have hd := (Bcd.decode_spec 17 (l :: v) 0).2.2.2 _ v (by omega) rfl (by omega)
    simp only [← hl, List.take_length, List.drop_zero] at hd
    rw [if_pos (nibbles_take h8), List.take_of_length_le
      (by rw [List.length_map, Bcd.nibblesOf_length]; omega)] at hd
    unfold decode
    rw [hv]
    simp only
    rw [if_neg (by omega), hm]
    simp only
    rw [if_neg (by omega), if_neg (by omega), e, hd]
    simp only
    rw [if_neg (by simp)]
    show loop topIe rest { messageType := decodeBe [t], imsi := _ } = _
    rw [be1]
  · rw [if_neg h8]
    unfold decode
    rw [hv]
    simp only
    rw [if_neg (by omega), hm]
    simp only
    rw [if_neg (by omega), if_pos (by omega)]
    rfl

/-- every message is rejected, or is the type, an IMSI of up to 8 octets, and IEs -/
theorem decode_cases (data : List Byte) :
    decode data = .err (-96) ∨
    ∃ t l v rest, data = t :: (0x01 :: l :: v ++ rest) ∧ v.length = l.toNat ∧ v.length ≤ 8 ∧
      decode data = loop topIe rest { messageType := t.toNat, imsi := Bcd.cstr ((Bcd.nibblesOf v).map Bcd.charOf ++ [0]) } := by
  cases data with
  | nil => exact .inl rfl
  | cons t data =>
    have hv : Tlv.shiftVFixed (t :: data) 1 = { rc := 1, rest := data, window := some (0, 1) } := by
      rw [Tlv.shiftVFixed, if_neg (by simp)]
      rfl
    rcases shiftTlv_cases data with ⟨tag, l, v, rest, rfl, hl, hs⟩ | hs
    · by_cases ht : tag = 0x01
      · subst ht
        have hdec := decode_head t l v rest hl
        by_cases h8 : v.length ≤ 8
        · right
          rw [if_pos h8] at hdec
          exact ⟨t, l, v, rest, rfl, hl, h8, hdec⟩
        · left
          rw [if_neg h8] at hdec
          exact hdec
      · left
        have hm : (Tlv.matchShiftTlv (tag :: l :: v ++ rest) 0x01).rc = 0 := by
          rw [Tlv.matchShiftTlv, hs]
          simp only
          rw [if_pos ⟨by omega, ht⟩]
        unfold decode
        rw [hv]
        simp only
        rw [if_neg (by omega), if_pos (by omega)]
        rfl
    · left
      have hm : (Tlv.matchShiftTlv data 0x01).rc ≤ 0 := by
        unfold Tlv.matchShiftTlv
        rcases hsh : Tlv.shiftTlv data with ⟨o, s⟩
        rw [hsh] at hs
        simp only at hs
        subst hs
        simp only
        have : s.rc ≤ 0 := by
          have hh := congrArg (fun x => x.2.rc) hsh
          simp only at hh
          rw [← hh]
          match data with
          | [] => decide
          | [_] => simp [Tlv.shiftTlv, Tlv.shiftFail]
          | a :: b :: tl =>
            simp only [Tlv.shiftTlv] at hsh ⊢
            split at hsh
            · rename_i hc
              rw [if_pos hc]
              simp [Tlv.shiftFail]
            · cases hsh
        exact this
      unfold decode
      rw [hv]
      simp only
      rw [if_neg (by omega), if_pos hm]
      rfl

/-! ## Reads behind the message -/

/-- the IEs of which the decoder reads an octet, whatever their length -/
def octetTags : List Byte := [0x28, 0x2a, 0x31, 0x46, 0x0a, 0x63, 0x64, 0x65, 0x52]

theorem setFirst_undef {v after : List Byte} {f : Byte → Msg} (h : setFirst v after f = .undef) : v = [] ∧ after = [] := by
  unfold setFirst deref at h
  split at h
  · rename_i he
    simpa using he
  · cases h

theorem tag_of {t : Byte} {n : Nat} (h : t.toNat = n) : t = BitVec.ofNat 8 n := by
  rw [← h]; simp

theorem setFirst_tag {v after : List Byte} {f : Byte → Msg} {t : Byte} (h : setFirst v after f = .undef) (ht : t ∈ octetTags) :
    v = [] ∧ after = [] ∧ t ∈ octetTags := ⟨(setFirst_undef h).1, (setFirst_undef h).2, ht⟩

theorem topIe_undef (m : Msg) (t : Byte) (v after : List Byte) (h : topIe m t v after = .undef) :
    v = [] ∧ after = [] ∧ t ∈ octetTags := by
  unfold topIe at h
  split at h
  all_goals first
    | (cases h)
    | (rename_i ht
       refine setFirst_tag h ?_
       rw [tag_of ht]
       decide)
    | (split at h
       · cases h
       · split at h
         · rename_i he; exact absurd he (decodePdpInfo_def _)
         · cases h
         · cases h)
    | (split at h
       · cases h
       · split at h
         · rename_i he; exact absurd he (decodeAuthInfo_def _)
         · cases h
         · cases h)
    | (split at h
       · rename_i he; exact absurd he (decodeSmRp_def _)
       · cases h
       · cases h)
    | (split at h
       · cases h
       · cases h)
    | skip
  · rename_i ht
    split at h
    · obtain ⟨h1, h2⟩ := setFirst_undef h
      exact ⟨h1, h2, by rw [tag_of ht]; decide⟩
    · cases h

/-- C131: the only reads behind the end of a message are those of an octet of
an IE of length 0 that ends the message -/
theorem undef_only (data : List Byte) (h : decode data = .undef) : ∃ pre tag, data = pre ++ [tag, 0] ∧ tag ∈ octetTags := by
  rcases decode_cases data with he | ⟨t, l, v, rest, hd, hl, h8, he⟩
  · rw [h] at he; cases he
  · rw [he] at h
    have key := loop_inv topIe (fun _ d => ∃ pre, data = pre ++ d)
      (fun r => r = .undef → ∃ pre tag, data = pre ++ [tag, 0] ∧ tag ∈ octetTags)
      (fun _ hh => by cases hh) (fun _ _ hh => by cases hh)
      (by
        intro a t l v rest hl ⟨pre, hp⟩
        cases hr : topIe a t v rest with
        | err rc => exact .inl ⟨rc, rfl⟩
        | undef =>
          refine .inr (.inl ⟨rfl, fun _ => ?_⟩)
          obtain ⟨h1, h2, h3⟩ := topIe_undef a t v rest hr
          subst h1 h2
          refine ⟨pre, t, ?_, h3⟩
          have : l = 0 := BitVec.eq_of_toNat_eq (by rw [← hl]; rfl)
          rw [hp, this]
          rfl
        | ok a' => exact .inr (.inr ⟨a', rfl, pre ++ t :: l :: v, by rw [hp]; simp⟩))
      _ rest { messageType := t.toNat, imsi := Bcd.cstr ((Bcd.nibblesOf v).map Bcd.charOf ++ [0]) } rfl
      ⟨t :: (0x01 :: l :: v), by rw [hd]; simp⟩
    exact key h

theorem setFirst_ok {v after : List Byte} {f : Byte → Msg} {m' : Msg} (h : setFirst v after f = .ok m') : ∃ b, m' = f b := by
  unfold setFirst at h
  split at h
  · cases h
  · cases h; exact ⟨_, rfl⟩

/-- the pointers into the message -/
theorem topIe_ptrs (m : Msg) (t : Byte) (v after : List Byte) (m' : Msg) (h : topIe m t v after = .ok m') :
    (m'.smRpMr = m.smRpMr ∨ (t = 0x40 ∧ m'.smRpMr = some (deref v after))) ∧
    (m'.smRpMms = m.smRpMms ∨ (t = 0x45 ∧ m'.smRpMms = some (deref v after))) ∧
    (m'.smRpCause = m.smRpCause ∨ (t = 0x44 ∧ m'.smRpCause = some (deref v after))) := by
  unfold topIe at h
  split at h
  all_goals first
    | (obtain ⟨b, rfl⟩ := setFirst_ok h
       exact ⟨.inl rfl, .inl rfl, .inl rfl⟩)
    | (cases h; exact ⟨.inl rfl, .inl rfl, .inl rfl⟩)
    | (rename_i ht
       cases h
       exact ⟨.inr ⟨tag_of ht, rfl⟩, .inl rfl, .inl rfl⟩)
    | (rename_i ht
       cases h
       exact ⟨.inl rfl, .inr ⟨tag_of ht, rfl⟩, .inl rfl⟩)
    | (rename_i ht
       cases h
       exact ⟨.inl rfl, .inl rfl, .inr ⟨tag_of ht, rfl⟩⟩)
    | (repeat' split at h
       all_goals first
         | (cases h; done)
         | (obtain ⟨b, rfl⟩ := setFirst_ok h
            exact ⟨.inl rfl, .inl rfl, .inl rfl⟩)
         | (cases h; exact ⟨.inl rfl, .inl rfl, .inl rfl⟩))

/-- C131: the octets that the result points to are in the message, unless the
message ends with such an IE of length 0 -/
theorem dangling_only (data : List Byte) (m : Msg) (h : decode data = .ok m)
    (hd : m.smRpMr = some none ∨ m.smRpMms = some none ∨ m.smRpCause = some none) :
    ∃ pre tag, data = pre ++ [tag, 0] ∧ (tag = 0x40 ∨ tag = 0x44 ∨ tag = 0x45) := by
  rcases decode_cases data with he | ⟨t, l, v, rest, hdt, hl, h8, he⟩
  · rw [h] at he; cases he
  · rw [he] at h
    have key := loop_inv topIe
      (fun a d => (∃ pre, data = pre ++ d) ∧ (a.smRpMr = some none ∨ a.smRpMms = some none ∨ a.smRpCause = some none →
        ∃ pre tag, data = pre ++ [tag, 0] ∧ (tag = 0x40 ∨ tag = 0x44 ∨ tag = 0x45)))
      (fun r => ∀ m, r = .ok m → (m.smRpMr = some none ∨ m.smRpMms = some none ∨ m.smRpCause = some none) →
        ∃ pre tag, data = pre ++ [tag, 0] ∧ (tag = 0x40 ∨ tag = 0x44 ∨ tag = 0x45))
      (fun _ _ hh => by cases hh) (fun a hp m hh => by cases hh; exact hp.2)
      (by
        intro a t l v rest hl ⟨⟨pre, hp⟩, hptr⟩
        cases hr : topIe a t v rest with
        | err rc => exact .inl ⟨rc, rfl⟩
        | undef => exact .inr (.inl ⟨rfl, fun _ hh => by cases hh⟩)
        | ok a' =>
          refine .inr (.inr ⟨a', rfl, ⟨pre ++ t :: l :: v, by rw [hp]; simp⟩, ?_⟩)
          obtain ⟨h1, h2, h3⟩ := topIe_ptrs a t v rest a' hr
          have hend : ∀ tag : Byte, t = tag → some (deref v rest) = some none → data = pre ++ [tag, 0] := by
            intro tag ht hn
            have : v = [] ∧ rest = [] := by simpa [deref] using hn
            obtain ⟨rfl, rfl⟩ := this
            have : l = 0 := BitVec.eq_of_toNat_eq (by rw [← hl]; rfl)
            rw [hp, ht, this]
            rfl
          rintro (hn | hn | hn)
          · rcases h1 with h1 | ⟨ht, h1⟩
            · exact hptr (.inl (h1 ▸ hn))
            · exact ⟨pre, 0x40, hend _ ht (h1 ▸ hn), .inl rfl⟩
          · rcases h2 with h2 | ⟨ht, h2⟩
            · exact hptr (.inr (.inl (h2 ▸ hn)))
            · exact ⟨pre, 0x45, hend _ ht (h2 ▸ hn), .inr (.inr rfl)⟩
          · rcases h3 with h3 | ⟨ht, h3⟩
            · exact hptr (.inr (.inr (h3 ▸ hn)))
            · exact ⟨pre, 0x44, hend _ ht (h3 ▸ hn), .inr (.inl rfl)⟩)
      _ rest { messageType := t.toNat, imsi := Bcd.cstr ((Bcd.nibblesOf v).map Bcd.charOf ++ [0]) } rfl
      ⟨⟨t :: (0x01 :: l :: v), by rw [hdt]; simp⟩, by rintro (hh | hh | hh) <;> cases hh⟩
    exact key m h hd

/-- C131: a message whose last octet is not 0 is decoded without a read
behind its end, and what the result points to is in the message.  Missing:
messages that end with an IE of length 0, see `undef_counterexample` -/
theorem decode_in_bounds_partial (data : List Byte) (h : data.getLast? ≠ some 0) :
    decode data ≠ .undef ∧
    ∀ m, decode data = .ok m → m.smRpMr ≠ some none ∧ m.smRpMms ≠ some none ∧ m.smRpCause ≠ some none := by
  constructor
  · intro hu
    obtain ⟨pre, tag, hd, _⟩ := undef_only data hu
    exact h (by rw [hd]; simp)
  · intro m hm
    have : ¬ (m.smRpMr = some none ∨ m.smRpMms = some none ∨ m.smRpCause = some none) := by
      intro hh
      obtain ⟨pre, tag, hd, _⟩ := dangling_only data m hm hh
      exact h (by rw [hd]; simp)
    simpa [not_or] using this

/-- C131: a message that ends with one of those IEs without a value is read
behind its end -/
theorem undef_counterexample (t tag : Byte) (h : tag ∈ octetTags) (h8 : tag = 0x52 → t = 8) :
    decode [t, 0x01, 0, tag, 0] = .undef := by
  simp only [octetTags, List.mem_cons, List.not_mem_nil, or_false] at h
  rcases h with h | h | h | h | h | h | h | h | h <;> subst h
  all_goals first
    | rfl
    | (rw [h8 rfl]; rfl)

/-- C131: with such an IE without a value before another one, the tag of the
other one is taken for the value -/
theorem misread_counterexample (t b : Byte) :
    decode [t, 0x01, 0, 0x28, 0, 0x02, 1, b] = .ok { messageType := t.toNat, cnDomain := 2, cause := b.toNat } := by
  have := be1_u32 (n := b.toNat) (by have := b.isLt; omega)
  rw [BitVec.ofNat_toNat, BitVec.setWidth_eq] at this
  show Res.ok ({ messageType := decodeBe [t], cnDomain := 2, cause := u32 (decodeBe [b]) } : Msg) = _
  rw [this, be1]

/-- C131: the pointer to the message reference points behind the message -/
theorem dangling_counterexample (t : Byte) :
    decode [t, 0x01, 0, 0x40, 0] = .ok { messageType := t.toNat, smRpMr := some none } := by
  show Res.ok ({ messageType := decodeBe [t], smRpMr := some none } : Msg) = _
  rw [be1]

/-! ## What a decoded message has in it -/

end Verif.Gsup
