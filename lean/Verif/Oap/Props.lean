import Verif.Oap.Model
import Verif.Gsup.Invariants
/-!
C133: OAP messages; C134: octets from anywhere.
-/
namespace Verif.Oap

open Verif.Gsup (Res Piece EncRes ieLoop decodeBe deref run tlv loop loop_tlv loop_cons loop_broken loop_inv bytesOf good run_good
  run_no_room byte_toNat byte_eq_zero be1 bytesOf_append bytesOf_one good_append tag_of iesOf)

/-- messages that can be carried: the arrays have their sizes -/
structure MsgOk (m : Msg) : Prop where
  messageType : 1 ≤ m.messageType ∧ m.messageType ≤ 255
  cause : m.cause ≤ 255
  clientId : m.clientId < 2 ^ 16
  rand : ∀ v, m.rand = some v → v.length = 16
  autn : ∀ v, m.autn = some v → v.length = 16
  xres : ∀ v, m.xres = some v → v.length = 8
  auts : ∀ v, m.auts = some v → v.length = 14

theorem decode_cons (t : Byte) (rest : List Byte) : decode (t :: rest) = loop topIe rest { messageType := t.toNat } := by
  have hv : Tlv.shiftVFixed (t :: rest) 1 = { rc := 1, rest := rest, window := some (0, 1) } := by
    rw [Tlv.shiftVFixed, if_neg (by simp)]
    rfl
  unfold decode
  rw [hv]
  simp only
  rw [if_neg (by omega)]
  show loop topIe rest { messageType := decodeBe [t] } = _
  rw [be1]

/-- an array, whichever it is -/
theorem array_step (tag : Byte) (o : Option (List Byte)) (n : Nat) (rest : List Byte) (a a' : Msg) (hn : n < 256)
    (ho : ∀ v, o = some v → v.length = n) (h0 : o = none → a' = a)
    (hs : ∀ v, o = some v → v.length = n → topIe a tag v rest = .ok a') :
    loop topIe (bytesOf (putArray tag o) ++ rest) a = loop topIe rest a' := by
  cases o with
  | none => rw [h0 rfl]; rfl
  | some v =>
    have hl := ho v rfl
    rw [putArray, bytesOf_one]
    exact loop_tlv topIe tag v rest a a' (by omega) (hs v rfl hl)

theorem array_good (tag : Byte) (o : Option (List Byte)) : good (putArray tag o) := by cases o <;> trivial

theorem pieces_good (m : Msg) : good (pieces m) := by
  refine good_append (a := [_]) trivial (good_append ?_ (good_append ?_ (good_append (array_good _ _)
    (good_append (array_good _ _) (good_append (array_good _ _) (array_good _ _))))))
  · split <;> trivial
  · split <;> trivial

theorem no_need (m : Msg) (n : Nat) (rc : Int) : Piece.need n rc ∉ pieces m := by
  have ha : ∀ t o, Piece.need n rc ∉ putArray t o := by intro t o; cases o <;> simp [putArray]
  simp only [pieces, List.mem_cons, List.mem_append, ha, or_false, not_or]
  refine ⟨by simp, ?_, ?_⟩
  · split <;> simp
  · split <;> simp

theorem tail_decodes (m : Msg) (h : MsgOk m) : decode (bytesOf (pieces m)) = .ok m := by
  have hx : ∀ o : Option (List Byte), bytesOf (putArray 0x24 o) = bytesOf (putArray 0x24 o) ++ [] := by simp
  simp only [pieces, bytesOf, bytesOf_append, List.singleton_append]
  rw [decode_cons, byte_toNat h.messageType.2]
  have hc : ∀ rest, loop topIe
      (bytesOf (if (BitVec.ofNat 8 m.cause : Byte) ≠ 0 then [.put (tlv 0x02 [BitVec.ofNat 8 m.cause])] else []) ++ rest)
      { messageType := m.messageType } = loop topIe rest { messageType := m.messageType, cause := m.cause } := by
    intro rest
    by_cases h0 : m.cause = 0
    · rw [h0]; rfl
    · rw [if_pos (fun hh => h0 ((byte_eq_zero h.cause).1 hh)), bytesOf_one]
      refine loop_tlv topIe _ [BitVec.ofNat 8 m.cause] rest _ _ (by simp) ?_
      show Res.ok ({ messageType := m.messageType, cause := (BitVec.ofNat 8 m.cause : Byte).toNat } : Msg) = _
      rw [byte_toNat h.cause]
  have hi : ∀ rest, loop topIe
      (bytesOf (if m.clientId > 0 then [.put (tlv 0x30 [BitVec.ofNat 8 (m.clientId / 256), BitVec.ofNat 8 m.clientId])] else []) ++ rest)
      { messageType := m.messageType, cause := m.cause } =
      loop topIe rest { messageType := m.messageType, cause := m.cause, clientId := m.clientId } := by
    intro rest
    by_cases h0 : m.clientId = 0
    · rw [h0]; rfl
    · rw [if_pos (by omega), bytesOf_one]
      have hid : decodeBe [BitVec.ofNat 8 (m.clientId / 256), BitVec.ofNat 8 m.clientId] % 2 ^ 16 = m.clientId := by
        have := h.clientId
        simp only [decodeBe, List.foldl_cons, List.foldl_nil, BitVec.toNat_ofNat]
        omega
      refine loop_tlv topIe _ _ rest _ _ (by simp) ?_
      show (if [BitVec.ofNat 8 (m.clientId / 256), BitVec.ofNat 8 m.clientId].length ≠ 2 then Res.err (-PROTO_ERR_UNSPEC)
        else if decodeBe [BitVec.ofNat 8 (m.clientId / 256), BitVec.ofNat 8 m.clientId] % 2 ^ 16 = 0 then Res.err (-PROTO_ERR_UNSPEC)
        else Res.ok ({ messageType := m.messageType, cause := m.cause,
                       clientId := decodeBe [BitVec.ofNat 8 (m.clientId / 256), BitVec.ofNat 8 m.clientId] % 2 ^ 16 } : Msg)) = _
      rw [hid, if_neg (by simp), if_neg h0]
  rw [hc, hi]
  rw [array_step (a' := { messageType := m.messageType, cause := m.cause, clientId := m.clientId, rand := m.rand }) 0x20 _ 16 _ _
    (by omega) h.rand (fun hn => by rw [hn]) (fun v hv hl => by
      show (if v.length ≠ 16 then Res.err (-PROTO_ERR_UNSPEC) else _) = _
      rw [if_neg (by omega), hv])]
  rw [array_step (a' := { messageType := m.messageType, cause := m.cause, clientId := m.clientId, rand := m.rand, autn := m.autn })
    0x23 _ 16 _ _ (by omega) h.autn (fun hn => by rw [hn]) (fun v hv hl => by
      show (if v.length ≠ 16 then Res.err (-PROTO_ERR_UNSPEC) else _) = _
      rw [if_neg (by omega), hv])]
  rw [array_step (a' := { messageType := m.messageType, cause := m.cause, clientId := m.clientId, rand := m.rand, autn := m.autn,
                          auts := m.auts })
    0x25 _ 14 _ _ (by omega) h.auts (fun hn => by rw [hn]) (fun v hv hl => by
      show (if v.length ≠ 14 then Res.err (-PROTO_ERR_UNSPEC) else _) = _
      rw [if_neg (by omega), hv])]
  rw [hx, array_step (a' := m) 0x24 _ 8 _ _ (by omega) h.xres (fun hn => by rw [← hn]) (fun v hv hl => by
      show (if v.length ≠ 8 then Res.err (-PROTO_ERR_UNSPEC) else _) = _
      rw [if_neg (by omega), ← hv])]
  rfl

/-- C133: with enough tailroom a message is encoded to octets that are decoded
to the same message; otherwise the program stops in `msgb_put` -/
theorem round_trip (m : Msg) (h : MsgOk m) :
    ∃ bytes, decode bytes = .ok m ∧ (∀ room, bytes.length ≤ room → encode room m = .done 0 bytes) ∧
      (∀ room, room < bytes.length → encode room m = .abort) := by
  have h0 := h.messageType.1
  refine ⟨bytesOf (pieces m), tail_decodes m h, ?_, ?_⟩
  · intro room hr
    unfold encode
    rw [if_neg (by omega)]
    simpa using run_good room _ [] (pieces_good m) (by simpa using hr)
  · intro room hr
    unfold encode
    rw [if_neg (by omega)]
    rcases run_no_room room _ [] (pieces_good m) (by simp) (by simpa using hr) with h1 | ⟨n, rc, o, hn, _⟩
    · exact h1
    · exact absurd hn (no_need m n rc)

/-- C133: no message is longer than 70 octets -/
theorem size_bound (m : Msg) (h : MsgOk m) : (bytesOf (pieces m)).length ≤ 70 := by
  have ha : ∀ (t : Byte) (o : Option (List Byte)) (n : Nat), n < 256 → (∀ v, o = some v → v.length = n) →
      (bytesOf (putArray t o)).length ≤ n + 2 := by
    intro t o n hn ho
    cases o with
    | none => simp [putArray, bytesOf]
    | some v =>
      have := ho v rfl
      rw [putArray, bytesOf_one, Gsup.tlv_length (by omega)]
      omega
  have h1 := ha 0x20 m.rand 16 (by omega) h.rand
  have h2 := ha 0x23 m.autn 16 (by omega) h.autn
  have h3 := ha 0x25 m.auts 14 (by omega) h.auts
  have h4 := ha 0x24 m.xres 8 (by omega) h.xres
  have h5 : (bytesOf (if (BitVec.ofNat 8 m.cause : Byte) ≠ 0 then [Piece.put (tlv 0x02 [BitVec.ofNat 8 m.cause])] else [])).length ≤ 3 := by
    split <;> simp [bytesOf, tlv]
  have h6 : (bytesOf (if m.clientId > 0 then
      [Piece.put (tlv 0x30 [BitVec.ofNat 8 (m.clientId / 256), BitVec.ofNat 8 m.clientId])] else [])).length ≤ 4 := by
    split <;> simp [bytesOf, tlv]
  simp only [pieces, bytesOf, bytesOf_append, List.length_append, List.length_cons, List.length_nil]
  omega

/-! ## Octets from anywhere -/

theorem topIe_undef (m : Msg) (t : Byte) (v after : List Byte) (h : topIe m t v after = .undef) : t = 0x02 ∧ v = [] ∧ after = [] := by
  unfold topIe at h
  split at h
  all_goals first
    | (cases h)
    | (split at h
       · cases h
       · cases h)
    | skip
  · simp only at h
    split at h
    · cases h
    · split at h <;> cases h
  · rename_i ht
    split at h
    · cases h
    · split at h
      · rename_i hd
        refine ⟨tag_of ht, ?_⟩
        simpa [deref] using hd
      · cases h

/-- C134: the only read behind the end of a message is that of a cause of
length 0 that ends it -/
theorem undef_iff (data : List Byte) (h : decode data = .undef) : ∃ pre, data = pre ++ [0x02, 0] := by
  cases data with
  | nil => cases h
  | cons t rest =>
    rw [decode_cons] at h
    exact loop_inv topIe (fun _ d => ∃ pre, t :: rest = pre ++ d) (fun r => r = .undef → ∃ pre, t :: rest = pre ++ [0x02, 0])
      (fun _ hh => by cases hh) (fun _ _ hh => by cases hh)
      (by
        intro a t' l v r hl ⟨pre, hp⟩
        cases hr : topIe a t' v r with
        | err rc => exact .inl ⟨rc, rfl⟩
        | undef =>
          refine .inr (.inl ⟨rfl, fun _ => ?_⟩)
          obtain ⟨h1, h2, h3⟩ := topIe_undef a t' v r hr
          subst h1 h2 h3
          have : l = 0 := BitVec.eq_of_toNat_eq (by rw [← hl]; rfl)
          exact ⟨pre, by rw [hp, this]; rfl⟩
        | ok a' => exact .inr (.inr ⟨a', rfl, pre ++ t' :: l :: v, by rw [hp]; simp⟩))
      _ rest { messageType := t.toNat } rfl ⟨[t], rfl⟩ h

theorem undef_counterexample (t : Byte) : decode [t, 0x02, 0] = .undef := rfl

/-- C134: a message whose last octet is not 0 is decoded without reads behind
its end.  Missing: messages that end with 0x02 0x00, see `undef_counterexample` -/
theorem decode_in_bounds_partial (data : List Byte) (h : data.getLast? ≠ some 0) : decode data ≠ .undef := by
  intro hu
  obtain ⟨pre, hp⟩ := undef_iff data hu
  exact h (by rw [hp]; simp)

theorem topIe_ok (m : Msg) (t : Byte) (v after : List Byte) (m' : Msg) (hs : MsgOk m ∨ m.messageType = 0 ∧ MsgOk { m with messageType := 1 })
    (h : topIe m t v after = .ok m') : MsgOk m' ∨ m'.messageType = 0 ∧ MsgOk { m' with messageType := 1 } := by
  have lift : ∀ (P : Msg → Msg), (∀ x, (P x).messageType = x.messageType) → (∀ x, P { x with messageType := 1 } = { P x with messageType := 1 }) →
      (∀ x, MsgOk x → MsgOk (P x)) → MsgOk (P m) ∨ (P m).messageType = 0 ∧ MsgOk { P m with messageType := 1 } := by
    intro P h1 h2 h3
    rcases hs with hs | ⟨h0, hs⟩
    · exact .inl (h3 m hs)
    · exact .inr ⟨by rw [h1, h0], by rw [← h2]; exact h3 _ hs⟩
  unfold topIe at h
  split at h
  · split at h
    · cases h
    · simp only at h
      split at h
      · cases h
      · cases h
        exact lift (fun x => { x with clientId := decodeBe v % 2 ^ 16 }) (fun _ => rfl) (fun _ => rfl)
          fun x hx => ⟨hx.messageType, hx.cause, by simp only; omega, hx.rand, hx.autn, hx.xres, hx.auts⟩
  · split at h
    · cases h
    · cases h
      exact lift (fun x => { x with autn := some v }) (fun _ => rfl) (fun _ => rfl)
        fun x hx => ⟨hx.messageType, hx.cause, hx.clientId, hx.rand, fun w hw => by cases hw; omega, hx.xres, hx.auts⟩
  · split at h
    · cases h
    · cases h
      exact lift (fun x => { x with rand := some v }) (fun _ => rfl) (fun _ => rfl)
        fun x hx => ⟨hx.messageType, hx.cause, hx.clientId, fun w hw => by cases hw; omega, hx.autn, hx.xres, hx.auts⟩
  · split at h
    · cases h
    · cases h
      exact lift (fun x => { x with xres := some v }) (fun _ => rfl) (fun _ => rfl)
        fun x hx => ⟨hx.messageType, hx.cause, hx.clientId, hx.rand, hx.autn, fun w hw => by cases hw; omega, hx.auts⟩
  · split at h
    · cases h
    · cases h
      exact lift (fun x => { x with auts := some v }) (fun _ => rfl) (fun _ => rfl)
        fun x hx => ⟨hx.messageType, hx.cause, hx.clientId, hx.rand, hx.autn, hx.xres, fun w hw => by cases hw; omega⟩
  · split at h
    · cases h
    · split at h
      · cases h
      · rename_i b _
        cases h
        exact lift (fun x => { x with cause := b.toNat }) (fun _ => rfl) (fun _ => rfl)
          fun x hx => ⟨hx.messageType, by have := b.isLt; simp only; omega, hx.clientId, hx.rand, hx.autn, hx.xres, hx.auts⟩
  · cases h
    exact hs

/-- C134: whatever is decoded (with a message type other than 0) can be
encoded again, and is decoded to the same: decoding is onto the messages that
can be carried -/
theorem decode_ok (data : List Byte) (m : Msg) (h : decode data = .ok m) (h0 : m.messageType ≠ 0) : MsgOk m := by
  cases data with
  | nil => cases h
  | cons t rest =>
    rw [decode_cons] at h
    have key := loop_inv topIe (fun a _ => MsgOk a ∨ a.messageType = 0 ∧ MsgOk { a with messageType := 1 })
      (fun r => ∀ m, r = .ok m → MsgOk m ∨ m.messageType = 0 ∧ MsgOk { m with messageType := 1 }) (fun _ _ hh => by cases hh)
      (fun a hp m hh => by cases hh; exact hp)
      (by
        intro a t l v rest _ hp
        cases hr : topIe a t v rest with
        | err rc => exact .inl ⟨rc, rfl⟩
        | undef => exact .inr (.inl ⟨rfl, fun _ hh => by cases hh⟩)
        | ok a' => exact .inr (.inr ⟨a', rfl, topIe_ok a t v rest a' hp hr⟩))
      _ rest { messageType := t.toNat } rfl
      (by
        have ht := t.isLt
        have b : ∀ n, 1 ≤ n ∧ n ≤ 255 → MsgOk { messageType := n } := fun n hn =>
          ⟨hn, by simp, by simp, by simp, by simp, by simp, by simp⟩
        by_cases h0 : t.toNat = 0
        · exact .inr ⟨h0, b 1 (by omega)⟩
        · exact .inl (b _ (by omega)))
      m h
    rcases key with hk | ⟨hk, _⟩
    · exact hk
    · exact absurd hk h0

/-- C134: an IE with an unknown tag changes nothing, behind IEs of which the
last one has a value -/
theorem unknown_skipped (t : Byte) (xs : List (Byte × List Byte)) (hx : ∀ x ∈ xs, x.2.length ≤ 255)
    (hlast : ∀ x, xs.getLast? = some x → x.2 ≠ []) (u : Byte) (w rest : List Byte)
    (hu : u ∉ ([0x02, 0x20, 0x23, 0x24, 0x25, 0x30] : List Byte)) (hw : w.length ≤ 255) :
    decode (t :: (iesOf xs ++ (u :: BitVec.ofNat 8 w.length :: w ++ rest))) = decode (t :: (iesOf xs ++ rest)) := by
  have hun : ∀ a, topIe a u w rest = .ok a := by
    intro a
    unfold topIe
    split
    all_goals first
      | rfl
      | (rename_i ht
         exact absurd (by rw [tag_of ht]; decide) hu)
  rw [decode_cons, decode_cons]
  generalize ({ messageType := t.toNat } : Msg) = a
  induction xs generalizing a with
  | nil =>
    show loop topIe (u :: BitVec.ofNat 8 w.length :: w ++ rest) a = loop topIe rest a
    rw [loop_cons _ _ _ _ _ _ (by rw [byte_toNat hw]), hun]
  | cons x xs ih =>
    have hx0 := hx x (by simp)
    have e : ∀ r : List Byte, iesOf (x :: xs) ++ r = x.1 :: BitVec.ofNat 8 x.2.length :: x.2 ++ (iesOf xs ++ r) := by
      intro r; simp [iesOf]
    have hhead : ∀ r1 r2 : List Byte, (x.2 ++ (iesOf xs ++ r1)).head? = (x.2 ++ (iesOf xs ++ r2)).head? := by
      intro r1 r2
      cases hv : x.2 with
      | cons b bs => rfl
      | nil =>
        cases xs with
        | nil => exact absurd hv (hlast x rfl)
        | cons z zs => rfl
    have hafter : ∀ r1 r2, (x.2 ++ r1).head? = (x.2 ++ r2).head? → topIe a x.1 x.2 r1 = topIe a x.1 x.2 r2 := by
      intro r1 r2 hh
      unfold topIe deref
      rw [hh]
    rw [e, e, loop_cons _ _ _ _ _ _ (by rw [byte_toNat hx0]), loop_cons _ _ _ _ _ _ (by rw [byte_toNat hx0]),
      hafter _ _ (hhead (u :: BitVec.ofNat 8 w.length :: w ++ rest) rest)]
    cases topIe a x.1 x.2 (iesOf xs ++ rest) with
    | undef => rfl
    | err rc => rfl
    | ok a' =>
      exact ih (fun y hy => hx y (by simp [hy])) (fun y hy => hlast y (by
        cases xs with
        | nil => cases hy
        | cons z zs => rw [List.getLast?_cons_cons]; exact hy)) a'

/-! ## Examples -/

example : encode 100 { messageType := 5, cause := 3, clientId := 0x1234, xres := some [1, 2, 3, 4, 5, 6, 7, 8] } =
    .done 0 [5, 2, 1, 3, 0x30, 2, 0x12, 0x34, 0x24, 8, 1, 2, 3, 4, 5, 6, 7, 8] := by decide

example : decode [5, 2, 1, 3, 0x77, 0, 0x30, 2, 0x12, 0x34] = .ok { messageType := 5, cause := 3, clientId := 0x1234 } := by decide

example : decode [5, 0x30, 2, 0, 0] = .err (-111) ∧ decode [5, 0x30, 1, 7] = .err (-111) ∧ decode [5, 0x30, 2, 7] = .err (-111) := by
  decide

end Verif.Oap
