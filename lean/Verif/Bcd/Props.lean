import Verif.Bcd.Model
import Mathlib.Tactic.IntervalCases
/-!
What a BCD number is (3GPP TS 24.008 10.5.4.7), and that the two functions of
src/gsm/gsm48_ie.c read and write it.
-/
namespace Verif.Bcd

/-! ## Specification -/

/-- the two nibbles of a byte, the lower one first -/
def nibblesOf (bs : List Byte) : List Nat := bs.flatMap fun b => [b.toNat % 16, b.toNat / 16]

/-- the alphabet: the digits, `*`, `#`, `a`, `b`, `c` -/
def isDigit (c : Byte) : Prop := c ∈ ([0x30, 0x31, 0x32, 0x33, 0x34, 0x35, 0x36, 0x37, 0x38, 0x39,
  0x2a, 0x23, 0x61, 0x62, 0x63] : List Byte)

instance (c : Byte) : Decidable (isDigit c) := by unfold isDigit; infer_instance

/-- the character of a nibble; 15 is the filler, which ends the string -/
def charOf : Nat → Byte
  | 10 => 0x2a
  | 11 => 0x23
  | 12 => 0x61
  | 13 => 0x62
  | 14 => 0x63
  | 15 => 0
  | n => BitVec.ofNat 8 (0x30 + n)

/-- the nibbles without one filler at the end -/
def dropFiller (ns : List Nat) : List Nat := if ns.getLast? = some 15 then ns.dropLast else ns

/-- `bs` are the octets of the number `s`: two characters to an octet, the
first one in the lower nibble, a filler at the end of an odd number of them -/
def Packed (s : List Byte) (bs : List Byte) : Prop :=
  bs.length = (s.length + 1) / 2 ∧
  (nibblesOf bs).map charOf = s ++ (if s.length % 2 = 1 then [0] else [])

/-! ## Decoding -/

theorem digit_eq {n : Nat} (h : n < 16) : digit n = charOf n := by
  interval_cases n <;> rfl

theorem nibblesOf_length (bs : List Byte) : (nibblesOf bs).length = 2 * bs.length := by
  induction bs with
  | nil => rfl
  | cons b bs ih => simp only [nibblesOf, List.flatMap_cons, List.length_append] at ih ⊢; simp [ih]; omega

theorem nibblesOf_lt (bs : List Byte) : ∀ n ∈ nibblesOf bs, n < 16 := by
  intro n hn
  simp only [nibblesOf, List.mem_flatMap, List.mem_cons, List.not_mem_nil, or_false] at hn
  obtain ⟨b, _, h | h⟩ := hn <;> have := b.isLt <;> omega

theorem nibblesOf_cons (b : Byte) (bs : List Byte) :
    nibblesOf (b :: bs) = b.toNat % 16 :: b.toNat / 16 :: nibblesOf bs := rfl

theorem dropFiller_cons2 (a b c : Nat) (ns : List Nat) :
    dropFiller (a :: b :: c :: ns) = a :: b :: dropFiller (c :: ns) := by
  unfold dropFiller
  simp only [List.getLast?_cons_cons, List.dropLast_cons_cons]
  split <;> rfl

/-- the loop, on the octets `body` that are left -/
theorem decLoop_spec (lv : List Byte) (inLen : Nat) : ∀ (body : List Byte) (n i room : Nat) (out : List Byte),
    n = body.length → i + n = inLen + 1 → (∀ j, j < n → lv[i + j]? = body[j]?) → 1 ≤ room →
    ∃ left, 1 ≤ left ∧
      decLoop lv inLen n i room out =
        some (out ++ ((nibblesOf body).map charOf).take (room - 1), left,
          decide (room - 1 < (dropFiller (nibblesOf body)).length)) := by
  intro body
  induction body with
  | nil =>
    intro n i room out hn _ _ hroom
    subst hn
    exact ⟨room, hroom, by simp [decLoop, nibblesOf, dropFiller]⟩
  | cons b bs ih =>
    intro n i room out hn hi hmem hroom
    subst hn
    simp only [List.length_cons] at hi hmem ⊢
    have hb : lv[i]? = some b := by simpa using hmem 0 (by omega)
    have hblt := b.isLt
    have hlo : b.toNat % 16 < 16 := by omega
    have hhi : b.toNat / 16 < 16 := by omega
    rw [decLoop, hb, nibblesOf_cons]
    by_cases h1 : room ≤ 1
    · have hr : room = 1 := by omega
      subst hr
      refine ⟨1, by omega, ?_⟩
      have : 0 < (dropFiller (b.toNat % 16 :: b.toNat / 16 :: nibblesOf bs)).length := by
        unfold dropFiller
        split <;> simp
      simp [this]
    · rw [if_neg h1]
      simp only
      by_cases h2 : room - 1 ≤ 1
      · have hr : room = 2 := by omega
        subst hr
        rw [if_pos h2]
        refine ⟨1, by omega, ?_⟩
        cases bs with
        | nil =>
          have hii : i = inLen := by simp at hi; omega
          subst hii
          by_cases hf : b.toNat / 16 = 15
          · simp [hf, nibblesOf, dropFiller, digit_eq hlo]
          · simp [hf, nibblesOf, dropFiller, digit_eq hlo]
        | cons c cs =>
          have hii : ¬ (i = inLen ∧ b.toNat / 16 = 15) := by simp at hi; omega
          rw [if_neg hii, nibblesOf_cons, dropFiller_cons2]
          simp [digit_eq hlo]
      · rw [if_neg h2]
        obtain ⟨left, hl, he⟩ := ih bs.length (i + 1) (room - 1 - 1)
          (out ++ [digit (b.toNat % 16)] ++ [digit (b.toNat / 16)]) rfl (by omega)
          (fun j hj => by
            have := hmem (j + 1) (by omega)
            rw [show i + 1 + j = i + (j + 1) by omega, this]; simp) (by omega)
        refine ⟨left, hl, ?_⟩
        rw [he, digit_eq hlo, digit_eq hhi]
        obtain ⟨r, rfl⟩ : ∃ r, room = r + 3 := ⟨room - 3, by omega⟩
        cases bs with
        | nil =>
          simp [nibblesOf, dropFiller]
          split <;> simp
        | cons c cs =>
          rw [nibblesOf_cons c cs, dropFiller_cons2]
          simp

/-- C128: what `gsm48_decode_bcd_number2` does: it never reads or writes out of
bounds; the errors are those of its documentation; the output is the
characters of the nibbles after the header, cut to the buffer, nul terminated;
it is an error if and only if the number (without its filler) does not fit -/
theorem decode_spec (outLen : Nat) (lv : List Byte) (hLen : Nat) :
    (outLen = 0 → decodeNumber2 outLen lv hLen = some (-28, [])) ∧
    (0 < outLen → lv = [] → decodeNumber2 outLen lv hLen = some (-5, [0])) ∧
    (∀ l body, 0 < outLen → lv = l :: body → body.length < l.toNat →
      decodeNumber2 outLen lv hLen = some (-22, [0])) ∧
    (∀ l body, 0 < outLen → lv = l :: body → l.toNat ≤ body.length →
      let ns := nibblesOf ((body.take l.toNat).drop hLen)
      decodeNumber2 outLen lv hLen =
        some (if (dropFiller ns).length ≤ outLen - 1 then 0 else -28,
          (ns.map charOf).take (outLen - 1) ++ [0])) := by
  refine ⟨fun h => by simp [decodeNumber2, h, ENOSPC], fun h hl => ?_, fun l body h hl hlen => ?_,
    fun l body h hl hlen => ?_⟩
  · subst hl
    simp [decodeNumber2, EIO]
    omega
  · subst hl
    simp only [decodeNumber2, List.length_cons, EINVAL]
    rw [if_neg (by omega), if_pos (by omega)]
  · subst hl
    intro ns
    have hbl : ((body.take l.toNat).drop hLen).length = l.toNat - hLen := by simp; omega
    simp only [decodeNumber2, List.length_cons, ENOSPC]
    rw [if_neg (by omega), if_neg (by omega)]
    by_cases hh : hLen ≤ l.toNat
    · obtain ⟨left, hleft, he⟩ := decLoop_spec (l :: body) l.toNat ((body.take l.toNat).drop hLen)
        (l.toNat + 1 - (1 + hLen)) (1 + hLen) outLen [] (by omega) (by omega)
        (fun j hj => by
          rw [show 1 + hLen + j = (hLen + j) + 1 by omega, List.getElem?_cons_succ, List.getElem?_drop,
            List.getElem?_take, if_pos (by omega)]) (by omega)
      rw [he]
      simp only [List.nil_append, if_pos (show left ≥ 1 from hleft)]
      have hlt := Nat.lt_or_ge (outLen - 1) (dropFiller (nibblesOf ((body.take l.toNat).drop hLen))).length
      rcases hlt with hc | hc
      · rw [decide_eq_true hc, if_pos rfl]
        simp only [ns]
        rw [if_neg (Nat.not_le.2 hc)]
      · rw [decide_eq_false (Nat.not_lt.2 hc)]
        simp only [ns]
        rw [if_pos hc]
        rfl
    · have hz : (body.take l.toNat).drop hLen = [] := List.eq_nil_of_length_eq_zero (by omega)
      have : l.toNat + 1 - (1 + hLen) = 0 := by omega
      simp only [this, decLoop, ns, hz]
      simp [nibblesOf, dropFiller]
      omega

example : decodeNumber2 17 [0x03, 0x91, 0x21, 0xf3] 1 = some (0, [0x31, 0x32, 0x33, 0, 0]) := by decide
example : decodeNumber2 3 [0x02, 0x21, 0xf3] 0 = some (-28, [0x31, 0x32, 0]) := by decide
example : decodeNumber2 4 [0x02, 0x21, 0xf3] 0 = some (0, [0x31, 0x32, 0x33, 0]) := by decide

/-- C128: nul termination and size -/
theorem decode_terminated (outLen : Nat) (lv : List Byte) (hLen : Nat) (h : 0 < outLen) :
    ∃ rc out, decodeNumber2 outLen lv hLen = some (rc, out) ∧ out.length ≤ outLen ∧ 0 ∈ out := by
  obtain ⟨_, h2, h3, h4⟩ := decode_spec outLen lv hLen
  cases lv with
  | nil => exact ⟨_, _, h2 h rfl, by simp; omega, by simp⟩
  | cons l body =>
    by_cases hl : body.length < l.toNat
    · exact ⟨_, _, h3 l body h rfl hl, by simp; omega, by simp⟩
    · exact ⟨_, _, h4 l body h rfl (by omega), by simp; omega, by simp⟩

/-! ## Encoding -/

theorem ascToBcd_iff (c : Byte) : (∃ v, ascToBcd c = some v) ↔ isDigit c ∨ c = 0 := by
  have : ∀ c : Byte, (ascToBcd c).isSome = true ↔ isDigit c ∨ c = 0 := by decide +kernel
  rw [← this c, Option.isSome_iff_exists]

theorem ascToBcd_digit {c : Byte} (h : isDigit c) : ∃ v, v < 15 ∧ ascToBcd c = some v ∧ charOf v = c := by
  revert c
  have : ∀ c : Byte, isDigit c → ∃ v < 15, ascToBcd c = some v ∧ charOf v = c := by decide +kernel
  exact fun {c} h => by
    obtain ⟨v, h1, h2⟩ := this c h
    exact ⟨v, h1, h2⟩

theorem pack2 {v w : Nat} (hv : v < 16) (hw : w < 16) :
    ((BitVec.ofNat 8 v ||| BitVec.ofNat 8 (w * 16)).toNat % 16 = v) ∧
    ((BitVec.ofNat 8 v ||| BitVec.ofNat 8 (w * 16)).toNat / 16 = w) := by
  have : ∀ v < 16, ∀ w < 16, ((BitVec.ofNat 8 v ||| BitVec.ofNat 8 (w * 16)).toNat % 16 = v) ∧
    ((BitVec.ofNat 8 v ||| BitVec.ofNat 8 (w * 16)).toNat / 16 = w) := by decide
  exact this v hv w hw

/-- the whole of the encoder behind the length check: the octets of the number
go where the header ends -/
theorem encLoop_spec : ∀ (s : List Byte) (pre post : List Byte) (i : Nat), (∀ c ∈ s, isDigit c) → i % 2 = 0 →
    (s.length + 1) / 2 ≤ post.length →
    ∃ bs, Packed s bs ∧
      encFinish (encLoop s i pre.length (pre ++ post)) =
        some (((pre.length + bs.length : Nat) : Int), pre ++ bs ++ post.drop bs.length)
  | [], pre, post, i, _, hi, _ => ⟨[], by simp [Packed, nibblesOf], by simp [encLoop, encFinish, hi]⟩
  | [c], pre, p :: post, i, hd, hi, _ => by
    obtain ⟨v, hv, hav, hcv⟩ := ascToBcd_digit (hd c (by simp))
    obtain ⟨h1, h2⟩ := pack2 (v := v) (w := 15) (by omega) (by omega)
    refine ⟨[BitVec.ofNat 8 v ||| 0xf0], ⟨by simp, ?_⟩, ?_⟩
    · have h1' : ((BitVec.ofNat 8 v ||| (0xf0 : Byte)).toNat % 16 = v) := h1
      have h2' : ((BitVec.ofNat 8 v ||| (0xf0 : Byte)).toNat / 16 = 15) := h2
      rw [nibblesOf_cons, h1', h2', List.map_cons, List.map_cons, hcv]
      rfl
    · have hi' : (i + 1) % 2 ≠ 0 := by omega
      simp [encLoop, encFinish, hav, hi, hi']
  | [c], pre, [], i, _, _, hl => by simp at hl
  | c :: d :: s, pre, [], i, _, _, hl => by simp at hl; omega
  | c :: d :: s, pre, p :: post, i, hd, hi, hl => by
    obtain ⟨v, hv, hav, hcv⟩ := ascToBcd_digit (hd c (by simp))
    obtain ⟨w, hw, haw, hdw⟩ := ascToBcd_digit (hd d (by simp))
    obtain ⟨h1, h2⟩ := pack2 (v := v) (w := w) (by omega) (by omega)
    obtain ⟨bs, ⟨hbl, hbn⟩, he⟩ := encLoop_spec s (pre ++ [BitVec.ofNat 8 v ||| BitVec.ofNat 8 (w * 16)]) post (i + 2)
      (fun x hx => hd x (by simp [hx])) (by omega) (by simp at hl; omega)
    refine ⟨(BitVec.ofNat 8 v ||| BitVec.ofNat 8 (w * 16)) :: bs, ⟨by simp; omega, ?_⟩, ?_⟩
    · rw [nibblesOf_cons]
      have hmod : (c :: d :: s).length % 2 = s.length % 2 := by simp; omega
      rw [List.map_cons, List.map_cons, hbn, h1, h2, hcv, hdw]
      simp only [hmod, List.cons_append]
    · have hi' : (i + 1) % 2 ≠ 0 := by omega
      rw [encLoop, hav]
      simp only [List.getElem?_append_right (Nat.le_refl _), Nat.sub_self, List.getElem?_cons_zero, hi, if_true]
      rw [encLoop, haw]
      simp only [List.set_append_right _ _ (Nat.le_refl _), Nat.sub_self, List.set_cons_zero,
        List.getElem?_append_right (Nat.le_refl _), List.getElem?_cons_zero]
      rw [if_neg hi']
      simp only [List.length_append, List.length_cons, List.length_nil, Nat.zero_add, List.append_assoc, List.cons_append,
        List.nil_append] at he
      simp only [he]
      simp only [List.length_cons, List.drop_succ_cons, List.cons_append, List.append_assoc]
      rw [show pre.length + 1 + bs.length = pre.length + (bs.length + 1) by omega]

theorem lenOctet_eq (n hLen : Nat) : lenOctet n hLen = BitVec.ofNat 8 (hLen + (n + 1) / 2) := by
  apply BitVec.eq_of_toNat_eq
  unfold lenOctet
  simp only
  split
  · rw [BitVec.toNat_add, BitVec.toNat_ofNat, BitVec.toNat_ofNat, show BitVec.toNat (1 : Byte) = 1 from rfl]
    omega
  · rw [BitVec.toNat_ofNat, BitVec.toNat_ofNat]
    omega

/-- C128: `gsm48_encode_bcd_number` stores the length, leaves the header and
what is behind alone, stores the octets of the number, and returns how many
octets it used, given there is room for them -/
theorem encode_spec (mem : List Byte) (maxLen : Byte) (hLen : Nat) (s : List Byte)
    (hd : ∀ c ∈ s, isDigit c) (h8 : hLen + (s.length + 1) / 2 ≤ maxLen.toNat)
    (hm : 1 + hLen + (s.length + 1) / 2 ≤ mem.length) :
    ∃ bs, Packed s bs ∧
      encodeNumber mem maxLen hLen s =
        some (((1 + hLen + bs.length : Nat) : Int),
          BitVec.ofNat 8 (hLen + bs.length) :: (mem.drop 1).take hLen ++ bs ++ mem.drop (1 + hLen + bs.length)) := by
  cases mem with
  | nil => simp at hm
  | cons m rest =>
    simp only [List.length_cons] at hm
    have hmx := maxLen.isLt
    have hlen := lenOctet_eq s.length hLen
    obtain ⟨bs, hp, he⟩ := encLoop_spec s (BitVec.ofNat 8 (hLen + (s.length + 1) / 2) :: rest.take hLen) (rest.drop hLen) 0
      hd rfl (by simp; omega)
    refine ⟨bs, hp, ?_⟩
    have hpl : bs.length = (s.length + 1) / 2 := hp.1
    have hpre : (BitVec.ofNat 8 (hLen + (s.length + 1) / 2) :: rest.take hLen).length = 1 + hLen := by simp; omega
    rw [hpre] at he
    simp only [List.cons_append, List.take_append_drop] at he
    simp only [encodeNumber, hlen, BitVec.toNat_ofNat]
    rw [if_neg (by omega), he, hpl]
    simp only [List.drop_succ_cons, List.drop_zero, List.cons_append, List.append_assoc, List.drop_drop]
    rw [show 1 + hLen + (s.length + 1) / 2 = hLen + (s.length + 1) / 2 + 1 by omega, List.drop_succ_cons]

example : encodeNumber [0, 0x91, 0, 0, 0x55] 3 1 [0x31, 0x32, 0x33] = some (4, [3, 0x91, 0x21, 0xf3, 0x55]) := by decide

/-- C128: a number that is too long for the length given is refused, and so is
a character that is not in the alphabet -/
theorem encode_errors (mem : List Byte) (maxLen : Byte) (hLen : Nat) (s : List Byte) (hm : mem ≠ []) :
    (hLen + (s.length + 1) / 2 < 256 → maxLen.toNat < hLen + (s.length + 1) / 2 →
      ∃ mem', encodeNumber mem maxLen hLen s = some (-5, mem')) ∧
    (hLen + (s.length + 1) / 2 ≤ maxLen.toNat → 1 + hLen + (s.length + 1) / 2 ≤ mem.length → 0 ∉ s →
      (∃ c ∈ s, ¬ isDigit c) → ∃ mem', encodeNumber mem maxLen hLen s = some (-22, mem')) := by
  cases mem with
  | nil => exact absurd rfl hm
  | cons m rest =>
    have hlen := lenOctet_eq s.length hLen
    refine ⟨fun h1 h2 => ?_, fun h1 h2 h0 h3 => ?_⟩
    · simp only [encodeNumber, hlen, BitVec.toNat_ofNat]
      rw [if_pos (by omega)]
      exact ⟨_, rfl⟩
    · have key : ∀ (t : List Byte) (i cur : Nat) (mm : List Byte), 0 ∉ t → (∃ c ∈ t, ¬ isDigit c) →
          (i % 2 = 0 → cur + (t.length + 1) / 2 ≤ mm.length) → (i % 2 ≠ 0 → cur + (t.length + 2) / 2 ≤ mm.length) →
          ∃ m', encLoop t i cur mm = some (.inl (-22, m')) := by
        intro t
        induction t with
        | nil => intro _ _ _ _ h; obtain ⟨c, hc, _⟩ := h; simp at hc
        | cons c t ih =>
          intro i cur mm h0 hx he ho
          rw [encLoop]
          cases hac : ascToBcd c with
          | none => exact ⟨mm, rfl⟩
          | some v =>
            have hcd : isDigit c := by
              rcases (ascToBcd_iff c).1 ⟨v, hac⟩ with h | h
              · exact h
              · subst h; simp at h0
            have hx' : ∃ c ∈ t, ¬ isDigit c := by
              obtain ⟨x, hxm, hxd⟩ := hx
              rcases List.mem_cons.1 hxm with rfl | h
              · exact absurd hcd hxd
              · exact ⟨x, h, hxd⟩
            have h0' : 0 ∉ t := fun h => h0 (List.mem_cons_of_mem _ h)
            have ht : 0 < t.length := by
              obtain ⟨x, hxm, _⟩ := hx'
              exact List.length_pos_of_mem hxm
            simp only [List.length_cons] at he ho
            have hcur : cur < mm.length := by
              by_cases hi : i % 2 = 0
              · have := he hi; omega
              · have := ho hi; omega
            simp only [List.getElem?_eq_getElem hcur]
            by_cases hi : i % 2 = 0
            · rw [if_pos hi]
              exact ih _ _ _ h0' hx' (by omega) (fun _ => by have := he hi; simp; omega)
            · rw [if_neg hi]
              exact ih _ _ _ h0' hx' (fun _ => by have := ho hi; simp; omega) (by omega)
      obtain ⟨m', hk⟩ := key s 0 (1 + hLen) (BitVec.ofNat 8 (hLen + (s.length + 1) / 2) :: rest) h0 h3
        (fun _ => by simpa using h2) (by simp)
      have := maxLen.isLt
      simp only [encodeNumber, hlen, BitVec.toNat_ofNat]
      rw [if_neg (by omega), hk]
      exact ⟨m', rfl⟩

theorem charOf_zero {n : Nat} (h : n < 16) : charOf n = 0 → n = 15 := by
  interval_cases n <;> decide

theorem packed_filler {s bs : List Byte} (hd : ∀ c ∈ s, isDigit c) (hp : Packed s bs) :
    (dropFiller (nibblesOf bs)).length = s.length := by
  have hl := congrArg List.length hp.2
  simp only [List.length_map, List.length_append, nibblesOf_length] at hl
  have hnz : ∀ c ∈ s, c ≠ 0 := by
    intro c hc h
    subst h
    exact absurd (hd 0 hc) (by decide)
  by_cases ho : s.length % 2 = 1
  · rw [if_pos ho] at hl
    have hg := congrArg List.getLast? hp.2
    rw [if_pos ho, List.getLast?_append, List.getLast?_map] at hg
    simp at hg
    obtain ⟨a, ha, ha0⟩ := hg
    have : a = 15 := charOf_zero (nibblesOf_lt bs a (List.mem_of_getLast? ha)) ha0
    subst this
    unfold dropFiller
    rw [if_pos ha, List.length_dropLast, nibblesOf_length]
    simp at hl
    omega
  · rw [if_neg ho] at hl
    have hg := hp.2
    rw [if_neg ho, List.append_nil] at hg
    unfold dropFiller
    rw [if_neg]
    · rw [nibblesOf_length]; simp at hl; omega
    · intro h15
      have := congrArg List.getLast? hg
      rw [List.getLast?_map, h15] at this
      simp at this
      exact hnz _ (List.mem_of_getLast? this.symm) rfl

theorem takeWhile_digits {s : List Byte} (hd : ∀ c ∈ s, isDigit c) (t : List Byte) (k : Nat) (hk : s.length ≤ k) :
    cstr (((s ++ t).take k) ++ [0]) = s ++ cstr (t.take (k - s.length) ++ [0]) := by
  have hnz : ∀ c ∈ s, c ≠ 0 := by
    intro c hc h
    subst h
    exact absurd (hd 0 hc) (by decide)
  unfold cstr
  rw [List.take_append, List.take_of_length_le hk, List.append_assoc, List.takeWhile_append_of_pos]
  intro c hc
  simpa using hnz c hc

/-- C128: what was encoded decodes to the same string, if and only if it fits;
otherwise it is an error, and the string is the start of the number -/
theorem round_trip (mem : List Byte) (maxLen : Byte) (hLen outLen : Nat) (s : List Byte)
    (hd : ∀ c ∈ s, isDigit c) (h8 : hLen + (s.length + 1) / 2 ≤ maxLen.toNat)
    (hm : 1 + hLen + (s.length + 1) / 2 ≤ mem.length) (ho : 0 < outLen) :
    ∃ (n : Nat) (mem' : List Byte), encodeNumber mem maxLen hLen s = some ((n : Int), mem') ∧
      (∃ rc out, decodeNumber2 outLen (mem'.take n) hLen = some (rc, out) ∧
        cstr out = s.take (outLen - 1) ∧ rc = if s.length < outLen then 0 else -28) := by
  obtain ⟨bs, hp, he⟩ := encode_spec mem maxLen hLen s hd h8 hm
  refine ⟨_, _, he, ?_⟩
  have hbl := hp.1
  have hmx := maxLen.isLt
  have htake : (BitVec.ofNat 8 (hLen + bs.length) :: (mem.drop 1).take hLen ++ bs ++ mem.drop (1 + hLen + bs.length)).take
      (1 + hLen + bs.length) = BitVec.ofNat 8 (hLen + bs.length) :: ((mem.drop 1).take hLen ++ bs) := by
    rw [List.take_append_of_le_length (by simp; omega), List.take_of_length_le (by simp; omega)]
    simp
  rw [htake]
  have hL : (BitVec.ofNat 8 (hLen + bs.length) : Byte).toNat = hLen + bs.length := by
    simp only [BitVec.toNat_ofNat]; omega
  have hbody : (((mem.drop 1).take hLen ++ bs).take (BitVec.ofNat 8 (hLen + bs.length) : Byte).toNat).drop hLen = bs := by
    rw [hL, List.take_of_length_le (by simp), List.drop_append_of_le_length (by simp; omega),
      List.drop_of_length_le (by simp)]
    rfl
  have h4 := (decode_spec outLen _ hLen).2.2.2 _ _ ho rfl
    (show (BitVec.ofNat 8 (hLen + bs.length) : Byte).toNat ≤ ((mem.drop 1).take hLen ++ bs).length by
      rw [hL]; simp; omega)
  simp only [hbody] at h4
  refine ⟨_, _, h4, ?_, ?_⟩
  · rw [hp.2]
    have hnz : ∀ c ∈ s, c ≠ 0 := by
      intro c hc h
      subst h
      exact absurd (hd 0 hc) (by decide)
    by_cases hf : s.length ≤ outLen - 1
    · rw [takeWhile_digits hd _ _ hf, List.take_of_length_le hf]
      have : cstr ((if s.length % 2 = 1 then ([0] : List Byte) else []).take (outLen - 1 - s.length) ++ [0]) = [] := by
        split
        · cases outLen - 1 - s.length <;> simp [cstr]
        · simp [cstr]
      rw [this, List.append_nil]
    · rw [List.take_append_of_le_length (by omega)]
      unfold cstr
      rw [List.takeWhile_append_of_pos]
      · simp
      · intro c hc
        simpa using hnz c (List.mem_of_mem_take hc)
  · rw [packed_filler hd hp]
    by_cases hf : s.length < outLen
    · rw [if_pos hf, if_pos (by omega)]
    · rw [if_neg hf, if_neg (by omega)]

example : encodeNumber (List.replicate 9 0) 9 0 [0x39, 0x30, 0x31, 0x37, 0x30] = some (4, [3, 0x09, 0x71, 0xf0, 0, 0, 0, 0, 0]) ∧
    decodeNumber2 17 [3, 0x09, 0x71, 0xf0] 0 = some (0, [0x39, 0x30, 0x31, 0x37, 0x30, 0, 0]) := by decide

/-! ## The buffer of the encoder -/

/-- C129: a number of digits stays inside of a buffer of `max_len` bytes if it
is a byte short of what the check allows (missing: the longest numbers that
the check lets pass, see the counterexamples) -/
theorem encode_in_bounds_partial (mem : List Byte) (maxLen : Byte) (hLen : Nat) (s : List Byte)
    (hmem : mem.length = maxLen.toNat) (hd : ∀ c ∈ s, isDigit c)
    (h : hLen + (s.length + 1) / 2 < maxLen.toNat ∨ (maxLen.toNat < hLen + (s.length + 1) / 2 ∧ 0 < maxLen.toNat ∧
      hLen + (s.length + 1) / 2 < 256)) :
    ∃ r mem', encodeNumber mem maxLen hLen s = some (r, mem') ∧ mem'.length = mem.length ∧
      (r = -5 ∨ r = ((1 + hLen + (s.length + 1) / 2 : Nat) : Int)) := by
  rcases h with h | ⟨h1, h2, h3⟩
  · obtain ⟨bs, hp, he⟩ := encode_spec mem maxLen hLen s hd (by omega) (by omega)
    have := hp.1
    exact ⟨_, _, he, by simp; omega, .inr (by rw [this])⟩
  · cases mem with
    | nil => simp at hmem; omega
    | cons m rest =>
      have hlen := lenOctet_eq s.length hLen
      refine ⟨-5, BitVec.ofNat 8 (hLen + (s.length + 1) / 2) :: rest, ?_, ?_, .inl rfl⟩
      · simp only [encodeNumber, hlen, BitVec.toNat_ofNat]
        rw [if_pos (by omega)]
        rfl
      · simp

/-- C129: the check is off by one: four digits in a buffer of two bytes, of
which the caller gives the size, are stored one byte behind its end -/
theorem encode_in_bounds_counterexample :
    encodeNumber [0, 0] 2 0 [0x31, 0x32, 0x33, 0x34] = none := by decide

/-- C129: the length is counted in a byte: 512 digits pass the check of every
buffer, and are stored behind its end -/
theorem encode_wraps_counterexample (mem : List Byte) (maxLen : Byte) (h : mem.length < 257) :
    encodeNumber mem maxLen 0 (List.replicate 512 0x30) = none := by
  cases mem with
  | nil => rfl
  | cons m rest =>
    have key : ∀ (n i cur : Nat) (mm : List Byte), (i % 2 = 0 → mm.length < cur + (n + 1) / 2) →
        (i % 2 ≠ 0 → mm.length < cur + (n + 2) / 2 ∧ 0 < n) →
        encLoop (List.replicate n 0x30) i cur mm = none ∨ n = 0 := by
      intro n
      induction n with
      | zero => intros; exact .inr rfl
      | succ n ih =>
        intro i cur mm h1 h2
        left
        rw [List.replicate_succ, encLoop, show ascToBcd 0x30 = some 0 by decide]
        by_cases hc : cur < mm.length
        · simp only [List.getElem?_eq_getElem hc]
          by_cases hi : i % 2 = 0
          · have := h1 hi
            rw [if_pos hi]
            rcases ih (i + 1) cur (mm.set cur (BitVec.ofNat 8 0)) (by omega)
              (fun _ => ⟨by simp; omega, by omega⟩) with h | h
            · exact h
            · omega
          · have := h2 hi
            rw [if_neg hi]
            rcases ih (i + 1) (cur + 1) (mm.set cur (mm[cur] ||| BitVec.ofNat 8 (0 * 16)))
              (fun _ => by simp; omega) (by omega) with h | h
            · exact h
            · omega
        · simp [List.getElem?_eq_none (show mm.length ≤ cur by omega)]
    rw [encodeNumber]
    have hz : lenOctet (List.replicate 512 (0x30 : Byte)).length 0 = 0 := by
      rw [List.length_replicate]; decide
    simp only [hz]
    rw [if_neg (by simp)]
    rcases key 512 0 (1 + 0) ((0 : Byte) :: rest) (fun _ => by simp at h ⊢; omega) (by simp) with h | h
    · rw [h]
      rfl
    · omega

end Verif.Bcd
