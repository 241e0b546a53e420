import Verif.Utils.HexModel
/-!
Properties C12 (BCD text conversion) and C13 (hex dump and hex parse).
-/
namespace Verif.Utils

/-! ### vocabulary -/

/-- nibble `i` of a byte string; `msf`: most significant nibble of each byte
first, otherwise (BCD order) least significant nibble first. Beyond the end: 0. -/
def nibbleAt (msf : Bool) (buf : List Byte) (i : Nat) : Nat :=
  let v := (buf.getD (i / 2) 0#8).toNat
  if (i % 2 == 1) != msf then v / 16 else v % 16

/-- upper case hexadecimal digit -/
def upHex (n : Nat) : Byte := BitVec.ofNat 8 (if n < 10 then 0x30 + n else 0x37 + n)

/-- lower case hexadecimal digit -/
def loHex (n : Nat) : Byte := BitVec.ofNat 8 (if n < 10 then 0x30 + n else 0x57 + n)

/-- numeric value of a digit character (decimal, or hexadecimal if `hex`) -/
def digitValue (hex : Bool) (c : Byte) : Option Nat :=
  let n := c.toNat
  if 0x30 ≤ n ∧ n ≤ 0x39 then some (n - 0x30)
  else if hex ∧ 0x41 ≤ n ∧ n ≤ 0x46 then some (n - 0x37)
  else if hex ∧ 0x61 ≤ n ∧ n ≤ 0x66 then some (n - 0x57)
  else none

theorem digitVal_eq (hex : Bool) : ∀ c : Byte,
    (digitVal hex c).map BitVec.toNat = digitValue hex c := by
  cases hex <;> decide +kernel

theorem digitValue_lt (hex : Bool) : ∀ c : Byte, ∀ v ∈ digitValue hex c, v < 16 := by
  cases hex <;> decide +kernel

theorem digitVal_some {hex : Bool} {c : Byte} {v : Nat} (h : digitValue hex c = some v) :
    digitVal hex c = some (BitVec.ofNat 8 v) ∧ v < 16 := by
  have h2 := digitValue_lt hex c v h
  have h1 := digitVal_eq hex c
  rw [h] at h1
  cases hd : digitVal hex c with
  | none => rw [hd] at h1; cases h1
  | some w =>
    rw [hd] at h1
    simp only [Option.map_some, Option.some.injEq] at h1
    refine ⟨?_, h2⟩
    rw [← h1]; simp

theorem digitVal_none {hex : Bool} {c : Byte} (h : digitValue hex c = none) :
    digitVal hex c = none := by
  have h1 := digitVal_eq hex c
  rw [h] at h1
  cases hd : digitVal hex c with
  | none => rfl
  | some w => rw [hd] at h1; cases h1

theorem digitValue_up : ∀ n, n < 16 → digitValue true (upHex n) = some n := by decide
theorem digitValue_lo : ∀ n, n < 16 → digitValue true (loHex n) = some n := by decide
theorem digitValue_dec : ∀ n, n < 10 → digitValue false (upHex n) = some n := by decide

theorem getD_of_lt {α} {l : List α} {i : Nat} {d : α} (h : i < l.length) : l.getD i d = l[i] := by
  simp [List.getD, h]

theorem nibbleAt_lt (msf : Bool) (buf : List Byte) (i : Nat) : nibbleAt msf buf i < 16 := by
  unfold nibbleAt
  have := (buf.getD (i / 2) 0#8).isLt
  simp only
  split <;> omega

/-- replacing byte `i/2` by one which differs only in nibble `i` -/
theorem nibbleAt_set {msf : Bool} {buf : List Byte} {i : Nat} {b' : Byte} {v : Nat}
    (hi : i / 2 < buf.length) (hv : v < 16)
    (hb : b'.toNat = if (i % 2 == 1) != msf then v * 16 + (buf.getD (i / 2) 0#8).toNat % 16
      else (buf.getD (i / 2) 0#8).toNat / 16 * 16 + v) (k : Nat) :
    nibbleAt msf (buf.set (i / 2) b') k = if k = i then v else nibbleAt msf buf k := by
  unfold nibbleAt
  simp only
  by_cases hk : k / 2 = i / 2
  · have hset : (buf.set (i / 2) b').getD (k / 2) 0#8 = b' := by
      rw [hk]; simp [List.getD, hi]
    rw [hset, hb, hk]
    generalize (buf.getD (i / 2) 0#8).toNat = w
    rcases Nat.mod_two_eq_zero_or_one i with hi2 | hi2 <;>
      rcases Nat.mod_two_eq_zero_or_one k with hk2 | hk2 <;>
      cases msf <;> simp [hi2, hk2]
    all_goals first
      | (rw [if_pos (show k = i by omega)]; omega)
      | (rw [if_neg (show ¬ k = i by omega)]; omega)
      | omega
  · have : k ≠ i := by intro h; subst h; exact hk rfl
    rw [if_neg this]
    rw [show (buf.set (i / 2) b').getD (k / 2) 0#8 = buf.getD (k / 2) 0#8 by
      simp [List.getD, List.getElem?_set_ne (Ne.symm hk)]]

/-- byte strings of the same length with the same nibbles are equal -/
theorem ext_nibbleAt {msf : Bool} {a b : List Byte} (hl : a.length = b.length)
    (h : ∀ i, i < 2 * a.length → nibbleAt msf a i = nibbleAt msf b i) : a = b := by
  apply List.ext_getElem hl
  intro n h1 h2
  apply BitVec.eq_of_toNat_eq
  have e0 := h (2 * n) (by omega)
  have e1 := h (2 * n + 1) (by omega)
  unfold nibbleAt at e0 e1
  have d0 : 2 * n / 2 = n := by omega
  have d1 : (2 * n + 1) / 2 = n := by omega
  have m0 : 2 * n % 2 = 0 := by omega
  have m1 : (2 * n + 1) % 2 = 1 := by omega
  simp only [d0, d1, m0, m1, getD_of_lt h1, getD_of_lt h2] at e0 e1
  cases msf <;> simp at e0 e1 <;> omega

theorem nib_hi : ∀ b : Byte, ((b >>> 4) &&& 0xf#8).toNat = b.toNat / 16 := by decide +kernel
theorem nib_lo : ∀ b : Byte, (b &&& 0xf#8).toNat = b.toNat % 16 := by decide +kernel
theorem put_hi : ∀ v, v < 16 → ∀ o : Byte,
    (((BitVec.ofNat 8 v &&& 0xf#8) <<< 4) ||| (o &&& 0x0f#8)).toNat = v * 16 + o.toNat % 16 := by
  decide +kernel
theorem put_lo : ∀ v, v < 16 → ∀ o : Byte,
    ((o &&& 0xf0#8) ||| (BitVec.ofNat 8 v &&& 0xf#8)).toNat = o.toNat / 16 * 16 + v := by
  decide +kernel
theorem or_hi : ∀ v, v < 16 → ((0#8) ||| (BitVec.ofNat 8 v <<< 4)).toNat = v * 16 := by
  decide +kernel
theorem or_lo : ∀ v, v < 16 → ∀ h, h < 16 →
    ((BitVec.ofNat 8 (h * 16)) ||| (BitVec.ofNat 8 v <<< 0)).toNat = h * 16 + v := by
  decide +kernel
theorem bcd2char_up : ∀ n, n < 16 → bcd2char (BitVec.ofNat 8 n) = upHex n := by decide

theorem fetchNibble_eq {bcd : List Byte} {i : Nat} (h : i < 2 * bcd.length) :
    fetchNibble bcd i = some (BitVec.ofNat 8 (nibbleAt false bcd i)) := by
  have hi : i / 2 < bcd.length := by omega
  unfold fetchNibble nibbleAt
  rw [List.getElem?_eq_getElem hi, Option.map_some, getD_of_lt hi]
  congr 1
  apply BitVec.eq_of_toNat_eq
  have := bcd[i / 2].isLt
  rcases Nat.mod_two_eq_zero_or_one i with h2 | h2
  · rw [if_neg (by omega), nib_lo]; simp [h2]; omega
  · rw [if_pos h2, nib_hi]; simp [h2]; omega

/-! ### C12 -/

/-- the text of the nibbles `s .. s+n-1` -/
def nibbleText (bcd : List Byte) (s n : Nat) : List Byte :=
  (List.range n).map fun k => upHex (nibbleAt false bcd (s + k))

theorem nibbleText_succ (bcd : List Byte) (s n : Nat) :
    nibbleText bcd s (n + 1) = upHex (nibbleAt false bcd s) :: nibbleText bcd (s + 1) n := by
  unfold nibbleText
  rw [List.range_succ_eq_map]
  simp only [List.map_cons, List.map_map, Nat.add_zero]
  congr 1
  apply List.map_congr_left
  intro k _
  simp only [Function.comp]
  congr 2; omega

@[simp] theorem length_nibbleText (bcd : List Byte) (s n : Nat) : (nibbleText bcd s n).length = n := by
  simp [nibbleText]

theorem splice_cons {dst : List Byte} {pos : Nat} {x : Byte} {W : List Byte}
    (h : pos + W.length < dst.length) :
    (dst.set pos x).take (pos + 1) ++ W ++ (dst.set pos x).drop (pos + 1 + W.length) =
      dst.take pos ++ (x :: W) ++ dst.drop (pos + (x :: W).length) := by
  have hp : pos < dst.length := by omega
  have h1 : (dst.set pos x).take (pos + 1) = dst.take pos ++ [x] := by
    rw [List.take_add_one, List.take_set_of_le (Nat.le_refl _)]
    simp [hp]
  have h2 : (dst.set pos x).drop (pos + 1 + W.length) = dst.drop (pos + 1 + W.length) := by
    rw [List.drop_set_of_lt (by omega)]
  rw [h1, h2]
  simp only [List.length_cons, List.append_assoc, List.cons_append, List.nil_append]
  congr 4; omega

theorem bcd2strLoop_spec (bcd : List Byte) (endN : Int) (ah : Bool)
    (hb : endN ≤ 2 * bcd.length) (r ni pos : Nat) (dst : List Byte) (rc : Int)
    (hr : pos + r < dst.length) :
    bcd2strLoop bcd endN ah r ni pos dst rc =
      some (dst.take pos ++ nibbleText bcd ni (min r (endN.toNat - ni)) ++
          dst.drop (pos + min r (endN.toNat - ni)),
        pos + min r (endN.toNat - ni),
        if ah = false ∧ ∃ k, k < min r (endN.toNat - ni) ∧ 9 < nibbleAt false bcd (ni + k)
        then -EINVAL else rc) := by
  induction r generalizing ni pos dst rc with
  | zero =>
    unfold bcd2strLoop
    simp [nibbleText]
  | succ r ih =>
    unfold bcd2strLoop
    by_cases hlt : (ni : Int) < endN
    · rw [if_pos hlt, fetchNibble_eq (by omega), Option.bind_some]
      simp only
      rw [if_pos (show pos < dst.length by omega), ih _ _ _ _ (by simp; omega)]
      have hm : min (r + 1) (endN.toNat - ni) = min r (endN.toNat - (ni + 1)) + 1 := by omega
      rw [hm, nibbleText_succ, bcd2char_up _ (nibbleAt_lt _ _ _)]
      generalize hmm : min r (endN.toNat - (ni + 1)) = m
      have hsp := splice_cons (dst := dst) (pos := pos) (x := upHex (nibbleAt false bcd ni))
        (W := nibbleText bcd (ni + 1) m) (by simp; omega)
      simp only [length_nibbleText, List.length_cons] at hsp
      rw [hsp]
      have hn : (BitVec.ofNat 8 (nibbleAt false bcd ni)).toNat = nibbleAt false bcd ni := by
        have := nibbleAt_lt false bcd ni
        rw [BitVec.toNat_ofNat]; omega
      have hex : (∃ k, k < m + 1 ∧ 9 < nibbleAt false bcd (ni + k)) ↔
          (9 < nibbleAt false bcd ni ∨ ∃ k, k < m ∧ 9 < nibbleAt false bcd (ni + 1 + k)) := by
        constructor
        · rintro ⟨k, hk, h9⟩
          cases k with
          | zero => left; exact h9
          | succ k => right; exact ⟨k, by omega, by rw [show ni + 1 + k = ni + (k + 1) by omega]; exact h9⟩
        · rintro (h9 | ⟨k, hk, h9⟩)
          · exact ⟨0, by omega, h9⟩
          · exact ⟨k + 1, by omega, by rw [show ni + (k + 1) = ni + 1 + k by omega]; exact h9⟩
      simp only [hex, hn, show pos + 1 + m = pos + (m + 1) by omega]
      congr 3
      cases ah <;> simp
      by_cases h9 : 9 < nibbleAt false bcd ni <;> simp [h9]
    · rw [if_neg hlt]
      have : min (r + 1) (endN.toNat - ni) = 0 := by omega
      rw [this]
      simp [nibbleText]

/-- **C12a.** `osmo_bcd2str` writes exactly the upper-case text of the
requested nibbles, cut to `dst_size - 1` characters, then a NUL, and nothing
else; it returns the untruncated length, or `-EINVAL` iff hex digits are not
allowed and one was printed.  (No access outside `dst` or `bcd` for every
`dst_size >= 1` and every range inside `bcd`.) -/
theorem bcd2str_spec (dst bcd : List Byte) (s : Nat) (e : Int) (ah : Bool)
    (hd : 1 ≤ dst.length) (hb : e ≤ 2 * bcd.length) :
    let n := min (dst.length - 1) (e.toNat - s)
    bcd2str dst bcd s e ah =
      some (nibbleText bcd s n ++ 0#8 :: dst.drop (n + 1),
        if ah = false ∧ ∃ k, k < n ∧ 9 < nibbleAt false bcd (s + k) then -EINVAL
        else max 0 (e - s)) := by
  intro n
  unfold bcd2str
  rw [if_neg (by omega), Int.toNat_natCast, bcd2strLoop_spec bcd e ah hb _ _ _ _ _ (by omega),
    Option.bind_some]
  simp only [Nat.zero_add, List.take_zero, List.nil_append]
  have hn : min (dst.length - 1) (e.toNat - s) = n := rfl
  rw [hn]
  have hnl : n < dst.length := by omega
  have hlen : (nibbleText bcd s n ++ dst.drop n).length = dst.length := by
    simp; omega
  rw [if_pos (by omega)]
  congr 2
  · rw [List.set_append_right _ _ (by simp)]
    simp only [length_nibbleText, Nat.sub_self]
    rw [List.drop_eq_getElem_cons hnl, List.set_cons_zero]
  · by_cases h : ah = false ∧ ∃ k, k < n ∧ 9 < nibbleAt false bcd (s + k)
    · simp only [if_pos h]
      rw [if_pos (show -EINVAL < 0 by decide)]
    · simp only [if_neg h]
      rw [if_neg (by omega)]

/-- value of nibble `k` written for the digit string `ds` (0xf filler) -/
def digitOrFill (hex : Bool) (ds : List Byte) (k : Nat) : Nat :=
  match ds[k]? with
  | some c => (digitValue hex c).getD 0
  | none => 15

theorem str2bcdLoop_spec (ah : Bool) (n ni : Nat) (digits dst : List Byte)
    (hn : ni + n ≤ 2 * dst.length)
    (hv : ∀ k (h : k < digits.length), k < n → (digitValue ah digits[k]).isSome) :
    ∃ dst', str2bcdLoop ah n ni digits dst = some (dst', true) ∧ dst'.length = dst.length ∧
      ∀ k, nibbleAt false dst' k =
        if ni ≤ k ∧ k < ni + n then digitOrFill ah digits (k - ni) else nibbleAt false dst k := by
  induction n generalizing ni digits dst with
  | zero =>
    refine ⟨dst, rfl, rfl, ?_⟩
    intro k
    rw [if_neg (by omega)]
  | succ n ih =>
    have hi : ni / 2 < dst.length := by omega
    -- one store of value `v`
    have key : ∀ v : Nat, v < 16 → ∀ rest : List Byte,
        (∀ k (h : k < rest.length), k < n → (digitValue ah rest[k]).isSome) →
        ∃ dst', ((dst[ni / 2]?).bind fun o =>
            str2bcdLoop ah n (ni + 1) rest (dst.set (ni / 2)
              (if ni % 2 = 1 then ((BitVec.ofNat 8 v &&& 0xf#8) <<< 4) ||| (o &&& 0x0f#8)
               else (o &&& 0xf0#8) ||| (BitVec.ofNat 8 v &&& 0xf#8)))) = some (dst', true) ∧
          dst'.length = dst.length ∧
          ∀ k, nibbleAt false dst' k = if ni + 1 ≤ k ∧ k < ni + 1 + n then digitOrFill ah rest (k - (ni + 1))
            else if k = ni then v else nibbleAt false dst k := by
      intro v hv16 rest hrest
      rw [List.getElem?_eq_getElem hi, Option.bind_some]
      obtain ⟨d, h1, h2, h3⟩ := ih (ni + 1) rest (dst.set (ni / 2)
        (if ni % 2 = 1 then ((BitVec.ofNat 8 v &&& 0xf#8) <<< 4) ||| (dst[ni / 2] &&& 0x0f#8)
          else (dst[ni / 2] &&& 0xf0#8) ||| (BitVec.ofNat 8 v &&& 0xf#8)))
        (by simp; omega) hrest
      refine ⟨d, h1, by simpa using h2, ?_⟩
      intro k
      rw [h3 k]
      congr 1
      apply nibbleAt_set hi hv16
      rw [getD_of_lt hi]
      rcases Nat.mod_two_eq_zero_or_one ni with h2 | h2
      · simp only [h2]
        rw [if_neg (by omega), put_lo v hv16]
        rfl
      · simp only [h2]
        rw [if_pos trivial, put_hi v hv16]
        rfl
    unfold str2bcdLoop
    cases digits with
    | nil =>
      obtain ⟨d, h1, h2, h3⟩ := key 15 (by omega) [] (by intro k h; simp at h)
      refine ⟨d, h1, h2, ?_⟩
      intro k
      rw [h3 k]
      by_cases hk : k = ni
      · subst hk
        rw [if_neg (by omega), if_pos rfl, if_pos (by omega)]; rfl
      · by_cases hk2 : ni + 1 ≤ k ∧ k < ni + 1 + n
        · rw [if_pos hk2, if_pos (by omega)]; rfl
        · rw [if_neg hk2, if_neg hk, if_neg (by omega)]
    | cons c rest =>
      have hc := hv 0 (by simp) (by omega)
      simp only [List.getElem_cons_zero] at hc
      obtain ⟨v, hvv⟩ := Option.isSome_iff_exists.1 hc
      obtain ⟨hd, hv16⟩ := digitVal_some hvv
      obtain ⟨d, h1, h2, h3⟩ := key v hv16 rest (by
        intro k h hk
        have := hv (k + 1) (by simpa using h) (by omega)
        simpa using this)
      refine ⟨d, ?_, h2, ?_⟩
      · simp only [hd]; exact h1
      · intro k
        rw [h3 k]
        by_cases hk : k = ni
        · subst hk
          rw [if_neg (by omega), if_pos rfl, if_pos (by omega)]
          simp [digitOrFill, hvv]
        · by_cases hk2 : ni + 1 ≤ k ∧ k < ni + 1 + n
          · rw [if_pos hk2, if_pos (by omega)]
            rw [show k - ni = (k - (ni + 1)) + 1 by omega]
            simp [digitOrFill]
          · rw [if_neg hk2, if_neg hk, if_neg (by omega)]

theorem str2bcdLoop_invalid (ah : Bool) (n ni : Nat) (digits dst : List Byte)
    (hn : ni + n ≤ 2 * dst.length)
    (j : Nat) (hj : j < digits.length) (hjn : j < n) (hv : digitValue ah digits[j] = none) :
    ∃ dst', str2bcdLoop ah n ni digits dst = some (dst', false) ∧ dst'.length = dst.length := by
  induction n generalizing ni digits dst j with
  | zero => omega
  | succ n ih =>
    have hi : ni / 2 < dst.length := by omega
    unfold str2bcdLoop
    cases digits with
    | nil => simp at hj
    | cons c rest =>
      cases hc : digitVal ah c with
      | none => exact ⟨dst, by simp only [hc], rfl⟩
      | some v =>
        cases j with
        | zero =>
          simp only [List.getElem_cons_zero] at hv
          rw [digitVal_none hv] at hc
          cases hc
        | succ j =>
          simp only [hc]
          rw [List.getElem?_eq_getElem hi, Option.bind_some]
          obtain ⟨d, h1, h2⟩ := ih (ni + 1) rest (dst.set (ni / 2)
            (if ni % 2 = 1 then ((v &&& 0xf#8) <<< 4) ||| (dst[ni / 2] &&& 0x0f#8)
              else (dst[ni / 2] &&& 0xf0#8) ||| (v &&& 0xf#8)))
            (by simp; omega) j (by simpa using hj) (by omega) (by simpa using hv)
          exact ⟨d, h1, by simpa using h2⟩

/-- **C12b.** `osmo_str2bcd` with automatic end (`end_nibble < 0`): with a
valid digit string and enough room it stores digit `k` in nibble
`start_nibble + k`, fills a started octet with 0xf, leaves every other nibble
alone and returns the number of octets used. -/
theorem str2bcd_auto (dst digits : List Byte) (s : Nat) (e : Int) (ah : Bool) (he : e < 0)
    (hd : 1 ≤ dst.length) (hroom : s + digits.length ≤ 2 * dst.length)
    (hv : ∀ c ∈ digits, (digitValue ah c).isSome) :
    ∃ dst', str2bcd dst digits s e ah = some (dst', (((s + digits.length + 1) / 2 : Nat) : Int)) ∧
      dst'.length = dst.length ∧
      ∀ k, nibbleAt false dst' k =
        if s ≤ k ∧ k < s + digits.length then (digitValue ah (digits.getD (k - s) 0#8)).getD 0
        else if k = s + digits.length ∧ k % 2 = 1 then 15
        else nibbleAt false dst k := by
  unfold str2bcd
  rw [if_neg (by omega)]
  simp only [he, true_and, if_true]
  generalize hE : (if ((s : Int) + digits.length) % 2 = 1 then (s : Int) + digits.length + 1
    else (s : Int) + digits.length) = E
  have hEn : E = ((s + digits.length + 1) / 2 * 2 : Nat) := by
    rw [← hE]; split <;> omega
  rw [if_neg (by omega)]
  obtain ⟨d, h1, h2, h3⟩ := str2bcdLoop_spec ah (E - s).toNat s digits dst (by omega)
    (fun k h _ => hv _ (List.getElem_mem h))
  rw [Int.toNat_natCast, h1, Option.map_some]
  refine ⟨d, ?_, h2, ?_⟩
  · simp only [if_true]
    congr 2; omega
  · intro k
    rw [h3 k]
    by_cases hk : s ≤ k ∧ k < s + digits.length
    · rw [if_pos (by omega), if_pos hk]
      have : k - s < digits.length := by omega
      simp [digitOrFill, this]
    · rw [if_neg hk]
      by_cases hk2 : k = s + digits.length ∧ k % 2 = 1
      · rw [if_pos (by omega), if_pos hk2]
        have : digits.length ≤ k - s := by omega
        simp [digitOrFill, List.getElem?_eq_none this]
      · rw [if_neg (by omega), if_neg hk2]

/-- **C12c.** Round trip: writing a digit string with `osmo_str2bcd` and
printing the same nibble range with `osmo_bcd2str` gives the digits back
(hexadecimal digits in upper case). -/
theorem bcd_roundtrip (dst digits out : List Byte) (s : Nat) (e : Int) (ah : Bool) (he : e < 0)
    (hd : 1 ≤ dst.length) (hroom : s + digits.length ≤ 2 * dst.length)
    (hv : ∀ c ∈ digits, (digitValue ah c).isSome) (hout : digits.length < out.length) :
    ∃ dst' rc, str2bcd dst digits s e ah = some (dst', rc) ∧ rc = (((s + digits.length + 1) / 2 : Nat) : Int) ∧
      bcd2str out dst' s (s + digits.length : Nat) ah =
        some (digits.map (fun c => upHex ((digitValue ah c).getD 0)) ++
          0#8 :: out.drop (digits.length + 1), (digits.length : Int)) := by
  obtain ⟨d, h1, h2, h3⟩ := str2bcd_auto dst digits s e ah he hd hroom hv
  refine ⟨d, _, h1, rfl, ?_⟩
  rw [bcd2str_spec out d s (s + digits.length : Nat) ah (by omega) (by omega)]
  have hm : min (out.length - 1) ((((s + digits.length : Nat) : Int).toNat) - s) = digits.length := by
    omega
  rw [hm]
  have hnib : ∀ k (h : k < digits.length), nibbleAt false d (s + k) = (digitValue ah digits[k]).getD 0 := by
    intro k hk
    rw [h3, if_pos (by omega), show s + k - s = k by omega, getD_of_lt hk]
  congr 2
  · congr 1
    apply List.ext_getElem (by simp)
    intro k hk1 hk2
    have hk : k < digits.length := by simpa using hk1
    simp [nibbleText, hnib k hk]
  · rw [if_neg]
    · omega
    · rintro ⟨hah, k, hk, h9⟩
      rw [hnib k hk, hah] at h9
      have := hv _ (List.getElem_mem hk)
      rw [hah] at this
      have hdec : ∀ c : Byte, (digitValue false c).getD 0 ≤ 9 := by decide +kernel
      have := hdec digits[k]
      omega

/-- decimal digits come back unchanged -/
theorem upHex_digitValue_dec : ∀ c : Byte, (digitValue false c).isSome →
    upHex ((digitValue false c).getD 0) = c := by decide +kernel

/-- **C12d.** Every other string is refused: an invalid digit inside the range
gives `-EINVAL`, a too small buffer `-ENOMEM` without touching it. -/
theorem str2bcd_rejects (dst digits : List Byte) (s : Nat) (e : Int) (ah : Bool) (he : e < 0)
    (hd : 1 ≤ dst.length) :
    (s + digits.length ≤ 2 * dst.length → (∃ c ∈ digits, digitValue ah c = none) →
      ∃ dst', str2bcd dst digits s e ah = some (dst', -EINVAL) ∧ dst'.length = dst.length) ∧
    (2 * dst.length < s + digits.length → str2bcd dst digits s e ah = some (dst, -ENOMEM)) := by
  unfold str2bcd
  rw [if_neg (by omega)]
  simp only [he, true_and, if_true]
  generalize hE : (if ((s : Int) + digits.length) % 2 = 1 then (s : Int) + digits.length + 1
    else (s : Int) + digits.length) = E
  have hEn : E = ((s + digits.length + 1) / 2 * 2 : Nat) := by
    rw [← hE]; split <;> omega
  constructor
  · rintro hroom ⟨c, hc, hv⟩
    obtain ⟨j, hj, rfl⟩ := List.getElem_of_mem hc
    rw [if_neg (by omega)]
    obtain ⟨d, h1, h2⟩ := str2bcdLoop_invalid ah (E - s).toNat s digits dst (by omega) j hj
      (by omega) hv
    rw [Int.toNat_natCast, h1, Option.map_some]
    exact ⟨d, rfl, h2⟩
  · intro hroom
    rw [if_pos (by omega)]

/-- **C12e** (bound of the caller-chosen end, false as documented): with an odd
`end_nibble` of `2 * dst_size + 1` the size check passes and the nibble
`2 * dst_size` is stored behind the buffer. -/
theorem str2bcd_overrun_counterexample :
    str2bcd [0#8] [0x31, 0x32, 0x33] 0 3 false = none := by decide

/-- **C12e, partial.** With a caller-chosen end no store leaves the buffer if
`end_nibble` is even or at most `2 * dst_size`.  Missing: odd `end_nibble =
2 * dst_size + 1`, which overruns (see `str2bcd_overrun_counterexample`). -/
theorem str2bcd_bounds_partial (dst digits : List Byte) (s e : Int) (ah : Bool)
    (h : e % 2 = 0 ∨ e ≤ 2 * dst.length) :
    ∃ dst' rc, str2bcd dst digits s e ah = some (dst', rc) ∧ dst'.length = dst.length := by
  unfold str2bcd
  split
  · exact ⟨_, _, rfl, rfl⟩
  · rename_i hc
    simp only
    generalize hE : (if e < 0 ∧ (if e < 0 then s + (digits.length : Int) else e) % 2 = 1 then
      (if e < 0 then s + (digits.length : Int) else e) + 1 else
      (if e < 0 then s + (digits.length : Int) else e)) = E
    split
    · exact ⟨_, _, rfl, rfl⟩
    · rename_i hle
      have hb : E ≤ 2 * dst.length := by
        by_cases h0 : e < 0
        · simp only [h0, if_true, true_and] at hE
          split at hE <;> omega
        · simp only [h0, if_false, false_and] at hE
          omega
      by_cases hbad : ∃ j, ∃ hj : j < digits.length, j < (E - s).toNat ∧ digitValue ah digits[j] = none
      · obtain ⟨j, hj, hjn, hv⟩ := hbad
        obtain ⟨d, h1, h2⟩ := str2bcdLoop_invalid ah (E - s).toNat s.toNat digits dst (by omega)
          j hj hjn hv
        rw [h1]; exact ⟨_, _, rfl, h2⟩
      · by_cases hneg : E ≤ s
        · rw [show (E - s).toNat = 0 by omega]
          exact ⟨_, _, rfl, rfl⟩
        · obtain ⟨d, h1, h2, _⟩ := str2bcdLoop_spec ah (E - s).toNat s.toNat digits dst (by omega)
            (by
              intro k hk hkn
              cases hv : digitValue ah digits[k] with
              | some v => rfl
              | none => exact absurd ⟨k, hk, hkn, hv⟩ hbad)
          rw [h1]; exact ⟨_, _, rfl, h2⟩

/-- **C12f.** `osmo_char2bcd` inverts `osmo_bcd2char` on nibbles. -/
theorem char2bcd_bcd2char : ∀ b : Byte, b.toNat < 16 → char2bcd (bcd2char b) = b := by
  decide +kernel

/-- non-vacuity: IMSI-like digits at nibble 1 of a 4 byte buffer -/
example : str2bcd [0x09, 0, 0, 0] [0x32, 0x36, 0x32, 0x34, 0x32] 1 (-1) false =
      some ([0x29, 0x26, 0x24, 0], 3) ∧
    bcd2str (List.replicate 8 0xee) [0x29, 0x26, 0x24, 0] 1 6 false =
      some ([0x32, 0x36, 0x32, 0x34, 0x32, 0, 0xee, 0xee], 5) ∧
    bcd2str (List.replicate 3 0xee) [0x29, 0xa6] 1 4 false = some ([0x32, 0x36, 0], 3) ∧
    bcd2str (List.replicate 4 0xee) [0x29, 0xa6] 1 4 false = some ([0x32, 0x36, 0x41, 0], -22) := by
  decide

/-! ### C13 -/

/-- permitted separators -/
def IsSep (c : Byte) : Prop := c ∈ [0x20#8, 0x09#8, 0x0a#8, 0x0d#8]

instance : DecidablePred IsSep := fun c => by unfold IsSep; infer_instance

theorem isHexSpace_iff : ∀ c : Byte, isHexSpace c = true ↔ IsSep c := by decide +kernel

/-- the characters of a string that are not separators -/
def hexDigits (s : List Byte) : List Byte := s.filter fun c => !decide (IsSep c)

theorem hexDigits_cons_sep {c : Byte} {s : List Byte} (h : IsSep c) :
    hexDigits (c :: s) = hexDigits s := by simp [hexDigits, h]

theorem hexDigits_cons {c : Byte} {s : List Byte} (h : ¬ IsSep c) :
    hexDigits (c :: s) = c :: hexDigits s := by simp [hexDigits, h]

theorem or_step {b : List Byte} {np v : Nat} (hi : np / 2 < b.length) (hv : v < 16)
    (hz : nibbleAt true b np = 0) (hz2 : nibbleAt true b (np + 1) = 0) (k : Nat) :
    nibbleAt true (b.set (np / 2)
      (b[np / 2] ||| (BitVec.ofNat 8 v <<< (if np % 2 = 1 then 0 else 4)))) k =
      if k = np then v else nibbleAt true b k := by
  apply nibbleAt_set hi hv
  rw [getD_of_lt hi]
  unfold nibbleAt at hz hz2
  rw [getD_of_lt hi] at hz
  have hlt := b[np / 2].isLt
  rcases Nat.mod_two_eq_zero_or_one np with h2 | h2
  · have e : (np + 1) / 2 = np / 2 := by omega
    have e2 : (np + 1) % 2 = 1 := by omega
    rw [e, getD_of_lt hi] at hz2
    simp [h2, e2] at hz hz2
    have h0 : b[np / 2] = 0#8 := BitVec.eq_of_toNat_eq (by
      show b[np / 2].toNat = 0
      omega)
    rw [h0, h2]
    simpa using or_hi v hv
  · simp [h2] at hz
    have h0 : b[np / 2] = BitVec.ofNat 8 (b[np / 2].toNat / 16 * 16) := BitVec.eq_of_toNat_eq (by
      rw [BitVec.toNat_ofNat]; omega)
    have := or_lo v hv (b[np / 2].toNat / 16) (by omega)
    rw [← h0] at this
    rw [h2]
    simpa using this

theorem hexparseLoop_spec (limit : Nat) (s : List Byte) (np : Nat) (b : List Byte)
    (hl : limit = 2 * b.length) (hnp : np ≤ limit)
    (hz : ∀ k, np ≤ k → nibbleAt true b k = 0) :
    ∃ b' rc, hexparseLoop limit s np b = some (b', rc) ∧ b'.length = b.length ∧
      (((∀ c ∈ hexDigits s, (digitValue true c).isSome) ∧ np + (hexDigits s).length ≤ limit ∧
          (np + (hexDigits s).length) % 2 = 0) →
        rc = (((np + (hexDigits s).length) / 2 : Nat) : Int) ∧
        ∀ k, nibbleAt true b' k =
          if np ≤ k then ((hexDigits s)[k - np]?.bind (digitValue true)).getD 0
          else nibbleAt true b k) ∧
      (¬ ((∀ c ∈ hexDigits s, (digitValue true c).isSome) ∧ np + (hexDigits s).length ≤ limit ∧
          (np + (hexDigits s).length) % 2 = 0) → rc = -1) := by
  induction s generalizing np b with
  | nil =>
    unfold hexparseLoop
    refine ⟨b, _, rfl, rfl, ?_, ?_⟩
    · rintro ⟨_, _, h3⟩
      simp [hexDigits] at h3
      rw [if_neg (by omega)]
      refine ⟨by simp [hexDigits], ?_⟩
      intro k
      split
      · rename_i h; rw [hz k h]; simp [hexDigits]
      · rfl
    · intro h
      simp [hexDigits] at h
      rw [if_pos (by have := h (by omega); omega)]
  | cons c rest ih =>
    unfold hexparseLoop
    by_cases hsp : IsSep c
    · rw [if_pos ((isHexSpace_iff c).2 hsp), hexDigits_cons_sep hsp]
      exact ih np b hl hnp hz
    · rw [if_neg (fun h => hsp ((isHexSpace_iff c).1 h)), hexDigits_cons hsp]
      split
      · rename_i hge
        refine ⟨b, -1, rfl, rfl, ?_, fun _ => rfl⟩
        rintro ⟨_, h2, _⟩
        simp only [List.length_cons] at h2; omega
      · rename_i hlt
        cases hv : digitValue true c with
        | none =>
          rw [digitVal_none hv]
          refine ⟨b, -1, rfl, rfl, ?_, fun _ => rfl⟩
          rintro ⟨h1, _, _⟩
          have := h1 c (by simp)
          rw [hv] at this; cases this
        | some v =>
          obtain ⟨hd, hv16⟩ := digitVal_some hv
          rw [hd]
          simp only
          have hi : np / 2 < b.length := by omega
          rw [List.getElem?_eq_getElem hi, Option.bind_some]
          have hset := or_step hi hv16 (hz np (Nat.le_refl _)) (hz (np + 1) (by omega))
          obtain ⟨b', rc, h1, h2, h3, h4⟩ := ih (np + 1)
            (b.set (np / 2) (b[np / 2] ||| (BitVec.ofNat 8 v <<< (if np % 2 = 1 then 0 else 4))))
            (by simpa using hl) (by omega)
            (by intro k hk; rw [hset k, if_neg (by omega)]; exact hz k (by omega))
          have hiff : ((∀ x ∈ c :: hexDigits rest, (digitValue true x).isSome) ∧
              np + (c :: hexDigits rest).length ≤ limit ∧ (np + (c :: hexDigits rest).length) % 2 = 0) ↔
              ((∀ x ∈ hexDigits rest, (digitValue true x).isSome) ∧
              np + 1 + (hexDigits rest).length ≤ limit ∧ (np + 1 + (hexDigits rest).length) % 2 = 0) := by
            simp only [List.length_cons, List.mem_cons, forall_eq_or_imp, hv, Option.isSome_some, true_and]
            rw [show np + ((hexDigits rest).length + 1) = np + 1 + (hexDigits rest).length by omega]
          refine ⟨b', rc, h1, by simpa using h2, ?_, ?_⟩
          · intro h
            obtain ⟨h5, h6⟩ := h3 (hiff.1 h)
            refine ⟨?_, ?_⟩
            · rw [h5]; simp only [List.length_cons]; congr 2; omega
            · intro k
              rw [h6 k, hset k]
              by_cases hk : k = np
              · subst hk
                rw [if_neg (by omega), if_pos rfl, if_pos (by omega)]
                simp [hv]
              · by_cases hk2 : np + 1 ≤ k
                · rw [if_pos hk2, if_pos (by omega), show k - np = (k - (np + 1)) + 1 by omega]
                  simp
                · rw [if_neg hk2, if_neg hk, if_neg (by omega)]
          · intro h
            exact h4 (fun h' => h (hiff.2 h'))

theorem nibbleAt_zeros (n k : Nat) : nibbleAt true (List.replicate n 0#8) k = 0 := by
  unfold nibbleAt
  have : (List.replicate n 0#8).getD (k / 2) 0#8 = 0#8 := by
    by_cases h : k / 2 < n
    · rw [getD_of_lt (by simpa using h)]; simp
    · simp [List.getD, List.getElem?_eq_none (show (List.replicate n 0#8).length ≤ k / 2 by simpa using h)]
  rw [this]
  simp

/-- **C13a.** `osmo_hexparse` accepts exactly the strings which, separators
apart, are an even number (at most `2 * max_len`) of hexadecimal digits; it
then returns the number of octets and fills the buffer with their values and
zeroes behind them; every other string gives -1.  It never leaves the buffer. -/
theorem hexparse_spec (s b : List Byte) (hb : b.length * 2 < 2 ^ 32) :
    ∃ b' rc, hexparse s b = some (b', rc) ∧ b'.length = b.length ∧
      (((∀ c ∈ hexDigits s, (digitValue true c).isSome) ∧ (hexDigits s).length ≤ 2 * b.length ∧
          (hexDigits s).length % 2 = 0) →
        rc = (((hexDigits s).length / 2 : Nat) : Int) ∧
        ∀ k, nibbleAt true b' k = ((hexDigits s)[k]?.bind (digitValue true)).getD 0) ∧
      (¬ ((∀ c ∈ hexDigits s, (digitValue true c).isSome) ∧ (hexDigits s).length ≤ 2 * b.length ∧
          (hexDigits s).length % 2 = 0) → rc = -1) := by
  unfold hexparse
  rw [Nat.mod_eq_of_lt hb]
  obtain ⟨b', rc, h1, h2, h3, h4⟩ := hexparseLoop_spec (b.length * 2) s 0
    (List.replicate b.length 0#8) (by simp; omega) (by omega) (fun k _ => nibbleAt_zeros _ k)
  simp only [Nat.zero_add, show b.length * 2 = 2 * b.length by omega] at *
  refine ⟨b', rc, h1, by simpa using h2, ?_, h4⟩
  intro h
  obtain ⟨h5, h6⟩ := h3 h
  refine ⟨h5, fun k => ?_⟩
  have := h6 k
  simpa using this

/-- two lower-case digits of a byte -/
def hex2 (x : Byte) : List Byte := [loHex (x.toNat / 16), loHex (x.toNat % 16)]

/-- the full text of a dump: bytes separated by `delim`, also ending in it if `dal` -/
def dumpText (delim : List Byte) (dal : Bool) : List Byte → List Byte
  | [] => []
  | [x] => hex2 x ++ if dal then delim else []
  | x :: rest => hex2 x ++ delim ++ dumpText delim dal rest

theorem hexChars_hi : ∀ x : Byte, hexChars.getD (x >>> 4).toNat 0#8 = loHex (x.toNat / 16) := by
  decide +kernel
theorem hexChars_lo : ∀ x : Byte, hexChars.getD (x &&& 0xf#8).toNat 0#8 = loHex (x.toNat % 16) := by
  decide +kernel

/-- `out` with `T` written at `cur` -/
def splice (out : List Byte) (cur : Nat) (T : List Byte) : List Byte :=
  out.take cur ++ T ++ out.drop (cur + T.length)

@[simp] theorem length_splice {out : List Byte} {cur : Nat} {T : List Byte}
    (h : cur + T.length ≤ out.length) : (splice out cur T).length = out.length := by
  simp [splice]; omega

theorem splice_set {out : List Byte} {cur : Nat} {x : Byte} {W : List Byte}
    (h : cur + W.length < out.length) :
    splice (out.set cur x) (cur + 1) W = splice out cur (x :: W) := splice_cons h

theorem splice_splice {out : List Byte} {cur : Nat} {A B : List Byte}
    (h : cur + A.length + B.length ≤ out.length) :
    splice (splice out cur A) (cur + A.length) B = splice out cur (A ++ B) := by
  unfold splice
  have hl : (out.take cur ++ A).length = cur + A.length := by simp; omega
  rw [List.take_append_of_le_length (by omega), List.take_of_length_le (by omega)]
  rw [show cur + A.length + B.length = (out.take cur ++ A).length + B.length by omega]
  rw [List.drop_append, List.drop_of_length_le (by omega)]
  simp only [List.nil_append, List.append_assoc, List.length_append, List.drop_drop]
  congr 4
  simp; omega

theorem splice_nil (out : List Byte) (cur : Nat) : splice out cur [] = out := by simp [splice]

theorem copyDelim_spec (ds : List Byte) (rem : Int) (cur : Nat) (out : List Byte)
    (hr : rem ≥ ds.length + 1) (hc : cur + ds.length ≤ out.length) :
    copyDelim ds rem cur out = some (splice out cur ds, cur + ds.length) := by
  induction ds generalizing rem cur out with
  | nil => simp [copyDelim, splice_nil]
  | cons d ds ih =>
    simp only [List.length_cons] at hr hc
    unfold copyDelim
    rw [if_pos (by omega), putc, if_pos (by omega), Option.bind_some,
      ih _ _ _ (by omega) (by simp; omega), splice_set (by omega)]
    simp only [List.length_cons]
    congr 2; omega

theorem hexdumpLoop_spec (delim : List Byte) (dal : Bool) (buf : List Byte) (cur : Nat)
    (out : List Byte) (hc : cur < out.length) :
    ∃ T, hexdumpLoop delim dal buf cur out = some (splice out cur T, cur + T.length) ∧
      cur + T.length < out.length ∧
      (T = dumpText delim dal buf ∨ ∃ k, k < buf.length ∧ T = ((buf.take k).flatMap fun x => hex2 x ++ delim)) ∧
      (cur + (dumpText delim dal buf).length < out.length → T = dumpText delim dal buf) := by
  induction buf generalizing cur out with
  | nil =>
    exact ⟨[], by simp [hexdumpLoop, splice_nil], by simpa using hc, Or.inl rfl, fun _ => rfl⟩
  | cons x rest ih =>
    unfold hexdumpLoop
    simp only
    split
    · rename_i hbr
      refine ⟨[], by simp [splice_nil], by simpa using hc, Or.inr ⟨0, by simp, by simp⟩, ?_⟩
      intro hfit
      exfalso
      cases rest with
      | nil =>
        cases dal <;> simp [dumpText, hex2] at hbr hfit <;> omega
      | cons y ys =>
        simp [dumpText, hex2] at hbr hfit
        omega
    · rename_i hbr
      have hrem : cur + 2 < out.length := by
        cases dal <;> simp at hbr <;> omega
      rw [putc, if_pos (by omega), Option.bind_some, putc, if_pos (by simp; omega), Option.bind_some]
      rw [hexChars_hi, hexChars_lo]
      have hs2 : (out.set cur (loHex (x.toNat / 16))).set (cur + 1) (loHex (x.toNat % 16)) =
          splice out cur (hex2 x) := by
        have h2 := splice_set (out := out) (cur := cur) (x := loHex (x.toNat / 16))
          (W := [loHex (x.toNat % 16)]) (by simp; omega)
        rw [hex2, ← h2, ← splice_set (by simp; omega), splice_nil]
      rw [hs2]
      split
      · rename_i hlast
        simp at hlast
        obtain ⟨hnil, hdal⟩ := hlast
        subst hnil hdal
        refine ⟨hex2 x, rfl, by simp [hex2]; omega, Or.inl (by simp [dumpText]), ?_⟩
        intro _; simp [dumpText]
      · rename_i hlast
        have hroom : cur + 2 + delim.length < out.length := by
          cases dal <;> cases rest <;> simp at hbr hlast <;> omega
        rw [copyDelim_spec delim _ _ _ (by omega) (by rw [length_splice (by simp [hex2]; omega)]; omega),
          Option.bind_some]
        simp only
        rw [show cur + 2 = cur + (hex2 x).length by rfl, splice_splice (by simp [hex2]; omega)]
        have hl : (splice out cur (hex2 x ++ delim)).length = out.length :=
          length_splice (by simp [hex2]; omega)
        obtain ⟨T, h1, h2, h3, h4⟩ := ih (cur + (hex2 x).length + delim.length)
          (splice out cur (hex2 x ++ delim)) (by rw [hl]; simp [hex2]; omega)
        rw [hl] at h2 h4
        rw [h1]
        have hfull : dumpText delim dal (x :: rest) = hex2 x ++ delim ++ dumpText delim dal rest := by
          cases rest with
          | nil =>
            cases dal
            · simp at hlast
            · simp [dumpText]
          | cons y ys => rfl
        refine ⟨hex2 x ++ delim ++ T, ?_, by simp at h2 ⊢; omega, ?_, ?_⟩
        · rw [show cur + (hex2 x).length + delim.length = cur + (hex2 x ++ delim).length by simp; omega,
            splice_splice (by simp at h2 ⊢; omega)]
          simp only [List.length_append]
          congr 2; omega
        · rcases h3 with h | ⟨k, hk, h⟩
          · left; rw [hfull, h]
          · right; exact ⟨k + 1, by simpa using hk, by rw [h]; simp⟩
        · intro hfit
          rw [hfull] at hfit ⊢
          rw [h4 (by simp at hfit ⊢; omega)]

/-- **C13b.** `osmo_hexdump_buf` never writes outside its buffer (result is
defined for every size), NUL-terminates, leaves the rest of the buffer alone,
and writes the full dump if it fits, else whole delimited bytes only. -/
theorem hexdumpBuf_spec (out buf delim : List Byte) (dal : Bool) (ho : 1 ≤ out.length) :
    ∃ T, hexdumpBuf out buf delim dal = some (T ++ 0#8 :: out.drop (T.length + 1)) ∧
      T.length < out.length ∧
      (T = dumpText delim dal buf ∨ ∃ k, k < buf.length ∧ T = ((buf.take k).flatMap fun x => hex2 x ++ delim)) ∧
      ((dumpText delim dal buf).length < out.length → T = dumpText delim dal buf) := by
  unfold hexdumpBuf
  rw [if_neg (by omega)]
  obtain ⟨T, h1, h2, h3, h4⟩ := hexdumpLoop_spec delim dal buf 0 out (by omega)
  rw [h1, Option.bind_some]
  simp only [Nat.zero_add] at *
  refine ⟨T, ?_, h2, h3, h4⟩
  unfold putc
  rw [if_pos (by rw [length_splice (by omega)]; exact h2)]
  congr 1
  simp only [splice, List.take_zero, List.nil_append, Nat.zero_add]
  rw [List.set_append_right _ _ (by omega), Nat.sub_self, List.drop_eq_getElem_cons h2,
    List.set_cons_zero]

theorem not_sep_lo : ∀ n, n < 16 → ¬ IsSep (loHex n) := by decide

theorem hexDigits_append (a b : List Byte) : hexDigits (a ++ b) = hexDigits a ++ hexDigits b := by
  simp [hexDigits]

theorem hexDigits_sep {d : List Byte} (h : ∀ c ∈ d, IsSep c) : hexDigits d = [] := by
  simp [hexDigits]; exact h

theorem hexDigits_hex2 (x : Byte) : hexDigits (hex2 x) = hex2 x := by
  have := x.isLt
  unfold hex2
  rw [hexDigits_cons (not_sep_lo _ (by omega)), hexDigits_cons (not_sep_lo _ (by omega))]
  rfl

theorem hexDigits_dumpText {delim : List Byte} (hd : ∀ c ∈ delim, IsSep c) (dal : Bool) (buf : List Byte) :
    hexDigits (dumpText delim dal buf) = buf.flatMap hex2 := by
  induction buf with
  | nil => rfl
  | cons x rest ih =>
    cases rest with
    | nil =>
      simp only [dumpText]
      rw [hexDigits_append, hexDigits_hex2]
      cases dal
      · simp [hexDigits]
      · rw [if_pos rfl, hexDigits_sep hd]; simp
    | cons y ys =>
      rw [dumpText, hexDigits_append, hexDigits_append, hexDigits_hex2, hexDigits_sep hd, ih]
      · simp
      · simp

theorem getElem?_flatMap_hex2 (buf : List Byte) (k : Nat) :
    ((buf.flatMap hex2)[k]?.bind (digitValue true)).getD 0 = nibbleAt true buf k := by
  induction buf generalizing k with
  | nil => simp [nibbleAt]
  | cons x rest ih =>
    have := x.isLt
    match k with
    | 0 => simp [hex2, nibbleAt, digitValue_lo _ (show x.toNat / 16 < 16 by omega)]
    | 1 => simp [hex2, nibbleAt, digitValue_lo _ (show x.toNat % 16 < 16 by omega)]
    | k + 2 =>
      have h1 : (List.flatMap hex2 (x :: rest))[k + 2]? = (rest.flatMap hex2)[k]? := by
        simp [hex2]
      rw [h1, ih]
      unfold nibbleAt
      rw [show (k + 2) / 2 = k / 2 + 1 by omega, show (k + 2) % 2 = k % 2 by omega]
      simp

theorem length_flatMap_hex2 (buf : List Byte) : (buf.flatMap hex2).length = 2 * buf.length := by
  induction buf with
  | nil => rfl
  | cons x rest ih => rw [List.flatMap_cons, List.length_append, ih]; simp [hex2]; omega

/-- **C13c.** Parsing the hex dump of a byte string, with any delimiter made of
the permitted separators and with or without a trailing one, returns exactly
that byte string and its length. -/
theorem hexparse_hexdump (out buf delim b : List Byte) (dal : Bool)
    (hfit : (dumpText delim dal buf).length < out.length)
    (hd : ∀ c ∈ delim, IsSep c) (hb : b.length * 2 < 2 ^ 32) (hlen : buf.length ≤ b.length) :
    ∃ T rest, hexdumpBuf out buf delim dal = some (T ++ 0#8 :: rest) ∧
      hexparse T b = some (buf ++ List.replicate (b.length - buf.length) 0#8, (buf.length : Int)) := by
  obtain ⟨T, h1, h2, _, h4⟩ := hexdumpBuf_spec out buf delim dal (by omega)
  have hT := h4 hfit
  refine ⟨T, _, h1, ?_⟩
  have hdig : hexDigits T = buf.flatMap hex2 := by rw [hT, hexDigits_dumpText hd]
  have hdl := length_flatMap_hex2 buf
  obtain ⟨b', rc, g1, g2, g3, _⟩ := hexparse_spec T b hb
  rw [hdig] at g3
  obtain ⟨g4, g5⟩ := g3 ⟨by
      intro c hc
      simp only [List.mem_flatMap] at hc
      obtain ⟨x, _, hx⟩ := hc
      have := x.isLt
      simp [hex2] at hx
      rcases hx with h | h
      · rw [h, digitValue_lo _ (by omega)]; rfl
      · rw [h, digitValue_lo _ (by omega)]; rfl,
    by omega, by omega⟩
  rw [g1, g4, hdl]
  congr 2
  · apply ext_nibbleAt (msf := true)
    · simp; omega
    · intro i _
      rw [g5 i, getElem?_flatMap_hex2]
      unfold nibbleAt
      have : (buf ++ List.replicate (b.length - buf.length) 0#8).getD (i / 2) 0#8 = buf.getD (i / 2) 0#8 := by
        simp only [List.getD, List.getElem?_append]
        split
        · rfl
        · rename_i hge
          rw [List.getElem?_eq_none (show buf.length ≤ i / 2 by omega)]
          rw [List.getElem?_replicate]
          split <;> rfl
      rw [this]
  · omega

/-- **C13d.** `osmo_ubit_dump_buf` NUL-terminates inside its buffer and shows
each bit as one character, cut to the buffer. -/
theorem ubitDumpBuf_spec (out bits : List Byte) (ho : 1 ≤ out.length) :
    (ubitDumpBuf out bits).length = out.length ∧
    (∀ k, min bits.length (out.length - 1) ≤ k → k < out.length → (ubitDumpBuf out bits)[k]? = some 0#8) ∧
    (∀ k, k < min bits.length (out.length - 1) → ∃ b c, bits[k]? = some b ∧
      (ubitDumpBuf out bits)[k]? = some c ∧ c ≠ 0#8 ∧
      (c = 0x30#8 ↔ b = 0#8) ∧ (c = 0x31#8 ↔ b = 1#8) ∧ (c = 0x3f#8 ↔ b = 0xff#8)) := by
  unfold ubitDumpBuf
  simp only
  refine ⟨by simp; omega, ?_, ?_⟩
  · intro k h1 h2
    rw [List.getElem?_append_right (by simp; omega), List.getElem?_replicate, if_pos (by simp; omega)]
  · intro k hk
    have hkb : k < bits.length := by omega
    refine ⟨bits[k], if bits[k] = 0#8 then 0x30#8 else if bits[k] = 0xff#8 then 0x3f#8
      else if bits[k] = 1#8 then 0x31#8 else 0x45#8, List.getElem?_eq_getElem hkb, ?_, ?_⟩
    · rw [List.getElem?_append_left (by simp; omega), List.getElem?_map, List.getElem?_take,
        if_pos hk, List.getElem?_eq_getElem hkb, Option.map_some]
    · generalize bits[k] = b
      revert b
      decide +kernel

/-- non-vacuity: dump and parse, truncation, rejection -/
example : hexdumpBuf (List.replicate 10 0xee) [0x1a, 0xef, 0xd9] [0x20] false =
      some ([0x31, 0x61, 0x20, 0x65, 0x66, 0x20, 0x64, 0x39, 0, 0xee]) ∧
    hexdumpBuf (List.replicate 6 0xee) [0x1a, 0xef, 0xd9] [0x20] true = some ([0x31, 0x61, 0x20, 0, 0xee, 0xee]) ∧
    hexparse [0x31, 0x61, 0x20, 0x65, 0x46] [0xee, 0xee, 0xee] = some ([0x1a, 0xef, 0], 2) ∧
    hexparse [0x31, 0x61, 0x65] [0xee, 0xee] = some ([0x1a, 0xe0], -1) ∧
    hexparse [0x31, 0x3a, 0x65] [0xee, 0xee] = some ([0x10, 0], -1) := by decide +kernel

end Verif.Utils
