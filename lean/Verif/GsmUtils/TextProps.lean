import Verif.GsmUtils.SeptetProps
/-!
7 bit text: decoding of packed septets with and without user data header
(C30), characters which survive (C63) and the USSD variants (C64).
-/
namespace Verif.GsmUtils
open Verif

/-! ### What decoding means -/

/-- Characters for a sequence of septets, one at a time: an escape septet which
is not the last one selects the extension table for the next septet.  `base`
and `extn` are the two tables. -/
def textOf (base extn : Nat → Nat) : List Nat → List Nat
  | [] => []
  | [x] => [base x]
  | x :: y :: r => if x = 0x1b then extn y :: textOf base extn r else base x :: textOf base extn (y :: r)

/-- Characters of the basic table as used by the decoder: the smallest
character code with this septet. -/
def baseChar (s : Nat) : Nat := septetLookup s

/-- Characters of the extension table as used by the decoder. -/
def extChar (s : Nat) : Nat := alphabet[0x7f + s]?.getD 0

theorem alphabet_length : alphabet.length = 255 := by decide +kernel

theorem ext_get {c : Nat} (h : c < 128) : alphabet[0x7f + c]? = some (extChar c) := by
  unfold extChar
  rw [List.getElem?_eq_getElem (by rw [alphabet_length]; omega)]
  rfl

theorem textOf_length_le (b e : Nat → Nat) : ∀ s : List Nat, (textOf b e s).length ≤ s.length
  | [] => by simp [textOf]
  | [x] => by simp [textOf]
  | x :: y :: r => by
    have h1 := textOf_length_le b e r
    have h2 := textOf_length_le b e (y :: r)
    simp only [textOf]
    split <;> simp only [List.length_cons] at * <;> omega

/-- The decoder loop on a sequence of septets: at most `room` characters are
stored. -/
theorem decodeLoop_spec (ud : List Nat) (maxlen shift L : Nat) :
    ∀ (s : List Nat) (room : Nat), s.length ≤ L →
      (∀ i, i < s.length → septetAt ud maxlen (L - s.length + i + shift) = some (s[i]?.getD 0)) →
      (∀ x ∈ s, x < 128) →
      decodeLoop ud maxlen shift L s.length room false = some ((textOf baseChar extChar s).take room)
  | [], room, _, _, _ => by simp [decodeLoop, textOf]
  | [x], 0, _, _, _ => by simp [decodeLoop]
  | [x], room + 1, hL, h, hx => by
    have h0 := h 0 (by simp)
    simp only [List.length_cons, List.length_nil, Nat.add_zero] at h0
    simp only [List.length_cons, List.length_nil, decodeLoop, h0]
    simp [textOf, baseChar]
  | x :: y :: r, 0, _, _, _ => by simp [decodeLoop]
  | x :: y :: r, room + 1, hL, h, hx => by
    have h0 := h 0 (by simp)
    have h1 := h 1 (by simp)
    simp only [List.length_cons, Nat.add_zero] at h0 h1 hL ⊢
    simp only [List.getElem?_cons_zero, List.getElem?_cons_succ, Option.getD_some] at h0 h1
    have hy : y < 128 := hx y (by simp)
    rw [decodeLoop, h0]
    simp only [Bool.false_eq_true, if_false, textOf]
    by_cases he : x = 0x1b
    · rw [if_pos ⟨he, by omega⟩, if_pos he, decodeLoop,
        show L - (r.length + 1) + shift = L - (r.length + 1 + 1) + 1 + shift by omega, h1]
      simp only [if_true, ext_get hy]
      rw [decodeLoop_spec ud maxlen shift L r room (by omega) ?_ fun z hz => hx z (by simp [hz])]
      · simp
      · intro i hi
        have := h (i + 2) (by simp; omega)
        simp only [List.length_cons, List.getElem?_cons_succ] at this
        rw [← this]
        congr 1; omega
    · rw [if_neg (by simp [he]), if_neg he]
      have ih := decodeLoop_spec ud maxlen shift L (y :: r) room (by simp; omega) ?_ fun z hz => hx z (by
        rcases List.mem_cons.1 hz with hz | hz <;> simp [hz])
      · simp only [List.length_cons] at ih
        rw [ih]
        simp [baseChar]
      · intro i hi
        have := h (i + 1) (by simp at hi ⊢; omega)
        simp only [List.length_cons, List.getElem?_cons_succ] at this ⊢
        rw [← this]
        congr 1; omega

/-- Whatever the input, at most `n` octets of `text` are written, including the
NUL. -/
theorem decodeLoop_room (ud : List Nat) (maxlen shift L : Nat) :
    ∀ (k room : Nat) (ext : Bool) (t : List Nat), decodeLoop ud maxlen shift L k room ext = some t →
      t.length ≤ room ∧ t.length ≤ k
  | 0, room, ext, t, h => by simp [decodeLoop] at h; subst h; simp
  | k + 1, 0, ext, t, h => by simp [decodeLoop] at h; subst h; simp
  | k + 1, room + 1, ext, t, h => by
    simp only [decodeLoop] at h
    split at h
    · cases h
    · split at h
      · split at h
        · cases h
        · simp only [Option.map_eq_some_iff] at h
          obtain ⟨u, hu, rfl⟩ := h
          have := decodeLoop_room ud maxlen shift L k room false u hu
          simp only [List.length_cons]; omega
      · split at h
        · have := decodeLoop_room ud maxlen shift L k (room + 1) true t h
          omega
        · simp only [Option.map_eq_some_iff] at h
          obtain ⟨u, hu, rfl⟩ := h
          have := decodeLoop_room ud maxlen shift L k room false u hu
          simp only [List.length_cons]; omega

/-- **C30**, memory safety of the output: text and NUL fit into `n` octets for
every input. -/
theorem decodeNHdr_fits (n : Nat) (ud : List Nat) (L : Nat) (hdr : Bool) (t : List Nat)
    (h : decodeNHdr n ud L hdr = some t) : t.length + 1 ≤ n := by
  unfold decodeNHdr at h
  split at h
  · cases h
  · split at h
    · split at h
      · cases h
      · have := decodeLoop_room _ _ _ _ _ _ _ _ h
        omega
    · have := decodeLoop_room _ _ _ _ _ _ _ _ h
      omega

/-- Digits to the base 128 of a number, `n` of them, starting at digit `k`. -/
def digits128 (V k n : Nat) : List Nat := (List.range n).map fun i => V / 128 ^ (k + i) % 128

theorem digits128_length (V k n : Nat) : (digits128 V k n).length = n := by simp [digits128]

theorem digits128_get {V k n i : Nat} (h : i < n) : (digits128 V k n)[i]?.getD 0 = V / 128 ^ (k + i) % 128 := by
  simp [digits128, h]

/-- **C30**, what the decoder reads without header: for every array which holds
the `⌈7 L / 8⌉` octets announced, the text is that of digits `0 … L-1` to the
base 128, cut to the buffer; nothing outside of these octets is used. -/
theorem decodeN_spec (n : Nat) (ud : List Nat) (L : Nat) (hn : 0 < n) (hL : L < 256) (hb : ∀ x ∈ ud, x < 256)
    (hlen : (7 * L + 7) / 8 ≤ ud.length) :
    decodeN n ud L = some ((textOf baseChar extChar (digits128 (num 256 (ud.take ((7 * L + 7) / 8))) 0 L)).take (n - 1)) := by
  unfold decodeN decodeNHdr
  rw [if_neg (by omega), if_neg (by simp), getOctetLen_eq L hL]
  have := decodeLoop_spec ud ((7 * L + 7) / 8) 0 L (digits128 (num 256 (ud.take ((7 * L + 7) / 8))) 0 L) (n - 1)
    (by rw [digits128_length]) ?_ ?_
  · rw [digits128_length] at this
    exact this
  · intro i hi
    rw [digits128_length] at hi ⊢
    rw [digits128_get hi, septetAt_spec ud _ _ hlen hb (by omega)]
    simp
  · intro x hx
    simp only [digits128, List.mem_map] at hx
    obtain ⟨i, _, rfl⟩ := hx
    exact Nat.mod_lt _ (by decide)

theorem digits128_num {s : List Nat} (h : ∀ x ∈ s, x < 128) : digits128 (num 128 s) 0 s.length = s := by
  apply List.ext_getElem?
  intro i
  by_cases hi : i < s.length
  · have := num_digit (by decide) h i
    simp only [digits128, List.getElem?_map, List.getElem?_range hi, Option.map_some, Nat.zero_add]
    rw [this, List.getElem?_eq_getElem hi]; rfl
  · simp only [digits128]
    rw [List.getElem?_eq_none (by simp; omega), List.getElem?_eq_none (by omega)]

theorem map_mod_self {s : List Nat} (h : ∀ x ∈ s, x < 128) : s.map (· % 128) = s := by
  conv_rhs => rw [← List.map_id s]
  apply List.map_congr_left
  intro x hx
  simp [Nat.mod_eq_of_lt (h x hx)]

/-- **C30**, round trip without header: packed septets are read back. -/
theorem pack_decode (s : List Nat) (n : Nat) (hn : 0 < n) (hL : s.length < 256) (hs : ∀ x ∈ s, x < 128)
    (tail : List Nat) (ht : ∀ x ∈ tail, x < 256) :
    ∃ o, septetPack s 0 = some o ∧ o.length = (7 * s.length + 7) / 8 ∧
      decodeN n (o ++ tail) s.length = some ((textOf baseChar extChar s).take (n - 1)) := by
  obtain ⟨o, h1, h2, h3, h4⟩ := septetPack_spec s 0 (by omega)
  rw [Nat.add_zero] at h2
  refine ⟨o, h1, h2, ?_⟩
  rw [decodeN_spec n _ _ hn hL (by
    intro x hx
    rcases List.mem_append.1 hx with hx | hx
    · exact h3 x hx
    · exact ht x hx) (by simp; omega)]
  rw [show (o ++ tail).take ((7 * s.length + 7) / 8) = o by rw [← h2]; simp, h4, map_mod_self hs, Nat.pow_zero,
    Nat.one_mul, digits128_num hs]

example : septetPack [0x31, 0x1b, 0x3c, 0x00] 0 = some [0xb1, 0x0d, 0x0f, 0x00] ∧
    decodeN 16 [0xb1, 0x0d, 0x0f, 0x00] 4 = some [0x31, 0x5b, 0x40] := by decide +kernel

theorem hdrSeptets_eq (hl : Nat) : hdrSeptets hl = ((hl + 1) * 8 + 6) / 7 := by
  unfold hdrSeptets
  split <;> omega

theorem div_pad {h p S V D H : Nat} (hH : h < 256 ^ H) (hp : 8 * H + p = 7 * S) (hV : V = h + 256 ^ H * (2 ^ p * D)) (i : Nat) :
    V / 128 ^ (S + i) = D / 128 ^ i := by
  have e : 256 ^ H * 2 ^ p = 128 ^ S := by
    rw [show (256 : Nat) = 2 ^ 8 by rfl, show (128 : Nat) = 2 ^ 7 by rfl, ← Nat.pow_mul, ← Nat.pow_mul, ← Nat.pow_add, hp]
  have hlt : h < 128 ^ S := by
    rw [← e]
    exact Nat.lt_of_lt_of_le hH (Nat.le_mul_of_pos_right _ (Nat.two_pow_pos _))
  rw [Nat.pow_add, ← Nat.div_div_eq_div_mul, hV, ← Nat.mul_assoc, e,
    Nat.add_mul_div_left _ _ (Nat.pos_of_ne_zero (by positivity)), Nat.div_eq_of_lt hlt, Nat.zero_add]

/-- **C30**, round trip with a user data header (TS 23.040 9.2.3.24): septets
packed after the fill bits which align them to a septet boundary are read back
when the length counts the septets of the header as well. -/
theorem pack_decode_hdr (hl : Nat) (hd s : List Nat) (n : Nat) (hn : 0 < n) (hhd : hd.length = hl)
    (hhb : hl < 256 ∧ ∀ x ∈ hd, x < 256) (hL : hdrSeptets hl + s.length < 256) (hs : ∀ x ∈ s, x < 128) :
    ∃ o, septetPack s (7 * hdrSeptets hl - 8 * (hl + 1)) = some o ∧
      decodeNHdr n (hl :: hd ++ o) (hdrSeptets hl + s.length) true =
        some ((textOf baseChar extChar s).take (n - 1)) := by
  have hS := hdrSeptets_eq hl
  obtain ⟨o, h1, h2, h3, h4⟩ := septetPack_spec s (7 * hdrSeptets hl - 8 * (hl + 1)) (by omega)
  refine ⟨o, h1, ?_⟩
  rw [map_mod_self hs] at h4
  have hall : ∀ x ∈ hl :: hd ++ o, x < 256 := by
    intro x hx
    rcases List.mem_append.1 hx with hx | hx
    · rcases List.mem_cons.1 hx with hx | hx
      · rw [hx]; exact hhb.1
      · exact hhb.2 x hx
    · exact h3 x hx
  have hlen : (hl :: hd ++ o).length = (7 * (hdrSeptets hl + s.length) + 7) / 8 := by
    simp only [List.length_append, List.length_cons, hhd, h2]; omega
  unfold decodeNHdr
  rw [if_neg (by omega), if_pos rfl]
  simp only [List.cons_append, List.getElem?_cons_zero]
  rw [getOctetLen_eq _ hL]
  have hsl : (((hdrSeptets hl + s.length : Nat) : Int) - (hdrSeptets hl : Int)) % 256 = s.length := by
    rw [Int.emod_eq_of_lt] <;> omega
  rw [hsl]
  simp only [Int.toNat_natCast]
  apply decodeLoop_spec _ _ _ _ _ _ (Nat.le_refl _)
  · intro i hi
    rw [← List.cons_append]
    rw [septetAt_spec _ _ _ (by omega) hall (by omega)]
    congr 1
    rw [List.take_of_length_le (by omega), show s.length - s.length + i + hdrSeptets hl = hdrSeptets hl + i by omega]
    rw [div_pad (h := num 256 (hl :: hd)) (p := 7 * hdrSeptets hl - 8 * (hl + 1)) (D := num 128 s) (H := hl + 1)
      ?_ (by omega) ?_ i]
    · exact num_digit (by decide) hs i
    · have := num_lt (b := 256) (by decide) (xs := hl :: hd) (by
        intro x hx
        rcases List.mem_cons.1 hx with hx | hx
        · rw [hx]; exact hhb.1
        · exact hhb.2 x hx)
      rwa [List.length_cons, hhd] at this
    · rw [num_append, List.length_cons, hhd, h4]
  · exact hs

example : septetPack [0x61, 0x62] (7 * hdrSeptets 5 - 8 * 6) = some [0xc2, 0x62] ∧
    decodeNHdr 10 [5, 0, 3, 1, 2, 1, 0xc2, 0x62] 9 true = some [0x61, 0x62] := by decide +kernel

/-- **C30**, finding: the length of the user data header is not checked against
the data.  A header length of 10 in a message of 2 septets makes the number of
septets wrap around, and the decoder reads octets the message does not have. -/
theorem decodeNHdr_oob_counterexample :
    decodeNHdr 160 [10, 0] 2 true = none ∧ hdrSeptets 10 > 2 := by decide +kernel

end Verif.GsmUtils
