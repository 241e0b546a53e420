import Verif.GsmUtils.TextProps
/-!
Characters of 7 bit text (C63) and the USSD variants (C64).
-/
namespace Verif.GsmUtils
open Verif

/-! ### The alphabet of TS 23.038 -/

/-- TS 23.038 6.2.1 and 6.2.1.1: septets of the characters of the default
alphabet and of its extension which exist in Latin-1 (the Greek letters and the
euro sign do not). -/
def stdSeptets (c : Nat) : Option (List Nat) :=
  if 0x20 ≤ c ∧ c ≤ 0x7a ∧ c ≠ 0x24 ∧ c ≠ 0x40 ∧ c ≠ 0x60 ∧ ¬ (0x5b ≤ c ∧ c ≤ 0x5f) then some [c]
  else if c = 0x40 then some [0x00] else if c = 0xa3 then some [0x01] else if c = 0x24 then some [0x02]
  else if c = 0xa5 then some [0x03] else if c = 0xe8 then some [0x04] else if c = 0xe9 then some [0x05]
  else if c = 0xf9 then some [0x06] else if c = 0xec then some [0x07] else if c = 0xf2 then some [0x08]
  else if c = 0xc7 then some [0x09] else if c = 0x0a then some [0x0a] else if c = 0xd8 then some [0x0b]
  else if c = 0xf8 then some [0x0c] else if c = 0x0d then some [0x0d] else if c = 0xc5 then some [0x0e]
  else if c = 0xe5 then some [0x0f] else if c = 0x5f then some [0x11] else if c = 0xc6 then some [0x1c]
  else if c = 0xe6 then some [0x1d] else if c = 0xdf then some [0x1e] else if c = 0xc9 then some [0x1f]
  else if c = 0xa4 then some [0x24] else if c = 0xa1 then some [0x40] else if c = 0xc4 then some [0x5b]
  else if c = 0xd6 then some [0x5c] else if c = 0xd1 then some [0x5d] else if c = 0xdc then some [0x5e]
  else if c = 0xa7 then some [0x5f] else if c = 0xbf then some [0x60] else if c = 0xe4 then some [0x7b]
  else if c = 0xf6 then some [0x7c] else if c = 0xf1 then some [0x7d] else if c = 0xfc then some [0x7e]
  else if c = 0xe0 then some [0x7f]
  else if c = 0x0c then some [0x1b, 0x0a] else if c = 0x5e then some [0x1b, 0x14]
  else if c = 0x7b then some [0x1b, 0x28] else if c = 0x7d then some [0x1b, 0x29]
  else if c = 0x5c then some [0x1b, 0x2f] else if c = 0x5b then some [0x1b, 0x3c]
  else if c = 0x7e then some [0x1b, 0x3d] else if c = 0x5d then some [0x1b, 0x3e]
  else if c = 0x7c then some [0x1b, 0x40] else none

/-- The characters of the alphabet which survive encoding and decoding:
line feed, carriage return, printable ASCII without the grave accent,
£ ¥ Å Æ Ç É Ø ß à å æ è é ì ò ù. -/
def Survives (c : Nat) : Prop :=
  c = 0x0a ∨ c = 0x0d ∨ (0x20 ≤ c ∧ c ≤ 0x7e ∧ c ≠ 0x60) ∨
    c ∈ [0xa3, 0xa5, 0xc5, 0xc6, 0xc7, 0xc9, 0xd8, 0xdf, 0xe0, 0xe5, 0xe6, 0xe8, 0xe9, 0xec, 0xf2, 0xf9]

instance : DecidablePred Survives := fun c => by unfold Survives; infer_instance

/-- **C63**, the encoder: every character of the alphabet other than ¤ § ¿ and
form feed gets the septets of TS 23.038. -/
theorem septetEncode_char : ∀ c < 255, ∀ s, stdSeptets c = some s → c ∉ [0xa4, 0xa7, 0xbf, 0x0c] →
    septetEncode [c] = some s := by
  have : ∀ c < 255, c ∉ [0xa4, 0xa7, 0xbf, 0x0c] → ∀ s ∈ (stdSeptets c).toList, septetEncode [c] = some s := by
    decide +kernel
  intro c hc s hs hn
  exact this c hc hn s (by simp [hs])

example : stdSeptets 0xe4 = some [0x7b] ∧ septetEncode [0xe4, 0x7b] = some [0x7b, 0x1b, 0x28] := by decide +kernel

/-- **C63**, findings in the table: the septets of §, ¿ and form feed are not
those of TS 23.038, ¤ is missing, and there is no entry for character 0xff
(read beyond the table). -/
theorem septetEncode_counterexample :
    septetEncode [0xa7] = some [0x7b] ∧ stdSeptets 0xa7 = some [0x5f] ∧
    septetEncode [0xbf] = some [0x7c] ∧ stdSeptets 0xbf = some [0x60] ∧
    septetEncode [0x0c] = some [0x1b, 0xff] ∧ stdSeptets 0x0c = some [0x1b, 0x0a] ∧
    septetEncode [0xa4] = some [0xff] ∧ septetEncode [0xff] = none := by decide +kernel

theorem septetEncode_cons (c : Nat) (t : List Nat) :
    septetEncode (c :: t) = (septetEncode [c]).bind fun a => (septetEncode t).map (a ++ ·) := by
  simp only [septetEncode]
  cases alphabet[c]? with
  | none => simp
  | some v => cases septetEncode t with
    | none => simp
    | some r => simp only [Option.bind_some, Option.map_some]; split <;> simp

/-- The encoder works character by character. -/
theorem septetEncode_append (t u : List Nat) :
    septetEncode (t ++ u) = (septetEncode t).bind fun a => (septetEncode u).map (a ++ ·) := by
  induction t with
  | nil => simp [septetEncode]
  | cons c t ih =>
    rw [List.cons_append, septetEncode_cons, ih, septetEncode_cons c t]
    cases septetEncode [c] <;> cases septetEncode t <;> cases septetEncode u <;> simp

theorem survives_char : ∀ c < 256, Survives c →
    (∃ v, v < 128 ∧ v ≠ 0x1b ∧ septetEncode [c] = some [v] ∧ baseChar v = c) ∨
    (∃ v, v < 128 ∧ septetEncode [c] = some [0x1b, v] ∧ extChar v = c) := by
  have : ∀ c < 256, Survives c →
      (∃ v, v < 128 ∧ v ≠ 0x1b ∧ septetEncode [c] = some [v] ∧ baseChar v = c) ∨
      (∃ v, v < 128 ∧ septetEncode [c] = some [0x1b, v] ∧ extChar v = c) := by
    decide +kernel
  exact this

theorem survives_lt {c : Nat} (h : Survives c) : c < 256 := by
  rcases h with h | h | h | h
  · omega
  · omega
  · omega
  · simp only [List.mem_cons, List.not_mem_nil, or_false] at h; omega

theorem textOf_cons {b e : Nat → Nat} {x : Nat} (h : x ≠ 0x1b) (r : List Nat) :
    textOf b e (x :: r) = b x :: textOf b e r := by
  cases r with
  | nil => simp [textOf]
  | cons y r => simp [textOf, h]

/-- Septets of a text of surviving characters, and what they decode to. -/
theorem encode_survives (t : List Nat) (ht : ∀ c ∈ t, Survives c) (post : List Nat) :
    ∃ s, septetEncode t = some s ∧ (∀ x ∈ s, x < 128) ∧ t.length ≤ s.length ∧
      textOf baseChar extChar (s ++ post) = t ++ textOf baseChar extChar post := by
  induction t with
  | nil => exact ⟨[], rfl, by simp, by simp, by simp⟩
  | cons c t ih =>
    obtain ⟨s, h1, h2, h3, h4⟩ := ih fun x hx => ht x (List.mem_cons_of_mem _ hx)
    have hc := ht c (List.mem_cons_self ..)
    rw [septetEncode_cons, h1]
    rcases survives_char c (survives_lt hc) hc with ⟨v, hv, hne, he, hb⟩ | ⟨v, hv, he, hb⟩
    · refine ⟨v :: s, by simp [he], ?_, by simp; omega, ?_⟩
      · intro x hx
        rcases List.mem_cons.1 hx with hx | hx
        · rw [hx]; exact hv
        · exact h2 x hx
      · rw [List.cons_append, textOf_cons hne, h4, hb]; rfl
    · refine ⟨0x1b :: v :: s, by simp [he], ?_, by simp; omega, ?_⟩
      · intro x hx
        rcases List.mem_cons.1 hx with hx | hx
        · rw [hx]; decide
        · rcases List.mem_cons.1 hx with hx | hx
          · rw [hx]; exact hv
          · exact h2 x hx
      · simp only [List.cons_append, textOf, if_true, h4, hb]

/-- **C63**, round trip: text of surviving characters which fits is decoded to
itself from its septet count, and the octets are the packed septets of
TS 23.038. -/
theorem text_roundtrip_partial (t : List Nat) (ht : ∀ c ∈ t, Survives c) (s : List Nat)
    (hs : septetEncode t = some s) (n m : Nat) (hfit : s.length ≤ n * 8 / 7) (hL : s.length < 256)
    (hm : t.length < m) :
    ∃ o, encodeN n t = some (s.length, o) ∧ o.length = (7 * s.length + 7) / 8 ∧ o.length ≤ n ∧
      num 256 o = num 128 s ∧ decodeN m o s.length = some t := by
  obtain ⟨s', h1, h2, h3, h4⟩ := encode_survives t ht []
  rw [hs] at h1
  cases h1
  rw [List.append_nil, textOf, List.append_nil] at h4
  obtain ⟨o, g1, g2, g3⟩ := pack_decode s m (by omega) hL h2 [] (by simp)
  obtain ⟨o', k1, k2, k3, k4⟩ := septetPack_spec s 0 (by omega)
  rw [g1] at k1
  cases k1
  refine ⟨o, ?_, g2, by omega, ?_, ?_⟩
  · simp only [encodeN, hs]
    rw [if_neg (by omega)]
    simp [g1]
  · rw [k4, map_mod_self h2]; simp
  · rw [List.append_nil, h4, List.take_of_length_le (by omega)] at g3
    exact g3

example : encodeN 20 [0x61, 0x5b, 0xe9, 0x40] = some (5, [0xe1, 0x0d, 0xaf, 0x00, 0x00]) ∧
    decodeN 20 [0xe1, 0x0d, 0xaf, 0x00, 0x00] 5 = some [0x61, 0x5b, 0xe9, 0x40] := by decide +kernel

/-- **C63**, finding: the table serves both directions, and the entries for the
reverse direction hide other characters.  Ä Ö Ñ Ü ¡ ø ä ö ñ ü are encoded as in
TS 23.038 but decoded as » ® ½ 0x93 | 0x89 § ¿ ¨ ¼. -/
theorem text_roundtrip_counterexample :
    (∀ p ∈ [(0xc4, 0xbb), (0xd6, 0xae), (0xd1, 0xbd), (0xdc, 0x93), (0xa1, 0x7c), (0xf8, 0x89), (0xe4, 0xa7),
      (0xf6, 0xbf), (0xf1, 0xa8), (0xfc, 0xbc)],
      stdSeptets p.1 = septetEncode [p.1] ∧
      (encodeN 1 [p.1]).bind (fun r => decodeN 10 r.2 r.1) = some [p.2]) := by decide +kernel

/-- **C63**: the encoder never stores more than `n` octets, whatever the text. -/
theorem encodeN_fits (n : Nat) (t : List Nat) (y : Nat) (o : List Nat) (h : encodeN n t = some (y, o)) :
    o.length ≤ n ∧ o.length = (7 * y + 7) / 8 := by
  unfold encodeN at h
  split at h
  · cases h
  · rename_i rdata _
    simp only [Option.map_eq_some_iff] at h
    obtain ⟨o', h1, h2⟩ := h
    cases h2
    obtain ⟨o2, k1, k2, _⟩ := septetPack_spec
      (rdata.take (if rdata.length > n * 8 / 7 then n * 8 / 7 else rdata.length)) 0 (by omega)
    rw [h1] at k1
    cases k1
    rw [k2, List.length_take]
    split <;> omega

/-! ### USSD -/

theorem num_single (b x : Nat) : num b [x] = x := by simp [num]

/-- The upper seven bits of the last octet of packed septets. -/
theorem last_octet (s0 : List Nat) (z : Nat) (hs : ∀ x ∈ s0, x < 128) (hz : z < 128) (o : List Nat)
    (ho : septetPack (s0 ++ [z]) 0 = some o) :
    ∃ x, o[o.length - 1]? = some x ∧ o.getLast? = some x ∧ x >>> 1 = z / 2 ^ ((s0.length + 1) % 8) := by
  have hall : ∀ x ∈ s0 ++ [z], x < 128 := by
    intro x hx
    rcases List.mem_append.1 hx with hx | hx
    · exact hs x hx
    · rw [List.mem_singleton] at hx; rw [hx]; exact hz
  obtain ⟨o', k1, k2, k3, k4⟩ := septetPack_spec (s0 ++ [z]) 0 (by omega)
  rw [ho] at k1
  cases k1
  rw [map_mod_self hall, num_append, num_single, Nat.pow_zero, Nat.one_mul] at k4
  simp only [List.length_append, List.length_cons, List.length_nil] at k2
  have hlen : o.length - 1 < o.length := by omega
  refine ⟨o[o.length - 1], List.getElem?_eq_getElem hlen, ?_, ?_⟩
  · rw [List.getLast?_eq_getElem?, List.getElem?_eq_getElem hlen]
  · have hd := num_drop (b := 256) (by decide) k3 (o.length - 1)
    rw [List.drop_eq_getElem_cons hlen, List.drop_eq_nil_iff.2 (by omega), num_single] at hd
    rw [← hd, k4, Nat.shiftRight_eq_div_pow, Nat.div_div_eq_div_mul]
    have hA : num 128 s0 < 128 ^ s0.length := num_lt (by decide) hs
    have e : 256 ^ (o.length - 1) * 2 ^ 1 = 128 ^ s0.length * 2 ^ ((s0.length + 1) % 8) := by
      rw [show (256 : Nat) = 2 ^ 8 by rfl, show (128 : Nat) = 2 ^ 7 by rfl, ← Nat.pow_mul, ← Nat.pow_mul, ← Nat.pow_add,
        ← Nat.pow_add]
      congr 1; omega
    rw [e, ← Nat.div_div_eq_div_mul, Nat.add_mul_div_left _ _ (Nat.pos_of_ne_zero (by positivity)),
      Nat.div_eq_of_lt hA, Nat.zero_add]

/-- Filling seven spare bits of the last octet with <CR> packs one septet more. -/
theorem orLast_pack (s o : List Nat) (hs : ∀ x ∈ s, x < 128) (h7 : s.length % 8 = 7) (ho : septetPack s 0 = some o) :
    septetPack (s ++ [0x0d]) 0 = some (orLast o (0x0d <<< 1)) := by
  obtain ⟨o', k1, k2, k3, k4⟩ := septetPack_spec s 0 (by omega)
  rw [ho] at k1
  cases k1
  rw [map_mod_self hs, Nat.pow_zero, Nat.one_mul] at k4
  have hall : ∀ x ∈ s ++ [0x0d], x < 128 := by
    intro x hx
    rcases List.mem_append.1 hx with hx | hx
    · exact hs x hx
    · rw [List.mem_singleton] at hx; rw [hx]; decide
  obtain ⟨o2, m1, m2, m3, m4⟩ := septetPack_spec (s ++ [0x0d]) 0 (by omega)
  rw [map_mod_self hall, num_append, num_single, Nat.pow_zero, Nat.one_mul] at m4
  rw [m1]
  congr 1
  have hne : o ≠ [] := by intro h; rw [h] at k2; simp at k2; omega
  obtain ⟨init, x, rfl⟩ : ∃ init x, o = init ++ [x] := ⟨o.dropLast, o.getLast hne, (List.dropLast_concat_getLast hne).symm⟩
  rw [num_append, num_single] at k4
  simp only [List.length_append, List.length_cons, List.length_nil] at k2 m2
  have hpow : (128 : Nat) ^ s.length = 256 ^ init.length * 2 := by
    rw [show (256 : Nat) = 2 ^ 8 by rfl, show (128 : Nat) = 2 ^ 7 by rfl, ← Nat.pow_mul, ← Nat.pow_mul, ← Nat.pow_succ]
    congr 1; omega
  have hx : x < 2 := by
    have h1 : num 128 s < 128 ^ s.length := num_lt (by decide) hs
    rw [hpow] at h1
    by_contra h
    have : 256 ^ init.length * 2 ≤ 256 ^ init.length * x := Nat.mul_le_mul_left _ (by omega)
    omega
  have hor : orLast (init ++ [x]) (0x0d <<< 1) = init ++ [x ||| 26] := by
    have : ∀ (l : List Nat) (y : Nat), (l ++ [y]).modify l.length (· ||| 26) = l ++ [y ||| 26] := by
      intro l y
      induction l with
      | nil => rfl
      | cons a l ih => simp only [List.cons_append, List.length_cons, List.modify_succ_cons, ih]
    simpa [orLast] using this init x
  have hx26 : x ||| 26 = x + 26 := by
    have : x = 0 ∨ x = 1 := by omega
    rcases this with rfl | rfl <;> decide
  rw [hor, hx26]
  apply num_inj (b := 256) (by decide) m3
  · intro y hy
    rcases List.mem_append.1 hy with hy | hy
    · exact k3 y (List.mem_append_left _ hy)
    · rw [List.mem_singleton] at hy; omega
  · simp; omega
  · rw [m4, num_append, num_single, ← k4, hpow]; ring

/-- An octet <CR> after full octets packs one septet more. -/
theorem append_pack (s o : List Nat) (hs : ∀ x ∈ s, x < 128) (h0 : s.length % 8 = 0) (ho : septetPack s 0 = some o) :
    septetPack (s ++ [0x0d]) 0 = some (o ++ [0x0d]) := by
  obtain ⟨o', k1, k2, k3, k4⟩ := septetPack_spec s 0 (by omega)
  rw [ho] at k1
  cases k1
  rw [map_mod_self hs, Nat.pow_zero, Nat.one_mul] at k4
  have hall : ∀ x ∈ s ++ [0x0d], x < 128 := by
    intro x hx
    rcases List.mem_append.1 hx with hx | hx
    · exact hs x hx
    · rw [List.mem_singleton] at hx; rw [hx]; decide
  obtain ⟨o2, m1, m2, m3, m4⟩ := septetPack_spec (s ++ [0x0d]) 0 (by omega)
  rw [map_mod_self hall, num_append, num_single, Nat.pow_zero, Nat.one_mul] at m4
  rw [m1]
  congr 1
  simp only [List.length_append, List.length_cons, List.length_nil] at m2
  have hpow : (128 : Nat) ^ s.length = 256 ^ o.length := by
    rw [show (256 : Nat) = 2 ^ 8 by rfl, show (128 : Nat) = 2 ^ 7 by rfl, ← Nat.pow_mul, ← Nat.pow_mul]
    congr 1; omega
  apply num_inj (b := 256) (by decide) m3
  · intro y hy
    rcases List.mem_append.1 hy with hy | hy
    · exact k3 y hy
    · rw [List.mem_singleton] at hy; omega
  · simp; omega
  · rw [m4, num_append, num_single, k4, hpow]

/-- Decoding packed septets as USSD: the last character is dropped exactly when
the upper bits of the last octet happen to be <CR>. -/
theorem ussd_decode (s0 : List Nat) (z : Nat) (hs : ∀ x ∈ s0, x < 128) (hz : z < 128) (m : Nat)
    (hL : s0.length + 1 < 256) (t : List Nat) (ht : textOf baseChar extChar (s0 ++ [z]) = t) (hne : t ≠ [])
    (hm : t.length < m) (o : List Nat) (ho : septetPack (s0 ++ [z]) 0 = some o) :
    decodeNUssd m o (s0.length + 1) =
      some (if z / 2 ^ ((s0.length + 1) % 8) = 0x0d then t.dropLast else t) := by
  have hall : ∀ x ∈ s0 ++ [z], x < 128 := by
    intro x hx
    rcases List.mem_append.1 hx with hx | hx
    · exact hs x hx
    · rw [List.mem_singleton] at hx; rw [hx]; exact hz
  obtain ⟨o', g1, g2, g3⟩ := pack_decode (s0 ++ [z]) m (by omega) (by simpa using hL) hall [] (by simp)
  rw [ho] at g1
  cases g1
  obtain ⟨x, l1, l2, l3⟩ := last_octet s0 z hs hz o ho
  rw [List.append_nil, ht, List.take_of_length_le (by omega)] at g3
  have hl : (s0 ++ [z]).length = s0.length + 1 := by simp
  rw [hl] at g2 g3
  unfold decodeNUssd
  have g4 : decodeNHdr m o (s0.length + 1) false = some t := g3
  rw [g4]
  simp only [if_neg hne, getOctetLen_eq _ hL, ← g2, l1, l3]
  split <;> rfl

theorem and7_eq (y : Nat) : (y * 7) &&& 7 = y * 7 % 8 := and7 _

/-- **C64**: text of surviving characters, encoded for USSD into a buffer with
an octet to spare and decoded with the length `octets * 8 / 7` of the header
file's advice:
* with seven spare bits the padding <CR> is removed again;
* a final <CR> on an octet boundary is doubled (as TS 23.038 6.1.2.3.1 wants);
* otherwise the text is returned unchanged, unless the upper seven bits of the
  last octet, a part of the last character, equal <CR>: then the last character
  is lost. -/
theorem ussd_roundtrip_partial (t : List Nat) (ht : ∀ c ∈ t, Survives c) (hne : t ≠ []) (s : List Nat)
    (hs : septetEncode t = some s) (n m : Nat) (hfit : (7 * s.length + 7) / 8 + 1 < n) (hL : s.length + 1 < 256)
    (hm : t.length + 1 < m) :
    ∃ y o, encodeNUssd n t = some (y, o) ∧ o.length ≤ n ∧
      decodeNUssd m o (o.length * 8 / 7) = some
        (if s.length % 8 = 7 then t
         else if s.length % 8 = 0 ∧ s.getLast? = some 0x0d then t ++ [0x0d]
         else if s.getLast?.getD 0 / 2 ^ (s.length % 8) = 0x0d then t.dropLast
         else t) := by
  obtain ⟨s', h1, h2, h3, h4⟩ := encode_survives t ht []
  rw [hs] at h1
  cases h1
  rw [List.append_nil, textOf, List.append_nil] at h4
  obtain ⟨s'', h1', _, _, h4'⟩ := encode_survives t ht [0x0d]
  rw [hs] at h1'
  cases h1'
  have hcr : textOf baseChar extChar (s ++ [0x0d]) = t ++ [0x0d] := by
    rw [h4', show textOf baseChar extChar [0x0d] = [0x0d] by decide +kernel]
  have hsne : s ≠ [] := by
    intro h
    have := List.length_pos_iff.2 hne
    rw [h] at h3; simp at h3; exact hne h3
  have hspos : 0 < s.length := List.length_pos_iff.2 hsne
  obtain ⟨s0, z, rfl⟩ : ∃ s0 z, s = s0 ++ [z] := ⟨s.dropLast, s.getLast hsne, (List.dropLast_concat_getLast hsne).symm⟩
  have hs0 : ∀ x ∈ s0, x < 128 := fun x hx => h2 x (List.mem_append_left _ hx)
  have hz : z < 128 := h2 z (by simp)
  obtain ⟨o, g1, g2, g3, _⟩ := septetPack_spec (s0 ++ [z]) 0 (by omega)
  obtain ⟨x, l1, l2, l3⟩ := last_octet s0 z hs0 hz o g1
  have henc : encodeN n t = some ((s0 ++ [z]).length, o) := by
    simp only [encodeN, hs]
    rw [if_neg (by omega), List.take_of_length_le (Nat.le_refl _), g1]
    rfl
  have hlast : (s0 ++ [z]).getLast? = some z := by simp
  have hlen : (s0 ++ [z]).length = s0.length + 1 := by simp
  rw [hlast, Option.getD_some]
  unfold encodeNUssd
  rw [henc]
  simp only [and7_eq]
  rw [hlen] at hfit hL h3 g2 ⊢
  by_cases h7 : (s0.length + 1) % 8 = 7
  · have hp := orLast_pack (s0 ++ [z]) o h2 (by rw [hlen]; exact h7) g1
    have hol : (orLast o (0x0d <<< 1)).length = o.length := by simp [orLast]
    rw [if_pos (show (s0.length + 1) * 7 % 8 = 1 by omega), if_neg (by omega), if_pos h7]
    refine ⟨_, _, rfl, by rw [hol]; omega, ?_⟩
    have hd := ussd_decode (s0 ++ [z]) 0x0d h2 (by decide) m (by rw [hlen]; omega) (t ++ [0x0d]) hcr (by simp)
      (by simp; omega) _ hp
    rw [hlen] at hd
    rw [hol, show o.length * 8 / 7 = s0.length + 1 + 1 by omega, hd, show (s0.length + 1 + 1) % 8 = 0 by omega]
    simp
  · rw [if_neg (show ¬ (s0.length + 1) * 7 % 8 = 1 by omega), if_neg h7, l2, Option.getD_some]
    by_cases h0 : (s0.length + 1) % 8 = 0 ∧ z = 0x0d
    · have hx : x >>> 1 = 0x0d := by rw [l3, h0.1, h0.2]; rfl
      rw [if_pos ⟨by omega, by omega, hx, by omega⟩, if_pos ⟨h0.1, by rw [h0.2]⟩]
      have hp := append_pack (s0 ++ [z]) o h2 (by rw [hlen]; exact h0.1) g1
      refine ⟨_, _, rfl, by simp; omega, ?_⟩
      have hd := ussd_decode (s0 ++ [z]) 0x0d h2 (by decide) m (by rw [hlen]; omega) (t ++ [0x0d]) hcr (by simp)
        (by simp; omega) _ hp
      rw [hlen] at hd
      rw [List.length_append, List.length_singleton, show (o.length + 1) * 8 / 7 = s0.length + 1 + 1 by omega, hd,
        show (s0.length + 1 + 1) % 8 = 1 by omega]
      simp
    · have hx : ¬ ((s0.length + 1) * 7 % 8 = 0 ∧ x >>> 1 = 0x0d) := by
        intro ⟨ha, hb⟩
        apply h0
        have : (s0.length + 1) % 8 = 0 := by omega
        rw [l3, this] at hb
        exact ⟨this, by simpa using hb⟩
      rw [if_neg (by intro h; exact hx ⟨h.2.1, h.2.2.1⟩), if_neg (by
        intro h; apply h0; exact ⟨h.1, by simpa using h.2⟩)]
      refine ⟨_, _, rfl, by omega, ?_⟩
      have hk : o.length * 8 / 7 = s0.length + 1 := by
        obtain ⟨k, r, hk, hr⟩ : ∃ k r, s0.length + 1 = 8 * k + r ∧ r < 7 :=
          ⟨(s0.length + 1) / 8, (s0.length + 1) % 8, by omega, by omega⟩
        have : o.length = 7 * k + r := by omega
        omega
      rw [hk]
      exact ussd_decode s0 z hs0 hz m (by omega) t h4 hne (by omega) o g1

/-- **C64**, finding: the decoder does not check that the <CR> it removes is a
whole character.  "foo" decodes to "fo", "44" to "4". -/
theorem ussd_roundtrip_counterexample :
    encodeNUssd 100 [0x66, 0x6f, 0x6f] = some (3, [0xe6, 0xf7, 0x1b]) ∧
    decodeNUssd 100 [0xe6, 0xf7, 0x1b] 3 = some [0x66, 0x6f] ∧
    encodeNUssd 100 [0x34, 0x34] = some (2, [0x34, 0x1a]) ∧ decodeNUssd 100 [0x34, 0x1a] 2 = some [0x34] := by
  decide +kernel

example : encodeNUssd 100 [0x61, 0x62, 0x63, 0x64, 0x65, 0x66, 0x67] =
      some (7, [0x61, 0xf1, 0x98, 0x5c, 0x36, 0x9f, 0x1b]) ∧
    decodeNUssd 100 [0x61, 0xf1, 0x98, 0x5c, 0x36, 0x9f, 0x1b] 8 =
      some [0x61, 0x62, 0x63, 0x64, 0x65, 0x66, 0x67] := by decide +kernel

end Verif.GsmUtils
