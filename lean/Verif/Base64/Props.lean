import Verif.Base64.Model
import Mathlib.Tactic.ByContra
/-!
C44: base64.
-/
namespace Verif.Base64
open Verif

/-! ### What base64 is -/

/-- The alphabet of RFC 4648. -/
def alphabet (i : Nat) : Byte :=
  if i < 26 then BitVec.ofNat 8 (65 + i)
  else if i < 52 then BitVec.ofNat 8 (97 + (i - 26))
  else if i < 62 then BitVec.ofNat 8 (48 + (i - 52))
  else if i = 62 then 43 else 47

/-- A character of the alphabet. -/
def IsSym (c : Byte) : Prop := ∃ i, i < 64 ∧ c = alphabet i

/-- Bytes as digits of a number. -/
def num3 (a b c : Byte) : Nat := a.toNat * 65536 + b.toNat * 256 + c.toNat

/-- The encoding: three bytes are four digits to the base 64; missing bytes are
zero, and the digits without a bit of the data are `=`. -/
inductive Encoded : List Byte → List Byte → Prop
  | nil : Encoded [] []
  | one (a : Byte) : Encoded [a] [alphabet (num3 a 0 0 / 262144), alphabet (num3 a 0 0 / 4096 % 64), 61, 61]
  | two (a b : Byte) : Encoded [a, b]
      [alphabet (num3 a b 0 / 262144), alphabet (num3 a b 0 / 4096 % 64), alphabet (num3 a b 0 / 64 % 64), 61]
  | three {s t} (a b c : Byte) (h : Encoded s t) : Encoded (a :: b :: c :: s)
      (alphabet (num3 a b c / 262144) :: alphabet (num3 a b c / 4096 % 64) :: alphabet (num3 a b c / 64 % 64) ::
        alphabet (num3 a b c % 64) :: t)

/-- A text in lines: characters, with spaces before the end of a line and of the
text. -/
inductive Text : List Byte → List Byte → Prop
  | nil (k : Nat) : Text (List.replicate k 32) []
  | eol {s t} (k : Nat) (h : Text s t) : Text (List.replicate k 32 ++ 10 :: s) t
  | crlf {s t} (k : Nat) (h : Text s t) : Text (List.replicate k 32 ++ 13 :: 10 :: s) t
  | sym {s t} (c : Byte) (hc : IsSym c ∨ c = 61) (h : Text s t) : Text (c :: s) (c :: t)

/-! ### Tables -/

theorem enc_eq (i : Nat) (h : i < 64) : enc i = alphabet i := by
  have key : ∀ i : Fin 64, enc i.val = alphabet i.val := by decide
  exact key ⟨i, h⟩

theorem enc_mod (i : Nat) : enc i = alphabet (i % 64) := by
  rw [← enc_eq (i % 64) (Nat.mod_lt _ (by decide))]
  unfold enc
  have h1 : ∀ i : Nat, i &&& 0x3F = i % 64 := fun i => Nat.and_two_pow_sub_one_eq_mod i 6
  rw [h1, h1, Nat.mod_mod]

theorem dec_alphabet (i : Nat) (h : i < 64) : dec (alphabet i) = i := by
  have key : ∀ i : Fin 64, dec (alphabet i.val) = i.val := by decide
  exact key ⟨i, h⟩

theorem dec_cases (c : Byte) : (IsSym c ∧ dec c < 64 ∧ c.toNat ≤ 127 ∧ c ≠ 61 ∧ c ≠ 32 ∧ c ≠ 10 ∧ c ≠ 13) ∨
    (c = 61 ∧ dec c = 64) ∨ (dec c = 127 ∧ ¬ IsSym c ∧ c ≠ 61) := by
  have key : ∀ n : Fin 256, ((∃ i : Fin 64, BitVec.ofNat 8 n.val = alphabet i.val) ∧ dec (BitVec.ofNat 8 n.val) < 64 ∧
      n.val ≤ 127 ∧ n.val ≠ 61 ∧ n.val ≠ 32 ∧ n.val ≠ 10 ∧ n.val ≠ 13) ∨
      (n.val = 61 ∧ dec (BitVec.ofNat 8 n.val) = 64) ∨ (dec (BitVec.ofNat 8 n.val) = 127 ∧ n.val ≠ 61) := by
    decide +kernel
  have hc : BitVec.ofNat 8 c.toNat = c := by simp
  have hne : ∀ k : Nat, k < 256 → c.toNat ≠ k → c ≠ BitVec.ofNat 8 k := by
    intro k hk h h'
    apply h
    rw [h']
    simp [Nat.mod_eq_of_lt hk]
  rcases key ⟨c.toNat, c.isLt⟩ with ⟨⟨i, h1⟩, h2, h3, h4, h5, h6, h7⟩ | ⟨h1, h2⟩ | ⟨h1, h2⟩
  · simp only [hc] at h1 h2 h3 h4 h5 h6 h7
    exact Or.inl ⟨⟨i.val, i.isLt, h1⟩, h2, h3, hne 61 (by omega) h4, hne 32 (by omega) h5, hne 10 (by omega) h6,
      hne 13 (by omega) h7⟩
  · simp only [hc] at h1 h2
    refine Or.inr (Or.inl ⟨?_, h2⟩)
    rw [← hc, h1]
    rfl
  · simp only [hc] at h1 h2
    refine Or.inr (Or.inr ⟨h1, ?_, hne 61 (by omega) h2⟩)
    rintro ⟨i, hi, rfl⟩
    rw [dec_alphabet i hi] at h1
    omega

theorem sym_dec {c : Byte} (h : IsSym c) :
    dec c < 64 ∧ c.toNat ≤ 127 ∧ c ≠ 61 ∧ c ≠ 32 ∧ c ≠ 10 ∧ c ≠ 13 := by
  rcases dec_cases c with ⟨_, h'⟩ | ⟨h1, h2⟩ | ⟨_, h', _⟩
  · exact h'
  · obtain ⟨i, hi, rfl⟩ := h
    rw [dec_alphabet i hi] at h2
    omega
  · exact absurd h h'

/-! ### Encoding -/

theorem encChars_encoded : ∀ s : List Byte, Encoded s (encChars s)
  | [] => .nil
  | [a] => by
    have h := Encoded.one a
    have ha := a.isLt
    unfold encChars
    rw [enc_mod, enc_mod, Nat.and_two_pow_sub_one_eq_mod a.toNat 2, Nat.shiftRight_eq_div_pow, Nat.shiftLeft_eq]
    have e1 : a.toNat / 2 ^ 2 % 64 = num3 a 0 0 / 262144 := by
      unfold num3
      rw [show (0 : Byte).toNat = 0 from rfl]
      omega
    have e2 : (a.toNat % 2 ^ 2 * 2 ^ 4 + 0 >>> 4) % 64 = num3 a 0 0 / 4096 % 64 := by
      unfold num3
      rw [show (0 : Byte).toNat = 0 from rfl, Nat.zero_shiftRight]
      omega
    rw [e1, e2]
    exact h
  | [a, b] => by
    have h := Encoded.two a b
    have ha := a.isLt
    have hb := b.isLt
    unfold encChars
    rw [enc_mod, enc_mod, enc_mod, Nat.and_two_pow_sub_one_eq_mod a.toNat 2, Nat.and_two_pow_sub_one_eq_mod b.toNat 4,
      Nat.shiftRight_eq_div_pow, Nat.shiftRight_eq_div_pow, Nat.shiftLeft_eq, Nat.shiftLeft_eq]
    have e1 : a.toNat / 2 ^ 2 % 64 = num3 a b 0 / 262144 := by
      unfold num3
      rw [show (0 : Byte).toNat = 0 from rfl]
      omega
    have e2 : (a.toNat % 2 ^ 2 * 2 ^ 4 + b.toNat / 2 ^ 4) % 64 = num3 a b 0 / 4096 % 64 := by
      unfold num3
      rw [show (0 : Byte).toNat = 0 from rfl]
      omega
    have e3 : b.toNat % 2 ^ 4 * 2 ^ 2 % 64 = num3 a b 0 / 64 % 64 := by
      unfold num3
      rw [show (0 : Byte).toNat = 0 from rfl]
      omega
    rw [e1, e2, e3]
    exact h
  | a :: b :: c :: s => by
    have h := Encoded.three a b c (encChars_encoded s)
    have ha := a.isLt
    have hb := b.isLt
    have hc := c.isLt
    unfold encChars
    rw [enc_mod, enc_mod, enc_mod, enc_mod, Nat.and_two_pow_sub_one_eq_mod a.toNat 2,
      Nat.and_two_pow_sub_one_eq_mod b.toNat 4,
      Nat.shiftRight_eq_div_pow, Nat.shiftRight_eq_div_pow, Nat.shiftRight_eq_div_pow, Nat.shiftLeft_eq, Nat.shiftLeft_eq]
    have e1 : a.toNat / 2 ^ 2 % 64 = num3 a b c / 262144 := by
      unfold num3
      omega
    have e2 : (a.toNat % 2 ^ 2 * 2 ^ 4 + b.toNat / 2 ^ 4) % 64 = num3 a b c / 4096 % 64 := by
      unfold num3
      omega
    have e3 : (b.toNat % 2 ^ 4 * 2 ^ 2 + c.toNat / 2 ^ 6) % 64 = num3 a b c / 64 % 64 := by
      unfold num3
      omega
    have e4 : c.toNat % 64 = num3 a b c % 64 := by
      unfold num3
      omega
    rw [e1, e2, e3, e4]
    exact h

theorem encChars_length : ∀ s : List Byte, (encChars s).length = 4 * ((s.length + 2) / 3)
  | [] => rfl
  | [_] => by simp [encChars]
  | [_, _] => by simp [encChars]
  | _ :: _ :: _ :: s => by
    simp only [encChars, List.length_cons, encChars_length s]
    omega

theorem encLen_eq (n : Nat) : encLen n = 4 * ((n + 2) / 3) := by
  unfold encLen
  simp only [Nat.shiftLeft_eq]
  split
  · omega
  · split <;> omega

/-- C44, the encoder: with room for 4·⌈n/3⌉ characters and the terminator, it
writes exactly the RFC 4648 encoding and the terminator, and gives the number of
characters; with less room it writes nothing and gives the room needed.  Nothing
is written behind the `dlen` bytes. -/
theorem encode_spec (dlen : Nat) (src : List Byte) (hs : src ≠ []) :
    (4 * ((src.length + 2) / 3) + 1 ≤ dlen → ∃ t, Encoded src t ∧ t.length = 4 * ((src.length + 2) / 3) ∧
      osmo_base64_encode dlen src = ⟨0, some t.length, t ++ [0]⟩) ∧
    (dlen < 4 * ((src.length + 2) / 3) + 1 →
      osmo_base64_encode dlen src = ⟨-105, some (4 * ((src.length + 2) / 3) + 1), []⟩) ∧
    (osmo_base64_encode dlen src).dst.length ≤ dlen := by
  have h0 : src.length ≠ 0 := fun h => hs (List.length_eq_zero_iff.mp h)
  unfold osmo_base64_encode
  rw [if_neg h0]
  simp only [encLen_eq]
  refine ⟨?_, ?_, ?_⟩
  · intro h
    exact ⟨encChars src, encChars_encoded src, encChars_length src, by rw [if_neg (by omega)]⟩
  · intro h
    rw [if_pos h]
  · split
    · simp
    · simp only [List.length_append, encChars_length, List.length_cons, List.length_nil]
      omega

/-- An empty input writes nothing, not even a terminator. -/
theorem encode_empty (dlen : Nat) : osmo_base64_encode dlen [] = ⟨0, some 0, []⟩ := rfl

/-! ### Decoding -/

/-- `d` characters of the alphabet and `k` of padding; no data after `j` paddings
before. -/
def Pad (j : Nat) (t : List Byte) (k : Nat) : Prop :=
  ∃ d, t = d ++ List.replicate k 61 ∧ (∀ c ∈ d, IsSym c) ∧ j + k ≤ 2 ∧ (j ≠ 0 → d = [])

theorem check_spaces (k : Nat) : ∀ (s : List Byte) (x j n : Nat),
    check (List.replicate k 32 ++ s) x j n = check s (x + k) j n := by
  induction k with
  | zero => intros; rfl
  | succ k ih =>
    intro s x j n
    rw [List.replicate_succ, List.cons_append, check, if_pos rfl, ih]
    congr 1
    omega

/-- The first pass accepts texts. -/
theorem check_complete {s t : List Byte} (h : Text s t) : ∀ (j n k : Nat), Pad j t k →
    check s 0 j n = some (j + k, n + t.length) := by
  induction h with
  | nil m =>
    intro j n k ⟨d, hd, _, _⟩
    have hk : k = 0 := by
      have := congrArg List.length hd
      simp at this
      omega
    rw [← List.append_nil (List.replicate m 32), check_spaces, check, hk]
    simp
  | eol m h ih =>
    intro j n k hp
    rw [check_spaces, check, if_neg (by decide), if_neg (by rintro ⟨h, _⟩; revert h; decide), if_pos rfl]
    exact ih j n k hp
  | crlf m h ih =>
    intro j n k hp
    rw [check_spaces, check, if_neg (by decide), if_pos ⟨rfl, rfl⟩, check, if_neg (by decide),
      if_neg (by rintro ⟨h, _⟩; revert h; decide), if_pos rfl]
    exact ih j n k hp
  | @sym s t c hc h ih =>
    intro j n k ⟨d, hd, hs, hk, hj⟩
    rcases hc with hc | hc
    · obtain ⟨h1, h2, h3, h4, h5, h6⟩ := sym_dec hc
      have hd0 : ∃ d', d = c :: d' ∧ t = d' ++ List.replicate k 61 := by
        cases d with
        | nil =>
          cases k with
          | zero => simp at hd
          | succ k =>
            rw [List.nil_append, List.replicate_succ, List.cons.injEq] at hd
            exact absurd hd.1 h3
        | cons c' d' =>
          rw [List.cons_append, List.cons.injEq] at hd
          exact ⟨d', by rw [hd.1], hd.2⟩
      obtain ⟨d', rfl, ht⟩ := hd0
      have hj0 : j = 0 := by
        by_contra hne
        exact absurd (hj hne) (by simp)
      rw [check, if_neg h4, if_neg (fun h => h6 h.1), if_neg h5, if_neg (by simp), if_neg (fun h => h3 h.1)]
      simp only [if_neg h3]
      rw [if_neg (by omega), if_neg (by omega), ih j (n + 1) k ⟨d', ht, fun c hc => hs c (List.mem_cons_of_mem _ hc), hk,
        fun h => absurd hj0 h⟩, List.length_cons, Nat.add_assoc, Nat.add_comm 1]
    · have hdn : d = [] := by
        cases d with
        | nil => rfl
        | cons c' d' =>
          rw [List.cons_append, List.cons.injEq] at hd
          have := sym_dec (hs c' List.mem_cons_self)
          rw [← hd.1] at this
          exact absurd hc this.2.2.1
      obtain ⟨k', rfl⟩ : ∃ k', k = k' + 1 := by
        cases k with
        | zero => rw [hdn] at hd; simp at hd
        | succ k' => exact ⟨k', rfl⟩
      have ht : t = List.replicate k' 61 := by
        rw [hdn, List.nil_append, List.replicate_succ, List.cons.injEq] at hd
        exact hd.2
      have e32 : (61 : Byte) ≠ 32 := by decide
      have e13 : (61 : Byte) ≠ 13 := by decide
      have e10 : (61 : Byte) ≠ 10 := by decide
      have ed : dec 61 = 64 := by decide
      have el : (61 : Byte).toNat = 61 := by decide
      rw [hc, check, if_neg e32, if_neg (fun h => e13 h.1), if_neg e10, if_neg (by simp), if_neg (by omega)]
      simp only [if_true]
      rw [ed, el, if_neg (by omega), if_neg (by omega),
        ih (j + 1) (n + 1) k' ⟨[], by rw [ht]; rfl, by simp, by omega, fun _ => rfl⟩]
      simp only [List.length_cons, Option.some.injEq, Prod.mk.injEq]
      omega

theorem text_lf {r t : List Byte} (h : Text (10 :: r) t) : Text r t := by
  generalize hs : (10 :: r : List Byte) = s at h
  cases h with
  | nil k =>
    cases k with
    | zero => simp at hs
    | succ k => rw [List.replicate_succ, List.cons.injEq] at hs; exact absurd hs.1 (by decide)
  | eol k h =>
    cases k with
    | zero => rw [List.replicate_zero, List.nil_append, List.cons.injEq] at hs; rw [hs.2]; exact h
    | succ k => rw [List.replicate_succ, List.cons_append, List.cons.injEq] at hs; exact absurd hs.1 (by decide)
  | crlf k h =>
    cases k with
    | zero => rw [List.replicate_zero, List.nil_append, List.cons.injEq] at hs; exact absurd hs.1 (by decide)
    | succ k => rw [List.replicate_succ, List.cons_append, List.cons.injEq] at hs; exact absurd hs.1 (by decide)
  | sym c hc h =>
    rw [List.cons.injEq] at hs
    rcases hc with hc | hc
    · exact absurd hs.1.symm (sym_dec hc).2.2.2.2.1
    · rw [hc] at hs; exact absurd hs.1 (by decide)

/-- The first pass accepts nothing else. -/
theorem check_sound (s : List Byte) : ∀ (x j n j' n' : Nat), j ≤ 2 → check s x j n = some (j', n') →
    ∃ t k, Text (List.replicate x 32 ++ s) t ∧ Pad j t k ∧ j' = j + k ∧ n' = n + t.length := by
  induction s with
  | nil =>
    intro x j n j' n' hj h
    rw [check, Option.some.injEq, Prod.mk.injEq] at h
    refine ⟨[], 0, ?_, ⟨[], rfl, by simp, by omega, fun _ => rfl⟩, by omega, by simp only [List.length_nil]; omega⟩
    rw [List.append_nil]
    exact .nil x
  | cons c s ih =>
    intro x j n j' n' hj h
    rw [check] at h
    split at h
    · rename_i hc
      obtain ⟨t, k, h1, h2⟩ := ih (x + 1) j n j' n' hj h
      refine ⟨t, k, ?_, h2⟩
      rw [hc]
      rw [List.replicate_succ', List.append_assoc] at h1
      exact h1
    · split at h
      · rename_i _ hc
        obtain ⟨t, k, h1, h2⟩ := ih 0 j n j' n' hj h
        obtain ⟨r, rfl⟩ : ∃ r, s = 10 :: r := by
          cases s with
          | nil => simp at hc
          | cons a r =>
            have := hc.2
            rw [List.head?_cons, Option.some.injEq] at this
            exact ⟨r, by rw [this]⟩
        rw [hc.1]
        exact ⟨t, k, .crlf x (text_lf h1), h2⟩
      · split at h
        · rename_i hc
          obtain ⟨t, k, h1, h2⟩ := ih 0 j n j' n' hj h
          rw [hc]
          exact ⟨t, k, .eol x h1, h2⟩
        · split at h
          · cases h
          · rename_i hx
            have hx0 : x = 0 := by by_contra h'; exact hx h'
            split at h
            · cases h
            · rename_i hj2
              dsimp only at h
              generalize hjn : (if c = 61 then j + 1 else j) = jn at h
              split at h
              · cases h
              · rename_i hd
                split at h
                · cases h
                · rename_i hd2
                  rw [hx0]
                  rcases dec_cases c with ⟨hs, hd3, _, hne, _⟩ | ⟨hc, hd3⟩ | ⟨hd3, _⟩
                  · rw [if_neg hne] at hjn
                    subst hjn
                    have hj0 : j = 0 := by
                      by_contra h'; exact hd2 ⟨hd3, h'⟩
                    obtain ⟨t, k, h1, ⟨d, e1, e2, e3, e4⟩, h3, h4⟩ := ih 0 j (n + 1) j' n' hj h
                    refine ⟨c :: t, k, .sym c (Or.inl hs) h1, ⟨c :: d, by rw [e1]; rfl, ?_, e3, fun h => absurd hj0 h⟩,
                      h3, by simp only [List.length_cons]; omega⟩
                    intro c' hc'
                    rcases List.mem_cons.mp hc' with rfl | hc'
                    · exact hs
                    · exact e2 c' hc'
                  · rw [if_pos hc] at hjn
                    subst hjn
                    have hjj : j + 1 ≤ 2 := by
                      by_contra h'; exact hj2 ⟨hc, by omega⟩
                    obtain ⟨t, k, h1, ⟨d, e1, e2, e3, e4⟩, h3, h4⟩ := ih 0 (j + 1) (n + 1) j' n' hjj h
                    refine ⟨c :: t, k + 1, .sym c (Or.inr hc) h1, ⟨[], ?_, by simp, by omega, fun _ => rfl⟩, by omega,
                      by simp only [List.length_cons]; omega⟩
                    rw [e1, e4 (by omega), hc]
                    rfl
                  · exact absurd (Or.inr hd3) hd

/-! ### The second pass -/

/-- The digit a character stands for; padding counts as 0. -/
def digit (c : Byte) : Nat := if c = 61 then 0 else ((List.range 64).map alphabet).idxOf c

/-- Three bytes of a number. -/
def bytes3 (v : Nat) : List Byte := [BitVec.ofNat 8 (v / 65536), BitVec.ofNat 8 (v / 256), BitVec.ofNat 8 v]

/-- Each four characters give three bytes, less one for each padding; the rest
is ignored. -/
def decoded : List Byte → List Byte
  | a :: b :: c :: d :: t =>
    (bytes3 (((digit a * 64 + digit b) * 64 + digit c) * 64 + digit d)).take (3 - [a, b, c, d].count 61) ++ decoded t
  | _ => []

theorem dec_digit {c : Byte} (h : IsSym c ∨ c = 61) : dec c &&& 0x3F = digit c := by
  rcases h with ⟨i, hi, rfl⟩ | rfl
  · have key : ∀ i : Fin 64, dec (alphabet i.val) &&& 0x3F = digit (alphabet i.val) := by decide +kernel
    exact key ⟨i, hi⟩
  · decide

theorem digit_lt {c : Byte} (h : IsSym c ∨ c = 61) : digit c < 64 := by
  rw [← dec_digit h, Nat.and_two_pow_sub_one_eq_mod _ 6]
  exact Nat.mod_lt _ (by decide)

theorem digit_alphabet (i : Nat) (hi : i < 64) : digit (alphabet i) = i := by
  rw [← dec_digit (Or.inl ⟨i, hi, rfl⟩), dec_alphabet i hi, Nat.and_two_pow_sub_one_eq_mod _ 6]
  exact Nat.mod_eq_of_lt hi

theorem store_text {s t : List Byte} (h : Text s t) : ∀ j n x, store s j n x = store t j n x := by
  have sp : ∀ (k : Nat) (s : List Byte) j n x, store (List.replicate k 32 ++ s) j n x = store s j n x := by
    intro k
    induction k with
    | zero => intros; rfl
    | succ k ih =>
      intro s j n x
      rw [List.replicate_succ, List.cons_append, store, if_pos (by decide), ih]
  induction h with
  | nil k => intro j n x; rw [← List.append_nil (List.replicate k 32), sp]
  | eol k h ih => intro j n x; rw [sp, store, if_pos (by decide), ih]
  | crlf k h ih => intro j n x; rw [sp, store, if_pos (by decide), store, if_pos (by decide), ih]
  | @sym s t c hc h ih =>
    intro j n x
    rw [store, store]
    simp only [ih]

theorem shift_in (x : BitVec 32) (d : Nat) (hd : d < 64) :
    ((x <<< 6) ||| BitVec.ofNat 32 d).toNat = (x.toNat * 64 + d) % 4294967296 := by
  rw [BitVec.toNat_or, BitVec.toNat_shiftLeft, BitVec.toNat_ofNat, Nat.shiftLeft_eq, Nat.mod_eq_of_lt (a := d) (by omega)]
  have h1 : x.toNat * 2 ^ 6 % 2 ^ 32 = 2 ^ 6 * (x.toNat % 2 ^ 26) := by omega
  rw [h1, ← Nat.two_pow_add_eq_or_of_lt (by omega)]
  omega

/-- One character of the second pass. -/
theorem store_sym {c : Byte} (h : IsSym c ∨ c = 61) (t : List Byte) (j n : Nat) (x : BitVec 32) :
    ∃ y : BitVec 32, y.toNat = (x.toNat * 64 + digit c) % 4294967296 ∧
      store (c :: t) j n x =
        (if n + 1 = 4 then (bytes3 (y.toNat)).take (j - (if c = 61 then 1 else 0)) ++
            store t (j - (if c = 61 then 1 else 0)) 0 y
         else store t (j - (if c = 61 then 1 else 0)) (n + 1) y) := by
  refine ⟨(x <<< 6) ||| BitVec.ofNat 32 (dec c &&& 0x3F), ?_, ?_⟩
  · rw [dec_digit h, shift_in x _ (digit_lt h)]
  · have hw : ¬ (c = 13 ∨ c = 10 ∨ c = 32) := by
      rcases h with h | rfl
      · have := sym_dec h
        rintro (h' | h' | h')
        · exact this.2.2.2.2.2 h'
        · exact this.2.2.2.2.1 h'
        · exact this.2.2.2.1 h'
      · decide
    have he : (if dec c = 64 then 1 else 0) = (if c = 61 then 1 else 0) := by
      rcases h with h | rfl
      · have := sym_dec h
        rw [if_neg (by omega), if_neg this.2.2.1]
      · decide
    rw [store, if_neg hw]
    simp only [he]
    generalize (x <<< 6 ||| BitVec.ofNat 32 (dec c &&& 63)) = y
    split
    · congr 1
      have b1 : (y >>> 16).setWidth 8 = BitVec.ofNat 8 (y.toNat / 65536) := by
        apply BitVec.eq_of_toNat_eq
        simp [Nat.shiftRight_eq_div_pow]
      have b2 : (y >>> 8).setWidth 8 = BitVec.ofNat 8 (y.toNat / 256) := by
        apply BitVec.eq_of_toNat_eq
        simp [Nat.shiftRight_eq_div_pow]
      have b3 : y.setWidth 8 = BitVec.ofNat 8 y.toNat := by
        apply BitVec.eq_of_toNat_eq
        simp
      rw [b1, b2, b3]
      generalize j - (if c = 61 then 1 else 0) = m
      unfold bytes3
      rcases m with _ | _ | _ | m <;> simp
    · rfl

/-- Fewer than four characters give nothing. -/
theorem store_short (t : List Byte) (ht : ∀ c ∈ t, IsSym c ∨ c = 61) : ∀ j n x, n + t.length < 4 →
    store t j n x = [] := by
  induction t with
  | nil => intros; rfl
  | cons c t ih =>
    intro j n x hn
    simp only [List.length_cons] at hn
    obtain ⟨y, _, h⟩ := store_sym (ht c List.mem_cons_self) t j n x
    rw [h, if_neg (by omega)]
    exact ih (fun c hc => ht c (List.mem_cons_of_mem _ hc)) _ _ _ (by omega)

theorem bytes3_mod (v w : Nat) (h : v % 16777216 = w % 16777216) : bytes3 v = bytes3 w := by
  unfold bytes3
  congr 1
  · apply BitVec.eq_of_toNat_eq
    simp only [BitVec.toNat_ofNat]
    omega
  congr 1
  · apply BitVec.eq_of_toNat_eq
    simp only [BitVec.toNat_ofNat]
    omega
  congr 1
  apply BitVec.eq_of_toNat_eq
  simp only [BitVec.toNat_ofNat]
  omega

/-- Four characters. -/
theorem store_four {a b c d : Byte} (ha : IsSym a ∨ a = 61) (hb : IsSym b ∨ b = 61) (hc : IsSym c ∨ c = 61)
    (hd : IsSym d ∨ d = 61) (t : List Byte) (x : BitVec 32) :
    ∃ y, store (a :: b :: c :: d :: t) 3 0 x =
      (bytes3 (((digit a * 64 + digit b) * 64 + digit c) * 64 + digit d)).take (3 - [a, b, c, d].count 61) ++
        store t (3 - [a, b, c, d].count 61) 0 y := by
  obtain ⟨y1, v1, e1⟩ := store_sym ha (b :: c :: d :: t) 3 0 x
  obtain ⟨y2, v2, e2⟩ := store_sym hb (c :: d :: t) (3 - (if a = 61 then 1 else 0)) 1 y1
  obtain ⟨y3, v3, e3⟩ := store_sym hc (d :: t) (3 - (if a = 61 then 1 else 0) - (if b = 61 then 1 else 0)) 2 y2
  obtain ⟨y4, v4, e4⟩ := store_sym hd t
    (3 - (if a = 61 then 1 else 0) - (if b = 61 then 1 else 0) - (if c = 61 then 1 else 0)) 3 y3
  refine ⟨y4, ?_⟩
  rw [e1, if_neg (by decide), e2, if_neg (by decide), e3, if_neg (by decide), e4, if_pos rfl]
  have hcnt : 3 - (if a = 61 then 1 else 0) - (if b = 61 then 1 else 0) - (if c = 61 then 1 else 0) -
      (if d = 61 then 1 else 0) = 3 - [a, b, c, d].count 61 := by
    simp only [List.count_cons, List.count_nil, beq_iff_eq]
    omega
  rw [hcnt, bytes3_mod y4.toNat (((digit a * 64 + digit b) * 64 + digit c) * 64 + digit d)]
  have ha' := digit_lt ha
  have hb' := digit_lt hb
  have hc' := digit_lt hc
  have hd' := digit_lt hd
  omega

theorem decoded_short : ∀ t : List Byte, t.length < 4 → decoded t = []
  | [], _ => rfl
  | [_], _ => rfl
  | [_, _], _ => rfl
  | [_, _, _], _ => rfl
  | _ :: _ :: _ :: _ :: t, h => by
    simp only [List.length_cons] at h
    omega

/-- The second pass on characters with padding at the end. -/
theorem store_all (t : List Byte) (ht : ∀ c ∈ t, IsSym c ∨ c = 61) (hk : Pad 0 t (t.count 61)) (x : BitVec 32) :
    store t 3 0 x = decoded t := by
  induction t using decoded.induct generalizing x with
  | case1 a b c d t ih =>
    obtain ⟨y, hy⟩ := store_four (ht a (by simp)) (ht b (by simp)) (ht c (by simp)) (ht d (by simp)) t x
    rw [hy, decoded]
    congr 1
    obtain ⟨dd, e1, e2, e3, _⟩ := hk
    have ht' : ∀ c ∈ t, IsSym c ∨ c = 61 := fun c hc => ht c (by simp [hc])
    have hcount : (a :: b :: c :: d :: t).count 61 = [a, b, c, d].count 61 + t.count 61 := by
      rw [show a :: b :: c :: d :: t = [a, b, c, d] ++ t from rfl, List.count_append]
    rw [hcount] at e1 e3
    generalize hp : [a, b, c, d].count 61 = p at *
    have hlen : dd.length + (p + t.count 61) = t.length + 4 := by
      have := congrArg List.length e1
      rw [List.length_append, List.length_replicate] at this
      simp only [List.length_cons] at this
      omega
    have hsym : ∀ c ∈ dd, c ≠ 61 := fun c hc => (sym_dec (e2 c hc)).2.2.1
    by_cases h4 : 4 ≤ dd.length
    · -- no padding here
      obtain ⟨dd', hdd⟩ : ∃ dd', dd = a :: b :: c :: d :: dd' := by
        rcases dd with _ | ⟨a', _ | ⟨b', _ | ⟨c', _ | ⟨d', dd'⟩⟩⟩⟩
        · simp at h4
        · simp at h4
        · simp at h4
        · simp at h4
        · simp only [List.cons_append, List.cons.injEq] at e1
          exact ⟨dd', by rw [e1.1, e1.2.1, e1.2.2.1, e1.2.2.2.1]⟩
      have hp0 : p = 0 := by
        rw [← hp, List.count_eq_zero]
        intro hm
        apply hsym 61 _ rfl
        rw [hdd]
        simp only [List.mem_cons, List.not_mem_nil, or_false] at hm
        rcases hm with h | h | h | h <;> simp [← h]
      rw [hp0, Nat.sub_zero]
      refine ih ht' ⟨dd', ?_, ?_, by omega, by simp⟩ y
      · rw [hdd, hp0, Nat.zero_add] at e1
        simpa using e1
      · intro c' hc'
        apply e2
        rw [hdd]
        simp [hc']
    · -- nothing follows
      have hshort : t.length < 4 := by omega
      rw [store_short t ht' _ _ _ (by omega)]
      exact (decoded_short t hshort).symm
  | case2 t hne =>
    have hshort : t.length < 4 := by
      rcases t with _ | ⟨a', _ | ⟨b', _ | ⟨c', _ | ⟨d', t'⟩⟩⟩⟩ <;> first | (simp; done) | exact absurd rfl (hne _ _ _ _ _)
    rw [store_short t ht _ _ _ (by omega), decoded_short t hshort]

theorem text_syms {s t : List Byte} (h : Text s t) : ∀ c ∈ t, IsSym c ∨ c = 61 := by
  induction h with
  | nil => simp
  | eol _ _ ih => exact ih
  | crlf _ _ ih => exact ih
  | sym c hc h ih =>
    intro c' hc'
    rcases List.mem_cons.mp hc' with rfl | hc'
    · exact hc
    · exact ih c' hc'

theorem pad_count {j k : Nat} {t : List Byte} (h : Pad j t k) : t.count 61 = k := by
  obtain ⟨d, rfl, h2, _⟩ := h
  rw [List.count_append, List.count_replicate_self, List.count_eq_zero.mpr, Nat.zero_add]
  intro hm
  exact (sym_dec (h2 61 hm)).2.2.1 rfl

/-- Room for the bytes of a text with these characters. -/
def need (t : List Byte) : Nat := (6 * t.length + 7) / 8 - t.count 61

theorem decoded_length (t : List Byte) (h : Pad 0 t (t.count 61)) :
    (decoded t).length ≤ need t ∧ (t.length % 4 = 0 → (decoded t).length = need t) := by
  induction t using decoded.induct with
  | case1 a b c d t ih =>
    rw [decoded, List.length_append, List.length_take]
    have hb3 : ∀ v, (bytes3 v).length = 3 := fun _ => rfl
    rw [hb3]
    obtain ⟨dd, e1, e2, e3, _⟩ := h
    have hcount : (a :: b :: c :: d :: t).count 61 = [a, b, c, d].count 61 + t.count 61 := by
      rw [show a :: b :: c :: d :: t = [a, b, c, d] ++ t from rfl, List.count_append]
    unfold need at ih ⊢
    rw [hcount] at e1 e3 ⊢
    generalize hp : [a, b, c, d].count 61 = p at *
    have hlen : dd.length + (p + t.count 61) = t.length + 4 := by
      have := congrArg List.length e1
      rw [List.length_append, List.length_replicate] at this
      simp only [List.length_cons] at this
      omega
    have hsym : ∀ c ∈ dd, c ≠ 61 := fun c hc => (sym_dec (e2 c hc)).2.2.1
    simp only [List.length_cons]
    by_cases h4 : 4 ≤ dd.length
    · obtain ⟨dd', hdd⟩ : ∃ dd', dd = a :: b :: c :: d :: dd' := by
        rcases dd with _ | ⟨a', _ | ⟨b', _ | ⟨c', _ | ⟨d', dd'⟩⟩⟩⟩
        · simp at h4
        · simp at h4
        · simp at h4
        · simp at h4
        · simp only [List.cons_append, List.cons.injEq] at e1
          exact ⟨dd', by rw [e1.1, e1.2.1, e1.2.2.1, e1.2.2.2.1]⟩
      have hp0 : p = 0 := by
        rw [← hp, List.count_eq_zero]
        intro hm
        apply hsym 61 _ rfl
        rw [hdd]
        simp only [List.mem_cons, List.not_mem_nil, or_false] at hm
        rcases hm with h | h | h | h <;> simp [← h]
      have := ih ⟨dd', by rw [hdd, hp0, Nat.zero_add] at e1; simpa using e1,
        fun c' hc' => e2 c' (by rw [hdd]; simp [hc']), by omega, by simp⟩
      have htl : t.length = dd'.length + t.count 61 := by
        rw [hdd] at hlen
        simp only [List.length_cons] at hlen
        omega
      omega
    · have hshort : t.length < 4 := by omega
      have h0 : (decoded t).length = 0 := by rw [decoded_short t hshort]; rfl
      rw [h0]
      have hct : t.count 61 = t.length := by
        have : t.count 61 ≤ t.length := List.count_le_length
        by_contra hne
        have hdlen : dd.length ≤ 3 := by omega
        -- all characters after the data are padding
        have hdrop : t = List.replicate (p + t.count 61 - (4 - dd.length)) 61 := by
          have h2 := congrArg (List.drop 4) e1
          rw [List.drop_append, show dd.drop 4 = [] from List.drop_eq_nil_of_le (by omega), List.nil_append, List.drop_replicate] at h2
          exact h2
        have := congrArg (List.count 61) hdrop
        rw [List.count_replicate_self] at this
        have := congrArg List.length hdrop
        rw [List.length_replicate] at this
        omega
      omega
  | case2 t hne =>
    have hshort : t.length < 4 := by
      rcases t with _ | ⟨a', _ | ⟨b', _ | ⟨c', _ | ⟨d', t'⟩⟩⟩⟩ <;> first | (simp; done) | exact absurd rfl (hne _ _ _ _ _)
    have h0 : (decoded t).length = 0 := by rw [decoded_short t hshort]; rfl
    rw [h0]
    refine ⟨Nat.zero_le _, ?_⟩
    intro h4
    have : t.length = 0 := by omega
    rw [List.length_eq_zero_iff.mp this]
    rfl

/-- C44, the decoder on texts with characters: it stores the bytes the
characters stand for if there is room for `need` bytes, and otherwise gives that
number; it stores no more than that. -/
theorem decode_text (dlen : Option Nat) {s t : List Byte} {k : Nat} (h : Text s t) (hp : Pad 0 t k) (hne : t ≠ []) :
    (∀ d, dlen = some d → need t ≤ d →
      osmo_base64_decode dlen s = ⟨0, some (decoded t).length, decoded t⟩) ∧
    ((dlen = none ∨ ∃ d, dlen = some d ∧ d < need t) → osmo_base64_decode dlen s = ⟨-105, some (need t), []⟩) ∧
    (decoded t).length ≤ need t := by
  have hk := pad_count hp
  have hc := check_complete h 0 0 k hp
  rw [Nat.zero_add, Nat.zero_add] at hc
  have hlen : t.length ≠ 0 := fun h => hne (List.length_eq_zero_iff.mp h)
  have hneed : ((t.length * 6) + 7) >>> 3 - k = need t := by
    unfold need
    rw [Nat.shiftRight_eq_div_pow, hk, Nat.mul_comm]
  unfold osmo_base64_decode
  simp only [hc, if_neg hlen, hneed]
  refine ⟨?_, ?_, (decoded_length t (hk ▸ hp)).1⟩
  · intro d hd hle
    rw [hd]
    simp only []
    rw [if_neg (by omega), store_text h, store_all t (text_syms h) (hk ▸ hp)]
  · rintro (h' | ⟨d, hd, hlt⟩)
    · rw [h']
    · rw [hd]
      simp only []
      rw [if_pos hlt]

/-- C44: everything else is refused: an input which is not a text in lines of
characters of the alphabet, with at most two paddings, at the end. -/
theorem decode_invalid (dlen : Option Nat) (s : List Byte) :
    osmo_base64_decode dlen s = ⟨-22, none, []⟩ ↔ ¬ ∃ t k, Text s t ∧ Pad 0 t k := by
  constructor
  · rintro h ⟨t, k, h1, h2⟩
    have hc := check_complete h1 0 0 k h2
    unfold osmo_base64_decode at h
    rw [hc] at h
    revert h
    simp only []
    split
    · simp
    · split
      · simp
      · split
        · simp
        · simp
  · intro h
    unfold osmo_base64_decode
    cases hc : check s 0 0 0 with
    | none => rfl
    | some r =>
      exfalso
      obtain ⟨j', n'⟩ := r
      obtain ⟨t, k, h1, h2, _⟩ := check_sound s 0 0 0 j' n' (by omega) hc
      exact h ⟨t, k, h1, h2⟩

/-- C44: the decoder never writes more than `dlen` bytes. -/
theorem decode_bounds (d : Nat) (s : List Byte) : (osmo_base64_decode (some d) s).dst.length ≤ d := by
  by_cases hv : ∃ t k, Text s t ∧ Pad 0 t k
  · obtain ⟨t, k, h1, h2⟩ := hv
    by_cases hne : t = []
    · have hc := check_complete h1 0 0 k h2
      have hk := pad_count h2
      unfold osmo_base64_decode
      rw [hc, hne]
      simp
    · obtain ⟨a, b, c⟩ := decode_text (some d) h1 h2 hne
      by_cases hle : need t ≤ d
      · rw [a d rfl hle]
        exact Nat.le_trans c hle
      · rw [b (Or.inr ⟨d, rfl, by omega⟩)]
        exact Nat.zero_le _
  · rw [(decode_invalid (some d) s).mpr hv]
    exact Nat.zero_le _

/-! ### Round trip -/

theorem alphabet_sym (i : Nat) (h : i < 64) : IsSym (alphabet i) := ⟨i, h, rfl⟩

theorem bytes3_num3 (a b c : Byte) : bytes3 (num3 a b c) = [a, b, c] := by
  have ha := a.isLt
  have hb := b.isLt
  have hc := c.isLt
  unfold bytes3 num3
  congr 1
  · apply BitVec.eq_of_toNat_eq
    rw [BitVec.toNat_ofNat]
    omega
  congr 1
  · apply BitVec.eq_of_toNat_eq
    rw [BitVec.toNat_ofNat]
    omega
  congr 1
  apply BitVec.eq_of_toNat_eq
  rw [BitVec.toNat_ofNat]
  omega

theorem alphabet_ne (i : Nat) (h : i < 64) : alphabet i ≠ 61 := (sym_dec (alphabet_sym i h)).2.2.1

theorem encoded_decoded {s t : List Byte} (h : Encoded s t) : decoded t = s ∧ Text t t ∧ ∃ k, Pad 0 t k := by
  have hz : (0 : Byte).toNat = 0 := rfl
  have d61 : digit 61 = 0 := by decide
  induction h with
  | nil => exact ⟨rfl, .nil 0, 0, [], rfl, by simp, by omega, by simp⟩
  | one a =>
    have ha := a.isLt
    have v1 : num3 a 0 0 / 262144 < 64 := by unfold num3; rw [hz]; omega
    have v2 : num3 a 0 0 / 4096 % 64 < 64 := by omega
    refine ⟨?_, ?_, 2, [alphabet (num3 a 0 0 / 262144), alphabet (num3 a 0 0 / 4096 % 64)], rfl, ?_, by omega, by simp⟩
    · rw [decoded, digit_alphabet _ v1, digit_alphabet _ v2, d61,
        show ((num3 a 0 0 / 262144 * 64 + num3 a 0 0 / 4096 % 64) * 64 + 0) * 64 + 0 = num3 a 0 0 by
          unfold num3; rw [hz]; omega, bytes3_num3]
      have hcnt : [alphabet (num3 a 0 0 / 262144), alphabet (num3 a 0 0 / 4096 % 64), 61, 61].count 61 = 2 := by
        rw [List.count_cons_of_ne (alphabet_ne _ v1), List.count_cons_of_ne (alphabet_ne _ v2)]
        rfl
      rw [hcnt]
      rfl
    · exact .sym _ (Or.inl (alphabet_sym _ v1)) (.sym _ (Or.inl (alphabet_sym _ v2)) (.sym _ (Or.inr rfl)
        (.sym _ (Or.inr rfl) (.nil 0))))
    · intro c hc
      simp only [List.mem_cons, List.not_mem_nil, or_false] at hc
      rcases hc with rfl | rfl
      · exact alphabet_sym _ v1
      · exact alphabet_sym _ v2
  | two a b =>
    have ha := a.isLt
    have hb := b.isLt
    have v1 : num3 a b 0 / 262144 < 64 := by unfold num3; rw [hz]; omega
    have v2 : num3 a b 0 / 4096 % 64 < 64 := by omega
    have v3 : num3 a b 0 / 64 % 64 < 64 := by omega
    refine ⟨?_, ?_, 1, [alphabet (num3 a b 0 / 262144), alphabet (num3 a b 0 / 4096 % 64),
      alphabet (num3 a b 0 / 64 % 64)], rfl, ?_, by omega, by simp⟩
    · rw [decoded, digit_alphabet _ v1, digit_alphabet _ v2, digit_alphabet _ v3, d61,
        show ((num3 a b 0 / 262144 * 64 + num3 a b 0 / 4096 % 64) * 64 + num3 a b 0 / 64 % 64) * 64 + 0 = num3 a b 0 by
          unfold num3; rw [hz]; omega, bytes3_num3]
      have hcnt : [alphabet (num3 a b 0 / 262144), alphabet (num3 a b 0 / 4096 % 64),
          alphabet (num3 a b 0 / 64 % 64), 61].count 61 = 1 := by
        rw [List.count_cons_of_ne (alphabet_ne _ v1), List.count_cons_of_ne (alphabet_ne _ v2), List.count_cons_of_ne (alphabet_ne _ v3)]
        rfl
      rw [hcnt]
      rfl
    · exact .sym _ (Or.inl (alphabet_sym _ v1)) (.sym _ (Or.inl (alphabet_sym _ v2))
        (.sym _ (Or.inl (alphabet_sym _ v3)) (.sym _ (Or.inr rfl) (.nil 0))))
    · intro c hc
      simp only [List.mem_cons, List.not_mem_nil, or_false] at hc
      rcases hc with rfl | rfl | rfl
      · exact alphabet_sym _ v1
      · exact alphabet_sym _ v2
      · exact alphabet_sym _ v3
  | @three s t a b c h ih =>
    obtain ⟨i1, i2, k, d, e1, e2, e3, e4⟩ := ih
    have ha := a.isLt
    have hb := b.isLt
    have hc := c.isLt
    have v1 : num3 a b c / 262144 < 64 := by unfold num3; omega
    have v2 : num3 a b c / 4096 % 64 < 64 := by omega
    have v3 : num3 a b c / 64 % 64 < 64 := by omega
    have v4 : num3 a b c % 64 < 64 := by omega
    refine ⟨?_, ?_, k, alphabet (num3 a b c / 262144) :: alphabet (num3 a b c / 4096 % 64) ::
      alphabet (num3 a b c / 64 % 64) :: alphabet (num3 a b c % 64) :: d, by rw [e1]; rfl, ?_, e3, by simp⟩
    · rw [decoded, digit_alphabet _ v1, digit_alphabet _ v2, digit_alphabet _ v3, digit_alphabet _ v4,
        show ((num3 a b c / 262144 * 64 + num3 a b c / 4096 % 64) * 64 + num3 a b c / 64 % 64) * 64 +
          num3 a b c % 64 = num3 a b c by omega, bytes3_num3, i1]
      have hcnt : [alphabet (num3 a b c / 262144), alphabet (num3 a b c / 4096 % 64),
          alphabet (num3 a b c / 64 % 64), alphabet (num3 a b c % 64)].count 61 = 0 := by
        rw [List.count_cons_of_ne (alphabet_ne _ v1), List.count_cons_of_ne (alphabet_ne _ v2), List.count_cons_of_ne (alphabet_ne _ v3), List.count_cons_of_ne (alphabet_ne _ v4)]
        rfl
      rw [hcnt]
      rfl
    · exact .sym _ (Or.inl (alphabet_sym _ v1)) (.sym _ (Or.inl (alphabet_sym _ v2))
        (.sym _ (Or.inl (alphabet_sym _ v3)) (.sym _ (Or.inl (alphabet_sym _ v4)) i2)))
    · intro c' hc'
      simp only [List.mem_cons] at hc'
      rcases hc' with rfl | rfl | rfl | rfl | hc'
      · exact alphabet_sym _ v1
      · exact alphabet_sym _ v2
      · exact alphabet_sym _ v3
      · exact alphabet_sym _ v4
      · exact e2 c' hc'

/-- C44, the round trip: what the encoder writes (without the terminator)
decodes to what it was, given room for exactly that.  Not for the empty input,
where the decoder does not assign the length (`decode_empty_counterexample`). -/
theorem roundtrip_partial (dlen d : Nat) (src : List Byte) (hs : src ≠ [])
    (hl : 4 * ((src.length + 2) / 3) + 1 ≤ dlen) (hd : src.length ≤ d) :
    osmo_base64_decode (some d) ((osmo_base64_encode dlen src).dst.take (4 * ((src.length + 2) / 3))) =
      ⟨0, some src.length, src⟩ := by
  obtain ⟨t, h1, h2, h3⟩ := (encode_spec dlen src hs).1 hl
  rw [h3]
  simp only []
  rw [← h2, List.take_left]
  obtain ⟨e1, e2, k, e3⟩ := encoded_decoded h1
  have hne : t ≠ [] := by
    intro h
    rw [h] at e1
    exact hs e1.symm
  have hn : need t = src.length := by
    have hk := pad_count e3
    rw [← (decoded_length t (hk ▸ e3)).2 (by omega), e1]
  have := (decode_text (some d) e2 e3 hne).1 d rfl (by omega)
  rw [this, e1]

/-- The header says that `*olen` is always updated; it is not for an empty input
or one of spaces and line ends only, although the call succeeds, ... -/
theorem decode_empty_counterexample (dlen : Option Nat) (s : List Byte) (h : Text s []) :
    osmo_base64_decode dlen s = ⟨0, none, []⟩ := by
  have hc := check_complete h 0 0 0 ⟨[], rfl, by simp, by omega, by simp⟩
  unfold osmo_base64_decode
  rw [hc]
  simp

/-- ... and the size given in advance is not the number of bytes written if the
number of characters is not a multiple of four: `QUI` needs three bytes and gives
none. -/
theorem decode_truncated_counterexample :
    osmo_base64_decode none [81, 85, 73] = ⟨-105, some 3, []⟩ ∧
    osmo_base64_decode (some 3) [81, 85, 73] = ⟨0, some 0, []⟩ := by
  decide +kernel

example : osmo_base64_encode 9 [72, 105, 33, 63] = ⟨0, some 8, [83, 71, 107, 104, 80, 119, 61, 61, 0]⟩ := by decide +kernel
example : osmo_base64_decode (some 4) [83, 71, 107, 104, 32, 32, 13, 10, 80, 119, 61, 61, 10] =
    ⟨0, some 4, [72, 105, 33, 63]⟩ := by decide +kernel
example : osmo_base64_decode (some 4) [83, 71, 32, 107] = ⟨-22, none, []⟩ := by decide +kernel
example : osmo_base64_decode (some 3) [83, 71, 107, 104, 80, 119, 61, 61] = ⟨-105, some 4, []⟩ := by decide +kernel

end Verif.Base64
