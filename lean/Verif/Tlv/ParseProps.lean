import Verif.Tlv.Model
import Mathlib.Tactic.Linarith
/-! C26: tlv_parse_one against the grammar of information elements, tlv_parse2. -/
namespace Verif.Tlv

/-- no half-octet tag hides the tag `t` -/
def Plain (d : Definition) (t : Byte) : Prop :=
  (d (t >>> 4)).type ≠ .singleTv ∧ (15 < t.toNat → (d (t &&& 0xf0#8)).type ≠ .singleTv)

/-- The grammar: `Ie d tag ie off len` says that the bytes `ie` are one complete
information element with the given tag, its value being the `len` bytes at `off`. -/
inductive Ie (d : Definition) : Byte → List Byte → Nat → Nat → Prop
  | half (b : Byte) : (d (b >>> 4)).type = .singleTv → Ie d (b >>> 4) [b] 0 1
  | halfOld (b : Byte) : (d (b >>> 4)).type ≠ .singleTv → 15 < b.toNat → (d (b &&& 0xf0#8)).type = .singleTv →
      Ie d (b &&& 0xf0#8) [b] 0 1
  | t (t : Byte) : Plain d t → (d t).type = .t → Ie d t [t] 0 0
  | tv (t v : Byte) : Plain d t → (d t).type = .tv → Ie d t [t, v] 1 1
  | fixed (t : Byte) (v : List Byte) : Plain d t → (d t).type = .fixed → v.length = (d t).fixedLen.toNat →
      Ie d t (t :: v) 1 v.length
  | tlv (t l : Byte) (v : List Byte) : Plain d t → (d t).type = .tlv → v.length = l.toNat →
      Ie d t (t :: l :: v) 2 v.length
  | tl16v (t h l : Byte) (v : List Byte) : Plain d t → (d t).type = .tl16v → v.length = h.toNat * 256 + l.toNat →
      Ie d t (t :: h :: l :: v) 3 v.length
  | tvlvShort (t l : Byte) (v : List Byte) : Plain d t → (d t).type = .tvlv → 128 ≤ l.toNat → v.length = l.toNat - 128 →
      Ie d t (t :: l :: v) 2 v.length
  | tvlvLong (t h l : Byte) (v : List Byte) : Plain d t → (d t).type = .tvlv → h.toNat < 128 →
      v.length = h.toNat * 256 + l.toNat → Ie d t (t :: h :: l :: v) 3 v.length
  | ganShort (t l : Byte) (v : List Byte) : Plain d t → (d t).type = .vtvlvGan → l.toNat < 128 → v.length = l.toNat →
      Ie d t (t :: l :: v) 2 v.length
  | ganLong (t h l : Byte) (v : List Byte) : Plain d t → (d t).type = .vtvlvGan → 128 ≤ h.toNat →
      v.length = (h.toNat - 128) * 256 + l.toNat → Ie d t (t :: h :: l :: v) 3 v.length

theorem bit7 : ∀ b : Byte, (b &&& 0x80#8 ≠ 0#8 ↔ 128 ≤ b.toNat) ∧ (b &&& 0x7f#8).toNat = b.toNat % 128 := by decide +kernel

theorem be16 (h : Nat) (l : Byte) : h <<< 8 ||| l.toNat = h * 256 + l.toNat := by
  rw [Nat.shiftLeft_eq, ← Nat.shiftLeft_eq, ← Nat.shiftLeft_add_eq_or_of_lt l.isLt, Nat.shiftLeft_eq]

theorem ie_bounds {d : Definition} {tag : Byte} {ie : List Byte} {off len : Nat} (h : Ie d tag ie off len) :
    0 < ie.length ∧ off + len ≤ ie.length := by
  cases h <;> simp <;> omega

theorem finish_le {N : Int} {tag : Byte} {a b c : Nat} (h : (c : Int) ≤ N) : finish N tag a b c = .ok tag a b c := by
  unfold finish
  rw [if_neg (by omega)]

theorem parse_of_ie' {d : Definition} {tag : Byte} {ie : List Byte} {off len : Nat} (h : Ie d tag ie off len) (rest : List Byte)
    (N : Int) (hN : (ie.length : Int) ≤ N) : parseOne d (ie ++ rest) N = some (.ok tag off len ie.length) := by
  have hb := ie_bounds h
  have hpos : ¬ N < 1 := by omega
  have hplain : ∀ t : Byte, Plain d t → ¬ ((d (t >>> 4)).type = .singleTv) ∧
      ¬ (t.toNat > 0x0f ∧ (d (t &&& 0xf0#8)).type = .singleTv) :=
    fun t hp => ⟨hp.1, fun hc => hp.2 hc.1 hc.2⟩
  cases h with
  | half b h => simp [parseOne, h, hpos]
  | halfOld b h1 h2 h3 => simp [parseOne, h1, h2, h3, hpos]
  | t _ hp ht =>
    obtain ⟨a, b⟩ := hplain tag hp
    simp only [List.length_cons, List.length_nil] at hN
    simp only [parseOne, if_neg hpos, List.cons_append, List.getElem?_cons_zero, Option.bind_some, if_neg a, if_neg b, ht]
    rw [finish_le (by omega)]; rfl
  | tv _ v hp ht =>
    obtain ⟨a, b⟩ := hplain tag hp
    simp only [List.length_cons, List.length_nil] at hN
    simp only [parseOne, if_neg hpos, List.cons_append, List.getElem?_cons_zero, Option.bind_some, if_neg a, if_neg b, ht]
    rw [finish_le (by omega)]; rfl
  | fixed _ v hp ht hl =>
    obtain ⟨a, b⟩ := hplain tag hp
    simp only [List.length_cons, List.length_nil] at hN
    simp only [parseOne, if_neg hpos, List.cons_append, List.getElem?_cons_zero, Option.bind_some, if_neg a, if_neg b, ht]
    rw [finish_le (by omega), hl]; simp [hl]
  | tlv _ l v hp ht hl =>
    obtain ⟨a, b⟩ := hplain tag hp
    simp only [List.length_cons, List.length_nil] at hN
    simp only [parseOne, if_neg hpos, List.cons_append, List.getElem?_cons_zero, Option.bind_some, if_neg a, if_neg b, ht]
    rw [parseTlv, if_neg (show ¬ N < 2 by omega)]
    simp only [List.getElem?_cons_succ, List.getElem?_cons_zero, Option.bind_some, Option.map_some, be16]
    rw [finish_le (by omega), hl]; simp [hl]
  | tl16v _ h l v hp ht hl =>
    obtain ⟨a, b⟩ := hplain tag hp
    simp only [List.length_cons, List.length_nil] at hN
    simp only [parseOne, if_neg hpos, List.cons_append, List.getElem?_cons_zero, Option.bind_some, if_neg a, if_neg b, ht]
    rw [parseTl16v, if_neg (show ¬ N < 3 by omega)]
    simp only [List.getElem?_cons_succ, List.getElem?_cons_zero, Option.bind_some, Option.map_some, be16]
    rw [finish_le (by omega), hl]; simp [hl]
  | tvlvShort _ l v hp ht h7 hl =>
    obtain ⟨a, b⟩ := hplain tag hp
    simp only [List.length_cons, List.length_nil] at hN
    simp only [parseOne, if_neg hpos, List.cons_append, List.getElem?_cons_zero, Option.bind_some, if_neg a, if_neg b, ht]
    rw [if_neg (show ¬ N < 2 by omega)]
    simp only [List.getElem?_cons_succ, List.getElem?_cons_zero, Option.bind_some, Option.map_some, be16]
    rw [if_pos ((bit7 l).1.2 h7), (bit7 l).2]
    have e : l.toNat % 128 = v.length := by have := l.isLt; omega
    rw [e, finish_le (by omega)]; simp
  | tvlvLong _ h l v hp ht h7 hl =>
    obtain ⟨a, b⟩ := hplain tag hp
    simp only [List.length_cons, List.length_nil] at hN
    simp only [parseOne, if_neg hpos, List.cons_append, List.getElem?_cons_zero, Option.bind_some, if_neg a, if_neg b, ht]
    rw [if_neg (show ¬ N < 2 by omega)]
    simp only [List.getElem?_cons_succ, List.getElem?_cons_zero, Option.bind_some, Option.map_some, be16]
    have hc : ¬ (h &&& 0x80#8 ≠ 0#8) := fun hc => by have := (bit7 h).1.1 hc; omega
    rw [if_neg hc, parseTl16v, if_neg (show ¬ N < 3 by omega)]
    simp only [List.getElem?_cons_succ, List.getElem?_cons_zero, Option.bind_some, Option.map_some, be16]
    rw [finish_le (by omega), hl]; simp [hl]
  | ganShort _ l v hp ht h7 hl =>
    obtain ⟨a, b⟩ := hplain tag hp
    simp only [List.length_cons, List.length_nil] at hN
    simp only [parseOne, if_neg hpos, List.cons_append, List.getElem?_cons_zero, Option.bind_some, if_neg a, if_neg b, ht]
    rw [if_neg (show ¬ N < 2 by omega)]
    simp only [List.getElem?_cons_succ, List.getElem?_cons_zero, Option.bind_some, Option.map_some, be16]
    have hc : ¬ (l &&& 0x80#8 ≠ 0#8) := fun hc => by have := (bit7 l).1.1 hc; omega
    rw [if_neg hc, parseTlv, if_neg (show ¬ N < 2 by omega)]
    simp only [List.getElem?_cons_succ, List.getElem?_cons_zero, Option.bind_some, Option.map_some, be16]
    rw [finish_le (by omega), hl]; simp [hl]
  | ganLong _ h l v hp ht h7 hl =>
    obtain ⟨a, b⟩ := hplain tag hp
    simp only [List.length_cons, List.length_nil] at hN
    simp only [parseOne, if_neg hpos, List.cons_append, List.getElem?_cons_zero, Option.bind_some, if_neg a, if_neg b, ht]
    rw [if_neg (show ¬ N < 2 by omega)]
    simp only [List.getElem?_cons_succ, List.getElem?_cons_zero, Option.bind_some, Option.map_some, be16]
    rw [if_pos ((bit7 h).1.2 h7), if_neg (show ¬ N < 3 by omega)]
    simp only [(bit7 h).2]
    have e : h.toNat % 128 * 256 + l.toNat = v.length := by have := h.isLt; omega
    rw [e, finish_le (by omega)]; simp

/-- elements parse to what the grammar says, whatever follows them -/
theorem parse_of_ie {d : Definition} {tag : Byte} {ie : List Byte} {off len : Nat} (h : Ie d tag ie off len) (rest : List Byte) :
    parseOne d (ie ++ rest) ((ie ++ rest).length : Nat) = some (.ok tag off len ie.length) :=
  parse_of_ie' h rest _ (by rw [List.length_append]; omega)

theorem finish_ok {n : Nat} {tag tag' : Byte} {a b c a' b' c' : Nat} (h : finish (n : Nat) tag a b c = .ok tag' a' b' c') :
    tag = tag' ∧ a = a' ∧ b = b' ∧ c = c' ∧ c ≤ n := by
  unfold finish at h
  split at h
  · cases h
  · cases h; refine ⟨rfl, rfl, rfl, rfl, by omega⟩

theorem take_split (l : List Byte) (n : Nat) (h : n ≤ l.length) : ∃ v rest, l = v ++ rest ∧ v.length = n :=
  ⟨l.take n, l.drop n, (List.take_append_drop n l).symm, by simp [h]⟩

/-- C26: a successful tlv_parse_one has found one element of the grammar at the
start of the buffer -/
theorem ie_of_parse {d : Definition} {buf : List Byte} {tag : Byte} {off len n : Nat}
    (h : parseOne d buf (buf.length : Nat) = some (.ok tag off len n)) :
    ∃ ie rest, buf = ie ++ rest ∧ ie.length = n ∧ Ie d tag ie off len := by
  unfold parseOne at h
  split at h
  · cases h
  · cases buf with
    | nil => cases h
    | cons b tl =>
      simp only [List.getElem?_cons_zero, Option.bind_some] at h
      split at h
      · rename_i hs
        cases h
        exact ⟨[b], tl, rfl, rfl, .half b hs⟩
      · rename_i hs
        split at h
        · rename_i hs2
          cases h
          exact ⟨[b], tl, rfl, rfl, .halfOld b hs hs2.1 hs2.2⟩
        · rename_i hs2
          have hp : Plain d b := ⟨hs, fun hc hd => hs2 ⟨hc, hd⟩⟩
          split at h
          · rename_i ht
            obtain ⟨rfl, rfl, rfl, rfl, _⟩ := finish_ok (Option.some.inj h)
            exact ⟨[b], tl, rfl, rfl, .t b hp ht⟩
          · rename_i ht
            obtain ⟨rfl, rfl, rfl, rfl, hc⟩ := finish_ok (Option.some.inj h)
            cases tl with
            | nil => simp at hc
            | cons v tl => exact ⟨[b, v], tl, rfl, rfl, .tv b v hp ht⟩
          · rename_i ht
            obtain ⟨rfl, rfl, rfl, rfl, hc⟩ := finish_ok (Option.some.inj h)
            simp only [List.length_cons] at hc
            obtain ⟨v, rest, rfl, hv⟩ := take_split tl (d b).fixedLen.toNat (by omega)
            refine ⟨b :: v, rest, rfl, by simp [hv], ?_⟩
            rw [← hv]
            exact .fixed b v hp ht hv
          · rename_i ht
            unfold parseTlv at h
            split at h
            · cases h
            · cases tl with
              | nil => cases h
              | cons l tl =>
                simp only [List.getElem?_cons_succ, List.getElem?_cons_zero, Option.map_some] at h
                obtain ⟨rfl, rfl, rfl, rfl, hc⟩ := finish_ok (Option.some.inj h)
                simp only [List.length_cons] at hc
                obtain ⟨v, rest, rfl, hv⟩ := take_split tl l.toNat (by omega)
                refine ⟨b :: l :: v, rest, rfl, by simp [hv], ?_⟩
                rw [← hv]
                exact .tlv b l v hp ht hv
          · rename_i ht
            split at h
            · cases h
            · cases tl with
              | nil => cases h
              | cons l tl =>
                simp only [List.getElem?_cons_succ, List.getElem?_cons_zero, Option.bind_some] at h
                split at h
                · rename_i h7
                  split at h
                  · cases h
                  · cases tl with
                    | nil => cases h
                    | cons l2 tl =>
                      simp only [List.getElem?_cons_succ, List.getElem?_cons_zero, Option.map_some, be16] at h
                      obtain ⟨rfl, rfl, rfl, rfl, hc⟩ := finish_ok (Option.some.inj h)
                      simp only [List.length_cons] at hc
                      obtain ⟨v, rest, rfl, hv⟩ := take_split tl ((l &&& 0x7f#8).toNat * 256 + l2.toNat) (Nat.le_of_add_le_add_right (b := 3) hc)
                      refine ⟨b :: l :: l2 :: v, rest, rfl, by simp [hv], ?_⟩
                      rw [← hv]
                      have h7 := (bit7 l).1.1 h7
                      refine .ganLong b l l2 v hp ht h7 ?_
                      rw [hv, (bit7 l).2]
                      have := l.isLt
                      omega
                · rename_i h7
                  unfold parseTlv at h
                  split at h
                  · cases h
                  · simp only [List.getElem?_cons_succ, List.getElem?_cons_zero, Option.map_some] at h
                    obtain ⟨rfl, rfl, rfl, rfl, hc⟩ := finish_ok (Option.some.inj h)
                    simp only [List.length_cons] at hc
                    obtain ⟨v, rest, rfl, hv⟩ := take_split tl l.toNat (by omega)
                    refine ⟨b :: l :: v, rest, rfl, by simp [hv], ?_⟩
                    rw [← hv]
                    have h7 : ¬ 128 ≤ l.toNat := fun hc => h7 ((bit7 l).1.2 hc)
                    exact .ganShort b l v hp ht (by omega) hv
          · rename_i ht
            split at h
            · cases h
            · cases tl with
              | nil => cases h
              | cons l tl =>
                simp only [List.getElem?_cons_succ, List.getElem?_cons_zero, Option.bind_some] at h
                split at h
                · rename_i h7
                  obtain ⟨rfl, rfl, rfl, rfl, hc⟩ := finish_ok (Option.some.inj h)
                  simp only [List.length_cons] at hc
                  obtain ⟨v, rest, rfl, hv⟩ := take_split tl (l &&& 0x7f#8).toNat (by omega)
                  refine ⟨b :: l :: v, rest, rfl, by simp [hv], ?_⟩
                  rw [← hv]
                  have h7 := (bit7 l).1.1 h7
                  refine .tvlvShort b l v hp ht h7 ?_
                  rw [hv, (bit7 l).2]
                  have := l.isLt
                  omega
                · rename_i h7
                  unfold parseTl16v at h
                  split at h
                  · cases h
                  · cases tl with
                    | nil => cases h
                    | cons l2 tl =>
                      simp only [List.getElem?_cons_succ, List.getElem?_cons_zero, Option.bind_some, Option.map_some, be16] at h
                      obtain ⟨rfl, rfl, rfl, rfl, hc⟩ := finish_ok (Option.some.inj h)
                      simp only [List.length_cons] at hc
                      obtain ⟨v, rest, rfl, hv⟩ := take_split tl (l.toNat * 256 + l2.toNat) (Nat.le_of_add_le_add_right (b := 3) hc)
                      refine ⟨b :: l :: l2 :: v, rest, rfl, by simp [hv], ?_⟩
                      rw [← hv]
                      have h7 : ¬ 128 ≤ l.toNat := fun hc => h7 ((bit7 l).1.2 hc)
                      exact .tvlvLong b l l2 v hp ht (by omega) hv
          · rename_i ht
            unfold parseTl16v at h
            split at h
            · cases h
            · cases tl with
              | nil => cases h
              | cons l tl =>
                cases tl with
                | nil => cases h
                | cons l2 tl =>
                  simp only [List.getElem?_cons_succ, List.getElem?_cons_zero, Option.bind_some, Option.map_some, be16] at h
                  obtain ⟨rfl, rfl, rfl, rfl, hc⟩ := finish_ok (Option.some.inj h)
                  simp only [List.length_cons] at hc
                  obtain ⟨v, rest, rfl, hv⟩ := take_split tl (l.toNat * 256 + l2.toNat) (Nat.le_of_add_le_add_right (b := 3) hc)
                  refine ⟨b :: l :: l2 :: v, rest, rfl, by simp [hv], ?_⟩
                  rw [← hv]
                  exact .tl16v b l l2 v hp ht hv
          all_goals cases h

/-- C26: tlv_parse_one succeeds exactly on the elements of the grammar -/
theorem parseOne_iff (d : Definition) (buf : List Byte) (tag : Byte) (off len n : Nat) :
    parseOne d buf (buf.length : Nat) = some (.ok tag off len n) ↔
      ∃ ie rest, buf = ie ++ rest ∧ ie.length = n ∧ Ie d tag ie off len := by
  constructor
  · exact ie_of_parse
  · rintro ⟨ie, rest, rfl, rfl, h⟩
    exact parse_of_ie h rest

/-- C26: no read is outside of the buffer, whatever its size (also when the
memory is larger than the length given, or the length is negative), and errors
are the three documented ones -/
theorem parseOne_safe (d : Definition) (mem : List Byte) (bufLen : Int) (h : bufLen ≤ mem.length) :
    ∃ r, parseOne d mem bufLen = some r ∧
      (∀ rc, r = .err rc → rc = -1 ∨ rc = -2 ∨ rc = -3) ∧
      (∀ tag off len n, r = .ok tag off len n → 0 < n ∧ (n : Int) ≤ bufLen ∧ off + len ≤ n) := by
  have hf : ∀ tag a b c, 0 < c → a + b ≤ c →
      (∀ rc, finish bufLen tag a b c = .err rc → rc = -1 ∨ rc = -2 ∨ rc = -3) ∧
      (∀ tag' off len n, finish bufLen tag a b c = .ok tag' off len n → 0 < n ∧ (n : Int) ≤ bufLen ∧ off + len ≤ n) := by
    intro tag a b c hc hab
    unfold finish
    split
    · exact ⟨fun rc hr => by cases hr; simp, fun _ _ _ _ hr => by cases hr⟩
    · exact ⟨fun rc hr => (by cases hr), fun _ _ _ _ hr => by cases hr; exact ⟨hc, by omega, hab⟩⟩
  have he : ∀ rc : Int, rc = -1 ∨ rc = -2 ∨ rc = -3 →
      (∀ rc', One.err rc = .err rc' → rc' = -1 ∨ rc' = -2 ∨ rc' = -3) ∧
      (∀ tag' off len n, One.err rc = .ok tag' off len n → 0 < n ∧ (n : Int) ≤ bufLen ∧ off + len ≤ n) :=
    fun rc hrc => ⟨fun rc' hr => by cases hr; exact hrc, fun _ _ _ _ hr => by cases hr⟩
  have h16 : ∀ tag, ∃ r, parseTl16v mem bufLen tag = some r ∧
      (∀ rc, r = .err rc → rc = -1 ∨ rc = -2 ∨ rc = -3) ∧
      (∀ tag off len n, r = .ok tag off len n → 0 < n ∧ (n : Int) ≤ bufLen ∧ off + len ≤ n) := by
    intro tag
    unfold parseTl16v
    split
    · exact ⟨_, rfl, he _ (by simp)⟩
    · rw [List.getElem?_eq_getElem (show 1 < mem.length by omega), List.getElem?_eq_getElem (show 2 < mem.length by omega)]
      exact ⟨_, rfl, hf _ _ _ _ (by omega) (by omega)⟩
  have h8 : ∀ tag, ∃ r, parseTlv mem bufLen tag = some r ∧
      (∀ rc, r = .err rc → rc = -1 ∨ rc = -2 ∨ rc = -3) ∧
      (∀ tag off len n, r = .ok tag off len n → 0 < n ∧ (n : Int) ≤ bufLen ∧ off + len ≤ n) := by
    intro tag
    unfold parseTlv
    split
    · exact ⟨_, rfl, he _ (by simp)⟩
    · rw [List.getElem?_eq_getElem (show 1 < mem.length by omega)]
      exact ⟨_, rfl, hf _ _ _ _ (by omega) (by omega)⟩
  unfold parseOne
  split
  · exact ⟨_, rfl, he _ (by simp)⟩
  · rw [List.getElem?_eq_getElem (show 0 < mem.length by omega), Option.bind_some]
    generalize mem[0] = tag
    split
    · refine ⟨_, rfl, fun rc hr => (by cases hr), fun _ _ _ _ hr => ?_⟩
      cases hr; omega
    · split
      · refine ⟨_, rfl, fun rc hr => (by cases hr), fun _ _ _ _ hr => ?_⟩
        cases hr; omega
      · split
        · exact ⟨_, rfl, hf _ _ _ _ (by omega) (by omega)⟩
        · exact ⟨_, rfl, hf _ _ _ _ (by omega) (by omega)⟩
        · exact ⟨_, rfl, hf _ _ _ _ (by omega) (by omega)⟩
        · exact h8 tag
        · split
          · exact ⟨_, rfl, he _ (by simp)⟩
          · rw [List.getElem?_eq_getElem (show 1 < mem.length by omega), Option.bind_some]
            split
            · split
              · exact ⟨_, rfl, he _ (by simp)⟩
              · rw [List.getElem?_eq_getElem (show 2 < mem.length by omega)]
                exact ⟨_, rfl, hf _ _ _ _ (by omega) (by omega)⟩
            · exact h8 tag
        · split
          · exact ⟨_, rfl, he _ (by simp)⟩
          · rw [List.getElem?_eq_getElem (show 1 < mem.length by omega), Option.bind_some]
            split
            · exact ⟨_, rfl, hf _ _ _ _ (by omega) (by omega)⟩
            · exact h16 tag
        · exact h16 tag
        all_goals exact ⟨_, rfl, he _ (by simp)⟩

/-! ## tlv_parse2 -/

/-- `Ies d ofs buf ies`: the bytes `buf`, starting at offset `ofs` of the
message, are a sequence of elements; `ies` lists their tags and value windows. -/
inductive Ies (d : Definition) : Nat → List Byte → List (Byte × Nat × Nat) → Prop
  | nil (ofs : Nat) : Ies d ofs [] []
  | cons (ofs : Nat) (tag : Byte) (ie rest : List Byte) (off len : Nat) (ies : List (Byte × Nat × Nat)) :
      Ie d tag ie off len → Ies d (ofs + ie.length) rest ies → Ies d ofs (ie ++ rest) ((tag, ofs + off, len) :: ies)

/-- the occurrences of a tag, in order -/
def occurrences (tag : Byte) (ies : List (Byte × Nat × Nat)) : List (Nat × Nat) :=
  (ies.filter fun e => e.1 = tag).map (·.2)

/-- `dec` holds the first occurrences of each tag, the k-th one in element k -/
def Holds (dec : List Parsed) (ies : List (Byte × Nat × Nat)) : Prop :=
  ∀ (k : Nat) (p : Parsed), dec[k]? = some p → ∀ tag, p tag = (occurrences tag ies)[k]?

theorem store_length (tag : Byte) (v : Nat × Nat) (dec : List Parsed) : (store tag v dec).length = dec.length := by
  induction dec with
  | nil => rfl
  | cons p ps ih =>
    unfold store
    split
    · simp [ih]
    · simp

/-- storing one more element -/
theorem store_get (tag : Byte) (v : Nat × Nat) (dec : List Parsed) (occ : Byte → List (Nat × Nat)) (base : Nat)
    (h : ∀ k p, dec[k]? = some p → ∀ t, p t = (occ t)[base + k]?) (hb : base ≤ (occ tag).length) :
    ∀ k p, (store tag v dec)[k]? = some p → ∀ t, p t = ((if t = tag then occ t ++ [v] else occ t))[base + k]? := by
  induction dec generalizing base with
  | nil => intro k p hk; simp [store] at hk
  | cons q ps ih =>
    intro k p hk t
    unfold store at hk
    have hq := h 0 q (by simp)
    have hps : ∀ k p, ps[k]? = some p → ∀ t, p t = (occ t)[base + 1 + k]? := by
      intro k p hk t
      have := h (k + 1) p (by simpa using hk) t
      rwa [show base + (k + 1) = base + 1 + k by omega] at this
    split at hk
    · rename_i hsome
      have hlt : base < (occ tag).length := by
        rw [hq tag] at hsome
        by_contra hc
        rw [List.getElem?_eq_none (by omega)] at hsome
        cases hsome
      cases k with
      | zero =>
        simp only [List.getElem?_cons_zero, Option.some.injEq] at hk
        subst hk
        rw [hq t]
        split
        · rename_i ht
          subst ht
          rw [Nat.add_zero, List.getElem?_append_left hlt]
        · rfl
      | succ k =>
        simp only [List.getElem?_cons_succ] at hk
        have := ih (base + 1) hps (by omega) k p hk t
        rwa [show base + 1 + k = base + (k + 1) by omega] at this
    · rename_i hnone
      have heq : base = (occ tag).length := by
        rw [hq tag] at hnone
        by_contra hc
        apply hnone
        rw [Nat.add_zero, List.getElem?_eq_getElem (by omega)]
        rfl
      cases k with
      | zero =>
        simp only [List.getElem?_cons_zero, Option.some.injEq] at hk
        subst hk
        unfold setEntry
        split
        · rename_i ht
          subst ht
          rw [Nat.add_zero, heq, List.getElem?_append_right (Nat.le_refl _)]
          simp
        · exact hq t
      | succ k =>
        simp only [List.getElem?_cons_succ] at hk
        rw [hps k p hk t]
        split
        · rename_i ht
          subst ht
          rw [List.getElem?_eq_none (by omega), List.getElem?_eq_none (by simp; omega)]
        · rw [show base + 1 + k = base + (k + 1) by omega]

theorem holds_store {dec : List Parsed} {ies : List (Byte × Nat × Nat)} (h : Holds dec ies) (tag : Byte) (v : Nat × Nat) :
    Holds (store tag v dec) (ies ++ [(tag, v)]) := by
  intro k p hk t
  have := store_get tag v dec (fun t => occurrences t ies) 0 (by
    intro k p hk t
    rw [Nat.zero_add]
    exact h k p hk t) (Nat.zero_le _) k p hk t
  rw [this, Nat.zero_add]
  congr 1
  unfold occurrences
  rw [List.filter_append, List.map_append]
  split
  · rename_i ht
    subst ht
    simp
  · rename_i ht
    have : ¬ tag = t := fun h => ht h.symm
    simp [this]

/-- the loop: it ends, reads only the buffer, and on success has seen the whole
rest as a sequence of elements -/
theorem parseLoop_spec (d : Definition) (mem : List Byte) (f ofs num : Nat) (dec : List Parsed)
    (ies0 : List (Byte × Nat × Nat)) (hh : Holds dec ies0) (hn : ies0.length = num) (ho : ofs ≤ mem.length)
    (hf : mem.length - ofs < f) :
    ∃ rc dec', parseLoop d mem (mem.length : Nat) f ofs num dec = .done rc dec' ∧ dec'.length = dec.length ∧
      ((∃ ies, Ies d ofs (mem.drop ofs) ies ∧ rc = (ies0 ++ ies).length ∧ Holds dec' (ies0 ++ ies)) ∨
        (rc < 0 ∧ ¬ ∃ ies, Ies d ofs (mem.drop ofs) ies)) := by
  induction f generalizing ofs num dec ies0 with
  | zero => omega
  | succ f ih =>
    unfold parseLoop
    by_cases hlt : ofs < mem.length
    · rw [if_pos (by exact_mod_cast hlt)]
      have hlen : ((mem.length : Nat) : Int) - (ofs : Int) = ((mem.drop ofs).length : Nat) := by
        rw [List.length_drop]; omega
      rw [hlen]
      obtain ⟨r, hr, herr, hok⟩ := parseOne_safe d (mem.drop ofs) ((mem.drop ofs).length : Nat) (by simp)
      rw [hr]
      cases r with
      | err rc =>
        refine ⟨rc, dec, rfl, rfl, .inr ⟨by have := herr rc rfl; omega, ?_⟩⟩
        rintro ⟨ies, hies⟩
        generalize hm : mem.drop ofs = m at hies hr
        cases hies with
        | nil =>
          have := congrArg List.length hm
          simp at this; omega
        | cons _ tag ie rest off len ies h1 h2 =>
          rw [parse_of_ie h1 rest] at hr
          cases hr
      | ok tag off len n =>
        obtain ⟨h1, h2, h3⟩ := hok tag off len n rfl
        obtain ⟨ie, rest, hsplit, hlie, hie⟩ := ie_of_parse hr
        rw [List.length_drop] at h2
        have h2 : n ≤ mem.length - ofs := by exact_mod_cast h2
        obtain ⟨rc, dec', e1, e2, e3⟩ := ih (ofs + n) (num + 1) (store tag (ofs + off, len) dec)
          (ies0 ++ [(tag, ofs + off, len)]) (holds_store hh tag (ofs + off, len)) (by simp [hn]) (by omega) (by omega)
        have hrest : mem.drop (ofs + n) = rest := by
          rw [← List.drop_drop, hsplit, ← hlie, List.drop_left]
        refine ⟨rc, dec', e1, by rw [e2, store_length], ?_⟩
        rw [hrest] at e3
        rcases e3 with ⟨ies, g1, g2, g3⟩ | ⟨g1, g2⟩
        · refine .inl ⟨(tag, ofs + off, len) :: ies, ?_, by rw [g2]; simp, by simpa using g3⟩
          rw [hsplit]
          exact .cons ofs tag ie rest off len ies hie (by rw [hlie]; exact g1)
        · refine .inr ⟨g1, ?_⟩
          rintro ⟨ies, hies⟩
          apply g2
          generalize hm : mem.drop ofs = m at hies hr
          cases hies with
          | nil =>
            have := congrArg List.length hm
            simp at this; omega
          | cons _ tag' ie' rest' off' len' ies' f1 f2 =>
            rw [parse_of_ie f1 rest'] at hr
            cases hr
            have hr : mem.drop (ofs + ie'.length) = rest' := by
              rw [← List.drop_drop, hm, List.drop_left]
            rw [hrest] at hr
            rw [hr]
            exact ⟨ies', f2⟩
    · rw [if_neg (by omega)]
      refine ⟨num, dec, rfl, rfl, .inl ⟨[], ?_, by simp [hn], by simpa using hh⟩⟩
      rw [List.drop_of_length_le (by omega)]
      exact .nil ofs

theorem holds_empty (n : Nat) : Holds (List.replicate n fun _ => none) [] := by
  intro k p hk tag
  rw [List.getElem?_replicate] at hk
  split at hk
  · cases hk; rfl
  · cases hk

/-- C26: tlv_parse2 without initial LVs ends on every buffer without reading
outside of it.  It succeeds exactly on sequences of elements, returns their
number, and stores the k-th occurrence of each tag in the k-th result. -/
theorem parse2_spec (multiples : Nat) (d : Definition) (buf : List Byte) :
    ∃ rc dec, parse2 multiples d buf (buf.length : Nat) 0#8 0#8 = .done rc dec ∧ dec.length = multiples ∧
      ((∃ ies, Ies d 0 buf ies ∧ rc = ies.length ∧ Holds dec ies) ∨ (rc < 0 ∧ ¬ ∃ ies, Ies d 0 buf ies)) := by
  unfold parse2 parseLv
  simp only [if_true]
  obtain ⟨rc, dec, h1, h2, h3⟩ := parseLoop_spec d buf (((buf.length : Nat) : Int).toNat + 1) 0 0
    (List.replicate multiples fun _ => none) [] (holds_empty _) rfl (by omega) (by simp)
  refine ⟨rc, dec, h1, by simpa using h2, ?_⟩
  simpa using h3

theorem holds_first {v : Nat × Nat} {tag : Byte} (n : Nat) :
    Holds (storeLv tag v (List.replicate n fun _ => none)) [(tag, v)] ∧
      (storeLv tag v (List.replicate n fun _ => none)).length = n := by
  have : storeLv tag v (List.replicate n fun _ => none) = store tag v (List.replicate n fun _ => none) := by
    cases n with
    | zero => rfl
    | succ n => simp [storeLv, store, List.replicate_succ]
  rw [this]
  exact ⟨holds_store (holds_empty n) tag v, by simp [store_length]⟩

/-- Full claim missing: an empty buffer (`lv_tag_oob_counterexample`), and two
initial LVs (`lv_tag2_oob_counterexample`, `lv_tag_store_counterexample`).
With one initial LV and a buffer that is not empty: the element is stored as
first occurrence of its tag, and the rest is parsed as without it. -/
theorem parse2_lv_partial (multiples : Nat) (d : Definition) (l : Byte) (buf : List Byte) (lvTag : Byte) (ht : lvTag ≠ 0#8) :
    ∃ rc dec, parse2 multiples d (l :: buf) ((l :: buf).length : Nat) lvTag 0#8 = .done rc dec ∧ dec.length = multiples ∧
      ((∃ v rest ies, buf = v ++ rest ∧ v.length = l.toNat ∧ Ies d (1 + l.toNat) rest ies ∧ rc = 1 + ies.length ∧
          Holds dec ((lvTag, 1, l.toNat) :: ies)) ∨
        (rc < 0 ∧ ¬ ∃ v rest ies, buf = v ++ rest ∧ v.length = l.toNat ∧ Ies d (1 + l.toNat) rest ies)) := by
  unfold parse2 parseLv
  simp only [if_neg ht, if_true]
  rw [if_neg (by simp; omega)]
  simp only [List.getElem?_cons_zero]
  by_cases hlen : l.toNat ≤ buf.length
  · rw [if_neg (by simp; omega)]
    obtain ⟨hst, hsl⟩ := holds_first (v := (1, l.toNat)) (tag := lvTag) multiples
    obtain ⟨rc, dec, h1, h2, h3⟩ := parseLoop_spec d (l :: buf) ((((l :: buf).length : Nat) : Int).toNat + 1) (0 + (l.toNat + 1)) 1
      (storeLv lvTag (0 + 1, l.toNat) (List.replicate multiples fun _ => none)) [(lvTag, 1, l.toNat)] hst rfl
      (by simp; omega) (by simp; omega)
    refine ⟨rc, dec, h1, by rw [h2, hsl], ?_⟩
    have hdrop : (l :: buf).drop (0 + (l.toNat + 1)) = buf.drop l.toNat := by
      rw [Nat.zero_add, List.drop_succ_cons]
    rw [hdrop, show 0 + (l.toNat + 1) = 1 + l.toNat by omega] at h3
    rcases h3 with ⟨ies, g1, g2, g3⟩ | ⟨g1, g2⟩
    · refine .inl ⟨buf.take l.toNat, buf.drop l.toNat, ies, (List.take_append_drop _ _).symm, by simp [hlen], g1, ?_, g3⟩
      rw [g2]; simp; omega
    · refine .inr ⟨g1, ?_⟩
      rintro ⟨v, rest, ies, e1, e2, e3⟩
      apply g2
      refine ⟨ies, ?_⟩
      rw [e1, ← e2, List.drop_left, e2]
      exact e3
  · rw [if_pos (by simp; omega)]
    refine ⟨-2, _, rfl, by simp, .inr ⟨by omega, ?_⟩⟩
    rintro ⟨v, rest, ies, e1, e2, e3⟩
    rw [e1] at hlen
    simp at hlen; omega

/-- C26: an initial LV in an empty buffer is read from outside of the buffer -/
theorem lv_tag_oob_counterexample (d : Definition) :
    (match parse2 1 d [] 0 5#8 0#8 with | .ub => true | _ => false) = true := rfl

/-- C26: so is a second initial LV behind one that fills the buffer -/
theorem lv_tag2_oob_counterexample (d : Definition) :
    (match parse2 1 d [1#8, 7#8] 2 5#8 6#8 with | .ub => true | _ => false) = true := rfl

/-- C26: with room for two occurrences and twice the same initial tag, the
second one replaces the first instead of going to the second result -/
theorem lv_tag_store_counterexample (d : Definition) :
    (match parse2 2 d [1#8, 7#8, 1#8, 8#8] 4 5#8 5#8 with
      | .done _ dec => some (dec.map fun p => p 5#8)
      | _ => none) = some [some (3, 1), none] := rfl

/-- a definition table for the examples: 1 = TLV, 2 = TvLV, 8 = half octet, 3 = fixed 2 bytes -/
def exDef : Definition := fun t =>
  if t = 1#8 then ⟨.tlv, 0#8⟩ else if t = 2#8 then ⟨.tvlv, 0#8⟩ else if t = 8#8 then ⟨.singleTv, 0#8⟩
  else if t = 3#8 then ⟨.fixed, 2#8⟩ else ⟨.none, 0#8⟩

example : parseOne exDef [1#8, 2#8, 0xaa#8, 0xbb#8, 0xcc#8] 5 = some (.ok 1#8 2 2 4) ∧
    parseOne exDef [0x85#8] 1 = some (.ok 8#8 0 1 1) ∧
    parseOne exDef [2#8, 0x81#8, 0xbb#8] 3 = some (.ok 2#8 2 1 3) ∧
    parseOne exDef [3#8, 0x81#8] 2 = some (.err (-2)) := by decide

example : (match parse2 2 exDef [1#8, 0#8, 3#8, 7#8, 7#8, 1#8, 1#8, 9#8] 8 0#8 0#8 with
    | .done rc dec => some (rc, dec.map fun p => p 1#8) | _ => none) = some (3, [some (2, 0), some (7, 1)]) := by decide

end Verif.Tlv
