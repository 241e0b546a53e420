import Verif.SpeechCodec.Model
/-!
Properties of speech codec elements (C155).
-/
namespace Verif.SpeechCodec
open Verif.RaId

/-- Octets of configuration of each codec type of TS 48.008: none for FR1, FR2
and HR1, one for the wide band codecs and CSData, two for the AMR ones. -/
def cfgSize : List (Nat × Nat) :=
  [(0, 0), (1, 0), (2, 0), (3, 2), (4, 2), (9, 1), (11, 2), (12, 1), (13, 1), (0xfd, 1)]

/-- A codec that has a code: its type is known and its configuration fits. -/
def Valid (sc : Codec) : Prop :=
  ∃ n, (sc.type.toNat, n) ∈ cfgSize ∧ sc.cfg.toNat < 256 ^ n

/-- The code: a header of four flags and four bits of type, or 15 and an octet
of type; then the configuration, least significant octet first. -/
def wire (sc : Codec) : List Byte :=
  let f := 128 * sc.fi.toNat + 64 * sc.pi.toNat + 32 * sc.pt.toNat + 16 * sc.tf.toNat
  (if sc.type.toNat < 15 then [BitVec.ofNat 8 (f + sc.type.toNat)]
    else [BitVec.ofNat 8 (f + 15), sc.type]) ++
  (match cfgSize.lookup sc.type.toNat with
    | some 2 => [BitVec.ofNat 8 (sc.cfg.toNat % 256), BitVec.ofNat 8 (sc.cfg.toNat / 256)]
    | some 1 => [BitVec.ofNat 8 sc.cfg.toNat]
    | _ => [])

theorem be16_swap (v : BitVec 16) :
    be16 (ntohs false v) = [BitVec.ofNat 8 (v.toNat % 256), BitVec.ofNat 8 (v.toNat / 256)] := by
  have h1 : ((((v <<< 8) ||| (v >>> 8)) >>> 8).setWidth 8 : Byte) = BitVec.ofNat 8 (v.toNat % 256) := by
    apply BitVec.eq_of_getLsbD_eq
    intro i hi
    have : BitVec.ofNat 8 (v.toNat % 256) = v.setWidth 8 := by
      apply BitVec.eq_of_toNat_eq
      simp
    rw [this]
    have z : v.getLsbD (8 + (8 + i)) = false := BitVec.getLsbD_of_ge _ _ (by omega)
    simp only [BitVec.getLsbD_setWidth, BitVec.getLsbD_ushiftRight, BitVec.getLsbD_or,
      BitVec.getLsbD_shiftLeft, z, Bool.or_false]
    simp [hi, show 8 + i < 16 by omega, show ¬ 8 + i < 8 by omega]
  have h2 : (((v <<< 8) ||| (v >>> 8)).setWidth 8 : Byte) = BitVec.ofNat 8 (v.toNat / 256) := by
    apply BitVec.eq_of_getLsbD_eq
    intro i hi
    have : BitVec.ofNat 8 (v.toNat / 256) = (v >>> 8).setWidth 8 := by
      apply BitVec.eq_of_toNat_eq
      simp [Nat.shiftRight_eq_div_pow]
    rw [this]
    simp [hi]
  unfold be16 ntohs
  rw [if_neg (by simp), h1, h2]

theorem flags_or (sc : Codec) (t : Byte) (h : t.toNat < 16) :
    flags sc ||| t = BitVec.ofNat 8
      (128 * sc.fi.toNat + 64 * sc.pi.toNat + 32 * sc.pt.toNat + 16 * sc.tf.toNat + t.toNat) := by
  obtain ⟨fi, pi, pt, tf, ty, cfg⟩ := sc
  have ht : t = BitVec.ofNat 8 t.toNat := by simp
  generalize t.toNat = n at h ht
  subst ht
  have key : ∀ fi pi pt tf : Bool, ∀ n : Fin 16,
      flags ⟨fi, pi, pt, tf, 0#8, 0#16⟩ ||| BitVec.ofNat 8 n.val = BitVec.ofNat 8
        (128 * fi.toNat + 64 * pi.toNat + 32 * pt.toNat + 16 * tf.toNat + n.val) := by decide
  exact key fi pi pt tf ⟨n, h⟩

theorem type_cases (t : Byte) (n : Nat) (h : (t.toNat, n) ∈ cfgSize) :
    (n = 0 ∧ (t = 0#8 ∨ t = 1#8 ∨ t = 2#8)) ∨
    (n = 2 ∧ (t = 3#8 ∨ t = 4#8 ∨ t = 11#8)) ∨
    (n = 1 ∧ (t = 9#8 ∨ t = 12#8 ∨ t = 13#8 ∨ t = 0xfd#8)) := by
  have e : ∀ k : Nat, t.toNat = k → t = BitVec.ofNat 8 k := by
    intro k hk
    rw [← hk]
    simp
  simp only [cfgSize, List.mem_cons, List.not_mem_nil, or_false, Prod.mk.injEq] at h
  rcases h with ⟨a, rfl⟩ | ⟨a, rfl⟩ | ⟨a, rfl⟩ | ⟨a, rfl⟩ | ⟨a, rfl⟩ | ⟨a, rfl⟩ | ⟨a, rfl⟩ | ⟨a, rfl⟩ |
    ⟨a, rfl⟩ | ⟨a, rfl⟩ <;> rw [e _ a] <;> simp

/-- Little endian host: a codec that has a code is encoded as that, one that has
none is refused. -/
theorem encOne_valid (sc : Codec) (h : Valid sc) : encOne false sc = .ok (wire sc) := by
  obtain ⟨n, hm, hc⟩ := h
  obtain ⟨fi, pi, pt, tf, ty, cfg⟩ := sc
  have e8 : cfg.toNat < 256 → (cfg >>> 8 = 0#16) ∧
      ((cfg.setWidth 8 : Byte) &&& 0xff#8) = BitVec.ofNat 8 cfg.toNat := by
    intro h
    constructor
    · apply BitVec.eq_of_toNat_eq
      simp [Nat.shiftRight_eq_div_pow]
      omega
    · rw [show (0xff#8) = BitVec.allOnes 8 from rfl, BitVec.and_allOnes]
      apply BitVec.eq_of_toNat_eq
      simp
  have fo := flags_or ⟨fi, pi, pt, tf, ty, cfg⟩
  have f15 := fo 0x0f#8 (by decide)
  simp only [] at hm hc fo
  rcases type_cases ty n hm with ⟨rfl, rfl | rfl | rfl⟩ | ⟨rfl, rfl | rfl | rfl⟩ |
    ⟨rfl, rfl | rfl | rfl | rfl⟩
  · have : cfg = 0#16 := BitVec.eq_of_toNat_eq (by simp at hc ⊢; omega)
    subst this
    simp [encOne, extended, cfgOctets, wire, cfgSize, List.lookup, fo]
  · have : cfg = 0#16 := BitVec.eq_of_toNat_eq (by simp at hc ⊢; omega)
    subst this
    simp [encOne, extended, cfgOctets, wire, cfgSize, List.lookup, fo]
  · have : cfg = 0#16 := BitVec.eq_of_toNat_eq (by simp at hc ⊢; omega)
    subst this
    simp [encOne, extended, cfgOctets, wire, cfgSize, List.lookup, fo]
  · simp [encOne, extended, cfgOctets, wire, cfgSize, List.lookup, fo, be16_swap]
  · simp [encOne, extended, cfgOctets, wire, cfgSize, List.lookup, fo, be16_swap]
  · simp [encOne, extended, cfgOctets, wire, cfgSize, List.lookup, fo, be16_swap]
  · have ⟨a, b⟩ := e8 (by omega)
    simp [encOne, extended, cfgOctets, wire, cfgSize, List.lookup, fo, a, b]
  · have ⟨a, b⟩ := e8 (by omega)
    simp [encOne, extended, cfgOctets, wire, cfgSize, List.lookup, fo, a, b]
  · have ⟨a, b⟩ := e8 (by omega)
    simp [encOne, extended, cfgOctets, wire, cfgSize, List.lookup, fo, a, b]
  · have ⟨a, b⟩ := e8 (by omega)
    simp [encOne, extended, cfgOctets, wire, cfgSize, List.lookup, f15, a, b]

/-- A codec without a code is refused, on any host. -/
theorem encOne_invalid (be : Bool) (sc : Codec) (h : ¬ Valid sc) : encOne be sc = .error EINVAL := by
  obtain ⟨fi, pi, pt, tf, ty, cfg⟩ := sc
  have mk : ∀ n, (ty.toNat, n) ∈ cfgSize → 256 ^ n ≤ cfg.toNat := by
    intro n hn
    by_cases hc : cfg.toNat < 256 ^ n
    · exact absurd ⟨n, hn, hc⟩ h
    · omega
  have lt := cfg.isLt
  have nz : 1 ≤ cfg.toNat → cfg ≠ 0#16 := by
    rintro h rfl
    simp at h
  have nz8 : 256 ≤ cfg.toNat → cfg >>> 8 ≠ 0#16 := by
    intro h e
    have := congrArg BitVec.toNat e
    simp [Nat.shiftRight_eq_div_pow] at this
    omega
  unfold encOne extended
  simp only []
  by_cases h1 : ty ∈ [0x0#8, 0x2#8, 0x3#8, 0xc#8, 0x9#8, 0x1#8, 0x4#8, 0xd#8, 0xb#8]
  · rw [if_pos h1]
    simp only [List.mem_cons, List.not_mem_nil, or_false] at h1
    rcases h1 with rfl | rfl | rfl | rfl | rfl | rfl | rfl | rfl | rfl
    · have := nz (mk 0 (by decide)); simp [cfgOctets, this]
    · have := nz (mk 0 (by decide)); simp [cfgOctets, this]
    · have := mk 2 (by decide); omega
    · have := nz8 (mk 1 (by decide)); simp [cfgOctets, this]
    · have := nz8 (mk 1 (by decide)); simp [cfgOctets, this]
    · have := nz (mk 0 (by decide)); simp [cfgOctets, this]
    · have := mk 2 (by decide); omega
    · have := nz8 (mk 1 (by decide)); simp [cfgOctets, this]
    · have := mk 2 (by decide); omega
  · rw [if_neg h1]
    by_cases h2 : ty = 0xfd#8
    · subst h2
      have := nz8 (mk 1 (by decide))
      simp [cfgOctets, this]
    · rw [if_neg h2]

theorem header (fi pi pt tf : Bool) (n : Nat) (h : n < 16) (t : Byte) (c : BitVec 16) :
    withFlags (BitVec.ofNat 8
      (128 * fi.toNat + 64 * pi.toNat + 32 * pt.toNat + 16 * tf.toNat + n)) t c =
      ⟨fi, pi, pt, tf, t, c⟩ ∧
    BitVec.ofNat 8 (128 * fi.toNat + 64 * pi.toNat + 32 * pt.toNat + 16 * tf.toNat + n) &&& 0x0f#8 =
      BitVec.ofNat 8 n := by
  have key : ∀ fi pi pt tf : Bool, ∀ n : Fin 16, ∀ b : Byte,
      b = BitVec.ofNat 8
        (128 * fi.toNat + 64 * pi.toNat + 32 * pt.toNat + 16 * tf.toNat + n.val) →
      b.getLsbD 7 = fi ∧ b.getLsbD 6 = pi ∧ b.getLsbD 5 = pt ∧ b.getLsbD 4 = tf ∧
      b &&& 0x0f#8 = BitVec.ofNat 8 n.val := by
    intro fi pi pt tf n b hb
    subst hb
    revert fi pi pt tf n
    decide
  obtain ⟨a, b, c', d, e⟩ := key fi pi pt tf ⟨n, h⟩ _ rfl
  exact ⟨by simp only [withFlags, a, b, c', d], e⟩

/-- What has a code is decoded from it, whatever follows. -/
theorem dec_wire (sc : Codec) (h : Valid sc) (rest : List Byte) :
    dec (wire sc ++ rest) = some (sc, (wire sc).length) := by
  obtain ⟨n, hm, hc⟩ := h
  obtain ⟨fi, pi, pt, tf, ty, cfg⟩ := sc
  have hd := fun n h t c => (header fi pi pt tf n h t c).1
  have hb := fun n h => (header fi pi pt tf n h 0#8 0#16).2
  have hd0 := fun t c => (hd 0 (by omega) t c)
  have hb0 := hb 0 (by omega)
  rw [Nat.add_zero] at hb0
  simp only [Nat.add_zero] at hd0
  have ld : ld16 (BitVec.ofNat 8 (cfg.toNat / 256)) (BitVec.ofNat 8 (cfg.toNat % 256)) = cfg := by
    unfold ld16
    apply BitVec.eq_of_toNat_eq
    have := cfg.isLt
    rw [BitVec.toNat_or, BitVec.toNat_shiftLeft]
    simp only [BitVec.toNat_setWidth, BitVec.toNat_ofNat]
    rw [show cfg.toNat / 256 % 2 ^ 8 % 2 ^ 16 = cfg.toNat / 256 by omega,
      show cfg.toNat % 256 % 2 ^ 8 % 2 ^ 16 = cfg.toNat % 256 by omega, Nat.shiftLeft_eq,
      show cfg.toNat / 256 * 2 ^ 8 % 2 ^ 16 = 2 ^ 8 * (cfg.toNat / 256) by omega,
      ← Nat.two_pow_add_eq_or_of_lt (by omega)]
    omega
  have l8 : cfg.toNat < 256 → (cfg.setWidth 8).setWidth 16 = cfg := by
    intro h
    apply BitVec.eq_of_toNat_eq
    simp
    omega
  simp only [] at hm hc
  rcases type_cases ty n hm with ⟨rfl, rfl | rfl | rfl⟩ | ⟨rfl, rfl | rfl | rfl⟩ |
    ⟨rfl, rfl | rfl | rfl | rfl⟩
  · have : cfg = 0#16 := BitVec.eq_of_toNat_eq (by simp at hc ⊢; omega)
    subst this
    simp [wire, cfgSize, List.lookup, dec, decCfg, hd0, hb0]
  · have : cfg = 0#16 := BitVec.eq_of_toNat_eq (by simp at hc ⊢; omega)
    subst this
    simp [wire, cfgSize, List.lookup, dec, decCfg, hd 1, hb 1]
  · have : cfg = 0#16 := BitVec.eq_of_toNat_eq (by simp at hc ⊢; omega)
    subst this
    simp [wire, cfgSize, List.lookup, dec, decCfg, hd 2, hb 2]
  · simp [wire, cfgSize, List.lookup, dec, decCfg, hd 3, hb 3, ld]
  · simp [wire, cfgSize, List.lookup, dec, decCfg, hd 4, hb 4, ld]
  · simp [wire, cfgSize, List.lookup, dec, decCfg, hd 11, hb 11, ld]
  · simp [wire, cfgSize, List.lookup, dec, decCfg, hd 9, hb 9, l8 (by omega)]
  · simp [wire, cfgSize, List.lookup, dec, decCfg, hd 12, hb 12, l8 (by omega)]
  · simp [wire, cfgSize, List.lookup, dec, decCfg, hd 13, hb 13, l8 (by omega)]
  · simp [wire, cfgSize, List.lookup, dec, decCfg, hd 15, hb 15, l8 (by omega)]

theorem wire_length (sc : Codec) : 1 ≤ (wire sc).length ∧ (wire sc).length ≤ 4 := by
  unfold wire
  simp only []
  split <;> split <;> simp

/-- The element of one codec: tag, length and code, all counted. -/
theorem enc_spec (sc : Codec) :
    (Valid sc → enc false sc = .ok (0x7e#8 :: BitVec.ofNat 8 (wire sc).length :: wire sc,
      (wire sc).length + 2)) ∧
    (∀ be, ¬ Valid sc → enc be sc = .error EINVAL) := by
  constructor
  · intro h
    unfold enc
    rw [encOne_valid sc h]
    simp only []
    have := wire_length sc
    rw [Nat.mod_eq_of_lt (by omega)]
  · intro be h
    unfold enc
    rw [encOne_invalid be sc h]

example : Valid ⟨true, false, false, true, 3, 0x0157⟩ ∧
    wire ⟨true, false, false, true, 3, 0x0157⟩ = [0x93, 0x57, 0x01] :=
  ⟨⟨2, by decide, by decide⟩, by decide⟩

/-- Octets that decode stand for a codec that has a code; between 1 and all of
them are used. -/
theorem dec_sound (l : List Byte) (c : Codec) (k : Nat) (h : dec l = some (c, k)) :
    Valid c ∧ 1 ≤ k ∧ k ≤ l.length := by
  have cfg : ∀ (hb t : Byte) (j : Nat) (l' : List Byte), 1 ≤ j → decCfg hb t j l' = some (c, k) →
      Valid c ∧ 1 ≤ k ∧ k ≤ j + l'.length := by
    intro hb t j l' hj hd
    unfold decCfg at hd
    split at hd
    · rename_i ht
      cases hd
      refine ⟨⟨0, ?_, by simp [withFlags]⟩, by omega, by omega⟩
      rcases ht with rfl | rfl | rfl <;> simp [withFlags, cfgSize]
    · split at hd
      · rename_i ht
        split at hd
        · rename_i cc l2
          cases hd
          refine ⟨⟨1, ?_, ?_⟩, by omega, by simp⟩
          · rcases ht with rfl | rfl | rfl | rfl <;> simp [withFlags, cfgSize]
          · have := cc.isLt
            simp [withFlags]
            omega
        · cases hd
      · split at hd
        · rename_i ht
          split at hd
          · rename_i a b l2
            cases hd
            refine ⟨⟨2, ?_, ?_⟩, by omega, by simp⟩
            · rcases ht with rfl | rfl | rfl <;> simp [withFlags, cfgSize]
            · exact (withFlags hb t (ld16 b a)).cfg.isLt
          · cases hd
        · cases hd
  cases l with
  | nil => cases h
  | cons hb l =>
    by_cases he : hb &&& 0x0f#8 = 0x0f#8
    · cases l with
      | nil => simp [dec, he] at h
      | cons t l =>
        have e : dec (hb :: t :: l) = decCfg hb t 2 l := by
          simp only [dec]
          rw [if_pos he]
        have := cfg hb t 2 l (by omega) (e ▸ h)
        simp only [List.length_cons]
        exact ⟨this.1, this.2.1, by omega⟩
    · have e : dec (hb :: l) = decCfg hb (hb &&& 0x0f#8) 1 l := by
        simp only [dec]
        rw [if_neg he]
      have := cfg hb _ 1 l (by omega) (e ▸ h)
      simp only [List.length_cons]
      exact ⟨this.1, this.2.1, by omega⟩

/-- The code of a list: the codes one after another. -/
def wires (scs : List Codec) : List Byte := scs.flatMap wire

theorem encLoop_spec (scs : List Codec) (used : Nat) (h : used ≤ 255) :
    ((∀ sc ∈ scs, Valid sc) ∧ used + (wires scs).length ≤ 255 →
      encLoop false scs used = .ok (wires scs)) ∧
    (¬ ((∀ sc ∈ scs, Valid sc) ∧ used + (wires scs).length ≤ 255) →
      ∃ e, encLoop false scs used = .error e ∧ (e = EINVAL ∨ e = EOVERFLOW)) := by
  induction scs generalizing used with
  | nil => exact ⟨fun _ => rfl, fun hn => absurd ⟨by simp, by simpa [wires] using h⟩ hn⟩
  | cons sc scs ih =>
    have hl : (wires (sc :: scs)).length = (wire sc).length + (wires scs).length := by
      simp [wires]
    unfold encLoop
    by_cases hv : Valid sc
    · rw [encOne_valid sc hv]
      simp only []
      by_cases ho : used + (wire sc).length > 0xff
      · rw [if_pos ho]
        exact ⟨fun h => (by omega), fun _ => ⟨_, rfl, Or.inr rfl⟩⟩
      · rw [if_neg ho]
        have ⟨i1, i2⟩ := ih (used + (wire sc).length) (by omega)
        constructor
        · intro ⟨a, b⟩
          rw [i1 ⟨fun s hs => a s (List.mem_cons_of_mem _ hs), by omega⟩]
          simp [wires]
        · intro hn
          obtain ⟨e, he, hc⟩ := i2 (fun ⟨a, b⟩ => hn ⟨fun s hs => by
            rcases List.mem_cons.mp hs with rfl | hs
            · exact hv
            · exact a s hs, by omega⟩)
          rw [he]
          exact ⟨e, rfl, hc⟩
    · rw [encOne_invalid false sc hv]
      exact ⟨fun h => absurd (h.1 sc (List.mem_cons_self ..)) hv, fun _ => ⟨_, rfl, Or.inl rfl⟩⟩

/-- A list is encoded exactly if all its codecs have a code and they fit 255
octets; the length octet and the return value count them. -/
theorem encList_spec (scs : List Codec) :
    ((∀ sc ∈ scs, Valid sc) ∧ (wires scs).length ≤ 255 →
      encList false scs = .ok (0x7d#8 :: BitVec.ofNat 8 (wires scs).length :: wires scs,
        (wires scs).length + 2)) ∧
    (¬ ((∀ sc ∈ scs, Valid sc) ∧ (wires scs).length ≤ 255) →
      ∃ e, encList false scs = .error e ∧ (e = EINVAL ∨ e = EOVERFLOW)) := by
  have ⟨a, b⟩ := encLoop_spec scs 0 (by omega)
  unfold encList
  constructor
  · intro h
    rw [a ⟨h.1, by omega⟩]
    simp only []
    rw [Nat.mod_eq_of_lt (by omega)]
  · intro h
    obtain ⟨e, he, hc⟩ := b (fun h' => h ⟨h'.1, by omega⟩)
    rw [he]
    exact ⟨e, rfl, hc⟩

theorem decLoop_wires (scs : List Codec) (n : Nat) (hn : scs.length ≤ n) (h : ∀ sc ∈ scs, Valid sc) :
    decLoop n (wires scs) = some (scs, (wires scs).length) := by
  induction scs generalizing n with
  | nil => cases n <;> simp [decLoop, wires]
  | cons sc scs ih =>
    cases n with
    | zero => simp at hn
    | succ n =>
      have e : wires (sc :: scs) = wire sc ++ wires scs := by simp [wires]
      have := wire_length sc
      unfold decLoop
      rw [e, if_neg (by
        intro h0
        have := congrArg List.length h0
        rw [List.length_append, List.length_nil] at this
        omega), dec_wire sc (h sc (List.mem_cons_self ..)) (wires scs)]
      simp only []
      rw [List.drop_left, ih n (by simpa using hn) (fun s hs => h s (List.mem_cons_of_mem _ hs))]
      simp

/-- On a little endian host what is encoded decodes to the same codecs, in
order, all octets used. -/
theorem list_round_trip_partial (scs : List Codec) (r : List Byte × Nat) (h : encList false scs = .ok r) :
    ∃ body, r = (0x7d#8 :: BitVec.ofNat 8 body.length :: body, body.length + 2) ∧
      body.length ≤ 255 ∧ decList body = some (scs, body.length) := by
  by_cases hv : (∀ sc ∈ scs, Valid sc) ∧ (wires scs).length ≤ 255
  · rw [(encList_spec scs).1 hv] at h
    cases h
    have : scs.length ≤ (wires scs).length := by
      have : ∀ l : List Codec, l.length ≤ (wires l).length := by
        intro l
        induction l with
        | nil => simp
        | cons s l ih =>
          have e : (wires (s :: l)).length = (wire s).length + (wires l).length := by simp [wires]
          have := wire_length s
          rw [e, List.length_cons]
          omega
      exact this scs
    exact ⟨wires scs, rfl, hv.2, decLoop_wires scs 255 (by omega) hv.1⟩
  · obtain ⟨e, he, _⟩ := (encList_spec scs).2 hv
    rw [he] at h
    cases h

example : (wires [⟨true, false, false, false, 3, 0x57ff⟩, ⟨true, true, false, false, 0xfd, 0xc0⟩]) =
    [0x83, 0xff, 0x57, 0xcf, 0xfd, 0xc0] := by decide

/-- A list that decodes: all its codecs have a code, at most 255 of them, and no
octet beyond the element is used; one of up to 255 octets is used up. -/
theorem decList_sound (l : List Byte) (cs : List Codec) (k : Nat) (h : decList l = some (cs, k)) :
    (∀ c ∈ cs, Valid c) ∧ cs.length ≤ 255 ∧ k ≤ l.length ∧ (l.length ≤ 255 → k = l.length) := by
  have key : ∀ (n : Nat) (l : List Byte) (cs : List Codec) (k : Nat), decLoop n l = some (cs, k) →
      (∀ c ∈ cs, Valid c) ∧ cs.length ≤ n ∧ k ≤ l.length ∧ (l.length ≤ n → k = l.length) := by
    intro n
    induction n with
    | zero =>
      intro l cs k h
      cases h
      exact ⟨by simp, by simp, by omega, fun h => by omega⟩
    | succ n ih =>
      intro l cs k h
      unfold decLoop at h
      split at h
      · rename_i hl
        cases h
        subst hl
        exact ⟨by simp, by simp, by simp, by simp⟩
      · split at h
        · cases h
        · rename_i c k1 hd
          split at h
          · cases h
          · rename_i cs' m hr
            cases h
            have ⟨v, k0, kl⟩ := dec_sound _ _ _ hd
            have ⟨a, b, c1, d⟩ := ih _ _ _ hr
            rw [List.length_drop] at c1 d
            refine ⟨fun x hx => ?_, by simpa using b, by omega, fun h => ?_⟩
            · rcases List.mem_cons.mp hx with rfl | hx
              · exact v
              · exact a x hx
            · have := d (by omega)
              omega
  exact key 255 l cs k h

/-- On a big endian host `osmo_ntohs` does not swap: the configuration of the AMR
codecs is written most significant octet first, but read least significant octet
first. -/
theorem big_endian_counterexample :
    encOne true ⟨true, false, false, false, 3, 0x0157⟩ = .ok [0x83, 0x01, 0x57] ∧
    dec [0x83, 0x01, 0x57] = some (⟨true, false, false, false, 3, 0x5701⟩, 3) := by
  refine ⟨rfl, by decide⟩

/-- The short types are accepted in the extended form too, so that decoding and
encoding does not always give back the octets. -/
theorem extended_short_counterexample :
    dec [0x0f, 0x00] = some (⟨false, false, false, false, 0, 0⟩, 2) ∧
    wire ⟨false, false, false, false, 0, 0⟩ = [0x00] := by decide

end Verif.SpeechCodec
