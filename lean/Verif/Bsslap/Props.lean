import Verif.Bsslap.Model
import Verif.Tlv.SimpleProps
/-!
Properties of BSSLAP messages (C162).
-/
namespace Verif.Bsslap
open Verif.Tlv (Fits octets)

/-- The number of octets of the values of TS 48.071 5, `none` for those with a
length octet. -/
def ieTable : List (Nat × Option Nat) :=
  [(0x01, some 1), (0x09, some 2), (0x10, some 3), (0x14, none), (0x18, some 1), (0x19, some 1), (0x1b, none),
   (0x1c, none), (0x1d, none), (0x1e, none), (0x21, none), (0x22, some 1), (0x23, some 1), (0x24, none),
   (0x25, some 8), (0x26, some 1), (0x27, some 1), (0x28, none), (0x29, some 1), (0x2a, some 4), (0x2b, some 4),
   (0x2c, none), (0x2d, some 2), (0x2e, none), (0x2f, some 16), (0x30, some 1)]

/-- An element of the protocol: tag and value. -/
def Element (e : Byte × List Byte) : Prop :=
  ∃ s, (e.1.toNat, s) ∈ ieTable ∧
    match s with
    | some n => e.2.length = n
    | none => e.2.length < 256

/-- Its octets. -/
def octetsOf (e : Byte × List Byte) : List Byte :=
  if (e.1.toNat, none) ∈ ieTable then e.1 :: BitVec.ofNat 8 e.2.length :: e.2 else e.1 :: e.2

theorem valueSize_table (t : Byte) : Tlv.valueSize tlvdef t = ieTable.lookup t.toNat := by
  revert t
  decide +kernel

theorem table_lookup (t : Byte) (s : Option Nat) : (t.toNat, s) ∈ ieTable ↔ ieTable.lookup t.toNat = some s := by
  have key : ∀ n : Fin 256, (∀ x ∈ ieTable, x.1 = n.val → ieTable.lookup n.val = some x.2) ∧
      (ieTable.lookup n.val).all (fun s => decide ((n.val, s) ∈ ieTable)) = true := by decide +kernel
  have k := key ⟨t.toNat, t.isLt⟩
  simp only [] at k
  constructor
  · intro h
    exact k.1 _ h rfl
  · intro h
    have := k.2
    rw [h, Option.all_some] at this
    exact of_decide_eq_true this

theorem fits_iff (e : Byte × List Byte) : Fits tlvdef e ↔ Element e := by
  unfold Fits Element
  rw [valueSize_table]
  constructor
  · intro h
    split at h
    · rename_i n hn
      exact ⟨some n, (table_lookup _ _).mpr hn, h⟩
    · rename_i hn
      exact ⟨none, (table_lookup _ _).mpr hn, h⟩
    · exact h.elim
  · rintro ⟨s, hm, h⟩
    rw [(table_lookup _ _).mp hm]
    cases s <;> exact h

theorem octets_eq (e : Byte × List Byte) : octets tlvdef e = octetsOf e := by
  unfold octets octetsOf
  rw [valueSize_table]
  by_cases h : (e.1.toNat, none) ∈ ieTable
  · rw [if_pos h, (table_lookup _ _).mp h]
  · rw [if_neg h]
    have hn : ieTable.lookup e.1.toNat ≠ some none := fun hh => h ((table_lookup _ _).mpr hh)
    split
    · rename_i hh
      exact absurd hh hn
    · rfl

theorem simple : Tlv.Simple tlvdef := by
  intro t
  revert t
  decide +kernel

/-- What a message of the type with these elements means: the first of each
counts. -/
def meaning (type : Byte) (es : List (Byte × List Byte)) : Option Pdu :=
  match type.toNat, es.lookup 9#8, es.lookup 1#8, es.lookup 16#8, es.lookup 24#8 with
  | 2, some [a, b], some [t], _, _ => some (.taResponse (BitVec.ofNat 16 (256 * a.toNat + b.toNat)) t)
  | 10, _, _, _, some [c] => some (.reject c)
  | 11, some [a, b], some [t], some [x, y, z], some [c] =>
    some (.reset (BitVec.ofNat 16 (256 * a.toNat + b.toNat)) t (x, y, z) c)
  | 12, _, _, _, some [c] => some (.abort c)
  | 13, _, some [t], _, _ => some (.taLayer3 t)
  | _, _, _, _, _ => none

theorem load16 (a b : Byte) : (a.setWidth 16 <<< 8) ||| b.setWidth 16 = BitVec.ofNat 16 (256 * a.toNat + b.toNat) := by
  apply BitVec.eq_of_toNat_eq
  have ha := a.isLt
  have hb := b.isLt
  have h1 : a.toNat <<< 8 ||| b.toNat = 256 * a.toNat + b.toNat := by
    rw [Nat.shiftLeft_eq, Nat.mul_comm, show (2 : Nat) ^ 8 = 256 from rfl]
    exact (Nat.two_pow_add_eq_or_of_lt (i := 8) hb a.toNat).symm
  simp only [BitVec.toNat_or, BitVec.toNat_shiftLeft, BitVec.toNat_setWidth, BitVec.toNat_ofNat]
  rw [Nat.mod_eq_of_lt (show a.toNat < 2 ^ 16 by omega), Nat.mod_eq_of_lt (show b.toNat < 2 ^ 16 by omega),
    Nat.mod_eq_of_lt (show a.toNat <<< 8 < 2 ^ 16 by rw [Nat.shiftLeft_eq]; omega), h1,
    Nat.mod_eq_of_lt (by omega)]

/-- The values of the elements have the sizes the decoder wants. -/
theorem lookup_size (es : List (Byte × List Byte)) (h : ∀ e ∈ es, Element e) (t : Byte) (n : Nat)
    (ht : ieTable.lookup t.toNat = some (some n)) (v : List Byte) (hv : es.lookup t = some v) : v.length = n := by
  induction es with
  | nil => cases hv
  | cons e es ih =>
    rw [List.lookup_cons] at hv
    by_cases he : t = e.1
    · subst he
      simp only [beq_self_eq_true, Option.some.injEq] at hv
      obtain ⟨s, hs, hl⟩ := h e (by simp)
      rw [(table_lookup _ _).mp hs] at ht
      cases ht
      rw [← hv]
      exact hl
    · have hf : (t == e.1) = false := by simpa using he
      simp only [hf] at hv
      exact ih (fun e he => h e (List.mem_cons_of_mem _ he)) hv

theorem decMsg_meaning (type : Byte) (es : List (Byte × List Byte)) (h : ∀ e ∈ es, Element e)
    (val : Byte → Option (List Byte)) (hv : ∀ t, val t = es.lookup t) :
    decMsg type val = match meaning type es with
      | some p => .ok p
      | none => .error EINVAL := by
  have s9 := lookup_size es h 9#8 2 (by decide)
  have s1 := lookup_size es h 1#8 1 (by decide)
  have s16 := lookup_size es h 16#8 3 (by decide)
  have s24 := lookup_size es h 24#8 1 (by decide)
  have c9 : es.lookup 9#8 = none ∨ ∃ a b, es.lookup 9#8 = some [a, b] := by
    cases hc : es.lookup 9#8 with
    | none => exact Or.inl rfl
    | some v =>
      have := s9 v hc
      match v, this with
      | [a, b], _ => exact Or.inr ⟨a, b, rfl⟩
  have c1 : es.lookup 1#8 = none ∨ ∃ a, es.lookup 1#8 = some [a] := by
    cases hc : es.lookup 1#8 with
    | none => exact Or.inl rfl
    | some v =>
      obtain ⟨a, rfl⟩ := List.length_eq_one_iff.mp (s1 v hc)
      exact Or.inr ⟨a, rfl⟩
  have c24 : es.lookup 24#8 = none ∨ ∃ a, es.lookup 24#8 = some [a] := by
    cases hc : es.lookup 24#8 with
    | none => exact Or.inl rfl
    | some v =>
      obtain ⟨a, rfl⟩ := List.length_eq_one_iff.mp (s24 v hc)
      exact Or.inr ⟨a, rfl⟩
  have c16 : es.lookup 16#8 = none ∨ ∃ a b c, es.lookup 16#8 = some [a, b, c] := by
    cases hc : es.lookup 16#8 with
    | none => exact Or.inl rfl
    | some v =>
      have := s16 v hc
      match v, this with
      | [a, b, c], _ => exact Or.inr ⟨a, b, c, rfl⟩
  have m : ∀ {α : Type} (iei : Byte) (f : List Byte → Except Int α), mandatory val iei f =
      match es.lookup iei with
      | none => .error EINVAL
      | some v => f v := by
    intro α iei f
    unfold mandatory
    rw [hv]
    cases es.lookup iei <;> rfl
  by_cases t2 : type.toNat = 2
  · simp only [decMsg, t2, m, meaning]
    rcases c9 with c | ⟨a, b, c⟩ <;> rcases c1 with d | ⟨t, d⟩ <;> rw [c, d] <;>
      simp only [decCellId, decTa, load16] <;> rfl
  by_cases t10 : type.toNat = 10
  · simp only [decMsg, t10, m, meaning]
    rcases c24 with d | ⟨t, d⟩ <;> rw [d] <;> rfl
  by_cases t11 : type.toNat = 11
  · simp only [decMsg, t11, m, meaning]
    rcases c9 with c | ⟨a, b, c⟩ <;> rcases c1 with d | ⟨t, d⟩ <;> rcases c16 with e | ⟨x, y, z, e⟩ <;>
      rcases c24 with f | ⟨k, f⟩ <;> rw [c, d, e, f] <;>
      simp only [decCellId, decTa, decChan, decCause, load16] <;> rfl
  by_cases t12 : type.toNat = 12
  · simp only [decMsg, t12, m, meaning]
    rcases c24 with d | ⟨t, d⟩ <;> rw [d] <;> rfl
  by_cases t13 : type.toNat = 13
  · simp only [decMsg, t13, m, meaning]
    rcases c1 with d | ⟨t, d⟩ <;> rw [d] <;> rfl
  have e1 : decMsg type val = .error EINVAL := by
    unfold decMsg
    split <;> first | rfl | omega
  have e2 : meaning type es = none := by
    unfold meaning
    split <;> first | rfl | omega
  rw [e1, e2]

/-- **C162a.** A message is its type and a sequence of elements, in any order,
with any others of the protocol; it is decoded to what these mean, and refused if
a mandatory one is missing. -/
theorem dec_spec (type : Byte) (ht : type ≠ 1#8) (es : List (Byte × List Byte)) (h : ∀ e ∈ es, Element e) :
    dec (type :: es.flatMap octetsOf) = some (match meaning type es with
      | some p => .ok p
      | none => .error EINVAL) := by
  have ho : octetsOf = octets tlvdef := by
    funext e
    exact (octets_eq e).symm
  obtain ⟨p, h1, h2⟩ := Tlv.parse_simple tlvdef simple es (fun e he => (fits_iff e).mpr (h e he))
  simp only [dec]
  rw [if_neg ht, ho, h1]
  simp only []
  by_cases hz : es = []
  · subst hz
    rw [if_pos (by simp)]
    congr 1
    have : meaning type [] = none := by
      unfold meaning
      split
      all_goals first | rfl | (simp at *)
    rw [this]
  · have : es.length ≠ 0 := by simpa using hz
    rw [if_neg (by omega)]
    congr 1
    exact decMsg_meaning type es h _ h2

/-- **C162b.** Anything else is refused; nothing beyond the data is read. -/
theorem dec_malformed (type : Byte) (ht : type ≠ 1#8) (ies : List Byte)
    (h : ¬ ∃ es : List (Byte × List Byte), (∀ e ∈ es, Element e) ∧ ies = es.flatMap octetsOf) :
    dec (type :: ies) = some (.error EINVAL) := by
  have ho : octetsOf = octets tlvdef := by
    funext e
    exact (octets_eq e).symm
  obtain ⟨rc, d, h1, h2⟩ := Tlv.parse_simple_fail tlvdef simple ies (by
    rintro ⟨es, h1, h2⟩
    exact h ⟨es, fun e he => (fits_iff e).mp (h1 e he), by rw [ho]; exact h2⟩)
  simp only [dec]
  rw [if_neg ht, h1]
  cases d with
  | nil => simp only []; rw [if_pos (by omega)]
  | cons p d => simp only []; rw [if_pos (by omega)]

/-- No data: refused, and whatever the data are, nothing beyond them is read. -/
theorem dec_total (l : List Byte) : (∃ r, dec l = some r) ∧ (l = [] → dec l = some (.error EINVAL)) := by
  cases l with
  | nil => exact ⟨⟨_, rfl⟩, fun _ => rfl⟩
  | cons t ies =>
    refine ⟨?_, by simp⟩
    by_cases ht : t = 1#8
    · exact ⟨_, by simp only [dec]; rw [if_pos ht]⟩
    · by_cases h : ∃ es : List (Byte × List Byte), (∀ e ∈ es, Element e) ∧ ies = es.flatMap octetsOf
      · obtain ⟨es, h1, rfl⟩ := h
        exact ⟨_, dec_spec t ht es h1⟩
      · exact ⟨_, dec_malformed t ht ies h⟩

/-- The messages that have a code. -/
def elements : Pdu → Option (Byte × List (Byte × List Byte))
  | .taRequest => some (1, [])
  | .taResponse c t => some (2, [(9, [BitVec.ofNat 8 (c.toNat / 256), BitVec.ofNat 8 c.toNat]), (1, [t])])
  | .reject c => some (10, [(24, [c])])
  | .reset c t (x, y, z) k =>
    some (11, [(9, [BitVec.ofNat 8 (c.toNat / 256), BitVec.ofNat 8 c.toNat]), (1, [t]), (16, [x, y, z]), (24, [k])])
  | .abort c => some (12, [(24, [c])])
  | .taLayer3 t => some (13, [(1, [t])])
  | .other _ => none

theorem enc_cell (c : BitVec 16) :
    encCellId c = [9#8, BitVec.ofNat 8 (c.toNat / 256), BitVec.ofNat 8 c.toNat] := by
  have e1 : ((c >>> 8).setWidth 8 : Byte) = BitVec.ofNat 8 (c.toNat / 256) := by
    apply BitVec.eq_of_toNat_eq
    simp [Nat.shiftRight_eq_div_pow]
  have e2 : (c.setWidth 8 : Byte) = BitVec.ofNat 8 c.toNat := by
    apply BitVec.eq_of_toNat_eq
    simp
  unfold encCellId
  rw [e1, e2]

theorem cell_back (c : BitVec 16) :
    BitVec.ofNat 16 (256 * (BitVec.ofNat 8 (c.toNat / 256) : Byte).toNat + (BitVec.ofNat 8 c.toNat : Byte).toNat) = c := by
  apply BitVec.eq_of_toNat_eq
  have := c.isLt
  simp only [BitVec.toNat_ofNat]
  omega

/-- **C162c.** A message is encoded as its type and the elements of its members;
one of another type is refused. -/
theorem enc_spec (p : Pdu) :
    enc p = match elements p with
      | some (t, es) => .ok (t :: es.flatMap octetsOf)
      | none => .error ENOTSUP := by
  have o : ∀ (t : Byte) (v : List Byte), (t.toNat, none) ∉ ieTable → octetsOf (t, v) = t :: v := by
    intro t v h
    simp only [octetsOf]
    rw [if_neg h]
  cases p with
  | taRequest => rfl
  | taResponse c t =>
    simp only [enc, elements, List.flatMap_cons, List.flatMap_nil, enc_cell]
    rw [o _ _ (by decide), o _ _ (by decide)]
    rfl
  | reject c =>
    simp only [enc, elements, List.flatMap_cons, List.flatMap_nil]
    rw [o _ _ (by decide)]
    rfl
  | reset c t ch k =>
    obtain ⟨x, y, z⟩ := ch
    simp only [enc, elements, List.flatMap_cons, List.flatMap_nil, enc_cell]
    rw [o _ _ (by decide), o _ _ (by decide), o _ _ (by decide), o _ _ (by decide)]
    rfl
  | abort c =>
    simp only [enc, elements, List.flatMap_cons, List.flatMap_nil]
    rw [o _ _ (by decide)]
    rfl
  | taLayer3 t =>
    simp only [enc, elements, List.flatMap_cons, List.flatMap_nil]
    rw [o _ _ (by decide)]
    rfl
  | other t => rfl

theorem elements_valid (p : Pdu) (t : Byte) (es : List (Byte × List Byte)) (h : elements p = some (t, es)) :
    ∀ e ∈ es, Element e := by
  have o : ∀ (t : Byte) (v : List Byte), (t.toNat, some v.length) ∈ ieTable → Element (t, v) :=
    fun t v h => ⟨some v.length, h, rfl⟩
  cases p with
  | reset c t ch k =>
    obtain ⟨x, y, z⟩ := ch
    simp only [elements, Option.some.injEq, Prod.mk.injEq] at h
    obtain ⟨_, rfl⟩ := h
    intro e he
    simp only [List.mem_cons, List.not_mem_nil, or_false] at he
    rcases he with rfl | rfl | rfl | rfl <;> exact o _ _ (by simp [ieTable])
  | other t => cases h
  | taRequest =>
    simp only [elements, Option.some.injEq, Prod.mk.injEq] at h
    obtain ⟨_, rfl⟩ := h
    intro e he
    cases he
  | taResponse c t =>
    simp only [elements, Option.some.injEq, Prod.mk.injEq] at h
    obtain ⟨_, rfl⟩ := h
    intro e he
    simp only [List.mem_cons, List.not_mem_nil, or_false] at he
    rcases he with rfl | rfl <;> exact o _ _ (by simp [ieTable])
  | reject c =>
    simp only [elements, Option.some.injEq, Prod.mk.injEq] at h
    obtain ⟨_, rfl⟩ := h
    intro e he
    simp only [List.mem_cons, List.not_mem_nil, or_false] at he
    subst he
    exact o _ _ (by simp [ieTable])
  | abort c =>
    simp only [elements, Option.some.injEq, Prod.mk.injEq] at h
    obtain ⟨_, rfl⟩ := h
    intro e he
    simp only [List.mem_cons, List.not_mem_nil, or_false] at he
    subst he
    exact o _ _ (by simp [ieTable])
  | taLayer3 c =>
    simp only [elements, Option.some.injEq, Prod.mk.injEq] at h
    obtain ⟨_, rfl⟩ := h
    intro e he
    simp only [List.mem_cons, List.not_mem_nil, or_false] at he
    subst he
    exact o _ _ (by simp [ieTable])

/-- **C162d.** What is encoded is decoded to the same message, even if further
elements of the protocol follow. -/
theorem round_trip (p : Pdu) (b : List Byte) (h : enc p = .ok b) (more : List (Byte × List Byte))
    (hm : ∀ e ∈ more, Element e) : dec (b ++ more.flatMap octetsOf) = some (.ok p) := by
  rw [enc_spec] at h
  cases hp : elements p with
  | none => rw [hp] at h; cases h
  | some te =>
    obtain ⟨t, es⟩ := te
    rw [hp] at h
    simp only [Except.ok.injEq] at h
    subst h
    by_cases ht : t = 1#8
    · have : p = .taRequest := by
        subst ht
        cases p <;> simp [elements] at hp ⊢
      subst this
      subst ht
      simp only [List.cons_append, dec]
      rfl
    · rw [List.cons_append, ← List.flatMap_append, dec_spec t ht _ (by
        intro e he
        rcases List.mem_append.mp he with he | he
        · exact elements_valid p t es hp e he
        · exact hm e he)]
      have : meaning t (es ++ more) = some p := by
        cases p with
        | taRequest => simp [elements] at hp; exact absurd hp.1.symm ht
        | other t => cases hp
        | reset c t ch k =>
          obtain ⟨x, y, z⟩ := ch
          simp only [elements, Option.some.injEq, Prod.mk.injEq] at hp
          obtain ⟨rfl, rfl⟩ := hp
          simp [meaning, List.lookup]
          have := cell_back c
          simpa using this
        | taResponse c t =>
          simp only [elements, Option.some.injEq, Prod.mk.injEq] at hp
          obtain ⟨rfl, rfl⟩ := hp
          simp [meaning, List.lookup]
          have := cell_back c
          simpa using this
        | reject c =>
          simp only [elements, Option.some.injEq, Prod.mk.injEq] at hp
          obtain ⟨rfl, rfl⟩ := hp
          simp [meaning, List.lookup]
        | abort c =>
          simp only [elements, Option.some.injEq, Prod.mk.injEq] at hp
          obtain ⟨rfl, rfl⟩ := hp
          simp [meaning, List.lookup]
        | taLayer3 c =>
          simp only [elements, Option.some.injEq, Prod.mk.injEq] at hp
          obtain ⟨rfl, rfl⟩ := hp
          simp [meaning, List.lookup]
      rw [this]

example : enc (.reset 0x1234 5 (9, 8, 7) 4) = .ok [11, 9, 0x12, 0x34, 1, 5, 16, 9, 8, 7, 24, 4] := rfl
example : meaning 2 [(1, [7]), (0x14, [1, 2, 3]), (9, [0x12, 0x34]), (1, [8])] = some (.taResponse 0x1234 7) := by decide

end Verif.Bsslap
