import Verif.Gsm23003.Model
import Verif.Utils.FloatProps
import Verif.Utils.ArithProps
import Mathlib.Data.List.Lex
/-!
Properties C28 (PLMN in BCD), C29 (comparison functions), C60 (digit strings),
C61 (MNC text).
-/
namespace Verif.Gsm23003
open Verif.Utils

/-! ## C28 -/

/-- decimal digits of a text -/
def txtDigits (t : List Byte) : List Nat := t.map fun c => c.toNat - 0x30

/-- the six semi-octets of three octets, low half first -/
def semi (b : BitVec 8 × BitVec 8 × BitVec 8) : List Nat :=
  [b.1.toNat % 16, b.1.toNat / 16, b.2.1.toNat % 16, b.2.1.toNat / 16, b.2.2.toNat % 16, b.2.2.toNat / 16]

/-- 3GPP TS 24.008 10.5.1.3, figure 10.5.3: where the digits of MCC and MNC go;
1111 in place of the third MNC digit when there are two -/
def Layout (mcc mnc : List Nat) (sm : List Nat) : Prop :=
  ∃ m1 m2 m3 n1 n2, mcc = [m1, m2, m3] ∧
    ((∃ n3, mnc = [n1, n2, n3] ∧ sm = [m1, m2, m3, n3, n1, n2]) ∨
     (mnc = [n1, n2] ∧ sm = [m1, m2, m3, 15, n1, n2]))

theorem nib_or : ∀ a, a < 10 → ∀ b, b < 16 →
    (BitVec.ofNat 8 a ||| (BitVec.ofNat 8 b) <<< 4).toNat = a + 16 * b := by decide +kernel

theorem nib_parts : ∀ b : BitVec 8, (b &&& 0x0f#8).toNat = b.toNat % 16 ∧ (b >>> 4).toNat = b.toNat / 16 ∧
    ((b &&& 0xf0#8 = 0xf0#8) ↔ b.toNat / 16 = 15) := by decide +kernel

theorem toBcd_eq (v : BitVec 16) :
    toBcd v = (BitVec.ofNat 8 (v.toNat / 10 / 10 % 10), BitVec.ofNat 8 (v.toNat / 10 % 10), BitVec.ofNat 8 (v.toNat % 10)) := by
  unfold toBcd
  refine Prod.ext ?_ (Prod.ext ?_ ?_) <;> (apply BitVec.eq_of_toNat_eq; simp)

theorem dec3 : ∀ n, n < 1000 → txtDigits (decNatW 3 n) = [n / 10 / 10 % 10, n / 10 % 10, n % 10] := by
  decide +kernel

theorem dec2 : ∀ n, n < 100 → txtDigits (decNatW 2 n) = [n / 10 % 10, n % 10] := by decide +kernel

theorem dec2_eq_dec3 : ∀ n, n < 1000 → 99 < n → decNatW 2 n = decNatW 3 n := by decide +kernel

theorem mod_div_nib {a b : Nat} (ha : a < 10) : (a + 16 * b) % 16 = a ∧ (a + 16 * b) / 16 = b := by omega

theorem f0_eq : (0xf0#8 : BitVec 8) = BitVec.ofNat 8 15 <<< 4 := by decide

theorem semi_toBcd (p : Plmn) :
    semi (plmnToBcd p) =
      if p.mnc > 99#16 ∨ p.mnc3 = true then
        [p.mcc.toNat / 10 / 10 % 10, p.mcc.toNat / 10 % 10, p.mcc.toNat % 10, p.mnc.toNat % 10,
          p.mnc.toNat / 10 / 10 % 10, p.mnc.toNat / 10 % 10]
      else
        [p.mcc.toNat / 10 / 10 % 10, p.mcc.toNat / 10 % 10, p.mcc.toNat % 10, 15,
          p.mnc.toNat / 10 % 10, p.mnc.toNat % 10] := by
  unfold plmnToBcd
  simp only [toBcd_eq]
  have l1 : ∀ n, n % 10 < 10 := fun n => Nat.mod_lt n (by omega)
  have l2 : ∀ n, n % 10 < 16 := fun n => Nat.lt_trans (l1 n) (by omega)
  have k1 := fun a b => mod_div_nib (a := a % 10) (b := b) (l1 a)
  split
  · simp only [semi, nib_or _ (l1 _) _ (l2 _), (k1 _ _).1, (k1 _ _).2]
  · simp only [semi, nib_or _ (l1 _) _ (l2 _), (k1 _ _).1, (k1 _ _).2, f0_eq, nib_or _ (l1 _) 15 (by omega)]

/-- C28, the code on the air: the octets carry the digits of the printed MCC and
MNC at the positions given by 3GPP TS 24.008. -/
theorem plmnToBcd_layout (p : Plmn) (h1 : p.mcc.toNat < 1000) (h2 : p.mnc.toNat < 1000) :
    Layout (txtDigits (mccName p.mcc)) (txtDigits (mncName p.mnc p.mnc3)) (semi (plmnToBcd p)) := by
  rw [semi_toBcd]
  unfold mccName mncName
  rw [dec3 _ h1]
  have hgt : p.mnc > 99#16 ↔ 99 < p.mnc.toNat := BitVec.lt_def
  by_cases c : p.mnc > 99#16 ∨ p.mnc3 = true
  · rw [if_pos c]
    have : txtDigits (decNatW (if p.mnc3 = true then 3 else 2) p.mnc.toNat) =
        txtDigits (decNatW 3 p.mnc.toNat) := by
      by_cases c3 : p.mnc3 = true
      · rw [if_pos c3]
      · rw [if_neg c3, dec2_eq_dec3 _ h2 (hgt.1 (c.resolve_right c3))]
    rw [this, dec3 _ h2]
    exact ⟨_, _, _, _, _, rfl, .inl ⟨_, rfl, rfl⟩⟩
  · rw [if_neg c]
    have c3 : ¬ p.mnc3 = true := fun h => c (.inr h)
    have c9 : p.mnc.toNat < 100 := by
      have : ¬ 99 < p.mnc.toNat := fun h => c (.inl (hgt.2 h))
      omega
    rw [if_neg c3, dec2 _ c9]
    exact ⟨_, _, _, _, _, rfl, .inr ⟨rfl, rfl⟩⟩

/-- the digit count the flag stands for: "ignored and implied true if mnc > 99"
(include/osmocom/gsm/gsm23003.h:13) -/
def Plmn.norm (p : Plmn) : Plmn := { p with mnc3 := p.mnc3 || decide (99 < p.mnc.toNat) }

theorem fromBcd_semi (b : BitVec 8 × BitVec 8 × BitVec 8) {x0 x1 x2 x3 x4 x5 : Nat}
    (h : semi b = [x0, x1, x2, x3, x4, x5]) :
    (plmnFromBcd b).mcc = BitVec.ofNat 16 (x0 * 100 + x1 * 10 + x2) ∧
    (plmnFromBcd b).mnc = BitVec.ofNat 16 (if x3 = 15 then x4 * 10 + x5 else x4 * 100 + x5 * 10 + x3) ∧
    (plmnFromBcd b).mnc3 = decide (x3 ≠ 15) := by
  obtain ⟨b0, b1, b2⟩ := b
  simp only [semi, List.cons.injEq, and_true] at h
  obtain ⟨e0, e1, e2, e3, e4, e5⟩ := h
  have n0 := nib_parts b0
  have n1 := nib_parts b1
  have n2 := nib_parts b2
  have hu : ∀ b : BitVec 8, (u16 b).toNat = b.toNat := fun b => by
    have := b.isLt
    simp only [u16, BitVec.toNat_setWidth]; omega
  have r0 := b0.isLt
  have r1 := b1.isLt
  have r2 := b2.isLt
  have hm : u16 (b0 &&& 0x0f#8) * 100#16 + u16 (b0 >>> 4) * 10#16 + u16 (b1 &&& 0x0f#8) =
      BitVec.ofNat 16 (x0 * 100 + x1 * 10 + x2) := by
    apply BitVec.eq_of_toNat_eq
    simp only [BitVec.toNat_add, BitVec.toNat_mul, hu, n0.1, n0.2.1, n1.1, e0, e1, e2, BitVec.toNat_ofNat]
    omega
  unfold plmnFromBcd
  simp only [n1.2.2, e3]
  by_cases h15 : x3 = 15
  · simp only [if_pos h15]
    refine ⟨hm, ?_, by simp [h15]⟩
    apply BitVec.eq_of_toNat_eq
    simp only [BitVec.toNat_add, BitVec.toNat_mul, hu, n2.1, n2.2.1, e4, e5, BitVec.toNat_ofNat]
    omega
  · simp only [if_neg h15]
    refine ⟨hm, ?_, by simp [h15]⟩
    apply BitVec.eq_of_toNat_eq
    simp only [BitVec.toNat_add, BitVec.toNat_mul, hu, n2.1, n2.2.1, n1.2.1, e3, e4, e5, BitVec.toNat_ofNat]
    omega

theorem dsum3 {n : Nat} (h : n < 1000) : n / 10 / 10 % 10 * 100 + n / 10 % 10 * 10 + n % 10 = n := by
  have : n / 10 / 10 % 10 = n / 10 / 10 := Nat.mod_eq_of_lt (by omega)
  omega

theorem dsum2 {n : Nat} (h : n < 100) : n / 10 % 10 * 10 + n % 10 = n := by
  have : n / 10 % 10 = n / 10 := Nat.mod_eq_of_lt (by omega)
  omega

theorem digits_of3 {a b c : Nat} (ha : a < 10) (hb : b < 10) (hc : c < 10) :
    (a * 100 + b * 10 + c) % 2 ^ 16 / 10 / 10 % 10 = a ∧ (a * 100 + b * 10 + c) % 2 ^ 16 / 10 % 10 = b ∧
      (a * 100 + b * 10 + c) % 2 ^ 16 % 10 = c := by
  rw [Nat.mod_eq_of_lt (a := a * 100 + b * 10 + c) (by omega)]
  have e : (a * 100 + b * 10 + c) / 10 = a * 10 + b := by omega
  have e' : (a * 10 + b) / 10 = a := by omega
  rw [e, e']
  omega

/-- C28, round trip: every PLMN with MCC and MNC up to 999 is read back as
written; the digit flag of an MNC above 99 reads as "three digits". -/
theorem plmn_roundtrip (p : Plmn) (h1 : p.mcc.toNat < 1000) (h2 : p.mnc.toNat < 1000) :
    plmnFromBcd (plmnToBcd p) = p.norm := by
  have hs := semi_toBcd p
  have hgt : p.mnc > 99#16 ↔ 99 < p.mnc.toNat := BitVec.lt_def
  have ext : ∀ q r : Plmn, q.mcc = r.mcc → q.mnc = r.mnc → q.mnc3 = r.mnc3 → q = r := by
    rintro ⟨⟩ ⟨⟩ h h' h''; simp only at h h' h''; subst h h' h''; rfl
  by_cases c : p.mnc > 99#16 ∨ p.mnc3 = true
  · rw [if_pos c] at hs
    obtain ⟨a, b, d⟩ := fromBcd_semi _ hs
    have hne : p.mnc.toNat % 10 ≠ 15 := by omega
    rw [if_neg hne] at b
    apply ext
    · rw [a, dsum3 h1]; apply BitVec.eq_of_toNat_eq; simp only [BitVec.toNat_ofNat, Plmn.norm]; omega
    · rw [b, dsum3 h2]; apply BitVec.eq_of_toNat_eq; simp only [BitVec.toNat_ofNat, Plmn.norm]; omega
    · rw [d, decide_eq_true hne]
      rcases c with c | c
      · simp [Plmn.norm, hgt.1 c]
      · simp [Plmn.norm, c]
  · rw [if_neg c] at hs
    obtain ⟨a, b, d⟩ := fromBcd_semi _ hs
    have c9 : p.mnc.toNat < 100 := by
      have : ¬ 99 < p.mnc.toNat := fun h => c (.inl (hgt.2 h))
      omega
    rw [if_pos rfl] at b
    apply ext
    · rw [a, dsum3 h1]; apply BitVec.eq_of_toNat_eq; simp only [BitVec.toNat_ofNat, Plmn.norm]; omega
    · rw [b, dsum2 c9]; apply BitVec.eq_of_toNat_eq; simp only [BitVec.toNat_ofNat, Plmn.norm]; omega
    · have c3 : p.mnc3 = false := by
        cases h : p.mnc3
        · rfl
        · exact absurd (.inr h) c
      rw [d]; simp [Plmn.norm, c3]; omega

/-- C28, injectivity: two PLMN have the same octets only if they are the same
MCC, MNC and number of MNC digits. -/
theorem plmnToBcd_inj (p q : Plmn) (h1 : p.mcc.toNat < 1000) (h2 : p.mnc.toNat < 1000)
    (g1 : q.mcc.toNat < 1000) (g2 : q.mnc.toNat < 1000) :
    plmnToBcd p = plmnToBcd q ↔ p.norm = q.norm := by
  constructor
  · intro h
    rw [← plmn_roundtrip p h1 h2, ← plmn_roundtrip q g1 g2, h]
  · intro h
    have e : ∀ r : Plmn, plmnToBcd r.norm = plmnToBcd r := by
      intro r
      have hgt : r.mnc > 99#16 ↔ 99 < r.mnc.toNat := BitVec.lt_def
      unfold plmnToBcd Plmn.norm
      simp only [hgt, Bool.or_eq_true, decide_eq_true_eq]
      by_cases c : 99 < r.mnc.toNat
      · simp [c]
      · simp [c]
    rw [← e p, h, e q]

/-- C28, the other direction: octets with decimal digits (third MNC digit
possibly 1111) are reproduced by decoding and encoding. -/
theorem bcd_roundtrip (b : BitVec 8 × BitVec 8 × BitVec 8) (x0 x1 x2 x3 x4 x5 : Nat)
    (h : semi b = [x0, x1, x2, x3, x4, x5]) (h0 : x0 < 10) (h1 : x1 < 10) (h2 : x2 < 10)
    (h3 : x3 < 10 ∨ x3 = 15) (h4 : x4 < 10) (h5 : x5 < 10) :
    plmnToBcd (plmnFromBcd b) = b := by
  have inj : ∀ a c : BitVec 8 × BitVec 8 × BitVec 8, semi a = semi c → a = c := by
    rintro ⟨a0, a1, a2⟩ ⟨c0, c1, c2⟩ hh
    simp only [semi, List.cons.injEq, and_true] at hh
    refine Prod.ext (BitVec.eq_of_toNat_eq ?_) (Prod.ext (BitVec.eq_of_toNat_eq ?_) (BitVec.eq_of_toNat_eq ?_)) <;>
      simp only <;> omega
  obtain ⟨a, c, d⟩ := fromBcd_semi b h
  apply inj
  rw [semi_toBcd, h]
  have hgt : (plmnFromBcd b).mnc > 99#16 ↔ 99 < (plmnFromBcd b).mnc.toNat := BitVec.lt_def
  simp only [hgt]
  rw [a, c, d]
  rcases h3 with h3 | h3
  · have : x3 ≠ 15 := by omega
    simp only [if_neg this, decide_eq_true_eq]
    rw [if_pos (.inr this)]
    have d1 := digits_of3 h0 h1 h2
    have d2 := digits_of3 h4 h5 h3
    simp only [BitVec.toNat_ofNat, d1, d2]
  · simp only [if_pos h3, decide_eq_true_eq]
    rw [if_neg (by
      rintro (hc | hc)
      · have := Nat.mod_le (x4 * 10 + x5) (2 ^ 16)
        simp only [BitVec.toNat_ofNat] at hc
        omega
      · exact hc h3)]
    have d1 := digits_of3 h0 h1 h2
    have d2 := digits_of3 (show 0 < 10 by omega) h4 h5
    rw [Nat.zero_mul, Nat.zero_add] at d2
    simp only [BitVec.toNat_ofNat, d1, d2, h3]

/-- without the normalisation of the flag the round trip does not hold -/
theorem plmn_flag_counterexample :
    plmnFromBcd (plmnToBcd ⟨262#16, 123#16, false⟩) ≠ ⟨262#16, 123#16, false⟩ := by decide

example : plmnToBcd ⟨262#16, 2#16, false⟩ = (0x62#8, 0xf2#8, 0x20#8) := by decide
example : plmnToBcd ⟨262#16, 2#16, true⟩ = (0x62#8, 0x22#8, 0x00#8) := by decide
example : plmnFromBcd (0x62#8, 0x22#8, 0x00#8) = ⟨262#16, 2#16, true⟩ := by decide

/-! ## C29 -/

/-- `cmp` compares by the lexicographic order of the number lists `key` -/
structure LexOrder {α : Type} (cmp : α → α → Int) (key : α → List Nat) : Prop where
  eq : ∀ a b, cmp a b = 0 ↔ key a = key b
  lt : ∀ a b, cmp a b = -1 ↔ key a < key b
  gt : ∀ a b, cmp a b = 1 ↔ key b < key a

/-- C29: such a comparison takes three values and is reflexive, antisymmetric,
transitive and total. -/
theorem LexOrder.total {α : Type} {cmp : α → α → Int} {key : α → List Nat} (h : LexOrder cmp key) :
    (∀ a b, cmp a b = -1 ∨ cmp a b = 0 ∨ cmp a b = 1) ∧
    (∀ a, cmp a a = 0) ∧
    (∀ a b, cmp b a = -cmp a b) ∧
    (∀ a b c, cmp a b ≤ 0 → cmp b c ≤ 0 → cmp a c ≤ 0) ∧
    (∀ a b c, cmp a b < 0 → cmp b c ≤ 0 → cmp a c < 0) ∧
    (∀ a b c, cmp a b = 0 → cmp b c = 0 → cmp a c = 0) := by
  have tri : ∀ a b, cmp a b = -1 ∨ cmp a b = 0 ∨ cmp a b = 1 := by
    intro a b
    rcases lt_trichotomy (key a) (key b) with h1 | h1 | h1
    · exact .inl ((h.lt a b).2 h1)
    · exact .inr (.inl ((h.eq a b).2 h1))
    · exact .inr (.inr ((h.gt a b).2 h1))
  have le0 : ∀ a b, cmp a b ≤ 0 ↔ key a ≤ key b := by
    intro a b
    rw [le_iff_lt_or_eq (a := key a), ← h.lt, ← h.eq]
    have := tri a b
    omega
  have lt0 : ∀ a b, cmp a b < 0 ↔ key a < key b := by
    intro a b
    rw [← h.lt]
    have := tri a b
    omega
  refine ⟨tri, fun a => (h.eq a a).2 rfl, ?_, ?_, ?_, ?_⟩
  · intro a b
    rcases tri a b with h1 | h1 | h1
    · rw [h1, (h.gt b a).2 ((h.lt a b).1 h1)]; rfl
    · rw [h1, (h.eq b a).2 ((h.eq a b).1 h1).symm]; rfl
    · rw [h1, (h.lt b a).2 ((h.gt a b).1 h1)]
  · intro a b c h1 h2
    exact (le0 a c).2 (le_trans ((le0 a b).1 h1) ((le0 b c).1 h2))
  · intro a b c h1 h2
    exact (lt0 a c).2 (lt_of_lt_of_le ((lt0 a b).1 h1) ((le0 b c).1 h2))
  · intro a b c h1 h2
    exact (h.eq a c).2 (((h.eq a b).1 h1).trans ((h.eq b c).1 h2))

theorem snoc_lt {k l : List Nat} (h : k.length = l.length) (x y : Nat) :
    k ++ [x] < l ++ [y] ↔ k < l ∨ (k = l ∧ x < y) := by
  induction k generalizing l with
  | nil =>
    have : l = [] := List.eq_nil_of_length_eq_zero h.symm
    subst this
    simp [List.cons_lt_cons_iff]
  | cons a k ih =>
    cases l with
    | nil => simp at h
    | cons b l =>
      simp only [List.length_cons, Nat.add_right_cancel_iff] at h
      simp only [List.cons_append, List.cons_lt_cons_iff, ih h, List.cons.injEq]
      tauto

theorem snoc_eq {k l : List Nat} (h : k.length = l.length) (x y : Nat) :
    k ++ [x] = l ++ [y] ↔ k = l ∧ x = y := by
  constructor
  · intro e
    have := List.append_inj e h
    simpa using this
  · rintro ⟨rfl, rfl⟩; rfl

theorem LexOrder.andThen {α β : Type} {w : Nat} {cmp : α → α → Int} {key : α → List Nat}
    (h : LexOrder cmp key) (n : Nat) (hn : ∀ a, (key a).length = n) (f : β → α) (x : β → BitVec w) :
    LexOrder (fun a b => thenCmp (cmp (f a) (f b)) (x a) (x b)) (fun a => key (f a) ++ [(x a).toNat]) := by
  have hl : ∀ a b, (key (f a)).length = (key (f b)).length := fun a b => (hn _).trans (hn _).symm
  have tri := h.total.1
  have irr : ∀ l : List Nat, ¬ l < l := fun l => lt_irrefl l
  have cases3 : ∀ a b : β, thenCmp (cmp (f a) (f b)) (x a) (x b) =
      if key (f a) < key (f b) then -1 else if key (f b) < key (f a) then 1
      else if (x a).toNat < (x b).toNat then -1 else if (x b).toNat < (x a).toNat then 1 else 0 := by
    intro a b
    unfold thenCmp
    simp only [BitVec.lt_def, gt_iff_lt]
    rcases tri (f a) (f b) with c | c | c
    · rw [c, if_pos (by decide), if_pos ((h.lt _ _).1 c)]
    · have e := (h.eq _ _).1 c
      rw [c, e, if_neg (by decide), if_neg (irr _)]
      simp only [if_neg (irr _)]
    · rw [c, if_pos (by decide), if_neg (lt_asymm ((h.gt _ _).1 c)), if_pos ((h.gt _ _).1 c)]
  have key3 : ∀ k l : List Nat, k < l ∨ k = l ∨ l < k := fun k l => lt_trichotomy k l
  constructor <;> intro a b <;> simp only [cases3]
  · rw [snoc_eq (hl a b)]
    rcases key3 (key (f a)) (key (f b)) with c | c | c
    · rw [if_pos c]; simp [ne_of_lt c]
    · rw [c, if_neg (irr _), if_neg (irr _)]
      split
      · simp; omega
      · split
        · simp; omega
        · simp; omega
    · rw [if_neg (lt_asymm c), if_pos c]; simp [(ne_of_lt c).symm]
  · rw [snoc_lt (hl a b)]
    rcases key3 (key (f a)) (key (f b)) with c | c | c
    · rw [if_pos c]; simp [c]
    · rw [c, if_neg (irr _), if_neg (irr _)]
      split
      · simp; omega
      · split
        · simp; omega
        · simp; omega
    · rw [if_neg (lt_asymm c), if_pos c]; simp [lt_asymm c, (ne_of_lt c).symm]
  · rw [snoc_lt (hl b a)]
    rcases key3 (key (f a)) (key (f b)) with c | c | c
    · rw [if_pos c]; simp [lt_asymm c, (ne_of_lt c).symm]
    · rw [c, if_neg (irr _), if_neg (irr _)]
      split
      · simp; omega
      · split
        · simp; omega
        · simp; omega
    · rw [if_neg (lt_asymm c), if_pos c]; simp [c]

/-- MCC, MNC, number of MNC digits (an MNC above 99 has three anyhow) -/
def mncKey (m : BitVec 16 × Bool) : List Nat := [m.1.toNat, if m.2 = true ∨ 99 < m.1.toNat then 3 else 2]
def Plmn.key (p : Plmn) : List Nat := p.mcc.toNat :: mncKey (p.mnc, p.mnc3)
def Lai.key (l : Lai) : List Nat := l.plmn.key ++ [l.lac.toNat]
def Rai.key (r : Rai) : List Nat := r.lai.key ++ [r.rac.toNat]
def Cgi.key (c : Cgi) : List Nat := c.lai.key ++ [c.ci.toNat]
def CgiPs.key (c : CgiPs) : List Nat := c.rai.key ++ [c.ci.toNat]
def RncId.key (r : RncId) : List Nat := r.plmn.key ++ [r.rncId.toNat]
def MmeId.key (m : MmeId) : List Nat := [m.groupId.toNat, m.code.toNat]
def Gummei.key (g : Gummei) : List Nat := g.plmn.key ++ g.mme.key

/-- C29, `osmo_mnc_cmp`: by value, the same value with two digits first -/
theorem mncCmp_lex : LexOrder (fun a b : BitVec 16 × Bool => mncCmp a.1 a.2 b.1 b.2) mncKey := by
  have h100 : ∀ a : BitVec 16, a < 100#16 ↔ a.toNat < 100 := fun a => BitVec.lt_def
  constructor <;> rintro ⟨a, a3⟩ ⟨b, b3⟩ <;>
    simp only [mncCmp, mncKey, h100, BitVec.lt_def, gt_iff_lt, List.cons_lt_cons_iff, List.cons.injEq, and_true,
      List.not_lt_nil, or_false, and_false] <;>
    generalize a.toNat = x <;> generalize b.toNat = y <;> cases a3 <;> cases b3 <;>
    simp only [Bool.false_eq_true, false_or, true_or, if_true, if_false, ne_eq, not_true_eq_false, and_false,
      and_true, not_false_eq_true, reduceCtorEq] <;>
    repeat' split
  all_goals omega

theorem mncKey_length (m : BitVec 16 × Bool) : (mncKey m).length = 2 := rfl

theorem cons_lt' (a b : Nat) (k l : List Nat) : a :: k < b :: l ↔ a < b ∨ (a = b ∧ k < l) := List.cons_lt_cons_iff

/-- C29, `osmo_plmn_cmp` -/
theorem plmnCmp_lex : LexOrder plmnCmp Plmn.key := by
  have m := mncCmp_lex
  constructor <;> intro a b <;> simp only [plmnCmp, Plmn.key, BitVec.lt_def, gt_iff_lt, cons_lt', List.cons.injEq]
  · rw [← m.eq]
    repeat' split
    all_goals first | omega | (simp only []; omega)
  · rw [← m.lt]
    repeat' split
    all_goals first | omega | (simp only []; omega)
  · rw [← m.gt]
    repeat' split
    all_goals first | omega | (simp only []; omega)

/-- C29, `osmo_lai_cmp` -/
theorem laiCmp_lex : LexOrder laiCmp Lai.key := plmnCmp_lex.andThen 3 (fun _ => rfl) Lai.plmn Lai.lac
/-- C29, `osmo_rai_cmp` -/
theorem raiCmp_lex : LexOrder raiCmp Rai.key := laiCmp_lex.andThen 4 (fun _ => rfl) Rai.lai Rai.rac
/-- C29, `osmo_cgi_cmp` -/
theorem cgiCmp_lex : LexOrder cgiCmp Cgi.key := laiCmp_lex.andThen 4 (fun _ => rfl) Cgi.lai Cgi.ci
/-- C29, `osmo_cgi_ps_cmp` -/
theorem cgiPsCmp_lex : LexOrder cgiPsCmp CgiPs.key := raiCmp_lex.andThen 5 (fun _ => rfl) CgiPs.rai CgiPs.ci
/-- C29, `osmo_rnc_id_cmp` -/
theorem rncIdCmp_lex : LexOrder rncIdCmp RncId.key := plmnCmp_lex.andThen 3 (fun _ => rfl) RncId.plmn RncId.rncId

/-- C29, `osmo_mme_id_cmp` -/
theorem mmeIdCmp_lex : LexOrder mmeIdCmp MmeId.key := by
  constructor <;> intro a b <;>
    simp only [mmeIdCmp, MmeId.key, BitVec.lt_def, gt_iff_lt, cons_lt', List.cons.injEq, List.not_lt_nil, and_false,
      or_false, and_true] <;> repeat' split
  all_goals omega

theorem gummeiCmp_eq (a b : Gummei) :
    gummeiCmp a b = thenCmp (thenCmp (plmnCmp a.plmn b.plmn) a.mme.groupId b.mme.groupId) a.mme.code b.mme.code := by
  unfold gummeiCmp thenCmp mmeIdCmp
  simp only []
  generalize plmnCmp a.plmn b.plmn = rc
  repeat' split
  all_goals first | rfl | omega

/-- C29, `osmo_gummei_cmp` -/
theorem gummeiCmp_lex : LexOrder gummeiCmp Gummei.key := by
  have h := (plmnCmp_lex.andThen 3 (fun _ => rfl) Gummei.plmn (fun g : Gummei => g.mme.groupId)).andThen 4
    (fun _ => rfl) id (fun g => g.mme.code)
  have e1 : gummeiCmp = fun a b => thenCmp (thenCmp (plmnCmp a.plmn b.plmn) a.mme.groupId b.mme.groupId)
      a.mme.code b.mme.code := by funext a b; exact gummeiCmp_eq a b
  have e2 : Gummei.key = fun g : Gummei => (g.plmn.key ++ [g.mme.groupId.toNat]) ++ [g.mme.code.toNat] := by
    funext g; rw [List.append_assoc]; rfl
  rw [e1, e2]
  exact h

example : plmnCmp ⟨262#16, 2#16, false⟩ ⟨262#16, 2#16, true⟩ = -1 := by decide
example : plmnCmp ⟨262#16, 102#16, false⟩ ⟨262#16, 102#16, true⟩ = 0 := by decide
example : cgiPsCmp ⟨⟨⟨⟨1#16, 1#16, false⟩, 3#16⟩, 9#8⟩, 5#16⟩ ⟨⟨⟨⟨1#16, 1#16, false⟩, 4#16⟩, 1#8⟩, 4#16⟩ = -1 := by
  decide


end Verif.Gsm23003
