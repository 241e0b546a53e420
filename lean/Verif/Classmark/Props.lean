import Verif.Classmark.Model
import Verif.Utils.StrbufProps
import Verif.Utils.HexProps
import Mathlib.Data.List.Induction
/-!
C93: classmarks and uplink DTX.
-/
namespace Verif.Classmark
open Verif.Utils

/-! ### vocabulary -/

/-- a classmark structure as its users may fill it -/
def WF (cm : Cm) : Prop := cm.cm2.length = 3 ∧ cm.cm3.length = 14

/-- what is known of a mobile: the octets received of each classmark (the third
is stored up to its 14th octet), with their announced number -/
structure Known where
  cm1 : Option Byte
  cm2 : Option (Nat × List Byte)
  cm3 : Option (Nat × List Byte)
  deriving DecidableEq, Repr

/-- what a structure says: only octets that were announced count -/
def known (cm : Cm) : Known where
  cm1 := if cm.cm1Set then some cm.cm1 else none
  cm2 := if cm.cm2Len = 0#8 then none else some (cm.cm2Len.toNat, cm.cm2.take cm.cm2Len.toNat)
  cm3 := if cm.cm3Len = 0#8 then none else some (cm.cm3Len.toNat, cm.cm3.take cm.cm3Len.toNat)

/-- the latest value received of each classmark -/
def latest (first : Known) (l : List Known) : Known where
  cm1 := ((first :: l).reverse.findSome? (·.cm1))
  cm2 := ((first :: l).reverse.findSome? (·.cm2))
  cm3 := ((first :: l).reverse.findSome? (·.cm3))

/-- bit `k` of an octet, counted from 0 -/
def bit (b : Byte) (k : Nat) : Prop := b.toNat / 2 ^ k % 2 = 1

instance (b : Byte) (k : Nat) : Decidable (bit b k) := by unfold bit; infer_instance

/-- does the mobile support A5/n, TS 24.008 10.5.1.5, 10.5.1.6, 10.5.1.7: `none`
if the classmark that would say so is not known (well enough) -/
def Known.a5 (k : Known) : Nat → Option Prop
  | 0 => some True
  | 1 => k.cm1.map fun b => ¬ bit b 3
  | 2 => k.cm2.bind fun c => (c.2[2]?).map fun b => bit b 0
  | 3 => k.cm2.bind fun c => (c.2[2]?).map fun b => bit b 1
  | n + 4 => if n < 4 then k.cm3.bind fun c => (c.2[0]?).map fun b => bit b n else some False

/-- the classmark that tells about A5/n -/
def a5Where (n : Nat) : Int := if n = 1 then 1 else if n ≤ 3 then 2 else 3

/-! ### update -/

/-- **C93a.** `osmo_gsm48_classmark_update` is defined and takes over what the
source knows, octet for octet; the rest stays. -/
theorem update_spec (dst src : Cm) (hd : WF dst) (hs : WF src) :
    ∃ r, update dst src = some r ∧ WF r ∧
      (known r).cm1 = (known src).cm1.or (known dst).cm1 ∧
      (known r).cm2 = (known src).cm2.or (known dst).cm2 ∧
      (known r).cm3 = (known src).cm3.or (known dst).cm3 := by
  obtain ⟨d2, d3⟩ := hd
  obtain ⟨s2, s3⟩ := hs
  unfold update
  by_cases c3 : src.cm3Len = 0#8
  · simp only [c3, ne_eq, not_true_eq_false, if_false]
    refine ⟨_, rfl, ?_, ?_, ?_, ?_⟩
    · unfold WF; split <;> split <;> simp [d2, d3, s2]
    · unfold known; split <;> split <;> simp [*]
    · unfold known; split <;> split <;> simp_all
    · unfold known; split <;> split <;> simp [*]
  · have hlen : ∀ x : Cm, x.cm3 = dst.cm3 → writeAt x.cm3 0 (src.cm3.take (min x.cm3.length src.cm3Len.toNat)) =
        some (src.cm3.take (min 14 src.cm3Len.toNat) ++ dst.cm3.drop (min 14 src.cm3Len.toNat)) := by
      intro x hx
      rw [hx, d3]
      have := writeAt_eq_some (mem := dst.cm3) (o := 0) (bs := src.cm3.take (min 14 src.cm3Len.toNat)) (by simp; omega)
      simp only [Int.natCast_zero, List.take_zero, List.nil_append, Nat.zero_add] at this
      rw [this]
      congr 3
      simp [s3]
    have htake : (src.cm3.take (min 14 src.cm3Len.toNat) ++ dst.cm3.drop (min 14 src.cm3Len.toNat)).take src.cm3Len.toNat =
        src.cm3.take src.cm3Len.toNat := by
      by_cases h : src.cm3Len.toNat ≤ 14
      · rw [Nat.min_eq_right h, List.take_left' (by simp [s3]; omega)]
      · rw [Nat.min_eq_left (by omega), List.drop_eq_nil_of_le (by omega), List.append_nil,
          (show src.cm3.take 14 = src.cm3 from List.take_of_length_le (by omega))]
    have hL : (src.cm3.take (min 14 src.cm3Len.toNat) ++ dst.cm3.drop (min 14 src.cm3Len.toNat)).length = 14 := by
      simp [s3, d3]; omega
    simp only [ne_eq, c3, not_false_eq_true, if_true]
    have key : ∀ x : Cm, x.cm3 = dst.cm3 → ¬ src.cm3.length < min x.cm3.length src.cm3Len.toNat := by
      intro x hx; rw [hx, d3, s3]; omega
    rw [if_neg (key _ (by split <;> split <;> rfl)), hlen _ (by split <;> split <;> rfl), Option.map_some]
    refine ⟨_, rfl, ?_, ?_, ?_, ?_⟩
    · unfold WF; refine ⟨?_, hL⟩; dsimp only; split <;> split <;> simp [d2, s2]
    · unfold known; dsimp only; split <;> split <;> simp [*]
    · unfold known; dsimp only; split <;> split <;> simp_all
    · unfold known; dsimp only; simp [c3, htake]

/-- updates one after the other -/
def updates (dst : Cm) (l : List Cm) : Option Cm := l.foldlM update dst

theorem findSome_snoc {α β : Type} (f : α → Option β) (l : List α) (a : α) :
    (l ++ [a]).reverse.findSome? f = (f a).or (l.reverse.findSome? f) := by
  rw [List.reverse_append, List.reverse_singleton, List.singleton_append, List.findSome?_cons]
  cases f a <;> rfl

/-- **C93b.** After any number of updates the structure knows of each classmark
the last one received. -/
theorem updates_latest (l : List Cm) (dst : Cm) (hd : WF dst) (hl : ∀ s ∈ l, WF s) :
    ∃ r, updates dst l = some r ∧ WF r ∧ known r = latest (known dst) (l.map known) := by
  induction l using List.reverseRecOn with
  | nil => exact ⟨dst, rfl, hd, by simp [latest, known]⟩
  | append_singleton l s ih =>
    obtain ⟨r, h1, h2, h3⟩ := ih (fun x hx => hl x (by simp [hx]))
    obtain ⟨r', u1, u2, u3, u4, u5⟩ := update_spec r s h2 (hl s (by simp))
    refine ⟨r', ?_, u2, ?_⟩
    · unfold updates at h1 ⊢
      rw [List.foldlM_append, h1]
      simp [u1]
    · have e : ∀ a b : Known, a.cm1 = b.cm1 → a.cm2 = b.cm2 → a.cm3 = b.cm3 → a = b := by
        rintro ⟨⟩ ⟨⟩ h h' h''; simp only at h h' h''; subst h h' h''; rfl
      apply e
      · rw [u3, h3]
        simp only [latest, List.map_append, List.map_cons, List.map_nil, ← List.cons_append]
        rw [findSome_snoc]
      · rw [u4, h3]
        simp only [latest, List.map_append, List.map_cons, List.map_nil, ← List.cons_append]
        rw [findSome_snoc]
      · rw [u5, h3]
        simp only [latest, List.map_append, List.map_cons, List.map_nil, ← List.cons_append]
        rw [findSome_snoc]

/-! ### A5 -/

theorem bits : ∀ b : Byte, ((b &&& 1#8 ≠ 0#8) ↔ bit b 0) ∧ ((b &&& 2#8 ≠ 0#8) ↔ bit b 1) ∧
    ((b &&& 4#8 ≠ 0#8) ↔ bit b 2) ∧ ((b &&& 8#8 ≠ 0#8) ↔ bit b 3) := by decide +kernel

/-- **C93c.** `osmo_gsm48_classmark_supports_a5`: 1 or 0 as the classmark says,
minus the number of the classmark to ask for if it is not known; nothing for
algorithms that do not exist; no octet that was not announced is looked at. -/
theorem supportsA5_spec (cm : Cm) (h : WF cm) (a5 : Byte) :
    match (known cm).a5 a5.toNat with
    | some p => (p ∧ supportsA5 cm a5 = some 1) ∨ (¬ p ∧ supportsA5 cm a5 = some 0)
    | none => supportsA5 cm a5 = some (-(a5Where a5.toNat)) := by
  obtain ⟨h2, h3⟩ := h
  have ne : ∀ k, k < 256 → a5.toNat ≠ k → a5 ≠ BitVec.ofNat 8 k := by
    intro k hk hne e; rw [e] at hne; simp at hne; omega
  have eq : ∀ k, a5.toNat = k → a5 = BitVec.ofNat 8 k := by
    intro k e; rw [← e]; simp
  have dec : ∀ (p q : Prop) [Decidable p], (p ↔ q) →
      (q ∧ some (if p then (1 : Int) else 0) = some 1) ∨ (¬ q ∧ some (if p then (1 : Int) else 0) = some 0) := by
    intro p q _ hpq
    by_cases hp : p
    · exact .inl ⟨hpq.1 hp, by rw [if_pos hp]⟩
    · exact .inr ⟨fun hq => hp (hpq.2 hq), by rw [if_neg hp]⟩
  match hn : a5.toNat with
  | 0 =>
    have := eq 0 hn; subst this
    left; exact ⟨trivial, rfl⟩
  | 1 =>
    have := eq 1 hn; subst this
    simp only [Known.a5, known, supportsA5]
    by_cases hs : cm.cm1Set = true
    · simp only [hs, if_true, Option.map_some]
      have := dec (¬ bit cm.cm1 3) (¬ bit cm.cm1 3) Iff.rfl
      have hb := (bits cm.cm1).2.2.2
      simp only [hb]
      simpa using this
    · simp [hs, a5Where]
  | 2 =>
    have := eq 2 hn; subst this
    simp only [Known.a5, known, supportsA5]
    have hlt : cm.cm2Len < 3#8 ↔ cm.cm2Len.toNat < 3 := BitVec.lt_def
    by_cases hs : cm.cm2Len.toNat < 3
    · have : (if cm.cm2Len = 0#8 then none else some (cm.cm2Len.toNat, List.take cm.cm2Len.toNat cm.cm2)).bind
          (fun c => (c.2[2]?).map fun b => bit b 0) = none := by
        split
        · rfl
        · simp; omega
      rw [this]
      simp [hlt, hs, a5Where]
    · have h0 : ¬ cm.cm2Len = 0#8 := by intro e; rw [e] at hs; simp at hs
      simp only [if_neg h0, Option.bind_some]
      rw [List.getElem?_take_of_lt (by omega), List.getElem?_eq_getElem (by omega)]
      simp only [Option.map_some, hlt, hs, if_false]
      simpa using dec _ _ (bits (cm.cm2[2])).1
  | 3 =>
    have := eq 3 hn; subst this
    simp only [Known.a5, known, supportsA5]
    have hlt : cm.cm2Len < 3#8 ↔ cm.cm2Len.toNat < 3 := BitVec.lt_def
    by_cases hs : cm.cm2Len.toNat < 3
    · have : (if cm.cm2Len = 0#8 then none else some (cm.cm2Len.toNat, List.take cm.cm2Len.toNat cm.cm2)).bind
          (fun c => (c.2[2]?).map fun b => bit b 1) = none := by
        split
        · rfl
        · simp; omega
      rw [this]
      simp [hlt, hs, a5Where]
    · have h0 : ¬ cm.cm2Len = 0#8 := by intro e; rw [e] at hs; simp at hs
      simp only [if_neg h0, Option.bind_some]
      rw [List.getElem?_take_of_lt (by omega), List.getElem?_eq_getElem (by omega)]
      simp only [Option.map_some, hlt, hs, if_false]
      simpa using dec _ _ (bits (cm.cm2[2])).2.1
  | n + 4 =>
    have n0 := ne 0 (by omega) (by omega)
    have n1 := ne 1 (by omega) (by omega)
    have n2 := ne 2 (by omega) (by omega)
    have n3 := ne 3 (by omega) (by omega)
    simp only [Known.a5, supportsA5, if_neg n0, if_neg n1, if_neg n2, if_neg n3]
    by_cases hn4 : n < 4
    · have hc : a5 = 4#8 ∨ a5 = 5#8 ∨ a5 = 6#8 ∨ a5 = 7#8 := by
        have : n = 0 ∨ n = 1 ∨ n = 2 ∨ n = 3 := by omega
        rcases this with rfl | rfl | rfl | rfl
        · exact .inl (eq 4 hn)
        · exact .inr (.inl (eq 5 hn))
        · exact .inr (.inr (.inl (eq 6 hn)))
        · exact .inr (.inr (.inr (eq 7 hn)))
      rw [if_pos hn4, if_pos hc, hn]
      simp only [known]
      by_cases h0 : cm.cm3Len = 0#8
      · simp only [h0, if_true, Option.bind_none]
        have : a5Where (n + 4) = 3 := by unfold a5Where; rw [if_neg (by omega), if_neg (by omega)]
        rw [this]
      · have hp : 0 < cm.cm3Len.toNat := by
          rcases Nat.eq_zero_or_pos cm.cm3Len.toNat with e | e
          · exact absurd (BitVec.eq_of_toNat_eq e) h0
          · exact e
        simp only [if_neg h0, Option.bind_some]
        rw [List.getElem?_take_of_lt (by omega), List.getElem?_eq_getElem (by omega)]
        simp only [Option.map_some]
        have hb : (cm.cm3[0] &&& 1#8 <<< (n + 4 - 4) ≠ 0#8) ↔ bit cm.cm3[0] n := by
          have hbb := bits cm.cm3[0]
          have : n = 0 ∨ n = 1 ∨ n = 2 ∨ n = 3 := by omega
          rcases this with rfl | rfl | rfl | rfl
          · exact hbb.1
          · exact hbb.2.1
          · exact hbb.2.2.1
          · exact hbb.2.2.2
        simpa using dec _ _ hb
    · rw [if_neg hn4]
      right
      refine ⟨not_false, ?_⟩
      rw [if_neg]
      rintro (e | e | e | e) <;> (rw [e] at hn; simp at hn; omega)

/-! ### release -/

/-- **C93d.** `osmo_gsm48_classmark_is_r99`: revision level 2 or 3 in classmark
1, or else in classmark 2; false if neither is known. -/
theorem isR99_spec (cm : Cm) (h : WF cm) :
    ∃ r, isR99 cm = some r ∧
      (r = true ↔ ∃ b, ((known cm).cm1.or ((known cm).cm2.bind fun c => c.2[0]?)) = some b ∧ bit b 6) := by
  have hb : ∀ b : Byte, (((b >>> 5) &&& 3#8 ≥ 2#8) ↔ bit b 6) := by decide +kernel
  unfold isR99 cm1IsR99 cm2IsR99 known
  by_cases hs : cm.cm1Set = true
  · simp only [hs, if_true]
    exact ⟨_, rfl, by simp [hb]⟩
  · simp only [hs, Bool.false_eq_true, if_false]
    by_cases h0 : cm.cm2Len = 0#8
    · simp only [h0, if_true]
      exact ⟨false, rfl, by simp⟩
    · have hp : 0 < cm.cm2Len.toNat := by
        rcases Nat.eq_zero_or_pos cm.cm2Len.toNat with e | e
        · exact absurd (BitVec.eq_of_toNat_eq e) h0
        · exact e
      have h2 := h.1
      simp only [if_neg h0]
      rw [List.getElem?_eq_getElem (show 0 < cm.cm2.length by omega)]
      refine ⟨_, rfl, ?_⟩
      simp only [Option.bind_some, Option.none_or]
      rw [List.getElem?_take_of_lt hp, List.getElem?_eq_getElem (by omega)]
      simp [hb, cm1IsR99]

/-! ### power class -/

/-- **C93e.** The power class of a band (three in the 1800 and 1900 bands, five
elsewhere) is one more than the field; other values are refused. -/
theorem powerClass_spec (high : Bool) (cap : Byte) :
    powerClass high cap = if cap.toNat < (if high then 3 else 5) then ((cap.toNat + 1 : Nat) : Int) else -1 := by
  have h2 : cap > 2#8 ↔ 2 < cap.toNat := BitVec.lt_def
  have h4 : cap > 4#8 ↔ 4 < cap.toNat := BitVec.lt_def
  unfold powerClass
  cases high
  · simp only [Bool.false_eq_true, if_false, h4]
    split <;> split <;> omega
  · simp only [if_true, h2]
    split <;> split <;> omega

/-! ### DTX -/

/-- TS 44.018 table 10.5.2.3.1 (BCCH): bits 6 and 5 of the octet -/
def bcchMode (op : Byte) : Option Dtx :=
  match op.toNat / 16 % 4 with
  | 0 => some .may
  | 1 => some .shall
  | 2 => some .shallNot
  | _ => none

/-- TS 44.018 table 10.5.2.3a.2 (SACCH): bits 8, 6 and 5; full rate, half rate -/
def sacchModes (op : Byte) : Dtx × Dtx :=
  match op.toNat / 128, op.toNat / 16 % 4 with
  | 0, 0 => (.may, .shallNot)
  | 0, 1 => (.shall, .shallNot)
  | 0, 2 => (.shallNot, .shallNot)
  | 0, _ => (.shall, .may)
  | _, 0 => (.may, .may)
  | _, 1 => (.shall, .shall)
  | _, 2 => (.shallNot, .shall)
  | _, _ => (.may, .shall)

/-- **C93f.** On the BCCH the mode for full rate channels is set, and no other bit
of the octet. -/
theorem setDtx_bcch (op : Byte) (full half : Dtx) :
    bcchMode (setDtx op full half true) = some full ∧
    setDtx op full half true &&& 0xcf#8 = op &&& 0xcf#8 := by
  have : ∀ op : Byte, ∀ v : Fin 4, (setDtxField op (BitVec.ofNat 8 v.val)).toNat / 16 % 4 = v.val ∧
      setDtxField op (BitVec.ofNat 8 v.val) &&& 0xcf#8 = op &&& 0xcf#8 := by decide +kernel
  unfold bcchMode
  cases full <;> simp only [setDtx, if_true]
  · have := this op 0; rw [show (0#8 : Byte) = BitVec.ofNat 8 (0 : Fin 4).val from rfl, this.1]; exact ⟨rfl, this.2⟩
  · have := this op 1; rw [show (1#8 : Byte) = BitVec.ofNat 8 (1 : Fin 4).val from rfl, this.1]; exact ⟨rfl, this.2⟩
  · have := this op 2; rw [show (2#8 : Byte) = BitVec.ofNat 8 (2 : Fin 4).val from rfl, this.1]; exact ⟨rfl, this.2⟩

/-- **C93g.** On the SACCH both modes are set, and no other bit; only "shall not"
for full rate together with "may" for half rate cannot be expressed, and becomes
"shall not" for both. -/
theorem setDtx_sacch (op : Byte) (full half : Dtx) :
    sacchModes (setDtx op full half false) =
      (full, if full = .shallNot ∧ half = .may then .shallNot else half) ∧
    setDtx op full half false &&& 0x4f#8 = op &&& 0x4f#8 := by
  cases full <;> cases half <;> revert op <;> decide +kernel

/-! ### text -/

/-- **C93h.** `osmo_gsm48_classmark_a5_name_buf`: none of the parts is cut, and
the whole fits into 128 bytes, so that the text of
`osmo_gsm48_classmark_a5_name` is complete. -/
theorem a5Name_spec (cm : Cm) (h : WF cm) :
    ∃ t2 t3, cm2Text cm = some t2 ∧ cm3Text cm = some t3 ∧ (cm1Text cm ++ t2 ++ t3).length < 128 ∧
      ∀ buf : List Byte, buf ≠ [] → ∃ out, a5NameBuf buf cm = some out ∧ out.length = buf.length ∧
        HoldsPrefix out (cm1Text cm ++ t2 ++ t3) := by
  obtain ⟨h2, h3⟩ := h
  have l1 : (cm1Text cm).length ≤ 41 := by
    unfold cm1Text
    split
    · split <;> simp [txt]
    · simp [txt]
  have hx : ∀ n, (hexSmall n).length ≤ 2 := by intro n; unfold hexSmall; dsimp only; split <;> simp
  have ha : ∀ b n, (a5Text b n).length ≤ 5 := by intro b n; unfold a5Text; split <;> simp [txt]
  have t2 : ∃ t, cm2Text cm = some t ∧ t.length ≤ 41 := by
    unfold cm2Text
    split
    · rw [List.getElem?_eq_getElem (by omega)]
      refine ⟨_, rfl, ?_⟩
      simp only [List.length_append, txt, List.length_map, List.length_cons, List.length_nil]
      have a := hx ((if cm.cm2[2] &&& 1#8 ≠ 0#8 then 1 else 0) + (if cm.cm2[2] &&& 2#8 ≠ 0#8 then 2 else 0))
      have b := ha (decide (cm.cm2[2] &&& 1#8 ≠ 0#8)) 2
      have c := ha (decide (cm.cm2[2] &&& 2#8 ≠ 0#8)) 3
      omega
    · exact ⟨_, rfl, by simp [txt]⟩
  have t3 : ∃ t, cm3Text cm = some t ∧ t.length ≤ 41 := by
    unfold cm3Text
    split
    · rw [List.getElem?_eq_getElem (by omega)]
      refine ⟨_, rfl, ?_⟩
      simp only [List.length_append, txt, List.length_map, List.length_cons, List.length_nil]
      have a := hx cm.cm3[0].toNat
      have b4 := ha (decide (cm.cm3[0] &&& 1#8 ≠ 0#8)) 4
      have b5 := ha (decide (cm.cm3[0] &&& 2#8 ≠ 0#8)) 5
      have b6 := ha (decide (cm.cm3[0] &&& 4#8 ≠ 0#8)) 6
      have b7 := ha (decide (cm.cm3[0] &&& 8#8 ≠ 0#8)) 7
      omega
    · exact ⟨_, rfl, by simp [txt]⟩
  obtain ⟨t2, e2, l2⟩ := t2
  obtain ⟨t3, e3, l3⟩ := t3
  refine ⟨t2, t3, e2, e3, by simp only [List.length_append]; omega, ?_⟩
  intro buf hb
  obtain ⟨out, o1, o2, o3⟩ := snprintfText_like (cm1Text cm ++ t2 ++ t3) buf
  refine ⟨out, ?_, o2, o3 hb⟩
  unfold a5NameBuf
  rw [e2, Option.bind_some, e3, Option.bind_some, List.take_of_length_le l1, List.take_of_length_le l2,
    List.take_of_length_le l3, o1]
  rfl

/-- the number behind `0x` is the octet: its hexadecimal digits without leading zero -/
theorem hexSmall_spec : ∀ b : Byte, (hexSmall b.toNat).map (digitValue true) =
    (if b.toNat < 16 then [some b.toNat] else [some (b.toNat / 16), some (b.toNat % 16)]) ∧
    ∀ c ∈ hexSmall b.toNat, ¬ (0x41 ≤ c.toNat ∧ c.toNat ≤ 0x5a) := by decide +kernel

/-- the words of the supported ones among the algorithms `l` -/
def words (cm : Cm) (l : List Nat) : List Byte :=
  (l.filter (fun n => supportsA5 cm (BitVec.ofNat 8 n) = some 1)).flatMap
    (fun n => txt [0x20, 0x41, 0x35, 0x2f, 0x30 + n])

/-- **C93i.** The text agrees with `osmo_gsm48_classmark_supports_a5`: a classmark
that is not known is said to be missing, and otherwise the algorithms named are
exactly the supported ones, in order. -/
theorem a5Text_words (cm : Cm) (h : WF cm) :
    (supportsA5 cm 1#8 = some (-1) → cm1Text cm = txt [0x6e, 0x6f, 0x2d, 0x63, 0x6d, 0x31]) ∧
    (supportsA5 cm 1#8 = some 1 → cm1Text cm = txt [0x63, 0x6d, 0x31, 0x7b, 0x61, 0x35, 0x2f, 0x31, 0x3d,
      0x73, 0x75, 0x70, 0x70, 0x6f, 0x72, 0x74, 0x65, 0x64, 0x7d]) ∧
    (supportsA5 cm 1#8 = some 0 → cm1Text cm = txt [0x63, 0x6d, 0x31, 0x7b, 0x61, 0x35, 0x2f, 0x31, 0x3d,
      0x6e, 0x6f, 0x74, 0x2d, 0x73, 0x75, 0x70, 0x70, 0x6f, 0x72, 0x74, 0x65, 0x64, 0x7d]) ∧
    (supportsA5 cm 2#8 = some (-2) → cm2Text cm = some (txt [0x20, 0x6e, 0x6f, 0x2d, 0x63, 0x6d, 0x32])) ∧
    (supportsA5 cm 2#8 ≠ some (-2) → cm2Text cm = some (txt [0x20, 0x63, 0x6d, 0x32, 0x7b, 0x30, 0x78,
      0x30 + (if supportsA5 cm 2#8 = some 1 then 1 else 0) + (if supportsA5 cm 3#8 = some 1 then 2 else 0), 0x3d] ++
      words cm [2, 3] ++ txt [0x7d])) ∧
    (supportsA5 cm 4#8 = some (-3) → cm3Text cm = some (txt [0x20, 0x6e, 0x6f, 0x2d, 0x63, 0x6d, 0x33])) ∧
    (supportsA5 cm 4#8 ≠ some (-3) → ∃ b, (known cm).cm3.map (·.2[0]?) = some (some b) ∧
      cm3Text cm = some (txt [0x20, 0x63, 0x6d, 0x33, 0x7b, 0x30, 0x78] ++ hexSmall b.toNat ++
      txt [0x3d] ++ words cm [4, 5, 6, 7] ++ txt [0x7d])) := by
  obtain ⟨h2, h3⟩ := h
  have s1 : supportsA5 cm 1#8 = if ¬ cm.cm1Set then some (-1) else some (if cm.cm1 &&& 8#8 ≠ 0#8 then 0 else 1) := rfl
  have s2 : supportsA5 cm 2#8 = if cm.cm2Len < 3#8 then some (-2) else
      (cm.cm2[2]?).map fun b => if b &&& 1#8 ≠ 0#8 then 1 else 0 := rfl
  have s3 : supportsA5 cm 3#8 = if cm.cm2Len < 3#8 then some (-2) else
      (cm.cm2[2]?).map fun b => if b &&& 2#8 ≠ 0#8 then 1 else 0 := rfl
  have s4 : supportsA5 cm 4#8 = if cm.cm3Len = 0#8 then some (-3) else
      (cm.cm3[0]?).map fun b => if b &&& 1#8 ≠ 0#8 then 1 else 0 := rfl
  have s5 : supportsA5 cm 5#8 = if cm.cm3Len = 0#8 then some (-3) else
      (cm.cm3[0]?).map fun b => if b &&& 2#8 ≠ 0#8 then 1 else 0 := rfl
  have s6 : supportsA5 cm 6#8 = if cm.cm3Len = 0#8 then some (-3) else
      (cm.cm3[0]?).map fun b => if b &&& 4#8 ≠ 0#8 then 1 else 0 := rfl
  have s7 : supportsA5 cm 7#8 = if cm.cm3Len = 0#8 then some (-3) else
      (cm.cm3[0]?).map fun b => if b &&& 8#8 ≠ 0#8 then 1 else 0 := rfl
  have ge2 : cm.cm2Len ≥ 3#8 ↔ ¬ cm.cm2Len < 3#8 := by
    show 3#8 ≤ cm.cm2Len ↔ _
    rw [BitVec.le_def, BitVec.lt_def]; omega
  have ge3 : cm.cm3Len ≥ 1#8 ↔ ¬ cm.cm3Len = 0#8 := by
    show 1#8 ≤ cm.cm3Len ↔ _
    rw [BitVec.le_def, ← BitVec.toNat_inj]; simp; omega
  have e2 : cm.cm2[2]? = some (cm.cm2[2]'(by omega)) := List.getElem?_eq_getElem _
  have e3 : cm.cm3[0]? = some (cm.cm3[0]'(by omega)) := List.getElem?_eq_getElem _
  refine ⟨?_, ?_, ?_, ?_, ?_, ?_, ?_⟩
  · rw [s1]; unfold cm1Text
    by_cases c : cm.cm1Set = true <;> by_cases q : cm.cm1 &&& 8#8 = 0#8 <;> simp [c, q, txt]
  · rw [s1]; unfold cm1Text
    by_cases c : cm.cm1Set = true <;> by_cases q : cm.cm1 &&& 8#8 = 0#8 <;> simp [c, q, txt]
  · rw [s1]; unfold cm1Text
    by_cases c : cm.cm1Set = true <;> by_cases q : cm.cm1 &&& 8#8 = 0#8 <;> simp [c, q, txt]
  · rw [s2, e2]; unfold cm2Text
    simp only [ge2]
    by_cases c : cm.cm2Len < 3#8
    · simp [c]
    · simp only [c, if_false, Option.map_some, Option.some.injEq]; split <;> simp
  · intro hn
    have c : ¬ cm.cm2Len < 3#8 := fun c => hn (by rw [s2, if_pos c])
    unfold cm2Text words
    simp only [List.filter_cons, List.filter_nil, s2, s3, ge2, c, not_false_eq_true, if_true, if_false, e2, Option.map_some]
    generalize cm.cm2[2]'(by omega) = b
    by_cases p : b &&& 1#8 ≠ 0#8 <;> by_cases q : b &&& 2#8 ≠ 0#8 <;> simp [p, q, a5Text, txt, hexSmall]
  · rw [s4, e3]; unfold cm3Text
    simp only [ge3]
    by_cases c : cm.cm3Len = 0#8
    · simp [c]
    · simp only [c, if_false, Option.map_some, Option.some.injEq]; split <;> simp
  · intro hn
    have c : ¬ cm.cm3Len = 0#8 := fun c => hn (by rw [s4, if_pos c])
    have hp : 0 < cm.cm3Len.toNat := by
      rcases Nat.eq_zero_or_pos cm.cm3Len.toNat with e | e
      · exact absurd (BitVec.eq_of_toNat_eq e) c
      · exact e
    refine ⟨cm.cm3[0]'(by omega), ?_, ?_⟩
    · simp only [known, if_neg c, Option.map_some]
      rw [List.getElem?_take_of_lt hp, e3]
    unfold cm3Text words
    simp only [List.filter_cons, List.filter_nil, s4, s5, s6, s7, ge3, c, not_false_eq_true, if_true, if_false, e3,
      Option.map_some]
    generalize cm.cm3[0]'(by omega) = b
    by_cases p : b &&& 1#8 ≠ 0#8 <;> by_cases q : b &&& 2#8 ≠ 0#8 <;> by_cases r : b &&& 4#8 ≠ 0#8 <;>
      by_cases t : b &&& 8#8 ≠ 0#8 <;> simp [p, q, r, t, a5Text, txt]

/-! ### examples -/

/-- a mobile of which only classmarks 1 and 2 are known -/
def cmA : Cm := ⟨true, 0x57#8, 3#8, [0x57#8, 0x18#8, 0x83#8], 0#8, List.replicate 14 0#8⟩
/-- a classmark change with a new classmark 2 of three octets and a long classmark 3 -/
def cmB : Cm := ⟨false, 0#8, 3#8, [0x33#8, 0x19#8, 0xa2#8], 20#8, [0x0d#8] ++ List.replicate 13 0x11#8⟩

example : WF cmA ∧ WF cmB := by unfold WF; decide
example : supportsA5 cmA 4#8 = some (-3) ∧ supportsA5 cmA 3#8 = some 1 ∧ supportsA5 cmA 1#8 = some 1 := by decide
example : (updates cmA [cmB]).bind (fun r => supportsA5 r 4#8) = some 1 := by decide
example : (updates cmA [cmB]).bind (fun r => supportsA5 r 2#8) = some 0 := by decide
example : (updates cmA [cmB]).map known = some ⟨some 0x57#8, some (3, [0x33#8, 0x19#8, 0xa2#8]),
    some (20, [0x0d#8] ++ List.replicate 13 0x11#8)⟩ := by decide
example : isR99 cmA = some true ∧ isR99 cmB = some false := by decide
example : powerClass true 2#8 = 3 ∧ powerClass true 3#8 = -1 ∧ powerClass false 3#8 = 4 := by decide
example : setDtx 0x46#8 .shall .may false = 0x76#8 ∧ setDtx 0xf6#8 .may .shallNot false = 0x46#8 := by decide
example : (a5NameBuf (List.replicate 10 0xaa#8) cmA).map (·.take 10) =
    some [0x63#8, 0x6d#8, 0x31#8, 0x7b#8, 0x61#8, 0x35#8, 0x2f#8, 0x31#8, 0x3d#8, 0#8] := by decide

end Verif.Classmark
