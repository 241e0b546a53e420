import Verif.Tlv.EncodeProps
/-!
tlv_parse2 for definitions with only T, TV, fixed size and TLV elements, in terms
of lists of tags and values.  Used for the protocols that parse such messages.
-/
namespace Verif.Tlv

/-- Only elements of these types. -/
def Simple (d : Definition) : Prop :=
  ∀ t, (d t).type = .none ∨ (d t).type = .t ∨ (d t).type = .tv ∨ (d t).type = .fixed ∨ (d t).type = .tlv

/-- The size of the value: `some (some n)` = always `n` octets, `some none` = with
a length octet, `none` = unknown element. -/
def valueSize (d : Definition) (t : Byte) : Option (Option Nat) :=
  match (d t).type with
  | .t => some (some 0)
  | .tv => some (some 1)
  | .fixed => some (some (d t).fixedLen.toNat)
  | .tlv => some none
  | _ => none

/-- The element is known and its value has the right size. -/
def Fits (d : Definition) (e : Byte × List Byte) : Prop :=
  match valueSize d e.1 with
  | some (some n) => e.2.length = n
  | some none => e.2.length < 256
  | none => False

/-- The octets of an element. -/
def octets (d : Definition) (e : Byte × List Byte) : List Byte :=
  match valueSize d e.1 with
  | some none => e.1 :: BitVec.ofNat 8 e.2.length :: e.2
  | _ => e.1 :: e.2

theorem ie_simple {d : Definition} (hs : Simple d) {t : Byte} {ie : List Byte} {off len : Nat} (h : Ie d t ie off len) :
    ie = octets d (t, (ie.drop off).take len) ∧ Fits d (t, (ie.drop off).take len) := by
  cases h with
  | half b hb => rcases hs (b >>> 4) with h | h | h | h | h <;> rw [h] at hb <;> cases hb
  | halfOld b _ _ hb => rcases hs (b &&& 0xf0#8) with h | h | h | h | h <;> rw [h] at hb <;> cases hb
  | t _ _ ht => simp [octets, Fits, valueSize, ht]
  | tv _ v _ ht => simp [octets, Fits, valueSize, ht]
  | fixed _ v _ ht hl => simp [octets, Fits, valueSize, ht, hl, List.take_of_length_le (Nat.le_of_eq hl)]
  | tlv _ l v _ ht hl => simp [octets, Fits, valueSize, ht, hl, l.isLt, List.take_of_length_le (Nat.le_of_eq hl)]
  | tl16v _ _ _ _ _ hb => rcases hs t with h | h | h | h | h <;> rw [h] at hb <;> cases hb
  | tvlvShort _ _ _ _ hb => rcases hs t with h | h | h | h | h <;> rw [h] at hb <;> cases hb
  | tvlvLong _ _ _ _ _ hb => rcases hs t with h | h | h | h | h <;> rw [h] at hb <;> cases hb
  | ganShort _ _ _ _ hb => rcases hs t with h | h | h | h | h <;> rw [h] at hb <;> cases hb
  | ganLong _ _ _ _ _ hb => rcases hs t with h | h | h | h | h <;> rw [h] at hb <;> cases hb

theorem simple_plain {d : Definition} (hs : Simple d) (t : Byte) : Plain d t := by
  constructor
  · rcases hs (t >>> 4) with h | h | h | h | h <;> rw [h] <;> decide
  · intro _
    rcases hs (t &&& 0xf0#8) with h | h | h | h | h <;> rw [h] <;> decide

theorem ie_of_fits {d : Definition} (hs : Simple d) (e : Byte × List Byte) (h : Fits d e) :
    ∃ off len, Ie d e.1 (octets d e) off len := by
  obtain ⟨t, v⟩ := e
  have hp := simple_plain hs t
  simp only [Fits, octets, valueSize] at h ⊢
  rcases hs t with ht | ht | ht | ht | ht <;> simp only [ht] at h ⊢
  · rw [List.length_eq_zero_iff.mp h]
    exact ⟨_, _, .t t hp ht⟩
  · obtain ⟨a, rfl⟩ := List.length_eq_one_iff.mp h
    exact ⟨_, _, .tv t a hp ht⟩
  · exact ⟨_, _, .fixed t v hp ht h⟩
  · exact ⟨_, _, .tlv t _ v hp ht (by simp; omega)⟩

theorem ies_simple {d : Definition} (hs : Simple d) {ofs : Nat} {bytes : List Byte} {ies : List (Byte × Nat × Nat)}
    (h : Ies d ofs bytes ies) (pre : List Byte) (hp : pre.length = ofs) :
    ∃ es : List (Byte × List Byte), (∀ e ∈ es, Fits d e) ∧ bytes = es.flatMap (octets d) ∧
      es = ies.map fun e => (e.1, content (pre ++ bytes) e.2) := by
  induction h generalizing pre with
  | nil => exact ⟨[], by simp, rfl, rfl⟩
  | cons ofs tag ie rest off len ies h1 h2 ih =>
    obtain ⟨es, k1, k2, k3⟩ := ih (pre ++ ie) (by simp [hp])
    obtain ⟨i1, i2⟩ := ie_simple hs h1
    have hb := ie_bounds h1
    have hc : content (pre ++ (ie ++ rest)) (ofs + off, len) = (ie.drop off).take len := by
      simp only [content]
      rw [← hp, List.drop_append, List.drop_append, List.drop_of_length_le (by omega), List.nil_append,
        show pre.length + off - pre.length = off by omega, List.take_append_of_le_length (by simp; omega)]
    refine ⟨(tag, (ie.drop off).take len) :: es, ?_, ?_, ?_⟩
    · intro e he
      rcases List.mem_cons.mp he with rfl | he
      · exact i2
      · exact k1 e he
    · rw [List.flatMap_cons, ← i1, ← k2]
    · rw [List.map_cons]
      simp only [hc]
      rw [k3]
      simp only [List.append_assoc]

theorem octets_cons (d : Definition) (e : Byte × List Byte) : ∃ l, octets d e = e.1 :: l := by
  unfold octets
  split
  · exact ⟨_, rfl⟩
  · exact ⟨_, rfl⟩

theorem octets_inj (d : Definition) (es es' : List (Byte × List Byte)) (h : ∀ e ∈ es, Fits d e)
    (h' : ∀ e ∈ es', Fits d e) (he : es.flatMap (octets d) = es'.flatMap (octets d)) : es = es' := by
  induction es generalizing es' with
  | nil =>
    cases es' with
    | nil => rfl
    | cons e es' =>
      obtain ⟨l, hl⟩ := octets_cons d e
      simp [hl] at he
  | cons e es ih =>
    cases es' with
    | nil =>
      obtain ⟨l, hl⟩ := octets_cons d e
      simp [hl] at he
    | cons e' es' =>
      obtain ⟨t, v⟩ := e
      obtain ⟨t', v'⟩ := e'
      have ht : t = t' := by
        obtain ⟨l, hl⟩ := octets_cons d (t, v)
        obtain ⟨l', hl'⟩ := octets_cons d (t', v')
        simp only [List.flatMap_cons, hl, hl', List.cons_append, List.cons.injEq] at he
        exact he.1
      subst ht
      have f := h (t, v) (by simp)
      have f' := h' (t, v') (by simp)
      simp only [Fits] at f f'
      simp only [List.flatMap_cons, octets] at he
      have hr : ∀ a b : List Byte, v.length = v'.length → v ++ a = v' ++ b → v = v' ∧ a = b := by
        intro a b hl hab
        exact List.append_inj hab hl
      have : v = v' ∧ es.flatMap (octets d) = es'.flatMap (octets d) := by
        cases hv : valueSize d t with
        | none => rw [hv] at f; exact f.elim
        | some s =>
          cases s with
          | some n =>
            rw [hv] at f f' he
            simp only [List.cons_append, List.cons.injEq, true_and] at he
            exact hr _ _ (by simp only [] at f f'; omega) he
          | none =>
            rw [hv] at f f' he
            simp only [List.cons_append, List.cons.injEq, true_and] at he
            simp only [] at f f'
            have := congrArg BitVec.toNat he.1
            simp only [BitVec.toNat_ofNat] at this
            exact hr _ _ (by omega) he.2
      rw [this.1, ih es' (fun e he => h e (List.mem_cons_of_mem _ he)) (fun e he => h' e (List.mem_cons_of_mem _ he)) this.2]

theorem ies_of_fits {d : Definition} (hs : Simple d) (es : List (Byte × List Byte)) (h : ∀ e ∈ es, Fits d e) (ofs : Nat) :
    ∃ ies, Ies d ofs (es.flatMap (octets d)) ies := by
  induction es generalizing ofs with
  | nil => exact ⟨[], .nil ofs⟩
  | cons e es ih =>
    obtain ⟨off, len, hi⟩ := ie_of_fits hs e (h e (by simp))
    obtain ⟨ies, hr⟩ := ih (fun e he => h e (List.mem_cons_of_mem _ he)) (ofs + (octets d e).length)
    exact ⟨_, .cons ofs e.1 _ _ off len ies hi hr⟩

theorem lookup_occ (buf : List Byte) (ies : List (Byte × Nat × Nat)) (t : Byte) :
    ((occurrences t ies)[0]?).map (content buf) = (ies.map fun e => (e.1, content buf e.2)).lookup t := by
  induction ies with
  | nil => rfl
  | cons e ies ih =>
    unfold occurrences at ih ⊢
    rw [List.map_cons, List.filter_cons, List.lookup_cons]
    by_cases h : e.1 = t
    · subst h
      simp
    · rw [if_neg (by simpa using h)]
      rw [ih]
      have : (t == e.1) = false := by simpa using fun hh => h hh.symm
      simp [this]

/-- A sequence of elements is parsed to the first value of each tag. -/
theorem parse_simple (d : Definition) (hs : Simple d) (es : List (Byte × List Byte)) (h : ∀ e ∈ es, Fits d e) :
    ∃ p, parse2 1 d (es.flatMap (octets d)) ((es.flatMap (octets d)).length : Nat) 0#8 0#8 = .done es.length [p] ∧
      ∀ t, (p t).map (content (es.flatMap (octets d))) = es.lookup t := by
  obtain ⟨rc, dec, h1, h2, h3⟩ := parse2_spec 1 d (es.flatMap (octets d))
  rcases h3 with ⟨ies, i1, i2, i3⟩ | ⟨_, hn⟩
  · obtain ⟨es', e1, e2, e3⟩ := ies_simple hs i1 [] rfl
    have := octets_inj d es es' h e1 e2
    subst this
    obtain ⟨p, rfl⟩ := List.length_eq_one_iff.mp h2
    refine ⟨p, ?_, ?_⟩
    · rw [h1, i2]
      congr 2
      have := congrArg List.length e3
      simpa using this.symm
    · intro t
      rw [i3 0 p rfl t, lookup_occ]
      rw [List.nil_append] at e3
      rw [← e3]
  · exact absurd (ies_of_fits hs es h 0) hn

/-- Anything else is refused. -/
theorem parse_simple_fail (d : Definition) (hs : Simple d) (buf : List Byte)
    (h : ¬ ∃ es : List (Byte × List Byte), (∀ e ∈ es, Fits d e) ∧ buf = es.flatMap (octets d)) :
    ∃ rc dec, parse2 1 d buf (buf.length : Nat) 0#8 0#8 = .done rc dec ∧ rc < 0 := by
  obtain ⟨rc, dec, h1, _, h3⟩ := parse2_spec 1 d buf
  rcases h3 with ⟨ies, i1, _, _⟩ | ⟨hr, _⟩
  · obtain ⟨es, e1, e2, _⟩ := ies_simple hs i1 [] rfl
    exact absurd ⟨es, e1, e2⟩ h
  · exact ⟨rc, dec, h1, hr⟩

end Verif.Tlv
