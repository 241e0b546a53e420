import Verif.CellId.Props
import Verif.Gsm23003.NameProps
/-!
Properties of matching cell identifiers (C157).
-/
namespace Verif.CellId
open Verif.Gsm23003 Verif.RaId

/-- The PLMN an identifier names, if it names one. -/
def plmnOf : CellId → Option Plmn
  | .cgi c => some c.lai.plmn
  | .lai l => some l.plmn
  | .sai l _ => some l.plmn
  | .cgiPs c => some c.rai.lai.plmn
  | _ => none

/-- The location area code an identifier has, if it has one. -/
def lacOf : CellId → Option (BitVec 16)
  | .cgi c => some c.lai.lac
  | .lacCi lac _ => some lac
  | .lai l => some l.lac
  | .lac lac => some lac
  | .sai l _ => some l.lac
  | .cgiPs c => some c.rai.lai.lac
  | _ => none

/-- The cell identity an identifier has, if it has one. -/
def ciOf : CellId → Option (BitVec 16)
  | .cgi c => some c.ci
  | .lacCi _ ci => some ci
  | .ci ci => some ci
  | .cgiPs c => some c.ci
  | _ => none

/-- The identifier has a value to compare. -/
def HasValue (c : CellId) : Prop := (lacOf c).isSome ∨ (ciOf c).isSome

/-- Nothing that both have differs; PLMNs are the same if their names are. -/
def Agree (a b : CellId) : Prop :=
  (∀ p ∈ plmnOf a, ∀ q ∈ plmnOf b, plmnName p = plmnName q) ∧
  (∀ p ∈ lacOf a, ∀ q ∈ lacOf b, p = q) ∧ (∀ p ∈ ciOf a, ∀ q ∈ ciOf b, p = q)

theorem cgi_zero (a b : Cgi) : cgiCmp a b = 0 ↔
    plmnName a.lai.plmn = plmnName b.lai.plmn ∧ a.lai.lac = b.lai.lac ∧ a.ci = b.ci := by
  have t : ∀ (rc : Int) (x y : BitVec 16), thenCmp rc x y = 0 ↔ rc = 0 ∧ x = y := by
    intro rc x y
    unfold thenCmp
    have e : x = y ↔ x.toNat = y.toNat := ⟨fun h => by rw [h], BitVec.eq_of_toNat_eq⟩
    rw [e]
    simp only [BitVec.lt_def, gt_iff_lt]
    repeat' split
    all_goals omega
  unfold cgiCmp laiCmp
  rw [t, t, plmnCmp_name]
  exact ⟨fun h => ⟨h.1.1, h.1.2, h.2⟩, fun h => ⟨⟨h.1, h.2.1⟩, h.2.2⟩⟩

/-- What `cell_id_to_cgi` writes: the parts the identifier has. -/
theorem toCgi_parts (dst : Cgi) (c : CellId) :
    (toCgi dst c).lai.plmn = (plmnOf c).getD dst.lai.plmn ∧
    (toCgi dst c).lai.lac = (lacOf c).getD dst.lai.lac ∧
    (toCgi dst c).ci = (ciOf c).getD dst.ci := by
  cases c <;> simp [toCgi, plmnOf, lacOf, ciOf]

theorem agree_iff (a b : CellId) :
    cgiCmp (toCgi (toCgi zeroCgi b) a) (toCgi (toCgi zeroCgi a) b) = 0 ↔ Agree a b := by
  rw [cgi_zero]
  simp only [toCgi_parts]
  unfold Agree
  cases plmnOf a <;> cases plmnOf b <;> cases lacOf a <;> cases lacOf b <;> cases ciOf a <;> cases ciOf b <;> simp

theorem kinds (c : CellId) : HasValue c ↔
    ¬ (discr c = 3 ∨ discr c = 6 ∨ discr c = 8 ∨ discr c = 9 ∨ discr c = 10) := by
  cases c with
  | utran k =>
    have := k.isLt
    simp only [HasValue, lacOf, ciOf, discr, Option.isSome_none, Bool.false_eq_true, or_self, false_iff]
    omega
  | _ => simp [HasValue, lacOf, ciOf, discr]

/-- **C157a.** Identifiers with values match exactly if nothing that both have
differs, and in an exact match are also of the same kind.  Others match only
another one of the same kind, and not the UTRAN ones. -/
theorem match_spec_partial (a b : CellId) (exact : Bool) :
    idsMatch a b exact = true ↔
      (HasValue a ∧ HasValue b ∧ Agree a b ∧ (exact = true → discr a = discr b)) ∨
      (discr a = 3 ∧ discr b = 3) ∨ (discr a = 6 ∧ discr b = 6) := by
  rw [kinds, kinds, ← agree_iff]
  unfold idsMatch
  simp only []
  generalize cgiCmp _ _ = r
  generalize discr a = x
  generalize discr b = y
  cases exact <;> simp only [Bool.false_eq_true, false_and, true_and, if_false, false_implies, true_implies, and_true] <;>
    repeat' split
  all_goals simp only [decide_eq_true_eq, Bool.false_eq_true, false_iff]
  all_goals omega

example : idsMatch (.lac 42) (.lacCi 42 5) false = true ∧ idsMatch (.lac 42) (.lacCi 42 5) true = false ∧
    idsMatch (.lac 42) (.lacCi 23 5) false = false ∧ idsMatch (.lac 42) (.ci 7) false = true := by decide

/-- **C157b.** Matching is symmetric. -/
theorem match_symm (a b : CellId) (exact : Bool) : idsMatch a b exact = idsMatch b a exact := by
  rw [Bool.eq_iff_iff, match_spec_partial, match_spec_partial]
  have : Agree a b ↔ Agree b a := by
    unfold Agree
    constructor <;> rintro ⟨h1, h2, h3⟩ <;>
      exact ⟨fun p hp q hq => (h1 q hq p hp).symm, fun p hp q hq => (h2 q hq p hp).symm,
        fun p hp q hq => (h3 q hq p hp).symm⟩
  rw [this]
  constructor
  · rintro (⟨h1, h2, h3, h4⟩ | ⟨h1, h2⟩ | ⟨h1, h2⟩)
    · exact Or.inl ⟨h2, h1, h3, fun e => (h4 e).symm⟩
    · exact Or.inr (Or.inl ⟨h2, h1⟩)
    · exact Or.inr (Or.inr ⟨h2, h1⟩)
  · rintro (⟨h1, h2, h3, h4⟩ | ⟨h1, h2⟩ | ⟨h1, h2⟩)
    · exact Or.inl ⟨h2, h1, h3, fun e => (h4 e).symm⟩
    · exact Or.inr (Or.inl ⟨h2, h1⟩)
    · exact Or.inr (Or.inr ⟨h2, h1⟩)

/-- The documentation says that these kinds never match; they match themselves. -/
theorem wildcard_counterexample :
    idsMatch .noCell .noCell false = true ∧ idsMatch .bss .bss true = true := by decide

/-- An exact match does not compare all values: not the SAC, nor the RAC. -/
theorem exact_counterexample :
    idsMatch (.sai ⟨⟨262, 42, false⟩, 1⟩ 1) (.sai ⟨⟨262, 42, false⟩, 1⟩ 2) true = true ∧
    idsMatch (.cgiPs ⟨⟨⟨⟨262, 42, false⟩, 1⟩, 1⟩, 1⟩) (.cgiPs ⟨⟨⟨⟨262, 42, false⟩, 1⟩, 2⟩, 1⟩) true = true := by
  decide

/-- **C157c.** The index found is that of the match with `nr` matches before it;
-1 is returned exactly if there are not more than `nr` matches. -/
theorem matchesList_spec (id : CellId) (l : CList) (nr : Nat) (exact : Bool) :
    (matchesList id l nr exact = -1 ∧ (l.ids.filter (idsMatch id · exact)).length ≤ nr) ∨
    ∃ i c, matchesList id l nr exact = (i : Nat) ∧ l.ids[i]? = some c ∧ idsMatch id c exact = true ∧
      ((l.ids.take i).filter (idsMatch id · exact)).length = nr := by
  unfold matchesList
  have key : ∀ (cs : List CellId) (k nr : Nat),
      (matchLoop id exact cs k nr = -1 ∧ (cs.filter (idsMatch id · exact)).length ≤ nr) ∨
      ∃ i c, matchLoop id exact cs k nr = ((k + i : Nat) : Int) ∧ cs[i]? = some c ∧
        idsMatch id c exact = true ∧ ((cs.take i).filter (idsMatch id · exact)).length = nr := by
    intro cs
    induction cs with
    | nil => intro k nr; exact Or.inl ⟨rfl, by simp⟩
    | cons c cs ih =>
      intro k nr
      unfold matchLoop
      by_cases hm : idsMatch id c exact = true
      · rw [if_pos hm]
        cases nr with
        | zero => exact Or.inr ⟨0, c, by simp, by simp, hm, by simp⟩
        | succ nr =>
          rcases ih (k + 1) nr with ⟨h1, h2⟩ | ⟨i, x, h1, h2, h3, h4⟩
          · exact Or.inl ⟨h1, by simp [hm]; exact h2⟩
          · refine Or.inr ⟨i + 1, x, ?_, by simpa using h2, h3, by simp [hm, h4]⟩
            simp only [h1]
            omega
      · rw [if_neg hm]
        rcases ih (k + 1) nr with ⟨h1, h2⟩ | ⟨i, x, h1, h2, h3, h4⟩
        · exact Or.inl ⟨h1, by simpa [hm] using h2⟩
        · refine Or.inr ⟨i + 1, x, ?_, by simpa using h2, h3, by simp [hm, h4]⟩
          rw [h1]
          omega
  have := key l.ids 0 nr
  simpa using this

example : matchesList (.lac 1) ⟨1, [.lacCi 1 1, .lacCi 2 1, .lacCi 1 2]⟩ 1 false = 2 := by decide

/-- **C157d.** What is written to a CGI and reported: exactly the parts the
identifier has, the others stay. -/
theorem idToCgi_spec (cgi : Cgi) (c : CellId) :
    (idToCgi cgi c).2 = ((plmnOf c).isSome, (lacOf c).isSome, (ciOf c).isSome) ∧
    (idToCgi cgi c).1.lai.plmn = (plmnOf c).getD cgi.lai.plmn ∧
    (idToCgi cgi c).1.lai.lac = (lacOf c).getD cgi.lai.lac ∧
    (idToCgi cgi c).1.ci = (ciOf c).getD cgi.ci := by
  cases c <;> simp [idToCgi, plmnOf, lacOf, ciOf]

/-- **C157e.** An identifier made of a CGI is of the kind asked for and has
nothing but parts of the CGI: it gives them back, and matches the CGI if it has
any; for all kinds there are. -/
theorem fromCgi_spec (d : Nat) (g : Cgi) :
    ((fromCgi d g).isSome ↔ ∃ c, discr c = d) ∧
    ∀ c, fromCgi d g = some c → discr c = d ∧ (idToCgi g c).1 = g ∧
      (HasValue c → idsMatch c (.cgi g) false = true) := by
  have hd : ∀ c, fromCgi d g = some c → discr c = d ∧ (idToCgi g c).1 = g := by
    intro c h
    unfold fromCgi at h
    split at h <;> first | (cases h; exact ⟨rfl, rfl⟩) | cases h
  constructor
  · constructor
    · intro h
      obtain ⟨c, hc⟩ := Option.isSome_iff_exists.mp h
      exact ⟨c, (hd c hc).1⟩
    · rintro ⟨c, rfl⟩
      cases c with
      | utran k =>
        match k with
        | 0 => rfl
        | 1 => rfl
        | 2 => rfl
      | _ => rfl
  · intro c h
    refine ⟨(hd c h).1, (hd c h).2, fun hv => ?_⟩
    rw [match_spec_partial]
    refine Or.inl ⟨hv, Or.inl rfl, ?_, by simp⟩
    have := idToCgi_spec g c
    rw [(hd c h).2] at this
    obtain ⟨_, h1, h2, h3⟩ := this
    refine ⟨?_, ?_, ?_⟩
    · intro p hp q hq
      simp [plmnOf] at hq
      rw [← hq, h1, hp]
      rfl
    · intro p hp q hq
      simp [lacOf] at hq
      rw [← hq, h2, hp]
      rfl
    · intro p hp q hq
      simp [ciOf] at hq
      rw [← hq, h3, hp]
      rfl

/-- Which parts an identifier of a kind made of a CGI has. -/
theorem fromCgi_parts (d : Nat) (g : Cgi) (c : CellId) (h : fromCgi d g = some c) :
    ((plmnOf c).isSome ↔ d = 0 ∨ d = 4 ∨ d = 11 ∨ d = 128) ∧
    ((lacOf c).isSome ↔ d = 0 ∨ d = 1 ∨ d = 4 ∨ d = 5 ∨ d = 11 ∨ d = 128) ∧
    ((ciOf c).isSome ↔ d = 0 ∨ d = 1 ∨ d = 2 ∨ d = 128) := by
  unfold fromCgi at h
  split at h <;> first | (cases h; simp [plmnOf, lacOf, ciOf]) | cases h

example : fromCgi 1 ⟨⟨⟨262, 42, false⟩, 1⟩, 2⟩ = some (.lacCi 1 2) := by decide

end Verif.CellId
