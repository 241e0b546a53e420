import Verif.CellId.Props
/-!
Properties of merging cell identifier lists (C158).
-/
namespace Verif.CellId
open Verif.Gsm23003 Verif.RaId

theorem wire_norm (l : Lai) (h : InRange l) : laiWire (Lai.norm l) = laiWire l := by
  rw [← generateLai2_wire, ← generateLai2_wire]
  unfold generateLai2
  have : plmnToBcd (Lai.norm l).plmn = plmnToBcd l.plmn := by
    refine (plmnToBcd_inj (Lai.norm l).plmn l.plmn h.1 h.2 h.1 h.2).mpr ?_
    simp [Lai.norm, Plmn.norm]
    exact fun h => Or.inr (of_decide_eq_true h)
  rw [this]
  rfl

theorem code_sent (c : CellId) (h : Valid c) : code (sent c) = code c := by
  cases c <;> simp [sent, code]
  all_goals exact wire_norm _ h

theorem valid_sent (c : CellId) (h : Valid c) : Valid (sent c) := by
  cases c <;> exact h

/-- Two identifiers of a kind have the same code exactly if the same is sent. -/
theorem code_inj (a b : CellId) (ha : Valid a) (hb : Valid b) (hd : discr a = discr b) :
    code a = code b ↔ sent a = sent b := by
  constructor
  · intro h
    by_cases hp : discr a = 128
    · obtain ⟨x, x1, x2, x3⟩ := sent_ps a hp
      obtain ⟨y, y1, y2, y3⟩ := sent_ps b (by rw [← hd]; exact hp)
      have h1 := decodeU_code (.cgi x) [] (x3.mp ha) (by simp [discr])
      have h2 := decodeU_code (.cgi y) [] (y3.mp hb) (by simp [discr])
      rw [x1, y1] at h
      rw [h] at h1
      rw [x2, y2]
      exact Option.some.inj (h1.symm.trans h2)
    · have h1 := decodeU_code a [] ha hp
      have h2 := decodeU_code b [] hb (by rw [← hd]; exact hp)
      rw [h, hd] at h1
      exact Option.some.inj (h1.symm.trans h2)
  · intro h
    rw [← code_sent a ha, ← code_sent b hb, h]

theorem kind_not_utran {d : Nat} (hd : d = 128 ∨ ∃ w, (d, w) ∈ widths) (c : CellId) (h : discr c = d) :
    ∀ k, c ≠ .utran k := by
  intro k e
  subst e
  have := k.isLt
  simp only [discr] at h
  rcases hd with rfl | ⟨w, hw⟩
  · omega
  · simp only [widths, List.mem_cons, Prod.mk.injEq, List.not_mem_nil, or_false] at hw
    omega

theorem sameEntry_eq (d : Nat) (hd : d = 128 ∨ ∃ w, (d, w) ∈ widths) (a b : CellId)
    (ha : discr a = d) (hb : discr b = d) : sameEntry d a d b = some (decide (code a = code b)) := by
  have e : ∀ c, discr c = d → putAll [c] = some (code c) := by
    intro c hc
    rw [putAll_codes [c] (by simpa using kind_not_utran hd c hc)]
    simp [codes]
  unfold sameEntry encList
  simp only [e a ha, e b hb, ne_eq, not_true_eq_false, if_false, List.length_singleton,
    show ¬ (1 > 127) by omega, Option.bind_eq_bind, Option.bind_some, Option.some.injEq, decide_eq_decide,
    List.cons.injEq, true_and]
  constructor
  · exact fun h => h.2
  · intro h
    simp [h]

theorem present_eq (d : Nat) (hd : d = 128 ∨ ∃ w, (d, w) ∈ widths) (c : CellId) (hc : discr c = d)
    (xs : List CellId) (hx : ∀ x ∈ xs, discr x = d) :
    present d d c xs = some (decide (code c ∈ xs.map code)) := by
  induction xs with
  | nil => simp [present]
  | cons x xs ih =>
    simp only [present]
    rw [sameEntry_eq d hd x c (hx x (by simp)) hc, ih (fun y hy => hx y (List.mem_cons_of_mem _ hy))]
    simp only [Option.bind_eq_bind, Option.bind_some, List.map_cons, List.mem_cons]
    by_cases h : code x = code c
    · simp [h]
    · simp [h]
      intro e
      exact absurd e.symm h

/-- Counting on, `addLoop` appends the entries of the source that are new. -/
theorem addLoop_spec (d : Nat) (hd : d = 128 ∨ ∃ w, (d, w) ∈ widths) (src : List CellId) :
    ∀ (dst : List CellId) (k : Nat), (∀ x ∈ dst, discr x = d) → (∀ x ∈ src, discr x = d) → dst.length ≤ 127 →
    ∃ new rc, addLoop d d dst src k = some (dst ++ new, rc) ∧ new.Sublist src ∧
      (∀ x ∈ new, code x ∉ dst.map code) ∧ (new.map code).Nodup ∧ (dst ++ new).length ≤ 127 ∧
      ((rc = ((k + new.length : Nat) : Int) ∧ ∀ c ∈ src, code c ∈ (dst ++ new).map code) ∨
       (rc = ENOSPC ∧ (dst ++ new).length = 127 ∧ ∃ c ∈ src, code c ∉ (dst ++ new).map code)) := by
  induction src with
  | nil =>
    intro dst k _ _ hl
    exact ⟨[], k, by simp [addLoop], by simp, by simp, by simp, by simpa using hl, Or.inl ⟨by simp, by simp⟩⟩
  | cons c cs ih =>
    intro dst k h1 h2 hl
    have hc := h2 c (by simp)
    have h2' := fun x hx => h2 x (List.mem_cons_of_mem _ hx)
    simp only [addLoop]
    rw [present_eq d hd c hc dst h1]
    simp only [Option.bind_eq_bind, Option.bind_some, decide_eq_true_eq]
    by_cases hp : code c ∈ dst.map code
    · rw [if_pos hp]
      obtain ⟨new, rc, e, s, n1, n2, l, r⟩ := ih dst k h1 h2' hl
      refine ⟨new, rc, e, s.cons c, n1, n2, l, ?_⟩
      rcases r with ⟨r1, r2⟩ | ⟨r1, r2, x, r3, r4⟩
      · refine Or.inl ⟨r1, fun y hy => ?_⟩
        rcases List.mem_cons.mp hy with rfl | hy
        · rw [List.map_append]
          exact List.mem_append_left _ hp
        · exact r2 y hy
      · exact Or.inr ⟨r1, r2, x, List.mem_cons_of_mem _ r3, r4⟩
    · rw [if_neg hp]
      by_cases hf : dst.length ≥ 127
      · rw [if_pos hf]
        exact ⟨[], ENOSPC, by simp, by simp, by simp, by simp, by simpa using hl,
          Or.inr ⟨rfl, by simp; omega, c, by simp, by simpa using hp⟩⟩
      · rw [if_neg hf]
        obtain ⟨new, rc, e, s, n1, n2, l, r⟩ := ih (dst ++ [c]) (k + 1)
          (by
            intro x hx
            rcases List.mem_append.mp hx with hx | hx
            · exact h1 x hx
            · simp at hx
              rw [hx]
              exact hc)
          h2' (by simp; omega)
        have ea : dst ++ [c] ++ new = dst ++ c :: new := by simp
        rw [ea] at e l r
        refine ⟨c :: new, rc, e, s.cons_cons c, ?_, ?_, l, ?_⟩
        · intro x hx
          rcases List.mem_cons.mp hx with rfl | hx
          · exact hp
          · intro hm
            apply n1 x hx
            rw [List.map_append]
            exact List.mem_append_left _ hm
        · rw [List.map_cons, List.nodup_cons]
          refine ⟨?_, n2⟩
          intro hm
          obtain ⟨x, hx, hxc⟩ := List.mem_map.mp hm
          apply n1 x hx
          rw [hxc]
          simp
        · rcases r with ⟨r1, r2⟩ | ⟨r1, r2, x, r3, r4⟩
          · refine Or.inl ⟨by rw [r1, List.length_cons]; omega, fun y hy => ?_⟩
            rcases List.mem_cons.mp hy with rfl | hy
            · simp
            · exact r2 y hy
          · exact Or.inr ⟨r1, r2, x, List.mem_cons_of_mem _ r3, r4⟩

/-- **C158a.** Lists of different kinds are not merged, unless the destination is
empty and not the whole BSS: then it takes the kind of the source. -/
theorem add_kind (dst src : CList) (h : dst.discr ≠ src.discr) (h0 : dst.ids ≠ [] ∨ dst.discr = 6) :
    add dst src = some (dst, EINVAL) := by
  unfold add
  rw [if_neg, if_pos h]
  rintro ⟨a, b⟩
  rcases h0 with h0 | h0
  · exact h0 (List.length_eq_zero_iff.mp a)
  · exact b h0

/-- **C158b.** The entries of the source that the destination does not have are
appended in their order, each once, and counted; all entries of the source are
in the result, or it is full and `-ENOSPC` returned.  Entries are compared by
what of them is sent (`code_inj`). -/
theorem add_spec (dst src : CList) (hd : dst.Wf) (hs : src.Wf) (hl : dst.ids.length ≤ 127)
    (hk : dst.discr = src.discr ∨ (dst.ids = [] ∧ dst.discr ≠ 6)) :
    ∃ new rc, add dst src = some (⟨src.discr, dst.ids ++ new⟩, rc) ∧ new.Sublist src.ids ∧
      CList.Wf ⟨src.discr, dst.ids ++ new⟩ ∧
      (∀ x ∈ new, code x ∉ dst.ids.map code) ∧ (new.map code).Nodup ∧ (dst.ids ++ new).length ≤ 127 ∧
      ((rc = new.length ∧ ∀ c ∈ src.ids, code c ∈ (dst.ids ++ new).map code) ∨
       (rc = ENOSPC ∧ (dst.ids ++ new).length = 127 ∧
         ∃ c ∈ src.ids, code c ∉ (dst.ids ++ new).map code)) := by
  have hdst : ∀ x ∈ dst.ids, discr x = src.discr := by
    rcases hk with hk | ⟨hk, _⟩
    · rw [← hk]
      exact hd.2
    · rw [hk]
      simp
  obtain ⟨new, rc, e, s, n1, n2, l, r⟩ := addLoop_spec src.discr hs.1 src.ids dst.ids 0 hdst hs.2 hl
  refine ⟨new, rc, ?_, s, ⟨hs.1, ?_⟩, n1, n2, l, by simpa using r⟩
  · unfold add
    by_cases h0 : dst.ids.length = 0 ∧ dst.discr ≠ 6
    · rw [if_pos h0, e]
      rfl
    · rw [if_neg h0]
      have hk' : dst.discr = src.discr := by
        rcases hk with hk | ⟨hk, h6⟩
        · exact hk
        · exact absurd ⟨by rw [hk]; rfl, h6⟩ h0
      rw [if_neg (by simp [hk']), hk', e]
      rfl
  · intro c hc
    rcases List.mem_append.mp hc with hc | hc
    · exact hdst c hc
    · exact hs.2 c (s.subset hc)

example : add ⟨5, [.lac 1, .lac 2]⟩ ⟨5, [.lac 2, .lac 3, .lac 3]⟩ = some (⟨5, [.lac 1, .lac 2, .lac 3]⟩, 1) := by
  decide
example : add ⟨5, []⟩ ⟨2, [.ci 2]⟩ = some (⟨2, [.ci 2]⟩, 1) := by decide
example : add ⟨6, []⟩ ⟨2, [.ci 2]⟩ = some (⟨6, []⟩, EINVAL) := by decide

/-- **C158c.** A list added again adds nothing. -/
theorem add_again (dst src : CList) (hd : dst.Wf) (hs : src.Wf) (hl : dst.ids.length ≤ 127)
    (hk : dst.discr = src.discr ∨ (dst.ids = [] ∧ dst.discr ≠ 6)) (res : CList) (n : Nat)
    (h : add dst src = some (res, (n : Int))) : add res src = some (res, 0) := by
  obtain ⟨new, rc, e, s, hw, n1, n2, l, r⟩ := add_spec dst src hd hs hl hk
  rw [e] at h
  simp only [Option.some.injEq, Prod.mk.injEq] at h
  obtain ⟨rfl, hn⟩ := h
  rcases r with ⟨r1, r2⟩ | ⟨r1, _⟩
  · obtain ⟨new', rc', e', s', _, m1, _, _, r'⟩ := add_spec _ src hw hs l (Or.inl rfl)
    have hnil : new' = [] := by
      cases new' with
      | nil => rfl
      | cons x xs => exact absurd (r2 x (s'.subset (by simp))) (m1 x (by simp))
    subst hnil
    rcases r' with ⟨r1', _⟩ | ⟨_, _, c, hc, hc'⟩
    · rw [e', r1']
      simp
    · simp only [List.append_nil] at hc'
      exact absurd (r2 c hc) hc'
  · rw [r1] at hn
    exact absurd hn (by unfold ENOSPC; omega)

/-- Two CGI-PS that differ in the RAC only are taken as one. -/
theorem add_ps_counterexample :
    add ⟨128, [.cgiPs ⟨⟨⟨⟨262, 42, false⟩, 1⟩, 1⟩, 1⟩]⟩ ⟨128, [.cgiPs ⟨⟨⟨⟨262, 42, false⟩, 1⟩, 2⟩, 1⟩]⟩ =
      some (⟨128, [.cgiPs ⟨⟨⟨⟨262, 42, false⟩, 1⟩, 1⟩, 1⟩]⟩, 0) := by decide

end Verif.CellId
