import Verif.Lapd.Step
import Mathlib.Data.List.InsertIdx
/-!
The invariant of two LAPD entities and the line between them.
-/
namespace Verif.Lapd
open Verif

variable {E E' : Env} {d : DL} {g : G}

/-- the peer moves on, and some of our frames leave the line -/
theorem L.move (h : L E d g) (hq : E'.req = E.req) (hr : E.vrB ≤ E'.vrB) (hr' : E'.vrB ≤ g.segs.length) (hp : E.segsB <+: E'.segsB)
    {fs : List GFrame} (hs : fs.Sublist g.fs) (hf : ∀ f ∈ fs, E'.vaB ≤ f.nr ∧ ∀ ns m, f.kind = .i ns m → E'.vrB ≤ m) :
    L E' { d with tx := fs.map (GFrame.erase d.cfg.vRange) } { g with fs := fs } := by
  have he := h.env
  refine ⟨h.cfg, h.est, h.own, h.peer, h.vAck, h.vSend, h.vRecv, h.win, h.hlen, h.occ, h.free, by rw [hq]; exact h.seg, ?_, rfl, ?_,
    h.ord.sublist hs, ?_⟩
  · exact ⟨by simp only; omega, hr'⟩
  · intro f hm
    have o := h.fok f (hs.subset hm)
    refine ⟨⟨(hf f hm).1, o.nr.2⟩, fun ns m e => ?_, o.s⟩
    obtain ⟨a, b, c, e1, e2, e3, e4⟩ := o.i ns m e
    exact ⟨a, b, c, e1, (hf f hm).2 ns m e, e3, by simp only; omega⟩
  · have hl := h.rcv.1
    refine ⟨Nat.le_trans hl hp.length_le, ?_⟩
    obtain ⟨t, ht⟩ := hp
    simp only
    rw [← ht, List.take_append_of_le_length hl]
    exact h.rcv.2

/-- both sides and the line -/
structure P (ca cb : Cfg) (s : Sys) (ga gb : G) : Prop where
  a : L ⟨gb.vr, gb.va, gb.segs, s.reqA⟩ s.a ga
  b : L ⟨ga.vr, ga.va, ga.segs, s.reqB⟩ s.b gb
  ia : Idle s.a ga
  ib : Idle s.b gb
  ta : Tr s.a
  tb : Tr s.b
  na : [] ∉ s.reqA
  nb : [] ∉ s.reqB
  range : s.a.cfg.vRange = s.b.cfg.vRange
  n201 : s.a.cfg.n201 = s.b.cfg.n201
  ca : s.a.cfg = ca
  cb : s.b.cfg = cb

variable {ca cb : Cfg}

theorem P.swap {s : Sys} {ga gb : G} (h : P ca cb s ga gb) : P cb ca s.swap gb ga :=
  ⟨h.b, h.a, h.ib, h.ia, h.tb, h.ta, h.nb, h.na, h.range.symm, h.n201.symm, h.cb, h.ca⟩

/-- a side does something of its own: nothing is acknowledged and nothing received -/
theorem P.own {s : Sys} {ga gb : G} (h : P ca cb s ga gb) {a' : DL} {req : List (List Byte)} (hn : [] ∉ req)
    (hg : Good ⟨gb.vr, gb.va, gb.segs, req⟩ s.a ga ga.va ga.vr a') :
    ∃ ga', P ca cb { s with a := a', reqA := req } ga' gb := by
  obtain ⟨g', h1, h2, h3, h4, h5, h6, h7⟩ := hg
  refine ⟨g', h1, ?_, h2, h.ib, h3, h.tb, hn, h.nb, by simp only [h7]; exact h.range, by simp only [h7]; exact h.n201, h7.trans h.ca, h.cb⟩
  have := h.b.move (E' := ⟨g'.vr, g'.va, g'.segs, s.reqB⟩) rfl (by simp only; omega) (by simp only [h5]; exact h.b.env.2) h6 (List.Sublist.refl _)
    (fun f hf => ⟨by simp only [h4]; exact (h.b.fok f hf).nr.1, fun ns m e => by simp only [h5]; exact ((h.b.fok f hf).i ns m e).2.2.2.2.1⟩)
  rw [← h.b.tx] at this
  exact this

/-- a segment made is one of a message asked for -/
theorem L.segOk (h : L E d g) {j : Nat} {s : Seg} (hj : g.segs[j]? = some s) : SegOk d.cfg.n201 s := by
  have hm : s ∈ E.req.flatMap (segment d.cfg.n201) := by
    rw [h.seg]; exact List.mem_append_left _ (List.mem_of_getElem? hj)
  obtain ⟨m, _, hs⟩ := List.mem_flatMap.1 hm
  exact segment_ok h.cfg.n201 m s hs

theorem rx_spec {s : Sys} {ga gb : G} (h : P ca cb s ga gb) {f : GFrame} {fs : List GFrame} (hfs : gb.fs = f :: fs) :
    ∃ a' ga', rx s.a (f.erase s.a.cfg.vRange) = some a' ∧
      P ca cb { s with a := a', b := { s.b with tx := fs.map (GFrame.erase s.b.cfg.vRange) } } ga' { gb with fs := fs } := by
  have hf : f ∈ gb.fs := by rw [hfs]; exact List.mem_cons_self
  have o := h.b.fok f hf
  have hord := h.b.ord
  rw [hfs] at hord
  have hord' := (List.pairwise_cons.1 hord).1
  have hnr := o.nr
  have hv : gb.va ≤ ga.vr := h.b.env.1
  -- how the peer's side moves on
  have close : ∀ (vr' : Nat) (a' : DL), ga.vr ≤ vr' → (∀ f' ∈ fs, ∀ ns m, f'.kind = .i ns m → vr' ≤ m) →
      Good ⟨gb.vr, gb.va, gb.segs, s.reqA⟩ s.a ga f.nr vr' a' →
      ∃ ga', P ca cb { s with a := a', b := { s.b with tx := fs.map (GFrame.erase s.b.cfg.vRange) } } ga' { gb with fs := fs } := by
    rintro vr' a' hle hm ⟨g', h1, h2, h3, h4, h5, h6, h7⟩
    refine ⟨g', h1, ?_, h2, h.ib, h3, h.tb, h.na, h.nb, by simp only [h7]; exact h.range, by simp only [h7]; exact h.n201, h7.trans h.ca, h.cb⟩
    refine h.b.move (E' := ⟨g'.vr, g'.va, g'.segs, s.reqB⟩) rfl (by simp only; omega) h1.rcv.1 h6 (by rw [hfs]; exact List.sublist_cons_self _ _)
      (fun f' hf' => ⟨by simp only [h4]; exact (hord' f' hf').1, fun ns m e => by simp only [h5]; exact hm f' hf' ns m e⟩)
  have hsame : ∀ f' ∈ fs, ∀ ns m, f'.kind = .i ns m → ga.vr ≤ m := fun f' hf' ns m e =>
    ((h.b.fok f' (by rw [hfs]; exact List.mem_cons_of_mem _ hf')).i ns m e).2.2.2.2.1
  by_cases hk : ∃ ns m, f.kind = .i ns m
  · obtain ⟨ns, m, hk⟩ := hk
    obtain ⟨i1, i2, i3, i4, i5, i6, i7⟩ := o.i ns m hk
    have hkb := h.b.k_lt
    have hRb := h.b.cfg.le
    have hrange := h.range
    simp only at i5 i7
    obtain ⟨a', e, hc⟩ := rxI_spec h.a h.ia h.ta hv f hk i1 (by rw [h.n201]; exact h.b.segOk i2) hnr.1 hnr.2 i2 ⟨by omega, by omega⟩
    rcases hc with ⟨_, hg⟩ | ⟨hns, hg⟩
    · obtain ⟨ga', hp⟩ := close _ _ (Nat.le_refl _) hsame hg
      exact ⟨a', ga', e, hp⟩
    · obtain ⟨ga', hp⟩ := close _ _ (Nat.le_succ _) (fun f' hf' ns' m' e' => by
        have := (hord' f' hf').2 ns m ns' m' hk e'
        omega) hg
      exact ⟨a', ga', e, hp⟩
  · have hk' : ∀ ns m, f.kind ≠ .i ns m := fun ns m e => hk ⟨ns, m, e⟩
    obtain ⟨a', e, hg⟩ := rxS_spec h.a h.ia h.ta hv f hk' (o.s hk') hnr.1 hnr.2
    obtain ⟨ga', hp⟩ := close _ _ (Nat.le_refl _) hsame hg
    refine ⟨a', ga', ?_, hp⟩
    rw [← e]
    unfold rx
    simp only [GFrame.erase]
    cases hkk : f.kind with
    | i ns m => exact absurd hkk (hk' ns m)
    | rr => rfl
    | rej => rfl

/-- whatever happens at `a`: it can be dealt with, and either the invariant holds again, or `a` has given up and asks for the link anew -/
theorem stepA_spec {s : Sys} {ga gb : G} (h : P ca cb s ga gb) (e : Ev) :
    ∃ s', stepA s e = some s' ∧ ((∃ ga' gb', P ca cb s' ga' gb') ∨ s'.a.state = .sabmSent) := by
  have hv : gb.va ≤ ga.vr := h.b.env.1
  cases e with
  | data m =>
    obtain ⟨a', e, hg⟩ := dataReq_spec h.a h.ia h.ta hv m
    refine ⟨_, by unfold stepA; simp only; rw [e, Option.map_some], .inl ?_⟩
    obtain ⟨ga', hp⟩ := h.own (req := if m = [] then s.reqA else s.reqA ++ [m]) (by
      split
      · exact h.na
      · rename_i hm
        simp only [List.mem_append, List.mem_singleton, not_or]
        exact ⟨h.na, fun e => hm e.symm⟩) hg
    exact ⟨ga', gb, hp⟩
  | recv =>
    unfold stepA
    simp only
    cases hfs : gb.fs with
    | nil =>
      have : s.b.tx = [] := by rw [h.b.tx, hfs]; rfl
      rw [this]
      exact ⟨s, rfl, .inl ⟨ga, gb, h⟩⟩
    | cons f fs =>
      have : s.b.tx = f.erase s.a.cfg.vRange :: fs.map (GFrame.erase s.b.cfg.vRange) := by rw [h.b.tx, hfs, h.range]; rfl
      rw [this]
      obtain ⟨a', ga', e, hp⟩ := rx_spec h hfs
      simp only
      rw [e]
      exact ⟨_, rfl, .inl ⟨ga', _, hp⟩⟩
  | lose n =>
    refine ⟨_, rfl, .inl ⟨ga, { gb with fs := gb.fs.eraseIdx n }, h.a, ?_, h.ia, h.ib, h.ta, h.tb, h.na, h.nb, h.range, h.n201, h.ca, h.cb⟩⟩
    have hsub := List.eraseIdx_sublist gb.fs n
    have := h.b.move (E' := ⟨ga.vr, ga.va, ga.segs, s.reqB⟩) rfl (Nat.le_refl _) h.b.env.2 (List.prefix_refl _) hsub
      (fun f hf => ⟨(h.b.fok f (hsub.subset hf)).nr.1, fun ns m e => ((h.b.fok f (hsub.subset hf)).i ns m e).2.2.2.2.1⟩)
    rw [show s.b.tx.eraseIdx n = (gb.fs.eraseIdx n).map (GFrame.erase s.b.cfg.vRange) by rw [h.b.tx, List.eraseIdx_map]]
    exact this
  | t200 =>
    obtain ⟨a', e, hg⟩ := t200_spec h.a h.ia h.ta hv
    refine ⟨_, by unfold stepA; simp only; rw [e, Option.map_some], ?_⟩
    rcases hg with hg | hg
    · obtain ⟨ga', hp⟩ := h.own h.na hg
      exact .inl ⟨ga', gb, hp⟩
    · exact .inr hg
  | t203 =>
    refine ⟨_, rfl, .inl ?_⟩
    obtain ⟨ga', hp⟩ := h.own h.na (t203_spec h.a h.ia h.ta hv)
    exact ⟨ga', gb, hp⟩

/-- the same of both sides -/
theorem step_spec {s : Sys} {ga gb : G} (h : P ca cb s ga gb) (e : Bool × Ev) :
    ∃ s', step s e = some s' ∧ ((∃ ga' gb', P ca cb s' ga' gb') ∨ s'.a.state = .sabmSent ∨ s'.b.state = .sabmSent) := by
  obtain ⟨side, e⟩ := e
  cases side with
  | false =>
    obtain ⟨s', h1, h2⟩ := stepA_spec h e
    exact ⟨s', h1, h2.imp id .inl⟩
  | true =>
    obtain ⟨s', h1, h2⟩ := stepA_spec h.swap e
    refine ⟨s'.swap, by unfold step; simp only [if_true]; rw [h1]; rfl, ?_⟩
    rcases h2 with ⟨ga', gb', hp⟩ | h2
    · exact .inl ⟨gb', ga', hp.swap⟩
    · exact .inr (.inr h2)

/-- states of a link reached by any events while both sides keep it -/
inductive Reach (s0 : Sys) : Sys → Prop where
  | refl : Reach s0 s0
  | step {s s' : Sys} (e : Bool × Ev) : Reach s0 s → step s e = some s' → Est s'.a → Est s'.b → Reach s0 s'

theorem Reach.inv {s0 s : Sys} {ga gb : G} (h0 : P ca cb s0 ga gb) (h : Reach s0 s) : ∃ ga gb, P ca cb s ga gb := by
  induction h with
  | refl => exact ⟨ga, gb, h0⟩
  | step e _ h1 ha hb ih =>
    obtain ⟨ga, gb, hp⟩ := ih
    obtain ⟨s'', e1, e2⟩ := step_spec hp e
    rw [h1] at e1
    cases e1
    rcases e2 with e2 | e2 | e2
    · exact e2
    · rcases ha with e | e <;> (rw [e] at e2; cases e2)
    · rcases hb with e | e <;> (rw [e] at e2; cases e2)

end Verif.Lapd
