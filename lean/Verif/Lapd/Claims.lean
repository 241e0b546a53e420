import Verif.Lapd.Props
import Mathlib.Data.List.Perm.Subperm
/-!
C110: what a user of a LAPD link relies on, src/isdn/lapd_core.c.
-/
namespace Verif.Lapd
open Verif

variable {c : Ends} {s0 s : Sys}

theorem Reach.p (h0 : establish c.a c.b = some s0) (h : Reach s0 s) : ∃ ga gb, P c.a.cfg c.b.cfg s ga gb := by
  obtain ⟨s', ga, gb, e, hp, _⟩ := establish_ok c
  rw [h0] at e
  cases e
  exact h.inv hp

/-- a link can be set up between any two sides with the same range of sequence numbers and segment length; nothing is on its way -/
theorem lapd_establish (c : Ends) : ∃ s, establish c.a c.b = some s ∧ Est s.a ∧ Est s.b ∧ s.reqA = [] ∧ s.reqB = [] := by
  obtain ⟨s', ga, gb, e, hp, h1, h2⟩ := establish_ok c
  exact ⟨s', e, hp.a.est, hp.b.est, h1, h2⟩

/-- no message, frame or timer drives a side outside its history, into an endless loop or an assertion -/
theorem lapd_safe (h0 : establish c.a c.b = some s0) (h : Reach s0 s) (e : Bool × Ev) : ∃ s', step s e = some s' := by
  obtain ⟨ga, gb, hp⟩ := h.p h0
  obtain ⟨s', e1, _⟩ := step_spec hp e
  exact ⟨s', e1⟩

/-- a side that leaves the link does so by asking for it anew -/
theorem lapd_leave (h0 : establish c.a c.b = some s0) (h : Reach s0 s) {e : Bool × Ev} {s' : Sys} (h1 : step s e = some s') :
    (Est s'.a ∧ Est s'.b) ∨ s'.a.state = .sabmSent ∨ s'.b.state = .sabmSent := by
  obtain ⟨ga, gb, hp⟩ := h.p h0
  obtain ⟨s'', e1, e2⟩ := step_spec hp e
  rw [h1] at e1
  cases e1
  rcases e2 with ⟨ga', gb', hp'⟩ | e2
  · exact .inl ⟨hp'.a.est, hp'.b.est⟩
  · exact .inr e2

theorem order_aux {ca cb : Cfg} {ga gb : G} (hp : P ca cb s ga gb) (hl : ∀ m ∈ s.reqA, m.length ≤ cb.maxf) : s.b.up <+: s.reqA := by
  have hr := hp.b.rcv
  simp only at hr
  have := deliver_prefix (n := s.a.cfg.n201) hp.a.cfg.n201 (maxf := s.b.cfg.maxf) s.reqA [] (ga.segs.take gb.vr) hp.na (by rw [hp.cb]; exact hl)
    (by rw [hp.a.seg]; exact (List.take_prefix _ _).trans (List.prefix_append _ _))
  rw [hr.2] at this
  simpa using this

/-- **In order, nothing lost in between, nothing twice**: whatever frames are lost and whichever timers expire, what a side has delivered
are the first messages the other was asked to send -/
theorem lapd_order (h0 : establish c.a c.b = some s0) (h : Reach s0 s) :
    ((∀ m ∈ s.reqA, m.length ≤ c.maxfB) → s.b.up <+: s.reqA) ∧ ((∀ m ∈ s.reqB, m.length ≤ c.maxfA) → s.a.up <+: s.reqB) := by
  obtain ⟨ga, gb, hp⟩ := h.p h0
  exact ⟨fun hl => order_aux hp hl, fun hl => order_aux hp.swap hl⟩

theorem complete_aux {ca cb : Cfg} {ga gb : G} (hp : P ca cb s ga gb) (hl : ∀ m ∈ s.reqA, m.length ≤ cb.maxf) (hq : s.a.sendQueue = [])
    (hb : s.a.sendBuffer = none) (hh : ∀ x ∈ s.a.hist, x = none) : s.b.up = s.reqA ∧ s.b.rcvBuf = none := by
  have hva : ga.va = ga.segs.length := by
    rcases Nat.lt_or_ge ga.va ga.segs.length with hlt | hge
    · have := hp.a.occ ga.va (Nat.le_refl _) hlt
      have hm := hh _ (List.mem_of_getElem? this)
      rw [List.getElem?_eq_getElem hlt] at hm
      cases hm
    · have := hp.a.win.1; omega
  have he := hp.a.env
  simp only at he
  have hvr : gb.vr = ga.segs.length := by omega
  have hr := hp.b.rcv
  simp only at hr
  have hseg := hp.a.seg
  simp only [rest, hq, hb, List.flatMap_nil, List.append_nil] at hseg
  have := deliver_all (n := s.a.cfg.n201) hp.a.cfg.n201 (maxf := s.b.cfg.maxf) s.reqA [] hp.na (by rw [hp.cb]; exact hl)
  rw [hseg] at this
  rw [hvr, List.take_length, this] at hr
  have e := hr.2
  simp only [List.nil_append, Prod.mk.injEq] at e
  exact ⟨e.1.symm, e.2.symm⟩

/-- **Nothing is forgotten**: once a side holds nothing to be sent or repeated, the other has delivered every message -/
theorem lapd_complete (h0 : establish c.a c.b = some s0) (h : Reach s0 s) :
    ((∀ m ∈ s.reqA, m.length ≤ c.maxfB) → s.a.sendQueue = [] → s.a.sendBuffer = none → (∀ x ∈ s.a.hist, x = none) →
      s.b.up = s.reqA ∧ s.b.rcvBuf = none) ∧
    ((∀ m ∈ s.reqB, m.length ≤ c.maxfA) → s.b.sendQueue = [] → s.b.sendBuffer = none → (∀ x ∈ s.b.hist, x = none) →
      s.a.up = s.reqB ∧ s.a.rcvBuf = none) := by
  obtain ⟨ga, gb, hp⟩ := h.p h0
  exact ⟨fun hl h1 h2 h3 => complete_aux hp hl h1 h2 h3, fun hl h1 h2 h3 => complete_aux hp.swap hl h1 h2 h3⟩

theorem window_aux {E : Env} {d : DL} {g : G} (h : L E d g) : d.hist.countP (·.isSome) ≤ d.cfg.k := by
  have e : d.hist = (List.range d.cfg.rangeHist).map fun i => (d.hist[i]?).getD none := by
    apply List.ext_getElem?
    intro i
    rw [List.getElem?_map]
    rcases Nat.lt_or_ge i d.cfg.rangeHist with hi | hi
    · rw [List.getElem?_range hi, Option.map_some, List.getElem?_eq_getElem (by rw [h.hlen]; exact hi), Option.getD_some]
    · rw [List.getElem?_eq_none (by rw [h.hlen]; exact hi), List.getElem?_eq_none (by rw [List.length_range]; exact hi), Option.map_none]
  rw [e, List.countP_map, List.countP_eq_length_filter]
  have hw := h.win
  have hsub : (List.range d.cfg.rangeHist).filter ((·.isSome) ∘ fun i => (d.hist[i]?).getD none) ⊆
      (List.range' g.va (g.segs.length - g.va)).map (· % d.cfg.rangeHist) := by
    intro i hi
    rw [List.mem_filter, List.mem_range] at hi
    rw [List.mem_map]
    by_contra hno
    have := h.free i hi.1 (fun j a b e => hno ⟨j, List.mem_range'_1.2 ⟨a, by omega⟩, e⟩)
    have h2 := hi.2
    simp only [Function.comp_apply, this, Option.getD_some, Option.isSome_none] at h2
    cases h2
  have := (List.Nodup.subperm (List.nodup_range.filter _) hsub).length_le
  simp only [List.length_map, List.length_range'] at this
  omega

/-- **The window**: a side never holds more segments sent and not acknowledged than the window asked for at its set-up -/
theorem lapd_window (h0 : establish c.a c.b = some s0) (h : Reach s0 s) :
    s.a.hist.countP (·.isSome) ≤ c.ka ∧ s.b.hist.countP (·.isSome) ≤ c.kb := by
  obtain ⟨ga, gb, hp⟩ := h.p h0
  have ha := window_aux hp.a
  have hb := window_aux hp.b
  rw [hp.ca] at ha
  rw [hp.cb] at hb
  have hka : c.a.cfg.k ≤ c.ka := by unfold Ends.a init; simp only; split <;> omega
  have hkb : c.b.cfg.k ≤ c.kb := by unfold Ends.b init; simp only; split <;> omega
  exact ⟨by omega, by omega⟩

theorem timer_aux {E : Env} {d : DL} {g : G} (h : L E d g) (hi : Idle d g) (ht : Tr d) (hh : ∃ x ∈ d.hist, x ≠ none) :
    d.t200 = true ∨ (d.state = .timerRecov ∧ d.cfg.n200 < d.retrans) := by
  rcases h.est with hs | hs
  · refine .inl ((hi hs).2.1 ?_)
    by_contra hlt
    obtain ⟨x, hx, hne⟩ := hh
    obtain ⟨i, hi', hxi⟩ := List.mem_iff_getElem.1 hx
    have := h.free i (by rw [← h.hlen]; exact hi') (fun j a b _ => by omega)
    rw [List.getElem?_eq_getElem hi', hxi] at this
    exact hne (Option.some.inj this)
  · exact (ht hs).imp id (fun h => ⟨hs, h⟩)

/-- **Frames are watched**: while a side holds a segment not acknowledged, T200 runs, or has expired more than N200 times -/
theorem lapd_timer (h0 : establish c.a c.b = some s0) (h : Reach s0 s) :
    ((∃ x ∈ s.a.hist, x ≠ none) → s.a.t200 = true ∨ (s.a.state = .timerRecov ∧ c.n200A < s.a.retrans)) ∧
    ((∃ x ∈ s.b.hist, x ≠ none) → s.b.t200 = true ∨ (s.b.state = .timerRecov ∧ c.n200B < s.b.retrans)) := by
  obtain ⟨ga, gb, hp⟩ := h.p h0
  have ha := timer_aux hp.a hp.ia hp.ta
  have hb := timer_aux hp.b hp.ib hp.tb
  rw [hp.ca] at ha
  rw [hp.cb] at hb
  exact ⟨ha, hb⟩

/-- occupied places of the history: not fewer than the segments not acknowledged -/
theorem count_aux {E : Env} {d : DL} {g : G} (h : L E d g) : g.segs.length - g.va ≤ d.hist.countP (·.isSome) := by
  have hw := h.win
  have hk := h.k_lt
  have e : d.hist = (List.range d.cfg.rangeHist).map fun i => (d.hist[i]?).getD none := by
    apply List.ext_getElem?
    intro i
    rw [List.getElem?_map]
    rcases Nat.lt_or_ge i d.cfg.rangeHist with hi | hi
    · rw [List.getElem?_range hi, Option.map_some, List.getElem?_eq_getElem (by rw [h.hlen]; exact hi), Option.getD_some]
    · rw [List.getElem?_eq_none (by rw [h.hlen]; exact hi), List.getElem?_eq_none (by rw [List.length_range]; exact hi), Option.map_none]
  rw [e, List.countP_map, List.countP_eq_length_filter]
  have hnd : ((List.range' g.va (g.segs.length - g.va)).map (· % d.cfg.rangeHist)).Nodup := by
    refine List.Nodup.map_on ?_ List.nodup_range'
    intro x hx y hy hxy
    rw [List.mem_range'_1] at hx hy
    exact mod_near hxy (by omega) (by omega)
  have hsub : (List.range' g.va (g.segs.length - g.va)).map (· % d.cfg.rangeHist) ⊆
      (List.range d.cfg.rangeHist).filter ((·.isSome) ∘ fun i => (d.hist[i]?).getD none) := by
    intro i hi
    obtain ⟨j, hj, rfl⟩ := List.mem_map.1 hi
    rw [List.mem_range'_1] at hj
    have hlt : j < g.segs.length := by omega
    have ho := h.occ j hj.1 hlt
    rw [List.mem_filter, List.mem_range]
    refine ⟨Nat.mod_lt _ h.R_pos, ?_⟩
    simp only [Function.comp_apply, ho, Option.getD_some, List.getElem?_eq_getElem hlt, Option.isSome_some]
  have := (List.Nodup.subperm hnd hsub).length_le
  simpa using this

theorem prompt_aux {E : Env} {d : DL} {g : G} (h : L E d g) (hi : Idle d g) (hs : d.state = .mfEst)
    (hq : d.sendBuffer ≠ none ∨ d.sendQueue ≠ []) : d.hist.countP (·.isSome) = d.cfg.k := by
  have h1 := count_aux h
  have h2 := window_aux h
  rcases Nat.lt_or_ge g.segs.length (g.va + d.cfg.k) with hlt | hge
  · have := (hi hs).2.2 hlt
    rcases hq with hq | hq
    · exact absurd this.1 hq
    · exact absurd this.2 hq
  · omega

/-- **Nothing waits without need**: in an established link with messages still to be sent, the window is full -/
theorem lapd_prompt (h0 : establish c.a c.b = some s0) (h : Reach s0 s) :
    (s.a.state = .mfEst → s.a.sendBuffer ≠ none ∨ s.a.sendQueue ≠ [] → s.a.hist.countP (·.isSome) = c.a.cfg.k) ∧
    (s.b.state = .mfEst → s.b.sendBuffer ≠ none ∨ s.b.sendQueue ≠ [] → s.b.hist.countP (·.isSome) = c.b.cfg.k) := by
  obtain ⟨ga, gb, hp⟩ := h.p h0
  have ha := prompt_aux hp.a hp.ia
  have hb := prompt_aux hp.b hp.ib
  rw [hp.ca] at ha
  rw [hp.cb] at hb
  exact ⟨ha, hb⟩

end Verif.Lapd
