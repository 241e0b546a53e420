import Verif.Lapd.Ops
/-!
The invariant and the sending of I frames.
-/
namespace Verif.Lapd
open Verif

variable {E : Env} {d : DL} {g : G}

theorem dequeue_spec (n : Nat) (q : List (List Byte)) :
    (∃ m q', dequeue q = (some m, q') ∧ m ≠ [] ∧ q.flatMap (segment n) = segment n m ++ q'.flatMap (segment n)) ∨
      (dequeue q = (none, []) ∧ q.flatMap (segment n) = []) := by
  induction q with
  | nil => exact .inr ⟨rfl, rfl⟩
  | cons m q ih =>
    rw [dequeue]
    by_cases hm : m.length = 0
    · rw [if_pos hm]
      have : m = [] := List.length_eq_zero_iff.1 hm
      subst this
      rw [List.flatMap_cons, segment_nil, List.nil_append]
      exact ih
    · rw [if_neg hm]
      exact .inl ⟨m, q, rfl, (fun e => hm (by rw [e]; rfl)), by rw [List.flatMap_cons]⟩

/-- the next message to be sent from, or none -/
theorem fetch_spec (d : DL) :
    (∃ b out q, fetch d = (some b, out, q) ∧ b.drop out ≠ [] ∧
        rest d = segment d.cfg.n201 (b.drop out) ++ q.flatMap (segment d.cfg.n201)) ∨
      (∃ out, fetch d = (none, out, []) ∧ rest d = []) := by
  have key : (∃ b out q, ((dequeue d.sendQueue).1, 0, (dequeue d.sendQueue).2) = (some b, out, q) ∧ b.drop out ≠ [] ∧
        d.sendQueue.flatMap (segment d.cfg.n201) = segment d.cfg.n201 (b.drop out) ++ q.flatMap (segment d.cfg.n201)) ∨
      (∃ out, ((dequeue d.sendQueue).1, 0, (dequeue d.sendQueue).2) = ((none : Option (List Byte)), out, []) ∧
        d.sendQueue.flatMap (segment d.cfg.n201) = []) := by
    rcases dequeue_spec d.cfg.n201 d.sendQueue with ⟨m, q', h1, h2, h3⟩ | ⟨h1, h2⟩
    · exact .inl ⟨m, 0, q', by rw [h1], by simpa using h2, by rw [h3, List.drop_zero]⟩
    · exact .inr ⟨0, by rw [h1], h2⟩
  unfold fetch rest
  cases hb : d.sendBuffer with
  | none => simpa using key
  | some b =>
    simp only
    by_cases hl : b.length - d.sendOut = 0
    · rw [if_pos hl, List.drop_eq_nil_of_le (by omega), segment_nil, List.nil_append]
      exact key
    · rw [if_neg hl]
      refine .inl ⟨b, d.sendOut, d.sendQueue, rfl, ?_, rfl⟩
      intro e
      have := congrArg List.length e
      simp only [List.length_drop, List.length_nil] at this
      omega

/-- an I frame made before is sent -/
theorem L.emit (h : L E d g) (hv : E.vaB ≤ g.vr) (h1 : g.va ≤ g.vs) {s : Seg} (hs : g.segs[g.vs]? = some s) :
    ∃ fs, L E (emitI d s) { g with vs := g.vs + 1, fs := fs } := by
  have hlt : g.vs < g.segs.length := by
    rw [List.getElem?_eq_some_iff] at hs
    exact hs.1
  have hw := h.win
  have he := h.env
  have hp := h.push { cmd := true, kind := .i g.vs g.segs.length, pf := false, nr := g.vr, data := s.1, more := s.2 }
    ⟨⟨hv, Nat.le_refl _⟩, (fun ns m e => by
      simp only [GKind.i.injEq] at e
      obtain ⟨rfl, rfl⟩ := e
      exact ⟨rfl, hs, hlt, hw.2.2.2, he.2, Nat.le_refl _, by omega⟩), fun hk => absurd rfl (hk _ _)⟩ rfl
    (fun ns m e => by simp only [GKind.i.injEq] at e; exact e.2.symm)
  have hq := ((hp.setSend (g.vs + 1) ⟨by simp only; omega, by simp only; omega⟩).misc d.seqErr true (if d.t200 then d.t203 else false) d.retrans d.mdl)
  refine ⟨g.fs ++ [{ cmd := true, kind := .i g.vs g.segs.length, pf := false, nr := g.vr, data := s.1, more := s.2 }], ?_⟩
  have e : emitI d s = { d with
      vSend := (g.vs + 1) % d.cfg.vRange
      t203 := if d.t200 then d.t203 else false
      t200 := true
      tx := d.tx ++ [GFrame.erase d.cfg.vRange { cmd := true, kind := .i g.vs g.segs.length, pf := false, nr := g.vr, data := s.1, more := s.2 }] } := by
    unfold emitI
    simp only [GFrame.erase, GKind.erase, ← h.vRecv, ← h.vSend]
    rw [h.vSend, incMod_mod h.cfg]
  rw [e]
  exact hq

/-- a segment is made -/
theorem L.make (h : L E d g) (h1 : g.vs = g.segs.length) (h2 : g.segs.length < g.va + d.cfg.k) {s : Seg} {b : Option (List Byte)} {out : Nat}
    {q : List (List Byte)}
    (hr : rest d = s :: rest { d with sendBuffer := b, sendOut := out, sendQueue := q }) :
    L E { d with sendBuffer := b, sendOut := out, sendQueue := q, hist := d.hist.set (g.vs % d.cfg.rangeHist) (some s) }
      { g with segs := g.segs ++ [s] } := by
  have hw := h.win
  have he := h.env
  have hk := h.k_lt
  have hlen : (g.segs ++ [s]).length = g.segs.length + 1 := by simp
  refine ⟨h.cfg, h.est, h.own, h.peer, h.vAck, h.vSend, h.vRecv, ?_, ?_, ?_, ?_, ?_, ?_, h.tx, ?_, h.ord, h.rcv⟩
  · simp only [hlen]; omega
  · simp only [List.length_set]; exact h.hlen
  · intro j a b
    simp only [hlen] at b
    have a : g.va ≤ j := a
    simp only
    by_cases hj : j < g.segs.length
    · rw [List.getElem?_set_ne (fun e => by have := mod_near e (by omega) (by omega); omega), h.occ j a hj, List.getElem?_append_left hj]
    · have : j = g.vs := by omega
      subst this
      rw [List.getElem?_set_self (by rw [h.hlen]; exact Nat.mod_lt _ h.R_pos), List.getElem?_append_right (by omega), h1]
      simp
  · intro i hi hx
    simp only [hlen] at hx
    simp only
    rw [List.getElem?_set_ne (hx g.vs (show g.va ≤ g.vs by omega) (by omega))]
    exact h.free i hi (fun j a b => hx j a (by omega))
  · simp only
    rw [h.seg, hr, List.append_assoc]
    rfl
  · simp only [hlen]; omega
  · intro f hf
    have hf' := h.fok f hf
    refine ⟨hf'.nr, fun ns m e => ?_, hf'.s⟩
    obtain ⟨a1, a2, a3, a4, a5, a6, a7⟩ := hf'.i ns m e
    refine ⟨a1, ?_, a3, a4, a5, by simp only [hlen]; omega, a7⟩
    simp only
    rw [List.getElem?_append_left (List.getElem?_eq_some_iff.1 a2).1, a2]

/-- what of a data link sending does not touch -/
structure Kept (d d' : DL) : Prop where
  cfg : d'.cfg = d.cfg
  state : d'.state = d.state
  retrans : d'.retrans = d.retrans

theorem Kept.refl (d : DL) : Kept d d := ⟨rfl, rfl, rfl⟩

theorem Kept.trans {a b c : DL} (h : Kept a b) (h' : Kept b c) : Kept a c :=
  ⟨h'.cfg.trans h.cfg, h'.state.trans h.state, h'.retrans.trans h.retrans⟩

/-- what is asked of an established link before frames are sent -/
def Ready (d : DL) (g : G) : Prop :=
  d.state = .mfEst → g.va ≤ g.vs ∧ (g.va < g.segs.length → d.t200 = true ∨ g.vs < g.segs.length)

/-- what holds between events -/
def Idle (d : DL) (g : G) : Prop :=
  d.state = .mfEst → g.vs = g.segs.length ∧ (g.va < g.segs.length → d.t200 = true) ∧
    (g.segs.length < g.va + d.cfg.k → d.sendBuffer = none ∧ d.sendQueue = [])

theorem sendI_spec (hv : E.vaB ≤ g.vr) : ∀ (n : Nat) (d : DL) (g' : G) (rc : Bool), L E d g' → g'.vr = g.vr → g'.va = g.va → g.segs <+: g'.segs →
    Ready d g' → g'.va + d.cfg.k < g'.vs + n → 0 < n →
    ∃ d' g'' rc', sendI n d rc = some (d', rc') ∧ L E d' g'' ∧ g''.vr = g.vr ∧ g''.va = g.va ∧ g.segs <+: g''.segs ∧ Idle d' g'' ∧ Kept d d' ∧
      (d.state = .timerRecov → d' = d) := by
  intro n
  induction n with
  | zero => intro d g' rc _ _ _ _ _ _ h; omega
  | succ n ih =>
    intro d g' rc h hvr hva hpre hrd hn _
    rw [sendI]
    rw [if_neg (by rw [h.peer]; decide)]
    by_cases hs : d.state = .timerRecov
    · rw [if_pos hs]
      exact ⟨d, g', rc, rfl, h, hvr, hva, hpre, (fun e => by rw [hs] at e; cases e), Kept.refl d, fun _ => rfl⟩
    · rw [if_neg hs]
      have hm : d.state = .mfEst := h.est.resolve_right hs
      obtain ⟨r1, r2⟩ := hrd hm
      have hw := h.win
      have hk := h.k_lt
      have hR := h.R_le
      by_cases hwin : d.vSend = addMod d.vAck d.cfg.k d.cfg.vRange
      · rw [if_pos hwin]
        rw [h.vSend, h.vAck, addMod_mod h.cfg] at hwin
        have := mod_inj hwin (by omega) (by omega)
        have hvs : g'.vs = g'.segs.length := by omega
        refine ⟨d, g', rc, rfl, h, hvr, hva, hpre, (fun _ => ⟨hvs, fun hlt => ?_, fun hlt => by omega⟩), Kept.refl d, fun _ => rfl⟩
        rcases r2 hlt with h' | h'
        · exact h'
        · omega
      · rw [if_neg hwin]
        have hlt : g'.vs < g'.va + d.cfg.k := by
          rcases Nat.lt_or_ge g'.vs (g'.va + d.cfg.k) with h' | h'
          · exact h'
          · exfalso
            apply hwin
            rw [h.vSend, h.vAck, addMod_mod h.cfg]
            have : g'.vs = g'.va + d.cfg.k := by omega
            rw [this]
        have hplace : doMod d.vSend d.cfg.rangeHist = g'.vs % d.cfg.rangeHist := by rw [h.vSend, doMod_mod h.cfg]
        simp only [hplace]
        by_cases hold : g'.vs < g'.segs.length
        · have hocc := h.occ g'.vs r1 hold
          rw [List.getElem?_eq_getElem hold] at hocc
          simp only [hocc]
          obtain ⟨fs, hL⟩ := h.emit (by rw [hvr]; exact hv) r1 (List.getElem?_eq_getElem hold)
          obtain ⟨d', g'', rc', e1, e2, e3, e4, e5, e6, e7, e8⟩ := ih _ _ true hL hvr hva hpre
            (fun _ => ⟨by simp only; omega, fun _ => .inl rfl⟩) (by simp only [emitI]; omega) (by omega)
          refine ⟨d', g'', rc', e1, e2, e3, e4, e5, e6, Kept.trans (a := d) (b := emitI d g'.segs[g'.vs]) ⟨rfl, rfl, rfl⟩ e7, fun e => absurd e hs⟩
        · have hvs : g'.vs = g'.segs.length := by omega
          have hfree := h.free (g'.vs % d.cfg.rangeHist) (Nat.mod_lt _ h.R_pos)
            (fun j a b e => by have := mod_near e (by omega) (by omega); omega)
          simp only [hfree]
          rcases fetch_spec d with ⟨b, out, q, f1, f2, f3⟩ | ⟨out, f1, f2⟩
          · simp only [f1]
            have hseg := segment_cons h.cfg.n201 f2 _ rfl
            rw [hseg, List.length_drop, List.drop_drop] at f3
            have hmk := h.make hvs (by omega) (s := ((b.drop out).take (if b.length - out > d.cfg.n201 then d.cfg.n201 else b.length - out),
              decide (b.length - out > if b.length - out > d.cfg.n201 then d.cfg.n201 else b.length - out))) (b := some b)
              (out := out + if b.length - out > d.cfg.n201 then d.cfg.n201 else b.length - out) (q := q) f3
            obtain ⟨fs, hL⟩ := hmk.emit (by rw [← hvr] at hv; exact hv) r1 (show (g'.segs ++ [_])[g'.vs]? = some _ by rw [hvs]; exact List.getElem?_concat_length)
            obtain ⟨d', g'', rc', e1, e2, e3, e4, e5, e6, e7, e8⟩ := ih _ _ true hL hvr hva (hpre.trans (List.prefix_append _ _))
              (fun _ => ⟨by simp only; omega, fun _ => .inl rfl⟩) (by simp only [emitI]; omega) (by omega)
            exact ⟨d', g'', rc', e1, e2, e3, e4, e5, e6, ⟨e7.cfg, e7.state, e7.retrans⟩, fun e => absurd e hs⟩
          · simp only [f1]
            refine ⟨_, g', rc, rfl, ?_, hvr, hva, hpre, ?_, ⟨rfl, rfl, rfl⟩, fun e => absurd e hs⟩
            · refine ⟨h.cfg, h.est, h.own, h.peer, h.vAck, h.vSend, h.vRecv, h.win, h.hlen, h.occ, h.free, ?_, h.env, h.tx, h.fok, h.ord, h.rcv⟩
              rw [h.seg, f2]; rfl
            · intro _
              refine ⟨hvs, fun hlt => ?_, fun _ => ⟨rfl, rfl⟩⟩
              rcases r2 hlt with h' | h'
              · exact h'
              · omega

end Verif.Lapd
