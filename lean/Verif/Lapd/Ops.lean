import Verif.Lapd.Inv
/-!
The invariant and the parts of the code: acknowledging, sending I frames.
-/
namespace Verif.Lapd
open Verif

variable {E : Env} {d : DL} {g : G}

theorem L.k_lt (h : L E d g) : d.cfg.k < d.cfg.rangeHist := h.cfg.room

theorem L.R_le (h : L E d g) : d.cfg.rangeHist ≤ d.cfg.vRange := h.cfg.le

theorem L.R_pos (h : L E d g) : 0 < d.cfg.rangeHist := by have := h.cfg.room; omega

/-! ### Acknowledging -/

theorem ackLoop_spec {c : Cfg} (hc : CfgOk c) (n : Nat) : ∀ (fuel i : Nat) (hist : List (Option Seg)), i ≤ n → n - i < c.vRange → n - i < fuel →
    hist.length = c.rangeHist →
    ∃ hist', ackLoop c fuel (i % c.vRange) (n % c.vRange) hist = some hist' ∧ hist'.length = c.rangeHist ∧
      (∀ x, (∃ j, i ≤ j ∧ j < n ∧ j % c.rangeHist = x) → x < c.rangeHist → hist'[x]? = some none) ∧
      ∀ x, (∀ j, i ≤ j → j < n → j % c.rangeHist ≠ x) → hist'[x]? = hist[x]? := by
  intro fuel
  induction fuel with
  | zero => intro i hist h1 h2 h3; omega
  | succ fuel ih =>
    intro i hist h1 h2 h3 hl
    have hRpos : 0 < c.rangeHist := by have := hc.room; omega
    rw [ackLoop]
    by_cases he : i = n
    · subst he
      rw [if_pos rfl]
      refine ⟨hist, rfl, hl, ?_, fun x _ => rfl⟩
      rintro x ⟨j, a, b, -⟩
      omega
    · rw [if_neg (fun e => he (mod_inj e h1 h2))]
      simp only
      rw [doMod_mod hc, if_pos (by rw [hl]; exact Nat.mod_lt _ hRpos), incMod_mod hc]
      obtain ⟨hist', e1, e2, e3, e4⟩ := ih (i + 1) (hist.set (i % c.rangeHist) none) (by omega) (by omega) (by omega) (by rw [List.length_set, hl])
      refine ⟨hist', e1, e2, ?_, ?_⟩
      · rintro x ⟨j, a, b, hx⟩ hxl
        by_cases hj : ∃ j, i + 1 ≤ j ∧ j < n ∧ j % c.rangeHist = x
        · exact e3 x hj hxl
        · have hji : j = i := by
            by_contra hne
            exact hj ⟨j, by omega, b, hx⟩
          subst hji
          rw [e4 x (fun j a b e => hj ⟨j, a, b, e⟩), hx, List.getElem?_set_self (by rw [hl]; exact hxl)]
      · intro x hx
        rw [e4 x (fun j a b => hx j (by omega) b), List.getElem?_set_ne (hx i (Nat.le_refl _) (by omega))]

/-- the history after an acknowledgement -/
theorem ack_hist (h : L E d g) {n : Nat} (h1 : g.va ≤ n) (h2 : n ≤ E.vrB) :
    ∃ hist, ackLoop d.cfg rounds d.vAck (n % d.cfg.vRange) d.hist = some hist ∧
      (∀ j, n ≤ j → j < g.segs.length → hist[j % d.cfg.rangeHist]? = some g.segs[j]?) ∧
      ∀ t200 t203, L E { d with hist := hist, vAck := n % d.cfg.vRange, t200 := t200, t203 := t203 } { g with va := n } := by
  have hk := h.k_lt
  have hR := h.R_le
  have hRp := h.R_pos
  have hw := h.win
  have he := h.env
  have h256 := h.cfg.le256
  obtain ⟨hist, e1, e2, e3, e4⟩ := ackLoop_spec h.cfg n rounds g.va d.hist h1 (by omega) (by unfold rounds; omega) h.hlen
  rw [← h.vAck] at e1
  have hocc : ∀ j, n ≤ j → j < g.segs.length → hist[j % d.cfg.rangeHist]? = some g.segs[j]? := by
    intro j a b
    rw [e4 _ (fun j' a' b' e => by have := mod_near e (by omega) (by omega); omega), h.occ j (by omega) b]
  have hfree : ∀ i, i < d.cfg.rangeHist → (∀ j, n ≤ j → j < g.segs.length → j % d.cfg.rangeHist ≠ i) → hist[i]? = some none := by
    intro i hi hx
    by_cases hj : ∃ j, g.va ≤ j ∧ j < n ∧ j % d.cfg.rangeHist = i
    · exact e3 i hj hi
    · rw [e4 i (fun j a b e => hj ⟨j, a, b, e⟩)]
      refine h.free i hi (fun j a b e => ?_)
      by_cases hjn : j < n
      · exact hj ⟨j, a, hjn, e⟩
      · exact hx j (by omega) b e
  refine ⟨hist, e1, hocc, fun t200 t203 => ?_⟩
  exact ⟨h.cfg, h.est, h.own, h.peer, rfl, h.vSend, h.vRecv, ⟨by simp only; omega, by simp only; omega, hw.2.2⟩, e2, hocc, hfree, h.seg,
      ⟨h2, he.2⟩, h.tx, (fun f hf => ⟨(h.fok f hf).nr, (h.fok f hf).i, (h.fok f hf).s⟩), h.ord, h.rcv⟩

theorem sub_one_lt (h : CfgOk d.cfg) : subMod d.vSend 1 d.cfg.rangeHist < d.cfg.rangeHist := by
  obtain ⟨e, hE⟩ := h.hist
  rw [subMod, hE, Nat.and_two_pow_sub_one_eq_mod]
  exact Nat.mod_lt _ (Nat.two_pow_pos _)

/-- the place of the segment before V(S) -/
theorem sub_one_place (h : L E d g) {j : Nat} (hj : j + 1 = g.vs) : j % d.cfg.rangeHist = subMod d.vSend 1 d.cfg.rangeHist := by
  have hs1 := subMod_one h.cfg h.cfg.hist h.cfg.dvd g.vs
  rw [← h.vSend] at hs1
  have a : (j + 1) % d.cfg.rangeHist = (subMod d.vSend 1 d.cfg.rangeHist + 1) % d.cfg.rangeHist := by
    rw [hs1, hj]
  have b := Nat.ModEq.add_right_cancel' 1 a
  have b' : j % d.cfg.rangeHist = subMod d.vSend 1 d.cfg.rangeHist % d.cfg.rangeHist := b
  rw [Nat.mod_eq_of_lt (sub_one_lt h.cfg)] at b'
  exact b'

/-- N(R) of the peer acknowledges -/
theorem acknowledge_spec (h : L E d g) (hmf : d.state = .mfEst → g.vs = g.segs.length) (rej : Bool) {n : Nat} (h1 : g.va ≤ n)
    (h2 : n ≤ E.vrB) :
    ∃ hist t200 t203, acknowledge d rej (n % d.cfg.vRange) =
        some ({ d with hist := hist, vAck := n % d.cfg.vRange, t200 := t200, t203 := t203 }, true) ∧
      L E { d with hist := hist, vAck := n % d.cfg.vRange, t200 := t200, t203 := t203 } { g with va := n } ∧
      (d.state = .timerRecov → t200 = d.t200) ∧
      (d.state = .mfEst → rej = false → (g.va < g.segs.length → d.t200 = true) → n < g.segs.length → t200 = true) := by
  obtain ⟨hist, e1, hocc, hL⟩ := ack_hist h h1 h2
  have hk := h.k_lt
  have hR := h.R_le
  have hw := h.win
  have he := h.env
  have hlen : hist.length = d.cfg.rangeHist := (hL false false).hlen
  have hvalid : ¬ (d.state ≠ .timerRecov ∧
      subMod (n % d.cfg.vRange) d.vAck d.cfg.vRange > subMod d.vSend d.vAck d.cfg.vRange) := by
    rintro ⟨hs, hgt⟩
    have hm : d.state = .mfEst := h.est.resolve_right hs
    rw [h.vAck, h.vSend, subMod_mod h.cfg h1 (by omega), subMod_mod h.cfg (by rw [hmf hm]; omega) (by rw [hmf hm]; omega), hmf hm] at hgt
    omega
  have hlt := sub_one_lt h.cfg
  unfold acknowledge
  rw [e1, Option.bind_some, if_neg hvalid, List.getElem?_eq_getElem (by rw [hlen]; exact hlt), Option.map_some]
  refine ⟨_, _, _, rfl, hL _ _, fun hs => ?_, fun hm hrej hold hn => ?_⟩
  · have : ackReset d rej (n % d.cfg.vRange) = false := by unfold ackReset; rw [hs]; rfl
    rw [this]; rfl
  · subst hrej
    split
    · have hj := hocc (g.segs.length - 1) (by omega) (by omega)
      rw [sub_one_place h (by rw [hmf hm]; omega), List.getElem?_eq_getElem (by rw [hlen]; exact hlt), List.getElem?_eq_getElem (by omega)] at hj
      rw [Option.some.inj hj]; rfl
    · next hr =>
      apply hold
      by_contra hge
      have hva : g.va = g.segs.length := by omega
      omega

end Verif.Lapd
