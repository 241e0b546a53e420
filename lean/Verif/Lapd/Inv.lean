import Verif.Lapd.Sys
import Mathlib.Data.Nat.Bitwise
import Mathlib.Data.Int.ModEq
import Mathlib.Tactic.Linarith
/-!
What holds of a LAPD data link whose peer is another one: sequence numbers of the code are the remainders of numbers that count all segments.
-/
namespace Verif.Lapd
open Verif

/-! ### Segments -/

/-- a message in segments of at most `n` octets -/
def segment (n : Nat) (m : List Byte) : List Seg :=
  if m = [] then []
  else if h : n = 0 ∨ m.length ≤ n then [(m, false)]
  else (m.take n, true) :: segment n (m.drop n)
termination_by m.length
decreasing_by simp only [List.length_drop]; omega

theorem segment_nil (n : Nat) : segment n [] = [] := by rw [segment, if_pos rfl]

theorem segment_cons {n : Nat} (hn : 1 ≤ n) {m : List Byte} (hm : m ≠ []) (l : Nat) (hl : l = if m.length > n then n else m.length) :
    segment n m = (m.take l, decide (m.length > l)) :: segment n (m.drop l) := by
  conv_lhs => rw [segment]
  rw [if_neg hm]
  by_cases h : m.length > n
  · rw [if_pos h] at hl
    subst hl
    rw [dif_neg (by omega), decide_eq_true h]
  · rw [if_neg h] at hl
    subst hl
    rw [dif_pos (by omega), List.take_length, List.drop_length, segment_nil]
    simp

/-- a segment is not empty, not longer than allowed, and full where more follow -/
structure SegOk (n : Nat) (s : Seg) : Prop where
  pos : s.1.length ≠ 0
  le : s.1.length ≤ n
  full : s.2 = true → s.1.length = n

theorem segment_ok {n : Nat} (hn : 1 ≤ n) (m : List Byte) : ∀ s ∈ segment n m, SegOk n s := by
  induction hl : m.length using Nat.strong_induction_on generalizing m with
  | _ l ih =>
    subst hl
    by_cases hm : m = []
    · subst hm; rw [segment_nil]; intro s hs; cases hs
    · have hpos : m.length ≠ 0 := fun h => hm (List.length_eq_zero_iff.1 h)
      rw [segment_cons hn hm _ rfl]
      intro s hs
      rcases List.mem_cons.1 hs with rfl | hs
      · constructor
        · simp only [List.length_take]; split <;> omega
        · simp only [List.length_take]; split <;> omega
        · simp only [List.length_take, decide_eq_true_eq]; split <;> omega
      · refine ih _ ?_ _ rfl s hs
        simp only [List.length_drop]
        split <;> omega

/-! ### Remainders -/

theorem mod_inj {R a b : Nat} (h : a % R = b % R) (hab : a ≤ b) (hlt : b - a < R) : a = b := by
  have hd : R ∣ b - a := (Nat.modEq_iff_dvd' hab).1 h
  have := Nat.eq_zero_of_dvd_of_lt hd hlt
  omega

theorem mod_near {R a b : Nat} (h : a % R = b % R) (h1 : a < b + R) (h2 : b < a + R) : a = b := by
  rcases Nat.le_total a b with hab | hab
  · exact mod_inj h hab (by omega)
  · exact (mod_inj h.symm hab (by omega)).symm

/-- the settings of a usable data link: what `lapd_dl_init2` gives for a range of 8 or 128 (or another power of two) -/
structure CfgOk (c : Cfg) : Prop where
  range : ∃ e, c.vRange = 2 ^ e
  range256 : c.vRange ∣ 256
  hist : ∃ e, c.rangeHist = 2 ^ e
  dvd : c.rangeHist ∣ c.vRange
  room : c.k + 1 ≤ c.rangeHist
  n201 : 1 ≤ c.n201

variable {c : Cfg}

theorem CfgOk.le (h : CfgOk c) : c.rangeHist ≤ c.vRange := by
  obtain ⟨e, he⟩ := h.range
  exact Nat.le_of_dvd (by rw [he]; exact Nat.two_pow_pos _) h.dvd

theorem CfgOk.le256 (h : CfgOk c) : c.vRange ≤ 256 := Nat.le_of_dvd (by omega) h.range256

theorem doMod_range (h : CfgOk c) (x : Nat) : doMod x c.vRange = x % c.vRange := by
  obtain ⟨e, he⟩ := h.range
  rw [doMod, he, Nat.and_two_pow_sub_one_eq_mod]

theorem doMod_hist (h : CfgOk c) (x : Nat) : doMod x c.rangeHist = x % c.rangeHist := by
  obtain ⟨e, he⟩ := h.hist
  rw [doMod, he, Nat.and_two_pow_sub_one_eq_mod]

theorem doMod_mod (h : CfgOk c) (x : Nat) : doMod (x % c.vRange) c.rangeHist = x % c.rangeHist := by
  rw [doMod_hist h, Nat.mod_mod_of_dvd _ h.dvd]

theorem incMod_mod (h : CfgOk c) (x : Nat) : incMod (x % c.vRange) c.vRange = (x + 1) % c.vRange := by
  have := doMod_range h (x % c.vRange + 1)
  rw [doMod] at this
  rw [incMod, this, Nat.mod_add_mod]

theorem addMod_mod (h : CfgOk c) (x y : Nat) : addMod (x % c.vRange) y c.vRange = (x + y) % c.vRange := by
  have := doMod_range h (x % c.vRange + y)
  rw [doMod] at this
  rw [addMod, this, Nat.mod_add_mod]

theorem subMod_mod (h : CfgOk c) {x y : Nat} (hy : y ≤ x) (hlt : x - y < c.vRange) :
    subMod (x % c.vRange) (y % c.vRange) c.vRange = x - y := by
  have hm := doMod_range h (x % c.vRange + 256 - y % c.vRange)
  rw [doMod] at hm
  rw [subMod, hm]
  have hpos : 0 < c.vRange := by omega
  have hyl := Nat.mod_lt y hpos
  have h256 := h.le256
  obtain ⟨q, hq⟩ := h.range256
  have e : (x % c.vRange + 256 - y % c.vRange) ≡ x - y [MOD c.vRange] := by
    refine Nat.ModEq.add_right_cancel' (y % c.vRange) ?_
    rw [Nat.sub_add_cancel (by omega)]
    have h1 : x % c.vRange + 256 ≡ x [MOD c.vRange] := by
      rw [hq]
      exact (Nat.ModEq.add (Nat.mod_modEq _ _) ((Nat.modEq_zero_iff_dvd.2 ⟨q, rfl⟩))).trans (by rw [Nat.add_zero])
    have h2 : x - y + y % c.vRange ≡ x [MOD c.vRange] :=
      (Nat.ModEq.add_left _ (Nat.mod_modEq _ _)).trans (by rw [Nat.sub_add_cancel hy])
    exact h1.trans h2.symm
  rw [e, Nat.mod_eq_of_lt hlt]

theorem subMod_one (h : CfgOk c) {m : Nat} (hm : ∃ e, m = 2 ^ e) (hd : m ∣ c.vRange) (x : Nat) :
    (subMod (x % c.vRange) 1 m + 1) % m = x % m := by
  obtain ⟨e, rfl⟩ := hm
  rw [subMod, Nat.and_two_pow_sub_one_eq_mod, Nat.mod_add_mod, Nat.sub_add_cancel (by omega), Nat.add_mod, Nat.mod_mod_of_dvd _ hd,
    Nat.mod_eq_zero_of_dvd (hd.trans h.range256)]
  simp

/-! ### The invariant -/

/-- the kinds of frames on an established line, with the whole numbers: N(S), and the segments made when the frame was sent -/
inductive GKind where
  | i (ns m : Nat) | rr | rej
  deriving DecidableEq

structure GFrame where
  cmd : Bool
  kind : GKind
  pf : Bool
  nr : Nat
  data : List Byte
  more : Bool
  deriving DecidableEq

def GKind.erase (M : Nat) : GKind → Kind
  | .i ns _ => .i (ns % M)
  | .rr => .rr
  | .rej => .rej

/-- the frame as it is on the line -/
def GFrame.erase (M : Nat) (f : GFrame) : Frame :=
  { cmd := f.cmd, kind := f.kind.erase M, pf := f.pf, nr := f.nr % M, data := f.data, more := f.more }

/-- what is the peer's: segments accepted from us, segments of its own we have acknowledged to its knowledge, its segments; and what
we were asked to send -/
structure Env where
  vrB : Nat
  vaB : Nat
  segsB : List Seg
  req : List (List Byte)

/-- whole numbers of a side: the segments made, those acknowledged, V(S), V(R), and the frames on their way -/
structure G where
  segs : List Seg
  va : Nat
  vs : Nat
  vr : Nat
  fs : List GFrame

/-- segments still to be made -/
def rest (d : DL) : List Seg :=
  (match d.sendBuffer with
    | some b => segment d.cfg.n201 (b.drop d.sendOut)
    | none => []) ++ d.sendQueue.flatMap (segment d.cfg.n201)

/-- a frame on its way -/
structure FOk (E : Env) (g : G) (k : Nat) (f : GFrame) : Prop where
  nr : E.vaB ≤ f.nr ∧ f.nr ≤ g.vr
  i : ∀ ns m, f.kind = .i ns m → f.cmd = true ∧ g.segs[ns]? = some (f.data, f.more) ∧ ns < m ∧ m ≤ ns + k ∧ E.vrB ≤ m ∧
    m ≤ g.segs.length ∧ ns < E.vrB + k
  s : (∀ ns m, f.kind ≠ .i ns m) → f.data = [] ∧ f.more = false

/-- frames in order -/
def Ordered (f f' : GFrame) : Prop :=
  f.nr ≤ f'.nr ∧ ∀ ns m ns' m', f.kind = .i ns m → f'.kind = .i ns' m' → m ≤ m'

structure L (E : Env) (d : DL) (g : G) : Prop where
  cfg : CfgOk d.cfg
  est : Est d
  own : d.ownBusy = false
  peer : d.peerBusy = false
  vAck : d.vAck = g.va % d.cfg.vRange
  vSend : d.vSend = g.vs % d.cfg.vRange
  vRecv : d.vRecv = g.vr % d.cfg.vRange
  win : g.va ≤ g.segs.length ∧ g.segs.length ≤ g.va + d.cfg.k ∧ g.vs ≤ g.segs.length ∧ g.segs.length ≤ g.vs + d.cfg.k
  hlen : d.hist.length = d.cfg.rangeHist
  occ : ∀ j, g.va ≤ j → j < g.segs.length → d.hist[j % d.cfg.rangeHist]? = some g.segs[j]?
  free : ∀ i, i < d.cfg.rangeHist → (∀ j, g.va ≤ j → j < g.segs.length → j % d.cfg.rangeHist ≠ i) → d.hist[i]? = some none
  seg : E.req.flatMap (segment d.cfg.n201) = g.segs ++ rest d
  env : g.va ≤ E.vrB ∧ E.vrB ≤ g.segs.length
  tx : d.tx = g.fs.map (GFrame.erase d.cfg.vRange)
  fok : ∀ f ∈ g.fs, FOk E g d.cfg.k f
  ord : g.fs.Pairwise Ordered
  rcv : g.vr ≤ E.segsB.length ∧ (E.segsB.take g.vr).foldl (deliver d.cfg.maxf) ([], none) = (d.up, d.rcvBuf)

variable {E : Env} {d : DL} {g : G}

/-- what does not matter -/
theorem L.misc (h : L E d g) (seqErr : Nat) (t200 t203 : Bool) (retrans : Nat) (mdl : List Nat) :
    L E { d with seqErr := seqErr, t200 := t200, t203 := t203, retrans := retrans, mdl := mdl } g :=
  ⟨h.cfg, h.est, h.own, h.peer, h.vAck, h.vSend, h.vRecv, h.win, h.hlen, h.occ, h.free, h.seg, h.env, h.tx, h.fok, h.ord, h.rcv⟩

/-- another state of an established link -/
theorem L.state (h : L E d g) (s : State) (hs : s = .mfEst ∨ s = .timerRecov) : L E { d with state := s } g :=
  ⟨h.cfg, hs, h.own, h.peer, h.vAck, h.vSend, h.vRecv, h.win, h.hlen, h.occ, h.free, h.seg, h.env, h.tx, h.fok, h.ord, h.rcv⟩

/-- V(S) set back -/
theorem L.setSend (h : L E d g) (n : Nat) (hn : n ≤ g.segs.length ∧ g.segs.length ≤ n + d.cfg.k) :
    L E { d with vSend := n % d.cfg.vRange } { g with vs := n } :=
  ⟨h.cfg, h.est, h.own, h.peer, h.vAck, rfl, h.vRecv, ⟨h.win.1, h.win.2.1, hn.1, hn.2⟩, h.hlen, h.occ, h.free, h.seg, h.env, h.tx,
    (fun f hf => ⟨(h.fok f hf).nr, (h.fok f hf).i, (h.fok f hf).s⟩), h.ord, h.rcv⟩

/-- a frame is sent -/
theorem L.push (h : L E d g) (f : GFrame) (hf : FOk E g d.cfg.k f) (hnr : f.nr = g.vr)
    (hm : ∀ ns m, f.kind = .i ns m → m = g.segs.length) :
    L E { d with tx := d.tx ++ [f.erase d.cfg.vRange] } { g with fs := g.fs ++ [f] } :=
  ⟨h.cfg, h.est, h.own, h.peer, h.vAck, h.vSend, h.vRecv, h.win, h.hlen, h.occ, h.free, h.seg, h.env,
    (by simp only [List.map_append, List.map_cons, List.map_nil, h.tx]),
    (fun x hx => by
      rcases List.mem_append.1 hx with hx | hx
      · exact ⟨(h.fok x hx).nr, (h.fok x hx).i, (h.fok x hx).s⟩
      · rw [List.mem_singleton.1 hx]; exact ⟨hf.nr, hf.i, hf.s⟩),
    (by
      simp only
      rw [List.pairwise_append]
      refine ⟨h.ord, List.pairwise_singleton _ _, fun x hx y hy => ?_⟩
      rw [List.mem_singleton.1 hy]
      refine ⟨by rw [hnr]; exact (h.fok x hx).nr.2, fun ns m ns' m' e e' => ?_⟩
      rw [hm _ _ e']
      exact ((h.fok x hx).i _ _ e).2.2.2.2.2.1),
    h.rcv⟩

/-- a supervisory frame with the present V(R) -/
theorem L.pushS (h : L E d g) (hv : E.vaB ≤ g.vr) (kind : GKind) (hk : ∀ ns m, kind ≠ .i ns m) (pf cmd : Bool) :
    ∃ fs, L E (sendS d (kind.erase d.cfg.vRange) pf cmd) { g with fs := fs } := by
  refine ⟨g.fs ++ [{ cmd := cmd, kind := kind, pf := pf, nr := g.vr, data := [], more := false }], ?_⟩
  have := h.push { cmd := cmd, kind := kind, pf := pf, nr := g.vr, data := [], more := false }
    ⟨⟨hv, Nat.le_refl _⟩, (fun ns m e => absurd e (hk ns m)), fun _ => ⟨rfl, rfl⟩⟩ rfl (fun ns m e => absurd e (hk ns m))
  simp only [GFrame.erase, ← h.vRecv] at this
  exact this

end Verif.Lapd
