import Verif.Lapd.Pair
import Mathlib.Data.List.Nodup
/-!
C110: what a user of a LAPD link relies on, src/isdn/lapd_core.c.
-/
namespace Verif.Lapd
open Verif

/-! ### Reassembly -/

/-- all but the last segment of a message say that more follow, and the last does not -/
theorem segment_last {n : Nat} (hn : 1 ≤ n) {m : List Byte} (hm : m ≠ []) :
    ∃ l s, segment n m = l ++ [(s, false)] ∧ (∀ x ∈ l, x.2 = true) ∧ (l.map Prod.fst).flatten ++ s = m := by
  induction hl : m.length using Nat.strong_induction_on generalizing m with
  | _ l ih =>
    subst hl
    have hpos : m.length ≠ 0 := fun h => hm (List.length_eq_zero_iff.1 h)
    by_cases h : m.length > n
    · rw [segment_cons hn hm n (by rw [if_pos h])]
      obtain ⟨l, s, h1, h2, h3⟩ := @ih (m.drop n).length (by rw [List.length_drop]; omega) (m.drop n)
        (fun e => by have := congrArg List.length e; rw [List.length_drop] at this; simp at this; omega) rfl
      refine ⟨(m.take n, true) :: l, s, by rw [h1, decide_eq_true h]; rfl, ?_, ?_⟩
      · intro x hx
        rcases List.mem_cons.1 hx with rfl | hx
        · rfl
        · exact h2 x hx
      · simp only [List.map_cons, List.flatten_cons, List.append_assoc]
        rw [h3, List.take_append_drop]
    · rw [segment_cons hn hm m.length (by rw [if_neg h])]
      refine ⟨[], m, ?_, by simp, by simp⟩
      rw [List.take_length, List.drop_length, segment_nil]
      simp

/-- segments after which more follow deliver nothing -/
theorem deliver_more (maxf : Nat) : ∀ (l : List Seg) (st : List (List Byte) × Option (List Byte)), (∀ x ∈ l, x.2 = true) →
    (l.foldl (deliver maxf) st).1 = st.1
  | [], _, _ => rfl
  | x :: l, st, h => by
    rw [List.foldl_cons, deliver_more maxf l _ (fun y hy => h y (List.mem_cons_of_mem _ hy))]
    unfold deliver
    simp [h x List.mem_cons_self]

/-- their octets are kept -/
theorem deliver_keep (maxf : Nat) (up : List (List Byte)) : ∀ (l : List Seg) (b : List Byte), (∀ x ∈ l, x.2 = true) →
    b.length + (l.map Prod.fst).flatten.length ≤ maxf → l.foldl (deliver maxf) (up, some b) = (up, some (b ++ (l.map Prod.fst).flatten))
  | [], b, _, _ => by simp
  | x :: l, b, h, hl => by
    simp only [List.map_cons, List.flatten_cons, List.length_append] at hl
    have e : deliver maxf (up, some b) x = (up, some (b ++ x.1)) := by
      unfold deliver
      have hx := h x List.mem_cons_self
      simp only [hx, Bool.not_true, Bool.false_eq_true, false_and, if_false, Option.getD_some]
      rw [if_neg (by omega)]
    rw [List.foldl_cons, e, deliver_keep maxf up l _ (fun y hy => h y (List.mem_cons_of_mem _ hy)) (by rw [List.length_append]; omega)]
    simp [List.append_assoc]

/-- the segments of a message deliver the message -/
theorem deliver_message {n : Nat} (hn : 1 ≤ n) {maxf : Nat} {m : List Byte} (hm : m ≠ []) (hl : m.length ≤ maxf) (up : List (List Byte)) :
    (segment n m).foldl (deliver maxf) (up, none) = (up ++ [m], none) := by
  obtain ⟨l, s, h1, h2, h3⟩ := segment_last hn hm
  rw [h1, List.foldl_append]
  have hlen : (l.map Prod.fst).flatten.length + s.length ≤ maxf := by rw [← List.length_append, h3]; exact hl
  cases l with
  | nil =>
    simp only [List.map_nil, List.flatten_nil, List.nil_append] at h3
    subst h3
    rfl
  | cons x l =>
    have e : deliver maxf (up, none) x = (up, some x.1) := by
      unfold deliver
      have hx := h2 x List.mem_cons_self
      simp only [List.map_cons, List.flatten_cons, List.length_append] at hlen
      simp only [hx, Bool.not_true, Bool.false_eq_true, false_and, if_false, Option.getD_none, List.length_nil, List.nil_append]
      rw [if_neg (by omega)]
    rw [List.foldl_cons (l := l), e, deliver_keep maxf up l x.1 (fun y hy => h2 y (List.mem_cons_of_mem _ hy)) (by
      simp only [List.map_cons, List.flatten_cons, List.length_append] at hlen; omega)]
    simp only [List.map_cons, List.flatten_cons] at h3 hlen
    simp only [List.foldl_cons, List.foldl_nil, deliver, Bool.not_false, reduceCtorEq, and_false, if_false, Option.getD_some, if_true]
    rw [if_neg (by omega), h3]

theorem deliver_all {n : Nat} (hn : 1 ≤ n) {maxf : Nat} : ∀ (req up : List (List Byte)), [] ∉ req → (∀ m ∈ req, m.length ≤ maxf) →
    (req.flatMap (segment n)).foldl (deliver maxf) (up, none) = (up ++ req, none)
  | [], up, _, _ => by simp
  | m :: req, up, h0, hl => by
    rw [List.flatMap_cons, List.foldl_append, deliver_message hn (fun e => h0 (by rw [e]; exact List.mem_cons_self)) (hl m List.mem_cons_self),
      deliver_all hn req _ (fun e => h0 (List.mem_cons_of_mem _ e)) (fun x hx => hl x (List.mem_cons_of_mem _ hx))]
    simp

/-- the first segments of messages deliver the first of the messages -/
theorem deliver_prefix {n : Nat} (hn : 1 ≤ n) {maxf : Nat} : ∀ (req up : List (List Byte)) (p : List Seg), [] ∉ req →
    (∀ m ∈ req, m.length ≤ maxf) → p <+: req.flatMap (segment n) → (p.foldl (deliver maxf) (up, none)).1 <+: up ++ req
  | [], up, p, _, _, hp => by
    have : p = [] := by simpa using hp
    subst this
    simp
  | m :: req, up, p, h0, hl, hp => by
    have hm : m ≠ [] := fun e => h0 (by rw [e]; exact List.mem_cons_self)
    rw [List.flatMap_cons] at hp
    by_cases hlen : p.length < (segment n m).length
    · obtain ⟨l, s, h1, h2, h3⟩ := segment_last hn hm
      have hpl : p <+: l := by
        rw [h1, List.append_assoc] at hp
        rw [h1, List.length_append, List.length_singleton] at hlen
        exact List.prefix_of_prefix_length_le hp (List.prefix_append _ _) (by omega)
      rw [deliver_more maxf p _ (fun x hx => h2 x (hpl.subset hx))]
      exact List.prefix_append _ _
    · have hs : segment n m <+: p := List.prefix_of_prefix_length_le (List.prefix_append _ _) hp (by omega)
      obtain ⟨q, rfl⟩ := hs
      have hq : q <+: req.flatMap (segment n) := (List.prefix_append_right_inj _).1 hp
      rw [List.foldl_append, deliver_message hn hm (hl m List.mem_cons_self)]
      have := deliver_prefix hn req (up ++ [m]) q (fun e => h0 (List.mem_cons_of_mem _ e)) (fun x hx => hl x (List.mem_cons_of_mem _ hx)) hq
      simpa using this

/-! ### A link between two fresh sides -/

theorem histRange_ok : ∀ k, k ≤ 127 → (∃ e, e ≤ 7 ∧ histRange k = 2 ^ e) ∧ k + 1 ≤ histRange k ∧ histRange k ≤ 2 * k + 1 := by
  have : ∀ k, k ≤ 127 → (∃ e, e ≤ 7 ∧ histRange k = 2 ^ e) ∧ k + 1 ≤ histRange k ∧ histRange k ≤ 2 * k + 1 := by
    intro k hk
    have h : ∀ k : Fin 128, (∃ e : Fin 8, histRange k = 2 ^ e.val) ∧ k.val + 1 ≤ histRange k ∧ histRange k ≤ 2 * k + 1 := by decide +kernel
    obtain ⟨⟨e, he⟩, h2, h3⟩ := h ⟨k, by omega⟩
    exact ⟨⟨e, by omega, he⟩, h2, h3⟩
  exact this

/-- what `lapd_dl_init2` computes is usable: for a sequence number range of a power of two up to 128 and any window asked for -/
theorem init_ok (k n201 maxf n200 : Nat) (re d2 t203 : Bool) {e : Nat} (he : e ≤ 7) (hn : 1 ≤ n201) :
    CfgOk (init k (2 ^ e) n201 maxf n200 re d2 t203).cfg := by
  have hpos : 0 < 2 ^ e := Nat.two_pow_pos e
  have hle : 2 ^ e ≤ 2 ^ 7 := Nat.pow_le_pow_right (by omega) he
  obtain ⟨k', hk'⟩ : ∃ k', k' = if k > 2 ^ e - 1 then 2 ^ e - 1 else k := ⟨_, rfl⟩
  have hk : k' ≤ 2 ^ e - 1 := by rw [hk']; split <;> omega
  obtain ⟨⟨e', e1, e2⟩, e3, e4⟩ := histRange_ok k' (by omega)
  have hcfg : (init k (2 ^ e) n201 maxf n200 re d2 t203).cfg = { k := k', vRange := 2 ^ e, rangeHist := histRange k', n201 := n201, maxf := maxf, n200 := n200, reestablish := re, drop2nd := d2, t203 := t203 } := by
    rw [hk']; rfl
  rw [hcfg]
  refine ⟨⟨e, rfl⟩, ?_, ⟨e', e2⟩, ?_, e3, hn⟩
  · exact (Nat.pow_dvd_pow 2 (show e ≤ 8 by omega))
  · simp only
    rw [e2] at e4 ⊢
    refine Nat.pow_dvd_pow 2 ?_
    by_contra hlt
    have : 2 ^ (e + 1) ≤ 2 ^ e' := Nat.pow_le_pow_right (by omega) (by omega)
    rw [Nat.pow_succ] at this
    omega

/-- the two settings of a link: each side's own window, but the same range of sequence numbers and the same segment length -/
structure Ends where
  ka : Nat
  kb : Nat
  e : Nat
  n201 : Nat
  maxfA : Nat
  maxfB : Nat
  n200A : Nat
  n200B : Nat
  reA : Bool
  reB : Bool
  d2A : Bool
  d2B : Bool
  t203A : Bool
  t203B : Bool
  he : e ≤ 7
  hn : 1 ≤ n201

def Ends.a (c : Ends) : DL := init c.ka (2 ^ c.e) c.n201 c.maxfA c.n200A c.reA c.d2A c.t203A
def Ends.b (c : Ends) : DL := init c.kb (2 ^ c.e) c.n201 c.maxfB c.n200B c.reB c.d2B c.t203B

/-- a side of which no link was asked yet -/
structure Fresh (d : DL) : Prop where
  cfg : CfgOk d.cfg
  state : d.state = .idle
  own : d.ownBusy = false
  peer : d.peerBusy = false
  hist : d.hist = List.replicate d.cfg.rangeHist none
  queue : d.sendQueue = []
  buf : d.sendBuffer = none
  rcv : d.rcvBuf = none
  up : d.up = []
  tx : d.tx = []

theorem Ends.freshA (c : Ends) : Fresh c.a := ⟨init_ok _ _ _ _ _ _ _ c.he c.hn, rfl, rfl, rfl, rfl, rfl, rfl, rfl, rfl, rfl⟩
theorem Ends.freshB (c : Ends) : Fresh c.b := ⟨init_ok _ _ _ _ _ _ _ c.he c.hn, rfl, rfl, rfl, rfl, rfl, rfl, rfl, rfl, rfl⟩

/-- a side that has just been connected -/
theorem fresh_L {d : DL} (hc : CfgOk d.cfg) (hs : d.state = .mfEst) (ho : d.ownBusy = false) (hp : d.peerBusy = false) (h1 : d.vSend = 0)
    (h2 : d.vAck = 0) (h3 : d.vRecv = 0) (hh : d.hist = List.replicate d.cfg.rangeHist none) (hq : d.sendQueue = []) (hb : d.sendBuffer = none)
    (hr : d.rcvBuf = none) (hu : d.up = []) (ht : d.tx = []) : L ⟨0, 0, [], []⟩ d ⟨[], 0, 0, 0, []⟩ := by
  refine ⟨hc, .inl hs, ho, hp, by simpa using h2, by simpa using h1, by simpa using h3, by simp, by rw [hh, List.length_replicate], ?_, ?_, ?_, by simp, by simp [ht],
    by simp, by simp, by simp [hu, hr]⟩
  · intro j _ h; simp at h
  · intro i hi _
    rw [hh, List.getElem?_replicate, if_pos hi]
  · simp [rest, hq, hb]

abbrev sabm : Frame := { cmd := true, kind := .sabm, pf := true, nr := 0, data := [], more := false }
abbrev ua : Frame := { cmd := false, kind := .ua, pf := true, nr := 0, data := [], more := false }

/-- asked for a link, a side sends a SABM -/
theorem estReq_fresh {d : DL} (h : Fresh d) : ∃ t, estReq d = { d with state := .sabmSent, t203 := t, hist := (List.replicate d.hist.length none).set 0 (some ([], false)), vSend := 0, retrans := 0, t200 := true, tx := [sabm] } := by
  unfold estReq
  obtain ⟨t, e⟩ := newstate_eq { d with sendQueue := [], sendBuffer := none, hist := (List.replicate d.hist.length none).set 0 (some ([], false)), rcvBuf := none, vSend := 0, ownBusy := false, peerBusy := false, retrans := 0 } .sabmSent
  refine ⟨t, ?_⟩
  simp only [e]
  obtain ⟨-, -, h1, h2, -, h3, h4, h5, -, h6⟩ := h
  cases d
  simp only at h1 h2 h3 h4 h5 h6
  subst h1 h2 h3 h4 h5 h6
  rfl

/-- a SABM is answered, and the link is there -/
theorem rxSabm_fresh {d : DL} (h : Fresh d) : ∃ t, rx d sabm = some { d with seqErr := 0, state := .mfEst, t203 := t, hist := List.replicate d.cfg.rangeHist none, vSend := 0, vRecv := 0, vAck := 0, tx := [ua] } := by
  have hs := h.state
  unfold rx rxSabm
  simp only [if_true, hs]
  obtain ⟨t, e⟩ := newstate_eq { d with seqErr := 0, state := State.idle, hist := List.replicate d.hist.length none, vSend := 0, vRecv := 0, vAck := 0, tx := d.tx ++ [ua] } .mfEst
  refine ⟨t, ?_⟩
  simp only [reduceCtorEq, if_false]
  have e' : (List.replicate d.cfg.rangeHist (none : Option Seg)) = List.replicate d.hist.length none := by rw [h.hist, List.length_replicate]
  rw [e']
  have e2 : d.tx ++ [ua] = [ua] := by rw [h.tx]; rfl
  rw [e2] at e
  simp only [h.tx, List.nil_append] at e ⊢
  exact congrArg some e

/-- `a` asks, `b` answers: both sides have the link, nothing is on its way -/
theorem establish_ok (c : Ends) : ∃ s ga gb, establish c.a c.b = some s ∧ P c.a.cfg c.b.cfg s ga gb ∧ s.reqA = [] ∧
    s.reqB = [] := by
  have fa := c.freshA
  have fb := c.freshB
  obtain ⟨ta, ea⟩ := estReq_fresh fa
  obtain ⟨tb, eb⟩ := rxSabm_fresh fb
  unfold establish
  simp only [ea, eb, Option.bind_some]
  unfold rx rxUa
  simp only [Bool.false_eq_true, if_false, Bool.not_true, List.length_set, List.length_replicate]
  obtain ⟨t, e⟩ := newstate_eq { c.a with state := State.sabmSent, t203 := ta, hist := List.replicate c.a.hist.length none, vSend := 0, retrans := 0, t200 := false, tx := [], vRecv := 0, vAck := 0 } .mfEst
  rw [e]
  have la : L ⟨0, 0, [], []⟩ _ ⟨[], 0, 0, 0, []⟩ := fresh_L (d := { c.a with state := .mfEst, t203 := t, hist := List.replicate c.a.hist.length none, vSend := 0, retrans := 0, t200 := false, tx := [], vRecv := 0, vAck := 0 })
    fa.cfg rfl fa.own fa.peer rfl rfl rfl (by simp only [fa.hist, List.length_replicate]) fa.queue fa.buf fa.rcv fa.up rfl
  obtain ⟨a', sent, h1, h2⟩ := finish la (Nat.le_refl _) (fun _ => ⟨Nat.le_refl _, fun h => absurd h (Nat.lt_irrefl _)⟩) (fun h => by cases h)
  rw [h1]
  obtain ⟨g', g1, g2, g3, g4, g5, g6, g7⟩ := h2
  have gs : g'.segs = [] := by
    have := g1.seg
    simp only [List.flatMap_nil] at this
    exact (List.append_eq_nil_iff.1 this.symm).1
  have lb : L ⟨g'.vr, g'.va, g'.segs, []⟩ { c.b with seqErr := 0, state := .mfEst, t203 := tb, hist := List.replicate c.b.cfg.rangeHist none, vSend := 0, vRecv := 0, vAck := 0, tx := [] } ⟨[], 0, 0, 0, []⟩ := by
    rw [g5, g4, gs]
    exact fresh_L fb.cfg rfl fb.own fb.peer rfl rfl rfl rfl fb.queue fb.buf fb.rcv fb.up rfl
  exact ⟨_, g', ⟨[], 0, 0, 0, []⟩, rfl, ⟨g1, lb, g2, (fun _ => ⟨rfl, (fun h => absurd h (Nat.lt_irrefl _)), fun _ => ⟨fb.buf, fb.queue⟩⟩), g3, (fun h => by cases h), by simp, by simp,
    by simp only [g7]; rfl, by simp only [g7]; rfl, g7, rfl⟩, rfl, rfl⟩

end Verif.Lapd
