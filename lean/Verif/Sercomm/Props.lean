import Verif.Sercomm.Model
import Mathlib.Tactic.Linarith
/-! C22: SERCOMM framing transports messages unchanged. -/
namespace Verif.Sercomm

/-- transmitter and receiver connected by a line -/
structure Line where
  tx : Tx
  rx : Rx

def Line.start : Line :=
  { tx := { queues := fun _ => [], cur := none, esc := false },
    rx := { msg := [], state := .waitStart, dlci := 0, ctrl := 0, out := [] } }

inductive LOp where
  | send (dlci : Byte) (payload : List Byte)
  /-- one octet over the line, if there is one -/
  | pull

def lineStep (handler : Nat → Bool) (size : Nat) (w : Line) : LOp → Option Line
  | .send d p => (sendmsg w.tx d p).map fun tx => { w with tx := tx }
  | .pull => (pull w.tx).map fun r =>
      match r.2 with
      | none => { w with tx := r.1 }
      | some c => { tx := r.1, rx := rxChar handler size w.rx c }

def lineRun (handler : Nat → Bool) (size : Nat) (w : Line) : List LOp → Option Line
  | [] => some w
  | o :: os => (lineStep handler size w o).bind fun w => lineRun handler size w os

/-- the messages sent on one DLCI -/
def sentOn (d : Nat) : List LOp → List (List Byte)
  | [] => []
  | .send e p :: os => if e.toNat = d then p :: sentOn d os else sentOn d os
  | .pull :: os => sentOn d os

/-- the messages the handler of one DLCI was called with -/
def receivedOn (d : Nat) (w : Line) : List (List Byte) := (w.rx.out.filter fun e => e.1 = d).map (·.2)

/-- DLCIs that survive the line: not one of the octets that get escaped -/
def GoodDlci (d : Byte) : Prop := d.toNat < 129 ∧ d ≠ 0x00#8 ∧ d ≠ 0x7D#8 ∧ d ≠ 0x7E#8

/-! ## The link invariant -/

/-- relation of the two ends; `fl` is the message in flight -/
inductive Sync : Option (List Byte) → Bool → Rx → Option (Byte × List Byte) → Prop
  | idle {rx} (hs : rx.state = .waitStart) (hm : rx.msg = []) : Sync none false rx none
  | addr {rx d p} (hs : rx.state = .addr) (hm : rx.msg = []) :
      Sync (some (d :: HDLC_C_UI :: p)) false rx (some (d, p))
  | ctrl {rx d p} (hs : rx.state = .ctrl) (hm : rx.msg = []) (hd : rx.dlci = d) :
      Sync (some (HDLC_C_UI :: p)) false rx (some (d, p))
  | data {rx d p q} (hs : rx.state = .data) (hp : p = rx.msg ++ q) (hd : rx.dlci = d) :
      Sync (some q) false rx (some (d, p))
  | esc {rx d p q c} (hs : rx.state = .escape) (hp : p = rx.msg ++ c :: q) (hd : rx.dlci = d) (hc : special c = true) :
      Sync (some ((c ^^^ 0x20#8) :: q)) true rx (some (d, p))

structure LInv (handler : Nat → Bool) (size : Nat) (w : Line) (sent : Nat → List (List Byte)) : Prop where
  sync : ∃ fl, Sync w.tx.cur w.tx.esc w.rx fl ∧ (∀ d p, fl = some (d, p) → GoodDlci d ∧ p.length < size) ∧
    ∀ d : Nat, handler d = true →
      sent d = receivedOn d w ++ ((fl.toList.filter fun e => e.1.toNat = d).map (·.2)) ++
        (w.tx.queues d).map (fun f => f.drop 2)
  queued : ∀ i, ∀ f ∈ w.tx.queues i, ∃ (d : Byte) (p : List Byte), f = d :: HDLC_C_UI :: p ∧ d.toNat = i ∧
    GoodDlci d ∧ p.length < size
  handled : ∀ e ∈ w.rx.out, handler e.1 = true ∧ e.1 < 129

theorem xor_twice (c : Byte) : c ^^^ 0x20#8 ^^^ 0x20#8 = c := by
  rw [BitVec.xor_assoc, BitVec.xor_self, BitVec.xor_zero]

theorem special_cases {c : Byte} (h : special c = true) : c = HDLC_FLAG ∨ c = HDLC_ESCAPE ∨ c = 0#8 := by
  simp only [special, Bool.or_eq_true, beq_iff_eq] at h
  tauto

theorem not_special {c : Byte} (h : special c = false) : c ≠ HDLC_FLAG ∧ c ≠ HDLC_ESCAPE ∧ c ≠ 0#8 := by
  simp only [special, Bool.or_eq_false_iff, beq_eq_false_iff_ne] at h
  tauto

theorem good_not_special {d : Byte} (h : GoodDlci d) : special d = false := by
  obtain ⟨-, h1, h2, h3⟩ := h
  simp only [special, HDLC_FLAG, HDLC_ESCAPE, Bool.or_eq_false_iff, beq_eq_false_iff_ne]
  exact ⟨⟨h3, h2⟩, h1⟩

theorem send_inv {handler : Nat → Bool} {size : Nat} {w : Line} {sent : Nat → List (List Byte)} (h : LInv handler size w sent)
    {d : Byte} {p : List Byte} (hd : GoodDlci d) (hp : p.length < size) :
    ∃ w', lineStep handler size w (.send d p) = some w' ∧
      LInv handler size w' (fun i => if d.toNat = i then sent i ++ [p] else sent i) ∧ w'.rx = w.rx ∧ w'.tx.cur = w.tx.cur := by
  obtain ⟨⟨fl, h1, h2, h3⟩, h4, h5⟩ := h
  unfold lineStep sendmsg
  simp only
  rw [if_pos (show d.toNat < DLCI_MAX from hd.1), Option.map_some]
  refine ⟨_, rfl, ⟨⟨fl, h1, h2, ?_⟩, ?_, h5⟩, rfl, rfl⟩
  · intro i hi
    have := h3 i hi
    simp only [receivedOn] at this ⊢
    by_cases hdi : d.toNat = i
    · rw [if_pos hdi, if_pos hdi.symm, this]
      simp
    · rw [if_neg hdi, if_neg (Ne.symm hdi), this]
  · intro i f hf
    simp only at hf
    by_cases hdi : i = d.toNat
    · rw [if_pos hdi] at hf
      rcases List.mem_append.1 hf with hf | hf
      · exact h4 i f hf
      · simp only [List.mem_singleton] at hf
        exact ⟨d, p, hf, hdi.symm, hd, hp⟩
    · rw [if_neg hdi] at hf
      exact h4 i f hf

theorem firstQueue_some {tx : Tx} {i : Nat} (h : firstQueue tx = some i) :
    i < 129 ∧ tx.queues i ≠ [] ∧ ∀ j < i, tx.queues j = [] := by
  unfold firstQueue at h
  rw [List.find?_range_eq_some] at h
  obtain ⟨h1, h2, h3⟩ := h
  refine ⟨by simpa [DLCI_MAX] using h2, by simpa using h1, ?_⟩
  intro j hj
  simpa using h3 j hj

theorem firstQueue_none {tx : Tx} (h : firstQueue tx = none) : ∀ j < 129, tx.queues j = [] := by
  unfold firstQueue at h
  rw [List.find?_eq_none] at h
  intro j hj
  have := h j (by simp [DLCI_MAX, hj])
  simpa using this

theorem filter_snoc {out : List (Nat × List Byte)} {e : Nat × List Byte} {d : Nat} :
    ((out ++ [e]).filter fun x => decide (x.1 = d)).map (·.2) =
      (out.filter fun x => decide (x.1 = d)).map (·.2) ++ if e.1 = d then [e.2] else [] := by
  rw [List.filter_append, List.map_append]
  by_cases h : e.1 = d <;> simp [h]

/-- one octet over the line -/
theorem pull_inv {handler : Nat → Bool} {size : Nat} {w : Line} {sent : Nat → List (List Byte)} (hsz : 0 < size)
    (h : LInv handler size w sent) :
    ∃ w', lineStep handler size w .pull = some w' ∧ LInv handler size w' sent := by
  obtain ⟨⟨fl, h1, h2, h3⟩, h4, h5⟩ := h
  obtain ⟨⟨queues, cur, esc⟩, rx⟩ := w
  simp only at h1 h3 h4 h5
  cases h1 with
  | idle hs hm =>
    unfold lineStep pull
    simp only
    cases hq : firstQueue { queues := queues, cur := none, esc := false } with
    | none =>
      simp only [Option.map_some]
      exact ⟨_, rfl, ⟨⟨none, .idle hs hm, h2, h3⟩, h4, h5⟩⟩
    | some i =>
      obtain ⟨hi, hne, hlow⟩ := firstQueue_some hq
      simp only at hne hlow
      cases hqi : queues i with
      | nil => exact absurd hqi hne
      | cons m ms =>
        simp only [hqi, Option.map_some]
        obtain ⟨d, p, rfl, hdi, hd, hp⟩ := h4 i m (by rw [hqi]; simp)
        refine ⟨_, rfl, ⟨⟨some (d, p), ?_, ?_, ?_⟩, ?_, ?_⟩⟩
        · refine .addr ?_ ?_
          · simp only [rxChar, hm, hs, List.length_nil, Nat.sub_zero, if_neg (show ¬ size = 0 by omega)]
            rw [if_neg (by simp)]
          · simp only [rxChar, hm, hs, List.length_nil, Nat.sub_zero, if_neg (show ¬ size = 0 by omega)]
            rw [if_neg (by simp)]
        · intro d' p' he
          simp only [Option.some.injEq, Prod.mk.injEq] at he
          obtain ⟨rfl, rfl⟩ := he
          exact ⟨hd, hp⟩
        · intro k hk
          have := h3 k hk
          simp only [receivedOn] at this ⊢
          simp only [rxChar, hm, hs, List.length_nil, Nat.sub_zero, if_neg (show ¬ size = 0 by omega)]
          rw [if_neg (by simp)]
          simp only
          rw [this]
          by_cases hki : k = i
          · subst hki
            rw [if_pos rfl, hqi]
            simp [hdi]
          · rw [if_neg hki]
            have : ¬ d.toNat = k := by omega
            simp [this]
        · intro k f hf
          simp only at hf
          by_cases hki : k = i
          · rw [if_pos hki] at hf
            exact h4 k f (by rw [hki, hqi]; simp [hf])
          · rw [if_neg hki] at hf
            exact h4 k f hf
        · simp only [rxChar, hm, hs, List.length_nil, Nat.sub_zero, if_neg (show ¬ size = 0 by omega)]
          rw [if_neg (by simp)]
          exact h5
  | @addr _ d p hs hm =>
    obtain ⟨hd, hp⟩ := h2 d p rfl
    unfold lineStep pull
    have hns := good_not_special hd
    simp only [Bool.false_eq_true, if_false, hns, Option.map_some]
    have hr : rxChar handler size rx d = { rx with dlci := d, state := .ctrl } := by
      simp only [rxChar, hm, hs, List.length_nil, Nat.sub_zero, if_neg (show ¬ size = 0 by omega)]
    rw [hr]
    exact ⟨_, rfl, ⟨⟨some (d, p), .ctrl rfl hm rfl, h2, h3⟩, h4, h5⟩⟩
  | @ctrl _ d p hs hm hd =>
    unfold lineStep pull
    have hns : special HDLC_C_UI = false := by decide
    simp only [Bool.false_eq_true, if_false, hns, Option.map_some]
    have hr : rxChar handler size rx HDLC_C_UI = { rx with ctrl := HDLC_C_UI, state := .data } := by
      simp only [rxChar, hm, hs, List.length_nil, Nat.sub_zero, if_neg (show ¬ size = 0 by omega)]
    rw [hr]
    exact ⟨_, rfl, ⟨⟨some (d, p), .data rfl (by simp [hm]) hd, h2, h3⟩, h4, h5⟩⟩
  | @data _ d p q hs hp hd =>
    obtain ⟨hgd, hlen⟩ := h2 d p rfl
    have hroom : ¬ (size - rx.msg.length = 0) := by rw [hp] at hlen; simp at hlen; omega
    unfold lineStep pull
    simp only [Bool.false_eq_true, if_false]
    cases q with
    | nil =>
      simp only [Option.map_some]
      have hfe : HDLC_FLAG ≠ HDLC_ESCAPE := by decide
      have hr : rxChar handler size rx HDLC_FLAG = { dispatch handler rx with msg := [], state := .waitStart } := by
        simp only [rxChar, if_neg hroom, hs, if_neg hfe, if_true]
      rw [hr]
      have hpm : p = rx.msg := by simpa using hp
      refine ⟨_, rfl, ⟨⟨none, .idle rfl rfl, by simp, ?_⟩, h4, ?_⟩⟩
      · intro k hk
        have := h3 k hk
        rw [this]
        simp only [receivedOn, dispatch]
        by_cases hkd : d.toNat = k
        · rw [if_pos ⟨by rw [hd]; exact hgd.1, by rw [hd, hkd]; exact hk⟩]
          simp only
          rw [filter_snoc]
          simp only [hd, hkd, if_true]
          simp [hkd, hpm]
        · split
          · simp only
            rw [filter_snoc]
            simp only [hd, if_neg hkd]
            simp [hkd]
          · simp [hkd]
      · simp only [dispatch]
        split
        · rename_i hc
          intro e he
          simp only at he
          rcases List.mem_append.1 he with he | he
          · exact h5 e he
          · simp only [List.mem_singleton] at he
            rw [he]; exact ⟨hc.2, hc.1⟩
        · exact h5
    | cons c q =>
      cases hsp : special c with
      | true =>
        simp only [if_true, hsp, Option.map_some]
        have hr : rxChar handler size rx HDLC_ESCAPE = { rx with state := .escape } := by
          simp only [rxChar, if_neg hroom, hs, if_true]
        rw [hr]
        exact ⟨_, rfl, ⟨⟨some (d, p), .esc rfl hp hd hsp, h2, h3⟩, h4, h5⟩⟩
      | false =>
        simp only [hsp, Bool.false_eq_true, if_false, Option.map_some]
        obtain ⟨n1, n2, -⟩ := not_special hsp
        have hr : rxChar handler size rx c = { rx with msg := rx.msg ++ [c] } := by
          simp only [rxChar, if_neg hroom, hs, if_neg n1, if_neg n2]
        rw [hr]
        exact ⟨_, rfl, ⟨⟨some (d, p), .data hs (by simp [hp]) hd, h2, h3⟩, h4, h5⟩⟩
  | @esc _ d p q c hs hp hd hsp =>
    obtain ⟨hgd, hlen⟩ := h2 d p rfl
    have hroom : ¬ (size - rx.msg.length = 0) := by rw [hp] at hlen; simp at hlen; omega
    unfold lineStep pull
    simp only [if_true, Option.map_some]
    have hr : rxChar handler size rx (c ^^^ 0x20#8) = { rx with msg := rx.msg ++ [c], state := .data } := by
      simp only [rxChar, if_neg hroom, hs, xor_twice]
    rw [hr]
    exact ⟨_, rfl, ⟨⟨some (d, p), .data rfl (by simp [hp]) hd, h2, h3⟩, h4, h5⟩⟩

/-- admissible operations -/
def GoodOp (size : Nat) : LOp → Prop
  | .send d p => GoodDlci d ∧ p.length < size
  | .pull => True

theorem run_inv {handler : Nat → Bool} {size : Nat} (hsz : 0 < size) (ops : List LOp) {w : Line} {sent : Nat → List (List Byte)}
    (h : LInv handler size w sent) (hops : ∀ o ∈ ops, GoodOp size o) :
    ∃ w', lineRun handler size w ops = some w' ∧ LInv handler size w' (fun d => sent d ++ sentOn d ops) := by
  induction ops generalizing w sent with
  | nil => exact ⟨w, rfl, by simpa [sentOn] using h⟩
  | cons o ops ih =>
    have hops' : ∀ o ∈ ops, GoodOp size o := fun o ho => hops o (by simp [ho])
    unfold lineRun
    cases o with
    | send d p =>
      obtain ⟨hd, hp⟩ := hops (.send d p) (by simp)
      obtain ⟨w1, h1, h2, -, -⟩ := send_inv h hd hp
      rw [h1, Option.bind_some]
      obtain ⟨w2, h3, h4⟩ := ih h2 hops'
      refine ⟨w2, h3, ?_⟩
      have : (fun i => (if d.toNat = i then sent i ++ [p] else sent i) ++ sentOn i ops) =
          fun i => sent i ++ sentOn i (.send d p :: ops) := by
        funext i
        simp only [sentOn]
        split <;> simp
      rwa [this] at h4
    | pull =>
      obtain ⟨w1, h1, h2⟩ := pull_inv hsz h
      rw [h1, Option.bind_some]
      exact ih h2 hops'

theorem start_inv (handler : Nat → Bool) (size : Nat) : LInv handler size Line.start (fun _ => []) :=
  ⟨⟨none, .idle rfl rfl, by simp, by simp [Line.start, receivedOn]⟩, by simp [Line.start], by simp [Line.start]⟩

/-- C22 (partial: DLCIs whose number needs no escaping): for any interleaving of
sending and transferring octets, what the handler of a DLCI got is a prefix of
what was sent on that DLCI: unchanged, in order, nothing lost, nothing on a
DLCI without handler. -/
theorem transport_partial (handler : Nat → Bool) (size : Nat) (hsz : 0 < size) (ops : List LOp)
    (hops : ∀ o ∈ ops, GoodOp size o) :
    ∃ w, lineRun handler size Line.start ops = some w ∧
      (∀ d, handler d = true → receivedOn d w <+: sentOn d ops) ∧
      (∀ d, handler d = false → receivedOn d w = []) := by
  obtain ⟨w, h1, ⟨fl, -, -, h2⟩, -, h3⟩ := run_inv hsz ops (start_inv handler size) hops
  refine ⟨w, h1, ?_, ?_⟩
  · intro d hd
    have := h2 d hd
    simp only [List.nil_append] at this
    rw [this, List.append_assoc]
    exact List.prefix_append _ _
  · intro d hd
    simp only [receivedOn, List.map_eq_nil_iff, List.filter_eq_nil_iff]
    intro e he
    have := (h3 e he).1
    simp only [decide_eq_true_eq]
    rintro rfl
    rw [hd] at this; cases this

/-- C22 (partial: as above): when the transmitter has nothing to send any more,
everything sent has been received. -/
theorem drained_partial (handler : Nat → Bool) (size : Nat) (hsz : 0 < size) (ops : List LOp)
    (hops : ∀ o ∈ ops, GoodOp size o) :
    ∃ w, lineRun handler size Line.start ops = some w ∧
      ((∃ tx, pull w.tx = some (tx, none)) → ∀ d, d < 129 → handler d = true → receivedOn d w = sentOn d ops) := by
  obtain ⟨w, h1, ⟨fl, hs, -, h2⟩, -, h3⟩ := run_inv hsz ops (start_inv handler size) hops
  refine ⟨w, h1, ?_⟩
  rintro ⟨tx, hp⟩ d hlt hd
  obtain ⟨⟨queues, cur, esc⟩, rx⟩ := w
  simp only at hs hp h2
  have h2d := h2 d hd
  simp only [List.nil_append] at h2d
  cases hs with
  | idle hs hm =>
    unfold pull at hp
    simp only at hp
    cases hq : firstQueue { queues := queues, cur := none, esc := false } with
    | none =>
      have := firstQueue_none hq d hlt
      simp only at this
      rw [this] at h2d
      rw [h2d]; simp [receivedOn]
    | some i =>
      rw [hq] at hp
      obtain ⟨-, hne, -⟩ := firstQueue_some hq
      simp only at hne hp
      cases hqi : queues i with
      | nil => exact absurd hqi hne
      | cons m ms => rw [hqi] at hp; simp at hp
  | addr => unfold pull at hp; simp at hp; split at hp <;> simp at hp
  | ctrl => unfold pull at hp; simp at hp; split at hp <;> simp at hp
  | @data _ d p q _ _ _ =>
    unfold pull at hp
    cases q with
    | nil => simp at hp
    | cons c q => simp at hp; split at hp <;> simp at hp
  | esc => unfold pull at hp; simp at hp

/-! ## The line gets drained -/

/-- octets still to be transferred at most -/
def frameCost (f : List Byte) : Nat := 2 * f.length + 2
def curCost (tx : Tx) : Nat :=
  match tx.cur with
  | none => 0
  | some r => 2 * r.length + 1 - (if tx.esc then 1 else 0)
def txCost (tx : Tx) : Nat :=
  curCost tx + ((List.range 129).map fun i => ((tx.queues i).map frameCost).sum).sum

theorem sum_update {f g : Nat → Nat} {n i k : Nat} (hi : i < n) (hg : ∀ j, j ≠ i → g j = f j) (hk : f i = g i + k) :
    ((List.range n).map f).sum = ((List.range n).map g).sum + k := by
  induction n with
  | zero => omega
  | succ n ih =>
    rw [List.range_succ]
    simp only [List.map_append, List.map_cons, List.map_nil, List.sum_append, List.sum_cons, List.sum_nil]
    by_cases hin : i = n
    · subst hin
      have : (List.range i).map f = (List.range i).map g := by
        apply List.map_congr_left
        intro j hj
        rw [hg j]; simp at hj; omega
      rw [this, hk]; omega
    · rw [ih (by omega), hg n (Ne.symm hin)]; omega

/-- C22: every octet pulled brings the transmitter closer to being idle, so it
gets drained after finitely many pulls. -/
theorem pull_progress {tx tx' : Tx} {c : Byte} (h : pull tx = some (tx', some c)) : txCost tx' < txCost tx := by
  obtain ⟨queues, cur, esc⟩ := tx
  unfold pull at h
  cases cur with
  | none =>
    simp only at h
    cases hq : firstQueue { queues := queues, cur := none, esc := esc } with
    | none => rw [hq] at h; simp at h
    | some i =>
      obtain ⟨hi, hne, -⟩ := firstQueue_some hq
      simp only at hne
      rw [hq] at h
      simp only at h
      cases hqi : queues i with
      | nil => exact absurd hqi hne
      | cons m ms =>
        rw [hqi] at h
        simp only [Option.some.injEq, Prod.mk.injEq] at h
        obtain ⟨rfl, -⟩ := h
        have := sum_update (f := fun j => ((queues j).map frameCost).sum)
          (g := fun j => (((fun j => if j = i then ms else queues j) j).map frameCost).sum) (k := frameCost m) hi
          (by intro j hj; simp [hj]) (by simp [hqi]; omega)
        simp only [txCost, curCost] at this ⊢
        rw [this]
        simp only [frameCost]
        split <;> omega
  | some rest =>
    simp only at h
    cases esc with
    | true =>
      cases rest with
      | nil => simp at h
      | cons a r =>
        simp only [if_true, Option.some.injEq, Prod.mk.injEq] at h
        obtain ⟨rfl, -⟩ := h
        simp [txCost, curCost]
        omega
    | false =>
      cases rest with
      | nil =>
        simp only [Bool.false_eq_true, if_false, Option.some.injEq, Prod.mk.injEq] at h
        obtain ⟨rfl, -⟩ := h
        simp [txCost, curCost]
      | cons a r =>
        simp only [Bool.false_eq_true, if_false] at h
        split at h
        · simp only [Option.some.injEq, Prod.mk.injEq] at h
          obtain ⟨rfl, -⟩ := h
          simp [txCost, curCost]
        · simp only [Option.some.injEq, Prod.mk.injEq] at h
          obtain ⟨rfl, -⟩ := h
          simp [txCost, curCost]

/-! ## Flags -/

/-- the transmitter is in the escape state only within a message, with the
changed octet next -/
def TxInv (tx : Tx) : Prop :=
  tx.esc = true → ∃ x r, special x = true ∧ tx.cur = some ((x ^^^ 0x20#8) :: r)

theorem sendmsg_txinv {tx tx' : Tx} {d : Byte} {p : List Byte} (h : TxInv tx) (hs : sendmsg tx d p = some tx') :
    TxInv tx' := by
  unfold sendmsg at hs
  split at hs
  · simp only [Option.some.injEq] at hs
    subst hs; exact h
  · cases hs

/-- C22: a flag octet on the line only begins or ends a message; zero octets
never appear (for any messages on any DLCI). -/
theorem flag_only_at_ends {tx tx' : Tx} {c : Byte} (h : pull tx = some (tx', some c))
    (hesc : TxInv tx) :
    (c = HDLC_FLAG → tx.cur = none ∨ (tx.cur = some [] ∧ tx'.cur = none)) ∧ c ≠ 0#8 ∧ TxInv tx' := by
  unfold TxInv at *
  obtain ⟨queues, cur, esc⟩ := tx
  unfold pull at h
  cases cur with
  | none =>
    simp only at h hesc
    split at h
    · simp at h
    · split at h
      · simp at h
      · simp only [Option.some.injEq, Prod.mk.injEq] at h
        obtain ⟨rfl, rfl⟩ := h
        refine ⟨fun _ => .inl rfl, by decide, ?_⟩
        intro he
        obtain ⟨x, r, -, hr⟩ := hesc he
        cases hr
  | some rest =>
    simp only at h hesc
    cases esc with
    | true =>
      obtain ⟨x, r, hx, hr⟩ := hesc rfl
      simp only [Option.some.injEq] at hr
      subst hr
      simp only [if_true, Option.some.injEq, Prod.mk.injEq] at h
      obtain ⟨rfl, rfl⟩ := h
      refine ⟨?_, ?_, by simp⟩
      · intro hc
        exfalso
        rcases special_cases hx with rfl | rfl | rfl <;> revert hc <;> decide
      · rcases special_cases hx with rfl | rfl | rfl <;> decide
    | false =>
      cases rest with
      | nil =>
        simp only [Bool.false_eq_true, if_false, Option.some.injEq, Prod.mk.injEq] at h
        obtain ⟨rfl, rfl⟩ := h
        exact ⟨fun _ => .inr ⟨rfl, rfl⟩, by decide, by simp⟩
      | cons a r =>
        simp only [Bool.false_eq_true, if_false] at h
        split at h
        · rename_i hs
          simp only [Option.some.injEq, Prod.mk.injEq] at h
          obtain ⟨rfl, rfl⟩ := h
          exact ⟨fun hc => absurd hc (by decide), by decide, fun _ => ⟨a, r, hs, rfl⟩⟩
        · rename_i hs
          simp only [Option.some.injEq, Prod.mk.injEq] at h
          obtain ⟨rfl, rfl⟩ := h
          obtain ⟨n1, n2, n3⟩ := not_special (by simpa using hs)
          exact ⟨fun hc => absurd hc n1, n3, by simp⟩

/-- C22: messages with lower DLCI go first -/
theorem priority {tx tx' : Tx} {c : Byte} (h0 : tx.cur = none) (h : pull tx = some (tx', some c)) :
    ∃ i m, tx'.cur = some m ∧ tx.queues i = m :: tx'.queues i ∧ (∀ j < i, tx.queues j = []) ∧
      ∀ j, j ≠ i → tx'.queues j = tx.queues j := by
  obtain ⟨queues, cur, esc⟩ := tx
  simp only at h0
  subst h0
  unfold pull at h
  simp only at h
  cases hq : firstQueue { queues := queues, cur := none, esc := esc } with
  | none => rw [hq] at h; simp at h
  | some i =>
    obtain ⟨hi, hne, hlow⟩ := firstQueue_some hq
    simp only at hne hlow
    rw [hq] at h
    simp only at h
    cases hqi : queues i with
    | nil => exact absurd hqi hne
    | cons m ms =>
      rw [hqi] at h
      simp only [Option.some.injEq, Prod.mk.injEq] at h
      obtain ⟨rfl, -⟩ := h
      exact ⟨i, m, rfl, by simp [hqi], hlow, fun j hj => by simp [hj]⟩

/-! ## Where the claim fails -/

/-- C22 fails on DLCI 0 (SC_DLCI_HIGHEST): its number is escaped on the line but
the receiver does not undo that; the message arrives, changed, at DLCI 125. -/
theorem dlci_zero_counterexample :
    (lineRun (fun _ => true) 256 Line.start (.send 0#8 [0x55#8] :: List.replicate 7 .pull)).map (fun w => w.rx.out) =
      some [(125, [0x03#8, 0x55#8])] := by decide

/-- C22: the bound on the length is sharp, a message exactly as long as the
receive buffer is dropped -/
theorem full_length_dropped :
    (lineRun (fun _ => true) 2 Line.start (.send 5#8 [1#8, 2#8] :: List.replicate 6 .pull)).map (fun w => w.rx.out) =
      some [] := by decide

example : (lineRun (fun _ => true) 256 Line.start
    (.send 5#8 [0x7E#8, 0x00#8] :: .pull :: .send 4#8 [] :: .send 5#8 [0x7D#8] :: List.replicate 20 .pull)).map
      (fun w => w.rx.out) = some [(5, [0x7E#8, 0x00#8]), (4, []), (5, [0x7D#8])] := by decide

end Verif.Sercomm
