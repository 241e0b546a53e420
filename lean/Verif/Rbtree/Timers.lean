import Verif.Rbtree.Props
import Verif.Timer.Props
/-!
The timer functions of src/core/timer.c on the tree in memory, and that they do
what the model with a list (Verif/Timer/Model.lean) does (C101).
-/
namespace Verif.Rbtree.Timers
open Verif.Timer

/-- as `Verif.Timer.TS`, with the tree in memory -/
structure HS where
  mem : Mem
  timeout : Nat → TV
  active : Nat → Bool
  evict : List Nat
  log : List Ev

/-- src/core/timer.c:116-125 `osmo_timer_del`; `f` bounds the rounds of each loop in the tree -/
def hDel (f : Nat) (s : HS) (t : Nat) : Option HS :=
  if s.active t then
    (erase f s.mem t).map fun m => { s with active := upd s.active t false, mem := m, evict := s.evict.erase t }
  else some s

/-- src/core/timer.c:80-86 `osmo_timer_add`, 44-63 `__add_timer` -/
def hAdd (f : Nat) (s : HS) (t : Nat) : Option HS :=
  (hDel f s t).bind fun s =>
    (insert (fun a b => (s.timeout a).lt (s.timeout b)) f s.mem t).map fun m =>
      { s with active := upd s.active t true, mem := m }

/-- one operation of the application, recorded in the history -/
def hRunOp (f : Nat) (s : HS) : TOp → Option HS
  | .add t tv => (hAdd f { s with timeout := upd s.timeout t tv } t).map fun s => { s with log := s.log ++ [.add t tv] }
  | .del t => (hDel f s t).map fun s => { s with log := s.log ++ [.del t] }

def hRunOps (f : Nat) : List TOp → HS → Option HS
  | [], s => some s
  | o :: os, s => (hRunOp f s o).bind (hRunOps f os)

/-- src/core/timer.c:253-260: `acc` is the eviction list so far, `g` bounds the number of timers -/
def hCollect (f : Nat) (m : Mem) (timeout : Nat → TV) (now : TV) : Nat → Nat → List Nat → Option (List Nat)
  | 0, _, _ => none
  | g + 1, node, acc =>
    if node = 0 then some acc
    else if now.lt (timeout node) then some acc
    else (next f m node).bind fun n => hCollect f m timeout now g n (node :: acc)

/-- src/core/timer.c:274-281 -/
def hFireLoop (cb : Nat → List Ev → List TOp) (f : Nat) : Nat → HS → Option HS
  | fuel, s =>
    match s.evict with
    | [] => some s
    | t :: _ =>
      match fuel with
      | 0 => none
      | fuel + 1 =>
        (hDel f s t).bind fun s =>
          let s := { s with log := s.log ++ [.fire t] }
          (hRunOps f (cb t s.log) s).bind (hFireLoop cb f fuel)

/-- src/core/timer.c:242-284 `osmo_timers_update` -/
def hUpdate (cb : Nat → List Ev → List TOp) (f g fuel : Nat) (s : HS) (now : TV) : Option (HS × Nat) := do
  let s := { s with log := [] }
  let n ← first f s.mem
  let ev ← hCollect f s.mem s.timeout now g n []
  let r ← hFireLoop cb f fuel { s with evict := ev }
  some (r, if ev = [] then 0 else 1)

/-- src/core/timer.c:224-239 `osmo_timers_prepare` -/
def hPrepare (f : Nat) (s : HS) (now : TV) : Option (Option TV) :=
  (first f s.mem).map fun n => if n = 0 then none else updateNearest (s.timeout n) now

/-- src/core/timer.c:288-297 `osmo_timers_check`: the loop -/
def hCount (f : Nat) (m : Mem) : Nat → Nat → Nat → Option Nat
  | 0, _, _ => none
  | g + 1, node, i => if node = 0 then some i else (next f m node).bind fun n => hCount f m g n (i + 1)

def hCheck (f g : Nat) (s : HS) : Option Nat := (first f s.mem).bind fun n => hCount f s.mem g n 0

/-! ### The same as with the list -/

/-- memory and list agree -/
structure Sim (h : HS) (s : TS) : Prop where
  tree : Tree h.mem s.tree
  timeout : h.timeout = s.timeout
  active : h.active = s.active
  evict : h.evict = s.evict
  log : h.log = s.log

/-- the operation concerns a timer, not NULL -/
def TOp.real : TOp → Prop
  | .add t _ => t ≠ 0
  | .del _ => True

theorem erase_filter {L : List Nat} (h : L.Nodup) (x : Nat) : L.filter (· ≠ x) = L.erase x := by
  rw [List.Nodup.erase_eq_filter h]
  apply List.filter_congr
  intro a _
  rw [bne, decide_not, beq_eq_decide]

theorem hDel_sim {h : HS} {s : TS} (hs : Sim h s) (hi : Inv s) (t : Nat) {f : Nat} (hf : rounds s.tree.length ≤ f) :
    ∃ h', hDel f h t = some h' ∧ Sim h' (timerDel s t) := by
  obtain ⟨a, b, c, d, e⟩ := hs
  unfold hDel timerDel
  rw [c]
  by_cases ha : s.active t = true
  · obtain ⟨m', e1, t1⟩ := tree_erase a ((hi.act t).1 ha) hf
    rw [if_pos ha, if_pos ha, e1]
    refine ⟨_, rfl, ?_, b, rfl, by simp [d], e⟩
    show Tree m' (s.tree.erase t)
    rw [← erase_filter hi.nodup]; exact t1
  · rw [if_neg ha, if_neg ha]
    exact ⟨h, rfl, a, b, c, d, e⟩

theorem lt_mono {timeout : Nat → TV} {L : List Nat} (h : L.Pairwise fun a b => (timeout a).le (timeout b)) (x : Nat) :
    L.Pairwise fun a b => (timeout x).lt (timeout a) = true → (timeout x).lt (timeout b) = true := by
  refine h.imp ?_
  intro a b hab hxa
  unfold TV.le TV.lt at *
  split at hab <;> split at hxa <;> split <;> simp at * <;> omega

theorem hRunOp_sim {h : HS} {s : TS} (hs : Sim h s) (hi : Inv s) (o : TOp) (ho : TOp.real o) {f : Nat}
    (hf : rounds s.tree.length ≤ f) : ∃ h', hRunOp f h o = some h' ∧ Sim h' (runOp s o) := by
  cases o with
  | del t =>
    obtain ⟨h', e1, s1⟩ := hDel_sim hs hi t hf
    refine ⟨{ h' with log := h'.log ++ [.del t] }, by simp [hRunOp, e1], s1.tree, s1.timeout, s1.active, s1.evict, ?_⟩
    show h'.log ++ _ = (timerDel s t).log ++ _
    rw [s1.log]
  | add t tv =>
    -- the timeout is written while the timer may still be in the tree
    have hadd := addAt_eq hi t tv
    unfold addAt at hadd
    obtain ⟨a, b, c, d, e⟩ := hs
    have hnd := hi.nodup
    have hdel : ∃ h1, hDel f { h with timeout := upd h.timeout t tv } t = some h1 ∧
        Sim h1 { timerDel s t with timeout := upd s.timeout t tv } := by
      unfold hDel timerDel
      simp only [c]
      by_cases ha : s.active t = true
      · obtain ⟨m', e1, t1⟩ := tree_erase a ((hi.act t).1 ha) hf
        rw [if_pos ha, if_pos ha, e1]
        refine ⟨_, rfl, ?_, by simp [b], rfl, by simp [d], e⟩
        show Tree m' (s.tree.erase t)
        rw [← erase_filter hi.nodup]; exact t1
      · rw [if_neg ha, if_neg ha]
        exact ⟨_, rfl, a, by simp [b], rfl, d, e⟩
    obtain ⟨h1, e1, s1⟩ := hdel
    have hi1 := timerDel_inv hi t
    have htree := (timerDel_eq hi t).1
    have hlen : (timerDel s t).tree.length ≤ s.tree.length := by rw [htree]; exact List.length_erase_le
    have hnt : t ∉ (timerDel s t).tree := by rw [htree]; exact fun hm => (hnd.mem_erase_iff.1 hm).1 rfl
    have hsort : (timerDel s t).tree.Pairwise fun a b => (upd s.timeout t tv a).le (upd s.timeout t tv b) := by
      refine hi1.sorted.imp_of_mem ?_
      intro x y hx hy hxy
      have h1 : x ≠ t := fun e => hnt (e ▸ hx)
      have h2 : y ≠ t := fun e => hnt (e ▸ hy)
      rw [(timerDel_eq hi t).2.2.2.1] at hxy
      simpa [upd, h1, h2] using hxy
    have ht0 : t ≠ 0 := ho
    have hto : h1.timeout = upd s.timeout t tv := s1.timeout
    obtain ⟨m', e2, t2⟩ := tree_insert (lt := fun a b => (h1.timeout a).lt (h1.timeout b)) (f := f) s1.tree ht0 hnt
      (Nat.le_trans (rounds_mono hlen) hf) (by rw [hto]; exact lt_mono hsort t)
    refine ⟨{ h1 with active := upd h1.active t true, mem := m', log := h1.log ++ [.add t tv] },
      by simp [hRunOp, hAdd, e1, e2], ?_, hto.trans hadd.2.2.2.1.symm, ?_, ?_, ?_⟩
    · have : (runOp s (.add t tv)).tree = insertT (upd s.timeout t tv) t (s.tree.erase t) := hadd.1
      rw [this, ← htree]
      have : spec (fun a b => (h1.timeout a).lt (h1.timeout b)) (timerDel s t).tree (.ins t)
          = insertT (upd s.timeout t tv) t (timerDel s t).tree := by rw [hto]; rfl
      rw [← this]; exact t2
    · have k := s1.active
      funext x
      have hx : (runOp s (.add t tv)).active x = (decide (x = t) || s.active x) := hadd.2.2.1 x
      rw [hx]
      show upd h1.active t true x = _
      rw [k]
      have := (timerDel_eq hi t).2.2.1 x
      by_cases hxt : x = t
      · simp [upd, hxt]
      · simp only [upd, hxt, if_false, decide_false, Bool.false_or]
        rw [this]; simp [hxt]
    · have : (runOp s (.add t tv)).evict = s.evict.erase t := hadd.2.1
      rw [this, ← (timerDel_eq hi t).2.1]; exact s1.evict
    · have k1 : (runOp s (.add t tv)).log = s.log ++ [.add t tv] := by
        show (timerAdd { s with timeout := upd s.timeout t tv } t).log ++ _ = _
        rw [hadd.2.2.2.2]
      rw [k1, ← (timerDel_eq hi t).2.2.2.2]
      show h1.log ++ _ = _
      rw [s1.log]

theorem runOp_len {s : TS} (hi : Inv s) (o : TOp) : (runOp s o).tree.length ≤ s.tree.length + 1 := by
  cases o with
  | del t =>
    show (timerDel s t).tree.length ≤ _
    rw [(timerDel_eq hi t).1]
    have : (s.tree.erase t).length ≤ s.tree.length := List.length_erase_le
    omega
  | add t tv =>
    have : (runOp s (.add t tv)).tree = insertT (upd s.timeout t tv) t (s.tree.erase t) := (addAt_eq hi t tv).1
    rw [this]
    have h2 : (s.tree.erase t).length ≤ s.tree.length := List.length_erase_le
    unfold insertT
    have h3 := congrArg List.length (List.takeWhile_append_dropWhile
      (p := fun x => !(upd s.timeout t tv t).lt (upd s.timeout t tv x)) (l := s.tree.erase t))
    simp only [List.length_append] at h3
    simp only [List.length_append, List.length_cons]
    omega

theorem hRunOps_sim (ops : List TOp) : ∀ {h : HS} {s : TS}, Sim h s → Inv s → (∀ o ∈ ops, TOp.real o) → ∀ {f : Nat},
    rounds (s.tree.length + ops.length) ≤ f → ∃ h', hRunOps f ops h = some h' ∧ Sim h' (runOps s ops) := by
  induction ops with
  | nil => intro h s hs _ _ f _; exact ⟨h, rfl, hs⟩
  | cons o ops ih =>
    intro h s hs hi hr f hf
    obtain ⟨h1, e1, s1⟩ := hRunOp_sim hs hi o (hr o (by simp)) (Nat.le_trans (rounds_mono (by omega)) hf)
    have hl := runOp_len hi o
    obtain ⟨h', e2, s2⟩ := ih s1 (runOp_inv hi o) (fun o ho => hr o (by simp [ho]))
      (Nat.le_trans (rounds_mono (by simp only [List.length_cons]; omega)) hf)
    exact ⟨h', by simp [hRunOps, e1, e2], s2⟩

/-- nothing scheduled; the memory may contain anything -/
def hStart (nd : Nat → Node) : HS :=
  { mem := ⟨0, nd⟩, timeout := fun _ => ⟨0, 0⟩, active := fun _ => false, evict := [], log := [] }

/-- **The functions on the tree do what the model with the list does**, for any
sequence of operations on any timers; each loop in the tree ends within
`2 log2 (number of operations + 1) + 1` rounds. -/
theorem timers_heap (nd : Nat → Node) (ops : List TOp) (hr : ∀ o ∈ ops, TOp.real o) (f : Nat)
    (hf : rounds ops.length ≤ f) : ∃ h, hRunOps f ops (hStart nd) = some h ∧ Sim h (runOps start ops) := by
  refine hRunOps_sim ops (s := start) ⟨tree_empty nd, rfl, rfl, rfl, rfl⟩ (timers_consistent []) hr ?_
  simpa [start] using hf

theorem hCollect_spec {m : Mem} {L : List Nat} (h : Tree m L) (timeout : Nat → TV) (now : TV) {f : Nat}
    (hf : rounds L.length ≤ f) (g : Nat) : ∀ (i : Nat) (acc : List Nat), i ≤ L.length → L.length < i + g →
    hCollect f m timeout now g (L[i]?.getD 0) acc =
      some (((L.drop i).takeWhile fun x => !now.lt (timeout x)).reverse ++ acc) := by
  have h0 : 0 ∉ L := by
    obtain ⟨t, h1, h2, rfl⟩ := h
    exact rep_ne_zero h1.rep
  induction g with
  | zero => intro i acc hi hg; omega
  | succ g ih =>
    intro i acc hi hg
    cases hx : L[i]? with
    | none =>
      have : L.drop i = [] := List.drop_eq_nil_of_le (List.getElem?_eq_none_iff.1 hx)
      simp [hCollect, this]
    | some x =>
      have hm := List.mem_of_getElem? hx
      have x0 : x ≠ 0 := fun e => h0 (e ▸ hm)
      have hn := (((tree_walk h f hf).2.2) i x hx).1
      have hd : L.drop i = x :: L.drop (i + 1) := by
        obtain ⟨hlt, he⟩ := List.getElem?_eq_some_iff.1 hx
        rw [List.drop_eq_getElem_cons hlt, he]
      rw [hd]
      simp only [hCollect, Option.getD_some, x0, if_false]
      cases hc : now.lt (timeout x) with
      | true => simp [hc]
      | false =>
        have hlt := (List.getElem?_eq_some_iff.1 hx).1
        simp only [Bool.false_eq_true, if_false, hn, Option.bind_some]
        rw [ih (i + 1) (x :: acc) (by omega) (by omega)]
        simp [hc]

theorem hCount_spec {m : Mem} {L : List Nat} (h : Tree m L) {f : Nat} (hf : rounds L.length ≤ f) (g : Nat) :
    ∀ (i k : Nat), i ≤ L.length → L.length < i + g → hCount f m g (L[i]?.getD 0) k = some (k + (L.length - i)) := by
  have h0 : 0 ∉ L := by
    obtain ⟨t, h1, h2, rfl⟩ := h
    exact rep_ne_zero h1.rep
  induction g with
  | zero => intro i k hi hg; omega
  | succ g ih =>
    intro i k hi hg
    cases hx : L[i]? with
    | none =>
      have := List.getElem?_eq_none_iff.1 hx
      simp [hCount]; omega
    | some x =>
      have x0 : x ≠ 0 := fun e => h0 (e ▸ List.mem_of_getElem? hx)
      have hn := (((tree_walk h f hf).2.2) i x hx).1
      obtain ⟨hlt, -⟩ := List.getElem?_eq_some_iff.1 hx
      simp only [hCount, Option.getD_some, x0, if_false, hn, Option.bind_some]
      rw [ih (i + 1) (k + 1) (by omega) (by omega)]
      congr 1; omega

theorem runOps_inv (ops : List TOp) : ∀ {s : TS}, Inv s → Inv (runOps s ops) := by
  induction ops with
  | nil => intro s h; exact h
  | cons o ops ih => intro s h; exact ih (runOp_inv h o)

theorem hFireLoop_sim (cb : Nat → List Ev → List TOp) (hcb : ∀ t l, ∀ o ∈ cb t l, TOp.real o) (fuel : Nat) :
    ∀ {s s' : TS}, Inv s → fireLoop (fun t s => cb t s.log) fuel s = some s' →
    ∃ f0, ∀ f, f0 ≤ f → ∀ h, Sim h s → ∃ h', hFireLoop cb f fuel h = some h' ∧ Sim h' s' := by
  induction fuel with
  | zero =>
    intro s s' hi hl
    unfold fireLoop at hl
    cases he : s.evict with
    | nil =>
      rw [he] at hl
      cases hl
      refine ⟨0, fun f _ h hs => ⟨h, ?_, hs⟩⟩
      unfold hFireLoop; rw [hs.evict, he]
    | cons t ts => rw [he] at hl; cases hl
  | succ fuel ih =>
    intro s s' hi hl
    unfold fireLoop at hl
    cases he : s.evict with
    | nil =>
      rw [he] at hl
      cases hl
      refine ⟨0, fun f _ h hs => ⟨h, ?_, hs⟩⟩
      unfold hFireLoop; rw [hs.evict, he]
    | cons t ts =>
      rw [he] at hl
      simp only at hl
      obtain ⟨s1, hs1⟩ : ∃ s1, s1 = { timerDel s t with log := (timerDel s t).log ++ [Ev.fire t] } := ⟨_, rfl⟩
      have hlg : (timerDel s t).log ++ [Ev.fire t] = s1.log := by rw [hs1]
      rw [← hs1, hlg] at hl
      have hi1 : Inv s1 := by rw [hs1]; exact (timerDel_inv hi t).log _
      obtain ⟨f0, hf0⟩ := ih (runOps_inv (cb t s1.log) hi1) hl
      refine ⟨f0 + rounds s.tree.length + rounds (s1.tree.length + (cb t s1.log).length), ?_⟩
      intro f hf h hs
      obtain ⟨h1, e1, k1⟩ := hDel_sim hs hi t (f := f) (by omega)
      have k1' : Sim { h1 with log := h1.log ++ [.fire t] } s1 := by
        rw [hs1]; exact ⟨k1.tree, k1.timeout, k1.active, k1.evict, by simp [k1.log]⟩
      have hlog : h1.log ++ [.fire t] = s1.log := k1'.log
      obtain ⟨h2, e2, k2⟩ := hRunOps_sim (cb t s1.log) k1' hi1 (hcb t s1.log) (f := f) (by omega)
      obtain ⟨h', e3, k3⟩ := hf0 f (by omega) h2 k2
      refine ⟨h', ?_, k3⟩
      unfold hFireLoop
      rw [hs.evict, he]
      simp only [e1, Option.bind_some]
      rw [← hlog] at e2
      rw [e2]
      exact e3

/-- **A pass over the timers** in memory is the pass of the model with the list, with
whatever callbacks (which may add and delete timers, depending on all that has
happened in the pass): same timers fired in the same order, same return value,
and the tree in memory agrees with the list again. -/
theorem update_heap (cb : Nat → List Ev → List TOp) (hcb : ∀ t l, ∀ o ∈ cb t l, TOp.real o) (fuel : Nat) (h : HS) (s : TS)
    (hs : Sim h s) (hi : Inv s) (now : TV) (s' : TS) (r : Nat)
    (hu : timersUpdate (fun t s => cb t s.log) fuel s now = some (s', r)) :
    ∃ f0, ∀ f, f0 ≤ f → ∀ g, s.tree.length < g →
      ∃ h', hUpdate cb f g fuel h now = some (h', r) ∧ Sim h' s' ∧ h'.log = s'.log := by
  unfold timersUpdate at hu
  simp only [Option.map_eq_some_iff] at hu
  obtain ⟨s1, hl, hs1⟩ := hu
  simp only [Prod.mk.injEq] at hs1
  obtain ⟨rfl, hr⟩ := hs1
  have hi0 : Inv (collect { s with log := [] } now) := by
    have := (collect_pass hi now)
    exact this.inv
  obtain ⟨f0, hf0⟩ := hFireLoop_sim cb hcb fuel hi0 hl
  refine ⟨f0 + rounds s.tree.length, ?_⟩
  intro f hf g hg
  have hR : rounds s.tree.length ≤ f := by omega
  have e1 := (tree_walk hs.tree f hR).1
  have e2 := hCollect_spec hs.tree h.timeout now hR g 0 [] (by omega) (by omega)
  rw [List.head?_eq_getElem?] at e1
  rw [hs.timeout] at e2
  obtain ⟨h', e3, k3⟩ := hf0 f (by omega)
    { h with log := [], evict := (s.tree.takeWhile fun x => !now.lt (s.timeout x)).reverse }
    ⟨hs.tree, hs.timeout, hs.active, rfl, rfl⟩
  refine ⟨h', ?_, k3, k3.log⟩
  unfold hUpdate
  simp only [Option.bind_eq_bind, e1, Option.bind_some, hs.timeout, e2, List.drop_zero, List.append_nil]
  rw [hs.timeout] at e3
  rw [e3]
  simp only [Option.bind_some, ← hr]
  rfl

/-- **`osmo_timers_prepare`** and **`osmo_timers_check`** on the tree in memory -/
theorem prepare_heap (h : HS) (s : TS) (hs : Sim h s) (now : TV) (f g : Nat) (hf : rounds s.tree.length ≤ f)
    (hg : s.tree.length < g) :
    hPrepare f h now = some (timersPrepare s now) ∧ hCheck f g h = some (timersCheck s) := by
  have e1 := (tree_walk hs.tree f hf).1
  have h0 : 0 ∉ s.tree := by
    obtain ⟨t, h1, h2, h3⟩ := hs.tree
    rw [← h3]
    exact rep_ne_zero h1.rep
  constructor
  · unfold hPrepare timersPrepare
    rw [e1]
    cases ht : s.tree with
    | nil => simp
    | cons t ts =>
      have : t ≠ 0 := by rintro rfl; exact h0 (by simp [ht])
      simp [this, hs.timeout]
  · unfold hCheck timersCheck
    rw [e1, List.head?_eq_getElem?]
    simp only [Option.bind_some]
    rw [hCount_spec hs.tree hf g 0 0 (by omega) (by omega)]
    simp

/-! ### Example -/

example : (hRunOps 10 [.add 5 ⟨3, 0⟩, .add 6 ⟨1, 0⟩, .add 7 ⟨2, 0⟩, .add 5 ⟨1, 0⟩, .del 7, .add 8 ⟨0, 9⟩]
    (hStart fun _ => ⟨0, false, 0, 0⟩)).bind (fun h => (hCollect 10 h.mem h.timeout ⟨1, 5⟩ 10 8 []).map fun l => (l, h.mem.root))
    = some ([5, 6, 8], 6) := by decide +kernel

end Verif.Rbtree.Timers
