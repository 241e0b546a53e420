import Verif.Logging.Model
/-!
The cache of log levels never hides a message (C149), and the mask of categories (C150).
-/
namespace Verif.Logging

/-! ### Categories -/

/-- C149: an application's category is its own index, the library's categories follow, and
everything else is logged as DLGLOBAL, the first of these. -/
theorem mapSubsys_spec (I : Info) (s : Int) :
    mapSubsys I s = some (if 0 ≤ s ∧ s < I.user then s.toNat
      else if -(numLib : Int) ≤ s ∧ s < 0 then I.user + (-s - 1).toNat else I.user) := by
  unfold mapSubsys libIndex Info.num numLib
  simp only
  generalize I.user = u
  by_cases h1 : s > 0 ∧ s ≥ u
  · simp only [if_pos h1]
    rw [if_neg (c := 0 ≤ s ∧ s < (u : Int)) (by omega), if_neg (c := -((29 : Nat) : Int) ≤ s ∧ s < 0) (by omega)]
    have e : (if (-1 : Int) < 0 then -1 * -1 + ((u : Int) - 1) else -1) = u := by rw [if_pos (by decide)]; omega
    simp only [e]
    have e2 : (if (u : Int) < 0 ∨ (u : Int) ≥ ((u + 29 : Nat) : Int) then -1 * -1 + ((u : Int) - 1) else u) = u := by
      rw [if_neg (by omega)]
    simp only [e2]
    rw [if_neg (by omega)]
    congr 1
  · simp only [if_neg h1]
    by_cases h2 : s < 0
    · simp only [if_pos h2]
      rw [if_neg (c := 0 ≤ s ∧ s < (u : Int)) (by omega)]
      by_cases h3 : -29 ≤ s
      · rw [if_pos (c := -((29 : Nat) : Int) ≤ s ∧ s < 0) (by omega)]
        have e2 : (if s * -1 + ((u : Int) - 1) < 0 ∨ s * -1 + ((u : Int) - 1) ≥ ((u + 29 : Nat) : Int)
            then -1 * -1 + ((u : Int) - 1) else s * -1 + ((u : Int) - 1)) = s * -1 + ((u : Int) - 1) := by
          rw [if_neg (by omega)]
        simp only [e2]
        rw [if_neg (by omega)]
        congr 1; omega
      · rw [if_neg (c := -((29 : Nat) : Int) ≤ s ∧ s < 0) (by omega)]
        have e2 : (if s * -1 + ((u : Int) - 1) < 0 ∨ s * -1 + ((u : Int) - 1) ≥ ((u + 29 : Nat) : Int)
            then -1 * -1 + ((u : Int) - 1) else s * -1 + ((u : Int) - 1)) = u := by
          rw [if_pos (by omega)]; omega
        simp only [e2]
        rw [if_neg (by omega)]
        congr 1
    · simp only [if_neg h2]
      have e2 : (if s < 0 ∨ s ≥ ((u + 29 : Nat) : Int) then -1 * -1 + ((u : Int) - 1) else s) = s := by
        rw [if_neg (by omega)]
      simp only [e2]
      rw [if_neg (by omega)]
      congr 1
      by_cases h3 : s < u
      · rw [if_pos (by omega)]
      · rw [if_neg (by omega), if_neg (by omega)]; omega

theorem mapSubsys_lt {I : Info} {s : Int} {i : Nat} (h : mapSubsys I s = some i) : i < I.num := by
  rw [mapSubsys_spec] at h
  injection h with h
  unfold Info.num
  unfold numLib at h ⊢
  split at h
  · omega
  · split at h <;> omega

/-! ### What a target wants -/

/-- The lowest level a target lets through for a category: the level of the target if it has one. -/
def threshold (t : Target) (i : Nat) : Nat := if t.level ≠ 0 then t.level else (t.cat i).level

/-- The target is to log a message of that category and level. -/
def Wants (I : Info) (t : Target) (i : Nat) (level : Int) : Prop :=
  (t.cat i).enabled ≠ 0 ∧ (threshold t i : Int) ≤ level ∧ (t.all = true ∨ ∀ f, I.filter = some f → f t = true)

theorem shouldLog_iff (I : Info) (t : Target) (i : Nat) {level : Int} (hl : 0 ≤ level) :
    shouldLog I t i level = true ↔ Wants I t i level := by
  unfold shouldLog Wants threshold
  by_cases h1 : (t.cat i).enabled = 0
  · simp [h1]
  · rw [if_neg h1]
    by_cases h2 : t.level ≠ 0
    · rw [if_pos h2]
      by_cases h3 : level < t.level
      · rw [if_pos ⟨h2, h3⟩]; simp; intro _ h; omega
      · rw [if_neg (fun h => h3 h.2), if_neg (fun h => h2 h.1)]
        have h4 : (t.level : Int) ≤ level := by omega
        cases ha : t.all <;> cases hf : I.filter <;> simp [h1, h4]
    · rw [if_neg h2, if_neg (fun h => h2 h.1)]
      have h2' : t.level = 0 := Decidable.byContradiction h2
      by_cases h3 : level < (t.cat i).level
      · rw [if_pos ⟨h2', by omega, h3⟩]; simp; intro _ h; omega
      · rw [if_neg (fun h => h3 h.2.2)]
        have h4 : ((t.cat i).level : Int) ≤ level := by omega
        cases ha : t.all <;> cases hf : I.filter <;> simp [h1, h4]

/-! ### The cache -/

theorem acc_fold (i : Nat) : ∀ (ts : List Target) (p : Nat × Nat),
    (ts.foldl (acc i) p).2 ≤ p.2 ∧ p.1 ≤ (ts.foldl (acc i) p).1 ∧
    ∀ t ∈ ts, (ts.foldl (acc i) p).2 ≤ threshold t i ∧ (t.cat i).enabled ≤ (ts.foldl (acc i) p).1 := by
  intro ts
  induction ts with
  | nil => intro p; exact ⟨Nat.le_refl _, Nat.le_refl _, fun t ht => absurd ht (by simp)⟩
  | cons t ts ih =>
    intro p
    obtain ⟨h1, h2, h3⟩ := ih (acc i p t)
    rw [List.foldl_cons]
    have ha : (acc i p t).2 ≤ p.2 ∧ p.1 ≤ (acc i p t).1 ∧ (acc i p t).2 ≤ threshold t i ∧
        (t.cat i).enabled ≤ (acc i p t).1 := by
      unfold acc threshold
      by_cases hl : t.level ≠ 0
      · simp only [if_pos hl]; omega
      · simp only [if_neg hl]; omega
    refine ⟨by omega, by omega, fun u hu => ?_⟩
    rcases List.mem_cons.mp hu with rfl | hu
    · exact ⟨by omega, by omega⟩
    · exact h3 u hu

/-- What is cached for a category is not above what any target in the list wants of it. -/
def Good (c : List Nat) (ts : List Target) (i : Nat) : Prop :=
  ∀ t ∈ ts, (t.cat i).enabled ≠ 0 → c.getD i 0 ≤ threshold t i

theorem getD_set (c : List Nat) (i j v : Nat) : (c.set i v).getD j 0 = if i = j ∧ j < c.length then v else c.getD j 0 := by
  rw [List.getD_eq_getElem?_getD, List.getD_eq_getElem?_getD, List.getElem?_set]
  by_cases h : i = j
  · subst h
    by_cases h2 : i < c.length
    · simp [h2]
    · simp [h2]
  · simp [h]

theorem entry_le {i : Nat} {ts : List Target} {p : Nat × Nat} {t : Target} (ht : t ∈ ts) (he : (t.cat i).enabled ≠ 0)
    (h1 : (ts.foldl (acc i) (0, 255)).1 ≤ p.1) (h2 : p.2 ≤ (ts.foldl (acc i) (0, 255)).2) : entry p ≤ threshold t i := by
  obtain ⟨a, b⟩ := (acc_fold i ts (0, 255)).2.2 t ht
  unfold entry
  rw [if_pos (by omega)]
  omega

/-- Holds of every state reached. -/
def Inv (I : Info) (s : St) : Prop :=
  ∀ c, s.cache = some c → c.freed = false ∧ ∀ i < I.num, Good c.mem s.reg i

theorem updateAll_inv {I : Info} {s s' : St} (h : updateAll I s = some s') : Inv I s' ∧ s'.reg = s.reg := by
  unfold updateAll at h
  cases hc : s.cache with
  | none =>
    rw [hc] at h
    injection h with h
    subst h
    exact ⟨fun c h => by rw [hc] at h; exact absurd h (by simp), rfl⟩
  | some c =>
    rw [hc] at h
    simp only at h
    cases hf : c.freed with
    | true => rw [hf] at h; exact absurd h (by simp)
    | false =>
      rw [hf] at h
      injection h with h
      subst h
      refine ⟨fun c' hc' => ?_, rfl⟩
      injection hc' with hc'
      subst hc'
      refine ⟨rfl, fun i hi t ht he => ?_⟩
      have : ((List.range I.num).map fun i => entry (s.reg.foldl (acc i) (0, 255))).getD i 0 =
          entry (s.reg.foldl (acc i) (0, 255)) := by
        rw [List.getD_eq_getElem?_getD, List.getElem?_map, List.getElem?_range hi]; rfl
      show ((List.range I.num).map fun i => entry (s.reg.foldl (acc i) (0, 255))).getD i 0 ≤ _
      rw [this]
      exact entry_le ht he (Nat.le_refl _) (Nat.le_refl _)

/-- An update of one entry, when the others are good. -/
theorem update_inv {I : Info} {s s' : St} {i en lv : Nat} (h : update i en lv s = some s')
    (hj : ∀ c, s.cache = some c → ∀ j < I.num, j ≠ i ∨ c.mem.length ≤ i → Good c.mem s.reg j) :
    Inv I s' ∧ s'.reg = s.reg := by
  unfold update at h
  cases hc : s.cache with
  | none =>
    rw [hc] at h
    injection h with h
    subst h
    exact ⟨fun c h => by rw [hc] at h; exact absurd h (by simp), rfl⟩
  | some c =>
    rw [hc] at h
    simp only at h
    cases hf : c.freed with
    | true => rw [hf] at h; exact absurd h (by simp)
    | false =>
      rw [hf] at h
      injection h with h
      subst h
      refine ⟨fun c' hc' => ?_, rfl⟩
      injection hc' with hc'
      subst hc'
      refine ⟨rfl, fun j hjn t ht he => ?_⟩
      show (c.mem.set i _).getD j 0 ≤ _
      rw [getD_set]
      by_cases hij : i = j ∧ j < c.mem.length
      · rw [if_pos hij]
        obtain ⟨rfl, _⟩ := hij
        exact entry_le ht he (Nat.le_max_left _ _) (Nat.min_le_left _ _)
      · rw [if_neg hij]
        exact hj c hc j hjn (by omega) t ht he

theorem update_reg {s s' : St} {i en lv : Nat} (h : update i en lv s = some s') : s'.reg = s.reg := by
  unfold update at h
  cases hc : s.cache with
  | none => rw [hc] at h; injection h with h; rw [← h]
  | some c =>
    rw [hc] at h
    simp only at h
    split at h
    · exact absurd h (by simp)
    · injection h with h; rw [← h]

/-! ### Operations -/

/-- What a program does with the logging core. -/
inductive Op where
  | create (id : Nat)
  | add (id : Nat)
  | del (id : Nat)
  | setLevel (id : Nat) (level : Int)
  | setCategory (id : Nat) (category : Int) (enable : Bool) (level : Int)
  | vtyLevel (id i : Nat) (level : Int)
  | vtySetAll (id : Nat) (level : Int)
  | allFilter (id : Nat) (all : Bool)
  | mask (id : Nat) (m : List Byte)
  | cacheEnable

def step (I : Info) (atoi : List Byte → Int) (s : St) : Op → Option St
  | .create id => create I id s
  | .add id => add I id s
  | .del id => del I id s
  | .setLevel id l => setLevel I id l s
  | .setCategory id c e l => setCategory I id c e l s
  | .vtyLevel id i l => putCat id i 1 l s
  | .vtySetAll id l => setAll I id l s
  | .allFilter id a => some (setAllFilter id a s)
  | .mask id m => parseMask I atoi id m s
  | .cacheEnable => cacheEnable I s

def start : St := ⟨[], [], none⟩

def run (I : Info) (atoi : List Byte → Int) (ops : List Op) : Option St := ops.foldlM (step I atoi) start

theorem foldlM_inv {α : Type} {P : St → Prop} {f : St → α → Option St} (hstep : ∀ s a s', P s → f s a = some s' → P s') :
    ∀ (l : List α) (s s' : St), P s → l.foldlM f s = some s' → P s' := by
  intro l
  induction l with
  | nil => intro s s' h e; injection e with e; exact e ▸ h
  | cons a l ih =>
    intro s s' h e
    rw [List.foldlM_cons] at e
    cases hf : f s a with
    | none => rw [hf] at e; exact absurd e (by simp)
    | some s1 =>
      rw [hf] at e
      exact ih s1 s' (hstep s a s1 h hf) e

theorem cat_put (t : Target) (i : Nat) (c : Cat) (j : Nat) (h : j ≠ i) : (t.put i c).cat j = t.cat j := by
  unfold Target.put Target.cat
  simp only [List.getD_eq_getElem?_getD]
  rw [List.getElem?_set_ne (fun h' => h h'.symm)]

theorem putCat_inv {I : Info} {s s' : St} {id i en : Nat} {level : Int} (hs : Inv I s)
    (hlen : ∀ c, s.cache = some c → i < c.mem.length) (h : putCat id i en level s = some s') : Inv I s' := by
  unfold putCat at h
  refine (update_inv (I := I) h fun c hc j hj hor => ?_).1
  have hc' : s.cache = some c := hc
  have hji : j ≠ i := by have := hlen c hc'; omega
  intro t ht he
  obtain ⟨u, hu, rfl⟩ := List.mem_map.mp (show t ∈ s.reg.map _ from ht)
  have key : threshold (if u.id = id then u.put i ⟨(level % 256).toNat, en⟩ else u) j = threshold u j ∧
      ((if u.id = id then u.put i ⟨(level % 256).toNat, en⟩ else u).cat j) = u.cat j := by
    by_cases hid : u.id = id
    · simp only [if_pos hid]
      unfold threshold
      rw [cat_put u i _ j hji]
      exact ⟨rfl, rfl⟩
    · simp only [if_neg hid]; exact ⟨trivial, trivial⟩
  rw [key.1]
  rw [key.2] at he
  exact (hs c hc').2 j hj u hu he

/-- Also: the cache has an entry for every category. -/
def Inv' (I : Info) (s : St) : Prop := Inv I s ∧ ∀ c, s.cache = some c → c.mem.length = I.num

theorem updateAll_len {I : Info} {s s' : St} (h : updateAll I s = some s') : ∀ c, s'.cache = some c → c.mem.length = I.num := by
  unfold updateAll at h
  cases hc : s.cache with
  | none =>
    rw [hc] at h
    injection h with h
    subst h
    intro c h; rw [hc] at h; exact absurd h (by simp)
  | some c =>
    rw [hc] at h
    simp only at h
    cases hf : c.freed with
    | true => rw [hf] at h; exact absurd h (by simp)
    | false =>
      rw [hf] at h
      injection h with h
      subst h
      intro c' hc'
      injection hc' with hc'
      subst hc'
      show (List.map _ (List.range I.num)).length = _
      rw [List.length_map, List.length_range]

theorem updateAll_inv' {I : Info} {s s' : St} (h : updateAll I s = some s') : Inv' I s' :=
  ⟨(updateAll_inv h).1, updateAll_len h⟩

theorem update_len {I : Info} {s s' : St} {i en lv : Nat} (hl : ∀ c, s.cache = some c → c.mem.length = I.num)
    (h : update i en lv s = some s') : ∀ c, s'.cache = some c → c.mem.length = I.num := by
  unfold update at h
  cases hc : s.cache with
  | none =>
    rw [hc] at h
    injection h with h
    subst h
    intro c h; rw [hc] at h; exact absurd h (by simp)
  | some c =>
    rw [hc] at h
    simp only at h
    cases hf : c.freed with
    | true => rw [hf] at h; exact absurd h (by simp)
    | false =>
      rw [hf] at h
      injection h with h
      subst h
      intro c' hc'
      injection hc' with hc'
      subst hc'
      show (List.set _ _ _).length = _
      rw [List.length_set]
      exact hl c hc

theorem putCat_inv' {I : Info} {s s' : St} {id i en : Nat} {level : Int} (hs : Inv' I s) (hi : i < I.num)
    (h : putCat id i en level s = some s') : Inv' I s' :=
  ⟨putCat_inv hs.1 (fun c hc => by rw [hs.2 c hc]; exact hi) h,
   update_len (s := change id _ s) hs.2 h⟩

theorem foldlM_range_inv {P : St → Prop} {f : St → Nat → Option St} (n : Nat)
    (hstep : ∀ s a s', a < n → P s → f s a = some s' → P s') (s s' : St) (hs : P s)
    (h : (List.range n).foldlM f s = some s') : P s' := by
  have key : ∀ (l : List Nat) (s s' : St), (∀ a ∈ l, a < n) → P s → l.foldlM f s = some s' → P s' := by
    intro l
    induction l with
    | nil => intro s s' _ h e; injection e with e; exact e ▸ h
    | cons a l ih =>
      intro s s' hl h e
      rw [List.foldlM_cons] at e
      cases hf : f s a with
      | none => rw [hf] at e; exact absurd e (by simp)
      | some s1 =>
        rw [hf] at e
        exact ih s1 s' (fun b hb => hl b (List.mem_cons_of_mem _ hb)) (hstep s a s1 (hl a (List.mem_cons_self ..)) h hf) e
  exact key _ s s' (fun a ha => List.mem_range.mp ha) hs h

/-- The operation names an existing category (the VTY looks it up by name). -/
def Op.Ok (I : Info) : Op → Prop
  | .vtyLevel _ i _ => i < I.num
  | _ => True

theorem step_inv {I : Info} {atoi : List Byte → Int} {s s' : St} {op : Op} (hok : op.Ok I) (hs : Inv' I s)
    (h : step I atoi s op = some s') : Inv' I s' := by
  cases op with
  | create id =>
    refine foldlM_range_inv (P := Inv' I) I.num (fun s i s' hi hs h => ⟨?_, update_len hs.2 h⟩) _ s' ?_ h
    · exact (update_inv (I := I) h fun c hc j hj _ => (hs.1 c hc).2 j hj).1
    · exact hs
  | add id =>
    unfold step add at h
    simp only at h
    split at h
    · exact absurd h (by simp)
    · exact updateAll_inv' h
  | del id =>
    unfold step del at h
    simp only at h
    split at h
    · exact absurd h (by simp)
    · exact updateAll_inv' h
  | setLevel id l => exact updateAll_inv' h
  | setCategory id c e l =>
    unfold step setCategory at h
    simp only at h
    cases hm : mapSubsys I c with
    | none => rw [hm] at h; exact absurd h (by simp)
    | some i => rw [hm] at h; exact putCat_inv' hs (mapSubsys_lt hm) h
  | vtyLevel id i l => exact putCat_inv' hs hok h
  | vtySetAll id l =>
    refine foldlM_range_inv (P := Inv' I) I.num (fun s i s' hi hs h => ?_) s s' hs h
    split at h
    · injection h with h; exact h ▸ hs
    · exact putCat_inv' hs hi h
  | allFilter id a =>
    injection h with h
    subst h
    refine ⟨fun c hc => ⟨(hs.1 c hc).1, fun i hi t ht he => ?_⟩, hs.2⟩
    obtain ⟨u, hu, rfl⟩ := List.mem_map.mp (show t ∈ s.reg.map _ from ht)
    have key : threshold (if u.id = id then { u with all := a } else u) i = threshold u i ∧
        ((if u.id = id then { u with all := a } else u).cat i) = u.cat i := by
      split <;> exact ⟨rfl, rfl⟩
    rw [key.1]
    rw [key.2] at he
    exact (hs.1 c hc).2 i hi u hu he
  | mask id m =>
    unfold step parseMask at h
    simp only at h
    split at h
    · exact absurd h (by simp)
    · exact updateAll_inv' h
  | cacheEnable =>
    unfold step cacheEnable at h
    simp only at h
    split at h
    · injection h with h; exact h ▸ hs
    · exact updateAll_inv' h

theorem run_inv {I : Info} {atoi : List Byte → Int} {ops : List Op} {s : St} (hok : ∀ op ∈ ops, op.Ok I)
    (h : run I atoi ops = some s) : Inv' I s := by
  have key : ∀ (ops : List Op) (s s' : St), (∀ op ∈ ops, op.Ok I) → Inv' I s → ops.foldlM (step I atoi) s = some s' → Inv' I s' := by
    intro ops
    induction ops with
    | nil => intro s s' _ h e; injection e with e; exact e ▸ h
    | cons a l ih =>
      intro s s' hl h e
      rw [List.foldlM_cons] at e
      cases hf : step I atoi s a with
      | none => rw [hf] at e; exact absurd e (by simp)
      | some s1 =>
        rw [hf] at e
        exact ih s1 s' (fun b hb => hl b (List.mem_cons_of_mem _ hb)) (step_inv (hl a (List.mem_cons_self ..)) h hf) e
  exact key ops start s hok ⟨fun c hc => absurd hc (by simp [start]), fun c hc => absurd hc (by simp [start])⟩ h

theorem check_cases {I : Info} {s : St} (hinv : Inv' I s) {i : Nat} (hlt : i < I.num) {level : Int} (hl : 0 ≤ level) :
    check i level s = some true ∨ (check i level s = some false ∧ ∀ t ∈ s.reg, shouldLog I t i level = false) := by
  unfold check
  cases hc : s.cache with
  | none => exact Or.inl rfl
  | some c =>
    obtain ⟨h1, h2⟩ := hinv.1 c hc
    simp only [h1, Bool.false_eq_true, if_false]
    by_cases hlv : level < c.mem.getD i 0
    · right
      refine ⟨by rw [decide_eq_false (fun h => h hlv)], fun t ht => ?_⟩
      apply Bool.eq_false_iff.mpr
      intro hw
      rw [shouldLog_iff I t i hl] at hw
      have a := h2 i hlt t ht hw.1
      have b := hw.2.1
      omega
    · left; rw [decide_eq_true hlv]

/-- C149: whatever was configured before, with the cache or without, a message goes to
exactly the targets in the list that want it, in the order of the list. -/
theorem logged_iff_wanted {I : Info} {atoi : List Byte → Int} {ops : List Op} {s : St} (hok : ∀ op ∈ ops, op.Ok I)
    (h : run I atoi ops = some s) (subsys : Int) {level : Int} (hl : 0 ≤ level) :
    ∃ (i : Nat) (ts : List Target), mapSubsys I subsys = some i ∧ vlogp I s subsys level = some (ts.map (·.id)) ∧
      ts.Sublist s.reg ∧ ∀ t ∈ s.reg, t ∈ ts ↔ Wants I t i level := by
  obtain ⟨i, hi⟩ : ∃ i, mapSubsys I subsys = some i := ⟨_, mapSubsys_spec I subsys⟩
  refine ⟨i, s.reg.filter fun t => shouldLog I t i level, hi, ?_, List.filter_sublist, fun t ht => ?_⟩
  · unfold vlogp
    rw [hi]
    simp only
    rcases check_cases (run_inv hok h) (mapSubsys_lt hi) hl with hc | ⟨hc, hn⟩
    · rw [hc]
    · rw [hc]
      have : s.reg.filter (fun t => shouldLog I t i level) = [] := by
        rw [List.filter_eq_nil_iff]
        intro t ht hw
        rw [hn t ht] at hw; exact absurd hw (by decide)
      rw [this]; rfl
  · rw [List.mem_filter, shouldLog_iff I t i hl]
    exact ⟨fun h => h.2, fun h => ⟨ht, h⟩⟩

/-- C149: `log_check_level` is true exactly if a target wants the message. -/
theorem check_level {I : Info} {atoi : List Byte → Int} {ops : List Op} {s : St} (hok : ∀ op ∈ ops, op.Ok I)
    (h : run I atoi ops = some s) (subsys : Int) {level : Int} (hl : 0 ≤ level) :
    ∃ i, mapSubsys I subsys = some i ∧
      ((checkLevel I s subsys level = some true ∧ ∃ t ∈ s.reg, Wants I t i level) ∨
       (checkLevel I s subsys level = some false ∧ ∀ t ∈ s.reg, ¬ Wants I t i level)) := by
  obtain ⟨i, hi⟩ : ∃ i, mapSubsys I subsys = some i := ⟨_, mapSubsys_spec I subsys⟩
  refine ⟨i, hi, ?_⟩
  have hres : checkLevel I s subsys level = some (s.reg.any fun t => shouldLog I t i level) := by
    unfold checkLevel
    rw [hi]
    simp only
    rcases check_cases (run_inv hok h) (mapSubsys_lt hi) hl with hc | ⟨hc, hn⟩
    · rw [hc]
    · rw [hc]
      have : (s.reg.any fun t => shouldLog I t i level) = false := by
        rw [List.any_eq_false]
        intro t ht hw
        rw [hn t ht] at hw; exact absurd hw (by decide)
      rw [this]
  rw [hres]
  by_cases ha : ∃ t ∈ s.reg, Wants I t i level
  · left
    obtain ⟨t, ht, hw⟩ := ha
    refine ⟨?_, t, ht, hw⟩
    congr 1
    rw [List.any_eq_true]
    exact ⟨t, ht, (shouldLog_iff I t i hl).mpr hw⟩
  · right
    refine ⟨?_, fun t ht hw => ha ⟨t, ht, hw⟩⟩
    congr 1
    rw [List.any_eq_false]
    exact fun t ht hw => ha ⟨t, ht, (shouldLog_iff I t i hl).mp hw⟩

/-- C149: configuring a target sets what it wants: the level and enabling of the category named,
and nothing of other categories and targets. -/
theorem setCategory_spec {I : Info} {s s' : St} {id : Nat} {category : Int} {en : Bool} {level : Int}
    (h : setCategory I id category en level s = some s') :
    ∃ i, mapSubsys I category = some i ∧ s'.reg.length = s.reg.length ∧
      ∀ (k : Nat) (t : Target), s.reg[k]? = some t → ∃ t', s'.reg[k]? = some t' ∧ t'.id = t.id ∧ t'.level = t.level ∧ t'.all = t.all ∧
        (t.id ≠ id → t' = t) ∧ (∀ j, j ≠ i → t'.cat j = t.cat j) ∧
        (t.id = id → i < t.cats.length → t'.cat i = ⟨(level % 256).toNat, if en then 1 else 0⟩) := by
  obtain ⟨i, hi⟩ : ∃ i, mapSubsys I category = some i := ⟨_, mapSubsys_spec I category⟩
  unfold setCategory at h
  rw [hi] at h
  have hreg := (update_reg (s := change id _ s) h)
  refine ⟨i, hi, by rw [hreg]; show (List.map _ _).length = _; rw [List.length_map], fun k t ht => ?_⟩
  refine ⟨_, by rw [hreg]; show (List.map _ s.reg)[k]? = _; rw [List.getElem?_map, ht]; rfl, ?_⟩
  simp only
  by_cases hid : t.id = id
  · rw [if_pos hid]
    refine ⟨rfl, rfl, rfl, fun h => absurd hid h, fun j hj => cat_put t i _ j hj, fun _ hlt => ?_⟩
    unfold Target.put Target.cat
    rw [List.getD_eq_getElem?_getD, List.getElem?_set_self hlt]
    cases en <;> rfl
  · rw [if_neg hid]
    exact ⟨rfl, rfl, rfl, fun _ => rfl, fun _ _ => rfl, fun h => absurd h hid⟩

/-! ### log_fini -/

/-- An application with one category. -/
def infoEx : Info := ⟨1, List.replicate 30 (some [0x44, 0x41]), List.replicate 30 ⟨5, 1⟩, none⟩

/-- C149: with a cache enabled, `log_fini` gives its memory back and keeps the pointer: after the
next `log_init` the first message logged reads memory given back. -/
theorem fini_cache_counterexample :
    ((run infoEx (fun _ => 0) [.cacheEnable]).bind (fini infoEx)).isSome = true ∧
    (((run infoEx (fun _ => 0) [.cacheEnable]).bind (fini infoEx)).bind fun s => vlogp infoEx s 0 5) = none ∧
    (((run infoEx (fun _ => 0) []).bind (fini infoEx)).bind fun s => vlogp infoEx s 0 5) = some [] := by
  decide +kernel

def stEx : Option St :=
  run infoEx (fun _ => 0) [.cacheEnable, .create 7, .create 8, .add 7, .add 8, .setLevel 8 3, .setCategory 7 0 true 7]

example : (stEx.bind fun s => vlogp infoEx s 0 5) = some [8] ∧ (stEx.bind fun s => vlogp infoEx s 0 7) = some [7, 8] ∧
    (stEx.bind fun s => vlogp infoEx s (-1) 5) = some [7, 8] ∧ (stEx.bind fun s => vlogp infoEx s 0 1) = some [] ∧
    (stEx.bind fun s => s.cache.map (·.mem.take 2)) = some [3, 3] ∧
    (stEx.bind fun s => checkLevel infoEx s 0 2) = some false := by decide +kernel

end Verif.Logging
