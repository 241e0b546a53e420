import Verif.Hlist.Read
/-!
# C120: hash tables
-/
namespace Verif.Hlist

/-! ## Logarithms -/

theorem fls_round {x : Nat} (k : Nat) (hk : k ≤ 16) {y r : Nat} (h1 : y = x * 2 ^ (32 - r)) (h2 : y < 2 ^ 32) (h3 : 2 ^ (32 - 2 * k) ≤ y) (h4 : k ≤ r) (h5 : r ≤ 32) :
    ∃ y' r', (if y / 2 ^ (32 - k) = 0 then (y * 2 ^ k % 2 ^ 32, r - k) else (y, r)) = (y', r') ∧ y' = x * 2 ^ (32 - r') ∧ y' < 2 ^ 32 ∧ 2 ^ (32 - k) ≤ y' ∧ r - k ≤ r' ∧ r' ≤ 32 := by
  have hp : 0 < 2 ^ (32 - k) := Nat.pow_pos (by decide)
  have e32 : 2 ^ (32 - k) * 2 ^ k = 2 ^ 32 := by rw [← Nat.pow_add]; congr 1; omega
  split
  · rename_i h
    have hlt : y < 2 ^ (32 - k) := by
      rcases Nat.div_eq_zero_iff.1 h with h | h
      · omega
      · exact h
    have h6 : y * 2 ^ k < 2 ^ 32 := by
      rw [← e32]
      exact (Nat.mul_lt_mul_right (Nat.pow_pos (by decide))).2 hlt
    refine ⟨_, _, rfl, ?_, Nat.mod_lt _ (by decide), ?_, Nat.le_refl _, by omega⟩
    · rw [Nat.mod_eq_of_lt h6, h1, Nat.mul_assoc, ← Nat.pow_add]
      congr 2; omega
    · rw [Nat.mod_eq_of_lt h6]
      calc 2 ^ (32 - k) = 2 ^ (32 - 2 * k) * 2 ^ k := by rw [← Nat.pow_add]; congr 1; omega
        _ ≤ y * 2 ^ k := Nat.mul_le_mul_right _ h3
  · rename_i h
    refine ⟨_, _, rfl, h1, h2, ?_, by omega, h5⟩
    rw [Nat.div_eq_zero_iff] at h
    omega

/-- the position of the highest bit set -/
theorem fls_spec {x : Nat} (h0 : x ≠ 0) (hx : x < 2 ^ 32) : fls x = Nat.log2 x + 1 := by
  obtain ⟨y1, r1, e1, a1, b1, c1, d1, f1⟩ := fls_round (x := x) 16 (by decide) (y := x) (r := 32) (by simp) hx (by simp; omega) (by decide) (by decide)
  obtain ⟨y2, r2, e2, a2, b2, c2, d2, f2⟩ := fls_round (x := x) 8 (by decide) a1 b1 c1 (by omega) f1
  obtain ⟨y3, r3, e3, a3, b3, c3, d3, f3⟩ := fls_round (x := x) 4 (by decide) a2 b2 c2 (by omega) f2
  obtain ⟨y4, r4, e4, a4, b4, c4, d4, f4⟩ := fls_round (x := x) 2 (by decide) a3 b3 c3 (by omega) f3
  obtain ⟨y5, r5, e5, a5, b5, c5, d5, f5⟩ := fls_round (x := x) 1 (by decide) a4 b4 c4 (by omega) f4
  have hf : fls x = r5 := by
    simp only [fls, h0, if_false]
    rw [e1]; dsimp only
    rw [e2]; dsimp only
    rw [e3]; dsimp only
    rw [e4]; dsimp only
    rw [e5]
  have hr : r5 ≠ 0 := by
    intro h; rw [h] at a5
    rw [a5] at b5
    have : 1 * 2 ^ 32 ≤ x * 2 ^ (32 - 0) := Nat.mul_le_mul_right _ (by omega)
    omega
  obtain ⟨k, rfl⟩ : ∃ k, r5 = k + 1 := ⟨r5 - 1, by omega⟩
  rw [hf]
  congr 1
  have e : 2 ^ 32 = 2 ^ (k + 1) * 2 ^ (32 - (k + 1)) := by rw [← Nat.pow_add]; congr 1; omega
  have e' : 2 ^ (32 - 1) = 2 ^ k * 2 ^ (32 - (k + 1)) := by rw [← Nat.pow_add]; congr 1; omega
  have hp : 0 < 2 ^ (32 - (k + 1)) := Nat.pow_pos (by decide)
  rw [a5, e] at b5
  rw [a5, e'] at c5
  exact ((Nat.log2_eq_iff h0).2 ⟨Nat.le_of_mul_le_mul_right c5 hp, Nat.lt_of_mul_lt_mul_right b5⟩).symm

theorem find_down {n : Nat} (hn : n ≠ 0) (h63 : Nat.log2 n ≤ 63) : ∀ k, k ≤ 62 → ((List.range k).map (63 - ·)).find? (n.testBit ·) = if 63 - Nat.log2 n < k then some (Nat.log2 n) else none
  | 0, _ => by simp
  | k + 1, hk => by
    rw [List.range_succ, List.map_append, List.find?_append, find_down hn h63 k (by omega)]
    by_cases h : 63 - Nat.log2 n < k
    · have : 63 - Nat.log2 n < k + 1 := by omega
      simp [h, this]
    · by_cases h' : 63 - Nat.log2 n = k
      · have hk' : 63 - k = Nat.log2 n := by omega
        have ht : n.testBit (Nat.log2 n) = true := by
          have h1 := Nat.log2_self_le hn
          have h2 := Nat.lt_log2_self (n := n)
          rw [Nat.testBit_eq_decide_div_mod_eq]
          have : n / 2 ^ Nat.log2 n = 1 := by
            apply Nat.div_eq_of_lt_le
            · omega
            · rw [Nat.pow_succ] at h2; omega
          simp [this]
        simp [h, hk', ht, h']
      · have ht : n.testBit (63 - k) = false := by
          apply Nat.testBit_lt_two_pow
          refine Nat.lt_of_lt_of_le Nat.lt_log2_self (Nat.pow_le_pow_right (by decide) (by omega))
        have : ¬ 63 - Nat.log2 n < k + 1 := by omega
        simp [h, this, ht]

/-- **The logarithm is the same for constants and for other values** -/
theorem ilog2_spec {n : Nat} (h0 : n ≠ 0) (hn : n < 2 ^ 64) : constIlog2 n = Nat.log2 n ∧ ilog2 n = Nat.log2 n := by
  have h63 : Nat.log2 n ≤ 63 := by
    have := (Nat.log2_lt h0).2 hn
    omega
  refine ⟨?_, ?_⟩
  · unfold constIlog2
    split
    · have : n = 1 := by omega
      subst this; decide
    · rw [find_down h0 h63 62 (by decide)]
      have h1 : 1 ≤ Nat.log2 n := (Nat.le_log2 h0).2 (by omega)
      split
      · rfl
      · show 1 = _
        omega
  · unfold ilog2 fls64
    split
    · rename_i h
      have hlt : n / 2 ^ 32 < 2 ^ 32 := by omega
      rw [fls_spec h hlt]
      have : Nat.log2 (n / 2 ^ 32) + 32 = Nat.log2 n := by
        symm
        rw [Nat.log2_eq_iff h0]
        have h1 := Nat.log2_self_le h
        have h2 := Nat.lt_log2_self (n := n / 2 ^ 32)
        rw [Nat.pow_add, show Nat.log2 (n / 2 ^ 32) + 32 + 1 = (Nat.log2 (n / 2 ^ 32) + 1) + 32 by omega, Nat.pow_add]
        constructor
        · exact (Nat.le_div_iff_mul_le (by decide)).1 h1
        · exact (Nat.div_lt_iff_lt_mul (by decide)).1 h2
      omega
    · rename_i h
      have hlt : n < 2 ^ 32 := by omega
      rw [Nat.mod_eq_of_lt hlt, fls_spec h0 hlt]
      omega

/-! ## Buckets -/

abbrev Key := BitVec 32 ⊕ BitVec 64

/-- **Each key has a bucket of the table**, if there are two at least -/
theorem bucket_spec (t : Table) (h1 : 1 ≤ t.bits) (h2 : t.bits ≤ 30) (k : Key) : ∃ i, i < t.size ∧ t.bucket k = some (t.base + i) := by
  have hlog : constIlog2 t.size = t.bits := by
    have h0 : t.size ≠ 0 := Nat.pos_iff_ne_zero.1 (Nat.pow_pos (by decide))
    have hlt : t.size < 2 ^ 64 := Nat.pow_lt_pow_right (by decide) (by omega)
    rw [(ilog2_spec h0 hlt).1]
    exact Nat.log2_two_pow
  unfold Table.bucket
  rw [hlog]
  cases k with
  | inl k =>
    have : ¬ (t.bits = 0 ∨ 32 < t.bits) := by omega
    refine ⟨k.toNat * 0x61C88647 % 2 ^ 32 / 2 ^ (32 - t.bits), ?_, by simp [hashMin, hash32, this]⟩
    rw [Nat.div_lt_iff_lt_mul (Nat.pow_pos (by decide)), Table.size, ← Nat.pow_add, show t.bits + (32 - t.bits) = 32 by omega]
    exact Nat.mod_lt _ (by decide)
  | inr k =>
    have : ¬ (t.bits = 0 ∨ 64 < t.bits) := by omega
    refine ⟨k.toNat * 0x61C8864680B583EB % 2 ^ 64 / 2 ^ (64 - t.bits) % 2 ^ 32, ?_, by simp [hashMin, hash64, this]⟩
    refine Nat.lt_of_le_of_lt (Nat.mod_le _ _) ?_
    rw [Nat.div_lt_iff_lt_mul (Nat.pow_pos (by decide)), Table.size, ← Nat.pow_add, show t.bits + (64 - t.bits) = 64 by omega]
    exact Nat.mod_lt _ (by decide)

/-- **A table of one bucket cannot be used**: a shift by all bits is undefined -/
theorem hash_one_bucket_counterexample (base : Nat) (m : Mem) (n : Nat) (k : Key) : hashAdd ⟨base, 0⟩ m n k = none := by
  have h : constIlog2 (2 ^ 0) = 0 := by decide
  have : Table.bucket ⟨base, 0⟩ k = none := by
    cases k <;> simp [Table.bucket, Table.size, h, hashMin, hash32, hash64]
  simp [hashAdd, this]

/-! ## Tables -/

/-- memory holds this table: of each node in it the key is known; and the nodes known to be unhashed. There are no other lists. -/
structure Holds (t : Table) (lh ln : Nat → Bool) (m : Mem) (c : Nat → Option Key) (u : Nat → Bool) (a : Abs) : Prop where
  rep : Rep lh ln m a
  bucket : ∀ i, i < t.size → ∃ b, a.lists (t.base + i) = some b ∧ ∀ n, n ∈ b ↔ ∃ k, c n = some k ∧ t.bucket k = some (t.base + i)
  only : ∀ h b, a.lists h = some b → ∃ i, i < t.size ∧ h = t.base + i
  idle : a.idle = u

variable {t : Table} {lh ln : Nat → Bool} {m : Mem} {c : Nat → Option Key} {u : Nat → Bool} {a : Abs}

theorem Holds.free (r : Holds t lh ln m c u a) {n : Nat} (hn : c n = none) : a.Free n := by
  intro h b e hm
  obtain ⟨i, hi, rfl⟩ := r.only h b e
  obtain ⟨b', e', hb⟩ := r.bucket i hi
  rw [e] at e'; cases e'
  obtain ⟨k, hk, _⟩ := (hb n).1 hm
  rw [hn] at hk; cases hk

/-- operations on a table -/
inductive HOp
  | add (n : Nat) (k : Key) | del (n : Nat)

/-- what they do -/
def hexec (t : Table) (m : Mem) : HOp → Option Mem
  | .add n k => hashAdd t m n k
  | .del n => hashDel m n

/-- what they are for: a node not in the table is added; one in the table, or unhashed, is deleted -/
inductive HStep (ln : Nat → Bool) : (Nat → Option Key) × (Nat → Bool) → HOp → (Nat → Option Key) × (Nat → Bool) → Prop
  | add (c : Nat → Option Key) (u : Nat → Bool) (n : Nat) (k : Key) : ln n = true → c n = none → HStep ln (c, u) (.add n k) (upd c n (some k), upd u n false)
  | del (c : Nat → Option Key) (u : Nat → Bool) (n : Nat) (k : Key) : c n = some k → HStep ln (c, u) (.del n) (upd c n none, upd u n true)
  | again (c : Nat → Option Key) (u : Nat → Bool) (n : Nat) : u n = true → HStep ln (c, u) (.del n) (c, u)

theorem hash_step (h1 : 1 ≤ t.bits) (h2 : t.bits ≤ 30) {o : HOp} {s' : (Nat → Option Key) × (Nat → Bool)} (r : Holds t lh ln m c u a) (h : HStep ln (c, u) o s') :
    ∃ m' a', hexec t m o = some m' ∧ Holds t lh ln m' s'.1 s'.2 a' := by
  cases h with
  | add _ _ n k hl hn =>
    obtain ⟨i, hi, hb⟩ := bucket_spec t h1 h2 k
    obtain ⟨b, eb, hbm⟩ := r.bucket i hi
    obtain ⟨m', e1, r1⟩ := hlist_step r.rep (.addHead a n (t.base + i) b hl (r.free hn) eb)
    refine ⟨m', _, by simpa [hexec, hashAdd, hb, exec] using e1, r1, fun j hj => ?_, fun h b' e => ?_, by rw [← r.idle]⟩
    · by_cases hij : j = i
      · subst hij
        refine ⟨n :: b, upd_same _ _ _, fun x => ?_⟩
        by_cases hx : x = n
        · subst hx
          simp only [List.mem_cons, true_or, upd_same, true_iff]
          exact ⟨k, rfl, hb⟩
        · simp only [List.mem_cons, hx, false_or, upd_other _ _ hx]
          exact hbm x
      · obtain ⟨b', eb', hbm'⟩ := r.bucket j hj
        refine ⟨b', (upd_other _ _ (by omega)).trans eb', fun x => ?_⟩
        by_cases hx : x = n
        · subst hx
          simp only [upd_same]
          constructor
          · exact fun hm => absurd hm (r.free hn _ _ eb')
          · rintro ⟨k', hk', hb'⟩
            cases hk'
            rw [hb] at hb'
            have := Option.some.inj hb'
            omega
        · simp only [upd_other _ _ hx]
          exact hbm' x
    · rcases upd_eq e with ⟨rfl, _⟩ | ⟨_, e⟩
      · exact ⟨i, hi, rfl⟩
      · exact r.only h b' e
  | del _ _ n k hn =>
    obtain ⟨i, hi, hb⟩ := bucket_spec t h1 h2 k
    obtain ⟨b, eb, hbm⟩ := r.bucket i hi
    obtain ⟨xs, ys, rfl⟩ := List.append_of_mem ((hbm n).2 ⟨k, hn, hb⟩)
    obtain ⟨m', e1, r1⟩ := hlist_step r.rep (.delInit a n (t.base + i) xs ys eb)
    have hd := r.rep.nodup _ _ eb
    rw [(List.perm_middle (a := n) (l₁ := xs) (l₂ := ys)).nodup_iff, List.nodup_cons] at hd
    refine ⟨m', _, e1, r1, fun j hj => ?_, fun h b' e => ?_, by rw [← r.idle]⟩
    · by_cases hij : j = i
      · subst hij
        refine ⟨xs ++ ys, upd_same _ _ _, fun x => ?_⟩
        by_cases hx : x = n
        · subst hx
          simp only [upd_same]
          exact ⟨fun hm => absurd hm hd.1, fun ⟨_, h, _⟩ => by cases h⟩
        · simp only [upd_other _ _ hx]
          rw [← hbm x]
          simp [hx]
      · obtain ⟨b', eb', hbm'⟩ := r.bucket j hj
        refine ⟨b', (upd_other _ _ (by omega)).trans eb', fun x => ?_⟩
        by_cases hx : x = n
        · subst hx
          simp only [upd_same]
          refine ⟨fun hm => ?_, fun ⟨_, h, _⟩ => by cases h⟩
          obtain ⟨k', hk', hb'⟩ := (hbm' x).1 hm
          rw [hn] at hk'; cases hk'
          rw [hb] at hb'
          have := Option.some.inj hb'
          omega
        · simp only [upd_other _ _ hx]
          exact hbm' x
    · rcases upd_eq e with ⟨rfl, _⟩ | ⟨_, e⟩
      · exact ⟨i, hi, rfl⟩
      · exact r.only h b' e
  | again _ _ n hu =>
    have hi : a.idle n = true := by rw [r.idle]; exact hu
    obtain ⟨m', e1, r1⟩ := hlist_step r.rep (.delInitAgain a n hi)
    exact ⟨m', a, e1, r1, r.bucket, r.only, r.idle⟩

theorem hash_init_upto (hl : ∀ i, i < t.size → m.liveH (t.base + i) = true) : ∀ sz, sz ≤ t.size →
    ∃ m' a, hashInit t sz m = some m' ∧ Rep m.liveH m.liveN m' a ∧ (∀ i, i < sz → a.lists (t.base + i) = some []) ∧ (∀ h b, a.lists h = some b → ∃ i, i < sz ∧ h = t.base + i) ∧
      a.idle = fun _ => false
  | 0, _ => ⟨m, _, rfl, hlist_start m, fun i hi => by omega, (fun _ _ h => by cases h), rfl⟩
  | sz + 1, hsz => by
    obtain ⟨m1, a, e1, r, h1, h2, h3⟩ := hash_init_upto hl sz (by omega)
    obtain ⟨m2, e2, r2⟩ := hlist_step r (.initHead a (t.base + sz) (hl sz (by omega)))
    refine ⟨m2, _, by simpa [hashInit, e1, exec] using e2, r2, fun i hi => ?_, fun h b e => ?_, h3⟩
    · by_cases h : i = sz
      · subst h; exact upd_same _ _ _
      · exact (upd_other _ _ (by omega)).trans (h1 i (by omega))
    · rcases upd_eq e with ⟨rfl, _⟩ | ⟨_, e⟩
      · exact ⟨sz, by omega, rfl⟩
      · obtain ⟨i, hi, e⟩ := h2 h b e
        exact ⟨i, by omega, e⟩

/-- **A table set up is empty**, whatever memory held before -/
theorem hash_init (hl : ∀ i, i < t.size → m.liveH (t.base + i) = true) : ∃ m' a, hashInit t t.size m = some m' ∧ Holds t m.liveH m.liveN m' (fun _ => none) (fun _ => false) a := by
  obtain ⟨m1, a, e1, r, h1, h2, h3⟩ := hash_init_upto hl t.size (Nat.le_refl _)
  exact ⟨m1, a, e1, r, fun i hi => ⟨[], h1 i hi, fun n => by simp⟩, h2, h3⟩

/-- operations one after the other -/
inductive HSteps (ln : Nat → Bool) : (Nat → Option Key) × (Nat → Bool) → List HOp → (Nat → Option Key) × (Nat → Bool) → Prop
  | nil (s : (Nat → Option Key) × (Nat → Bool)) : HSteps ln s [] s
  | cons (s s' s'' : (Nat → Option Key) × (Nat → Bool)) (o : HOp) (os : List HOp) : HStep ln s o s' → HSteps ln s' os s'' → HSteps ln s (o :: os) s''

def hexecAll (t : Table) (m : Mem) : List HOp → Option Mem
  | [] => some m
  | o :: os => (hexec t m o).bind (hexecAll t · os)

/-- **After any operations the table holds what was added and not deleted** -/
theorem hash_run (h1 : 1 ≤ t.bits) (h2 : t.bits ≤ 30) {os : List HOp} {s s' : (Nat → Option Key) × (Nat → Bool)} (h : HSteps ln s os s') :
    ∀ {m : Mem} {a : Abs}, Holds t lh ln m s.1 s.2 a → ∃ m' a', hexecAll t m os = some m' ∧ Holds t lh ln m' s'.1 s'.2 a' := by
  induction h with
  | nil => exact fun {m} {a} r => ⟨m, a, rfl, r⟩
  | cons s s1 s2 o os hs _ ih =>
    intro m a r
    obtain ⟨m1, a1, e1, r1⟩ := hash_step h1 h2 r hs
    obtain ⟨m2, a2, e2, r2⟩ := ih r1
    exact ⟨m2, a2, by simp [hexecAll, e1, e2], r2⟩

/-- what a loop visits that stops at a node -/
def upTo (stop : Nat → Bool) : List Nat → List Nat
  | [] => []
  | x :: xs => if stop x then [x] else x :: upTo stop xs

theorem upTo_append (stop : Nat → Bool) : ∀ (xs ys : List Nat), upTo stop (xs ++ ys) = if (xs.find? stop).isSome then upTo stop xs else upTo stop xs ++ upTo stop ys
  | [], ys => by simp [upTo]
  | x :: xs, ys => by
    rw [List.cons_append, upTo, upTo_append stop xs ys, upTo]
    by_cases h : stop x = true
    · simp [h]
    · simp only [Bool.not_eq_true] at h
      rw [List.find?_cons, h]
      dsimp only
      by_cases h' : (xs.find? stop).isSome = true
      · rw [if_pos h', if_pos h']
      · rw [if_neg h', if_neg h']
        simp

theorem until_chain (stop : Nat → Bool) : ∀ (xs : List Nat) (s : Slot) (fuel : Nat), (∀ x ∈ xs, m.liveN x = true) → Chain m s xs → xs.length ≤ fuel →
    forEachUntil m stop fuel (m.ptr s) = some (upTo stop xs, xs.find? stop)
  | [], s, fuel, _, c, _ => by
    have : m.ptr s = none := c
    cases fuel <;> simp [forEachUntil, this, upTo]
  | x :: xs, s, fuel + 1, hl, c, hf => by
    have := until_chain stop xs (.next x) fuel (fun y hy => hl y (List.mem_cons_of_mem _ hy)) c.2.2 (by simpa using hf)
    by_cases h : stop x = true
    · simp [forEachUntil, c.1, h, upTo]
    · simp [forEachUntil, c.1, h, upTo, get_ok (show m.liveS (.next x) = true from hl x List.mem_cons_self), this]
  | _ :: _, _, 0, _, _, hf => by simp at hf

theorem for_each_from (r : Holds t lh ln m c u a) (stop : Nat → Bool) : ∀ (sz i : Nat), i + sz = t.size →
    ∃ vs : List Nat, vs.Nodup ∧ (∀ n, n ∈ vs ↔ ∃ j, i ≤ j ∧ j < t.size ∧ ∃ k, c n = some k ∧ t.bucket k = some (t.base + j)) ∧
      ∀ fuel, vs.length ≤ fuel → hashForEach t m stop fuel sz i = some (upTo stop vs, vs.find? stop)
  | 0, i, hi => ⟨[], List.nodup_nil, fun n => by
      constructor
      · intro h; cases h
      · rintro ⟨j, h1, h2, _⟩; omega, fun fuel _ => by simp [hashForEach, upTo]⟩
  | sz + 1, i, hi => by
    obtain ⟨vs, d, hm, hf⟩ := for_each_from r stop sz (i + 1) (by omega)
    obtain ⟨b, eb, hb⟩ := r.bucket i (by omega)
    refine ⟨b ++ vs, ?_, fun n => ?_, fun fuel hfuel => ?_⟩
    · rw [List.nodup_append]
      refine ⟨r.rep.nodup _ _ eb, d, fun x hx y hy e => ?_⟩
      subst e
      obtain ⟨k, hk, hk'⟩ := (hb x).1 hx
      obtain ⟨j, h1, h2, k', h3, h4⟩ := (hm x).1 hy
      rw [hk] at h3; cases h3
      rw [hk'] at h4
      have := Option.some.inj h4
      omega
    · rw [List.mem_append, hb, hm]
      constructor
      · rintro (⟨k, h⟩ | ⟨j, h1, h⟩)
        · exact ⟨i, Nat.le_refl _, by omega, k, h⟩
        · exact ⟨j, by omega, h⟩
      · rintro ⟨j, h1, h2, h3⟩
        by_cases h : j = i
        · subst h; exact .inl h3
        · exact .inr ⟨j, by omega, h2, h3⟩
    · rw [List.length_append] at hfuel
      have hc := until_chain stop b (.first (t.base + i)) fuel (r.rep.liveNodes eb) (r.rep.chain _ _ eb) (by omega)
      have hv := hf fuel (by omega)
      rw [upTo_append, List.find?_append]
      simp only [hashForEach, get_ok (r.rep.liveS_first eb), hc, hv, Option.bind_eq_bind, Option.bind_some]
      cases hfi : b.find? stop with
      | none => simp
      | some x => simp

/-- **A loop over a table visits each node in it exactly once**; if it ends early, `obj` is the node it ended at; otherwise `obj` is NULL -/
theorem hash_for_each (h1 : 1 ≤ t.bits) (h2 : t.bits ≤ 30) (r : Holds t lh ln m c u a) (stop : Nat → Bool) :
    ∃ vs : List Nat, vs.Nodup ∧ (∀ n, n ∈ vs ↔ (c n).isSome) ∧ ∀ fuel, vs.length ≤ fuel → hashForEach t m stop fuel t.size 0 = some (upTo stop vs, vs.find? stop) := by
  obtain ⟨vs, d, hm, hf⟩ := for_each_from r stop t.size 0 (by omega)
  refine ⟨vs, d, fun n => ?_, hf⟩
  rw [hm]
  constructor
  · rintro ⟨_, _, _, k, hk, _⟩; rw [hk]; rfl
  · intro h
    obtain ⟨k, hk⟩ := Option.isSome_iff_exists.1 h
    obtain ⟨i, hi, hb⟩ := bucket_spec t h1 h2 k
    exact ⟨i, Nat.zero_le _, hi, k, hk, hb⟩

/-- **A loop over what may have a key visits all that have it**, each exactly once, and nothing that is not in the table -/
theorem hash_possible (h1 : 1 ≤ t.bits) (h2 : t.bits ≤ 30) (r : Holds t lh ln m c u a) (key : Key) :
    ∃ vs : List Nat, vs.Nodup ∧ (∀ n, c n = some key → n ∈ vs) ∧ (∀ n ∈ vs, (c n).isSome) ∧
      ∀ stop fuel, vs.length ≤ fuel → hashPossible t m stop fuel key = some (upTo stop vs, vs.find? stop) := by
  obtain ⟨i, hi, hb⟩ := bucket_spec t h1 h2 key
  obtain ⟨b, eb, hbm⟩ := r.bucket i hi
  refine ⟨b, r.rep.nodup _ _ eb, fun n hn => (hbm n).2 ⟨key, hn, hb⟩, fun n hn => ?_, fun stop fuel hf => ?_⟩
  · obtain ⟨k, hk, _⟩ := (hbm n).1 hn
    rw [hk]; rfl
  · simp only [hashPossible, hb, get_ok (r.rep.liveS_first eb), Option.bind_eq_bind, Option.bind_some]
    exact until_chain stop b _ fuel (r.rep.liveNodes eb) (r.rep.chain _ _ eb) hf

/-- **A look-up finds**: the loop ended at the first node that has the key finds one if there is one, and NULL otherwise -/
theorem hash_lookup (h1 : 1 ≤ t.bits) (h2 : t.bits ≤ 30) (r : Holds t lh ln m c u a) (key : Key) (stop : Nat → Bool) (hs : ∀ n k, c n = some k → (stop n = true ↔ k = key)) :
    ∃ len, ∀ fuel, len ≤ fuel → ∃ vs obj, hashPossible t m stop fuel key = some (vs, obj) ∧ (∀ n, obj = some n → c n = some key) ∧ (obj = none → ∀ n, c n ≠ some key) := by
  obtain ⟨b, _, hb, hb', hf⟩ := hash_possible h1 h2 r key
  refine ⟨b.length, fun fuel hfu => ⟨_, _, hf stop fuel hfu, fun n hn => ?_, fun hn n hk => ?_⟩⟩
  · obtain ⟨k, hk⟩ := Option.isSome_iff_exists.1 (hb' n (List.mem_of_find?_eq_some hn))
    have := (hs n k hk).1 (List.find?_some hn)
    rw [hk, this]
  · have := List.find?_eq_none.1 hn n (hb n hk)
    exact this ((hs n key hk).2 rfl)

theorem empty_from (r : Holds t lh ln m c u a) : ∀ (sz i : Nat), i + sz = t.size →
    ∃ e, hashEmpty t m sz i = some e ∧ (e = true ↔ ∀ j, i ≤ j → j < t.size → a.lists (t.base + j) = some [])
  | 0, i, hi => ⟨true, rfl, by simp; intro j h1 h2; omega⟩
  | sz + 1, i, hi => by
    obtain ⟨b, eb, _⟩ := r.bucket i (by omega)
    have he := (hlist_read r.rep eb).1
    by_cases h : b = []
    · obtain ⟨e, e1, e2⟩ := empty_from r sz (i + 1) (by omega)
      refine ⟨e, by simp [hashEmpty, he, h, e1], e2.trans ⟨fun hj j h1 h2 => ?_, fun hj j h1 h2 => hj j (by omega) h2⟩⟩
      by_cases h' : j = i
      · subst h'; rw [eb, h]
      · exact hj j (by omega) h2
    · refine ⟨false, by simp [hashEmpty, he, h], ?_⟩
      simp only [Bool.false_eq_true, false_iff]
      intro hj
      have := hj i (Nat.le_refl _) (by omega)
      rw [eb] at this
      exact h (Option.some.inj this)

/-- **A table is empty if nothing is in it** -/
theorem hash_empty (h1 : 1 ≤ t.bits) (h2 : t.bits ≤ 30) (r : Holds t lh ln m c u a) : ∃ e, hashEmpty t m t.size 0 = some e ∧ (e = true ↔ ∀ n, c n = none) := by
  obtain ⟨e, e1, e2⟩ := empty_from r t.size 0 (by omega)
  refine ⟨e, e1, e2.trans ⟨fun h n => ?_, fun h j _ hj => ?_⟩⟩
  · cases hk : c n with
    | none => rfl
    | some k =>
      obtain ⟨i, hi, hb⟩ := bucket_spec t h1 h2 k
      obtain ⟨b, eb, hbm⟩ := r.bucket i hi
      have := (hbm n).2 ⟨k, hk, hb⟩
      rw [h i (Nat.zero_le _) hi] at eb
      cases eb
      cases this
  · obtain ⟨b, eb, hbm⟩ := r.bucket j hj
    have : b = [] := by
      cases b with
      | nil => rfl
      | cons x xs =>
        obtain ⟨k, hk, _⟩ := (hbm x).1 List.mem_cons_self
        rw [h x] at hk; cases hk
    rw [eb, this]

/-- whether a node is in the table can be read of it -/
theorem hash_hashed (r : Holds t lh ln m c u a) (h1 : 1 ≤ t.bits) (h2 : t.bits ≤ 30) (n : Nat) : ((c n).isSome → unhashed m n = some false) ∧ (u n = true → unhashed m n = some true) := by
  refine ⟨fun h => ?_, fun h => ?_⟩
  · obtain ⟨k, hk⟩ := Option.isSome_iff_exists.1 h
    obtain ⟨i, hi, hb⟩ := bucket_spec t h1 h2 k
    obtain ⟨b, eb, hbm⟩ := r.bucket i hi
    exact ((hlist_node r.rep).1 _ _ eb ((hbm n).2 ⟨k, hk, hb⟩)).1
  · exact ((hlist_node r.rep (n := n)).2.1 (by rw [r.idle]; exact h)).1

/-- a table of four buckets, three nodes -/
example : ((hashInit ⟨0, 2⟩ 4 sampleMem).bind fun m => (hexecAll ⟨0, 2⟩ m [.add 11 (.inl 5#32), .add 12 (.inl 6#32), .add 13 (.inl 5#32), .del 12]).bind fun m =>
    hashPossible ⟨0, 2⟩ m (· == 11) 10 (.inl 5#32)) = some ([13, 11], some 11) := by decide +kernel

example : HSteps sampleMem.liveN (fun _ => none, fun _ => false) [.add 11 (.inl 5#32), .del 11, .del 11] (upd (upd (fun _ => none) 11 (some (.inl 5#32))) 11 none, upd (upd (fun _ => false) 11 false) 11 true) :=
  .cons _ _ _ _ _ (.add _ _ 11 _ (by decide) rfl) (.cons _ _ _ _ _ (.del _ _ 11 (.inl 5#32) (upd_same _ _ _)) (.cons _ _ _ _ _ (.again _ _ 11 (upd_same _ _ _)) (.nil _)))

end Verif.Hlist
