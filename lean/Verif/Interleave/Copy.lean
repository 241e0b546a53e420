import Verif.Interleave.Model
/-!
Facts about `copy`, used for C87 and C88.
-/
namespace Verif.Interleave

variable {α : Type}

/-- The set of the numbers in a list as a bit mask, if there are no duplicates. -/
def mask : List Nat → Option Nat
  | [] => some 0
  | x :: xs =>
    match mask xs with
    | some m => if m.testBit x then none else some (m ||| 1 <<< x)
    | none => none

theorem mask_spec (l : List Nat) : ∀ m, mask l = some m → l.Nodup ∧ ∀ x, m.testBit x = true ↔ x ∈ l := by
  induction l with
  | nil => intro m h; simp only [mask, Option.some.injEq] at h; subst h; simp
  | cons a l ih =>
    intro m h
    unfold mask at h
    split at h
    · rename_i m' hm
      split at h
      · cases h
      · rename_i hb
        simp only [Option.some.injEq] at h
        subst h
        obtain ⟨h1, h2⟩ := ih m' hm
        refine ⟨List.nodup_cons.mpr ⟨fun ha => hb ((h2 a).mpr ha), h1⟩, fun x => ?_⟩
        rw [Nat.testBit_or, Bool.or_eq_true, h2, Nat.one_shiftLeft, Nat.testBit_two_pow, decide_eq_true_iff, List.mem_cons]
        constructor
        · rintro (h | h)
          · exact Or.inr h
          · exact Or.inl h.symm
        · rintro (h | h)
          · exact Or.inr h.symm
          · exact Or.inl h
    · cases h

theorem mask_full {l : List Nat} {n : Nat} (h : mask l = some (2 ^ n - 1)) : l.Nodup ∧ ∀ x, x ∈ l ↔ x < n := by
  obtain ⟨h1, h2⟩ := mask_spec l _ h
  refine ⟨h1, fun x => ?_⟩
  rw [← h2, Nat.testBit_two_pow_sub_one, decide_eq_true_iff]

theorem mask_sub {l : List Nat} {n m : Nat} (h : mask l = some m) (hm : m < 2 ^ n) : l.Nodup ∧ ∀ x ∈ l, x < n := by
  obtain ⟨h1, h2⟩ := mask_spec l _ h
  refine ⟨h1, fun x hx => ?_⟩
  have := (h2 x).mpr hx
  exact (Nat.pow_lt_pow_iff_right (a := 2) (by omega)).mp (Nat.lt_of_le_of_lt (Nat.ge_two_pow_of_testBit this) hm)

theorem copy_append (src : List α) (a b : List (Nat × Nat)) : ∀ dst, copy src (a ++ b) dst = (copy src a dst).bind (copy src b) := by
  induction a with
  | nil => intro dst; rfl
  | cons p a ih =>
    intro dst
    obtain ⟨p, q⟩ := p
    rw [List.cons_append]
    conv => lhs; unfold copy
    conv => rhs; unfold copy
    cases src[p]? with
    | none => rfl
    | some x =>
      dsimp only
      split
      · exact ih _
      · rfl

theorem copy_spec (src : List α) (ps : List (Nat × Nat)) : ∀ dst : List α, (∀ pq ∈ ps, pq.1 < src.length) → (∀ pq ∈ ps, pq.2 < dst.length) →
    (ps.map Prod.snd).Nodup → ∃ d, copy src ps dst = some d ∧ d.length = dst.length ∧ (∀ pq ∈ ps, d[pq.2]? = src[pq.1]?) ∧
      ∀ r, (∀ pq ∈ ps, pq.2 ≠ r) → d[r]? = dst[r]? := by
  induction ps with
  | nil => intro dst _ _ _; exact ⟨dst, rfl, rfl, by simp, by simp⟩
  | cons pq ps ih =>
    intro dst hs hd hn
    obtain ⟨p, q⟩ := pq
    have hp : p < src.length := hs (p, q) (by simp)
    have hq : q < dst.length := hd (p, q) (by simp)
    rw [List.map_cons, List.nodup_cons] at hn
    obtain ⟨d, h1, h2, h3, h4⟩ := ih (dst.set q src[p]) (fun pq h => hs pq (by simp [h]))
      (fun pq h => by rw [List.length_set]; exact hd pq (by simp [h])) hn.2
    refine ⟨d, ?_, by rw [h2, List.length_set], ?_, ?_⟩
    · unfold copy
      rw [List.getElem?_eq_getElem hp]
      dsimp only
      rw [if_pos hq, h1]
    · intro pq hpq
      rw [List.mem_cons] at hpq
      rcases hpq with rfl | hpq
      · rw [h4 q (fun pq h he => hn.1 (List.mem_map.mpr ⟨pq, h, he⟩)), List.getElem?_set_self hq, List.getElem?_eq_getElem hp]
      · exact h3 pq hpq
    · intro r hr
      rw [h4 r (fun pq h => hr pq (by simp [h])), List.getElem?_set_ne (hr (p, q) (by simp))]

/-- Each bit goes to its place. -/
theorem scatter_spec {n N : Nat} {f : Nat → Nat} {m : Nat} (hm : mask ((List.range n).map f) = some m) (hN : m < 2 ^ N) (src dst : List α)
    (hs : src.length = n) (hd : dst.length = N) :
    ∃ d, scatter n f src dst = some d ∧ d.length = N ∧ (∀ k < n, d[f k]? = src[k]?) ∧ ∀ r, (∀ k < n, f k ≠ r) → d[r]? = dst[r]? := by
  obtain ⟨h1, h2⟩ := mask_sub hm hN
  obtain ⟨d, e1, e2, e3, e4⟩ := copy_spec src ((List.range n).map fun k => (k, f k)) dst (by simp [hs])
    (by
      intro pq h
      obtain ⟨k, hk, rfl⟩ := List.mem_map.mp h
      rw [hd]
      exact h2 _ (List.mem_map.mpr ⟨k, hk, rfl⟩))
    (by simpa [List.map_map, Function.comp_def] using h1)
  refine ⟨d, e1, by rw [e2, hd], ?_, ?_⟩
  · intro k hk
    exact e3 (k, f k) (List.mem_map.mpr ⟨k, List.mem_range.mpr hk, rfl⟩)
  · intro r hr
    apply e4
    intro pq h
    obtain ⟨k, hk, rfl⟩ := List.mem_map.mp h
    exact hr k (List.mem_range.mp hk)

theorem gather_spec {n N : Nat} {f : Nat → Nat} {m : Nat} (hm : mask ((List.range n).map f) = some m) (hN : m < 2 ^ N) (src dst : List α)
    (hs : src.length = N) (hd : dst.length = n) :
    ∃ d, gather n f src dst = some d ∧ d.length = n ∧ ∀ k < n, d[k]? = src[f k]? := by
  obtain ⟨h1, h2⟩ := mask_sub hm hN
  obtain ⟨d, e1, e2, e3, e4⟩ := copy_spec src ((List.range n).map fun k => (f k, k)) dst
    (by
      intro pq h
      obtain ⟨k, hk, rfl⟩ := List.mem_map.mp h
      rw [hs]
      exact h2 _ (List.mem_map.mpr ⟨k, hk, rfl⟩))
    (by simp [hd]) (by simp [List.map_map, Function.comp_def, List.nodup_range])
  exact ⟨d, e1, by rw [e2, hd], fun k hk => e3 (f k, k) (List.mem_map.mpr ⟨k, List.mem_range.mpr hk, rfl⟩)⟩

theorem eq_of_get {n : Nat} {a b : List α} (ha : a.length = n) (hb : b.length = n) (h : ∀ k < n, a[k]? = b[k]?) : a = b := by
  apply List.ext_getElem?
  intro k
  by_cases hk : k < n
  · exact h k hk
  · rw [List.getElem?_eq_none (by omega), List.getElem?_eq_none (by omega)]

/-- Places without duplicates: what has been interleaved comes back. -/
theorem scatter_gather {n N : Nat} {f : Nat → Nat} {m : Nat} (hm : mask ((List.range n).map f) = some m) (hN : m < 2 ^ N)
    (c i0 c0 : List α) (hc : c.length = n) (hi : i0.length = N) (h0 : c0.length = n) :
    ∃ i, scatter n f c i0 = some i ∧ i.length = N ∧ gather n f i c0 = some c := by
  obtain ⟨i, e1, e2, e3, -⟩ := scatter_spec hm hN c i0 hc hi
  obtain ⟨d, g1, g2, g3⟩ := gather_spec hm hN i c0 e2 h0
  refine ⟨i, e1, e2, ?_⟩
  rw [g1, eq_of_get g2 hc fun k hk => by rw [g3 k hk, e3 k hk]]

/-- Places without duplicates or gaps: also the other way round. -/
theorem gather_scatter {n : Nat} {f : Nat → Nat} (hm : mask ((List.range n).map f) = some (2 ^ n - 1))
    (i i0 c0 : List α) (hi : i.length = n) (hi0 : i0.length = n) (h0 : c0.length = n) :
    ∃ c, gather n f i c0 = some c ∧ c.length = n ∧ scatter n f c i0 = some i := by
  have hN : 2 ^ n - 1 < 2 ^ n := by have := Nat.two_pow_pos n; omega
  obtain ⟨c, g1, g2, g3⟩ := gather_spec hm hN i c0 hi h0
  obtain ⟨d, e1, e2, e3, -⟩ := scatter_spec hm hN c i0 g2 hi0
  refine ⟨c, g1, g2, ?_⟩
  rw [e1, eq_of_get e2 hi fun r hr => ?_]
  obtain ⟨k, hk, rfl⟩ := List.mem_map.mp (((mask_full hm).2 r).mpr hr)
  rw [e3 k (List.mem_range.mp hk), g3 k (List.mem_range.mp hk)]

theorem copy_loop1 (src dst : List α) (n p q : Nat) (hp : p + n ≤ src.length) (hq : q + n ≤ dst.length) :
    ∃ d, copy src (loop n 1 p q) dst = some d ∧ d.length = dst.length ∧
      ∀ r, d[r]? = if q ≤ r ∧ r < q + n then src[p + (r - q)]? else dst[r]? := by
  obtain ⟨d, e1, e2, e3, e4⟩ := copy_spec src (loop n 1 p q) dst
    (by unfold loop; simp only [List.mem_map, List.mem_range]; rintro _ ⟨i, hi, rfl⟩; dsimp only; omega)
    (by unfold loop; simp only [List.mem_map, List.mem_range]; rintro _ ⟨i, hi, rfl⟩; dsimp only; omega)
    (by
      unfold loop
      rw [List.map_map]
      refine List.Pairwise.map _ ?_ (List.nodup_range (n := n))
      intro a b h1 h2
      simp only [Function.comp_apply] at h2
      omega)
  refine ⟨d, e1, e2, fun r => ?_⟩
  split
  · rename_i h
    have := e3 (p + 1 * (r - q), q + 1 * (r - q)) (List.mem_map.mpr ⟨r - q, List.mem_range.mpr (by omega), rfl⟩)
    dsimp only at this
    rw [show q + 1 * (r - q) = r by omega, Nat.one_mul] at this
    exact this
  · rename_i h
    apply e4
    unfold loop
    simp only [List.mem_map, List.mem_range]
    rintro _ ⟨i, hi, rfl⟩
    dsimp only
    omega

theorem copy_loop2 (src dst : List α) (n p q : Nat) (hp : p + 2 * n ≤ src.length + 1) (hq : q + 2 * n ≤ dst.length + 1) :
    ∃ d, copy src (loop n 2 p q) dst = some d ∧ d.length = dst.length ∧
      ∀ r, d[r]? = if q ≤ r ∧ r < q + 2 * n ∧ (r - q) % 2 = 0 then src[p + (r - q)]? else dst[r]? := by
  obtain ⟨d, e1, e2, e3, e4⟩ := copy_spec src (loop n 2 p q) dst
    (by unfold loop; simp only [List.mem_map, List.mem_range]; rintro _ ⟨i, hi, rfl⟩; dsimp only; omega)
    (by unfold loop; simp only [List.mem_map, List.mem_range]; rintro _ ⟨i, hi, rfl⟩; dsimp only; omega)
    (by
      unfold loop
      rw [List.map_map]
      refine List.Pairwise.map _ ?_ (List.nodup_range (n := n))
      intro a b h1 h2
      simp only [Function.comp_apply] at h2
      omega)
  refine ⟨d, e1, e2, fun r => ?_⟩
  split
  · rename_i h
    have := e3 (p + 2 * ((r - q) / 2), q + 2 * ((r - q) / 2)) (List.mem_map.mpr ⟨(r - q) / 2, List.mem_range.mpr (by omega), rfl⟩)
    dsimp only at this
    rw [show q + 2 * ((r - q) / 2) = r by omega, show 2 * ((r - q) / 2) = r - q by omega] at this
    exact this
  · rename_i h
    apply e4
    unfold loop
    simp only [List.mem_map, List.mem_range]
    rintro _ ⟨i, hi, rfl⟩
    dsimp only
    omega

/-- one assignment -/
theorem copy_one (src dst : List α) (p q : Nat) (hp : p < src.length) (hq : q < dst.length) :
    ∃ d, copy src [(p, q)] dst = some d ∧ d.length = dst.length ∧ ∀ r, d[r]? = if r = q then src[p]? else dst[r]? := by
  obtain ⟨d, e1, e2, e3, e4⟩ := copy_spec src [(p, q)] dst (by simpa using hp) (by simpa using hq) (by simp)
  refine ⟨d, e1, e2, fun r => ?_⟩
  split
  · rename_i h; subst h; simpa using e3
  · rename_i h; exact e4 r (by simp; omega)

end Verif.Interleave
