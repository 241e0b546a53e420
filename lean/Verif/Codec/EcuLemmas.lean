import Verif.Codec.SidProps
/-!
What the error concealment unit for full rate does to the bits of a frame.
-/
namespace Verif.Codec
open Verif.Bitvec

/-- The bits of the block amplitudes. -/
def isAmp (i : Nat) : Bool := decide (40 ≤ i) && (decide (11 ≤ (i - 40) % 56) && decide ((i - 40) % 56 < 17))

/-- The bits of the grid positions. -/
def isGrid (i : Nat) : Bool := decide (40 ≤ i) && (decide (9 ≤ (i - 40) % 56) && decide ((i - 40) % 56 < 11))

/-- The block amplitude of subframe `s`: six bits behind lag, gain and grid, most significant first. -/
def amp (f : List Byte) (s : Nat) : Nat :=
  (msb f (56 * s + 51)).toNat * 32 + (msb f (56 * s + 52)).toNat * 16 + (msb f (56 * s + 53)).toNat * 8 +
    (msb f (56 * s + 54)).toNat * 4 + (msb f (56 * s + 55)).toNat * 2 + (msb f (56 * s + 56)).toNat

theorem low5 : ∀ b : Byte, b.toNat % 32 = (b.getLsbD 4).toNat * 16 + (b.getLsbD 3).toNat * 8 +
    (b.getLsbD 2).toNat * 4 + (b.getLsbD 1).toNat * 2 + (b.getLsbD 0).toNat := by decide +kernel
theorem top1 : ∀ b : Byte, b.toNat / 128 = (b.getLsbD 7).toNat := by decide +kernel

theorem xmaxc_eq (f : List Byte) (s : Nat) : xmaxc f s = amp f s := by
  have h (k : Nat) (hk : k < 5) : msb f (56 * s + (51 + k)) = (f.getD (s * 7 + 6) 0).getLsbD (4 - k) := by
    rw [msb_def, show (56 * s + (51 + k)) / 8 = s * 7 + 6 by omega, show 7 - (56 * s + (51 + k)) % 8 = 4 - k by omega]
  have h5 : msb f (56 * s + 56) = (f.getD (s * 7 + 7) 0).getLsbD 7 := by
    rw [msb_def, show (56 * s + 56) / 8 = s * 7 + 7 by omega, show 7 - (56 * s + 56) % 8 = 7 by omega]
  unfold xmaxc amp
  rw [h 0 (by omega), h 1 (by omega), h 2 (by omega), h 3 (by omega), h 4 (by omega), h5, low5, top1]
  simp only [Nat.sub_zero, Nat.reduceSub]
  omega

theorem xmaxc_lt (f : List Byte) (s : Nat) : xmaxc f s < 64 := by
  unfold xmaxc
  have h1 : (f.getD (s * 7 + 6) 0).toNat % 32 < 32 := Nat.mod_lt _ (by decide)
  have h2 : (f.getD (s * 7 + 7) 0).toNat < 256 := (f.getD (s * 7 + 7) 0).isLt
  omega

theorem getD_modify (f : List Byte) (j : Nat) (φ : Byte → Byte) (hj : j < f.length) (i : Nat) :
    (f.modify j φ).getD i 0 = if i = j then φ (f.getD i 0) else f.getD i 0 := by
  rw [List.getD_eq_getElem?_getD, List.getD_eq_getElem?_getD, List.getElem?_modify]
  by_cases h : i = j
  · subst h; rw [if_pos rfl, List.getElem?_eq_getElem hj]; simp
  · rw [if_neg h]
    have : ¬ j = i := fun h' => h h'.symm
    simp [this]

/-- Equal but for the bits marked by `P`. -/
def SameBut (P : Nat → Bool) (f g : List Byte) : Prop :=
  g.length = f.length ∧ ∀ i, P i = false → msb g i = msb f i

theorem SameBut.refl (P : Nat → Bool) (f : List Byte) : SameBut P f f := ⟨rfl, fun _ _ => rfl⟩

theorem SameBut.trans {P : Nat → Bool} {f g h : List Byte} (a : SameBut P f g) (b : SameBut P g h) : SameBut P f h :=
  ⟨b.1.trans a.1, fun i hi => (b.2 i hi).trans (a.2 i hi)⟩

theorem sameBut_modify {P : Nat → Bool} {f : List Byte} {j : Nat} {φ : Byte → Byte} (hj : j < f.length)
    (h : ∀ (b : Byte) (k : Nat), k < 8 → P (8 * j + (7 - k)) = false → (φ b).getLsbD k = b.getLsbD k) :
    SameBut P f (f.modify j φ) := by
  refine ⟨List.length_modify .., fun i hi => ?_⟩
  rw [msb_def, msb_def, getD_modify f j φ hj]
  by_cases hij : i / 8 = j
  · rw [if_pos hij]
    apply h _ _ (by omega)
    rw [show 8 * j + (7 - (7 - i % 8)) = i by omega]
    exact hi
  · rw [if_neg hij]

theorem ofNat_bit (n k : Nat) (hk : k < 8) : (BitVec.ofNat 8 n).getLsbD k = decide (n / 2 ^ k % 2 = 1) := by
  rw [BitVec.getLsbD_ofNat, Nat.testBit_eq_decide_div_mod_eq]; simp [hk]

theorem byte_bit (b : Byte) (k : Nat) : b.getLsbD k = decide (b.toNat / 2 ^ k % 2 = 1) := by
  rw [BitVec.getLsbD, Nat.testBit_eq_decide_div_mod_eq]

theorem putXmaxc_spec {f : List Byte} {s x : Nat} (hf : f.length = 33) (hs : s < 4) (hx : x < 64) :
    SameBut isAmp f (putXmaxc f s x) ∧ xmaxc (putXmaxc f s x) s = x ∧
      ∀ t, t ≠ s → xmaxc (putXmaxc f s x) t = xmaxc f t := by
  have h6 : s * 7 + 6 < f.length := by omega
  have h7 : s * 7 + 7 < (f.modify (s * 7 + 6) fun b => BitVec.ofNat 8 (b.toNat / 32 * 32 + x / 2)).length := by
    rw [List.length_modify]; omega
  refine ⟨SameBut.trans (sameBut_modify h6 ?_) (sameBut_modify h7 ?_), ?_, ?_⟩
  · intro b k hk hP
    have : 5 ≤ k := by
      apply Decidable.byContradiction
      intro hc
      have : isAmp (8 * (s * 7 + 6) + (7 - k)) = true := by
        unfold isAmp
        simp only [Bool.and_eq_true, decide_eq_true_eq]
        omega
      rw [this] at hP; exact absurd hP (by decide)
    rw [ofNat_bit _ _ hk, byte_bit]
    have hk' : k = 5 ∨ k = 6 ∨ k = 7 := by omega
    rcases hk' with rfl | rfl | rfl <;> (congr 2; simp only [Nat.reducePow]; omega)
  · intro b k hk hP
    have : k < 7 := by
      apply Decidable.byContradiction
      intro hc
      have : isAmp (8 * (s * 7 + 7) + (7 - k)) = true := by
        unfold isAmp
        simp only [Bool.and_eq_true, decide_eq_true_eq]
        omega
      rw [this] at hP; exact absurd hP (by decide)
    rw [ofNat_bit _ _ hk, byte_bit]
    have hk' : k = 0 ∨ k = 1 ∨ k = 2 ∨ k = 3 ∨ k = 4 ∨ k = 5 ∨ k = 6 := by omega
    rcases hk' with rfl | rfl | rfl | rfl | rfl | rfl | rfl <;> (congr 2; simp only [Nat.reducePow]; omega)
  · unfold xmaxc putXmaxc
    rw [getD_modify _ _ _ h7, getD_modify _ _ _ h6, getD_modify _ _ _ h7, getD_modify _ _ _ h6]
    rw [if_neg (by omega), if_pos rfl, if_pos rfl, if_neg (by omega)]
    simp only [BitVec.toNat_ofNat]
    have h1 : (f.getD (s * 7 + 6) 0).toNat < 256 := (f.getD (s * 7 + 6) 0).isLt
    have h2 : (f.getD (s * 7 + 7) 0).toNat < 256 := (f.getD (s * 7 + 7) 0).isLt
    omega
  · intro t ht
    unfold xmaxc putXmaxc
    rw [getD_modify _ _ _ h7, getD_modify _ _ _ h6, getD_modify _ _ _ h7, getD_modify _ _ _ h6]
    rw [if_neg (by omega), if_neg (by omega), if_neg (by omega), if_neg (by omega)]

theorem reduceLoop_spec : ∀ (n sub : Nat) (f : List Byte) (mute : Bool), sub + n = 4 → f.length = 33 →
    SameBut isAmp f (reduceLoop n sub f mute).1 ∧
    (∀ t, xmaxc (reduceLoop n sub f mute).1 t =
      if sub ≤ t ∧ t < 4 then xmaxc f t - 4 else xmaxc f t) ∧
    ((reduceLoop n sub f mute).2 = true ↔ mute = true ∧ ∀ t, sub ≤ t → t < 4 → xmaxc f t ≤ 4) := by
  intro n
  induction n with
  | zero =>
    intro sub f mute h hf
    refine ⟨SameBut.refl _ _, fun t => ?_, ?_⟩
    · rw [if_neg (by omega)]; rfl
    · exact ⟨fun h => ⟨h, fun t _ _ => by omega⟩, fun h => h.1⟩
  | succ n ih =>
    intro sub f mute h hf
    have hx := xmaxc_lt f sub
    unfold reduceLoop
    by_cases hc : xmaxc f sub > 4
    · rw [if_pos hc]
      obtain ⟨p1, p2, p3⟩ := putXmaxc_spec (x := xmaxc f sub - 4) hf (show sub < 4 by omega) (by omega)
      obtain ⟨q1, q2, q3⟩ := ih (sub + 1) (putXmaxc f sub (xmaxc f sub - 4)) false (by omega) (p1.1.trans hf)
      refine ⟨p1.trans q1, fun t => ?_, ?_⟩
      · rw [q2]
        by_cases ht : t = sub
        · subst ht; rw [if_neg (by omega), if_pos (by omega), p2]
        · rw [p3 t ht]
          by_cases hr : sub ≤ t ∧ t < 4
          · rw [if_pos hr, if_pos (by omega)]
          · rw [if_neg hr, if_neg (by omega)]
      · rw [q3]
        constructor
        · intro h; exact absurd h.1 (by decide)
        · intro h; have := h.2 sub (by omega) (by omega); omega
    · rw [if_neg hc]
      obtain ⟨p1, p2, p3⟩ := putXmaxc_spec (x := 0) hf (show sub < 4 by omega) (by omega)
      obtain ⟨q1, q2, q3⟩ := ih (sub + 1) (putXmaxc f sub 0) mute (by omega) (p1.1.trans hf)
      refine ⟨p1.trans q1, fun t => ?_, ?_⟩
      · rw [q2]
        by_cases ht : t = sub
        · subst ht; rw [if_neg (by omega), if_pos (by omega), p2]; omega
        · rw [p3 t ht]
          by_cases hr : sub ≤ t ∧ t < 4
          · rw [if_pos hr, if_pos (by omega)]
          · rw [if_neg hr, if_neg (by omega)]
      · rw [q3]
        constructor
        · intro h
          refine ⟨h.1, fun t h1 h2 => ?_⟩
          by_cases ht : t = sub
          · subst ht; omega
          · have := h.2 t (by omega) h2
            rwa [p3 t ht] at this
        · intro h
          refine ⟨h.1, fun t h1 h2 => ?_⟩
          rw [p3 t (by omega)]
          exact h.2 t (by omega) h2

theorem reduce_spec {f : List Byte} (hf : f.length = 33) :
    SameBut isAmp f (reduceXmaxc f).1 ∧ (∀ t < 4, amp (reduceXmaxc f).1 t = amp f t - 4) ∧
    ((reduceXmaxc f).2 = true ↔ ∀ t < 4, amp f t ≤ 4) := by
  obtain ⟨h1, h2, h3⟩ := reduceLoop_spec 4 0 f true rfl hf
  refine ⟨h1, fun t ht => ?_, ?_⟩
  · have := h2 t
    rw [if_pos (by omega), xmaxc_eq, xmaxc_eq] at this
    exact this
  · unfold reduceXmaxc
    rw [h3]
    simp only [true_and, xmaxc_eq]
    exact ⟨fun h t ht => h t (by omega) ht, fun h t _ ht => h t ht⟩

theorem gridLoop_succ (n sub : Nat) (f : List Byte) (s : BitVec 64) :
    gridLoop (n + 1) sub f s = gridLoop n (sub + 1)
      (f.modify (sub * 7 + 6) fun b =>
        BitVec.ofNat 8 (b.toNat / 128 * 128 + (Prbs.getUbit Prbs.prbs15 s).1.toNat * 64 +
          (Prbs.getUbit Prbs.prbs15 (Prbs.getUbit Prbs.prbs15 s).2).1.toNat * 32 + b.toNat % 32))
      (Prbs.getUbit Prbs.prbs15 (Prbs.getUbit Prbs.prbs15 s).2).2 := rfl

theorem gridLoop_spec : ∀ (n sub : Nat) (f : List Byte) (s : BitVec 64), sub + n = 4 → f.length = 33 →
    SameBut isGrid f (gridLoop n sub f s).1 := by
  intro n
  induction n with
  | zero => intro sub f s _ _; exact SameBut.refl _ _
  | succ n ih =>
    intro sub f s h hf
    rw [gridLoop_succ]
    have h6 : sub * 7 + 6 < f.length := by omega
    refine SameBut.trans (sameBut_modify h6 ?_) (ih _ _ _ (by omega) (by rw [List.length_modify]; exact hf))
    intro b k hk hP
    have h5 : isGrid (8 * (sub * 7 + 6) + (7 - 5)) = true := by
      unfold isGrid
      simp only [Bool.and_eq_true, decide_eq_true_eq]
      omega
    have h6' : isGrid (8 * (sub * 7 + 6) + (7 - 6)) = true := by
      unfold isGrid
      simp only [Bool.and_eq_true, decide_eq_true_eq]
      omega
    have hne : k ≠ 5 ∧ k ≠ 6 := by
      constructor <;> intro hc <;> subst hc
      · rw [h5] at hP; exact absurd hP (by decide)
      · rw [h6'] at hP; exact absurd hP (by decide)
    rw [ofNat_bit _ _ hk, byte_bit]
    generalize (Prbs.getUbit Prbs.prbs15 s).1 = u
    generalize (Prbs.getUbit Prbs.prbs15 (Prbs.getUbit Prbs.prbs15 s).2).1 = v
    have hb : b.toNat < 256 := b.isLt
    have hu : u.toNat ≤ 1 := by cases u <;> decide
    have hv : v.toNat ≤ 1 := by cases v <;> decide
    have hk' : k = 0 ∨ k = 1 ∨ k = 2 ∨ k = 3 ∨ k = 4 ∨ k = 7 := by omega
    rcases hk' with rfl | rfl | rfl | rfl | rfl | rfl <;> (congr 2; simp only [Nat.reducePow]; omega)

theorem msb_modify {f : List Byte} {j : Nat} (φ : Byte → Byte) (hj : j < f.length) (i : Nat) :
    msb (f.modify j φ) i = if i / 8 = j then (φ (f.getD j 0)).getLsbD (7 - i % 8) else msb f i := by
  rw [msb_def, msb_def, getD_modify f j φ hj]
  by_cases h : i / 8 = j
  · rw [if_pos h, if_pos h, h]
  · rw [if_neg h, if_neg h]

theorem getUbits_two (n : Nat) (s : BitVec 64) :
    Prbs.getUbits Prbs.prbs15 (2 * (n + 1)) s =
      ((Prbs.getUbit Prbs.prbs15 s).1 :: (Prbs.getUbit Prbs.prbs15 (Prbs.getUbit Prbs.prbs15 s).2).1 ::
        (Prbs.getUbits Prbs.prbs15 (2 * n) (Prbs.getUbit Prbs.prbs15 (Prbs.getUbit Prbs.prbs15 s).2).2).1,
       (Prbs.getUbits Prbs.prbs15 (2 * n) (Prbs.getUbit Prbs.prbs15 (Prbs.getUbit Prbs.prbs15 s).2).2).2) := by
  rw [show 2 * (n + 1) = (2 * n + 1) + 1 by omega]; rfl

theorem gridLoop_bits : ∀ (n sub : Nat) (f : List Byte) (s : BitVec 64), sub + n = 4 → f.length = 33 →
    (∀ t < sub, msb (gridLoop n sub f s).1 (56 * t + 49) = msb f (56 * t + 49) ∧
      msb (gridLoop n sub f s).1 (56 * t + 50) = msb f (56 * t + 50)) ∧
    (∀ k < n, msb (gridLoop n sub f s).1 (56 * (sub + k) + 49) = (Prbs.getUbits Prbs.prbs15 (2 * n) s).1.getD (2 * k) false ∧
      msb (gridLoop n sub f s).1 (56 * (sub + k) + 50) = (Prbs.getUbits Prbs.prbs15 (2 * n) s).1.getD (2 * k + 1) false) ∧
    (gridLoop n sub f s).2 = (Prbs.getUbits Prbs.prbs15 (2 * n) s).2 := by
  intro n
  induction n with
  | zero => intro sub f s _ _; exact ⟨fun t _ => ⟨rfl, rfl⟩, fun k hk => absurd hk (by omega), rfl⟩
  | succ n ih =>
    intro sub f s h hf
    rw [gridLoop_succ, getUbits_two]
    generalize (Prbs.getUbit Prbs.prbs15 s).1 = u
    generalize (Prbs.getUbit Prbs.prbs15 (Prbs.getUbit Prbs.prbs15 s).2).1 = v
    generalize (Prbs.getUbit Prbs.prbs15 (Prbs.getUbit Prbs.prbs15 s).2).2 = s'
    have h6 : sub * 7 + 6 < f.length := by omega
    obtain ⟨i1, i2, i3⟩ := ih (sub + 1) (f.modify (sub * 7 + 6) fun b =>
      BitVec.ofNat 8 (b.toNat / 128 * 128 + u.toNat * 64 + v.toNat * 32 + b.toNat % 32)) s' (by omega)
      (by rw [List.length_modify]; exact hf)
    have hb : (f.getD (sub * 7 + 6) 0).toNat < 256 := (f.getD (sub * 7 + 6) 0).isLt
    refine ⟨fun t ht => ?_, fun k hk => ?_, i3⟩
    · rw [(i1 t (by omega)).1, (i1 t (by omega)).2, msb_modify _ h6, msb_modify _ h6, if_neg (by omega), if_neg (by omega)]
      exact ⟨rfl, rfl⟩
    · cases k with
      | zero =>
        rw [show sub + 0 = sub from rfl, (i1 sub (by omega)).1, (i1 sub (by omega)).2, msb_modify _ h6, msb_modify _ h6,
          if_pos (by omega), if_pos (by omega), show 7 - (56 * sub + 49) % 8 = 6 by omega,
          show 7 - (56 * sub + 50) % 8 = 5 by omega, ofNat_bit _ _ (by decide), ofNat_bit _ _ (by decide)]
        simp only [Nat.reducePow]
        constructor
        · show _ = u
          cases u <;> cases v <;> simp only [Bool.toNat_true, Bool.toNat_false, decide_eq_true_eq, decide_eq_false_iff_not] <;> omega
        · show _ = v
          cases u <;> cases v <;> simp only [Bool.toNat_true, Bool.toNat_false, decide_eq_true_eq, decide_eq_false_iff_not] <;> omega
      | succ k =>
        have := i2 k (by omega)
        rw [show sub + 1 + k = sub + (k + 1) by omega] at this
        rw [this.1, this.2, show 2 * (k + 1) = (2 * k + 1) + 1 by omega]
        exact ⟨rfl, rfl⟩

/-- Only the bits of the block amplitude determine it. -/
theorem amp_congr {P : Nat → Bool} {f g : List Byte} (h : SameBut P f g) (s : Nat)
    (hP : ∀ k < 6, P (56 * s + (51 + k)) = false) : amp g s = amp f s := by
  unfold amp
  rw [h.2 _ (hP 0 (by decide)), h.2 _ (hP 1 (by decide)), h.2 _ (hP 2 (by decide)), h.2 _ (hP 3 (by decide)),
    h.2 _ (hP 4 (by decide)), h.2 _ (hP 5 (by decide))]

theorem grid_spec {f : List Byte} (s : BitVec 64) (hf : f.length = 33) :
    SameBut isGrid f (randomGrid f s).1 ∧ ∀ t, amp (randomGrid f s).1 t = amp f t := by
  have h := gridLoop_spec 4 0 f s rfl hf
  refine ⟨h, fun t => amp_congr h t fun k hk => ?_⟩
  unfold isGrid
  have : (56 * t + (51 + k) - 40) % 56 = 11 + k := by omega
  rw [this]
  have h1 : ¬ 11 + k < 11 := by omega
  simp [h1]

theorem SameBut.mono {P Q : Nat → Bool} {f g : List Byte} (h : SameBut P f g) (hq : ∀ i, Q i = false → P i = false) :
    SameBut Q f g := ⟨h.1, fun i hi => h.2 i (hq i hi)⟩

theorem amp_le (f : List Byte) (s : Nat) : amp f s < 64 := by rw [← xmaxc_eq]; exact xmaxc_lt f s

end Verif.Codec
