import Verif.Chan.Block
import Verif.Interleave.Bursts
/-!
Where the bits of a block are in the bursts, and what is wrong there.
-/
namespace Verif.Chan
open Verif.Conv Verif.ConvAcc Verif.Interleave

variable {α : Type}

/-- the elements at some places -/
def pick (z : α) (places : List Nat) (l : List α) : List α := places.map fun p => l.getD p z

theorem pick_eq {z : α} {n : Nat} {f : Nat → Nat} {q l : List α} (hq : q.length = n) (h : ∀ k < n, q[k]? = l[f k]?) :
    q = pick z ((List.range n).map f) l := by
  apply List.ext_getElem
  · simp [pick, hq]
  · intro i h1 h2
    have := h i (by omega)
    simp only [pick, List.map_map, List.getElem_map, List.getElem_range, Function.comp_apply]
    rw [List.getD_eq_getElem?_getD, ← this, List.getElem?_eq_getElem h1, Option.getD_some]

/-- how much the soft bits at these places contradict the bits sent -/
def contra (places : List Nat) (sent : List Byte) (r : List Int) : Int :=
  (places.map fun p => if sent.getD p 0#8 = 0#8 then (if r.getD p 0 < 0 then -(r.getD p 0) else 0)
    else (if 0 < r.getD p 0 then r.getD p 0 else 0)).sum

/-- the number of places where the soft bit does not say what was sent -/
def wrong (places : List Nat) (sent : List Byte) (r : List Int) : Nat :=
  (places.filter fun p => decide (¬ Says (r.getD p 0) (sent.getD p 0#8 ≠ 0#8))).length

theorem sum_perm {l l' : List Int} (h : l.Perm l') : l.sum = l'.sum := by
  induction h with
  | nil => rfl
  | cons x _ ih => simp [ih]
  | swap x y l => simp only [List.sum_cons]; omega
  | trans _ _ h1 h2 => rw [h1, h2]

theorem contra_perm {a b : List Nat} (h : a.Perm b) (sent : List Byte) (r : List Int) : contra a sent r = contra b sent r :=
  sum_perm (h.map _)

theorem wrong_perm {a b : List Nat} (h : a.Perm b) (sent : List Byte) (r : List Int) : wrong a sent r = wrong b sent r :=
  (h.filter _).length_eq

theorem against_pick (b : List Byte) (r : List Int) : ∀ (pos : List Nat) (sent : List Bool), pick 0#8 pos b = sent.map ubit →
    against sent (pick 0 pos r) = contra pos b r
  | [], [], _ => rfl
  | [], _ :: _, h => by simp [pick] at h
  | _ :: _, [], h => by simp [pick] at h
  | p :: pos, s :: sent, h => by
    simp only [pick, List.map_cons, List.cons.injEq] at h
    have ih := against_pick b r pos sent h.2
    simp only [pick, contra, List.map_cons, List.sum_cons, against] at ih ⊢
    rw [ih, h.1]
    cases s <;> simp [ubit]

theorem errorsIn_pick (b : List Byte) (r : List Int) : ∀ (pos : List Nat) (sent : List Bool), pick 0#8 pos b = sent.map ubit →
    errorsIn sent (pick 0 pos r) = wrong pos b r
  | [], [], _ => rfl
  | [], _ :: _, h => by simp [pick] at h
  | _ :: _, [], h => by simp [pick] at h
  | p :: pos, s :: sent, h => by
    simp only [pick, List.map_cons, List.cons.injEq] at h
    have ih := errorsIn_pick b r pos sent h.2
    simp only [pick, errorsIn, wrong, List.map_cons, List.zip_cons_cons, List.filter_cons, h.1, ubit_ne] at ih ⊢
    split
    · rw [List.length_cons, List.length_cons, ih]
    · exact ih

theorem perm_of_mask {a b : List Nat} {m : Nat} (ha : mask a = some m) (hb : mask b = some m) : a.Perm b := by
  obtain ⟨a1, a2⟩ := mask_spec a m ha
  obtain ⟨b1, b2⟩ := mask_spec b m hb
  exact (List.perm_ext_iff_of_nodup a1 b1).2 fun x => by rw [← a2, b2]

theorem perm_of_same {a b : List Nat} (h : mask a = mask b) (hs : (mask a).isSome = true) : a.Perm b := by
  obtain ⟨m, hm⟩ := Option.isSome_iff_exists.1 hs
  exact perm_of_mask hm (by rw [← h, hm])

/-! ### xCCH -/

/-- the place of coded bit `k` in the bursts -/
def xcchPos (k : Nat) : Nat := 116 * (xcchPlace k / 114) + mid (xcchPlace k % 114)

/-- the bits of four bursts without the flags -/
def xcchData : List Nat := (List.range 464).filter fun p => p % 116 ≠ 57 ∧ p % 116 ≠ 58

theorem xcch_perm : ((List.range 456).map xcchPos).Perm xcchData := perm_of_same (by decide +kernel) (by decide +kernel)

theorem xcchReceive_spec (cB iB r : List α) (z : α) (h1 : cB.length = 456) (h2 : iB.length = 456) (h3 : r.length = 464) :
    xcchReceive cB iB r = some (pick z ((List.range 456).map xcchPos) r) := by
  have recv : ∀ n ≤ 4, ∃ x, (List.range n).foldlM (fun iB k => (xcchBurstUnmap (k * 114) (k * 116) iB r).map (·.1)) iB = some x ∧
      x.length = 456 ∧ ∀ B < n, ∀ j < 114, x[114 * B + j]? = r[116 * B + mid j]? := by
    intro n
    induction n with
    | zero => intro _; exact ⟨iB, rfl, h2, fun r h => absurd h (by omega)⟩
    | succ n ih =>
      intro hn4
      obtain ⟨x, k1, k2, k3⟩ := ih (by omega)
      obtain ⟨d, _, _, g1, g2, g3, -, -, g6⟩ := xcchBurstUnmap_spec (n * 114) (n * 116) x r (by omega) (by omega)
      refine ⟨d, ?_, by omega, ?_⟩
      · rw [foldlM_range_succ, k1]
        dsimp only [Option.bind]
        rw [g1]
        rfl
      · intro B hB j hj
        by_cases h : B < n
        · rw [g6 _ (by omega), k3 B h j hj]
        · have : B = n := by omega
          subst this
          rw [Nat.mul_comm 114, g3 j hj, Nat.mul_comm]
  obtain ⟨x, k1, k2, k3⟩ := recv 4 (by omega)
  have hm := xcch_mask
  obtain ⟨d, g1, g2, g3⟩ := gather_spec hm (by decide +kernel) x cB k2 h1
  unfold xcchReceive
  rw [k1]
  dsimp only [bind, Option.bind]
  have e : xcchDeinterleave cB x = some d := g1
  rw [e]
  refine congrArg some (pick_eq g2 fun k hk => ?_)
  have hp : xcchPlace k < 456 := ((mask_full hm).2 _).1 (List.mem_map.2 ⟨k, List.mem_range.2 hk, rfl⟩)
  rw [g3 k hk]
  have := k3 (xcchPlace k / 114) (by omega) (xcchPlace k % 114) (Nat.mod_lt _ (by omega))
  rw [Nat.div_add_mod] at this
  exact this

/-! ### FACCH/F and TCH/F -/

/-- the place of coded bit `k` in the bursts -/
def tchFPos (k : Nat) : Nat := 116 * (k % 8) + mid (2 * (49 * k % 57) + k % 8 / 4)

/-- the even bits of four bursts and the odd bits of the next four -/
def tchFData : List Nat := (List.range 928).filter fun p => p % 116 ≠ 57 ∧ p % 116 ≠ 58 ∧ p % 116 % 2 = p / 116 / 4

theorem tchF_perm : ((List.range 456).map tchFPos).Perm tchFData := perm_of_same (by decide +kernel) (by decide +kernel)

theorem tchFrReceive_spec (cB iB r : List α) (z : α) (h1 : cB.length = 456) (h2 : iB.length = 912) (h3 : 928 ≤ r.length) :
    tchFrReceive 0 cB iB r = some (pick z ((List.range 456).map tchFPos) r) := by
  have key := genReceive_spec (o := fun i => i >>> 2) tchFr_diagonal (by omega) (fun i _ => by rw [Nat.shiftRight_eq_div_pow]) 0
    cB iB r (pick z ((List.range 456).map tchFPos) r) (by omega) h1 (by omega) (by simp [pick]) (by
      simp only [List.mem_map, List.mem_range]
      rintro _ ⟨k, hk, rfl⟩
      dsimp only
      rw [tchFrPlace_eq]
      have hx : 2 * (49 * k % 57) + k % 8 / 4 < 114 := by omega
      rw [Nat.mul_add_mod, Nat.mod_eq_of_lt hx, Nat.mul_add_div (by omega), Nat.div_eq_of_lt hx, Nat.add_zero, Nat.zero_add]
      have hm : mid (2 * (49 * k % 57) + k % 8 / 4) < 116 := by unfold mid; split <;> omega
      have hlt : 116 * (k % 8) + mid (2 * (49 * k % 57) + k % 8 / 4) < r.length := by omega
      simp only [pick, List.getElem?_map, List.getElem?_range hk, Option.map_some]
      rw [List.getD_eq_getElem?_getD]
      show _ = some (r[tchFPos k]?.getD z)
      unfold tchFPos
      rw [List.getElem?_eq_getElem hlt, Option.getD_some])
  unfold genReceive at key
  rw [List.map_map] at key
  exact key

/-! ### FACCH/H -/

/-- the place of coded bit `k` in the bursts -/
def facchHPos (k : Nat) : Nat := 116 * (if k % 8 < 6 then k % 8 else k % 8 - 4) + mid (2 * (49 * k % 57) + k % 8 / 4)

/-- the even bits of two bursts, all bits of two and the odd bits of two -/
def facchHData : List Nat := (List.range 696).filter fun p => p % 116 ≠ 57 ∧ p % 116 ≠ 58 ∧ (p / 116 < 2 → p % 116 % 2 = 0) ∧
  (4 ≤ p / 116 → p % 116 % 2 = 1)

theorem facchH_perm : ((List.range 456).map facchHPos).Perm facchHData := perm_of_same (by decide +kernel) (by decide +kernel)

theorem facchHReceive_spec (cB iB r : List α) (z : α) (h1 : cB.length = 456) (h2 : iB.length = 912) (h3 : 696 ≤ r.length) :
    facchHReceive 0 cB iB r = some (pick z ((List.range 456).map facchHPos) r) := by
  have hs : ∀ B < 6, B >>> 2 = B / 4 := fun B _ => Nat.shiftRight_eq_div_pow B 2
  obtain ⟨x1, l1, l2, l3, l4⟩ := unmapLoop_spec (fun i => i >>> 2) 0 iB r 6
    (fun k hk => by rw [Nat.shiftRight_eq_div_pow]; omega) 6 (by omega) (by omega) (by omega)
  obtain ⟨x2, m1, m2, m3, m4⟩ := tchBurstUnmap_spec (2 * 114 + 456) (0 + 2 * 116) 1 x1 r (by omega) (by omega) (by omega)
  obtain ⟨x3, n1, n2, n3, n4⟩ := tchBurstUnmap_spec (3 * 114 + 456) (0 + 3 * 116) 1 x2 r (by omega) (by omega) (by omega)
  have back : ∀ B < 8, ∀ j < 114, j % 2 = B / 4 → x3[114 * B + j]? = r[116 * (if B < 6 then B else B - 4) + mid j]? := by
    intro B hB j hj hp
    by_cases hB6 : B < 6
    · rw [n4 _ (by omega), m4 _ (by omega), l3 B hB6 j hj (by rw [hs B hB6]; exact hp), if_pos hB6, Nat.zero_add]
    · rw [if_neg hB6]
      by_cases h6 : B = 6
      · subst h6
        rw [n4 _ (by omega), show 114 * 6 + j = 2 * 114 + 456 + j by omega, m3 j hj (by omega)]
      · have h7 : B = 7 := by omega
        subst h7
        rw [show 114 * 7 + j = 3 * 114 + 456 + j by omega, n3 j hj (by omega)]
  obtain ⟨m, hm1, hm2⟩ := of_any tchFr_mask
  obtain ⟨c, q1, q2, q3⟩ := gather_spec hm1 hm2 x3 cB (by omega) h1
  unfold facchHReceive
  rw [l1]; dsimp only [bind, Option.bind]
  simp only [List.foldlM_cons, List.foldlM_nil, bind, Option.bind, m1, n1, pure]
  have e : tchFrDeinterleave cB x3 = some c := q1
  rw [e]
  refine congrArg some (pick_eq q2 fun k hk => ?_)
  rw [q3 k hk, tchFrPlace_eq]
  have := back (k % 8) (by omega) (2 * (49 * k % 57) + k % 8 / 4) (by omega) (by omega)
  rw [this]
  rfl

end Verif.Chan
