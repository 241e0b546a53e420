import Verif.Gsm0502.Model
import Verif.GsmUtils.FrameProps
import Mathlib.Tactic.IntervalCases
import Mathlib.Data.Int.ModEq
/-!
Frame number arithmetic (C34), hopping (C35), remapping of block ends (C36),
paging groups and CCCH blocks (C67).
-/
namespace Verif.Gsm0502
open Verif Verif.GsmUtils

/-! ### C34: arithmetic and order of frame numbers -/

/-- The sum is the frame reached after `b` steps: the unique frame number
congruent to `a + b` modulo the hyperframe. -/
theorem fnSum_spec (a b c : Nat) (ha : a < 2715648) (hb : b < 2715648) :
    fnSum a b = c ↔ c < 2715648 ∧ c % 2715648 = (a + b) % 2715648 := by
  rw [fnSum_value a b ha hb]
  omega

/-- The difference is the unique frame number which, added to `b`, gives `a`. -/
theorem fnSub_spec (a b c : Nat) (ha : a < 2715648) (hb : b < 2715648) :
    fnSub a b = c ↔ c < 2715648 ∧ fnSum b c = a := by
  rw [fnSub_value a b (by omega) hb]
  constructor
  · intro h
    have hc : c < 2715648 := by omega
    refine ⟨hc, ?_⟩
    rw [fnSum_value b c hb hc]
    omega
  · rintro ⟨hc, h⟩
    rw [fnSum_value b c hb hc] at h
    omega

/-- Frame numbers with `fnSum` are an abelian group. -/
theorem fnSum_group (a b c : Nat) (ha : a < 2715648) (hb : b < 2715648) (hc : c < 2715648) :
    fnSum a b = fnSum b a ∧ fnSum (fnSum a b) c = fnSum a (fnSum b c) ∧ fnSum a 0 = a ∧
    fnSum a (fnSub 0 a) = 0 ∧ fnSub a b = fnSum a (fnSub 0 b) := by
  have h1 : fnSum a b < 2715648 := by rw [fnSum_value a b ha hb]; omega
  have h2 : fnSum b c < 2715648 := by rw [fnSum_value b c hb hc]; omega
  have h3 : fnSub 0 a < 2715648 := by rw [fnSub_value 0 a (by omega) ha]; omega
  have h4 : fnSub 0 b < 2715648 := by rw [fnSub_value 0 b (by omega) hb]; omega
  rw [fnSum_value _ c h1 hc, fnSum_value a _ ha h2, fnSum_value a _ ha h3, fnSum_value a _ ha h4,
    fnSum_value a b ha hb, fnSum_value b a hb ha, fnSum_value b c hb hc,
    fnSum_value a 0 ha (by omega), fnSub_value 0 a (by omega) ha, fnSub_value 0 b (by omega) hb,
    fnSub_value a b (by omega) hb]
  omega

/-- The distance is the smaller of the two ways around the circle. -/
theorem fnDiff_spec (a b : Nat) (ha : a < 2715648) (hb : b < 2715648) :
    fnDiff a b = min (max a b - min a b) (2715648 - (max a b - min a b)) := by
  unfold fnDiff
  rw [fnSub_value a b (by omega) hb, fnSub_value b a (by omega) ha]
  by_cases h : a ≤ b
  · rw [Nat.max_eq_right h, Nat.min_eq_left h]
    split <;> omega
  · rw [Nat.max_eq_left (show b ≤ a by omega), Nat.min_eq_right (show b ≤ a by omega)]
    split <;> omega

/-- The distance is a metric. -/
theorem fnDiff_metric (a b c : Nat) (ha : a < 2715648) (hb : b < 2715648) (hc : c < 2715648) :
    fnDiff a b = fnDiff b a ∧ (fnDiff a b = 0 ↔ a = b) ∧ fnDiff a b ≤ 1357824 ∧
    fnDiff a c ≤ fnDiff a b + fnDiff b c := by
  rw [fnDiff_spec a b ha hb, fnDiff_spec b a hb ha, fnDiff_spec a c ha hc, fnDiff_spec b c hb hc]
  omega

/-- `fn1` is before `fn2` if `fn2` is reached from it in less than half a
hyperframe, after it if it is reached in at most half a hyperframe from `fn2`,
equal otherwise. -/
theorem fncmp_spec (a b : Nat) (ha : a < 2715648) (hb : b < 2715648) :
    (fncmp a b = 0 ↔ a = b) ∧
    (fncmp a b = -1 ↔ 0 < fnSub b a ∧ fnSub b a < 1357824) ∧
    (fncmp a b = 1 ↔ 0 < fnSub a b ∧ fnSub a b ≤ 1357824) := by
  rw [fnSub_value a b (by omega) hb, fnSub_value b a (by omega) ha]
  unfold fncmp HYPERFRAME
  split
  · omega
  · split <;> omega

/-- Not antisymmetric: two frames half a hyperframe apart are each after the
other. -/
theorem fncmp_counterexample : fncmp 0 1357824 = 1 ∧ fncmp 1357824 0 = 1 := by decide

/-- Antisymmetric otherwise.  Missing: frames exactly half a hyperframe apart. -/
theorem fncmp_antisymm_partial (a b : Nat) (ha : a < 2715648) (hb : b < 2715648)
    (h : fnDiff a b ≠ 1357824) : fncmp b a = - fncmp a b := by
  rw [fnDiff_spec a b ha hb] at h
  unfold fncmp HYPERFRAME
  split <;> split <;> (try split) <;> (try split) <;> omega

/-- The order agrees with moving forward: `k` frames later is after, for any
`k` up to half a hyperframe, also across the wrap. -/
theorem fncmp_later (a k : Nat) (ha : a < 2715648) (hk : 0 < k) (hk2 : k ≤ 1357824) :
    fncmp (fnSum a k) a = 1 ∧ (k < 1357824 → fncmp a (fnSum a k) = -1) := by
  rw [fnSum_value a k ha (by omega)]
  unfold fncmp HYPERFRAME
  constructor
  · split <;> (try split) <;> omega
  · intro h
    split <;> (try split) <;> omega

example : fncmp 2715647 3 = -1 ∧ fncmp 3 2715647 = 1 ∧ fnDiff 3 2715647 = 4 ∧
    fnSub 3 2715647 = 4 ∧ fnSum 2715647 4 = 3 := by decide

/-! ### C36: remapping of block ends -/

/-- The `k`-th traffic frame of a full rate channel: twelve out of thirteen
frames carry traffic (TS 45.002). -/
def fullFrame (k : Nat) : Nat := 13 * (k / 12) + k % 12

/-- The `k`-th traffic frame of half rate subchannel `s`: every other traffic
frame. -/
def halfFrame (s k : Nat) : Nat := 13 * (k / 6) + 2 * (k % 6) + s

/-- First and last frame of the `j`-th block of a channel, counted from frame 0:
TCH/F and FACCH/F blocks are interleaved over 8 traffic frames, a new one
starting every 4; TCH/H over 4, a new one every 2; FACCH/H over 6, a new one
every 4. -/
def blockBegin : Chan → Nat → Nat
  | .tchF, j => fullFrame (4 * j)
  | .facchF, j => fullFrame (4 * j)
  | .tchH0, j => halfFrame 0 (2 * j)
  | .tchH1, j => halfFrame 1 (2 * j)
  | .facchH0, j => halfFrame 0 (4 * j)
  | .facchH1, j => halfFrame 1 (4 * j)

@[inherit_doc blockBegin]
def blockEnd : Chan → Nat → Nat
  | .tchF, j => fullFrame (4 * j + 7)
  | .facchF, j => fullFrame (4 * j + 7)
  | .tchH0, j => halfFrame 0 (2 * j + 3)
  | .tchH1, j => halfFrame 1 (2 * j + 3)
  | .facchH0, j => halfFrame 0 (4 * j + 5)
  | .facchH1, j => halfFrame 1 (4 * j + 5)

theorem lookup3 (c e1 d1 e2 d2 e3 d3 fn : Nat) :
    (match [(e1, d1), (e2, d2), (e3, d3)].find? (fun r => r.1 == c) with
     | none => some fn | some r => some (fnSub fn r.2)) =
    some (if e1 = c then fnSub fn d1 else if e2 = c then fnSub fn d2
      else if e3 = c then fnSub fn d3 else fn) := by
  by_cases h1 : e1 = c
  · simp [List.find?, h1]
  · by_cases h2 : e2 = c
    · simp [List.find?, h1, h2, beq_eq_false_iff_ne.mpr h1]
    · by_cases h3 : e3 = c
      · simp [List.find?, h1, h2, h3, beq_eq_false_iff_ne.mpr h1, beq_eq_false_iff_ne.mpr h2]
      · simp [List.find?, h1, h2, h3, beq_eq_false_iff_ne.mpr h1, beq_eq_false_iff_ne.mpr h2,
          beq_eq_false_iff_ne.mpr h3]

theorem fnRemap_value (fn : Nat) (ch : Chan) :
    fnRemap fn ch.toNat = some (match ch with
    | .tchF => if 7 = fn % 13 % 256 then fnSub fn 7 else if 11 = fn % 13 % 256 then fnSub fn 7
        else if 3 = fn % 13 % 256 then fnSub fn 8 else fn
    | .tchH0 => if 6 = fn % 13 % 256 then fnSub fn 6 else if 10 = fn % 13 % 256 then fnSub fn 6
        else if 2 = fn % 13 % 256 then fnSub fn 7 else fn
    | .tchH1 => if 7 = fn % 13 % 256 then fnSub fn 6 else if 11 = fn % 13 % 256 then fnSub fn 6
        else if 3 = fn % 13 % 256 then fnSub fn 7 else fn
    | .facchF => if 7 = fn % 13 % 256 then fnSub fn 7 else if 11 = fn % 13 % 256 then fnSub fn 7
        else if 3 = fn % 13 % 256 then fnSub fn 8 else fn
    | .facchH0 => if 10 = fn % 26 % 256 then fnSub fn 10 else if 19 = fn % 26 % 256 then fnSub fn 11
        else if 2 = fn % 26 % 256 then fnSub fn 11 else fn
    | .facchH1 => if 11 = fn % 26 % 256 then fnSub fn 10 else if 20 = fn % 26 % 256 then fnSub fn 11
        else if 3 = fn % 26 % 256 then fnSub fn 11 else fn) := by
  cases ch <;> exact lookup3 _ _ _ _ _ _ _ _

theorem blockEnd_form (j : Nat) : ∃ q r, r < 3 ∧ j = 3 * q + r := ⟨j / 3, j % 3, by omega, by omega⟩

/-- The last frame of every block is mapped to the first frame of this block,
also if the block, or the number of the block, wraps at the hyperframe. -/
theorem fnRemap_block (ch : Chan) (j : Nat) :
    fnRemap (blockEnd ch j % 2715648) ch.toNat = some (blockBegin ch j % 2715648) := by
  rw [fnRemap_value]
  have sub : ∀ x k, k < 2715648 → fnSub (x % 2715648) k = (x % 2715648 + 2715648 - k) % 2715648 :=
    fun x k hk => fnSub_value _ k (by omega) hk
  obtain ⟨q, r, hr, rfl⟩ := blockEnd_form j
  have fr : r = 0 ∨ r = 1 ∨ r = 2 := by omega
  cases ch <;> dsimp only <;> congr 1
  · rcases fr with rfl | rfl | rfl
    · rw [show blockEnd .tchF (3 * q + 0) = 13 * q + 7 by simp only [blockEnd, fullFrame, halfFrame]; omega,
        show blockBegin .tchF (3 * q + 0) = 13 * q + 0 by simp only [blockBegin, fullFrame, halfFrame]; omega,
        if_pos (by omega), sub _ _ (by omega)]
      omega
    · rw [show blockEnd .tchF (3 * q + 1) = 13 * q + 11 by simp only [blockEnd, fullFrame, halfFrame]; omega,
        show blockBegin .tchF (3 * q + 1) = 13 * q + 4 by simp only [blockBegin, fullFrame, halfFrame]; omega,
        if_neg (by omega), if_pos (by omega), sub _ _ (by omega)]
      omega
    · rw [show blockEnd .tchF (3 * q + 2) = 13 * q + 16 by simp only [blockEnd, fullFrame, halfFrame]; omega,
        show blockBegin .tchF (3 * q + 2) = 13 * q + 8 by simp only [blockBegin, fullFrame, halfFrame]; omega,
        if_neg (by omega), if_neg (by omega), if_pos (by omega), sub _ _ (by omega)]
      omega
  · rcases fr with rfl | rfl | rfl
    · rw [show blockEnd .tchH0 (3 * q + 0) = 13 * q + 6 by simp only [blockEnd, fullFrame, halfFrame]; omega,
        show blockBegin .tchH0 (3 * q + 0) = 13 * q + 0 by simp only [blockBegin, fullFrame, halfFrame]; omega,
        if_pos (by omega), sub _ _ (by omega)]
      omega
    · rw [show blockEnd .tchH0 (3 * q + 1) = 13 * q + 10 by simp only [blockEnd, fullFrame, halfFrame]; omega,
        show blockBegin .tchH0 (3 * q + 1) = 13 * q + 4 by simp only [blockBegin, fullFrame, halfFrame]; omega,
        if_neg (by omega), if_pos (by omega), sub _ _ (by omega)]
      omega
    · rw [show blockEnd .tchH0 (3 * q + 2) = 13 * q + 15 by simp only [blockEnd, fullFrame, halfFrame]; omega,
        show blockBegin .tchH0 (3 * q + 2) = 13 * q + 8 by simp only [blockBegin, fullFrame, halfFrame]; omega,
        if_neg (by omega), if_neg (by omega), if_pos (by omega), sub _ _ (by omega)]
      omega
  · rcases fr with rfl | rfl | rfl
    · rw [show blockEnd .tchH1 (3 * q + 0) = 13 * q + 7 by simp only [blockEnd, fullFrame, halfFrame]; omega,
        show blockBegin .tchH1 (3 * q + 0) = 13 * q + 1 by simp only [blockBegin, fullFrame, halfFrame]; omega,
        if_pos (by omega), sub _ _ (by omega)]
      omega
    · rw [show blockEnd .tchH1 (3 * q + 1) = 13 * q + 11 by simp only [blockEnd, fullFrame, halfFrame]; omega,
        show blockBegin .tchH1 (3 * q + 1) = 13 * q + 5 by simp only [blockBegin, fullFrame, halfFrame]; omega,
        if_neg (by omega), if_pos (by omega), sub _ _ (by omega)]
      omega
    · rw [show blockEnd .tchH1 (3 * q + 2) = 13 * q + 16 by simp only [blockEnd, fullFrame, halfFrame]; omega,
        show blockBegin .tchH1 (3 * q + 2) = 13 * q + 9 by simp only [blockBegin, fullFrame, halfFrame]; omega,
        if_neg (by omega), if_neg (by omega), if_pos (by omega), sub _ _ (by omega)]
      omega
  · rcases fr with rfl | rfl | rfl
    · rw [show blockEnd .facchF (3 * q + 0) = 13 * q + 7 by simp only [blockEnd, fullFrame, halfFrame]; omega,
        show blockBegin .facchF (3 * q + 0) = 13 * q + 0 by simp only [blockBegin, fullFrame, halfFrame]; omega,
        if_pos (by omega), sub _ _ (by omega)]
      omega
    · rw [show blockEnd .facchF (3 * q + 1) = 13 * q + 11 by simp only [blockEnd, fullFrame, halfFrame]; omega,
        show blockBegin .facchF (3 * q + 1) = 13 * q + 4 by simp only [blockBegin, fullFrame, halfFrame]; omega,
        if_neg (by omega), if_pos (by omega), sub _ _ (by omega)]
      omega
    · rw [show blockEnd .facchF (3 * q + 2) = 13 * q + 16 by simp only [blockEnd, fullFrame, halfFrame]; omega,
        show blockBegin .facchF (3 * q + 2) = 13 * q + 8 by simp only [blockBegin, fullFrame, halfFrame]; omega,
        if_neg (by omega), if_neg (by omega), if_pos (by omega), sub _ _ (by omega)]
      omega
  · rcases fr with rfl | rfl | rfl
    · rw [show blockEnd .facchH0 (3 * q + 0) = 26 * q + 10 by simp only [blockEnd, fullFrame, halfFrame]; omega,
        show blockBegin .facchH0 (3 * q + 0) = 26 * q + 0 by simp only [blockBegin, fullFrame, halfFrame]; omega,
        if_pos (by omega), sub _ _ (by omega)]
      omega
    · rw [show blockEnd .facchH0 (3 * q + 1) = 26 * q + 19 by simp only [blockEnd, fullFrame, halfFrame]; omega,
        show blockBegin .facchH0 (3 * q + 1) = 26 * q + 8 by simp only [blockBegin, fullFrame, halfFrame]; omega,
        if_neg (by omega), if_pos (by omega), sub _ _ (by omega)]
      omega
    · rw [show blockEnd .facchH0 (3 * q + 2) = 26 * q + 28 by simp only [blockEnd, fullFrame, halfFrame]; omega,
        show blockBegin .facchH0 (3 * q + 2) = 26 * q + 17 by simp only [blockBegin, fullFrame, halfFrame]; omega,
        if_neg (by omega), if_neg (by omega), if_pos (by omega), sub _ _ (by omega)]
      omega
  · rcases fr with rfl | rfl | rfl
    · rw [show blockEnd .facchH1 (3 * q + 0) = 26 * q + 11 by simp only [blockEnd, fullFrame, halfFrame]; omega,
        show blockBegin .facchH1 (3 * q + 0) = 26 * q + 1 by simp only [blockBegin, fullFrame, halfFrame]; omega,
        if_pos (by omega), sub _ _ (by omega)]
      omega
    · rw [show blockEnd .facchH1 (3 * q + 1) = 26 * q + 20 by simp only [blockEnd, fullFrame, halfFrame]; omega,
        show blockBegin .facchH1 (3 * q + 1) = 26 * q + 9 by simp only [blockBegin, fullFrame, halfFrame]; omega,
        if_neg (by omega), if_pos (by omega), sub _ _ (by omega)]
      omega
    · rw [show blockEnd .facchH1 (3 * q + 2) = 26 * q + 29 by simp only [blockEnd, fullFrame, halfFrame]; omega,
        show blockBegin .facchH1 (3 * q + 2) = 26 * q + 18 by simp only [blockBegin, fullFrame, halfFrame]; omega,
        if_neg (by omega), if_neg (by omega), if_pos (by omega), sub _ _ (by omega)]
      omega

/-- A frame which is not the last frame of any block is returned unchanged. -/
theorem fnRemap_other (ch : Chan) (fn : Nat) (hfn : fn < 2715648)
    (h : ∀ j, blockEnd ch j % 2715648 ≠ fn) : fnRemap fn ch.toNat = some fn := by
  rw [fnRemap_value]
  have key : ∀ q, ∀ r < 3, ∀ x, blockEnd ch (3 * q + r) = x → x % 2715648 ≠ fn := by
    intro q r _ x hx
    rw [← hx]
    exact h _
  clear h
  cases ch <;> dsimp only <;> congr 1
  · refine (if_neg ?_).trans ((if_neg ?_).trans (if_neg ?_))
    · intro hc
      exact key (fn / 13) 0 (by omega) (13 * (fn / 13) + 7) (by simp only [blockEnd, fullFrame, halfFrame]; omega) (by omega)
    · intro hc
      exact key (fn / 13) 1 (by omega) (13 * (fn / 13) + 11) (by simp only [blockEnd, fullFrame, halfFrame]; omega) (by omega)
    · intro hc
      exact key (((fn + 2715648) / 13 - 1)) 2 (by omega) (13 * (((fn + 2715648) / 13 - 1)) + 16) (by simp only [blockEnd, fullFrame, halfFrame]; omega) (by omega)
  · refine (if_neg ?_).trans ((if_neg ?_).trans (if_neg ?_))
    · intro hc
      exact key (fn / 13) 0 (by omega) (13 * (fn / 13) + 6) (by simp only [blockEnd, fullFrame, halfFrame]; omega) (by omega)
    · intro hc
      exact key (fn / 13) 1 (by omega) (13 * (fn / 13) + 10) (by simp only [blockEnd, fullFrame, halfFrame]; omega) (by omega)
    · intro hc
      exact key (((fn + 2715648) / 13 - 1)) 2 (by omega) (13 * (((fn + 2715648) / 13 - 1)) + 15) (by simp only [blockEnd, fullFrame, halfFrame]; omega) (by omega)
  · refine (if_neg ?_).trans ((if_neg ?_).trans (if_neg ?_))
    · intro hc
      exact key (fn / 13) 0 (by omega) (13 * (fn / 13) + 7) (by simp only [blockEnd, fullFrame, halfFrame]; omega) (by omega)
    · intro hc
      exact key (fn / 13) 1 (by omega) (13 * (fn / 13) + 11) (by simp only [blockEnd, fullFrame, halfFrame]; omega) (by omega)
    · intro hc
      exact key (((fn + 2715648) / 13 - 1)) 2 (by omega) (13 * (((fn + 2715648) / 13 - 1)) + 16) (by simp only [blockEnd, fullFrame, halfFrame]; omega) (by omega)
  · refine (if_neg ?_).trans ((if_neg ?_).trans (if_neg ?_))
    · intro hc
      exact key (fn / 13) 0 (by omega) (13 * (fn / 13) + 7) (by simp only [blockEnd, fullFrame, halfFrame]; omega) (by omega)
    · intro hc
      exact key (fn / 13) 1 (by omega) (13 * (fn / 13) + 11) (by simp only [blockEnd, fullFrame, halfFrame]; omega) (by omega)
    · intro hc
      exact key (((fn + 2715648) / 13 - 1)) 2 (by omega) (13 * (((fn + 2715648) / 13 - 1)) + 16) (by simp only [blockEnd, fullFrame, halfFrame]; omega) (by omega)
  · refine (if_neg ?_).trans ((if_neg ?_).trans (if_neg ?_))
    · intro hc
      exact key (fn / 26) 0 (by omega) (26 * (fn / 26) + 10) (by simp only [blockEnd, fullFrame, halfFrame]; omega) (by omega)
    · intro hc
      exact key (fn / 26) 1 (by omega) (26 * (fn / 26) + 19) (by simp only [blockEnd, fullFrame, halfFrame]; omega) (by omega)
    · intro hc
      exact key (((fn + 2715648) / 26 - 1)) 2 (by omega) (26 * (((fn + 2715648) / 26 - 1)) + 28) (by simp only [blockEnd, fullFrame, halfFrame]; omega) (by omega)
  · refine (if_neg ?_).trans ((if_neg ?_).trans (if_neg ?_))
    · intro hc
      exact key (fn / 26) 0 (by omega) (26 * (fn / 26) + 11) (by simp only [blockEnd, fullFrame, halfFrame]; omega) (by omega)
    · intro hc
      exact key (fn / 26) 1 (by omega) (26 * (fn / 26) + 20) (by simp only [blockEnd, fullFrame, halfFrame]; omega) (by omega)
    · intro hc
      exact key (((fn + 2715648) / 26 - 1)) 2 (by omega) (26 * (((fn + 2715648) / 26 - 1)) + 29) (by simp only [blockEnd, fullFrame, halfFrame]; omega) (by omega)

/-- The assertion only admits the six channels. -/
theorem fnRemap_chan (fn c : Nat) : fnRemap fn c = none ↔ 6 ≤ c := by
  constructor
  · intro h
    by_contra hc
    have : c = 0 ∨ c = 1 ∨ c = 2 ∨ c = 3 ∨ c = 4 ∨ c = 5 := by omega
    rcases this with rfl | rfl | rfl | rfl | rfl | rfl
    · have := fnRemap_value fn .tchF; simp only [Chan.toNat] at this; rw [this] at h; cases h
    · have := fnRemap_value fn .tchH0; simp only [Chan.toNat] at this; rw [this] at h; cases h
    · have := fnRemap_value fn .tchH1; simp only [Chan.toNat] at this; rw [this] at h; cases h
    · have := fnRemap_value fn .facchF; simp only [Chan.toNat] at this; rw [this] at h; cases h
    · have := fnRemap_value fn .facchH0; simp only [Chan.toNat] at this; rw [this] at h; cases h
    · have := fnRemap_value fn .facchH1; simp only [Chan.toNat] at this; rw [this] at h; cases h
  · intro h
    unfold fnRemap
    rw [List.getElem?_eq_none (by simpa [remapTables] using h)]

example : blockEnd .facchH0 2 = 28 ∧ fnRemap 28 4 = some 17 ∧ fnRemap 3 0 = some 2715643 ∧
    fnRemap 5 0 = some 5 := by decide

/-! ### C35: hopping -/

/-- The sequence of TS 45.002, 6.2.3, as written there: `nbin` bits are needed
for the number of frequencies. -/
def specMai (fn hsn maio n : Nat) : Nat :=
  if hsn = 0 then (fn + maio) % n
  else
    let t1r := fn / (26 * 51) % 64
    let t2 := fn % 26
    let t3 := fn % 51
    let nbin := Nat.log2 n + 1
    let m := t2 + rnTable.getD (Nat.xor hsn t1r + t3) 0
    let m' := m % 2 ^ nbin
    let t' := t3 % 2 ^ nbin
    let s := if m' < n then m' else (m' + t') % n
    (maio + s) % n

theorem pnm_eq : ∀ n : Fin 128, 0 < n.val → pnm n.val = 2 ^ (Nat.log2 n.val + 1) - 1 := by
  decide +kernel

theorem rn_index (h x t3 : Nat) (hh : h < 64) (ht : t3 < 51) : (h ^^^ (x &&& 63)) + t3 < 114 := by
  have h1 : x &&& 63 < 64 := by
    rw [show (63 : Nat) = 2 ^ 6 - 1 by decide, Nat.and_two_pow_sub_one_eq_mod]
    exact Nat.mod_lt _ (by decide)
  have h2 : h ^^^ (x &&& 63) < 2 ^ 6 := Nat.xor_lt_two_pow hh h1
  omega

/-- For every frame number, hopping sequence number below 64 and number of
frequencies between 1 and 127, the index is that of TS 45.002. -/
theorem hopMai_spec (fn hsn maio n : Nat) (hfn : fn < 2715648) (hh : hsn < 64) (hm : maio < 256)
    (hn : 0 < n) (hn2 : n < 128) :
    hopMai (fn2gsmtime fn) hsn maio n = some (specMai fn hsn maio n) := by
  unfold hopMai specMai
  rw [if_neg (by omega)]
  by_cases h0 : hsn = 0
  · rw [if_pos h0, if_pos h0]
    simp only [fn2gsmtime]
    rw [Nat.mod_eq_of_lt (by omega : fn + maio < 4294967296)]
  · rw [if_neg h0, if_neg h0]
    have e1 : (fn2gsmtime fn).t1 &&& 63 = fn / (26 * 51) % 64 := by
      rw [show (63 : Nat) = 2 ^ 6 - 1 by decide, Nat.and_two_pow_sub_one_eq_mod]
      simp only [fn2gsmtime]
      omega
    have e2 : (fn2gsmtime fn).t2 = fn % 26 := by simp only [fn2gsmtime]; omega
    have e3 : (fn2gsmtime fn).t3 = fn % 51 := by simp only [fn2gsmtime]; omega
    have hi : (hsn ^^^ ((fn2gsmtime fn).t1 &&& 63)) + (fn2gsmtime fn).t3 < rnTable.length := by
      have := rn_index hsn (fn2gsmtime fn).t1 (fn2gsmtime fn).t3 hh (by rw [e3]; omega)
      simpa [rnTable] using this
    obtain ⟨r, hr⟩ : ∃ r, rnTable[(hsn ^^^ ((fn2gsmtime fn).t1 &&& 63)) + (fn2gsmtime fn).t3]? = some r :=
      ⟨_, List.getElem?_eq_getElem hi⟩
    have hg : rnTable.getD (Nat.xor hsn (fn / (26 * 51) % 64) + fn % 51) 0 = r := by
      have : (hsn ^^^ ((fn2gsmtime fn).t1 &&& 63)) + (fn2gsmtime fn).t3 =
          Nat.xor hsn (fn / (26 * 51) % 64) + fn % 51 := by rw [e1, e3]; rfl
      rw [List.getD_eq_getElem?_getD, ← this, hr]
      rfl
    have hp := pnm_eq ⟨n, hn2⟩ hn
    simp only at hp
    rw [hr]
    simp only [e2, e3, hp, hg, Nat.and_two_pow_sub_one_eq_mod, Nat.add_comm maio]

/-- The index is inside of the mobile allocation, for any time computed from a
frame number; no access outside of the random table. -/
theorem hopMai_lt (fn hsn maio n : Nat) (hh : hsn < 64) (hn : 0 < n) :
    ∃ i, hopMai (fn2gsmtime fn) hsn maio n = some i ∧ i < n := by
  unfold hopMai
  rw [if_neg (by omega)]
  by_cases h0 : hsn = 0
  · rw [if_pos h0]
    exact ⟨_, rfl, Nat.mod_lt _ hn⟩
  · rw [if_neg h0]
    have hi : (hsn ^^^ ((fn2gsmtime fn).t1 &&& 63)) + (fn2gsmtime fn).t3 < rnTable.length := by
      have := rn_index hsn (fn2gsmtime fn).t1 (fn2gsmtime fn).t3 hh (by simp only [fn2gsmtime]; omega)
      simpa [rnTable] using this
    rw [List.getElem?_eq_getElem hi]
    exact ⟨_, rfl, Nat.mod_lt _ hn⟩

/-- With a mobile allocation, the result is one of its ARFCNs. -/
theorem hopSeqGen_mem (fn hsn maio : Nat) (ma : List Nat) (hh : hsn < 64) (hma : ma ≠ []) :
    ∃ a, hopSeqGen (fn2gsmtime fn) hsn maio ma.length (some ma) = some a ∧ a ∈ ma := by
  obtain ⟨i, hi, hlt⟩ := hopMai_lt fn hsn maio ma.length hh (List.length_pos_iff.mpr hma)
  unfold hopSeqGen
  rw [hi]
  exact ⟨ma[i], List.getElem?_eq_getElem hlt, List.getElem_mem hlt⟩

theorem add_mod_inj {s a b n : Nat} (ha : a < n) (hb : b < n) (h : (s + a) % n = (s + b) % n) :
    a = b := by
  exact Nat.ModEq.eq_of_lt_of_lt (Nat.ModEq.add_left_cancel' s h) ha hb

/-- Two channels on the same allocation and hopping sequence with different
MAIO never use the same index at the same time. -/
theorem hopMai_nocollision (fn hsn a b n : Nat) (hfn : fn < 2715648) (hh : hsn < 64)
    (ha : a < n) (hb : b < n) (hn : n ≤ 256) (hab : a ≠ b) :
    hopMai (fn2gsmtime fn) hsn a n ≠ hopMai (fn2gsmtime fn) hsn b n := by
  unfold hopMai
  have hn0 : ¬ n = 0 := by omega
  rw [if_neg hn0, if_neg hn0]
  by_cases h0 : hsn = 0
  · rw [if_pos h0, if_pos h0]
    simp only [fn2gsmtime]
    rw [Nat.mod_eq_of_lt (by omega : fn + a < 4294967296),
      Nat.mod_eq_of_lt (by omega : fn + b < 4294967296)]
    intro h
    exact hab (add_mod_inj ha hb (Option.some.inj h))
  · rw [if_neg h0, if_neg h0]
    have hi : (hsn ^^^ ((fn2gsmtime fn).t1 &&& 63)) + (fn2gsmtime fn).t3 < rnTable.length := by
      have := rn_index hsn (fn2gsmtime fn).t1 (fn2gsmtime fn).t3 hh (by simp only [fn2gsmtime]; omega)
      simpa [rnTable] using this
    rw [List.getElem?_eq_getElem hi]
    intro h
    exact hab (add_mod_inj ha hb (Option.some.inj h))

/-- Hence they never use the same ARFCN, if the allocation lists none twice. -/
theorem hopSeqGen_nocollision (fn hsn a b : Nat) (ma : List Nat) (hfn : fn < 2715648)
    (hh : hsn < 64) (ha : a < ma.length) (hb : b < ma.length) (hn : ma.length ≤ 256)
    (hd : ma.Nodup) (hab : a ≠ b) :
    hopSeqGen (fn2gsmtime fn) hsn a ma.length (some ma) ≠
    hopSeqGen (fn2gsmtime fn) hsn b ma.length (some ma) := by
  obtain ⟨i, hi, hil⟩ := hopMai_lt fn hsn a ma.length hh (by omega)
  obtain ⟨j, hj, hjl⟩ := hopMai_lt fn hsn b ma.length hh (by omega)
  have hne := hopMai_nocollision fn hsn a b ma.length hfn hh ha hb hn hab
  rw [hi, hj] at hne
  unfold hopSeqGen
  rw [hi, hj]
  simp only [List.getElem?_eq_getElem hil, List.getElem?_eq_getElem hjl]
  intro h
  apply hne
  have hij := (List.getElem_inj hd).mp (Option.some.inj h)
  rw [hij]

/-- Cyclic hopping uses every index once in any `n` consecutive frames: the
index increases by one, modulo `n`, from frame to frame. -/
theorem hopMai_cyclic (fn maio n : Nat) (hfn : fn + 1 < 2715648) (hm : maio < 256) (hn : 0 < n)
    (i j : Nat) (hi : hopMai (fn2gsmtime fn) 0 maio n = some i)
    (hj : hopMai (fn2gsmtime (fn + 1)) 0 maio n = some j) : j = if i + 1 = n then 0 else i + 1 := by
  unfold hopMai at hi hj
  rw [if_neg (by omega), if_pos rfl] at hi hj
  simp only [fn2gsmtime, Option.some.injEq] at hi hj
  rw [Nat.mod_eq_of_lt (show fn + maio < 4294967296 by omega)] at hi
  rw [Nat.mod_eq_of_lt (show fn + 1 + maio < 4294967296 by omega)] at hj
  subst hi hj
  rw [show fn + 1 + maio = (fn + maio) + 1 by omega]
  generalize fn + maio = x
  have hlt := Nat.mod_lt x hn
  rw [Nat.add_mod]
  by_cases h1 : n = 1
  · subst h1
    simp [Nat.mod_one]
  · rw [Nat.mod_eq_of_lt (show 1 < n by omega)]
    split
    · rename_i h
      rw [h, Nat.mod_self]
    · rw [Nat.mod_eq_of_lt (by omega)]

/-- The 114 random numbers are distinct and below 128. -/
theorem rnTable_distinct : rnTable.length = 114 ∧ rnTable.Nodup ∧ ∀ x ∈ rnTable, x < 128 := by
  decide +kernel

example : hopMai (fn2gsmtime 1234567) 17 3 5 = some 1 ∧ hopMai (fn2gsmtime 1234567) 17 4 5 = some 2 ∧
    hopSeqGen (fn2gsmtime 1234567) 17 2 3 (some [10, 20, 30]) = some 20 := by decide

/-! ### C67: paging groups and CCCH blocks -/

/-- A control channel description allowed by TS 44.018: one of the five CCCH
configurations, and at least one paging block left. -/
def Allowed (d : ChanDescr) : Prop :=
  (d.ccchConf = 0 ∨ d.ccchConf = 1 ∨ d.ccchConf = 2 ∨ d.ccchConf = 4 ∨ d.ccchConf = 6) ∧
  (d.ccchConf = 1 → d.bsAgBlksRes ≤ 2)

/-- BS_CC_CHANS of TS 45.002, 3.3.2.3: the number of CCCHs configured. -/
def specChans (d : ChanDescr) : Nat := if d.ccchConf = 1 then 1 else d.ccchConf / 2 + 1

/-- The number N of paging blocks on one CCCH, TS 45.002, 6.5.2: those of one
51-multiframe (3 if combined, 9 otherwise, less the blocks reserved for access
grants) times BS_PA_MFRMS, which is coded as 0 for 2 multiframes. -/
def specBlocks (d : ChanDescr) : Nat :=
  ((if d.ccchConf = 1 then 3 else 9) - d.bsAgBlksRes) * (d.bsPaMfrms + 2)

theorem nPagSubchans_spec (d : ChanDescr) (hd : d.Ok) (ha : Allowed d) :
    nPagSubchans d = specBlocks d ∧ 2 ≤ specBlocks d ∧ specBlocks d ≤ 81 := by
  obtain ⟨c, r, m⟩ := d
  obtain ⟨h1, h2, h3⟩ := hd
  obtain ⟨h4, h5⟩ := ha
  simp only at *
  unfold nPagSubchans specBlocks nPagBlocks
  simp only
  interval_cases m <;> rcases h4 with rfl | rfl | rfl | rfl | rfl <;>
    simp at * <;> omega

theorem chans_spec (d : ChanDescr) (ha : Allowed d) :
    (ccchConfToCcChans d.ccchConf % 4294967296).toNat = specChans d ∧
    1 ≤ specChans d ∧ specChans d ≤ 4 := by
  obtain ⟨c, r, m⟩ := d
  obtain ⟨h4, h5⟩ := ha
  unfold ccchConfToCcChans specChans
  simp only at *
  rcases h4 with rfl | rfl | rfl | rfl | rfl <;> simp

/-- The groups computed for a subscriber: `CCCH_GROUP` is below the number of
CCCHs, `PAGING_GROUP` below the number of paging blocks, and together they are
the position of `IMSI mod 1000` among all paging blocks of the cell. -/
theorem groups_spec (d : ChanDescr) (imsi : Nat) (hd : d.Ok) (ha : Allowed d) :
    ∃ c p, ccchGroup imsi (specChans d) (specBlocks d) = some c ∧
      calcPagingGroup d imsi = some p ∧
      c < specChans d ∧ p < specBlocks d ∧
      c * specBlocks d + p = imsi % 1000 % (specChans d * specBlocks d) := by
  obtain ⟨hb, hb1, hb2⟩ := nPagSubchans_spec d hd ha
  obtain ⟨hc, hc1, hc2⟩ := chans_spec d ha
  unfold calcPagingGroup
  rw [hc, hb]
  generalize specChans d = k at *
  generalize specBlocks d = n at *
  unfold ccchGroup pagingGroup sext
  have hkn : k * n ≤ 4 * 81 := Nat.mul_le_mul hc2 hb2
  have hpos : 0 < k * n := Nat.mul_pos (by omega) (by omega)
  rw [Nat.mod_eq_of_lt (by omega : k * n < 4294967296), if_neg (by omega), if_neg (by omega),
    if_pos (by omega)]
  refine ⟨_, _, rfl, rfl, ?_, Nat.mod_lt _ (by omega), ?_⟩
  · rw [Nat.div_lt_iff_lt_mul (by omega)]
    exact Nat.mod_lt _ hpos
  · exact Nat.div_add_mod' _ _

/-- No division by zero whatever the description received, valid or not. -/
theorem calcPagingGroup_total (d : ChanDescr) (imsi : Nat) (hd : d.Ok) :
    ∃ p, calcPagingGroup d imsi = some p ∧ p < 1000 := by
  obtain ⟨c, r, m⟩ := d
  obtain ⟨h1, h2, h3⟩ := hd
  simp only at *
  have key : nPagSubchans ⟨c, r, m⟩ ≠ 0 ∧
      (ccchConfToCcChans c % 4294967296).toNat * nPagSubchans ⟨c, r, m⟩ % 4294967296 ≠ 0 := by
    have hall : ∀ c r m : Fin 8, nPagSubchans ⟨c, r, m⟩ ≠ 0 ∧
      (ccchConfToCcChans c % 4294967296).toNat * nPagSubchans ⟨c, r, m⟩ % 4294967296 ≠ 0 := by
      decide +kernel
    exact hall ⟨c, h1⟩ ⟨r, h2⟩ ⟨m, h3⟩
  unfold calcPagingGroup pagingGroup
  simp only
  rw [if_neg (by omega)]
  refine ⟨_, rfl, ?_⟩
  exact lt_of_le_of_lt (Nat.mod_le _ _) (lt_of_le_of_lt (Nat.mod_le _ _) (Nat.mod_lt _ (by omega)))

/-- The group of a description which is not allowed (combined CCCH, 4 blocks
reserved) is not below the number of paging blocks. -/
theorem calcPagingGroup_counterexample :
    calcPagingGroup ⟨1, 4, 0⟩ 901700000012999 = some 999 := by decide

/-- CCCH block `b` occupies four consecutive frames of the 51-multiframe: the
first one after the BCCH, then two after each FCCH/SCH pair. -/
theorem fn2ccchBlock_spec (fn : Nat) :
    ∃ v, fn2ccchBlock fn = some v ∧ v < 9 ∧
      ∀ b : Nat, v = b ↔ b < 9 ∧ ∃ i < 4, fn % 51 = 10 * ((b + 1) / 2) + 2 + 4 * ((b + 1) % 2) + i := by
  unfold fn2ccchBlock
  have hlt : fn % 51 < 51 := Nat.mod_lt _ (by omega)
  have hall : ∀ k : Fin 51, ∃ v, ccchBlockTable[k.val]? = some v ∧ v < 9 ∧
      ∀ b : Fin 9, v = (b.val : Int) ↔
        ∃ i < 4, k.val = 10 * ((b.val + 1) / 2) + 2 + 4 * ((b.val + 1) % 2) + i := by
    intro k
    refine ⟨ccchBlockTable[k.val]'(by have := k.isLt; simpa [ccchBlockTable] using this),
      List.getElem?_eq_getElem _, ?_, ?_⟩ <;> revert k <;> decide +kernel
  obtain ⟨v, h1, h2, h3⟩ := hall ⟨fn % 51, hlt⟩
  refine ⟨v, h1, h2, ?_⟩
  intro b
  constructor
  · intro hv
    have hb : b < 9 := by omega
    exact ⟨hb, (h3 ⟨b, hb⟩).mp hv⟩
  · rintro ⟨hb, hi⟩
    exact (h3 ⟨b, hb⟩).mpr hi

example : fn2ccchBlock (51 * 7 + 23) = some 3 ∧ fn2ccchBlock 50 = some (-4) ∧
    calcPagingGroup ⟨0, 1, 3⟩ 262420000000123 = some 3 := by decide

end Verif.Gsm0502
