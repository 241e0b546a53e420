import Verif.GsmUtils.Model
import Mathlib.Tactic.Ring
import Mathlib.Tactic.Linarith
import Mathlib.Tactic.IntervalCases
/-!
Packing of septets into octets and back (C30).

The specification reads both sides as one large number, least significant
digit first: septets are its digits to the base 128, octets its digits to the
base 256.  TS 23.038 6.1.2.1.1 packs the bits of the septets in this order, and
`p` bits of padding are a factor `2^p`.
-/
namespace Verif.GsmUtils
open Verif

/-- The number with the given digits, least significant first. -/
def num (b : Nat) : List Nat → Nat
  | [] => 0
  | x :: xs => x + b * num b xs

theorem num_append (b : Nat) (xs ys : List Nat) : num b (xs ++ ys) = num b xs + b ^ xs.length * num b ys := by
  induction xs with
  | nil => simp [num]
  | cons x xs ih =>
    simp only [List.cons_append, num, ih, List.length_cons, Nat.pow_succ]
    ring

theorem num_lt {b : Nat} (hb : 0 < b) {xs : List Nat} (h : ∀ x ∈ xs, x < b) : num b xs < b ^ xs.length := by
  induction xs with
  | nil => simp [num]
  | cons x xs ih =>
    have h1 := ih fun y hy => h y (List.mem_cons_of_mem _ hy)
    have h2 := h x (List.mem_cons_self ..)
    simp only [num, List.length_cons, Nat.pow_succ]
    have : b * (num b xs + 1) ≤ b * b ^ xs.length := Nat.mul_le_mul_left _ h1
    rw [Nat.mul_add] at this
    rw [Nat.mul_comm (b ^ xs.length)]
    omega

/-- Digit `i` of the number. -/
theorem num_digit {b : Nat} (hb : 0 < b) {xs : List Nat} (h : ∀ x ∈ xs, x < b) (i : Nat) :
    num b xs / b ^ i % b = xs[i]?.getD 0 := by
  induction xs generalizing i with
  | nil => simp [num]
  | cons x xs ih =>
    have h2 := h x (List.mem_cons_self ..)
    cases i with
    | zero => simp [num, Nat.add_mul_mod_self_left, Nat.mod_eq_of_lt h2]
    | succ i =>
      have : num b (x :: xs) / b ^ (i + 1) = num b xs / b ^ i := by
        rw [Nat.pow_succ, Nat.mul_comm (b ^ i) b, ← Nat.div_div_eq_div_mul]
        simp only [num]
        rw [Nat.add_mul_div_left _ _ hb, Nat.div_eq_of_lt h2, Nat.zero_add]
      rw [this, ih (fun y hy => h y (List.mem_cons_of_mem _ hy))]
      simp

/-- A list of digits is determined by its length and its number. -/
theorem num_inj {b : Nat} (hb : 0 < b) : ∀ {xs ys : List Nat}, (∀ x ∈ xs, x < b) → (∀ y ∈ ys, y < b) →
    xs.length = ys.length → num b xs = num b ys → xs = ys
  | [], [], _, _, _, _ => rfl
  | [], _ :: _, _, _, h, _ => by cases h
  | _ :: _, [], _, _, h, _ => by cases h
  | x :: xs, y :: ys, hx, hy, hl, hn => by
    simp only [num] at hn
    have h1 := hx x (List.mem_cons_self ..)
    have h2 := hy y (List.mem_cons_self ..)
    have e1 : x = y := by
      have := congrArg (· % b) hn
      simpa [Nat.add_mul_mod_self_left, Nat.mod_eq_of_lt h1, Nat.mod_eq_of_lt h2] using this
    subst e1
    have e2 : num b xs = num b ys := by
      have : b * num b xs = b * num b ys := by omega
      exact Nat.eq_of_mul_eq_mul_left hb this
    rw [num_inj hb (fun z hz => hx z (List.mem_cons_of_mem _ hz)) (fun z hz => hy z (List.mem_cons_of_mem _ hz))
      (by simpa using hl) e2]

/-! ### The packing loop -/

theorem and127 (x : Nat) : x &&& 0x7f = x % 128 := Nat.and_two_pow_sub_one_eq_mod x 7

theorem and7 (x : Nat) : x &&& 7 = x % 8 := Nat.and_two_pow_sub_one_eq_mod x 3

theorem octet_or {a b s : Nat} (ha : a < 128) (hs : s < 7) :
    (a >>> s) ||| ((b <<< (7 - s)) % 256) = a / 2 ^ s + 2 ^ (7 - s) * (b % 2 ^ (s + 1)) := by
  have h1 : (b <<< (7 - s)) % 256 = (b % 2 ^ (s + 1)) <<< (7 - s) := by
    rw [Nat.shiftLeft_eq, Nat.shiftLeft_eq]
    have : 256 = 2 ^ (s + 1) * 2 ^ (7 - s) := by
      rw [← Nat.pow_add]; rw [show s + 1 + (7 - s) = 8 by omega]
    rw [this, Nat.mul_mod_mul_right]
  have h2 : a >>> s < 2 ^ (7 - s) := by
    rw [Nat.shiftRight_eq_div_pow, Nat.div_lt_iff_lt_mul (Nat.two_pow_pos s), ← Nat.pow_add]
    rw [show 7 - s + s = 7 by omega]; exact ha
  rw [h1, Nat.or_comm, ← Nat.shiftLeft_add_eq_or_of_lt h2, Nat.shiftLeft_eq, Nat.shiftRight_eq_div_pow]
  ring

theorem packLoop_spec : ∀ (d : List Nat) (s : Nat), s ≤ 7 →
    num 256 (packLoop s d) = num 128 (d.map (· % 128)) / 2 ^ s
  | [], s, _ => by simp [packLoop, num]
  | [a], s, hs => by
    simp only [packLoop, List.map_cons, List.map_nil, num, and127, Nat.mul_zero, Nat.add_zero]
    split
    · subst s; simp only [num]
      rw [Nat.div_eq_of_lt]; exact Nat.mod_lt _ (by decide)
    · simp [num, Nat.shiftRight_eq_div_pow]
  | a :: b :: r, s, hs => by
    simp only [packLoop]
    have hx : num 128 ((a :: b :: r).map (· % 128)) = a % 128 + 128 * num 128 ((b :: r).map (· % 128)) := rfl
    have hy : num 128 ((b :: r).map (· % 128)) = b % 128 + 128 * num 128 (r.map (· % 128)) := rfl
    split
    · subst s
      rw [packLoop_spec (b :: r) 0 (by omega), hx]
      generalize num 128 ((b :: r).map (· % 128)) = X
      simp only [Nat.pow_zero, Nat.div_one]
      omega
    · rename_i h7
      have hs' : s < 7 := by omega
      simp only [num]
      rw [packLoop_spec (b :: r) (s + 1) (by omega), hx, and127, and127, octet_or (Nat.mod_lt _ (by decide)) hs', hy]
      generalize num 128 (r.map (· % 128)) = X
      have ha : a % 128 < 128 := Nat.mod_lt _ (by decide)
      have hb : b % 128 < 128 := Nat.mod_lt _ (by decide)
      generalize a % 128 = a at *
      generalize b % 128 = b at *
      clear hx hy h7
      interval_cases s <;> omega

theorem packLoop_length : ∀ (d : List Nat) (s : Nat), s ≤ 7 → d ≠ [] → (packLoop s d).length = (7 * d.length - s + 7) / 8
  | [], _, _, h => absurd rfl h
  | [a], s, hs, _ => by
    simp only [packLoop]
    split
    · subst s; simp
    · simp only [List.length_cons, List.length_nil]; omega
  | a :: b :: r, s, hs, _ => by
    simp only [packLoop]
    split
    · rw [packLoop_length (b :: r) 0 (by omega) (by simp)]
      simp only [List.length_cons]; omega
    · rw [List.length_cons, packLoop_length (b :: r) (s + 1) (by omega) (by simp)]
      simp only [List.length_cons]; omega

theorem packLoop_lt : ∀ (d : List Nat) (s : Nat), s ≤ 7 → ∀ x ∈ packLoop s d, x < 256
  | [], _, _, _, h => by simp [packLoop] at h
  | [a], s, hs, x, h => by
    simp only [packLoop] at h
    split at h
    · cases h
    · rw [List.mem_singleton] at h
      rw [h, and127, Nat.shiftRight_eq_div_pow]
      have h1 := Nat.div_le_self (a % 128) (2 ^ s)
      have h2 : a % 128 < 128 := Nat.mod_lt _ (by decide)
      omega
  | a :: b :: r, s, hs, x, h => by
    simp only [packLoop] at h
    split at h
    · exact packLoop_lt (b :: r) 0 (by omega) x h
    · rcases List.mem_cons.1 h with h | h
      · rw [h]
        have h1 : (a &&& 127) >>> s < 2 ^ 8 := by
          rw [and127, Nat.shiftRight_eq_div_pow]
          have h1 := Nat.div_le_self (a % 128) (2 ^ s)
          have h2 : a % 128 < 128 := Nat.mod_lt _ (by decide)
          omega
        exact Nat.or_lt_two_pow h1 (Nat.mod_lt _ (by decide))
      · exact packLoop_lt (b :: r) (s + 1) (by omega) x h

/-- **C30**, packing: with `p ≤ 7` bits of padding the octets are the number of
the septets times `2^p`, in `⌈(7 n + p) / 8⌉` octets. -/
theorem septetPack_spec (d : List Nat) (p : Nat) (hp : p ≤ 7) :
    ∃ o, septetPack d p = some o ∧ o.length = (7 * d.length + p + 7) / 8 ∧ (∀ x ∈ o, x < 256) ∧
      num 256 o = 2 ^ p * num 128 (d.map (· % 128)) := by
  unfold septetPack
  rw [if_neg (by omega)]
  by_cases h0 : p = 0
  · rw [if_neg (by simpa using h0)]
    subst h0
    refine ⟨_, rfl, ?_, packLoop_lt _ _ (by omega), ?_⟩
    · cases d with
      | nil => rfl
      | cons a d => rw [packLoop_length _ _ (by omega) (by simp)]; omega
    · rw [packLoop_spec _ _ (by omega)]; simp
  · rw [if_pos h0]
    refine ⟨_, rfl, ?_, packLoop_lt _ _ (by omega), ?_⟩
    · rw [packLoop_length _ _ (by omega) (by simp), List.length_cons]; omega
    · rw [packLoop_spec _ _ (by omega)]
      simp only [List.map_cons, num, Nat.zero_mod, Nat.zero_add]
      have : 128 = 2 ^ p * 2 ^ (7 - p) := by rw [← Nat.pow_add, show p + (7 - p) = 7 by omega]
      rw [this, Nat.mul_right_comm, Nat.mul_div_cancel _ (Nat.two_pow_pos _), ← this]

example : septetPack [0x68, 0x65, 0x6c, 0x6c, 0x6f] 0 = some [0xe8, 0x32, 0x9b, 0xfd, 0x06] := by decide
example : septetPack [0x68, 0x65] 1 = some [0xd0, 0x65] := by decide
example : septetPack [1, 2, 3] 8 = none := by decide

/-- **C30**, octets of `n` septets, `⌈7 n / 8⌉`, for every `uint8_t` argument. -/
theorem getOctetLen_eq (n : Nat) (h : n < 256) : getOctetLen n = (7 * n + 7) / 8 := by
  unfold getOctetLen
  rw [Nat.mod_eq_of_lt (by split <;> omega)]
  split <;> omega

/-! ### Reading a septet -/

theorem or_div {x y m : Nat} (hm1 : 1 ≤ m) (hm : m < 8) (hx : x < 256) :
    (((y <<< (8 - m)) % 256) ||| (x >>> m)) = x / 2 ^ m + 2 ^ (8 - m) * (y % 2 ^ m) := by
  have h1 : (y <<< (8 - m)) % 256 = (y % 2 ^ m) <<< (8 - m) := by
    rw [Nat.shiftLeft_eq, Nat.shiftLeft_eq]
    have : 256 = 2 ^ m * 2 ^ (8 - m) := by
      rw [← Nat.pow_add]; rw [show m + (8 - m) = 8 by omega]
    rw [this, Nat.mul_mod_mul_right]
  have h2 : x >>> m < 2 ^ (8 - m) := by
    rw [Nat.shiftRight_eq_div_pow, Nat.div_lt_iff_lt_mul (Nat.two_pow_pos m), ← Nat.pow_add]
    rw [show 8 - m + m = 8 by omega]; exact hx
  rw [h1, ← Nat.shiftLeft_add_eq_or_of_lt h2, Nat.shiftLeft_eq, Nat.shiftRight_eq_div_pow]
  ring

theorem num_drop {b : Nat} (hb : 0 < b) {xs : List Nat} (h : ∀ x ∈ xs, x < b) (i : Nat) :
    num b xs / b ^ i = num b (xs.drop i) := by
  induction xs generalizing i with
  | nil => simp [num]
  | cons x xs ih =>
    cases i with
    | zero => simp
    | succ i =>
      have h2 := h x (List.mem_cons_self ..)
      rw [Nat.pow_succ, Nat.mul_comm (b ^ i) b, ← Nat.div_div_eq_div_mul]
      simp only [num, List.drop_succ_cons]
      rw [Nat.add_mul_div_left _ _ hb, Nat.div_eq_of_lt h2, Nat.zero_add]
      exact ih (fun y hy => h y (List.mem_cons_of_mem _ hy)) i

/-- The septet read at position `j` is digit `j` to the base 128 of the octets
(those in the first `m`), whenever its first bit lies within them. -/
theorem septetAt_spec (ud : List Nat) (m j : Nat) (hm : m ≤ ud.length) (hb : ∀ x ∈ ud, x < 256)
    (hr : 7 * j / 8 < m) : septetAt ud m j = some (num 256 (ud.take m) / 128 ^ j % 128) := by
  have hbt : ∀ x ∈ ud.take m, x < 256 := fun x hx => hb x (List.mem_of_mem_take hx)
  have hrl : 7 * j / 8 < ud.length := by omega
  have hV : num 256 (ud.take m) / 128 ^ j = num 256 ((ud.take m).drop (7 * j / 8)) / 2 ^ (7 * j % 8) := by
    rw [← num_drop (by decide) hbt, Nat.div_div_eq_div_mul]
    congr 1
    rw [show (256 : Nat) = 2 ^ 8 by rfl, show (128 : Nat) = 2 ^ 7 by rfl, ← Nat.pow_mul, ← Nat.pow_mul, ← Nat.pow_add]
    congr 1; omega
  have hget : (ud.take m)[7 * j / 8]? = some ud[7 * j / 8] := by
    rw [List.getElem?_take, if_pos hr, List.getElem?_eq_getElem hrl]
  have hd0 : (ud.take m).drop (7 * j / 8) = ud[7 * j / 8] :: (ud.take m).drop (7 * j / 8 + 1) := by
    rw [List.drop_eq_getElem_cons (by simp; omega)]
    congr 1
    rw [List.getElem_take]
  have hx : ud[7 * j / 8] < 256 := hb _ (List.getElem_mem _)
  rw [hV, hd0]
  unfold septetAt
  simp only [and127, and7]
  have e3 : (j * 7) >>> 3 = 7 * j / 8 := by rw [Nat.shiftRight_eq_div_pow, Nat.mul_comm]
  have e4 : (j * 7 + 7) >>> 3 = (7 * j + 7) / 8 := by rw [Nat.shiftRight_eq_div_pow, Nat.mul_comm]
  have e5 : (j * 7) % 8 = 7 * j % 8 := by rw [Nat.mul_comm]
  rw [e3, e4, e5, List.getElem?_eq_getElem hrl]
  by_cases hmz : 7 * j % 8 = 0
  · rw [show (7 * j + 7) / 8 = 7 * j / 8 by omega, if_neg (by omega), List.getElem?_eq_getElem hrl, hmz,
      show (j * 7 + 7) % 8 = 7 by omega]
    generalize ud[7 * j / 8] = x at *
    simp only [Option.map_some, num, Nat.pow_zero, Nat.div_one, Nat.shiftRight_zero, Nat.shiftLeft_zero,
      show 7 - 7 = 0 from rfl, Nat.mod_eq_of_lt hx, Nat.or_self]
    congr 1; omega
  · have hsh : 7 - (j * 7 + 7) % 8 = 8 - 7 * j % 8 := by omega
    have hmlt : 7 * j % 8 < 8 := Nat.mod_lt _ (by decide)
    rw [hsh, show (7 * j + 7) / 8 = 7 * j / 8 + 1 by omega]
    by_cases hl : 7 * j / 8 + 1 ≥ m
    · have hd1 : (ud.take m).drop (7 * j / 8 + 1) = [] := by
        rw [List.drop_eq_nil_iff]; simp; omega
      rw [if_pos hl, hd1]
      simp only [num, Nat.zero_or, Nat.mul_zero, Nat.add_zero, Nat.shiftRight_eq_div_pow]
    · have hll : 7 * j / 8 + 1 < ud.length := by omega
      have hd1 : (ud.take m).drop (7 * j / 8 + 1) = ud[7 * j / 8 + 1] :: (ud.take m).drop (7 * j / 8 + 1 + 1) := by
        rw [List.drop_eq_getElem_cons (by simp; omega)]
        congr 1
        rw [List.getElem_take]
      have hy : ud[7 * j / 8 + 1] < 256 := hb _ (List.getElem_mem _)
      rw [if_neg hl, List.getElem?_eq_getElem hll, hd1]
      simp only [Option.map_some, num]
      rw [or_div (by omega) hmlt hx]
      generalize ud[7 * j / 8 + 1] = y at *
      generalize ud[7 * j / 8] = x at *
      generalize num 256 (List.drop (7 * j / 8 + 1 + 1) (List.take m ud)) = X at *
      congr 1
      generalize 7 * j % 8 = s at *
      have : 1 ≤ s := by omega
      clear hsh hV hget hd0 hd1 hl hll e3 e4 e5 hr hrl hb hbt hm hmz
      interval_cases s <;> omega

/-- Reading beyond the announced octets is refused only when the caller's array
is shorter: an octet is read, and it must exist. -/
theorem septetAt_none (ud : List Nat) (m j : Nat) (h : ud.length ≤ 7 * j / 8) : septetAt ud m j = none := by
  unfold septetAt
  have e3 : (j * 7) >>> 3 = 7 * j / 8 := by rw [Nat.shiftRight_eq_div_pow, Nat.mul_comm]
  simp only [e3, List.getElem?_eq_none h]
  split <;> simp_all

end Verif.GsmUtils
