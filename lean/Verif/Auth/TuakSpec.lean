import Verif.Auth.Tuak
import Verif.Auth.Claims
import Verif.Auth.KeccakSpec
import Verif.Endian.Props
import Mathlib.Tactic.Ring
/-!
TUAK after TS 35.231, written with numbers of 1600 bits, and that the functions
of tuak.c compute it.
-/
namespace Verif.Auth
open Verif.Endian (beVal leVal)

/-! ### TS 35.231 -/

/-- FIPS 202 3.1.2: bit `64 (5 y + x) + z` of the string is bit (x, y, z) of the state. -/
def stateNum (N : Nat) : State := fun x y => BitVec.ofNat 64 (N / 2 ^ (64 * (x + 5 * y)))

/-- FIPS 202 3.1.3: back from state to string. -/
def numOf (A : State) : Nat :=
  (List.range 25).foldr (fun i acc => (A (i % 5) (i / 5)).toNat + 2 ^ 64 * acc) 0

/-- Keccak-f[1600] on a string of 1600 bits, bit i of the number being bit i of the string. -/
def keccakNum (N : Nat) : Nat := numOf (keccakF (stateNum N))

/-- `n` times the function `P`. -/
def times (P : Nat → Nat) : Nat → Nat → Nat
  | 0, N => N
  | n + 1, N => times P n (P N)

/-- TS 35.231 6.2 onwards: OUT. The input string is TOP or TOPc (256 bits),
INSTANCE (8), ALGONAME (56), RAND (128), AMF (16), SQN (48), KEY (256, a short
key filled up with zeroes), the padding 11111, zeroes, a one at bit 1087, and
zeroes for the capacity of 512 bits. -/
def tuakOut (P : Nat → Nat) (iters top inst rand amf sqn key : Nat) : Nat :=
  times P iters (top + inst * 2 ^ 256 + 0x5455414b312e30 * 2 ^ 264 + rand * 2 ^ 320 + amf * 2 ^ 448 +
    sqn * 2 ^ 464 + key * 2 ^ 512 + 0b11111 * 2 ^ 768 + 2 ^ 1087)

/-- The low `8 n` bits of a number, most significant byte first. -/
def be (N n : Nat) : List Byte := (List.range n).map fun i => BitVec.ofNat 8 (N / 256 ^ (n - 1 - i))

/-- TS 35.231: the last bit of INSTANCE tells a key of 256 bits. -/
def longKey (k : List Byte) : Nat := if k.length = 32 then 1 else 0

/-- TS 35.231 6.3-6.7: TUAK with MAC of 64 bits, RES of `n` bytes, CK and IK of
128 bits.  INSTANCE is selector (2 bits: f1 0, f1* 2, f2-f5 1, f5* 3), length
of MAC or RES in units of 64 bits (3 bits), long CK, long IK, long K. -/
def tuak (P : Nat → Nat) (iters : Nat) (topc k : List Byte) (n : Nat) : Aka :=
  let out := fun inst rand amf sqn => tuakOut P iters (beVal topc) inst (beVal rand) amf sqn (beVal k)
  { f1 := fun sqn amf rand => be (out (0 * 64 + 1 * 8 + longKey k) rand (beVal amf) (beVal sqn)) 8
    f1s := fun sqn amf rand => be (out (2 * 64 + 1 * 8 + longKey k) rand (beVal amf) (beVal sqn)) 8
    f2 := fun rand => be (out (1 * 64 + n / 8 * 8 + longKey k) rand 0 0) n
    f3 := fun rand => be (out (1 * 64 + n / 8 * 8 + longKey k) rand 0 0 / 2 ^ 256) 16
    f4 := fun rand => be (out (1 * 64 + n / 8 * 8 + longKey k) rand 0 0 / 2 ^ 512) 16
    f5 := fun rand => be (out (1 * 64 + n / 8 * 8 + longKey k) rand 0 0 / 2 ^ 768) 6
    f5s := fun rand => be (out (3 * 64 + longKey k) rand 0 0 / 2 ^ 768) 6 }

/-- TS 35.231 6.2: TOPc from TOP. -/
def tTopc (P : Nat → Nat) (iters : Nat) (top k : List Byte) : List Byte :=
  be (tuakOut P iters (beVal top) (longKey k) 0 0 0 (beVal k)) 32

/-! ### Numbers and bytes -/

theorem leVal_append (a b : List Byte) : leVal (a ++ b) = leVal a + 256 ^ a.length * leVal b := by
  induction a with
  | nil => simp [leVal]
  | cons x a ih => simp only [List.cons_append, leVal, ih, List.length_cons]; ring

theorem leVal_zeros (n : Nat) : leVal (List.replicate n 0#8) = 0 := by
  induction n with
  | zero => rfl
  | succ n ih => simp [List.replicate_succ, leVal, ih]

theorem leVal_drop (b : List Byte) (m : Nat) : leVal (b.drop m) = leVal b / 256 ^ m := by
  induction m generalizing b with
  | zero => simp
  | succ m ih =>
    cases b with
    | nil => simp [leVal]
    | cons x b =>
      rw [List.drop_succ_cons, ih, leVal, Nat.pow_succ', ← Nat.div_div_eq_div_mul]
      congr 1
      have := x.isLt
      omega

theorem leVal_take (b : List Byte) (m : Nat) : leVal (b.take m) = leVal b % 256 ^ m := by
  induction m generalizing b with
  | zero => simp [leVal, Nat.mod_one]
  | succ m ih =>
    cases b with
    | nil => simp [leVal]
    | cons x b =>
      rw [List.take_succ_cons, leVal, ih, leVal, Nat.pow_succ', Nat.mod_mul]
      have := x.isLt
      congr 1
      · omega
      · congr 2; omega

theorem leVal_byte (b : List Byte) (j : Nat) : b.getD j 0#8 = BitVec.ofNat 8 (leVal b / 256 ^ j) := by
  rw [← leVal_drop]
  induction j generalizing b with
  | zero =>
    cases b with
    | nil => rfl
    | cons x b =>
      apply BitVec.eq_of_toNat_eq
      have := x.isLt
      simp [leVal]
      omega
  | succ j ih =>
    cases b with
    | nil => rfl
    | cons x b => simpa using ih b

theorem be_length (N n : Nat) : (be N n).length = n := by simp [be]

theorem revCopy_be (b : List Byte) (off n : Nat) :
    revCopy (b.drop off) n = be (leVal b / 2 ^ (8 * off)) n := by
  unfold revCopy be
  apply List.map_congr_left
  intro i hi
  rw [List.mem_range] at hi
  rw [leVal_byte, leVal_drop, show n - i - 1 = n - 1 - i by omega,
    show (256 : Nat) ^ off = 2 ^ (8 * off) by rw [Nat.pow_mul]]

theorem push_eq (b : List Byte) (n : Nat) (h : n ≤ b.length) : push b n = (b.take n).reverse := by
  apply List.ext_getElem
  · simp [push]; omega
  · intro i h1 h2
    have hi : i < n := by simpa [push] using h1
    simp only [push, List.getElem_map, List.getElem_range, List.getElem_reverse, List.getElem_take,
      List.length_take, List.getD_eq_getElem?_getD]
    rw [List.getElem?_eq_getElem (by omega), Option.getD_some]
    congr 1
    omega

theorem leVal_push (b : List Byte) (n : Nat) (h : n ≤ b.length) : leVal (push b n) = beVal (b.take n) := by
  rw [push_eq b n h, Verif.Endian.beVal_eq_leVal_reverse]

theorem push_length (b : List Byte) (n : Nat) : (push b n).length = n := by simp [push]

/-! ### The buffer -/

/-- `F` on 200 bytes is `P` on 1600 bits. -/
def Computes (F : Perm) (P : Nat → Nat) : Prop :=
  ∀ b : List Byte, b.length = 200 → (F b).length = 200 ∧ leVal (F b) = P (leVal b)

theorem tuakBuf_length (opc : List Byte) (inst : Byte) (rand amf sqn k : List Byte) (n : Nat) (hn : n ≤ 32) :
    (tuakBuf opc inst rand amf sqn k n).length = 200 := by
  simp [tuakBuf, push_length]; omega

theorem tuakBuf_val (opc : List Byte) (inst : Byte) (rand amf sqn k : List Byte) (n : Nat)
    (hn : n ≤ 32) (hk : n ≤ k.length) (ho : opc.length = 32) (hr : rand.length = 16)
    (ha : 2 ≤ amf.length) (hs : 6 ≤ sqn.length) :
    leVal (tuakBuf opc inst rand amf sqn k n) =
      beVal opc + inst.toNat * 2 ^ 256 + 0x5455414b312e30 * 2 ^ 264 + beVal rand * 2 ^ 320 +
      beVal (amf.take 2) * 2 ^ 448 + beVal (sqn.take 6) * 2 ^ 464 + beVal (k.take n) * 2 ^ 512 +
      0b11111 * 2 ^ 768 + 2 ^ 1087 := by
  have hal : leVal (push algoName 7) = 0x5455414b312e30 := by decide
  have h1 : leVal [inst] = inst.toNat := by simp [leVal]
  have h2 : leVal [0x1f#8] = 31 := by simp [leVal]
  have h3 : leVal [0x80#8] = 128 := by simp [leVal]
  have t32 : opc.take 32 = opc := List.take_of_length_le (by omega)
  have t16 : rand.take 16 = rand := List.take_of_length_le (by omega)
  have e : 32 + 1 + 7 + 16 + 2 + 6 + n + (32 - n) = 96 := by omega
  simp only [tuakBuf, leVal_append, List.length_append, push_length, List.length_replicate, List.length_cons,
    List.length_nil, leVal_zeros, hal, h1, h2, h3, leVal_push opc 32 (by omega), leVal_push rand 16 (by omega),
    leVal_push amf 2 ha, leVal_push sqn 6 hs, leVal_push k n hk, t32, t16, Nat.zero_add, e]
  have pw : ∀ j, (256 : Nat) ^ j = 2 ^ (8 * j) := fun j => by rw [Nat.pow_mul]
  have pl : ∀ j, (2 : Nat) ^ j * 128 = 2 ^ (j + 7) := fun j => by rw [Nat.pow_add]
  have g : ∀ x y z : Nat, x = y → 2 ^ x * z = z * 2 ^ y := fun x y z h => by rw [h, Nat.mul_comm]
  have g1 : ∀ x y : Nat, x = y → 2 ^ x = 2 ^ y := fun x y h => by rw [h]
  simp only [pw, pl, Nat.mul_zero, Nat.add_zero]
  rw [g _ 256 _ (by omega), g _ 264 _ (by omega), g _ 320 _ (by omega), g _ 448 _ (by omega),
    g _ 464 _ (by omega), g _ 512 _ (by omega), g _ 768 _ (by omega), g1 (8 * (96 + 1 + 38) + 7) 1087 (by omega)]

theorem tuakCore_val (F : Perm) (P : Nat → Nat) (hF : Computes F P) (iters : Nat) (opc : List Byte)
    (inst : Byte) (rand amf sqn k : List Byte) (n : Nat)
    (hn : n ≤ 32) (hk : n ≤ k.length) (ho : opc.length = 32) (hr : rand.length = 16)
    (ha : 2 ≤ amf.length) (hs : 6 ≤ sqn.length) :
    leVal (tuakCore F iters opc inst rand amf sqn k n) =
      tuakOut P iters (beVal opc) inst.toNat (beVal rand) (beVal (amf.take 2)) (beVal (sqn.take 6))
        (beVal (k.take n)) := by
  have key : ∀ (l : List Nat) (b : List Byte), b.length = 200 →
      leVal (l.foldl (fun buf _ => F buf) b) = times P l.length (leVal b) := by
    intro l
    induction l with
    | nil => intro b _; rfl
    | cons x l ih =>
      intro b hb
      rw [List.foldl_cons, ih _ (hF b hb).1, (hF b hb).2, List.length_cons, times]
  rw [tuakCore, key _ _ (tuakBuf_length _ _ _ _ _ _ _ hn), tuakOut, List.length_range,
    tuakBuf_val _ _ _ _ _ _ _ hn hk ho hr ha hs]

/-- The cast of bytes to lanes. -/
theorem laneOf_eq (b : List Byte) (h : b.length = 8) : laneOf b = BitVec.ofNat 64 (leVal b) := by
  obtain ⟨a0, y0, rfl, h0⟩ := cons_of_length h
  obtain ⟨a1, y1, rfl, h1⟩ := cons_of_length h0
  obtain ⟨a2, y2, rfl, h2⟩ := cons_of_length h1
  obtain ⟨a3, y3, rfl, h3⟩ := cons_of_length h2
  obtain ⟨a4, y4, rfl, h4⟩ := cons_of_length h3
  obtain ⟨a5, y5, rfl, h5⟩ := cons_of_length h4
  obtain ⟨a6, y6, rfl, h6⟩ := cons_of_length h5
  obtain ⟨a7, y7, rfl, h7⟩ := cons_of_length h6
  obtain rfl := List.length_eq_zero_iff.1 h7
  have hr : List.range 8 = [0, 1, 2, 3, 4, 5, 6, 7] := rfl
  simp [laneOf, leVal, hr]

theorem bytesOf_val (l : Lane) : (bytesOf l).length = 8 ∧ leVal (bytesOf l) = l.toNat := by
  refine ⟨by simp [bytesOf], ?_⟩
  have hr : List.range 8 = [0, 1, 2, 3, 4, 5, 6, 7] := rfl
  have := l.isLt
  simp [bytesOf, leVal, hr]
  omega

theorem Same.keccak {A B : State} (h : Same A B) : Same (keccakF A) (keccakF B) := by
  have key : ∀ (l : List Nat) (A B : State), Same A B → Same (l.foldl sRound A) (l.foldl sRound B) := by
    intro l
    induction l with
    | nil => intro A B h; exact h
    | cons i l ih =>
      intro A B h
      rw [List.foldl_cons, List.foldl_cons]
      exact ih _ _ (Same.iota i (Same.chi (Same.pi (Same.rho (Same.theta h)))))
  unfold keccakF
  generalize List.range 24 = l
  exact key l A B h

theorem pow_lane (i : Nat) : (256 : Nat) ^ (8 * i) = 2 ^ (64 * i) := by
  rw [show (256 : Nat) = 2 ^ 8 by rfl, ← Nat.pow_mul]
  congr 1
  omega

theorem lane_bytes (b : List Byte) (hb : b.length = 200) (i : Nat) (hi : i < 25) :
    laneOf ((b.drop (8 * i)).take 8) = BitVec.ofNat 64 (leVal b / 2 ^ (64 * i)) := by
  rw [laneOf_eq _ (by simp; omega), leVal_take, leVal_drop, pow_lane]
  apply BitVec.eq_of_toNat_eq
  rw [BitVec.toNat_ofNat, BitVec.toNat_ofNat, show (256 : Nat) ^ 8 = 2 ^ 64 by norm_num, Nat.mod_mod]

theorem leVal_lanes (s : List Lane) :
    (s.flatMap bytesOf).length = 8 * s.length ∧
    leVal (s.flatMap bytesOf) = s.foldr (fun l acc => l.toNat + 2 ^ 64 * acc) 0 := by
  induction s with
  | nil => exact ⟨rfl, rfl⟩
  | cons l s ih =>
    obtain ⟨h1, h2⟩ := bytesOf_val l
    refine ⟨?_, ?_⟩
    · rw [List.flatMap_cons, List.length_append, h1, ih.1, List.length_cons]; omega
    · rw [List.flatMap_cons, leVal_append, h1, h2, ih.2, List.foldr_cons,
        show (256 : Nat) ^ 8 = 2 ^ 64 by norm_num]

theorem numOf_eq (s : List Lane) (A : State) (h : s.length = 25)
    (hA : ∀ x < 5, ∀ y < 5, lane s (x + 5 * y) = A x y) :
    s.foldr (fun l acc => l.toNat + 2 ^ 64 * acc) 0 = numOf A := by
  have e : s = (List.range 25).map (lane s) := by
    apply List.ext_getElem
    · simp [h]
    · intro i h1 h2
      simp only [List.getElem_map, List.getElem_range, lane, List.getD_eq_getElem?_getD]
      rw [List.getElem?_eq_getElem h1, Option.getD_some]
  have hl : ∀ i ∈ List.range 25, lane s i = A (i % 5) (i / 5) := by
    intro i hi
    rw [List.mem_range] at hi
    rw [← hA _ (Nat.mod_lt _ (by omega)) _ (by omega), Nat.mod_add_div]
  rw [e, numOf, List.foldr_map]
  clear e
  generalize List.range 25 = r at hl
  induction r with
  | nil => rfl
  | cons i r ih =>
    rw [List.foldr_cons, List.foldr_cons, ih (fun j hj => hl j (List.mem_cons_of_mem _ hj)),
      hl i List.mem_cons_self]

/-- `Keccak_f_64` on a buffer is Keccak-f[1600] on its bits. -/
theorem keccak_computes : Computes keccakBytes keccakNum := by
  intro b hb
  have hs : ((List.range 25).map fun i => laneOf ((b.drop (8 * i)).take 8)).length = 25 := by simp
  have hst : Same (stateOf ((List.range 25).map fun i => laneOf ((b.drop (8 * i)).take 8)))
      (stateNum (leVal b)) := by
    intro x hx y hy
    have h : x + 5 * y < 25 := by omega
    rw [stateOf, lane, List.getD_eq_getElem?_getD, List.getElem?_map, List.getElem?_range h,
      Option.map_some, Option.getD_some, lane_bytes b hb _ h, stateNum]
  unfold keccakBytes
  generalize ((List.range 25).map fun i => laneOf ((b.drop (8 * i)).take 8)) = s at hs hst
  obtain ⟨hl, hk⟩ := keccak_f_64 s hs
  obtain ⟨h1, h2⟩ := leVal_lanes (keccakF64 s)
  refine ⟨by rw [h1, hl], ?_⟩
  rw [h2, keccakNum]
  exact numOf_eq _ _ hl (fun x hx y hy => by rw [hk x hx y hy]; exact Same.keccak hst x hx y hy)

/-! ### The functions of tuak.c -/

/-- Key and TOPc as `tuak_f1` and the others take them. -/
structure TuakSizes (opc k : List Byte) (n : Nat) : Prop where
  opc : opc.length = 32
  len : n = 16 ∨ n = 32
  k : n ≤ k.length

theorem longKey_take {opc k : List Byte} {n : Nat} (h : TuakSizes opc k n) :
    instKey n = some (BitVec.ofNat 8 (longKey (k.take n))) := by
  have hl : (k.take n).length = n := by rw [List.length_take]; have := h.k; omega
  rcases h.len with rfl | rfl <;> simp only [longKey, hl, instKey] <;> rfl

theorem longKey_le (k : List Byte) : longKey k = 0 ∨ longKey k = 1 := by
  unfold longKey; split <;> simp

theorem tuakF1_spec (F : Perm) (P : Nat → Nat) (hF : Computes F P) (iters m : Nat)
    (opc k rand sqn amf : List Byte) (n : Nat)
    (h : TuakSizes opc k n) (hr : rand.length = 16) (hs : sqn.length = 6) (ha : amf.length = 2) :
    tuakF1 F iters opc k n rand sqn amf 8 = some ((tuak P iters opc (k.take n) m).f1 sqn amf rand) ∧
    tuakF1star F iters opc k n rand sqn amf 8 = some ((tuak P iters opc (k.take n) m).f1s sqn amf rand) := by
  have hn : n ≤ 32 := by have := h.len; omega
  have t6 : sqn.take 6 = sqn := List.take_of_length_le (by omega)
  have t2 : amf.take 2 = amf := List.take_of_length_le (by omega)
  have hc := fun i => tuakCore_val F P hF iters opc i rand amf sqn k n hn h.k h.opc hr (by omega) (by omega)
  simp only [t6, t2] at hc
  have hb := fun i => revCopy_be (tuakCore F iters opc i rand amf sqn k n) 0 8
  simp only [List.drop_zero, Nat.mul_zero, Nat.pow_zero, Nat.div_one, hc] at hb
  simp only [tuakF1, tuakF1star, instMac, longKey_take h, Option.bind_eq_bind, Option.bind_some, hb, tuak]
  rcases longKey_le (k.take n) with e | e <;> rw [e] <;> exact ⟨rfl, rfl⟩

theorem tuakF2345_spec (F : Perm) (P : Nat → Nat) (hF : Computes F P) (iters m : Nat)
    (opc k rand : List Byte) (n : Nat)
    (h : TuakSizes opc k n) (hr : rand.length = 16) (hm : m = 4 ∨ m = 8 ∨ m = 16 ∨ m = 32) :
    tuakF2345 F iters opc k n rand m 16 16 =
      some ((tuak P iters opc (k.take n) m).f2 rand, (tuak P iters opc (k.take n) m).f3 rand,
        (tuak P iters opc (k.take n) m).f4 rand, (tuak P iters opc (k.take n) m).f5 rand) := by
  have hn : n ≤ 32 := by have := h.len; omega
  have hc := fun i => tuakCore_val F P hF iters opc i rand zero16 zero16 k n hn h.k h.opc hr (by decide) (by decide)
  have z2 : beVal (zero16.take 2) = 0 := by decide
  have z6 : beVal (zero16.take 6) = 0 := by decide
  simp only [z2, z6] at hc
  have hb0 := fun i q => revCopy_be (tuakCore F iters opc i rand zero16 zero16 k n) 0 q
  have hb := fun i off q => revCopy_be (tuakCore F iters opc i rand zero16 zero16 k n) off q
  simp only [List.drop_zero, Nat.mul_zero, Nat.pow_zero, Nat.div_one, hc] at hb0
  simp only [hc] at hb
  have hres : instRes m = some (BitVec.ofNat 8 (m / 8 * 8)) := by
    rcases hm with rfl | rfl | rfl | rfl <;> rfl
  simp only [tuakF2345, hres, instCk, instIk, longKey_take h, Option.bind_eq_bind, Option.bind_some, hb, hb0, tuak]
  have hi : (0x40#8 ||| BitVec.ofNat 8 (m / 8 * 8) ||| 0#8 ||| 0#8 ||| BitVec.ofNat 8 (longKey (k.take n))).toNat =
      1 * 64 + m / 8 * 8 + longKey (k.take n) := by
    rcases longKey_le (k.take n) with e | e <;> rw [e] <;>
      rcases hm with rfl | rfl | rfl | rfl <;> rfl
  rw [hi]

theorem tuakF5star_spec (F : Perm) (P : Nat → Nat) (hF : Computes F P) (iters m : Nat)
    (opc k rand : List Byte) (n : Nat) (h : TuakSizes opc k n) (hr : rand.length = 16) :
    tuakF5star F iters opc k n rand = some ((tuak P iters opc (k.take n) m).f5s rand) := by
  have hn : n ≤ 32 := by have := h.len; omega
  have hc := fun i => tuakCore_val F P hF iters opc i rand zero16 zero16 k n hn h.k h.opc hr (by decide) (by decide)
  have z2 : beVal (zero16.take 2) = 0 := by decide
  have z6 : beVal (zero16.take 6) = 0 := by decide
  simp only [z2, z6] at hc
  have hb := fun i off q => revCopy_be (tuakCore F iters opc i rand zero16 zero16 k n) off q
  simp only [hc] at hb
  simp only [tuakF5star, longKey_take h, Option.bind_eq_bind, Option.bind_some, hb, tuak]
  rcases longKey_le (k.take n) with e | e <;> rw [e] <;> rfl

theorem tuakOpcGen_spec (F : Perm) (P : Nat → Nat) (hF : Computes F P) (iters : Nat)
    (op k : List Byte) (n : Nat) (h : TuakSizes op k n) :
    tuakOpcGen F iters k n op = some (tTopc P iters op (k.take n)) := by
  have hn : n ≤ 32 := by have := h.len; omega
  have hc := fun i => tuakCore_val F P hF iters op i zero16 zero16 zero16 k n hn h.k h.opc (by decide) (by decide) (by decide)
  have z2 : beVal (zero16.take 2) = 0 := by decide
  have z6 : beVal (zero16.take 6) = 0 := by decide
  have z16 : beVal zero16 = 0 := by decide
  simp only [z2, z6, z16] at hc
  have hb := fun i => revCopy_be (tuakCore F iters op i zero16 zero16 zero16 k n) 0 32
  simp only [List.drop_zero, Nat.mul_zero, Nat.pow_zero, Nat.div_one, hc] at hb
  simp only [tuakOpcGen, longKey_take h, Option.bind_eq_bind, Option.bind_some, hb, tTopc]
  rcases longKey_le (k.take n) with e | e <;> rw [e] <;> rfl

theorem tuak_wf (P : Nat → Nat) (iters : Nat) (topc k : List Byte) (m : Nat) : (tuak P iters topc k m).Wf :=
  ⟨fun _ => be_length _ _, fun _ => be_length _ _, fun _ _ _ => be_length _ _, fun _ _ _ => be_length _ _⟩

end Verif.Auth
