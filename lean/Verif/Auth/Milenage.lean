import Verif.Auth.Model
import Verif.Auth.Spec
import Verif.Endian.Props
import Mathlib.Tactic.Ring
/-!
The loops of `milenage.c` are the operations of TS 35.206, and `memcmp` of two
numbers of the same length compares them.
-/
namespace Verif.Auth
open Verif.Endian (beVal)

theorem bx_length (a b : List Byte) : (bx a b).length = min a.length b.length := by
  simp [bx]

theorem bx_append (a b c d : List Byte) (h : a.length = c.length) :
    bx (a ++ b) (c ++ d) = bx a c ++ bx b d := by
  simp only [bx]
  exact List.zipWith_append h

theorem bx_cancel (a b : List Byte) (h : a.length = b.length) : bx (bx a b) b = a := by
  apply List.ext_getElem
  · simp [bx]; omega
  · intro i h1 h2
    simp [bx, BitVec.xor_assoc]

theorem bx_take (a b : List Byte) (n : Nat) : (bx a b).take n = bx (a.take n) (b.take n) := by
  simp [bx, List.take_zipWith]

theorem bx_zero (a : List Byte) (n : Nat) (h : a.length ≤ n) : bx a (List.replicate n 0#8) = a := by
  apply List.ext_getElem
  · simp [bx]; omega
  · intro i h1 h2
    simp [bx]

/-- The loop of exclusive ors. -/
theorem xorN_eq (a b : List Byte) (n : Nat) (ha : n ≤ a.length) (hb : n ≤ b.length) :
    xorN a b n = bx (a.take n) (b.take n) := by
  apply List.ext_getElem
  · simp [xorN, bx]; omega
  · intro i h1 h2
    have h1' : i < n := by simpa [xorN] using h1
    simp [xorN, bx, List.getD, List.getElem?_eq_getElem (show i < a.length by omega),
      List.getElem?_eq_getElem (show i < b.length by omega)]

theorem xorN_full (a b : List Byte) (n : Nat) (ha : a.length = n) (hb : b.length = n) :
    xorN a b n = bx a b := by
  rw [xorN_eq a b n (by omega) (by omega), List.take_of_length_le (by omega),
    List.take_of_length_le (by omega)]

theorem xorN_length (a b : List Byte) (n : Nat) : (xorN a b n).length = n := by simp [xorN]

theorem cons_of_length {y : List Byte} {n : Nat} (h : y.length = n + 1) :
    ∃ a t, y = a :: t ∧ t.length = n := by
  cases y with
  | nil => simp at h
  | cons a t => exact ⟨a, t, rfl, by simpa using h⟩

theorem list16 (y : List Byte) (h : y.length = 16) :
    ∃ a0 a1 a2 a3 a4 a5 a6 a7 a8 a9 a10 a11 a12 a13 a14 a15, y = [a0, a1, a2, a3, a4, a5, a6, a7, a8, a9, a10, a11, a12, a13, a14, a15] := by
  obtain ⟨a0, y0, rfl, h0⟩ := cons_of_length h
  obtain ⟨a1, y1, rfl, h1⟩ := cons_of_length h0
  obtain ⟨a2, y2, rfl, h2⟩ := cons_of_length h1
  obtain ⟨a3, y3, rfl, h3⟩ := cons_of_length h2
  obtain ⟨a4, y4, rfl, h4⟩ := cons_of_length h3
  obtain ⟨a5, y5, rfl, h5⟩ := cons_of_length h4
  obtain ⟨a6, y6, rfl, h6⟩ := cons_of_length h5
  obtain ⟨a7, y7, rfl, h7⟩ := cons_of_length h6
  obtain ⟨a8, y8, rfl, h8⟩ := cons_of_length h7
  obtain ⟨a9, y9, rfl, h9⟩ := cons_of_length h8
  obtain ⟨a10, y10, rfl, h10⟩ := cons_of_length h9
  obtain ⟨a11, y11, rfl, h11⟩ := cons_of_length h10
  obtain ⟨a12, y12, rfl, h12⟩ := cons_of_length h11
  obtain ⟨a13, y13, rfl, h13⟩ := cons_of_length h12
  obtain ⟨a14, y14, rfl, h14⟩ := cons_of_length h13
  obtain ⟨a15, y15, rfl, h15⟩ := cons_of_length h14
  obtain rfl := List.eq_nil_of_length_eq_zero h15
  exact ⟨a0, a1, a2, a3, a4, a5, a6, a7, a8, a9, a10, a11, a12, a13, a14, a15, rfl⟩

/-- Writing to `out[(i + sh) % 16]` is rotating to the left by the rest. -/
theorem scatter_eq (y : List Byte) (h : y.length = 16) :
    scatter 4 y = rot y 12 ∧ scatter 8 y = rot y 8 ∧ scatter 12 y = rot y 4 := by
  obtain ⟨a0, a1, a2, a3, a4, a5, a6, a7, a8, a9, a10, a11, a12, a13, a14, a15, rfl⟩ := list16 y h
  have hr : List.range 16 = [0, 1, 2, 3, 4, 5, 6, 7, 8, 9, 10, 11, 12, 13, 14, 15] := rfl
  simp [scatter, rot, hr, List.replicate]

theorem xor15_eq (y : List Byte) (h : y.length = 16) (c : Byte) : xor15 c y = bx y (cst c) := by
  obtain ⟨a0, a1, a2, a3, a4, a5, a6, a7, a8, a9, a10, a11, a12, a13, a14, a15, rfl⟩ := list16 y h
  simp [xor15, bx, cst, List.replicate]

theorem rot_length (y : List Byte) (n : Nat) (h : n ≤ y.length) : (rot y n).length = y.length := by
  simp [rot]; omega

theorem cst_length (c : Byte) : (cst c).length = 16 := by simp [cst]

theorem bx_comm (a b : List Byte) : bx a b = bx b a := by
  simp only [bx]
  rw [List.zipWith_comm]
  congr
  funext x y
  exact BitVec.xor_comm _ _

/-- A block cipher: its blocks have 16 bytes. -/
def IsCipher (E : Cipher) : Prop := ∀ k b, (E k b).length = 16

/-- The SQN, AMF, RAND, OPc lengths of TS 33.102. -/
structure Sizes (opc rand : List Byte) : Prop where
  opc : opc.length = 16
  rand : rand.length = 16

/-- `milenage_f1` is f1 and f1* of TS 35.206. -/
theorem milenageF1_spec (E : Cipher) (hE : IsCipher E) (opc k rand sqn amf : List Byte)
    (hs : Sizes opc rand) (hq : sqn.length = 6) (ha : amf.length = 2) :
    milenageF1 E (fun _ => false) opc k rand sqn amf =
      some ((milenage E opc k).f1 sqn amf rand, (milenage E opc k).f1s sqn amf rand) := by
  obtain ⟨ho, hr⟩ := hs
  have hq' : sqn.take 6 = sqn := List.take_of_length_le (by omega)
  have ha' : amf.take 2 = amf := List.take_of_length_le (by omega)
  have hin : (sqn ++ amf ++ (sqn ++ amf)).length = 16 := by simp; omega
  have e1 : xorN (sqn ++ amf ++ (sqn ++ amf)) opc 16 = bx (sqn ++ amf ++ (sqn ++ amf)) opc :=
    xorN_full _ _ _ hin ho
  have l1 : (bx (sqn ++ amf ++ (sqn ++ amf)) opc).length = 16 := by rw [bx_length]; omega
  have l2 : (rot (bx (sqn ++ amf ++ (sqn ++ amf)) opc) 8).length = 16 := by
    rw [rot_length _ _ (by omega)]; exact l1
  simp only [milenageF1, aes, Bool.false_eq_true, if_false, Option.bind_eq_bind, Option.bind_some,
    hq', ha', e1, (scatter_eq _ l1).2.1, xorN_full _ _ 16 hr ho, xorN_full _ _ 16 l2 (hE _ _),
    xorN_full _ _ 16 (hE _ _) ho]
  have e2 : bx (bx (mTemp E opc k rand) (rot (bx (sqn ++ amf ++ sqn ++ amf) opc) 8)) (cst 0#8) =
      bx (rot (bx (sqn ++ amf ++ (sqn ++ amf)) opc) 8) (E k (bx rand opc)) := by
    have : cst 0#8 = List.replicate 16 0#8 := rfl
    rw [this, bx_zero _ _ (by rw [bx_length, ← List.append_assoc] at *; omega), bx_comm, mTemp,
      List.append_assoc (sqn ++ amf)]
  have l3 : (bx (E k (bx (rot (bx (sqn ++ amf ++ (sqn ++ amf)) opc) 8) (E k (bx rand opc)))) opc).length
      = 16 := by rw [bx_length, hE]; omega
  simp only [milenage, mOut1, e2]
  rw [List.take_of_length_le (l := List.drop 8 _) (by rw [List.length_drop, l3])]

/-- The cipher input of f2..f5*. -/
theorem mid_length (E : Cipher) (hE : IsCipher E) (opc k rand : List Byte) (ho : opc.length = 16) :
    (bx (mTemp E opc k rand) opc).length = 16 := by
  rw [bx_length, mTemp, hE]; omega

theorem mOut_length (E : Cipher) (hE : IsCipher E) (opc k rand : List Byte) (ho : opc.length = 16)
    (r : Nat) (c : Byte) : (mOut E opc k rand r c).length = 16 := by
  rw [mOut, bx_length, hE]; omega

/-- What `milenage_f2345` leaves in its buffers when no cipher call fails. -/
theorem milenageF2345_spec (E : Cipher) (hE : IsCipher E) (opc k rand : List Byte)
    (hs : Sizes opc rand) (w : Want) (o : Out) :
    milenageF2345 E (fun _ => false) opc k rand w o =
      (true, { res := if w.res then (milenage E opc k).f2 rand ++ o.res.drop 8 else o.res
               ck := if w.ck then (milenage E opc k).f3 rand else o.ck
               ik := if w.ik then (milenage E opc k).f4 rand else o.ik
               ak := if w.ak then (milenage E opc k).f5 rand else o.ak
               akstar := if w.akstar then (milenage E opc k).f5s rand else o.akstar }) := by
  obtain ⟨ho, hr⟩ := hs
  have hm := mid_length E hE opc k rand ho
  have e0 : xorN rand opc 16 = bx rand opc := xorN_full _ _ _ hr ho
  have e1 : xorN (E k (bx rand opc)) opc 16 = bx (mTemp E opc k rand) opc :=
    xorN_full _ _ _ (hE _ _) ho
  have s := scatter_eq _ hm
  have r0 : rot (bx (mTemp E opc k rand) opc) 0 = bx (mTemp E opc k rand) opc := by simp [rot]
  have r4 := rot_length (bx (mTemp E opc k rand) opc) 4 (by omega)
  have r8 := rot_length (bx (mTemp E opc k rand) opc) 8 (by omega)
  have r12 := rot_length (bx (mTemp E opc k rand) opc) 12 (by omega)
  have t8 : List.take 8 (List.drop 8 (mOut E opc k rand 0 1#8)) = List.drop 8 (mOut E opc k rand 0 1#8) :=
    List.take_of_length_le (by rw [List.length_drop, mOut_length E hE _ _ _ ho])
  have o2 : xorN (E k (xor15 1#8 (bx (mTemp E opc k rand) opc))) opc 16 = mOut E opc k rand 0 1#8 := by
    rw [xorN_full _ _ _ (hE _ _) ho, xor15_eq _ hm, mOut, r0]
  have o3 : xorN (E k (xor15 2#8 (scatter 12 (bx (mTemp E opc k rand) opc)))) opc 16 =
      mOut E opc k rand 4 2#8 := by
    rw [xorN_full _ _ _ (hE _ _) ho, s.2.2, xor15_eq _ (by omega), mOut]
  have o4 : xorN (E k (xor15 4#8 (scatter 8 (bx (mTemp E opc k rand) opc)))) opc 16 =
      mOut E opc k rand 8 4#8 := by
    rw [xorN_full _ _ _ (hE _ _) ho, s.2.1, xor15_eq _ (by omega), mOut]
  have o5 : xorN (E k (xor15 8#8 (scatter 4 (bx (mTemp E opc k rand) opc)))) opc 6 =
      (mOut E opc k rand 12 8#8).take 6 := by
    rw [xorN_eq _ _ _ (by rw [hE]; omega) (by omega), s.1, xor15_eq _ (by omega), mOut, bx_take]
  obtain ⟨wr, wc, wi, wa, ws⟩ := w
  unfold milenageF2345 f2f5 f3 f4 f5star
  simp only [aes, Bool.false_eq_true, if_false, e0, e1, o2, o3, o4, o5, milenage, t8]
  cases wr <;> cases wc <;> cases wi <;> cases wa <;> cases ws <;> rfl

/-- `milenage_opc_gen` computes OPc. -/
theorem milenageOpcGen_spec (E : Cipher) (hE : IsCipher E) (k op : List Byte) (ho : op.length = 16) :
    milenageOpcGen E false k op = some (mOpc E k op) := by
  simp [milenageOpcGen, aes, mOpc, xorN_full _ _ 16 (hE k op) ho]

theorem beVal_foldl (as : List Byte) (n : Nat) :
    as.foldl (fun acc b => acc * 256 + b.toNat) n = n * 256 ^ as.length + beVal as := by
  induction as generalizing n with
  | nil => simp [beVal]
  | cons a as ih =>
    simp only [beVal, List.foldl_cons, List.length_cons]
    rw [ih, ih (0 * 256 + a.toNat)]
    ring

theorem beVal_cons (a : Byte) (as : List Byte) :
    beVal (a :: as) = a.toNat * 256 ^ as.length + beVal as := by
  have := beVal_foldl as a.toNat
  simpa [beVal] using this

/-- `memcmp` of two big-endian numbers of the same length compares them. -/
theorem memcmp_le (a b : List Byte) (h : a.length = b.length) :
    memcmp a b ≤ 0 ↔ beVal a ≤ beVal b := by
  induction a generalizing b with
  | nil => cases b with
    | nil => simp [memcmp]
    | cons _ _ => simp at h
  | cons x xs ih => cases b with
    | nil => simp at h
    | cons y ys =>
      simp only [List.length_cons, Nat.add_right_cancel_iff] at h
      rw [beVal_cons, beVal_cons, h]
      have hx := Verif.Endian.beVal_lt xs
      have hy := Verif.Endian.beVal_lt ys
      rw [h] at hx
      have e : (2 : Nat) ^ (8 * ys.length) = 256 ^ ys.length := by rw [Nat.pow_mul]
      rw [e] at hx hy
      by_cases hxy : x = y
      · simp [memcmp, hxy, ih ys h]
      · have hne : x.toNat ≠ y.toNat := fun e => hxy (BitVec.eq_of_toNat_eq e)
        simp only [memcmp, hxy, if_false]
        rcases Nat.lt_or_gt_of_ne hne with hlt | hgt
        · have := Nat.mul_le_mul_right (256 ^ ys.length) (show x.toNat + 1 ≤ y.toNat from hlt)
          rw [Nat.add_mul] at this
          constructor
          · intro _; omega
          · intro _; omega
        · have := Nat.mul_le_mul_right (256 ^ ys.length) (show y.toNat + 1 ≤ x.toNat from hgt)
          rw [Nat.add_mul] at this
          constructor
          · intro _; omega
          · intro _; omega

theorem memcmp_eq (a b : List Byte) (h : a.length = b.length) : memcmp a b = 0 ↔ a = b := by
  induction a generalizing b with
  | nil => cases b with
    | nil => simp [memcmp]
    | cons _ _ => simp at h
  | cons x xs ih => cases b with
    | nil => simp at h
    | cons y ys =>
      simp only [List.length_cons, Nat.add_right_cancel_iff] at h
      by_cases hxy : x = y
      · simp [memcmp, hxy, ih ys h]
      · have : x.toNat ≠ y.toNat := fun e => hxy (BitVec.eq_of_toNat_eq e)
        simp only [memcmp, hxy, if_false, List.cons.injEq, false_and, iff_false]
        omega

end Verif.Auth
