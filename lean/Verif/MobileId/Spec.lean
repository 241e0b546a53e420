import Verif.MobileId.Model
import Verif.Utils.HexProps
import Verif.Utils.FloatProps
import Verif.Endian.Props
/-!
The mobile identity as 3GPP TS 24.008 10.5.1.4 draws it: specification
vocabulary of C91, independent of the model's functions.
-/
namespace Verif.MobileId
open Verif.Utils

/-- the identities that consist of digits -/
inductive Kind
  | imsi
  | imei
  | imeisv
  deriving DecidableEq, Repr

/-- a mobile identity -/
inductive Ident
  | tmsi (v : BitVec 32)
  | num (k : Kind) (digits : List Nat)
  deriving DecidableEq, Repr

/-- type of identity field, table 10.5.4 -/
def Kind.code : Kind → Nat
  | .imsi => 1
  | .imei => 2
  | .imeisv => 3

/-- permitted number of digits -/
def Kind.okLen : Kind → Nat → Prop
  | .imsi, n => 6 ≤ n ∧ n ≤ 15
  | .imei, n => n = 14 ∨ n = 15
  | .imeisv, n => n = 16

instance (k : Kind) (n : Nat) : Decidable (k.okLen n) := by
  cases k <;> unfold Kind.okLen <;> infer_instance

/-- valid identity: right number of digits, each a decimal digit (or any nibble if `hex`) -/
def Ident.Valid (hex : Bool) : Ident → Prop
  | .tmsi _ => True
  | .num k ds => k.okLen ds.length ∧ ∀ d ∈ ds, d < if hex then 16 else 10

/-- two semi-octets per octet, the first one in the lower half -/
def packNibs : List Nat → List Byte
  | a :: b :: r => BitVec.ofNat 8 (a + 16 * b) :: packNibs r
  | _ => []

/-- the semi-octets of an octet string, in the order of transmission of digits -/
def nibs : List Byte → List Nat
  | [] => []
  | b :: r => b.toNat % 16 :: b.toNat / 16 :: nibs r

/-- the digits as semi-octets: type of identity with the odd/even bit, the
digits and, if their number is even, the filler 1111 -/
def Ident.semis : Ident → List Nat
  | .tmsi _ => []
  | .num k ds => (k.code + if ds.length % 2 = 1 then 8 else 0) :: ds ++ if ds.length % 2 = 1 then [] else [15]

/-- the octets of the information element value -/
def Ident.wire : Ident → List Byte
  | .tmsi v => 0xf4#8 :: [BitVec.ofNat 8 (v.toNat / 2 ^ 24), BitVec.ofNat 8 (v.toNat / 2 ^ 16),
      BitVec.ofNat 8 (v.toNat / 2 ^ 8), BitVec.ofNat 8 v.toNat]
  | i => packNibs i.semis

/-- the digits as text -/
def digitText (ds : List Nat) : List Byte := ds.map upHex

/-- what the structure looks like for an identity: digits in upper case,
terminated by NUL, the rest of the union zero; a TMSI in host byte order -/
def Ident.canon : Ident → MobId
  | .tmsi v => { type := 4#8, u := [BitVec.ofNat 8 v.toNat, BitVec.ofNat 8 (v.toNat / 2 ^ 8),
      BitVec.ofNat 8 (v.toNat / 2 ^ 16), BitVec.ofNat 8 (v.toNat / 2 ^ 24)] ++ List.replicate 13 0#8 }
  | .num k ds => { type := BitVec.ofNat 8 k.code,
                   u := digitText ds ++ List.replicate (17 - ds.length) 0#8 }

/-- a structure denotes an identity: the member selected by the type holds the
NUL-terminated digits (hexadecimal digits in either case) or the TMSI; the
other bytes of the union do not matter -/
def Denotes (m : MobId) : Ident → Prop
  | .tmsi v => m.type = 4#8 ∧ m.u.length = 17 ∧ Endian.leVal (m.u.take 4) = v.toNat
  | .num k ds => m.type = BitVec.ofNat 8 k.code ∧ m.u.length = 17 ∧
      ∃ s rest, m.u = s ++ 0#8 :: rest ∧ s.map (digitValue true) = ds.map some

/-! ### semi-octets -/

theorem nibs_length (b : List Byte) : (nibs b).length = 2 * b.length := by
  induction b with
  | nil => rfl
  | cons x b ih => simp [nibs, ih]; omega

theorem nibs_lt (b : List Byte) : ∀ d ∈ nibs b, d < 16 := by
  induction b with
  | nil => simp [nibs]
  | cons x b ih =>
    intro d hd
    have := x.isLt
    simp only [nibs, List.mem_cons] at hd
    rcases hd with h | h | h
    · omega
    · omega
    · exact ih d h

theorem pack_nibs (b : List Byte) : packNibs (nibs b) = b := by
  induction b with
  | nil => rfl
  | cons x b ih =>
    simp only [nibs, packNibs, ih]
    congr 1
    apply BitVec.eq_of_toNat_eq
    have := x.isLt
    simp only [BitVec.toNat_ofNat]
    omega

theorem nibs_pack : ∀ l : List Nat, l.length % 2 = 0 → (∀ d ∈ l, d < 16) → nibs (packNibs l) = l
  | [], _, _ => rfl
  | [_], h, _ => by simp at h
  | a :: b :: r, h, hd => by
    have ha := hd a (by simp)
    have hb := hd b (by simp)
    have ih := nibs_pack r (by simp at h; omega) (fun d hm => hd d (by simp [hm]))
    simp only [packNibs, nibs, ih, BitVec.toNat_ofNat]
    congr 1
    · omega
    · congr 1; omega

theorem pack_length : ∀ l : List Nat, (packNibs l).length = l.length / 2
  | [] => rfl
  | [_] => by simp [packNibs]
  | a :: b :: r => by
    simp only [packNibs, List.length_cons, pack_length r]
    omega

theorem nibs_getElem? (b : List Byte) (k : Nat) (h : k < 2 * b.length) :
    (nibs b)[k]? = some (nibbleAt false b k) := by
  induction b generalizing k with
  | nil => simp at h
  | cons x b ih =>
    match k with
    | 0 => simp [nibs, nibbleAt]
    | 1 => simp [nibs, nibbleAt]
    | k + 2 =>
      simp only [nibs, List.getElem?_cons_succ]
      rw [ih k (by simp at h; omega)]
      unfold nibbleAt
      have e1 : (k + 2) / 2 = k / 2 + 1 := by omega
      have e2 : (k + 2) % 2 = k % 2 := by omega
      simp only [e1, e2, List.getD_cons_succ]

theorem nibbleText_eq (b : List Byte) (s n : Nat) (h : s + n ≤ 2 * b.length) :
    nibbleText b s n = digitText (((nibs b).drop s).take n) := by
  apply List.ext_getElem
  · simp [digitText, nibs_length]; omega
  · intro k h1 h2
    simp only [length_nibbleText] at h1
    have := nibs_getElem? b (s + k) (by omega)
    rw [List.getElem?_eq_some_iff] at this
    obtain ⟨_, e⟩ := this
    simp [nibbleText, digitText, e]

theorem digitText_length (ds : List Nat) : (digitText ds).length = ds.length := by simp [digitText]

theorem semis_even (k : Kind) (ds : List Nat) : (Ident.num k ds).semis.length % 2 = 0 := by
  simp only [Ident.semis]
  split <;> simp <;> omega

theorem semis_lt {k : Kind} {ds : List Nat} (h : ∀ d ∈ ds, d < 16) : ∀ d ∈ (Ident.num k ds).semis, d < 16 := by
  intro d hd
  simp only [Ident.semis, List.mem_append, List.mem_cons] at hd
  rcases hd with (h' | h') | h'
  · subst h'; cases k <;> simp [Kind.code] <;> split <;> omega
  · exact h d h'
  · split at h'
    · cases h'
    · simp only [List.mem_singleton] at h'; omega

theorem wire_nibs {k : Kind} {ds : List Nat} (h : ∀ d ∈ ds, d < 16) :
    nibs (Ident.num k ds).wire = (Ident.num k ds).semis :=
  nibs_pack _ (semis_even k ds) (semis_lt h)

theorem wire_length (k : Kind) (ds : List Nat) : (Ident.num k ds).wire.length = (ds.length + 2) / 2 := by
  show (packNibs _).length = _
  rw [pack_length]
  simp only [Ident.semis]
  split <;> simp <;> omega

theorem Ident.Valid.lt16 {hex : Bool} {k : Kind} {ds : List Nat} (h : (Ident.num k ds).Valid hex) :
    ∀ d ∈ ds, d < 16 := by
  intro d hd
  have := h.2 d hd
  cases hex <;> simp at this <;> omega

end Verif.MobileId
