import Verif.Gsup.Model
/-!
The loop over the IEs, and the calls of the encoder, for any contents.
-/
namespace Verif.Gsup

/-- the loop with as many rounds as it may need -/
def loop {α : Type} (f : α → Byte → List Byte → List Byte → Res α) (data : List Byte) (a : α) : Res α :=
  ieLoop f data.length data a

theorem shiftTlv_cases (data : List Byte) :
    (∃ t l v rest, data = t :: l :: v ++ rest ∧ v.length = l.toNat ∧
      Tlv.shiftTlv data = (some t, { rc := (v.length + 2 : Nat), rest := rest, window := some (2, v.length) })) ∨
    ((Tlv.shiftTlv data).1 = none) := by
  match data with
  | [] => exact .inr rfl
  | [_] => exact .inr rfl
  | t :: l :: tl =>
    by_cases h : l.toNat > (t :: l :: tl).length - 2
    · right
      simp only [Tlv.shiftTlv]
      rw [if_pos h]
    · left
      simp only [List.length_cons] at h
      refine ⟨t, l, tl.take l.toNat, tl.drop l.toNat, by simp, by simp; omega, ?_⟩
      simp only [Tlv.shiftTlv, List.length_cons]
      rw [if_neg h]
      have : (tl.take l.toNat).length = l.toNat := by simp; omega
      rw [this]
      simp

/-- more rounds change nothing -/
theorem ieLoop_fuel {α : Type} (f : α → Byte → List Byte → List Byte → Res α) :
    ∀ (n : Nat) (data : List Byte) (a : α), data.length ≤ n → ieLoop f n data a = loop f data a := by
  intro n
  induction n using Nat.strongRecOn with
  | ind n ih =>
    intro data a hn
    cases data with
    | nil => cases n <;> rfl
    | cons b data =>
      obtain ⟨k, rfl⟩ : ∃ k, n = k + 1 := ⟨n - 1, by simp at hn; omega⟩
      simp only [List.length_cons] at hn
      rw [loop, List.length_cons, ieLoop, ieLoop]
      rcases shiftTlv_cases (b :: data) with ⟨t, l, v, rest, hd, hl, he⟩ | he
      · rw [he]
        simp only
        have hr : rest.length + 1 ≤ data.length := by
          have := congrArg List.length hd
          simp at this
          omega
        cases f a t (((b :: data).drop 2).take v.length) rest with
        | undef => rfl
        | err rc => rfl
        | ok a' =>
          simp only
          rw [ih k (by omega) rest a' (by omega)]
          by_cases hk : data.length = k
          · rw [hk, ih k (by omega) rest a' (by omega)]
          · rw [ih data.length (by omega) rest a' (by omega)]
      · cases hsh : Tlv.shiftTlv (b :: data) with
        | mk x s =>
          rw [hsh] at he
          simp only at he
          subst he
          rfl

theorem loop_nil {α : Type} (f : α → Byte → List Byte → List Byte → Res α) (a : α) : loop f [] a = .ok a := rfl

/-- a whole IE at the front -/
theorem loop_cons {α : Type} (f : α → Byte → List Byte → List Byte → Res α) (t l : Byte) (v rest : List Byte) (a : α)
    (h : v.length = l.toNat) :
    loop f (t :: l :: v ++ rest) a =
      match f a t v rest with
      | .ok a => loop f rest a
      | r => r := by
  rw [loop]
  simp only [List.cons_append, List.length_cons]
  rw [ieLoop]
  have hs : Tlv.shiftTlv (t :: l :: (v ++ rest)) =
      (some t, { rc := (v.length + 2 : Nat), rest := rest, window := some (2, v.length) }) := by
    simp only [Tlv.shiftTlv, List.length_cons, List.length_append]
    rw [if_neg (by omega), ← h]
    simp
  rw [hs]
  simp only [List.drop_succ_cons, List.drop_zero, List.take_left]
  cases f a t v rest with
  | undef => rfl
  | err rc => rfl
  | ok a' => exact ieLoop_fuel f _ rest a' (by simp; omega)

/-- nothing but whole IEs is accepted -/
theorem loop_broken {α : Type} (f : α → Byte → List Byte → List Byte → Res α) (data : List Byte) (a : α)
    (hne : data ≠ []) (h : ¬ ∃ t l v rest, data = t :: l :: v ++ rest ∧ v.length = l.toNat) :
    loop f data a = .err (-111) := by
  cases data with
  | nil => exact absurd rfl hne
  | cons b data =>
    rcases shiftTlv_cases (b :: data) with ⟨t, l, v, rest, hd, hl, _⟩ | he
    · exact absurd ⟨t, l, v, rest, hd, hl⟩ h
    · rw [loop, List.length_cons, ieLoop]
      cases hsh : Tlv.shiftTlv (b :: data) with
      | mk x s =>
        rw [hsh] at he
        simp only at he
        subst he
        rfl

theorem tlv_eq {t : Byte} {v : List Byte} (h : v.length < 256) : tlv t v = t :: BitVec.ofNat 8 v.length :: v := by
  rw [tlv, Nat.mod_eq_of_lt h, List.take_length]

theorem loop_tlv {α : Type} (f : α → Byte → List Byte → List Byte → Res α) (t : Byte) (v rest : List Byte) (a a' : α)
    (hv : v.length < 256) (h : f a t v rest = .ok a') : loop f (tlv t v ++ rest) a = loop f rest a' := by
  rw [tlv_eq hv, loop_cons f t _ v rest a (by simp; omega), h]

/-! ## The calls of the encoder -/

/-- the octets that are appended -/
def bytesOf : List Piece → List Byte
  | [] => []
  | .put bs :: ps => bs ++ bytesOf ps
  | _ :: ps => bytesOf ps

/-- nothing but appending, apart from asking for no more room than is used later -/
def good : List Piece → Prop
  | [] => True
  | .put _ :: ps => good ps
  | .need n _ :: ps => n ≤ (bytesOf ps).length ∧ good ps
  | _ => False

theorem bytesOf_append (a b : List Piece) : bytesOf (a ++ b) = bytesOf a ++ bytesOf b := by
  induction a with
  | nil => rfl
  | cons p a ih => cases p <;> simp [bytesOf, ih]

theorem bytesOf_flatten (l : List (List Piece)) : bytesOf l.flatten = (l.map bytesOf).flatten := by
  induction l with
  | nil => rfl
  | cons a l ih => simp [bytesOf_append, ih]

theorem good_append {a b : List Piece} (ha : good a) (hb : good b) : good (a ++ b) := by
  induction a with
  | nil => exact hb
  | cons p a ih =>
    cases p with
    | put bs => exact ih ha
    | fail rc => exact ha.elim
    | need n rc =>
      have h : n ≤ (bytesOf (a ++ b)).length := by
        rw [bytesOf_append, List.length_append]
        have := ha.1
        omega
      exact ⟨h, ih ha.2⟩
    | undef => exact ha.elim

theorem good_flatten {l : List (List Piece)} (h : ∀ a ∈ l, good a) : good l.flatten := by
  induction l with
  | nil => trivial
  | cons a l ih =>
    rw [List.flatten_cons]
    exact good_append (h a (by simp)) (ih fun b hb => h b (by simp [hb]))

theorem run_good (room : Nat) (ps : List Piece) : ∀ out : List Byte, good ps →
    out.length + (bytesOf ps).length ≤ room → run room out ps = .done 0 (out ++ bytesOf ps) := by
  induction ps with
  | nil => intro out _ _; simp [run, bytesOf]
  | cons p ps ih =>
    intro out hg hl
    cases p with
    | put bs =>
      simp only [bytesOf, List.length_append] at hl
      rw [run, if_pos (by omega), ih (out ++ bs) hg (by simp; omega)]
      simp [bytesOf]
    | fail rc => exact hg.elim
    | need n rc =>
      have := hg.1
      rw [run, if_neg (by simp only [bytesOf] at hl; omega)]
      exact ih out hg.2 hl
    | undef => exact hg.elim

/-- too little room: the program is aborted, unless the call that asks for room answers with an error -/
theorem run_no_room (room : Nat) (ps : List Piece) : ∀ out : List Byte, good ps → out.length ≤ room →
    room < out.length + (bytesOf ps).length →
    run room out ps = .abort ∨ ∃ n rc o, .need n rc ∈ ps ∧ run room out ps = .done rc o := by
  induction ps with
  | nil => intro out _ _ h; simp [bytesOf] at h; omega
  | cons p ps ih =>
    intro out hg hr hl
    cases p with
    | put bs =>
      simp only [bytesOf, List.length_append] at hl
      rw [run]
      by_cases h : out.length + bs.length ≤ room
      · rw [if_pos h]
        rcases ih (out ++ bs) hg (by simpa using h) (by simp; omega) with h | ⟨n, rc, o, h1, h2⟩
        · exact .inl h
        · exact .inr ⟨n, rc, o, List.mem_cons_of_mem _ h1, h2⟩
      · rw [if_neg h]
        exact .inl rfl
    | fail rc => exact hg.elim
    | need n rc =>
      rw [run]
      by_cases h : room < out.length + n
      · rw [if_pos h]
        exact .inr ⟨n, rc, out, by simp, rfl⟩
      · rw [if_neg h]
        rcases ih out hg.2 hr hl with h | ⟨n, rc, o, h1, h2⟩
        · exact .inl h
        · exact .inr ⟨n, rc, o, List.mem_cons_of_mem _ h1, h2⟩
    | undef => exact hg.elim

end Verif.Gsup
