import Verif.Common
import Verif.Utils.NumModel
import Verif.Utils.StrbufProps
import Verif.Utils.FloatProps
/-!
Model of src/gsm/apn.c, access point names as text and in the form of labels with a length in front (3GPP TS 23.003, 9.1),
and its properties.  C strings are byte lists without NUL.
-/
namespace Verif.Apn

open Verif.Utils

/-- '.' -/
def DOT : Byte := 0x2e

/-! ### Model -/

/-- src/gsm/apn.c:147-164: the loop; `last` and `pos` are the offsets of `last_len_field` and `apn_enc`; `pos` is also `len`.
`none`: a write out of the buffer. -/
def fromLoop (max : Nat) : List Byte → List Byte → Nat → Nat → Option (List Byte × Int)
  | [], buf, last, pos => (writeAt buf last [BitVec.ofNat 8 (pos - last - 1)]).map fun buf => (buf, (pos : Int))
  | c :: s, buf, last, pos =>
    if pos ≥ max then some (buf, -1)
    else if c = DOT then
      (writeAt buf last [BitVec.ofNat 8 (pos - last - 1)]).bind fun buf => fromLoop max s buf pos (pos + 1)
    else (writeAt buf pos [c]).bind fun buf => fromLoop max s buf last (pos + 1)

/-- src/gsm/apn.c:133-165 `osmo_apn_from_str`: the buffer after and what is returned.  Lengths below 2^31. -/
def fromStr (buf : List Byte) (max : Nat) (str : List Byte) : Option (List Byte × Int) :=
  if max = 0 then some (buf, -1) else fromLoop max str buf 0 1

/-- src/gsm/apn.c:106-121: the loop, at most `fuel` times; `some none`: NULL is returned -/
def toLoop : Nat → List Byte → Nat → List Byte → Option (Option (List Byte))
  | 0, _, _, _ => none
  | _ + 1, out, pos, [] => (writeAt out pos [0#8]).map some
  | fuel + 1, out, pos, l :: enc =>
    if l = 0#8 then (writeAt out pos [0#8]).map some
    else if l.toNat + 1 > enc.length + 1 then some none
    else
      (writeAt out pos (enc.take l.toNat)).bind fun out =>
        if enc.drop l.toNat ≠ [] then
          (writeAt out (pos + l.toNat : Nat) [DOT]).bind fun out =>
            toLoop fuel out (pos + l.toNat + 1) (enc.drop l.toNat)
        else toLoop fuel out (pos + l.toNat) (enc.drop l.toNat)

/-- src/gsm/apn.c:98-122 `osmo_apn_to_str`; the encoded name is a list of `apn_enc_len` bytes, or `none` for NULL -/
def toStr (out : List Byte) : Option (List Byte) → Option (Option (List Byte))
  | none => some none
  | some enc => toLoop (enc.length + 1) out 0 enc

/-- src/gsm/apn.c:32-32 `APN_GPRS_FMT` -/
def gprsText (mcc mnc : Nat) (ni : List Byte) : List Byte :=
  ni ++ [DOT, 0x6d, 0x6e, 0x63] ++ decNatW 3 mnc ++ [DOT, 0x6d, 0x63, 0x63] ++ decNatW 3 mcc ++ [DOT, 0x67, 0x70, 0x72, 0x73]

/-- src/gsm/apn.c:36-42 `osmo_apn_qualify_buf`; `none`: the buffer has no bytes, and `buf_len-1` wraps -/
def qualifyBuf (buf : List Byte) (mcc mnc : Nat) (ni : List Byte) : Option (List Byte) :=
  if buf = [] then none
  else
    (snprintfText (gprsText mcc mnc ni) (buf.take (buf.length - 1))).bind fun r =>
      writeAt (r.1 ++ buf.drop (buf.length - 1)) (buf.length - 1 : Nat) [0#8]

/-- `atoi` of a text that starts with digits: their value -/
def atoi : Nat → List Byte → Nat
  | v, [] => v
  | v, c :: s => if 0x30 ≤ c.toNat ∧ c.toNat ≤ 0x39 then atoi (v * 10 + (c.toNat - 0x30)) s else v

/-- src/gsm/apn.c:57-73 `osmo_apn_qualify_from_imsi_buf`; `none`: with fewer than three digits what is after the terminating NUL
is read.  Simplification: the text is of digits. -/
def qualifyFromImsi (buf imsi ni : List Byte) (have3 : Bool) : Option (List Byte) :=
  if imsi.length < 3 then none
  else
    let cbuf := imsi.take 3
    let nbuf := if have3 then (imsi.drop 3).take 3 else (imsi.drop 3).take 2
    qualifyBuf buf (atoi 0 cbuf) (atoi 0 nbuf) ni

/-! ### Labels -/

/-- The labels with a dot between. -/
def join : List (List Byte) → List Byte
  | [] => []
  | [l] => l
  | l :: ls => l ++ DOT :: join ls

/-- Each label with its length in front, modulo 256. -/
def encode (ls : List (List Byte)) : List Byte := (ls.map fun l => BitVec.ofNat 8 l.length :: l).flatten

/-- Every text is that of labels without dots, of at least one. -/
theorem exists_labels (s : List Byte) : ∃ ls : List (List Byte), ls ≠ [] ∧ (∀ l ∈ ls, DOT ∉ l) ∧ join ls = s := by
  induction s with
  | nil => exact ⟨[[]], by simp, by simp, rfl⟩
  | cons c s ih =>
    obtain ⟨ls, h1, h2, h3⟩ := ih
    by_cases hc : c = DOT
    · refine ⟨[] :: ls, by simp, ?_, ?_⟩
      · intro l hl
        rcases List.mem_cons.mp hl with rfl | hl
        · simp
        · exact h2 l hl
      · cases ls with
        | nil => exact absurd rfl h1
        | cons a b => rw [join]; simp [h3, hc]; simp
    · cases ls with
      | nil => exact absurd rfl h1
      | cons a b =>
        refine ⟨(c :: a) :: b, by simp, ?_, ?_⟩
        · intro l hl
          rcases List.mem_cons.mp hl with rfl | hl
          · intro h
            rcases List.mem_cons.mp h with h | h
            · exact hc h.symm
            · exact h2 a (by simp) h
          · exact h2 l (by simp [hl])
        · rw [← h3]
          cases b with
          | nil => rfl
          | cons d e => rfl

/-- what the loop writes, with `cur` the part of the label seen -/
def encFrom : List Byte → List Byte → List Byte
  | cur, [] => BitVec.ofNat 8 cur.length :: cur
  | cur, c :: s => if c = DOT then (BitVec.ofNat 8 cur.length :: cur) ++ encFrom [] s else encFrom (cur ++ [c]) s

theorem encFrom_label (l : List Byte) (hl : DOT ∉ l) : ∀ cur s, encFrom cur (l ++ s) = encFrom (cur ++ l) s := by
  induction l with
  | nil => intro cur s; simp
  | cons c l ih =>
    intro cur s
    rw [List.mem_cons, not_or] at hl
    rw [List.cons_append, encFrom, if_neg (fun h => hl.1 h.symm), ih hl.2]
    simp

theorem encFrom_join (ls : List (List Byte)) (hne : ls ≠ []) (hd : ∀ l ∈ ls, DOT ∉ l) : encFrom [] (join ls) = encode ls := by
  induction ls with
  | nil => exact absurd rfl hne
  | cons l ls ih =>
    have hl := hd l (by simp)
    cases ls with
    | nil =>
      have := encFrom_label l hl [] []
      rw [List.append_nil] at this
      rw [join, this]
      simp [encFrom, encode]
    | cons a b =>
      rw [join, encFrom_label l hl _ _, encFrom, if_pos rfl, ih (by simp) (fun x hx => hd x (by simp [hx]))]
      · simp [encode]
      · simp

theorem encFrom_length (s : List Byte) : ∀ cur, (encFrom cur s).length = cur.length + 1 + s.length := by
  induction s with
  | nil => intro cur; simp [encFrom]
  | cons c s ih =>
    intro cur
    unfold encFrom
    split
    · simp only [List.length_append, List.length_cons, ih, List.length_nil]; omega
    · rw [ih]; simp; omega

/-! ### Encoding -/

theorem write_at (pre x post bs : List Byte) (h : bs.length = x.length) (n : Nat) (hn : n = pre.length) :
    writeAt (pre ++ x ++ post) n bs = some (pre ++ bs ++ post) := by
  subst hn
  rw [writeAt_eq_some (by simp; omega)]
  simp [h]

theorem drop_split (l : List Byte) (n k : Nat) : l.drop n = (l.drop n).take k ++ l.drop (n + k) := by
  rw [← List.drop_drop]
  exact (List.take_append_drop k _).symm

theorem fromLoop_ok (max : Nat) (s : List Byte) : ∀ (pre cur rest : List Byte) (x : Byte),
    pre.length + 1 + cur.length + s.length ≤ max → s.length ≤ rest.length →
    fromLoop max s (pre ++ x :: cur ++ rest) pre.length (pre.length + 1 + cur.length) =
      some (pre ++ encFrom cur s ++ rest.drop s.length, ((pre.length + 1 + cur.length + s.length : Nat) : Int)) := by
  induction s with
  | nil =>
    intro pre cur rest x hm hr
    unfold fromLoop
    have : pre ++ x :: cur ++ rest = pre ++ [x] ++ (cur ++ rest) := by simp
    rw [this, write_at _ _ _ _ (by simp) _ rfl, show pre.length + 1 + cur.length - pre.length - 1 = cur.length by omega]
    simp [encFrom]
  | cons c s ih =>
    intro pre cur rest x hm hr
    simp only [List.length_cons] at hm hr
    obtain ⟨y, rest, rfl⟩ : ∃ y r, rest = y :: r := by
      cases rest with
      | nil => simp at hr
      | cons y r => exact ⟨y, r, rfl⟩
    simp only [List.length_cons] at hr
    unfold fromLoop
    rw [if_neg (by omega)]
    by_cases hc : c = DOT
    · rw [if_pos hc]
      have : pre ++ x :: cur ++ y :: rest = pre ++ [x] ++ (cur ++ y :: rest) := by simp
      rw [this, write_at _ _ _ _ (by simp) _ rfl, show pre.length + 1 + cur.length - pre.length - 1 = cur.length by omega,
        Option.bind_some]
      have := ih (pre ++ BitVec.ofNat 8 cur.length :: cur) [] rest y (by simp; omega) (by omega)
      have e1 : (pre ++ BitVec.ofNat 8 cur.length :: cur).length = pre.length + 1 + cur.length := by simp; omega
      rw [e1] at this
      simp only [List.length_nil, Nat.add_zero, List.append_assoc, List.cons_append, List.nil_append] at this ⊢
      rw [this]
      simp [encFrom, hc]
      omega
    · rw [if_neg hc]
      have : pre ++ x :: cur ++ y :: rest = (pre ++ x :: cur) ++ [y] ++ rest := by simp
      rw [this, write_at _ _ _ _ (by simp) _ (by simp; omega), Option.bind_some]
      have := ih pre (cur ++ [c]) rest x (by simp; omega) (by omega)
      simp only [List.length_append, List.length_cons, List.length_nil, List.append_assoc, List.cons_append,
        List.nil_append] at this ⊢
      rw [show pre.length + 1 + (cur.length + (0 + 1)) = pre.length + 1 + cur.length + 1 by omega] at this
      rw [this]
      simp [encFrom, hc]
      omega

theorem fromLoop_fail (max : Nat) (s : List Byte) : ∀ (buf : List Byte) (last pos : Nat),
    max < pos + s.length → pos ≤ max → max ≤ buf.length → last < buf.length →
    ∃ b, fromLoop max s buf last pos = some (b, -1) ∧ b.length = buf.length := by
  induction s with
  | nil => intro buf last pos h1 h2; simp at h1; omega
  | cons c s ih =>
    intro buf last pos h1 h2 h3 h4
    simp only [List.length_cons] at h1
    unfold fromLoop
    by_cases hp : pos ≥ max
    · exact ⟨buf, by rw [if_pos hp], rfl⟩
    · rw [if_neg hp]
      split
      · rw [writeAt_eq_some (by simp; omega), Option.bind_some]
        have hl := length_of_writeAt (writeAt_eq_some (mem := buf) (o := last) (bs := [BitVec.ofNat 8 (pos - last - 1)])
          (by simp; omega))
        obtain ⟨b, hb1, hb2⟩ := ih _ pos (pos + 1) (by omega) (by omega) (by rw [hl]; exact h3) (by rw [hl]; omega)
        exact ⟨b, hb1, by rw [hb2, hl]⟩
      · rw [writeAt_eq_some (by simp; omega), Option.bind_some]
        have hl := length_of_writeAt (writeAt_eq_some (mem := buf) (o := pos) (bs := [c]) (by simp; omega))
        obtain ⟨b, hb1, hb2⟩ := ih _ last (pos + 1) (by omega) (by omega) (by rw [hl]; exact h3) (by rw [hl]; omega)
        exact ⟨b, hb1, by rw [hb2, hl]⟩

/-- C77: a name is encoded as its labels, each after its length, if that is not more than `max`; the rest of the buffer
is kept. -/
theorem fromStr_ok (buf : List Byte) (max : Nat) (hb : max ≤ buf.length) (ls : List (List Byte)) (hne : ls ≠ [])
    (hd : ∀ l ∈ ls, DOT ∉ l) (hm : (join ls).length + 1 ≤ max) :
    fromStr buf max (join ls) = some (encode ls ++ buf.drop (encode ls).length, ((encode ls).length : Int)) := by
  obtain ⟨x, rest, rfl⟩ : ∃ x r, buf = x :: r := by
    cases buf with
    | nil => simp at hb; omega
    | cons x r => exact ⟨x, r, rfl⟩
  simp only [List.length_cons] at hb
  unfold fromStr
  rw [if_neg (by omega)]
  have h := fromLoop_ok max (join ls) [] [] rest x (by simp; omega) (by omega)
  simp only [List.length_nil, List.nil_append, List.cons_append, Nat.zero_add, Nat.add_zero] at h
  rw [h, encFrom_join ls hne hd]
  have hl := encFrom_length (join ls) []
  rw [encFrom_join ls hne hd] at hl
  simp only [List.length_nil, Nat.zero_add] at hl
  rw [hl, Nat.add_comm 1, List.drop_succ_cons]

/-- C77: a name that does not fit is refused, and no byte out of the buffer is written. -/
theorem fromStr_fail (buf : List Byte) (max : Nat) (hb : max ≤ buf.length) (s : List Byte) (hm : max < s.length + 1) :
    ∃ b, fromStr buf max s = some (b, -1) ∧ b.length = buf.length := by
  unfold fromStr
  by_cases h0 : max = 0
  · exact ⟨buf, by rw [if_pos h0], rfl⟩
  · rw [if_neg h0]
    exact fromLoop_fail max s buf 0 1 (by omega) (by omega) hb (by omega)

/-! ### Decoding -/

/-- A label of 1 to 255 bytes. -/
def Good (l : List Byte) : Prop := 1 ≤ l.length ∧ l.length ≤ 255

theorem good_byte (l : List Byte) (h : Good l) : BitVec.ofNat 8 l.length ≠ 0#8 ∧ (BitVec.ofNat 8 l.length).toNat = l.length := by
  have e : (BitVec.ofNat 8 l.length).toNat = l.length := by
    rw [BitVec.toNat_ofNat]
    exact Nat.mod_eq_of_lt (by have := h.2; omega)
  refine ⟨fun h0 => ?_, e⟩
  rw [h0] at e
  have := h.1
  simp at e
  omega

theorem toLoop_label (f : Nat) (l acc junk tail : List Byte) (hl : Good l) (ht : tail ≠ []) (hj : l.length + 1 ≤ junk.length) :
    toLoop (f + 1) (acc ++ junk) acc.length ((BitVec.ofNat 8 l.length :: l) ++ tail) =
      toLoop f ((acc ++ l ++ [DOT]) ++ junk.drop (l.length + 1)) (acc ++ l ++ [DOT]).length tail := by
  obtain ⟨h1, h2⟩ := good_byte l hl
  rw [List.cons_append]
  conv => lhs; unfold toLoop
  rw [if_neg h1, h2, if_neg (by simp)]
  simp only [List.take_left, List.drop_left]
  have e : acc ++ junk = acc ++ junk.take l.length ++ (junk.drop l.length) := by simp
  rw [e, write_at _ _ _ _ (by simp; omega) _ rfl, Option.bind_some, if_pos ht]
  have e2 : acc ++ l ++ junk.drop l.length = (acc ++ l) ++ (junk.drop l.length).take 1 ++ (junk.drop (l.length + 1)) := by
    conv => lhs; rw [drop_split junk l.length 1]
    rw [← List.append_assoc]
  rw [e2, write_at _ _ _ _ (by simp; omega) _ (by simp), Option.bind_some]
  congr 1
  simp only [List.length_append, List.length_cons, List.length_nil]

/-- labels with a dot after each -/
def dotted (ls : List (List Byte)) : List Byte := (ls.map fun l => l ++ [DOT]).flatten

theorem encode_cons (l : List Byte) (ls : List (List Byte)) : encode (l :: ls) = (BitVec.ofNat 8 l.length :: l) ++ encode ls := by
  simp [encode]

theorem dotted_length (ls : List (List Byte)) : (dotted ls).length = (encode ls).length := by
  induction ls with
  | nil => rfl
  | cons l ls ih =>
    rw [encode_cons]
    simp only [dotted, List.map_cons, List.flatten_cons, List.length_append, List.length_cons, List.length_nil] at ih ⊢
    omega

theorem toLoop_labels (ls : List (List Byte)) (hg : ∀ l ∈ ls, Good l) (tail : List Byte) (ht : tail ≠ []) :
    ∀ (f : Nat) (acc junk : List Byte), (encode ls).length ≤ junk.length →
      toLoop (f + ls.length) (acc ++ junk) acc.length (encode ls ++ tail) =
        toLoop f ((acc ++ dotted ls) ++ junk.drop (encode ls).length) (acc ++ dotted ls).length tail := by
  induction ls with
  | nil => intro f acc junk _; simp [encode, dotted]
  | cons l ls ih =>
    intro f acc junk hj
    have ih := ih (fun x hx => hg x (by simp [hx]))
    rw [encode_cons] at hj ⊢
    simp only [List.length_append, List.length_cons] at hj
    rw [List.append_assoc, List.length_cons, ← Nat.add_assoc, toLoop_label _ _ _ _ _ (hg l (by simp)) (by simp [ht])
      (by omega), ih f _ _ (by simp; omega)]
    have : dotted (l :: ls) = l ++ [DOT] ++ dotted ls := by simp [dotted]
    rw [this, List.drop_drop]
    simp only [List.append_assoc, List.length_append, List.length_cons]

theorem encode_length_ge (ls : List (List Byte)) : ls.length ≤ (encode ls).length := by
  induction ls with
  | nil => simp
  | cons l ls ih => rw [encode_cons]; simp; omega

theorem join_concat (ini : List (List Byte)) (l : List Byte) : join (ini.concat l) = dotted ini ++ l := by
  induction ini with
  | nil => simp [join, dotted]
  | cons a b ih =>
    have : join ((a :: b).concat l) = a ++ DOT :: join (b.concat l) := by
      rw [List.concat_cons]
      cases b <;> rfl
    rw [this, ih]
    simp [dotted]

theorem toLoop_fuel (g : Nat) (n : Nat) (h : n ≤ g) : ∃ f, g = f + n := ⟨g - n, by omega⟩

/-- C77: labels after their lengths are decoded to the name with dots between, in a buffer of the size documented. -/
theorem toStr_labels (out : List Byte) (ls : List (List Byte)) (hg : ∀ l ∈ ls, Good l)
    (ho : max (encode ls).length 1 ≤ out.length) :
    toStr out (some (encode ls)) = some (some (join ls ++ 0#8 :: out.drop ((join ls).length + 1))) := by
  unfold toStr
  dsimp only
  rcases List.eq_nil_or_concat ls with rfl | ⟨ini, l, rfl⟩
  · have : encode [] = [] := rfl
    rw [this] at ho ⊢
    unfold toLoop
    have := write_at [] (out.take 1) (out.drop 1) [0#8] (by simp; simp at ho; omega) 0 rfl
    simp only [List.nil_append, List.take_append_drop] at this
    rw [this]
    rfl
  · have hl := hg l (by simp)
    have he : encode (ini.concat l) = encode ini ++ (BitVec.ofNat 8 l.length :: l) := by simp [encode]
    have hlen := encode_length_ge ini
    rw [he] at ho ⊢
    simp only [List.length_append, List.length_cons] at ho ⊢
    obtain ⟨f, hf⟩ := toLoop_fuel ((encode ini).length + (l.length + 1) + 1) ini.length (by omega)
    rw [hf]
    have h := toLoop_labels ini (fun x hx => hg x (by simp [hx])) (BitVec.ofNat 8 l.length :: l) (by simp) f [] out
      (by omega)
    simp only [List.nil_append, List.length_nil] at h
    rw [h]
    have hf2 : ∃ f', f = f' + 2 := ⟨f - 2, by have := hl.1; omega⟩
    obtain ⟨f', rfl⟩ := hf2
    obtain ⟨h1, h2⟩ := good_byte l hl
    unfold toLoop
    rw [if_neg h1, h2, if_neg (by omega)]
    simp only [List.take_length, List.drop_length]
    have hdl := dotted_length ini
    have e : dotted ini ++ out.drop (encode ini).length = dotted ini ++ (out.drop (encode ini).length).take l.length ++
        out.drop ((encode ini).length + l.length) := by
      conv => lhs; rw [drop_split out (encode ini).length l.length]
      rw [← List.append_assoc]
    rw [e, write_at _ _ _ _ (by simp; omega) _ rfl, Option.bind_some]
    simp only [ne_eq, not_true_eq_false, if_false]
    unfold toLoop
    have hj := join_concat ini l
    have e2 : dotted ini ++ l ++ out.drop ((encode ini).length + l.length) =
        (dotted ini ++ l) ++ (out.drop ((encode ini).length + l.length)).take 1 ++
          out.drop ((encode ini).length + l.length + 1) := by
      conv => lhs; rw [drop_split out ((encode ini).length + l.length) 1]
      rw [← List.append_assoc]
    rw [e2, write_at _ _ _ _ (by simp; omega) _ (by simp), hj]
    simp [hdl]

/-- C77: after labels a length of zero ends the name, which then ends with a dot. -/
theorem toStr_zero (out : List Byte) (ls : List (List Byte)) (hg : ∀ l ∈ ls, Good l) (r : List Byte)
    (ho : (encode ls ++ 0#8 :: r).length ≤ out.length) :
    toStr out (some (encode ls ++ 0#8 :: r)) = some (some (dotted ls ++ 0#8 :: out.drop ((dotted ls).length + 1))) := by
  unfold toStr
  dsimp only
  have hlen := encode_length_ge ls
  simp only [List.length_append, List.length_cons] at ho ⊢
  obtain ⟨f, hf⟩ := toLoop_fuel ((encode ls).length + (r.length + 1) + 1) ls.length (by omega)
  rw [hf]
  have h := toLoop_labels ls hg (0#8 :: r) (by simp) f [] out (by omega)
  simp only [List.nil_append, List.length_nil] at h
  rw [h]
  obtain ⟨f', rfl⟩ : ∃ f', f = f' + 1 := ⟨f - 1, by omega⟩
  unfold toLoop
  have hdl := dotted_length ls
  rw [if_pos rfl]
  have e2 : dotted ls ++ out.drop (encode ls).length =
      dotted ls ++ (out.drop (encode ls).length).take 1 ++ out.drop ((encode ls).length + 1) := by
    conv => lhs; rw [drop_split out (encode ls).length 1]
    rw [← List.append_assoc]
  rw [e2, write_at _ _ _ _ (by simp; omega) _ rfl]
  simp [hdl]

/-- C77: a label longer than what is left makes the name invalid. -/
theorem toStr_short (out : List Byte) (ls : List (List Byte)) (hg : ∀ l ∈ ls, Good l) (n : Byte) (r : List Byte)
    (hn : r.length < n.toNat) (ho : (encode ls ++ n :: r).length ≤ out.length) :
    toStr out (some (encode ls ++ n :: r)) = some none := by
  unfold toStr
  dsimp only
  have hlen := encode_length_ge ls
  simp only [List.length_append, List.length_cons] at ho ⊢
  obtain ⟨f, hf⟩ := toLoop_fuel ((encode ls).length + (r.length + 1) + 1) ls.length (by omega)
  rw [hf]
  have h := toLoop_labels ls hg (n :: r) (by simp) f [] out (by omega)
  simp only [List.nil_append, List.length_nil] at h
  rw [h]
  obtain ⟨f', rfl⟩ : ∃ f', f = f' + 1 := ⟨f - 1, by omega⟩
  unfold toLoop
  have h0 : n ≠ 0#8 := by
    intro h
    rw [h] at hn
    simp at hn
  rw [if_neg h0, if_pos (by omega)]

/-- C77: these three forms are all there are, so that nothing is read or written out of bounds. -/
theorem forms (enc : List Byte) : ∃ ls : List (List Byte), (∀ l ∈ ls, Good l) ∧
    (enc = encode ls ∨ (∃ r, enc = encode ls ++ 0#8 :: r) ∨ ∃ n r, enc = encode ls ++ n :: r ∧ r.length < n.toNat) := by
  suffices h : ∀ k, ∀ enc : List Byte, enc.length ≤ k → ∃ ls : List (List Byte), (∀ l ∈ ls, Good l) ∧
      (enc = encode ls ∨ (∃ r, enc = encode ls ++ 0#8 :: r) ∨ ∃ n r, enc = encode ls ++ n :: r ∧ r.length < n.toNat) from
    h _ enc (Nat.le_refl _)
  intro k
  induction k with
  | zero =>
    intro enc h
    have : enc = [] := List.length_eq_zero_iff.mp (by omega)
    exact ⟨[], by simp, Or.inl (by rw [this]; rfl)⟩
  | succ k ih =>
    intro enc h
    cases enc with
    | nil => exact ⟨[], by simp, Or.inl rfl⟩
    | cons n r =>
      simp only [List.length_cons] at h
      by_cases h0 : n = 0
      · exact ⟨[], by simp, Or.inr (Or.inl ⟨r, by rw [h0]; rfl⟩)⟩
      · by_cases hs : r.length < n.toNat
        · exact ⟨[], by simp, Or.inr (Or.inr ⟨n, r, rfl, hs⟩)⟩
        · obtain ⟨ls, hg, hf⟩ := ih (r.drop n.toNat) (by simp; omega)
          have hn0 : 0 < n.toNat := by
            rcases Nat.eq_zero_or_pos n.toNat with h | h
            · exact absurd (BitVec.eq_of_toNat_eq (by simpa using h)) h0
            · exact h
          have hlen : (r.take n.toNat).length = n.toNat := by simp; omega
          have he : ∀ t, r.drop n.toNat = encode ls ++ t → n :: r = encode (r.take n.toNat :: ls) ++ t := by
            intro t ht
            rw [encode_cons, hlen, List.append_assoc, ← ht]
            simp
          refine ⟨r.take n.toNat :: ls, ?_, ?_⟩
          · intro l hl
            rcases List.mem_cons.mp hl with rfl | hl
            · exact ⟨by omega, by have := n.isLt; omega⟩
            · exact hg l hl
          · rcases hf with hf | ⟨r', hf⟩ | ⟨n', r', hf, hs'⟩
            · have := he [] (by simpa using hf)
              exact Or.inl (by simpa using this)
            · exact Or.inr (Or.inl ⟨r', he _ hf⟩)
            · exact Or.inr (Or.inr ⟨n', r', he _ hf, hs'⟩)

/-- C77: the decoder is defined for all input, given an output of the documented size. -/
theorem toStr_safe (out enc : List Byte) (ho : max enc.length 1 ≤ out.length) : toStr out (some enc) ≠ none := by
  obtain ⟨ls, hg, h | ⟨r, h⟩ | ⟨n, r, h, hs⟩⟩ := forms enc
  · rw [h, toStr_labels out ls hg (by rw [← h]; exact ho)]
    simp
  · rw [h, toStr_zero out ls hg r (by rw [← h]; omega)]
    simp
  · rw [h, toStr_short out ls hg n r hs (by rw [← h]; omega)]
    simp

/-- C77: a name of labels of 1 to 255 bytes comes back from its encoding. -/
theorem round_trip (buf out : List Byte) (max' : Nat) (hb : max' ≤ buf.length) (ls : List (List Byte)) (hne : ls ≠ [])
    (hd : ∀ l ∈ ls, DOT ∉ l) (hg : ∀ l ∈ ls, Good l) (hm : (join ls).length + 1 ≤ max') (ho : max' ≤ out.length) :
    ∃ (b : List Byte) (n : Nat), fromStr buf max' (join ls) = some (b, (n : Int)) ∧
      toStr out (some (b.take n)) = some (some (join ls ++ 0#8 :: out.drop ((join ls).length + 1))) := by
  refine ⟨_, _, fromStr_ok buf max' hb ls hne hd hm, ?_⟩
  have hl := encFrom_length (join ls) []
  rw [encFrom_join ls hne hd] at hl
  simp only [List.length_nil, Nat.zero_add] at hl
  rw [List.take_left]
  exact toStr_labels out ls hg (by omega)

/-- C77: an empty label does not come back. -/
theorem round_trip_empty_counterexample :
    fromStr (List.replicate 8 0#8) 8 [0x61, DOT, DOT, 0x62] = some ([1, 0x61, 0, 1, 0x62, 0, 0, 0], 5) ∧
    toStr (List.replicate 8 0#8) (some [1, 0x61, 0, 1, 0x62]) = some (some [0x61, DOT, 0, 0, 0, 0, 0, 0]) := by
  decide +kernel

/-- C77: the length of a label of 256 bytes is stored as zero. -/
theorem round_trip_long_counterexample (buf : List Byte) (hb : 257 ≤ buf.length) (l : List Byte) (hl : l.length = 256)
    (hd : DOT ∉ l) : fromStr buf 257 l = some (0#8 :: l ++ buf.drop 257, 257) := by
  have h := fromStr_ok buf 257 hb [l] (by simp) (by simpa using hd) (by show l.length + 1 ≤ 257; omega)
  have e : encode [l] = 0#8 :: l := by
    simp only [encode, List.map_cons, List.map_nil, List.flatten_cons, List.flatten_nil, List.append_nil, hl]
    rfl
  rw [e, List.length_cons, hl] at h
  exact h

example : DOT ∉ List.replicate 256 0x61#8 := fun h => absurd (List.eq_of_mem_replicate h) (by decide)

example : fromStr (List.replicate 8 0xff#8) 8 [0x61, 0x62, DOT, 0x63] = some ([2, 0x61, 0x62, 1, 0x63, 0xff, 0xff, 0xff], 5) ∧
    toStr (List.replicate 5 0xff#8) (some [2, 0x61, 0x62, 1, 0x63]) = some (some [0x61, 0x62, DOT, 0x63, 0]) ∧
    toStr (List.replicate 5 0xff#8) (some [2, 0x61, 0x62, 2, 0x63]) = some none ∧
    fromStr (List.replicate 8 0xff#8) 4 [0x61, 0x62, DOT, 0x63] = some ([2, 0x61, 0x62, 0xff, 0xff, 0xff, 0xff, 0xff], -1) := by
  decide +kernel

/-! ### Qualification -/

/-- C77: the text of a qualified name is `NI.mncNNN.mccNNN.gprs` with three digits each. -/
theorem gprsText_spec (mcc mnc : Nat) (ni : List Byte) (h1 : mcc < 1000) (h2 : mnc < 1000) :
    ∃ dn dc, DecDigits dn ∧ dn.length = 3 ∧ decValue dn = mnc ∧ DecDigits dc ∧ dc.length = 3 ∧ decValue dc = mcc ∧
      gprsText mcc mnc ni = ni ++ ".mnc".toList.map (fun c => BitVec.ofNat 8 c.toNat) ++ dn ++
        ".mcc".toList.map (fun c => BitVec.ofNat 8 c.toNat) ++ dc ++ ".gprs".toList.map (fun c => BitVec.ofNat 8 c.toNat) := by
  obtain ⟨a1, a2, a3⟩ := decNatW_spec (w := 3) (n := mnc) (by omega) (by omega)
  obtain ⟨b1, b2, b3⟩ := decNatW_spec (w := 3) (n := mcc) (by omega) (by omega)
  refine ⟨decNatW 3 mnc, decNatW 3 mcc, a1, a3, a2, b1, b3, b2, ?_⟩
  rfl

/-- C77: a qualified name is `NI.mncNNN.mccNNN.gprs`, cut to two bytes less than the buffer. -/
theorem qualifyBuf_spec (buf : List Byte) (mcc mnc : Nat) (ni : List Byte) (hb : 2 ≤ buf.length) :
    ∃ b, qualifyBuf buf mcc mnc ni = some b ∧ b.length = buf.length ∧
      ((gprsText mcc mnc ni).take (buf.length - 2) ++ [0#8]) <+: b := by
  unfold qualifyBuf
  rw [if_neg (by intro h; rw [h] at hb; simp at hb)]
  unfold snprintfText
  have h1 : (buf.take (buf.length - 1)).length = buf.length - 1 := by simp
  rw [h1, if_neg (by omega)]
  dsimp only
  rw [Option.bind_some]
  generalize hw : (gprsText mcc mnc ni).take (buf.length - 1 - 1) = w
  have hwl : w.length ≤ buf.length - 2 := by rw [← hw, List.length_take]; omega
  have hlen : (w ++ 0#8 :: (buf.take (buf.length - 1)).drop (w.length + 1)).length = buf.length - 1 := by
    simp; omega
  dsimp only
  have hd : (buf.drop (buf.length - 1)).length = 1 := by simp; omega
  have := write_at (w ++ 0#8 :: (buf.take (buf.length - 1)).drop (w.length + 1)) (buf.drop (buf.length - 1)) [] [0#8]
    (by rw [hd]; rfl) (buf.length - 1) hlen.symm
  rw [List.append_nil, List.append_nil] at this
  rw [this]
  refine ⟨_, rfl, ?_, ?_⟩
  · rw [List.length_append, hlen]; simp; omega
  · exact ⟨(buf.take (buf.length - 1)).drop (w.length + 1) ++ [0#8], by simp⟩

theorem atoi_digit (v n : Nat) (hn : n < 10) (s : List Byte) :
    atoi v (BitVec.ofNat 8 (0x30 + n) :: s) = atoi (v * 10 + n) s := by
  have e : (BitVec.ofNat 8 (0x30 + n)).toNat = 0x30 + n := by
    rw [BitVec.toNat_ofNat]
    omega
  rw [atoi, e, if_pos (by omega)]
  congr 2
  omega

/-- C77: the MCC is the first three digits of the IMSI and the MNC the three or two after. -/
theorem qualifyFromImsi_spec (buf ni rest : List Byte) (a b c d e f : Nat) (ha : a < 10) (hb : b < 10) (hc : c < 10) (hd : d < 10)
    (he : e < 10) (hf : f < 10) :
    let imsi := [a, b, c, d, e, f].map (fun n => BitVec.ofNat 8 (0x30 + n)) ++ rest
    qualifyFromImsi buf imsi ni true = qualifyBuf buf (100 * a + 10 * b + c) (100 * d + 10 * e + f) ni ∧
    qualifyFromImsi buf imsi ni false = qualifyBuf buf (100 * a + 10 * b + c) (10 * d + e) ni := by
  dsimp only
  unfold qualifyFromImsi
  simp only [List.map_cons, List.map_nil, List.cons_append, List.nil_append, List.length_cons]
  have hlt : ¬ rest.length + 1 + 1 + 1 + 1 + 1 + 1 < 3 := by omega
  simp only [hlt, List.take_succ_cons, List.take_zero, List.drop_succ_cons, List.drop_zero, if_true, Bool.false_eq_true, if_false,
    atoi_digit _ a ha, atoi_digit _ b hb, atoi_digit _ c hc, atoi_digit _ d hd, atoi_digit _ e he, atoi_digit _ f hf]
  unfold atoi
  constructor
  · congr 1 <;> omega
  · congr 1 <;> omega

example : qualifyFromImsi (List.replicate 40 0xff#8) ("001010".toList.map (fun c => BitVec.ofNat 8 c.toNat)) [0x61] false =
    some ("a.mnc001.mcc001.gprs".toList.map (fun c => BitVec.ofNat 8 c.toNat) ++ 0#8 :: List.replicate 18 0xff#8 ++ [0#8]) := by
  decide +kernel

end Verif.Apn
