import Verif.Ipa.Recv
import Verif.Utils.FloatProps
import Verif.Gsm23003.Model
/-!
Model of the identity requests and responses of IPA CCM (src/gsm/ipa.c), and its properties.
-/
namespace Verif.Ipa
open Verif.Utils

/-! ### Model: parsers -/

/-- errno -/
def EINVAL : Int := 22

/-- `struct tlv_parsed` (include/osmocom/gsm/tlv.h:532-534): for each tag the length and the offset of the value in the buffer -/
abbrev Dec := Byte → Option (Nat × Nat)

/-- the messages parsed -/
inductive Kind where
  | get | resp
deriving DecidableEq, Repr

/-- bytes in front of a value -/
def Kind.size : Kind → Nat
  | .get => 2
  | .resp => 3

/-- src/gsm/ipa.c:172-175 and 213-217: `t_len`, a `uint8_t` in both, `t_tag` and what follows; `none`: the loop ends -/
def header : Kind → List Byte → Option (Nat × Byte × List Byte)
  | .get, l :: t :: rest => some (l.toNat, t, rest)
  | .resp, a :: b :: t :: rest => some ((a.toNat * 256 + b.toNat) % 256, t, rest)
  | _, _ => none

/-- src/gsm/ipa.c:163-193 `ipa_ccm_id_get_parse`, 204-235 `ipa_ccm_id_resp_parse` (which differ in the header only), from offset
`off` on, and 116-152 `ipa_ccm_idtag_parse_off` with a `len_offset` of 1, which has one more test (`strict`).  At most `fuel`
elements; `none`: more.  Simplifications: the length of the buffer is below 2^31; nothing is logged (the debug log prints values
as strings, wherever they end). -/
def parseLoop (k : Kind) (strict : Bool) : Nat → Nat → List Byte → Dec → Option (Int × Dec)
  | 0, _, _, _ => none
  | fuel + 1, off, buf, dec =>
    match header k buf with
    | none => some (0, dec)
    | some (tl, tag, rest) =>
      if strict ∧ tl < 1 then some (-EINVAL, dec)
      else if tl > rest.length + 1 then some (-EINVAL, dec)
      else
        let dec : Dec := fun t => if t = tag then some ((tl + 65535) % 65536, off + k.size) else dec t
        if tl = 0 then parseLoop k strict fuel (off + k.size - 1) (tag :: rest) dec
        else parseLoop k strict fuel (off + k.size + (tl - 1)) (rest.drop (tl - 1)) dec

/-- src/gsm/ipa.c:163-193 `ipa_ccm_id_get_parse` -/
def idGetParse (buf : List Byte) : Option (Int × Dec) := parseLoop .get false (buf.length + 1) 0 buf (fun _ => none)

/-- src/gsm/ipa.c:204-235 `ipa_ccm_id_resp_parse` -/
def idRespParse (buf : List Byte) : Option (Int × Dec) := parseLoop .resp false (buf.length + 1) 0 buf (fun _ => none)

/-- src/gsm/ipa.c:102-105 `ipa_ccm_idtag_parse` -/
def idtagParse (buf : List Byte) : Option (Int × Dec) := parseLoop .get true (buf.length + 1) 0 buf (fun _ => none)

/-! ### What is wanted of parsers -/

/-- an element: tag and value -/
structure Elem where
  tag : Byte
  val : List Byte
deriving DecidableEq, Repr

/-- the encoding: the length of tag and value in one byte or two, the tag, the value -/
def Elem.enc (k : Kind) (e : Elem) : List Byte :=
  (match k with
   | .get => [BitVec.ofNat 8 (e.val.length + 1)]
   | .resp => [BitVec.ofNat 8 ((e.val.length + 1) / 256), BitVec.ofNat 8 ((e.val.length + 1) % 256)]) ++ e.tag :: e.val

/-- elements one after the other -/
def encAll (k : Kind) (es : List Elem) : List Byte := (es.map (Elem.enc k)).flatten

/-- `dec` points to the last element with each tag, within the buffer -/
def Points (buf : List Byte) (es : List Elem) (dec : Dec) : Prop :=
  ∀ t, match es.reverse.find? (·.tag = t) with
    | none => dec t = none
    | some e => ∃ off, dec t = some (e.val.length, off) ∧ off + e.val.length ≤ buf.length ∧ (buf.drop off).take e.val.length = e.val

/-- the length that the header at the front gives, all bytes of it -/
def claimed : Kind → List Byte → Nat
  | .get, l :: _ => l.toNat
  | .resp, a :: b :: _ => a.toNat * 256 + b.toNat
  | _, _ => 0

theorem header_none {k : Kind} {b : List Byte} : header k b = none ↔ b.length < k.size := by
  cases k <;> unfold header Kind.size
  · rcases b with _ | ⟨x, _ | ⟨y, b⟩⟩ <;> simp
  · rcases b with _ | ⟨x, _ | ⟨y, _ | ⟨z, b⟩⟩⟩ <;> simp

theorem header_some {k : Kind} {b : List Byte} {tl : Nat} {tag : Byte} {rest : List Byte} (h : header k b = some (tl, tag, rest)) :
    tl = claimed k b % 256 ∧ b.length = k.size + rest.length ∧
      (0 < claimed k b → claimed k b < 256 → claimed k b ≤ rest.length + 1 →
        ⟨tag, rest.take (claimed k b - 1)⟩ = (⟨tag, rest.take (tl - 1)⟩ : Elem) ∧
          b = Elem.enc k ⟨tag, rest.take (tl - 1)⟩ ++ rest.drop (tl - 1)) := by
  cases k with
  | get =>
    rcases b with _ | ⟨x, _ | ⟨y, b⟩⟩
    · simp [header] at h
    · simp [header] at h
    · simp only [header, Option.some.injEq, Prod.mk.injEq] at h
      obtain ⟨rfl, rfl, rfl⟩ := h
      have hx := x.isLt
      refine ⟨by simp only [claimed]; omega, by simp [Kind.size]; omega, fun h0 _ hl => ⟨rfl, ?_⟩⟩
      simp only [claimed] at h0 hl
      have hlen : (b.take (x.toNat - 1)).length + 1 = x.toNat := by rw [List.length_take]; omega
      simp only [Elem.enc, hlen, BitVec.ofNat_toNat, BitVec.setWidth_eq, List.cons_append, List.nil_append, List.take_append_drop]
  | resp =>
    rcases b with _ | ⟨x, _ | ⟨y, _ | ⟨z, b⟩⟩⟩
    · simp [header] at h
    · simp [header] at h
    · simp [header] at h
    · simp only [header, Option.some.injEq, Prod.mk.injEq] at h
      obtain ⟨rfl, rfl, rfl⟩ := h
      have hx := x.isLt
      have hy := y.isLt
      refine ⟨rfl, by simp [Kind.size]; omega, fun h0 h1 hl => ?_⟩
      simp only [claimed] at h0 h1 hl
      have hx0 : x.toNat = 0 := by omega
      have hxz : x = 0#8 := BitVec.eq_of_toNat_eq (by simpa using hx0)
      have ht : (x.toNat * 256 + y.toNat) % 256 = y.toNat := by omega
      have hc : claimed .resp (x :: y :: z :: b) = y.toNat := by simp only [claimed]; omega
      rw [hc, ht]
      refine ⟨rfl, ?_⟩
      have hlen : (b.take (y.toNat - 1)).length + 1 = y.toNat := by rw [List.length_take]; omega
      have h2 : y.toNat / 256 = 0 := by omega
      have h3 : y.toNat % 256 = y.toNat := by omega
      simp only [Elem.enc, hlen, h2, h3, BitVec.ofNat_toNat, BitVec.setWidth_eq, List.cons_append, List.nil_append,
        List.take_append_drop, hxz]

/-- What becomes of any buffer: elements, and then too few bytes for a header (0 is returned), an element longer than the rest
(-EINVAL), or a header with a length of 0 or above 255. -/
inductive Outcome (k : Kind) (strict : Bool) (buf : List Byte) (es : List Elem) (rest : List Byte) : Option (Int × Dec) → Prop
  | done (dec : Dec) : rest.length < k.size → Points buf es dec → Outcome k strict buf es rest (some (0, dec))
  | long (dec : Dec) : k.size ≤ rest.length → rest.length - k.size + 1 < claimed k rest → claimed k rest < 256 → Points buf es dec →
      Outcome k strict buf es rest (some (-EINVAL, dec))
  | odd (r : Option (Int × Dec)) : k.size ≤ rest.length → claimed k rest = 0 ∨ 255 < claimed k rest →
      (strict = true → k = .get → ∃ dec, r = some (-EINVAL, dec) ∧ Points buf es dec) → Outcome k strict buf es rest r

theorem points_snoc {buf : List Byte} {es : List Elem} {dec : Dec} (h : Points buf es dec) (e : Elem) (off : Nat)
    (hb : off + e.val.length ≤ buf.length) (hv : (buf.drop off).take e.val.length = e.val) :
    Points buf (es ++ [e]) (fun t => if t = e.tag then some (e.val.length, off) else dec t) := by
  intro t
  rw [List.reverse_append, List.reverse_singleton, List.singleton_append, List.find?_cons]
  by_cases ht : e.tag = t
  · subst ht
    simp only [decide_true]
    exact ⟨off, by simp, hb, hv⟩
  · have h' := h t
    simp only [ht, decide_false]
    have ht' : ¬ t = e.tag := fun h => ht h.symm
    simp only [ht', if_false]
    exact h'

theorem encAll_snoc (k : Kind) (es : List Elem) (e : Elem) : encAll k (es ++ [e]) = encAll k es ++ e.enc k := by
  simp [encAll]

theorem length_enc_elem (k : Kind) (e : Elem) : (e.enc k).length = k.size + e.val.length := by
  cases k <;> simp [Elem.enc, Kind.size] <;> omega

theorem parseLoop_outcome (k : Kind) (strict : Bool) (buf : List Byte) : ∀ (fuel : Nat) (b : List Byte) (es : List Elem) (dec : Dec),
    b.length < fuel → buf = encAll k es ++ b → (∀ e ∈ es, e.val.length < 255) → Points buf es dec →
    ∃ es' rest, buf = encAll k es' ++ rest ∧ (∀ e ∈ es', e.val.length < 255) ∧
      Outcome k strict buf es' rest (parseLoop k strict fuel (encAll k es).length b dec) := by
  intro fuel
  induction fuel with
  | zero => intro b es dec h; omega
  | succ fuel ih =>
    intro b es dec hf hbuf hes hp
    unfold parseLoop
    cases hh : header k b with
    | none =>
      exact ⟨es, b, hbuf, hes, .done dec (header_none.mp hh) hp⟩
    | some x =>
      obtain ⟨tl, tag, rest⟩ := x
      obtain ⟨h1, h2, h3⟩ := header_some hh
      dsimp only
      by_cases h0 : claimed k b = 0 ∨ 255 < claimed k b
      · refine ⟨es, b, hbuf, hes, .odd _ (by omega) h0 ?_⟩
        intro hs hk
        subst hk
        have : claimed .get b < 256 := by
          cases b with
          | nil => simp [claimed]
          | cons x b => exact x.isLt
        have htl : tl < 1 := by omega
        rw [if_pos ⟨hs, htl⟩]
        exact ⟨dec, rfl, hp⟩
      · have hc : claimed k b % 256 = claimed k b := Nat.mod_eq_of_lt (by omega)
        rw [hc] at h1
        rw [if_neg (by omega)]
        by_cases hl : tl > rest.length + 1
        · rw [if_pos hl]
          exact ⟨es, b, hbuf, hes, .long dec (by omega) (by omega) (by omega) hp⟩
        · have htl0 : ¬ tl = 0 := by omega
          rw [if_neg hl, if_neg htl0]
          obtain ⟨-, hb⟩ := h3 (by omega) (by omega) (by omega)
          have hvl : (rest.take (tl - 1)).length = tl - 1 := by rw [List.length_take]; omega
          have hbuf' : buf = encAll k (es ++ [⟨tag, rest.take (tl - 1)⟩]) ++ rest.drop (tl - 1) := by
            rw [encAll_snoc, List.append_assoc, ← hb, hbuf]
          have hlen : (encAll k (es ++ [⟨tag, rest.take (tl - 1)⟩])).length = (encAll k es).length + k.size + (tl - 1) := by
            rw [encAll_snoc, List.length_append, length_enc_elem]
            dsimp only
            omega
          have hval : (tl + 65535) % 65536 = (rest.take (tl - 1)).length := by omega
          have hrest : rest = b.drop k.size := by
            cases k with
            | get =>
              rcases b with _ | ⟨x, _ | ⟨y, b⟩⟩ <;> simp [header] at hh
              exact hh.2.2.symm
            | resp =>
              rcases b with _ | ⟨x, _ | ⟨y, _ | ⟨z, b⟩⟩⟩ <;> simp [header] at hh
              exact hh.2.2.symm
          have hp' := points_snoc hp ⟨tag, rest.take (tl - 1)⟩ ((encAll k es).length + k.size)
            (by
              have := congrArg List.length hbuf
              rw [List.length_append] at this
              dsimp only
              omega)
            (by
              dsimp only
              rw [hvl, hbuf, ← List.drop_drop, List.drop_left, ← hrest])
          dsimp only at hp'
          rw [hval]
          have hnext := ih (rest.drop (tl - 1)) (es ++ [⟨tag, rest.take (tl - 1)⟩]) _
            (by rw [List.length_drop]; cases k <;> simp only [Kind.size] at h2 <;> omega) hbuf'
            (by
              intro e he
              rcases List.mem_append.mp he with he | he
              · exact hes e he
              · rw [List.mem_singleton.mp he]
                dsimp only
                omega) hp'
          rw [hlen] at hnext
          exact hnext

/-- C85: what any buffer comes to, for the three parsers. -/
theorem parse_outcome (k : Kind) (strict : Bool) (buf : List Byte) : ∃ es rest, buf = encAll k es ++ rest ∧
    (∀ e ∈ es, e.val.length < 255) ∧
    Outcome k strict buf es rest (parseLoop k strict (buf.length + 1) 0 buf (fun _ => none)) := by
  have := parseLoop_outcome k strict buf (buf.length + 1) buf [] (fun _ => none) (by omega) rfl (by simp) (by intro t; simp)
  simpa [encAll] using this

/-- C85: `ipa_ccm_idtag_parse` is safe: for any buffer it returns 0 or -EINVAL, and all values found are elements from the front of
the buffer, within it. -/
theorem idtagParse_safe (buf : List Byte) : ∃ es rest rc dec, buf = encAll .get es ++ rest ∧ idtagParse buf = some (rc, dec) ∧
    Points buf es dec ∧ (rc = 0 ∨ rc = -EINVAL) ∧ (rc = 0 ↔ rest.length < 2) := by
  obtain ⟨es, rest, h1, -, h3⟩ := parse_outcome .get true buf
  unfold idtagParse
  generalize parseLoop .get true (buf.length + 1) 0 buf (fun _ => none) = r at h3 ⊢
  cases h3 with
  | done dec hl hp => exact ⟨es, rest, 0, dec, h1, rfl, hp, Or.inl rfl, by simpa [Kind.size] using hl⟩
  | long dec hl hc _ hp => exact ⟨es, rest, -EINVAL, dec, h1, rfl, hp, Or.inr rfl, by simp [EINVAL, Kind.size] at hl ⊢; omega⟩
  | odd _ hl hc hr =>
    obtain ⟨dec, rfl, hp⟩ := hr rfl rfl
    exact ⟨es, rest, -EINVAL, dec, h1, rfl, hp, Or.inr rfl, by simp [EINVAL, Kind.size] at hl ⊢; omega⟩

theorem claimed_enc (k : Kind) (e : Elem) (h : e.val.length < 255) (t : List Byte) : claimed k (e.enc k ++ t) = e.val.length + 1 := by
  cases k <;> simp only [Elem.enc, List.cons_append, List.nil_append, claimed, BitVec.toNat_ofNat] <;> omega

theorem enc_prefix {k : Kind} {e f : Elem} (he : e.val.length < 255) (hf : f.val.length < 255) {s t : List Byte}
    (h : e.enc k ++ s = f.enc k ++ t) : e = f ∧ s = t := by
  have h1 := claimed_enc k e he s
  have h2 := claimed_enc k f hf t
  rw [h] at h1
  obtain ⟨h3, h4⟩ := List.append_inj h (by rw [length_enc_elem, length_enc_elem]; omega)
  refine ⟨?_, h4⟩
  obtain ⟨p, d⟩ := e
  obtain ⟨p', d'⟩ := f
  cases k <;> simp only [Elem.enc, List.cons_append, List.nil_append, List.cons.injEq] at h3
  · rw [h3.2.1, h3.2.2]
  · rw [h3.2.2.1, h3.2.2.2]

/-- the elements of a buffer are unique -/
theorem encAll_unique (k : Kind) (es : List Elem) : ∀ (fs : List Elem) (s t : List Byte), (∀ e ∈ es, e.val.length < 255) →
    (∀ e ∈ fs, e.val.length < 255) → s.length < k.size → encAll k es ++ s = encAll k fs ++ t →
    (t.length < k.size ∨ claimed k t = 0 ∨ 255 < claimed k t ∨ t.length - k.size + 1 < claimed k t) → es = fs ∧ s = t := by
  induction es with
  | nil =>
    intro fs s t _ hf hs h _
    cases fs with
    | nil => exact ⟨rfl, by simpa [encAll] using h⟩
    | cons f fs =>
      exfalso
      have := congrArg List.length h
      simp only [encAll, List.map_nil, List.flatten_nil, List.nil_append, List.map_cons, List.flatten_cons, List.length_append,
        length_enc_elem] at this
      omega
  | cons e es ih =>
    intro fs s t he hf hs h ht
    cases fs with
    | nil =>
      exfalso
      have h' : e.enc k ++ (encAll k es ++ s) = t := by simpa [encAll] using h
      have hc := claimed_enc k e (he e (by simp)) (encAll k es ++ s)
      have := congrArg List.length h'
      rw [List.length_append, length_enc_elem] at this
      rw [h'] at hc
      have := he e (by simp)
      omega
    | cons f fs =>
      have h' : e.enc k ++ (encAll k es ++ s) = f.enc k ++ (encAll k fs ++ t) := by
        simpa [encAll, List.append_assoc] using h
      obtain ⟨rfl, h''⟩ := enc_prefix (he e (by simp)) (hf f (by simp)) h'
      obtain ⟨rfl, rfl⟩ := ih fs s t (fun x hx => he x (by simp [hx])) (fun x hx => hf x (by simp [hx])) hs h'' ht
      exact ⟨rfl, rfl⟩

/-- C85 in part: every parser finds the elements of a well-formed message (missing: `ipa_ccm_id_get_parse` and
`ipa_ccm_id_resp_parse` of lengths 0 and, in responses, above 255, for which they give values outside of the buffer). -/
theorem parse_partial (k : Kind) (strict : Bool) (es : List Elem) (tr : List Byte) (he : ∀ e ∈ es, e.val.length < 255)
    (ht : tr.length < k.size) : ∃ dec, Points (encAll k es ++ tr) es dec ∧
      parseLoop k strict ((encAll k es ++ tr).length + 1) 0 (encAll k es ++ tr) (fun _ => none) = some (0, dec) := by
  obtain ⟨fs, rest, h1, h2, h3⟩ := parse_outcome k strict (encAll k es ++ tr)
  generalize hb : encAll k es ++ tr = buf at h1 h3 ⊢
  generalize parseLoop k strict (buf.length + 1) 0 buf (fun _ => none) = r at h3 ⊢
  rw [← hb] at h1
  cases h3 with
  | done dec hl hp =>
    obtain ⟨rfl, rfl⟩ := encAll_unique k es fs tr rest he h2 ht h1 (Or.inl hl)
    exact ⟨dec, hp, rfl⟩
  | long dec hl hc _ hp =>
    obtain ⟨rfl, rfl⟩ := encAll_unique k es fs tr rest he h2 ht h1 (Or.inr (Or.inr (Or.inr hc)))
    omega
  | odd _ hl hc hr =>
    obtain ⟨rfl, rfl⟩ := encAll_unique k es fs tr rest he h2 ht h1 (by omega)
    omega

/-- C85: a length of 0 in a request gives a value of 65535 bytes in a buffer of 2. -/
theorem idGet_zero_counterexample : (idGetParse [0, 5]).map (fun x => (x.1, x.2 5)) = some (0, some (65535, 2)) := by decide +kernel

/-- C85: so does it in a response, and a length of 256. -/
theorem idResp_counterexample : (idRespParse [0, 0, 1]).map (fun x => (x.1, x.2 1)) = some (0, some (65535, 3)) ∧
    (idRespParse (1 :: 0 :: 1 :: List.replicate 255 7)).map (fun x => x.2 1) = some (some (65535, 3)) := by decide +kernel

example : (idRespParse ([0, 4, 8, 0x31, 0x32, 0] ++ [0, 2, 1, 0] ++ [9])).map (fun x => (x.1, x.2 8, x.2 1, x.2 0)) =
    some (0, some (3, 3), some (1, 9), none) := by decide +kernel

end Verif.Ipa
