import Verif.Ipa.Ccm
/-!
Model of the answers to identity requests of IPA CCM (src/gsm/ipa.c), and its properties.
-/
namespace Verif.Ipa
open Verif.Utils

/-! ### Model -/

/-- include/osmocom/gsm/ipa.h:13-24 `struct ipaccess_unit`; strings are NULL or bytes without NUL -/
structure Unit where
  site : BitVec 16
  bts : BitVec 16
  trx : BitVec 16
  name : Option (List Byte)
  equipvers : Option (List Byte)
  swversion : Option (List Byte)
  mac : BitVec 8 × BitVec 8 × BitVec 8 × BitVec 8 × BitVec 8 × BitVec 8
  location1 : Option (List Byte)
  location2 : Option (List Byte)
  serno : Option (List Byte)
deriving DecidableEq, Repr

/-- `"%02x"` six times with `sep` between -/
def macText (sep : Byte) (u : Unit) : List Byte :=
  let x := fun b : Byte => Gsm23003.hexFixed 2 b.toNat
  x u.mac.1 ++ sep :: x u.mac.2.1 ++ sep :: x u.mac.2.2.1 ++ sep :: x u.mac.2.2.2.1 ++ sep :: x u.mac.2.2.2.2.1 ++ sep ::
    x u.mac.2.2.2.2.2

/-- `"%u/%u/%u"` -/
def unitText (u : Unit) : List Byte := decNat u.site.toNat ++ 0x2f#8 :: decNat u.bts.toNat ++ 0x2f#8 :: decNat u.trx.toNat

/-- src/gsm/ipa.c:345-394: the string in `str`, which has room for 64 bytes; `none`: an unknown tag -/
def idString (u : Unit) (tag : Byte) : Option (List Byte) :=
  if tag = 8#8 then some ((unitText u).take 63)
  else if tag = 7#8 then some ((macText 0x3a#8 u).take 63)
  else if tag = 2#8 then some ((u.location1.getD []).take 63)
  else if tag = 3#8 then some ((u.location2.getD []).take 63)
  else if tag = 4#8 then some ((u.equipvers.getD []).take 63)
  else if tag = 5#8 then some ((u.swversion.getD []).take 63)
  else if tag = 1#8 then some ((u.name.getD (macText 0x2d#8 u)).take 63)
  else if tag = 0#8 then some ((u.serno.getD []).take 63)
  else none

/-- src/gsm/ipa.c:342-402: the bytes of the message so far and the tags to come; the outer `none`: no room in the buffer of 1200
bytes, `msgb_put` aborts; the inner: NULL -/
def respLoop (u : Unit) : List Byte → List Byte → Option (Option (List Byte))
  | msg, [] => some (some msg)
  | msg, tag :: ies =>
    match idString u tag with
    | none => some none
    | some str =>
      if msg.length + (3 + str.length + 1) > ALLOC then none
      else respLoop u (msg ++ [0x00#8, BitVec.ofNat 8 (1 + str.length + 1), tag] ++ (str ++ [0#8])) ies

/-- src/gsm/ipa.c:552-560 `ipa_prepend_header` -/
def prependHeader (msg : List Byte) (proto : Byte) : List Byte :=
  [BitVec.ofNat 8 (msg.length / 256), BitVec.ofNat 8 (msg.length % 256), proto] ++ msg

/-- src/gsm/ipa.c:330-405 `ipa_ccm_make_id_resp`.  Simplification: memory can be allocated. -/
def makeIdResp (u : Unit) (ies : List Byte) : Option (Option (List Byte)) :=
  (respLoop u [0x05#8] ies).map fun r => r.map fun m => prependHeader m 0xfe#8

/-- src/gsm/ipa.c:422-447: the tags in a request, at most `fuel`, into an array of `cap`; `none`: more -/
def reqLoop (cap : Nat) : Nat → List Byte → List Byte → Option (List Byte)
  | fuel + 1, tl :: tag :: rest, ies =>
    if tl.toNat = 0 then some ies
    else if tl.toNat > rest.length + 1 then some ies
    else if ies.length ≥ cap then none
    else if rest.length ≤ tl.toNat then some (ies ++ [tag])
    else reqLoop cap fuel (rest.drop (tl.toNat - 1)) (ies ++ [tag])
  | 0, _, _ => none
  | _, _, ies => some ies

/-- src/gsm/ipa.c:412-449 `ipa_ccm_make_id_resp_from_req` -/
def makeIdRespFromReq (u : Unit) (data : List Byte) : Option (Option (List Byte)) :=
  (reqLoop (data.length / 2) (data.length + 1) data []).bind (makeIdResp u)

/-- `strtoul(s, &end, 10)` (C11 7.22.1.4, `unsigned long` of 64 bit): the value and what follows -/
def strtoul10 (s : List Byte) : Nat × List Byte :=
  let s1 := s.dropWhile isSpace
  let s2 := if s1.head? = some 0x2d#8 ∨ s1.head? = some 0x2b#8 then s1.drop 1 else s1
  let ds := s2.takeWhile fun c => digit36 c < 10
  if ds = [] then (0, s)
  else
    let v := horner 10 ds
    let v := if v ≥ 2 ^ 64 then 2 ^ 64 - 1 else if s1.head? = some 0x2d#8 then (2 ^ 64 - v) % 2 ^ 64 else v
    (v, s2.drop ds.length)

/-- src/gsm/ipa.c:237-268 `ipa_parse_unitid`: the return value and the three numbers, as far as they were set -/
def parseUnitid (s : List Byte) : Int × Option (BitVec 16) × Option (BitVec 16) × Option (BitVec 16) :=
  let r := strtoul10 s
  if r.2 = s then (-EINVAL, none, none, none)
  else
    let site := BitVec.ofNat 16 r.1
    if r.2.head? ≠ some 0x2f#8 then (-EINVAL, some site, none, none)
    else
      let s := r.2.drop 1
      let r := strtoul10 s
      if r.2 = s then (-EINVAL, some site, none, none)
      else
        let bts := BitVec.ofNat 16 r.1
        if r.2.head? ≠ some 0x2f#8 then (-EINVAL, some site, some bts, none)
        else
          let s := r.2.drop 1
          let r := strtoul10 s
          if r.2 = s then (-EINVAL, some site, some bts, none)
          else (0, some site, some bts, some (BitVec.ofNat 16 r.1))

/-! ### What is wanted -/

/-- What is known of a unit, by tag: the whole strings. -/
inductive Ident (u : Unit) : Byte → List Byte → Prop
  | serno : Ident u 0 (u.serno.getD [])
  | name (s : List Byte) : u.name = some s → Ident u 1 s
  | noName : u.name = none → Ident u 1 (macText 0x2d#8 u)
  | location1 : Ident u 2 (u.location1.getD [])
  | location2 : Ident u 3 (u.location2.getD [])
  | equipvers : Ident u 4 (u.equipvers.getD [])
  | swversion : Ident u 5 (u.swversion.getD [])
  | mac : Ident u 7 (macText 0x3a#8 u)
  | unit : Ident u 8 (unitText u)

theorem idString_iff (u : Unit) (tag : Byte) (s : List Byte) : idString u tag = some s ↔ ∃ t, Ident u tag t ∧ s = t.take 63 := by
  constructor
  · intro h
    unfold idString at h
    split at h
    · rename_i ht; subst ht; cases h; exact ⟨_, .unit, rfl⟩
    split at h
    · rename_i ht; subst ht; cases h; exact ⟨_, .mac, rfl⟩
    split at h
    · rename_i ht; subst ht; cases h; exact ⟨_, .location1, rfl⟩
    split at h
    · rename_i ht; subst ht; cases h; exact ⟨_, .location2, rfl⟩
    split at h
    · rename_i ht; subst ht; cases h; exact ⟨_, .equipvers, rfl⟩
    split at h
    · rename_i ht; subst ht; cases h; exact ⟨_, .swversion, rfl⟩
    split at h
    · rename_i ht
      subst ht
      cases h
      cases hn : u.name with
      | none => exact ⟨_, .noName hn, rfl⟩
      | some s => exact ⟨_, .name s hn, rfl⟩
    split at h
    · rename_i ht; subst ht; cases h; exact ⟨_, .serno, rfl⟩
    cases h
  · rintro ⟨t, h, rfl⟩
    cases h <;> simp [idString, *]

/-- the elements of a response: the string of each tag asked for, cut to 63 bytes, and a NUL -/
def RespElems (u : Unit) (ies : List Byte) (es : List Elem) : Prop :=
  List.Forall₂ (fun tag e => e.tag = tag ∧ ∃ t, Ident u tag t ∧ e.val = t.take 63 ++ [0]) ies es

theorem respElem_len {u : Unit} {tag : Byte} {e : Elem} (h : e.tag = tag ∧ ∃ t, Ident u tag t ∧ e.val = t.take 63 ++ [0]) :
    e.val.length ≤ 64 := by
  obtain ⟨-, t, -, h⟩ := h
  rw [h, List.length_append, List.length_take]
  simp only [List.length_cons, List.length_nil]
  omega

theorem respLoop_spec (u : Unit) (ies : List Byte) : ∀ (msg : List Byte) (es : List Elem), RespElems u ies es →
    msg.length + (encAll .resp es).length ≤ 1200 → respLoop u msg ies = some (some (msg ++ encAll .resp es)) := by
  induction ies with
  | nil =>
    intro msg es h _
    cases h
    simp [respLoop, encAll]
  | cons tag ies ih =>
    intro msg es h hl
    cases h with
    | cons he hes =>
      rename_i e es
      obtain ⟨rfl, t, ht, hv⟩ := he
      have hid := (idString_iff u e.tag (t.take 63)).mpr ⟨t, ht, rfl⟩
      unfold respLoop
      rw [hid]
      dsimp only
      have hlen : e.val.length = (t.take 63).length + 1 := by rw [hv]; simp
      have h63 : (t.take 63).length ≤ 63 := by rw [List.length_take]; omega
      have henc : e.enc .resp = [0x00#8, BitVec.ofNat 8 (1 + (t.take 63).length + 1), e.tag] ++ (t.take 63 ++ [0#8]) := by
        simp only [Elem.enc, hlen]
        rw [hv, show ((t.take 63).length + 1 + 1) / 256 = 0 by omega,
          show ((t.take 63).length + 1 + 1) % 256 = 1 + (t.take 63).length + 1 by omega]
        rfl
      have htot : (encAll .resp (e :: es)).length = (3 + (t.take 63).length + 1) + (encAll .resp es).length := by
        simp only [encAll, List.map_cons, List.flatten_cons, List.length_append, length_enc_elem, hlen, Kind.size]
        omega
      rw [if_neg (by unfold ALLOC; omega), List.append_assoc, ← henc, ih _ es hes (by rw [List.length_append, length_enc_elem, hlen]; simp only [Kind.size]; omega)]
      simp [encAll]

/-- C86 in part: the answer to a list of known tags that fits is a CCM identity response with the strings asked for, in order, and
`ipa_ccm_id_resp_parse` finds them in it (missing: lists that do not fit, which abort). -/
theorem makeIdResp_partial (u : Unit) (ies : List Byte) (es : List Elem) (h : RespElems u ies es)
    (hl : 1 + (encAll .resp es).length ≤ 1200) :
    makeIdResp u ies = some (some ((⟨0xfe, 5 :: encAll .resp es⟩ : Frame).enc)) ∧
    ∃ dec, Points (encAll .resp es) es dec ∧ idRespParse (encAll .resp es) = some (0, dec) := by
  constructor
  · unfold makeIdResp
    rw [respLoop_spec u ies [0x05#8] es h (by simpa using hl)]
    rfl
  · have := parse_partial .resp false es [] (by
      intro e he
      obtain ⟨tag, -, h'⟩ : ∃ tag, tag ∈ ies ∧ (e.tag = tag ∧ ∃ t, Ident u tag t ∧ e.val = t.take 63 ++ [0]) := by
        clear hl
        unfold RespElems at h
        induction h with
        | nil => cases he
        | cons h1 _ ih =>
          rcases List.mem_cons.mp he with rfl | he
          · exact ⟨_, by simp, h1⟩
          · obtain ⟨t, h2, h3⟩ := ih he
            exact ⟨t, by simp [h2], h3⟩
      have := respElem_len h'
      omega) (by simp [Kind.size])
    simpa [idRespParse] using this

/-- C86: up to 17 tags always fit. -/
theorem resp_fits (u : Unit) (ies : List Byte) (es : List Elem) (h : RespElems u ies es) (hn : ies.length ≤ 17) :
    1 + (encAll .resp es).length ≤ 1200 := by
  have : (encAll .resp es).length ≤ 67 * ies.length := by
    clear hn
    unfold RespElems at h
    induction h with
    | nil => simp [encAll]
    | cons h1 _ ih =>
      have := respElem_len h1
      simp only [encAll, List.map_cons, List.flatten_cons, List.length_append, length_enc_elem, Kind.size, List.length_cons] at ih ⊢
      omega
  omega

/-- C86: each of the known tags can be asked for. -/
theorem respElems_exists (u : Unit) (ies : List Byte) (h : ∀ t ∈ ies, t.toNat ≤ 8 ∧ t.toNat ≠ 6) : ∃ es, RespElems u ies es := by
  induction ies with
  | nil => exact ⟨[], .nil⟩
  | cons tag ies ih =>
    obtain ⟨es, hes⟩ := ih (fun t ht => h t (by simp [ht]))
    obtain ⟨h1, h2⟩ := h tag (by simp)
    have : ∃ t, Ident u tag t := by
      have key : ∀ t : Byte, t.toNat ≤ 8 → t.toNat ≠ 6 → t = 0 ∨ t = 1 ∨ t = 2 ∨ t = 3 ∨ t = 4 ∨ t = 5 ∨ t = 7 ∨ t = 8 := by decide +kernel
      rcases key tag h1 h2 with rfl | rfl | rfl | rfl | rfl | rfl | rfl | rfl
      · exact ⟨_, .serno⟩
      · cases hn : u.name with
        | none => exact ⟨_, .noName hn⟩
        | some s => exact ⟨_, .name s hn⟩
      · exact ⟨_, .location1⟩
      · exact ⟨_, .location2⟩
      · exact ⟨_, .equipvers⟩
      · exact ⟨_, .swversion⟩
      · exact ⟨_, .mac⟩
      · exact ⟨_, .unit⟩
    obtain ⟨t, ht⟩ := this
    exact ⟨⟨tag, t.take 63 ++ [0]⟩ :: es, .cons ⟨rfl, t, ht, rfl⟩ hes⟩

/-- C86: a list with an unknown tag among tags that fit is answered with NULL. -/
theorem makeIdResp_unknown (u : Unit) (ies : List Byte) (tag : Byte) (more : List Byte) (es : List Elem) (h : RespElems u ies es)
    (hl : 1 + (encAll .resp es).length ≤ 1200) (ht : ¬ ∃ t, Ident u tag t) : makeIdResp u (ies ++ tag :: more) = some none := by
  have key : ∀ (ies msg : List Byte) (es : List Elem), RespElems u ies es → msg.length + (encAll .resp es).length ≤ 1200 →
      respLoop u msg (ies ++ tag :: more) = some none := by
    intro ies
    induction ies with
    | nil =>
      intro msg es _ _
      have : idString u tag = none := by
        cases hs : idString u tag with
        | none => rfl
        | some s =>
          obtain ⟨t, h1, -⟩ := (idString_iff u tag s).mp hs
          exact absurd ⟨t, h1⟩ ht
      simp only [List.nil_append, respLoop, this]
    | cons a ies ih =>
      intro msg es h hl
      cases h with
      | cons he hes =>
        rename_i e es
        have h1 := respLoop_spec u [a] msg [e] (.cons he .nil) (by
          simp only [encAll, List.map_cons, List.map_nil, List.flatten_cons, List.flatten_nil, List.length_append, List.length_nil] at hl ⊢
          omega)
        rw [List.cons_append]
        unfold respLoop at h1 ⊢
        split at h1
        · simp at h1
        · split at h1
          · cases h1
          · rename_i hroom
            rw [if_neg hroom]
            simp only [respLoop, Option.some.injEq] at h1
            rw [h1]
            apply ih _ es hes
            simp only [encAll, List.map_cons, List.map_nil, List.flatten_cons, List.flatten_nil, List.length_append, List.length_nil] at hl ⊢
            omega
  unfold makeIdResp
  rw [key ies [0x05#8] es h (by simpa using hl)]
  rfl

/-- C86: the tags answered are those of the elements at the front of the request, up to one that is malformed or the end; the array
of tags is never overrun. -/
theorem reqLoop_spec (data : List Byte) : ∃ es rest, data = encAll .get es ++ rest ∧ (∀ e ∈ es, e.val.length < 255) ∧
    (rest.length < 2 ∨ claimed .get rest = 0 ∨ rest.length - 1 < claimed .get rest) ∧
    reqLoop (data.length / 2) (data.length + 1) data [] = some (es.map (·.tag)) := by
  suffices h : ∀ (fuel : Nat) (b : List Byte) (es : List Elem), b.length < fuel → data = encAll .get es ++ b → (∀ e ∈ es, e.val.length < 255) →
      ∃ es' rest, data = encAll .get es' ++ rest ∧ (∀ e ∈ es', e.val.length < 255) ∧
        (rest.length < 2 ∨ claimed .get rest = 0 ∨ rest.length - 1 < claimed .get rest) ∧
        reqLoop (data.length / 2) fuel b (es.map (·.tag)) = some (es'.map (·.tag)) by
    have := h (data.length + 1) data [] (by omega) rfl (by simp)
    simpa using this
  intro fuel
  induction fuel with
  | zero => intro b es h; omega
  | succ fuel ih =>
    intro b es hf hd he
    rcases b with _ | ⟨tl, _ | ⟨tag, rest⟩⟩
    · exact ⟨es, [], hd, he, Or.inl (by simp), by simp [reqLoop]⟩
    · exact ⟨es, [tl], hd, he, Or.inl (by simp), by simp [reqLoop]⟩
    · unfold reqLoop
      by_cases h0 : tl.toNat = 0
      · rw [if_pos h0]
        exact ⟨es, _, hd, he, Or.inr (Or.inl h0), rfl⟩
      · rw [if_neg h0]
        by_cases h1 : tl.toNat > rest.length + 1
        · rw [if_pos h1]
          exact ⟨es, _, hd, he, Or.inr (Or.inr (by simpa [claimed] using h1)), rfl⟩
        · rw [if_neg h1]
          have htl := tl.isLt
          obtain ⟨-, hb⟩ := (header_some (k := .get) (b := tl :: tag :: rest) rfl).2.2 (by simp only [claimed]; omega)
            (by simp only [claimed]; omega) (by simp only [claimed]; omega)
          have hvl : (rest.take (tl.toNat - 1)).length = tl.toNat - 1 := by rw [List.length_take]; omega
          have hd' : data = encAll .get (es ++ [⟨tag, rest.take (tl.toNat - 1)⟩]) ++ rest.drop (tl.toNat - 1) := by
            rw [encAll_snoc, List.append_assoc, ← hb, hd]
          have he' : ∀ e ∈ es ++ [⟨tag, rest.take (tl.toNat - 1)⟩], e.val.length < 255 := by
            intro e h
            rcases List.mem_append.mp h with h | h
            · exact he e h
            · rw [List.mem_singleton.mp h]
              dsimp only
              omega
          have hcap : ∀ es : List Elem, 2 * es.length ≤ (encAll .get es).length := by
            intro es
            induction es with
            | nil => simp
            | cons e es ih =>
              simp only [encAll, List.map_cons, List.flatten_cons, List.length_append, length_enc_elem, Kind.size, List.length_cons] at ih ⊢
              omega
          have hroom : ¬ (es.map (·.tag)).length ≥ data.length / 2 := by
            have h2 := hcap es
            have h3 := congrArg List.length hd
            rw [List.length_append] at h3
            simp only [List.length_cons] at h3
            rw [List.length_map]
            omega
          rw [if_neg hroom]
          have hmap : es.map (·.tag) ++ [tag] = (es ++ [(⟨tag, rest.take (tl.toNat - 1)⟩ : Elem)]).map (·.tag) := by simp
          by_cases h2 : rest.length ≤ tl.toNat
          · rw [if_pos h2, hmap]
            exact ⟨_, _, hd', he', Or.inl (by rw [List.length_drop]; omega), rfl⟩
          · rw [if_neg h2, hmap]
            exact ih _ _ (by simp at hf ⊢; omega) hd' he'

/-- C86: a request with at most 17 known tags is answered with the strings asked for. -/
theorem makeIdRespFromReq_spec (u : Unit) (req : List Elem) (tr : List Byte) (hr : ∀ e ∈ req, e.val.length < 255) (ht : tr.length < 2)
    (hn : req.length ≤ 17) (hk : ∀ e ∈ req, e.tag.toNat ≤ 8 ∧ e.tag.toNat ≠ 6) :
    ∃ es dec, RespElems u (req.map (·.tag)) es ∧
      makeIdRespFromReq u (encAll .get req ++ tr) = some (some ((⟨0xfe, 5 :: encAll .resp es⟩ : Frame).enc)) ∧
      Points (encAll .resp es) es dec ∧ idRespParse (encAll .resp es) = some (0, dec) := by
  obtain ⟨es0, rest, h1, h2, h3, h4⟩ := reqLoop_spec (encAll .get req ++ tr)
  obtain ⟨rfl, rfl⟩ := encAll_unique .get req es0 tr rest hr h2 ht h1 (by simp only [Kind.size]; omega)
  obtain ⟨es, hes⟩ := respElems_exists u (req.map (·.tag)) (by
    intro t ht
    obtain ⟨e, he, rfl⟩ := List.mem_map.mp ht
    exact hk e he)
  obtain ⟨h5, dec, h6, h7⟩ := makeIdResp_partial u _ es hes (resp_fits u _ es hes (by simpa using hn))
  refine ⟨es, dec, hes, ?_, h6, h7⟩
  unfold makeIdRespFromReq
  rw [h4]
  exact h5

/-- C86: a request with many tags makes the answer overrun the buffer, and `msgb_put` aborts: here 300 times the serial number,
which is not set. -/
theorem makeIdResp_overflow_counterexample (u : Unit) (hs : u.serno = none) :
    makeIdRespFromReq u ((List.replicate 300 [1#8, 0#8]).flatten) = none := by
  have h0 : reqLoop (((List.replicate 300 [1#8, 0#8]).flatten).length / 2) (((List.replicate 300 [1#8, 0#8]).flatten).length + 1)
      ((List.replicate 300 [1#8, 0#8]).flatten) [] = some (List.replicate 300 0#8) := by decide +kernel
  have key : ∀ (n : Nat) (msg : List Byte), 1200 < msg.length + 4 * n → msg.length ≤ 1200 →
      respLoop u msg (List.replicate n 0#8) = none := by
    intro n
    induction n with
    | zero => intro msg h1 h2; omega
    | succ n ih =>
      intro msg h1 h2
      have hid : idString u 0#8 = some [] := by simp [idString, hs]
      rw [List.replicate_succ]
      unfold respLoop
      rw [hid]
      dsimp only
      split
      · rfl
      · rename_i h
        unfold ALLOC at h
        simp only [List.length_nil] at h
        apply ih
        · simp; omega
        · simp; omega
  unfold makeIdRespFromReq
  rw [h0]
  show makeIdResp u (List.replicate 300 0#8) = none
  unfold makeIdResp
  rw [key 300 [0x05#8] (by simp) (by simp)]
  rfl

theorem strtoul10_digits (n : Nat) (hn : n < 65536) (rest : List Byte) (hr : ∀ c ∈ rest.head?, ¬ digit36 c < 10) :
    strtoul10 (decNat n ++ rest) = (n, rest) := by
  obtain ⟨hd, hv, hne⟩ := decNat_spec n
  have hall : ∀ c ∈ decNat n, digit36 c < 10 := fun c hc => decDigits_iff.1 hd c hc
  obtain ⟨d, ds, hcons⟩ : ∃ d ds, decNat n = d :: ds := by
    cases h : decNat n with
    | nil => exact absurd h hne
    | cons d ds => exact ⟨d, ds, rfl⟩
  have hdig := hd d (by rw [hcons]; simp)
  have hsp : isSpace d = false := by simp [isSpace]; omega
  have h1 : (decNat n ++ rest).dropWhile isSpace = decNat n ++ rest := by rw [hcons]; simp [hsp]
  have hhead : (decNat n ++ rest).head? = some d := by rw [hcons]; rfl
  have hm : ¬ d = 0x2d#8 := by intro h; rw [h] at hdig; simp at hdig
  have hp : ¬ d = 0x2b#8 := by intro h; rw [h] at hdig; simp at hdig
  have htw : (decNat n ++ rest).takeWhile (fun c => decide (digit36 c < 10)) = decNat n := by
    rw [List.takeWhile_append_of_pos (by intro c hc; simpa using hall c hc)]
    cases rest with
    | nil => simp
    | cons c rest =>
      have : ¬ digit36 c < 10 := hr c (by simp)
      simp [this]
  unfold strtoul10
  simp only [h1, hhead, Option.some.injEq, hm, hp, or_self, if_false, htw, hne]
  have hh : horner 10 (decNat n) = n := by rw [horner_dec hd, hv]
  rw [hh, if_neg (by omega), List.drop_left]

/-- C86: the unit identity of a response is read back. -/
theorem parseUnitid_unitText (u : Unit) : parseUnitid (unitText u) = (0, some u.site, some u.bts, some u.trx) := by
  have hne : ∀ (n : Nat) (rest : List Byte), ¬ rest = decNat n ++ rest := by
    intro n rest h
    have h1 := congrArg List.length h
    rw [List.length_append] at h1
    exact (decNat_spec n).2.2 (List.length_eq_zero_iff.mp (by omega))
  have hs : ¬ digit36 0x2f#8 < 10 := by decide
  unfold parseUnitid unitText
  have e1 := strtoul10_digits u.site.toNat u.site.isLt (0x2f#8 :: decNat u.bts.toNat ++ 0x2f#8 :: decNat u.trx.toNat)
    (by intro c hc; simp at hc; rw [← hc]; exact hs)
  have e2 := strtoul10_digits u.bts.toNat u.bts.isLt (0x2f#8 :: decNat u.trx.toNat)
    (by intro c hc; simp at hc; rw [← hc]; exact hs)
  have e3 := strtoul10_digits u.trx.toNat u.trx.isLt [] (by simp)
  rw [List.append_nil] at e3
  simp only [List.append_assoc, List.cons_append] at e1 e2 ⊢
  rw [e1]
  dsimp only
  rw [if_neg (hne _ _), if_neg (by simp)]
  simp only [List.drop_succ_cons, List.drop_zero]
  rw [e2]
  dsimp only
  rw [if_neg (hne _ _), if_neg (by simp)]
  simp only [List.drop_succ_cons, List.drop_zero]
  rw [e3]
  dsimp only
  rw [if_neg (by have := hne u.trx.toNat []; simpa using this)]
  simp

/-- C86: the text of a MAC address is two hexadecimal digits for each byte, with the separator between. -/
theorem macText_spec (sep : Byte) (u : Unit) : ∃ x0 y0 x1 y1 x2 y2 x3 y3 x4 y4 x5 y5 : Byte,
    macText sep u = [x0, y0, sep, x1, y1, sep, x2, y2, sep, x3, y3, sep, x4, y4, sep, x5, y5] ∧
    (digit36 x0 * 16 + digit36 y0, digit36 x1 * 16 + digit36 y1, digit36 x2 * 16 + digit36 y2, digit36 x3 * 16 + digit36 y3,
      digit36 x4 * 16 + digit36 y4, digit36 x5 * 16 + digit36 y5) =
    (u.mac.1.toNat, u.mac.2.1.toNat, u.mac.2.2.1.toNat, u.mac.2.2.2.1.toNat, u.mac.2.2.2.2.1.toNat, u.mac.2.2.2.2.2.toNat) ∧
    ∀ d ∈ [x0, y0, x1, y1, x2, y2, x3, y3, x4, y4, x5, y5], digit36 d < 16 := by
  have key : ∀ b : Byte, ∃ x y : Byte, Gsm23003.hexFixed 2 b.toNat = [x, y] ∧ digit36 x * 16 + digit36 y = b.toNat ∧ digit36 x < 16 ∧
      digit36 y < 16 := by
    intro b
    have h : ∀ b : Byte, (Gsm23003.hexFixed 2 b.toNat).length = 2 ∧
        digit36 ((Gsm23003.hexFixed 2 b.toNat).getD 0 0) * 16 + digit36 ((Gsm23003.hexFixed 2 b.toNat).getD 1 0) = b.toNat ∧
        digit36 ((Gsm23003.hexFixed 2 b.toNat).getD 0 0) < 16 ∧ digit36 ((Gsm23003.hexFixed 2 b.toNat).getD 1 0) < 16 := by decide +kernel
    obtain ⟨h1, h2, h3, h4⟩ := h b
    match hh : Gsm23003.hexFixed 2 b.toNat, h1 with
    | [x, y], _ =>
      rw [hh] at h2 h3 h4
      exact ⟨x, y, rfl, h2, h3, h4⟩
  obtain ⟨x0, y0, a0, b0, c0, d0⟩ := key u.mac.1
  obtain ⟨x1, y1, a1, b1, c1, d1⟩ := key u.mac.2.1
  obtain ⟨x2, y2, a2, b2, c2, d2⟩ := key u.mac.2.2.1
  obtain ⟨x3, y3, a3, b3, c3, d3⟩ := key u.mac.2.2.2.1
  obtain ⟨x4, y4, a4, b4, c4, d4⟩ := key u.mac.2.2.2.2.1
  obtain ⟨x5, y5, a5, b5, c5, d5⟩ := key u.mac.2.2.2.2.2
  refine ⟨x0, y0, x1, y1, x2, y2, x3, y3, x4, y4, x5, y5, ?_, ?_, ?_⟩
  · simp [macText, a0, a1, a2, a3, a4, a5]
  · rw [b0, b1, b2, b3, b4, b5]
  · intro d hd
    simp only [List.mem_cons, List.not_mem_nil, or_false] at hd
    rcases hd with rfl | rfl | rfl | rfl | rfl | rfl | rfl | rfl | rfl | rfl | rfl | rfl <;> assumption

/-- a unit -/
def exampleUnit : Unit := ⟨1801, 0, 0, none, none, some [0x76, 0x31], (0, 1, 2, 0xab, 0xcd, 0xef), none, none, none⟩

example : makeIdRespFromReq exampleUnit [1, 8, 1, 5] =
    some (some ([0, 19, 0xfe, 5] ++ [0, 10, 8, 0x31, 0x38, 0x30, 0x31, 0x2f, 0x30, 0x2f, 0x30, 0] ++ [0, 4, 5, 0x76, 0x31, 0])) := by
  decide +kernel

end Verif.Ipa
