import Verif.CellId.Model
/-!
Properties of cell identifier elements (C156).
-/
namespace Verif.CellId
open Verif.Gsm23003 Verif.RaId

/-- The kinds of TS 48.008 that are sent, with the octets of one entry. -/
def widths : List (Nat × Nat) := [(0, 7), (1, 4), (2, 2), (3, 0), (4, 5), (5, 2), (6, 0), (11, 7)]

/-- Two octets, the most significant first. -/
def two (v : BitVec 16) : List Byte := [BitVec.ofNat 8 (v.toNat / 256), BitVec.ofNat 8 v.toNat]

/-- The octets of one entry: of a CGI-PS only what a CGI has. -/
def code : CellId → List Byte
  | .cgi c => laiWire c.lai ++ two c.ci
  | .lacCi lac ci => two lac ++ two ci
  | .ci ci => two ci
  | .lai l => laiWire l
  | .lac lac => two lac
  | .sai l sac => laiWire l ++ two sac
  | .cgiPs c => laiWire c.rai.lai ++ two c.ci
  | _ => []

/-- What of an identifier is sent: of a CGI-PS the CGI; the flag for three MNC
digits is that of the number for those above 99. -/
def sent : CellId → CellId
  | .cgi c => .cgi ⟨Lai.norm c.lai, c.ci⟩
  | .lai l => .lai (Lai.norm l)
  | .sai l sac => .sai (Lai.norm l) sac
  | .cgiPs c => .cgi ⟨Lai.norm c.rai.lai, c.ci⟩
  | c => c

/-- The identifier has a code: MCC and MNC of up to three digits, and none of
the UTRAN kinds. -/
def Valid : CellId → Prop
  | .cgi c => InRange c.lai
  | .lai l => InRange l
  | .sai l _ => InRange l
  | .cgiPs c => InRange c.rai.lai
  | .utran _ => False
  | _ => True

/-- A list of a kind that is sent, with entries of that kind only. -/
def CList.Wf (l : CList) : Prop :=
  (l.discr = 128 ∨ ∃ w, (l.discr, w) ∈ widths) ∧ ∀ c ∈ l.ids, CellId.discr c = l.discr

/-- The octets of all entries. -/
def codes (cs : List CellId) : List Byte := (cs.map code).flatten

theorem ld_two (v : BitVec 16) : ld16 (BitVec.ofNat 8 (v.toNat / 256)) (v.setWidth 8) = v := by
  have := ld16_be16 v
  simpa using this

theorem lai_append (l : Lai) : ∃ a b c d e, laiWire l = [a, b, c, d, e] := by
  have := laiWire_length l
  match h : laiWire l, this with
  | [a, b, c, d, e], _ => exact ⟨a, b, c, d, e, rfl⟩

theorem lai_dec (l : Lai) (t : List Byte) (h : InRange l) :
    decodeLai2 (laiWire l ++ t) = some (Lai.norm l) ∧ (laiWire l ++ t).drop 5 = t := by
  refine ⟨(lai_roundtrip l t).2 h, ?_⟩
  obtain ⟨a, b, c, d, e, hl⟩ := lai_append l
  rw [hl]
  rfl

theorem putEntry_code (c : CellId) (h : ∀ k, c ≠ .utran k) : putEntry c = some (code c) := by
  cases c <;> simp [putEntry, put, code, toCgi, generateLai2_wire, be16_eq, two]
  exact absurd rfl (h _)

theorem putAll_codes (cs : List CellId) (h : ∀ c ∈ cs, ∀ k, c ≠ .utran k) :
    putAll cs = some (codes cs) := by
  induction cs with
  | nil => rfl
  | cons c cs ih =>
    simp only [putAll]
    rw [putEntry_code c (h c (by simp)), ih (fun x hx => h x (List.mem_cons_of_mem _ hx))]
    simp [codes]

theorem not_utran {c : CellId} (h : Valid c) : ∀ k, c ≠ .utran k := by
  intro k e
  subst e
  exact h

/-- One entry is decoded to what of it is sent, whatever follows. -/
theorem decodeU_code (c : CellId) (t : List Byte) (h : Valid c) (hp : discr c ≠ 128) :
    decodeU (discr c) (code c ++ t) = some (sent c) := by
  cases c with
  | cgi c =>
    have ⟨a, b⟩ := lai_dec c.lai (two c.ci ++ t) h
    simp only [discr, code, decodeU, List.append_assoc, a, b]
    simp [two, ld_two, sent]
  | lacCi lac ci => simp [discr, code, decodeU, two, ld_two, sent]
  | ci ci => simp [discr, code, decodeU, two, ld_two, sent]
  | noCell => rfl
  | lai l =>
    have ⟨a, b⟩ := lai_dec l t h
    simp only [discr, code, decodeU, a]
    rfl
  | lac lac => simp [discr, code, decodeU, two, ld_two, sent]
  | bss => rfl
  | utran k => exact absurd h (by simp [Valid])
  | sai l sac =>
    have ⟨a, b⟩ := lai_dec l (two sac ++ t) h
    simp only [discr, code, decodeU, List.append_assoc, a, b]
    simp [two, ld_two, sent]
  | cgiPs c => exact absurd rfl hp

/-- The union decoder also knows the CGI-PS, with the RAC before the CI. -/
theorem put_decodeU (c : CellId) (t : List Byte) (h : Valid c) :
    ∃ b, put c = some b ∧ decodeU (discr c) (b ++ t) =
      some (match c with
        | .cgiPs c => .cgiPs ⟨⟨Lai.norm c.rai.lai, c.rai.rac⟩, c.ci⟩
        | c => sent c) := by
  cases c with
  | cgiPs c =>
    refine ⟨_, rfl, ?_⟩
    rw [generateLai2_wire, be16_eq]
    have ⟨a, b⟩ := lai_dec c.rai.lai (c.rai.rac :: two c.ci ++ t) h
    simp only [two, List.cons_append, List.nil_append] at a b
    simp only [discr, decodeU, List.append_assoc, List.cons_append, List.nil_append, a, b, ld16_be16]
  | utran k => exact absurd h (by simp [Valid])
  | cgi c => exact ⟨_, rfl, by rw [generateLai2_wire, be16_eq]; exact decodeU_code (.cgi c) t h (by simp [discr])⟩
  | lacCi a b => exact ⟨_, rfl, by rw [be16_eq, be16_eq]; exact decodeU_code (.lacCi a b) t h (by simp [discr])⟩
  | ci a => exact ⟨_, rfl, by rw [be16_eq]; exact decodeU_code (.ci a) t h (by simp [discr])⟩
  | noCell => exact ⟨_, rfl, rfl⟩
  | lai l => exact ⟨_, rfl, by rw [generateLai2_wire]; exact decodeU_code (.lai l) t h (by simp [discr])⟩
  | lac a => exact ⟨_, rfl, by rw [be16_eq]; exact decodeU_code (.lac a) t h (by simp [discr])⟩
  | bss => exact ⟨_, rfl, rfl⟩
  | sai l s => exact ⟨_, rfl, by rw [generateLai2_wire, be16_eq]; exact decodeU_code (.sai l s) t h (by simp [discr])⟩

example : put (.cgiPs ⟨⟨⟨⟨262, 42, false⟩, 0x0102⟩, 7⟩, 0x0304⟩) =
    some [0x62, 0xf2, 0x24, 0x01, 0x02, 0x07, 0x03, 0x04] := by decide

theorem code_length (c : CellId) (w : Nat) (h : (discr c, w) ∈ widths) : (code c).length = w := by
  cases c <;> simp [discr, widths] at h <;> simp [code, two, laiWire_length, h]
  omega

/-- Of a decoded element, the kind. -/
theorem decodeU_kind (d : Nat) (l : List Byte) (c : CellId) (h : decodeU d l = some c) :
    discr c = d := by
  unfold decodeU at h
  split at h
  case h_4 =>
    cases hl : decodeLai2 l with
    | none => simp [hl] at h
    | some x => simp [hl] at h; subst h; rfl
  all_goals first
    | (split at h <;> first | (cases h; rfl) | cases h)
    | (cases h; rfl)
    | cases h

/-- Enough octets are decoded. -/
theorem decodeU_total (d w : Nat) (l : List Byte) (h : (d, w) ∈ widths) (hl : w ≤ l.length) :
    ∃ c, decodeU d l = some c := by
  simp only [widths, List.mem_cons, Prod.mk.injEq, List.not_mem_nil, or_false] at h
  rcases h with ⟨rfl, rfl⟩ | ⟨rfl, rfl⟩ | ⟨rfl, rfl⟩ | ⟨rfl, rfl⟩ | ⟨rfl, rfl⟩ | ⟨rfl, rfl⟩ | ⟨rfl, rfl⟩ | ⟨rfl, rfl⟩
  · match l, hl with
    | a :: b :: c :: d :: e :: f :: g :: l, _ => exact ⟨_, rfl⟩
  · match l, hl with
    | a :: b :: c :: d :: l, _ => exact ⟨_, rfl⟩
  · match l, hl with
    | a :: b :: l, _ => exact ⟨_, rfl⟩
  · exact ⟨_, rfl⟩
  · match l, hl with
    | a :: b :: c :: d :: e :: l, _ => exact ⟨_, rfl⟩
  · match l, hl with
    | a :: b :: l, _ => exact ⟨_, rfl⟩
  · exact ⟨_, rfl⟩
  · match l, hl with
    | a :: b :: c :: d :: e :: f :: g :: l, _ => exact ⟨_, rfl⟩

theorem parse_codes (d w : Nat) (cs : List CellId) (n : Nat) (hw : (d, w) ∈ widths) (h0 : 0 < w)
    (hn : cs.length ≤ n) (hd : ∀ c ∈ cs, discr c = d) (hv : ∀ c ∈ cs, Valid c) :
    parse d w n (codes cs) = .ok (cs.map sent, (codes cs).length) := by
  induction cs generalizing n with
  | nil => unfold parse; simp [codes, h0]
  | cons c cs ih =>
    cases n with
    | zero => simp at hn
    | succ n =>
      have hc := hd c (by simp)
      have hl : (code c).length = w := code_length c w (by rw [hc]; exact hw)
      have hp : discr c ≠ 128 := by
        rw [hc]
        intro e
        subst e
        simp [widths] at hw
      have e : codes (c :: cs) = code c ++ codes cs := by simp [codes]
      unfold parse
      rw [if_neg (by rw [e, List.length_append]; omega)]
      simp only []
      have := decodeU_code c (codes cs) (hv c (by simp)) hp
      rw [hc] at this
      rw [e, this, ← hl, List.drop_left]
      simp only []
      rw [hl, ih n (by simpa using hn) (fun x hx => hd x (List.mem_cons_of_mem _ hx))
        (fun x hx => hv x (List.mem_cons_of_mem _ hx))]
      simp [hl]

/-- What parsing gives: as many entries as there is room for, all of the kind. -/
theorem parse_spec (d w : Nat) (n : Nat) (l : List Byte) (hw : (d, w) ∈ widths) (h0 : 0 < w) :
    (l.length / w ≤ n → ∃ cs, parse d w n l = .ok (cs, w * cs.length) ∧ cs.length = l.length / w ∧
      (∀ c ∈ cs, discr c = d) ∧ ∀ i, i < cs.length → decodeU d (l.drop (w * i)) = cs[i]?) ∧
    (n < l.length / w → parse d w n l = .error ENOSPC) := by
  induction n generalizing l with
  | zero =>
    constructor
    · intro h
      have : l.length < w := by
        by_cases hl : l.length < w
        · exact hl
        · have := Nat.div_pos (by omega : w ≤ l.length) h0
          omega
      unfold parse
      rw [if_pos this]
      exact ⟨[], rfl, by simp [Nat.div_eq_of_lt this], by simp, by simp⟩
    · intro h
      have : ¬ l.length < w := by
        intro hl
        rw [Nat.div_eq_of_lt hl] at h
        omega
      unfold parse
      rw [if_neg this]
  | succ n ih =>
    by_cases hl : l.length < w
    · unfold parse
      rw [if_pos hl]
      rw [Nat.div_eq_of_lt hl]
      exact ⟨fun _ => ⟨[], rfl, rfl, by simp, by simp⟩, fun h => by omega⟩
    · obtain ⟨c, hc⟩ := decodeU_total d w l hw (by omega)
      have hdiv : l.length / w = (l.drop w).length / w + 1 := by
        rw [List.length_drop, ← Nat.div_eq_sub_div h0 (by omega)]
      unfold parse
      rw [if_neg hl]
      simp only [hc]
      have ⟨a, b⟩ := ih (l.drop w)
      constructor
      · intro h
        obtain ⟨cs, h1, h2, h3, h4⟩ := a (by omega)
        rw [h1]
        refine ⟨c :: cs, ?_, ?_, ?_, ?_⟩
        · simp [Nat.mul_add, Nat.add_comm]
        · simp [h2, hdiv]
        · intro x hx
          rcases List.mem_cons.mp hx with rfl | hx
          · exact decodeU_kind d l x hc
          · exact h3 x hx
        · intro i hi
          cases i with
          | zero => simpa using hc
          | succ i =>
            have := h4 i (by simpa using hi)
            rw [List.drop_drop] at this
            rw [Nat.mul_succ, Nat.add_comm]
            simpa using this
      · intro h
        rw [b (by omega)]

/-- The kind that is sent: a CGI-PS goes out as a CGI. -/
def sentKind (d : Nat) : Nat := if d = 128 then 0 else d

theorem known_kinds (d : Nat) (h : d = 128 ∨ ∃ w, (d, w) ∈ widths) :
    (∃ w, (sentKind d, w) ∈ widths) ∧ sentDiscr d = sentKind d ∧
    (BitVec.ofNat 8 (sentKind d) &&& 0x0f#8).toNat = sentKind d := by
  rcases h with rfl | ⟨w, h⟩
  · exact ⟨⟨7, by decide⟩, by decide, by decide⟩
  · simp only [widths, List.mem_cons, Prod.mk.injEq, List.not_mem_nil, or_false] at h
    rcases h with ⟨rfl, rfl⟩ | ⟨rfl, rfl⟩ | ⟨rfl, rfl⟩ | ⟨rfl, rfl⟩ | ⟨rfl, rfl⟩ | ⟨rfl, rfl⟩ | ⟨rfl, rfl⟩ | ⟨rfl, rfl⟩
    · exact ⟨⟨7, by decide⟩, by decide, by decide⟩
    · exact ⟨⟨4, by decide⟩, by decide, by decide⟩
    · exact ⟨⟨2, by decide⟩, by decide, by decide⟩
    · exact ⟨⟨0, by decide⟩, by decide, by decide⟩
    · exact ⟨⟨5, by decide⟩, by decide, by decide⟩
    · exact ⟨⟨2, by decide⟩, by decide, by decide⟩
    · exact ⟨⟨0, by decide⟩, by decide, by decide⟩
    · exact ⟨⟨7, by decide⟩, by decide, by decide⟩

/-- **C156a.** The element written: tag, length, kind and the codes of the
entries; the length and what is returned are the octets written, if these are
few enough. -/
theorem encList_spec (l : CList) (hw : l.Wf) (hn : l.ids.length ≤ 127) (hv : ∀ c ∈ l.ids, Valid c) :
    encList l = some (26#8 :: BitVec.ofNat 8 (1 + (codes l.ids).length) ::
      BitVec.ofNat 8 (sentKind l.discr) :: codes l.ids, (3 + (codes l.ids).length) % 256) := by
  unfold encList
  rw [if_neg (by omega), putAll_codes l.ids (fun c hc => not_utran (hv c hc)), (known_kinds _ hw.1).2.1]
  have e : BitVec.ofNat 8 ((1 + (codes l.ids).length) % 256) = BitVec.ofNat 8 (1 + (codes l.ids).length) := by
    apply BitVec.eq_of_toNat_eq
    simp
  simp only [Option.bind_eq_bind, Option.bind_some, e]
  congr 2
  omega

theorem sent_ps (c : CellId) (h : discr c = 128) :
    ∃ x : Cgi, code c = code (.cgi x) ∧ sent c = sent (.cgi x) ∧ (Valid c ↔ Valid (.cgi x)) := by
  cases c <;> simp [discr] at h
  · omega
  · rename_i c
    exact ⟨⟨c.rai.lai, c.ci⟩, rfl, rfl, Iff.rfl⟩

/-- The CGI list a list of CGI-PS stands for. -/
theorem ps_list (cs : List CellId) (h : ∀ c ∈ cs, discr c = 128) :
    ∃ xs : List CellId, xs.length = cs.length ∧ codes cs = codes xs ∧ cs.map sent = xs.map sent ∧
      (∀ x ∈ xs, discr x = 0) ∧ ((∀ c ∈ cs, Valid c) → ∀ x ∈ xs, Valid x) := by
  induction cs with
  | nil => exact ⟨[], rfl, rfl, rfl, by simp, by simp⟩
  | cons c cs ih =>
    obtain ⟨xs, h1, h2, h3, h4, h5⟩ := ih (fun x hx => h x (List.mem_cons_of_mem _ hx))
    obtain ⟨y, g1, g2, g3⟩ := sent_ps c (h c (by simp))
    refine ⟨.cgi y :: xs, by simp [h1], ?_, ?_, ?_, ?_⟩
    · simp only [codes] at h2
      simp [codes, g1, h2]
    · simp only [List.map_cons, g2, h3]
    · intro x hx
      rcases List.mem_cons.mp hx with rfl | hx
      · rfl
      · exact h4 x hx
    · intro hv x hx
      rcases List.mem_cons.mp hx with rfl | hx
      · exact g3.mp (hv c (by simp))
      · exact h5 (fun c hc => hv c (List.mem_cons_of_mem _ hc)) x hx

/-- **C156b.** A list is decoded to what of it is sent, if it fits the length
octet, is not an empty list of LAC and CI, and the kinds without entries have
none. -/
theorem list_round_trip_partial (l : CList) (hw : l.Wf) (hn : l.ids.length ≤ 127)
    (hv : ∀ c ∈ l.ids, Valid c) (hl : 1 + (codes l.ids).length ≤ 255)
    (h1 : l.discr = 1 → l.ids ≠ []) (h0 : l.discr = 3 ∨ l.discr = 6 → l.ids = []) :
    ∃ body, encList l = some (26#8 :: BitVec.ofNat 8 body.length :: body, (body.length + 2) % 256) ∧
      body.length ≤ 255 ∧
      decList body = .ok (⟨sentKind l.discr, l.ids.map sent⟩, body.length) := by
  refine ⟨BitVec.ofNat 8 (sentKind l.discr) :: codes l.ids, ?_, ?_, ?_⟩
  · rw [encList_spec l hw hn hv]
    simp only [List.length_cons]
    rw [Nat.add_comm 1, show 3 + (codes l.ids).length = (codes l.ids).length + 1 + 2 by omega]
  · simp
    omega
  · simp only [decList]
    rw [(known_kinds _ hw.1).2.2]
    obtain ⟨d, ids⟩ := l
    simp only at *
    suffices h : parseList (sentKind d) (codes ids) = .ok (ids.map sent, (codes ids).length) by
      rw [h]
      simp [Nat.add_comm]
    rcases hw.1 with rfl | ⟨w, h⟩
    · obtain ⟨xs, g1, g2, g3, g4, g5⟩ := ps_list ids hw.2
      rw [g2, g3]
      exact parse_codes 0 7 xs 127 (by decide) (by omega) (by omega) g4 (g5 hv)
    · simp only [widths, List.mem_cons, Prod.mk.injEq, List.not_mem_nil, or_false] at h
      rcases h with ⟨rfl, rfl⟩ | ⟨rfl, rfl⟩ | ⟨rfl, rfl⟩ | ⟨rfl, rfl⟩ | ⟨rfl, rfl⟩ | ⟨rfl, rfl⟩ | ⟨rfl, rfl⟩ | ⟨rfl, rfl⟩
      · exact parse_codes 0 7 ids 127 (by decide) (by omega) (by omega) hw.2 hv
      · have := parse_codes 1 4 ids 127 (by decide) (by omega) (by omega) hw.2 hv
        have h4 : ¬ (codes ids).length < 4 := by
          cases ids with
          | nil => exact absurd rfl (h1 rfl)
          | cons c cs =>
            have := code_length c 4 (by rw [hw.2 c (by simp)]; simp [widths])
            simp [codes, this]
        show (if _ then _ else _) = _
        rw [if_neg h4]
        exact this
      · exact parse_codes 2 2 ids 127 (by decide) (by omega) (by omega) hw.2 hv
      · rw [h0 (Or.inl rfl)]
        rfl
      · exact parse_codes 4 5 ids 127 (by decide) (by omega) (by omega) hw.2 hv
      · exact parse_codes 5 2 ids 127 (by decide) (by omega) (by omega) hw.2 hv
      · rw [h0 (Or.inr rfl)]
        rfl
      · exact parse_codes 11 7 ids 127 (by decide) (by omega) (by omega) hw.2 hv

example : encList ⟨128, [.cgiPs ⟨⟨⟨⟨262, 42, false⟩, 0x0102⟩, 7⟩, 0x0304⟩]⟩ =
      some ([26, 8, 0, 0x62, 0xf2, 0x24, 0x01, 0x02, 0x03, 0x04], 10) ∧
    CList.Wf ⟨128, [.cgiPs ⟨⟨⟨⟨262, 42, false⟩, 0x0102⟩, 7⟩, 0x0304⟩]⟩ := by
  refine ⟨by decide, Or.inl rfl, ?_⟩
  intro c hc
  simp at hc
  subst hc
  rfl

/-- **C156c.** An element is accepted exactly if its kind is one that is sent
and, for LAC and CI, has at least one entry; the list has an entry for every
complete code, each the decoding of its octets; refused is it with `-EINVAL`. -/
theorem decList_spec (h : Byte) (t : List Byte) (hl : t.length ≤ 254) :
    (∀ w, ((h &&& 0x0f#8).toNat, w) ∈ widths → ((h &&& 0x0f#8).toNat = 1 → 4 ≤ t.length) →
      ∃ cs, decList (h :: t) = .ok (⟨(h &&& 0x0f#8).toNat, cs⟩, 1 + w * cs.length) ∧
        cs.length = t.length / w ∧
        (∀ c ∈ cs, discr c = (h &&& 0x0f#8).toNat) ∧
        ∀ i, i < cs.length → decodeU (h &&& 0x0f#8).toNat (t.drop (w * i)) = cs[i]?) ∧
    ((¬ (∃ w, ((h &&& 0x0f#8).toNat, w) ∈ widths)) ∨ ((h &&& 0x0f#8).toNat = 1 ∧ t.length < 4) →
      decList (h :: t) = .error EINVAL) := by
  simp only [decList]
  generalize (h &&& 0x0f#8).toNat = d
  constructor
  · intro w hw h1
    suffices hs : ∃ cs, parseList d t = .ok (cs, w * cs.length) ∧ cs.length = t.length / w ∧
        (∀ c ∈ cs, discr c = d) ∧ ∀ i, i < cs.length → decodeU d (t.drop (w * i)) = cs[i]? by
      obtain ⟨cs, a, b⟩ := hs
      exact ⟨cs, by rw [a], b⟩
    have key : 2 ≤ w → ∃ cs, parse d w 127 t = .ok (cs, w * cs.length) ∧ cs.length = t.length / w ∧
        (∀ c ∈ cs, discr c = d) ∧ ∀ i, i < cs.length → decodeU d (t.drop (w * i)) = cs[i]? := by
      intro h2
      refine (parse_spec d w 127 t hw (by omega)).1 ?_
      calc t.length / w ≤ t.length / 2 := Nat.div_le_div_left h2 (by omega)
        _ ≤ 127 := by omega
    simp only [widths, List.mem_cons, Prod.mk.injEq, List.not_mem_nil, or_false] at hw
    rcases hw with ⟨rfl, rfl⟩ | ⟨rfl, rfl⟩ | ⟨rfl, rfl⟩ | ⟨rfl, rfl⟩ | ⟨rfl, rfl⟩ | ⟨rfl, rfl⟩ | ⟨rfl, rfl⟩ | ⟨rfl, rfl⟩
    · exact key (by omega)
    · have := key (by omega)
      have e : parseList 1 t = parse 1 4 127 t := by
        simp only [parseList]
        rw [if_neg (by have := h1 rfl; omega)]
      rw [e]
      exact this
    · exact key (by omega)
    · exact ⟨[], rfl, by simp, by simp, by simp⟩
    · exact key (by omega)
    · exact key (by omega)
    · exact ⟨[], rfl, by simp, by simp, by simp⟩
    · exact key (by omega)
  · rintro (h | ⟨rfl, h⟩)
    · have : parseList d t = .error EINVAL := by
        unfold parseList
        split
        case h_9 => rfl
        all_goals exact absurd ⟨_, by simp [widths]; rfl⟩ h
      rw [this]
    · have : parseList 1 t = .error EINVAL := by
        simp only [parseList]
        rw [if_pos h]
      rw [this]

example : decList [5, 0, 1, 0, 2, 9] = .ok (⟨5, [.lac 1, .lac 2]⟩, 5) := by rfl
example : decList [7, 0, 1] = .error EINVAL := by rfl

/-- **C156d.** A single identifier: its own tag, the octets counted, decoded to
what of it is sent. -/
theorem id_round_trip (c : CellId) (h : Valid c) :
    ∃ body, encId c = some (5#8 :: BitVec.ofNat 8 body.length :: body, body.length + 2) ∧
      decId body = .ok (sent c, body.length) := by
  have kd : discr c = 128 ∨ ∃ w, (discr c, w) ∈ widths := by
    cases c with
    | utran k => exact absurd h (by simp [Valid])
    | cgiPs c => exact Or.inl rfl
    | cgi c => exact Or.inr ⟨7, by simp [discr, widths]⟩
    | lacCi a b => exact Or.inr ⟨4, by simp [discr, widths]⟩
    | ci a => exact Or.inr ⟨2, by simp [discr, widths]⟩
    | noCell => exact Or.inr ⟨0, by simp [discr, widths]⟩
    | lai a => exact Or.inr ⟨5, by simp [discr, widths]⟩
    | lac a => exact Or.inr ⟨2, by simp [discr, widths]⟩
    | bss => exact Or.inr ⟨0, by simp [discr, widths]⟩
    | sai a b => exact Or.inr ⟨7, by simp [discr, widths]⟩
  have hw : CList.Wf ⟨discr c, [c]⟩ := ⟨kd, by simp⟩
  have hlen : (codes [c]).length ≤ 7 := by
    cases c <;> simp [codes, code, two, laiWire_length]
  have he := encList_spec ⟨discr c, [c]⟩ hw (by simp) (by simpa using h)
  have henc : encId c = some (5#8 :: BitVec.ofNat 8 (1 + (codes [c]).length) ::
      BitVec.ofNat 8 (sentKind (discr c)) :: codes [c], 3 + (codes [c]).length) := by
    unfold encId
    rw [he]
    simp only [Option.bind_eq_bind, Option.bind_some]
    rw [Nat.mod_eq_of_lt (by omega), if_neg (by omega)]
    rfl
  refine ⟨BitVec.ofNat 8 (sentKind (discr c)) :: codes [c], ?_, ?_⟩
  · rw [henc]
    simp only [List.length_cons]
    rw [Nat.add_comm 1, show 3 + (codes [c]).length = (codes [c]).length + 1 + 2 by omega]
  · by_cases h3 : discr c = 3 ∨ discr c = 6
    · cases c <;> simp [discr] at h3
      · rfl
      · rfl
      · omega
    · have ⟨body, e1, _, e2⟩ := list_round_trip_partial ⟨discr c, [c]⟩ hw (by simp) (by simpa using h)
        (by simp only []; omega) (by simp) (by intro hh; exact absurd hh h3)
      rw [he] at e1
      have eb : body = BitVec.ofNat 8 (sentKind (discr c)) :: codes [c] := by
        simp only [Option.some.injEq, Prod.mk.injEq, List.cons.injEq] at e1
        exact e1.1.2.2.symm
      rw [eb] at e2
      unfold decId
      rw [e2]
      simp only [List.map_cons, List.map_nil]
      have k : sentKind (discr c) ≠ 6 ∧ sentKind (discr c) ≠ 3 := by
        unfold sentKind
        split <;> omega
      rw [if_neg k.1, if_neg k.2]

example : encId (.lacCi 0x0102 0x0304) = some ([5, 5, 1, 1, 2, 3, 4], 7) := by decide

/-- The length octet wraps: 37 CGIs are written with a length of 4. -/
theorem long_list_counterexample :
    (encList ⟨0, List.replicate 37 (.cgi ⟨⟨⟨262, 42, false⟩, 1⟩, 1⟩)⟩).map
      (fun r => (r.1.length, r.1[1]?, r.2)) = some (262, some 4#8, 6) := by decide +kernel

/-- 127 LACs are written correctly, but 1 is returned for 257 octets. -/
theorem return_counterexample :
    (encList ⟨5, List.replicate 127 (.lac 1)⟩).map
      (fun r => (r.1.length, r.1[1]?, r.2)) = some (257, some 255#8, 1) := by decide +kernel

/-- An empty list of LAC and CI is written but not read. -/
theorem empty_lac_ci_counterexample :
    encList ⟨1, []⟩ = some ([26, 1, 1], 3) ∧ decList [1] = .error EINVAL := ⟨by decide, rfl⟩

end Verif.CellId
