import Verif.Tlv.ParseProps
/-! C27: encoding and parsing are inverse; C57-C59: cursors, table patching, validation, copy and merge. -/
namespace Verif.Tlv

/-- values that fit the type their tag is defined with -/
def Encodable (d : Definition) (t : Byte) (v : List Byte) : Prop :=
  match (d t).type with
  | .none => False
  | .other => False
  | .fixed => Plain d t ∧ v.length = (d t).fixedLen.toNat
  | .t => Plain d t ∧ v = []
  | .tv => Plain d t ∧ v.length = 1
  | .tlv => Plain d t ∧ v.length ≤ 255
  | .tl16v => Plain d t ∧ v.length ≤ 65535
  | .tvlv => Plain d t ∧ v.length ≤ 32767
  | .vtvlvGan => Plain d t ∧ t.toNat ≤ 127 ∧ v.length ≤ 32767
  | .singleTv => t.toNat ≤ 15 ∧ v.length = 1

/-- the value as reported after parsing: itself, or for half octet elements the
octet with the tag in the upper and the value in the lower half -/
def reported (d : Definition) (t : Byte) (v : List Byte) : List Byte :=
  if (d t).type = .singleTv then [BitVec.ofNat 8 (t.toNat * 16 + (v.headD 0#8).toNat % 16)] else v

/-- number of bytes of an element -/
def ieSize (d : Definition) (t : Byte) (v : List Byte) : Nat :=
  match (d t).type with
  | .none => 0
  | .other => 0
  | .fixed => 1 + v.length
  | .t => 1
  | .tv => 2
  | .tlv => 2 + v.length
  | .tl16v => 3 + v.length
  | .tvlv => if v.length ≤ 127 then 2 + v.length else 3 + v.length
  | .vtvlvGan => if v.length ≤ 127 then 2 + v.length else 3 + v.length
  | .singleTv => 1

theorem msgPut_ok {m : Msg} {bytes : List Byte} {n : Nat} (hn : bytes.length = n) (h : n ≤ m.tailroom) :
    msgPut m n bytes = .ok { data := m.data ++ bytes, tailroom := m.tailroom - bytes.length } := by
  unfold msgPut
  rw [if_neg (by omega), if_pos hn, hn]

theorem msgPut_abort {m : Msg} {bytes : List Byte} {n : Nat} (h : m.tailroom < n) : msgPut m n bytes = .abort := by
  unfold msgPut
  rw [if_pos h]

theorem nibbles : ∀ t v : Fin 16, ((BitVec.ofNat 8 t.1 <<< 4) ||| BitVec.ofNat 8 v.1 : Byte) = BitVec.ofNat 8 (t.1 * 16 + v.1) ∧
    (BitVec.ofNat 8 (t.1 * 16 + v.1) : Byte) >>> 4 = BitVec.ofNat 8 t.1 := by decide +kernel

theorem low_nibble : ∀ v : Byte, v &&& 0xf#8 = BitVec.ofNat 8 (v.toNat % 16) := by decide +kernel

theorem single_byte (t v : Byte) (h : t.toNat ≤ 15) :
    (t <<< 4) ||| (v &&& 0xf#8) = BitVec.ofNat 8 (t.toNat * 16 + v.toNat % 16) ∧
      (BitVec.ofNat 8 (t.toNat * 16 + v.toNat % 16) : Byte) >>> 4 = t := by
  have := nibbles ⟨t.toNat, by omega⟩ ⟨v.toNat % 16, by omega⟩
  have ht : (BitVec.ofNat 8 t.toNat : Byte) = t := by simp
  simp only [ht] at this
  rw [low_nibble]
  exact this

theorem orTop (n : Nat) (h : n ≤ 127) : (BitVec.ofNat 8 n ||| 0x80#8 : Byte).toNat = 128 + n := by
  have : ∀ k : Fin 128, (BitVec.ofNat 8 k.1 ||| 0x80#8 : Byte).toNat = 128 + k.1 := by decide +kernel
  exact this ⟨n, by omega⟩

theorem hiLo (n : Nat) : (BitVec.ofNat 8 (n >>> 8) : Byte).toNat = n / 256 % 256 ∧ (BitVec.ofNat 8 (n &&& 0xff) : Byte).toNat = n % 256 := by
  constructor
  · rw [BitVec.toNat_ofNat, Nat.shiftRight_eq_div_pow]
  · rw [BitVec.toNat_ofNat, show (0xff : Nat) = 2 ^ 8 - 1 by rfl, Nat.and_two_pow_sub_one_eq_mod, Nat.mod_mod]

theorem orHi (n : Nat) (h : n ≤ 32767) : (BitVec.ofNat 8 (0x80 ||| (n >>> 8)) : Byte).toNat = 128 + n / 256 := by
  have : ∀ k : Fin 128, (BitVec.ofNat 8 (0x80 ||| k.1) : Byte).toNat = 128 + k.1 := by decide +kernel
  rw [Nat.shiftRight_eq_div_pow]
  exact this ⟨n / 2 ^ 8, by omega⟩

/-- the encoder produces an element of the grammar -/
theorem encodeOne_ie (d : Definition) (t : Byte) (v : List Byte) (he : Encodable d t v) :
    ∃ ie off len, Ie d t ie off len ∧ (ie.drop off).take len = reported d t v ∧ ie.length = ieSize d t v ∧
      ∀ m : Msg, (ie.length ≤ m.tailroom →
        encodeOne m (d t).type t v = .ok { data := m.data ++ ie, tailroom := m.tailroom - ie.length }) ∧
        (m.tailroom < ie.length → encodeOne m (d t).type t v = .abort) := by
  unfold Encodable at he
  unfold ieSize reported encodeOne
  cases ht : (d t).type with
  | none => rw [ht] at he; exact he.elim
  | other => rw [ht] at he; exact he.elim
  | fixed =>
    rw [ht] at he
    refine ⟨t :: v, 1, v.length, .fixed t v he.1 ht he.2, by simp, by simp; omega, fun m => ⟨fun hm => ?_, fun hm => ?_⟩⟩
    · exact msgPut_ok (by simp; omega) (by simpa [Nat.add_comm] using hm)
    · exact msgPut_abort (by simpa [Nat.add_comm] using hm)
  | t =>
    rw [ht] at he
    obtain ⟨hp, rfl⟩ := he
    exact ⟨[t], 0, 0, .t t hp ht, by simp, rfl, fun m => ⟨fun hm => msgPut_ok rfl hm, fun hm => msgPut_abort hm⟩⟩
  | tv =>
    rw [ht] at he
    obtain ⟨hp, hl⟩ := he
    match v, hl with
    | [x], _ => exact ⟨[t, x], 1, 1, .tv t x hp ht, by simp, rfl, fun m => ⟨fun hm => msgPut_ok rfl hm, fun hm => msgPut_abort hm⟩⟩
  | tlv =>
    rw [ht] at he
    obtain ⟨hp, hl⟩ := he
    have hm256 : v.length % 256 = v.length := Nat.mod_eq_of_lt (by omega)
    refine ⟨t :: BitVec.ofNat 8 v.length :: v, 2, v.length, .tlv t _ v hp ht (by simp; omega), by simp, by simp; omega,
      fun m => ⟨fun hm => ?_, fun hm => ?_⟩⟩
    · simp only [msgTlvPut, hm256, List.take_length]
      exact msgPut_ok (by simp) (by simpa using hm)
    · simp only [msgTlvPut, hm256, List.take_length]
      exact msgPut_abort (by simpa using hm)
  | tl16v =>
    rw [ht] at he
    obtain ⟨hp, hl⟩ := he
    have hm16 : v.length % 65536 = v.length := Nat.mod_eq_of_lt (by omega)
    obtain ⟨e1, e2⟩ := hiLo v.length
    refine ⟨t :: BitVec.ofNat 8 (v.length >>> 8) :: BitVec.ofNat 8 (v.length &&& 0xff) :: v, 3, v.length,
      .tl16v t _ _ v hp ht (by rw [e1, e2]; omega), by simp, by simp; omega, fun m => ⟨fun hm => ?_, fun hm => ?_⟩⟩
    · simp only [msgTl16vPut, hm16, List.take_length]
      exact msgPut_ok (by simp) (by simpa using hm)
    · simp only [msgTl16vPut, hm16, List.take_length]
      exact msgPut_abort (by simpa using hm)
  | tvlv =>
    rw [ht] at he
    obtain ⟨hp, hl⟩ := he
    have hm16 : v.length % 65536 = v.length := Nat.mod_eq_of_lt (by omega)
    by_cases hs : v.length ≤ 127
    · have eg : tvlvGrossLen v.length = v.length + 2 := by
        unfold tvlvGrossLen; rw [if_pos hs, Nat.mod_eq_of_lt (by omega)]
      refine ⟨t :: (BitVec.ofNat 8 v.length ||| 0x80#8) :: v, 2, v.length,
        .tvlvShort t _ v hp ht (by rw [orTop _ hs]; omega) (by rw [orTop _ hs]; omega), by simp, ?_, fun m => ⟨fun hm => ?_, fun hm => ?_⟩⟩
      · simp only [if_pos hs]; simp; omega
      · simp only [msgTvlvPut, hm16, List.take_length, if_pos hs, eg]
        exact msgPut_ok (by simp) (by simpa using hm)
      · simp only [msgTvlvPut, hm16, List.take_length, if_pos hs, eg]
        exact msgPut_abort (by simpa using hm)
    · have eg : tvlvGrossLen v.length = v.length + 3 := by
        unfold tvlvGrossLen; rw [if_neg hs, Nat.mod_eq_of_lt (by omega)]
      obtain ⟨e1, e2⟩ := hiLo v.length
      refine ⟨t :: BitVec.ofNat 8 (v.length >>> 8) :: BitVec.ofNat 8 (v.length &&& 0xff) :: v, 3, v.length,
        .tvlvLong t _ _ v hp ht (by rw [e1]; omega) (by rw [e1, e2]; omega), by simp, ?_, fun m => ⟨fun hm => ?_, fun hm => ?_⟩⟩
      · simp only [if_neg hs]; simp; omega
      · simp only [msgTvlvPut, hm16, List.take_length, if_neg hs, eg]
        exact msgPut_ok (by simp) (by simpa using hm)
      · simp only [msgTvlvPut, hm16, List.take_length, if_neg hs, eg]
        exact msgPut_abort (by simpa using hm)
  | vtvlvGan =>
    rw [ht] at he
    obtain ⟨hp, htag, hl⟩ := he
    have hm16 : v.length % 65536 = v.length := Nat.mod_eq_of_lt (by omega)
    have etag : vtGanPut t.toNat = [t] := by
      unfold vtGanPut; rw [if_neg (by omega)]; simp
    by_cases hs : v.length ≤ 127
    · have eg : vtvlvGanGrossLen t.toNat v.length = v.length + 2 := by
        unfold vtvlvGanGrossLen
        simp only [if_pos hs, if_neg (show ¬ t.toNat > 0x7f by omega)]
        exact Nat.mod_eq_of_lt (by omega)
      have el : vtGanPut v.length = [BitVec.ofNat 8 v.length] := by
        unfold vtGanPut; rw [if_neg (by omega)]
      refine ⟨t :: BitVec.ofNat 8 v.length :: v, 2, v.length,
        .ganShort t _ v hp ht (by simp; omega) (by simp; omega), by simp, ?_, fun m => ⟨fun hm => ?_, fun hm => ?_⟩⟩
      · simp only [if_pos hs]; simp; omega
      · simp only [msgVtvlvGanPut, hm16, List.take_length, eg, etag, el]
        exact msgPut_ok (by simp) (by simpa using hm)
      · simp only [msgVtvlvGanPut, hm16, List.take_length, eg, etag, el]
        exact msgPut_abort (by simpa using hm)
    · have eg : vtvlvGanGrossLen t.toNat v.length = v.length + 3 := by
        unfold vtvlvGanGrossLen
        simp only [if_neg hs, if_neg (show ¬ t.toNat > 0x7f by omega)]
        exact Nat.mod_eq_of_lt (by omega)
      have el : vtGanPut v.length = [BitVec.ofNat 8 (0x80 ||| (v.length >>> 8)), BitVec.ofNat 8 (v.length &&& 0xff)] := by
        unfold vtGanPut; rw [if_pos (by omega)]
      obtain ⟨e1, e2⟩ := hiLo v.length
      have e3 := orHi v.length hl
      refine ⟨t :: BitVec.ofNat 8 (0x80 ||| (v.length >>> 8)) :: BitVec.ofNat 8 (v.length &&& 0xff) :: v, 3, v.length,
        .ganLong t _ _ v hp ht (by rw [e3]; omega) (by rw [e3, e2]; omega), by simp, ?_, fun m => ⟨fun hm => ?_, fun hm => ?_⟩⟩
      · simp only [if_neg hs]; simp; omega
      · simp only [msgVtvlvGanPut, hm16, List.take_length, eg, etag, el]
        exact msgPut_ok (by simp) (by simpa using hm)
      · simp only [msgVtvlvGanPut, hm16, List.take_length, eg, etag, el]
        exact msgPut_abort (by simpa using hm)
  | singleTv =>
    rw [ht] at he
    obtain ⟨htag, hl⟩ := he
    match v, hl with
    | [x], _ =>
      obtain ⟨e1, e2⟩ := single_byte t x htag
      refine ⟨[BitVec.ofNat 8 (t.toNat * 16 + x.toNat % 16)], 0, 1, ?_, by simp, rfl, fun m => ⟨fun hm => ?_, fun hm => ?_⟩⟩
      · have := Ie.half (d := d) (BitVec.ofNat 8 (t.toNat * 16 + x.toNat % 16)) (by rw [e2]; exact ht)
        rwa [e2] at this
      · simp only [e1]; exact msgPut_ok rfl hm
      · simp only [e1]; exact msgPut_abort hm

/-- the bytes of a window -/
def content (buf : List Byte) (w : Nat × Nat) : List Byte := (buf.drop w.1).take w.2

/-- C27 (part): every value that fits the type of its tag is encoded to one
element, which parses back to the same tag and value whatever follows it.
Missing: values that do not fit, see the counterexamples below. -/
theorem encode_parse_one_partial (d : Definition) (t : Byte) (v : List Byte) (he : Encodable d t v) (m : Msg)
    (hm : ieSize d t v ≤ m.tailroom) :
    ∃ ie off len, encodeOne m (d t).type t v = .ok { data := m.data ++ ie, tailroom := m.tailroom - ieSize d t v } ∧
      ie.length = ieSize d t v ∧
      ∀ rest, parseOne d (ie ++ rest) ((ie ++ rest).length : Nat) = some (.ok t off len (ieSize d t v)) ∧
        content (ie ++ rest) (off, len) = reported d t v := by
  obtain ⟨ie, off, len, h1, h2, h3, h4⟩ := encodeOne_ie d t v he
  refine ⟨ie, off, len, ?_, h3, fun rest => ⟨?_, ?_⟩⟩
  · rw [← h3]
    exact (h4 m).1 (by omega)
  · rw [← h3]; exact parse_of_ie h1 rest
  · have hb := (ie_bounds h1).2
    unfold content
    simp only
    rw [List.drop_append_of_le_length (by omega), List.take_append_of_le_length (by rw [List.length_drop]; omega), h2]

/-! ## Whole sets -/

/-- total size of the encoding of the tags in a list -/
def setSize (d : Definition) (tp : Values) (tags : List Byte) : Nat :=
  (tags.map fun t => match tp t with | none => 0 | some v => ieSize d t v).sum

theorem encodeLoop_spec (d : Definition) (tp : Values) (tags : List Byte) (m : Msg)
    (he : ∀ t ∈ tags, ∀ v, tp t = some v → Encodable d t v) (hm : setSize d tp tags ≤ m.tailroom) :
    ∃ bytes ies, encodeLoop d tp m tags = .ok { data := m.data ++ bytes, tailroom := m.tailroom - bytes.length } ∧
      bytes.length = setSize d tp tags ∧
      Ies d m.data.length bytes ies ∧ ies.map (·.1) = tags.filter (fun t => (tp t).isSome) ∧
      ∀ e ∈ ies, ∀ v, tp e.1 = some v → content (m.data ++ bytes) e.2 = reported d e.1 v := by
  induction tags generalizing m with
  | nil => exact ⟨[], [], by simp [encodeLoop], rfl, .nil _, rfl, by simp⟩
  | cons t tags ih =>
    unfold encodeLoop
    have he' : ∀ t ∈ tags, ∀ v, tp t = some v → Encodable d t v := fun t' h' => he t' (List.mem_cons_of_mem _ h')
    cases htp : tp t with
    | none =>
      have hsz : setSize d tp (t :: tags) = setSize d tp tags := by simp [setSize, htp]
      rw [hsz] at hm
      obtain ⟨bytes, ies, h1, h2, h3, h4, h5⟩ := ih m he' hm
      exact ⟨bytes, ies, h1, by rw [h2, hsz], h3, by rw [h4]; simp [htp], h5⟩
    | some v =>
      have hsz : setSize d tp (t :: tags) = ieSize d t v + setSize d tp tags := by simp [setSize, htp]
      rw [hsz] at hm
      obtain ⟨ie, off, len, g1, g2, g3, g4⟩ := encodeOne_ie d t v (he t List.mem_cons_self v htp)
      simp only
      rw [(g4 m).1 (by omega)]
      simp only
      obtain ⟨bytes, ies, h1, h2, h3, h4, h5⟩ := ih { data := m.data ++ ie, tailroom := m.tailroom - ie.length } he' (by
        simp only; omega)
      simp only at h1 h3 h5
      refine ⟨ie ++ bytes, (t, m.data.length + off, len) :: ies, ?_, ?_, ?_, ?_, ?_⟩
      · rw [h1, List.append_assoc]
        congr 2
        rw [List.length_append]; omega
      · rw [List.length_append, h2, g3, hsz]
      · refine .cons _ t ie bytes off len ies g1 ?_
        rwa [List.length_append] at h3
      · simp [h4, htp]
      · intro e hmem w hw
        rcases List.mem_cons.1 hmem with rfl | hmem
        · simp only at hw
          rw [htp] at hw
          cases hw
          have hb := (ie_bounds g1).2
          unfold content
          simp only
          rw [← List.drop_drop, List.drop_left, List.drop_append_of_le_length (by omega),
            List.take_append_of_le_length (by rw [List.length_drop]; omega), g2]
        · have := h5 e hmem w hw
          rwa [List.append_assoc] at this

theorem allTags_nodup : ((List.range 256).map (BitVec.ofNat 8) : List Byte).Nodup := by decide +kernel

theorem mem_allTags (t : Byte) : t ∈ ((List.range 256).map (BitVec.ofNat 8) : List Byte) := by
  rw [List.mem_map]
  exact ⟨t.toNat, List.mem_range.2 t.isLt, by simp⟩

theorem occ_unique (ies : List (Byte × Nat × Nat)) (hn : (ies.map (·.1)).Nodup) (t : Byte) :
    (∀ w, (t, w) ∈ ies → occurrences t ies = [w]) ∧ ((∀ w, (t, w) ∉ ies) → occurrences t ies = []) := by
  induction ies with
  | nil => exact ⟨by simp, fun _ => rfl⟩
  | cons e ies ih =>
    obtain ⟨et, ew⟩ := e
    rw [List.map_cons, List.nodup_cons] at hn
    obtain ⟨i1, i2⟩ := ih hn.2
    have hnot : ∀ w, (et, w) ∉ ies := fun w hw => hn.1 (List.mem_map.2 ⟨(et, w), hw, rfl⟩)
    have hstep : occurrences t ((et, ew) :: ies) = if et = t then ew :: occurrences t ies else occurrences t ies := by
      unfold occurrences
      by_cases h : et = t
      · simp [h]
      · simp [h]
    rw [hstep]
    constructor
    · intro w hw
      rcases List.mem_cons.1 hw with h | h
      · cases h
        rw [if_pos rfl, i2 hnot]
      · by_cases he : et = t
        · subst he; exact absurd h (hnot w)
        · rw [if_neg he]; exact i1 w h
    · intro hw
      have hne : ¬ et = t := by
        intro he
        subst he
        exact hw ew List.mem_cons_self
      rw [if_neg hne]
      exact i2 fun w h => hw w (List.mem_cons_of_mem _ h)

/-- C27 (part): a set of values that fit is encoded to a message from which the same set
is parsed: as many elements as values, the same tags, the same values.
Missing: values that do not fit, see the counterexamples below. -/
theorem set_roundtrip_partial (d : Definition) (tp : Values) (room : Nat)
    (he : ∀ t v, tp t = some v → Encodable d t v)
    (hm : setSize d tp ((List.range 256).map (BitVec.ofNat 8)) ≤ room) :
    ∃ buf, encode { data := [], tailroom := room } d tp = .ok { data := buf, tailroom := room - buf.length } ∧
      ∃ n p, parse2 1 d buf (buf.length : Nat) 0#8 0#8 = .done n [p] ∧
        n = (((List.range 256).map (BitVec.ofNat 8)).filter fun t => (tp t).isSome).length ∧
        ∀ t, (p t).map (content buf) = (tp t).map (reported d t) := by
  obtain ⟨buf, ies, h1, h2, h3, h4, h5⟩ := encodeLoop_spec d tp ((List.range 256).map (BitVec.ofNat 8))
    { data := [], tailroom := room } (fun t _ => he t) hm
  simp only [List.nil_append, List.length_nil] at h1 h3 h5
  refine ⟨buf, h1, ?_⟩
  obtain ⟨rc, dec, g1, g2, g3⟩ := parse2_spec 1 d buf
  rcases g3 with ⟨ies', k1, k2, k3⟩ | ⟨_, k⟩
  · have huniq : ∀ ofs b i1 i2, Ies d ofs b i1 → Ies d ofs b i2 → i1 = i2 := by
      intro ofs b i1 i2 a1
      induction a1 generalizing i2 with
      | nil ofs =>
        intro a2
        generalize hb : ([] : List Byte) = b at a2
        cases a2 with
        | nil => rfl
        | cons _ tag ie rest off len ies x1 x2 =>
          have := (ie_bounds x1).1
          have h := congrArg List.length hb
          rw [List.length_append, List.length_nil] at h; omega
      | cons ofs tag ie rest off len ies x1 x2 ih =>
        intro a2
        generalize hb : ie ++ rest = b at a2
        cases a2 with
        | nil =>
          have := (ie_bounds x1).1
          have h := congrArg List.length hb
          rw [List.length_append, List.length_nil] at h; omega
        | cons _ tag' ie' rest' off' len' ies' y1 y2 =>
          have p1 := parse_of_ie x1 rest
          have p2 := parse_of_ie y1 rest'
          rw [hb, p2] at p1
          injection p1 with p1
          injection p1 with q1 q2 q3 q4
          subst q1 q2 q3
          obtain ⟨r1, r2⟩ := List.append_inj hb q4.symm
          subst r1 r2
          rw [ih _ y2]
    have heq := huniq 0 buf ies' ies k1 h3
    subst heq
    match dec, g2 with
    | [p], _ =>
      refine ⟨rc, p, g1, ?_, ?_⟩
      · rw [k2, ← h4]; simp
      · intro t
        have hp := k3 0 p rfl t
        have hnd : (ies'.map (·.1)).Nodup := by
          rw [h4]; exact allTags_nodup.filter _
        obtain ⟨o1, o2⟩ := occ_unique ies' hnd t
        cases htp : tp t with
        | none =>
          have : ∀ w, (t, w) ∉ ies' := by
            intro w hw
            have : t ∈ ies'.map (·.1) := List.mem_map.2 ⟨(t, w), hw, rfl⟩
            rw [h4, List.mem_filter, htp] at this
            simp at this
          rw [hp, o2 this]; rfl
        | some v =>
          have : t ∈ ies'.map (·.1) := by
            rw [h4, List.mem_filter]
            exact ⟨mem_allTags t, by rw [htp]; rfl⟩
          obtain ⟨⟨t', w⟩, hw, rfl⟩ := List.mem_map.1 this
          rw [hp, o1 w hw]
          have := h5 (t', w) hw v htp
          simp only [List.getElem?_cons_zero, Option.map_some, this]
  · exact absurd ⟨ies, h3⟩ k

/-- definitions for which tags are encoded as they are parsed: half octet tags
given as 0..15, GAN tags of one octet -/
def Regular (d : Definition) : Prop :=
  ∀ t, ((d t).type = .singleTv → t.toNat ≤ 15) ∧ ((d t).type = .vtvlvGan → t.toNat ≤ 127)

theorem hi_nibble : ∀ b : Byte, BitVec.ofNat 8 ((b >>> 4).toNat * 16 + b.toNat % 16) = b ∧ (b >>> 4).toNat ≤ 15 ∧
    (15 < b.toNat → 15 < (b &&& 0xf0#8).toNat) := by decide +kernel

/-- what is parsed can be encoded again -/
theorem encodable_of_ie {d : Definition} (hr : Regular d) {t : Byte} {ie : List Byte} {off len : Nat} (h : Ie d t ie off len) :
    Encodable d t ((ie.drop off).take len) ∧ reported d t ((ie.drop off).take len) = (ie.drop off).take len := by
  unfold Encodable reported
  cases h with
  | half b h =>
    obtain ⟨e1, e2, _⟩ := hi_nibble b
    rw [show (([b] : List Byte).drop 0).take 1 = [b] from rfl]
    simp only [h, if_true, List.headD_cons]
    exact ⟨⟨e2, rfl⟩, by rw [e1]⟩
  | halfOld b h1 h2 h3 =>
    have := (hr _).1 h3
    have := (hi_nibble b).2.2 h2
    omega
  | t _ hp ht => simp [ht, hp]
  | tv _ v hp ht => simp [ht, hp]
  | fixed _ v hp ht hl => simp [ht, hp, hl]
  | tlv _ l v hp ht hl => have := l.isLt; simp [ht, hp]; omega
  | tl16v _ h l v hp ht hl => have := l.isLt; have := h.isLt; simp [ht, hp]; omega
  | tvlvShort _ l v hp ht h7 hl => have := l.isLt; simp [ht, hp]; omega
  | tvlvLong _ h l v hp ht h7 hl => have := l.isLt; simp [ht, hp]; omega
  | ganShort _ l v hp ht h7 hl => have := (hr t).2 ht; simp [ht, hp]; omega
  | ganLong _ h l v hp ht h7 hl => have := (hr t).2 ht; have := h.isLt; have := l.isLt; simp [ht, hp]; omega

theorem ies_content {d : Definition} {ofs : Nat} {bytes : List Byte} {ies : List (Byte × Nat × Nat)} (h : Ies d ofs bytes ies)
    (pre : List Byte) (hp : pre.length = ofs) :
    ∀ e ∈ ies, ∃ ie off len, Ie d e.1 ie off len ∧ content (pre ++ bytes) e.2 = (ie.drop off).take len := by
  induction h generalizing pre with
  | nil => simp
  | cons ofs tag ie rest off len ies h1 h2 ih =>
    intro e he
    rcases List.mem_cons.1 he with rfl | he
    · refine ⟨ie, off, len, h1, ?_⟩
      have hb := (ie_bounds h1).2
      unfold content
      simp only
      rw [← hp, ← List.drop_drop, List.drop_left, List.drop_append_of_le_length (by omega),
        List.take_append_of_le_length (by rw [List.length_drop]; omega)]
    · have := ih (pre ++ ie) (by simp [hp]) e he
      rwa [List.append_assoc] at this

/-- C27 (part): for a regular definition, any message that parses can be encoded again from its
parsed values, and that encoding parses to the same values. -/
theorem parse_encode_parse_partial (d : Definition) (hr : Regular d) (buf : List Byte) (n : Int) (hn : 0 ≤ n) (p : Parsed)
    (hp : parse2 1 d buf (buf.length : Nat) 0#8 0#8 = .done n [p]) (room : Nat)
    (hm : setSize d (fun t => (p t).map (content buf)) ((List.range 256).map (BitVec.ofNat 8)) ≤ room) :
    ∃ buf' n' p', encode { data := [], tailroom := room } d (fun t => (p t).map (content buf)) =
        .ok { data := buf', tailroom := room - buf'.length } ∧
      parse2 1 d buf' (buf'.length : Nat) 0#8 0#8 = .done n' [p'] ∧
      ∀ t, (p' t).map (content buf') = (p t).map (content buf) := by
  obtain ⟨rc, dec, g1, g2, g3⟩ := parse2_spec 1 d buf
  rw [hp] at g1
  injection g1 with g1 g1'
  subst g1 g1'
  rcases g3 with ⟨ies, k1, k2, k3⟩ | ⟨k, _⟩
  · have hp0 := k3 0 p rfl
    have hall : ∀ t v, (p t).map (content buf) = some v → Encodable d t v ∧ reported d t v = v := by
      intro t v hv
      rw [hp0 t] at hv
      cases ho : (occurrences t ies)[0]? with
      | none => rw [ho] at hv; cases hv
      | some w =>
        rw [ho] at hv
        have hmem : w ∈ occurrences t ies := List.mem_of_getElem? ho
        unfold occurrences at hmem
        obtain ⟨e, he, rfl⟩ := List.mem_map.1 hmem
        obtain ⟨he, het⟩ := List.mem_filter.1 he
        have het : e.1 = t := by simpa using het
        obtain ⟨ie, off, len, q1, q2⟩ := ies_content k1 [] rfl e he
        rw [List.nil_append] at q2
        simp only [Option.map_some, Option.some.injEq] at hv
        rw [← hv, q2]
        rw [het] at q1
        exact encodable_of_ie hr q1
    obtain ⟨buf', h1, n', p', h2, _, h3⟩ := set_roundtrip_partial d (fun t => (p t).map (content buf)) room
      (fun t v hv => (hall t v hv).1) hm
    refine ⟨buf', n', p', h1, h2, fun t => ?_⟩
    rw [h3 t]
    cases hv : (p t).map (content buf) with
    | none => rfl
    | some v => rw [Option.map_some, (hall t v hv).2]
  · omega

/-! ## What does not round trip -/

/-- C27: a GAN tag above 0x7f is encoded with two octets, but parsed with one -/
theorem gan_tag_counterexample :
    encodeOne { data := [], tailroom := 10 } .vtvlvGan 0x90#8 [7#8] = .ok { data := [0x80#8, 0x90#8, 1#8, 7#8], tailroom := 6 } ∧
    parseOne (fun _ => ⟨.vtvlvGan, 0#8⟩) [0x80#8, 0x90#8, 1#8, 7#8] 4 = some (.err (-2)) := by decide

/-- C27: a half octet tag defined as 0xN0 is parsed, but encoded with tag 0 -/
theorem half_octet_counterexample :
    parseOne (fun t => if t = 0x90#8 then ⟨.singleTv, 0#8⟩ else ⟨.none, 0#8⟩) [0x97#8] 1 = some (.ok 0x90#8 0 1 1) ∧
    encodeOne { data := [], tailroom := 10 } .singleTv 0x90#8 [0x97#8] = .ok { data := [0x07#8], tailroom := 9 } := by decide

/-- C27: the length of a TLV is cut to 8 bits: 256 bytes are encoded as none -/
theorem tlv_len_counterexample :
    encodeOne { data := [], tailroom := 500 } .tlv 1#8 (List.replicate 256 7#8) =
      .ok { data := [1#8, 0#8], tailroom := 498 } := by decide +kernel

/-- C27: no type, no encoding: a value whose tag has no definition is left out silently -/
theorem undefined_tag_counterexample (m : Msg) (v : List Byte) : encodeOne m .none 1#8 v = .ok m := rfl

example : Encodable exDef 2#8 (List.replicate 200 1#8) ∧ Encodable exDef 8#8 [3#8] ∧ Regular exDef := by
  refine ⟨?_, ?_, ?_⟩
  · show Plain exDef 2#8 ∧ _
    exact ⟨⟨by decide, by decide⟩, by rw [List.length_replicate]; omega⟩
  · exact ⟨by decide, by decide⟩
  · intro t
    have : ∀ t : Byte, ((exDef t).type = .singleTv → t.toNat ≤ 15) ∧ ((exDef t).type = .vtvlvGan → t.toNat ≤ 127) := by
      decide +kernel
    exact this t

example : encode { data := [], tailroom := 20 } exDef
    (fun t => if t = 8#8 then some [0x83#8] else if t = 1#8 then some [7#8, 8#8] else none) =
    .ok { data := [1#8, 2#8, 7#8, 8#8, 0x83#8], tailroom := 15 } := by decide +kernel

end Verif.Tlv
