import Verif.MobileId.Props
import Verif.Gsm23003.Props
/-!
C91, comparison and text of mobile identities.
-/
namespace Verif.MobileId
open Verif.Utils

/-- the bytes of the string member -/
def textBytes (m : MobId) : List Byte := m.u.takeWhile (· ≠ 0#8)

/-- the sort key of an identity: type, then the number or the text; a NULL
pointer sorts first -/
def key : Option MobId → List Nat
  | none => []
  | some m => m.type.toNat ::
      if m.type = 4#8 then [Endian.leVal (m.u.take 4)]
      else if m.type = 1#8 ∨ m.type = 2#8 ∨ m.type = 3#8 then (textBytes m).map BitVec.toNat
      else []

theorem takeWhile_text {s rest : List Byte} (h : 0#8 ∉ s) : (s ++ 0#8 :: rest).takeWhile (· ≠ 0#8) = s := by
  induction s with
  | nil => simp
  | cons a s ih =>
    have ha : a ≠ 0#8 := fun e => h (by simp [e])
    have hs : 0#8 ∉ s := fun e => h (by simp [e])
    simp only [List.cons_append, List.takeWhile_cons, ha, ne_eq, not_false_eq_true, decide_true, if_true, List.cons.injEq,
      true_and]
    simpa using ih hs

/-- the sign of a comparison result is the order of two lists -/
def SignOf (c : Int) (a b : List Nat) : Prop := (c < 0 ↔ a < b) ∧ (c = 0 ↔ a = b) ∧ (0 < c ↔ b < a)

theorem SignOf.neg {c : Int} {a b : List Nat} (hc : c < 0) (h : a < b) : SignOf c a b :=
  ⟨⟨fun _ => h, fun _ => hc⟩, ⟨fun e => by omega, fun e => absurd (e ▸ h) (lt_irrefl b)⟩,
    ⟨fun e => by omega, fun e => absurd (lt_trans h e) (lt_irrefl a)⟩⟩

theorem SignOf.pos {c : Int} {a b : List Nat} (hc : 0 < c) (h : b < a) : SignOf c a b :=
  ⟨⟨fun e => by omega, fun e => absurd (lt_trans h e) (lt_irrefl b)⟩,
    ⟨fun e => by omega, fun e => absurd (e ▸ h) (lt_irrefl b)⟩, ⟨fun _ => h, fun _ => hc⟩⟩

theorem SignOf.zero (a : List Nat) : SignOf 0 a a :=
  ⟨⟨fun e => by omega, fun e => absurd e (lt_irrefl a)⟩, ⟨fun _ => rfl, fun _ => rfl⟩,
    ⟨fun e => by omega, fun e => absurd e (lt_irrefl a)⟩⟩

theorem SignOf.cons {c : Int} {a b : List Nat} (x : Nat) (h : SignOf c a b) : SignOf c (x :: a) (x :: b) := by
  unfold SignOf at *
  simp only [Gsm23003.cons_lt', lt_irrefl, true_and, false_or, List.cons.injEq]
  exact h

theorem strncmp_sign (mag : Byte → Byte → Nat) (s t r q : List Byte) (n : Nat) (hs : 0#8 ∉ s) (ht : 0#8 ∉ t)
    (hn : s.length < n) (hm : t.length < n) :
    ∃ c, strncmp mag n (s ++ 0#8 :: r) (t ++ 0#8 :: q) = some c ∧
      SignOf c (s.map BitVec.toNat) (t.map BitVec.toNat) := by
  induction n generalizing s t with
  | zero => omega
  | succ n ih =>
    have pos : ∀ b : Byte, b ≠ 0#8 → 0 < b.toNat := by
      intro b hb
      rcases Nat.eq_zero_or_pos b.toNat with h | h
      · exact absurd (BitVec.eq_of_toNat_eq h) hb
      · exact h
    match s, t with
    | [], [] => exact ⟨0, by simp [strncmp], SignOf.zero _⟩
    | [], b :: t =>
      have hb := pos b (fun e => ht (by simp [e]))
      refine ⟨-(mag 0#8 b + 1 : Nat), ?_, SignOf.neg (by omega) (by simp)⟩
      simp only [List.nil_append, List.cons_append, strncmp]
      rw [if_pos (by simpa using hb)]
    | a :: s, [] =>
      have ha := pos a (fun e => hs (by simp [e]))
      refine ⟨(mag a 0#8 + 1 : Nat), ?_, SignOf.pos (by omega) (by simp)⟩
      simp only [List.nil_append, List.cons_append, strncmp]
      rw [if_neg (by simp), if_pos (by simpa using ha)]
    | a :: s, b :: t =>
      have ha : a ≠ 0#8 := fun e => hs (by simp [e])
      simp only [List.cons_append, strncmp, List.map_cons]
      by_cases h1 : a.toNat < b.toNat
      · rw [if_pos h1]
        exact ⟨_, rfl, SignOf.neg (by omega) ((Gsm23003.cons_lt' _ _ _ _).2 (.inl h1))⟩
      · rw [if_neg h1]
        by_cases h2 : b.toNat < a.toNat
        · rw [if_pos h2]
          exact ⟨_, rfl, SignOf.pos (by omega) ((Gsm23003.cons_lt' _ _ _ _).2 (.inl h2))⟩
        · rw [if_neg h2, if_neg ha]
          obtain ⟨c, e1, e2⟩ := ih s t (fun e => hs (by simp [e])) (fun e => ht (by simp [e]))
            (by simp at hn; omega) (by simp at hm; omega)
          refine ⟨c, e1, ?_⟩
          rw [show b.toNat = a.toNat by omega]
          exact e2.cons _

theorem text_split {m : MobId} {size : Nat} (h : 0#8 ∈ m.u.take size) :
    ∃ rest, m.u = textBytes m ++ 0#8 :: rest ∧ 0#8 ∉ textBytes m ∧ (textBytes m).length < size ∧
      memberStr m size = some (textBytes m) := by
  obtain ⟨n, hn⟩ := memberLen_total h
  obtain ⟨h1, rest, h2, h3⟩ := memberLen_some hn
  have ht : textBytes m = m.u.take n := by
    unfold textBytes
    conv => lhs; rw [h2]
    exact takeWhile_text h3
  refine ⟨rest, by rw [ht]; exact h2, by rw [ht]; exact h3, ?_, ?_⟩
  · rw [ht, List.length_take]; omega
  · unfold memberStr; rw [hn, ht]; rfl

theorem osmoCmp_sign (a b : Nat) : SignOf (osmoCmp a b) [a] [b] := by
  unfold osmoCmp
  by_cases h : a < b
  · rw [if_pos h]; exact SignOf.neg (by decide) ((Gsm23003.cons_lt' _ _ _ _).2 (.inl h))
  · rw [if_neg h]
    by_cases h2 : a > b
    · rw [if_pos h2]; exact SignOf.pos (by decide) ((Gsm23003.cons_lt' _ _ _ _).2 (.inl h2))
    · rw [if_neg h2, show a = b by omega]; exact SignOf.zero _

/-- **C91h.** `osmo_mobile_identity_cmp` is defined for all structures whose
strings are terminated, and the sign of its result is the order of the
identities: by type, then by TMSI value or by text, NULL first.  So it is a
total order, and 0 means equal keys; bytes behind the terminating NUL and the
members of other types do not matter. -/
theorem cmp_order (mag : Byte → Byte → Nat) (a b : Option MobId) (ha : ∀ m ∈ a, Terminated m)
    (hb : ∀ m ∈ b, Terminated m) : ∃ c, cmp mag a b = some c ∧ SignOf c (key a) (key b) := by
  match a, b with
  | none, none => exact ⟨0, rfl, SignOf.zero _⟩
  | none, some b => exact ⟨-1, rfl, SignOf.neg (by decide) (by simp [key])⟩
  | some a, none => exact ⟨1, rfl, SignOf.pos (by decide) (by simp [key])⟩
  | some a, some b =>
    have ha := ha a rfl
    have hb := hb b rfl
    unfold cmp
    dsimp only [key]
    by_cases ht : a.type = b.type
    · have h0 : osmoCmp a.type.toNat b.type.toNat = 0 := by rw [ht]; unfold osmoCmp; simp
      rw [h0, if_neg (by simp), ← ht]
      have str : ∀ k : Kind, a.type = BitVec.ofNat 8 k.code →
          ∃ c, strncmp mag k.size a.u b.u = some c ∧
            SignOf c ((textBytes a).map BitVec.toNat) ((textBytes b).map BitVec.toNat) := by
        intro k hk
        obtain ⟨ra, a1, a2, a3, -⟩ := text_split (ha.2 k hk)
        obtain ⟨rb, b1, b2, b3, -⟩ := text_split (hb.2 k (ht ▸ hk))
        have := strncmp_sign mag (textBytes a) (textBytes b) ra rb k.size a2 b2 a3 b3
        rw [← a1, ← b1] at this
        exact this
      by_cases h4 : a.type = 4#8
      · obtain ⟨x, x1, x2⟩ := getTmsi_eq ha.1
        obtain ⟨y, y1, y2⟩ := getTmsi_eq hb.1
        simp only [if_pos h4]
        refine ⟨osmoCmp x.toNat y.toNat, ?_, ?_⟩
        · rw [x1, y1]; rfl
        · rw [← x2, ← y2]; exact (osmoCmp_sign _ _).cons _
      · simp only [if_neg h4]
        by_cases h1 : a.type = 1#8
        · obtain ⟨c, c1, c2⟩ := str .imsi h1
          simp only [if_pos h1, if_pos (show a.type = 1#8 ∨ a.type = 2#8 ∨ a.type = 3#8 from .inl h1)]
          exact ⟨c, c1, c2.cons _⟩
        · simp only [if_neg h1]
          by_cases h2 : a.type = 2#8
          · obtain ⟨c, c1, c2⟩ := str .imei h2
            simp only [if_pos h2, if_pos (show a.type = 1#8 ∨ a.type = 2#8 ∨ a.type = 3#8 from .inr (.inl h2))]
            exact ⟨c, c1, c2.cons _⟩
          · simp only [if_neg h2]
            by_cases h3 : a.type = 3#8
            · obtain ⟨c, c1, c2⟩ := str .imeisv h3
              simp only [if_pos h3, if_pos (show a.type = 1#8 ∨ a.type = 2#8 ∨ a.type = 3#8 from .inr (.inr h3))]
              exact ⟨c, c1, c2.cons _⟩
            · simp only [if_neg h3]
              refine ⟨0, rfl, ?_⟩
              have hn : ¬ (a.type = 1#8 ∨ a.type = 2#8 ∨ a.type = 3#8) := by simp [h1, h2, h3]
              rw [if_neg hn, if_neg hn]
              exact SignOf.zero _
    · have hne : a.type.toNat ≠ b.type.toNat := fun e => ht (BitVec.eq_of_toNat_eq e)
      rcases Nat.lt_or_gt_of_ne hne with h | h
      · have hc : osmoCmp a.type.toNat b.type.toNat = -1 := by unfold osmoCmp; rw [if_pos h]
        rw [hc, if_pos (by decide)]
        exact ⟨-1, rfl, SignOf.neg (by decide) ((Gsm23003.cons_lt' _ _ _ _).2 (.inl h))⟩
      · have hc : osmoCmp a.type.toNat b.type.toNat = 1 := by
          unfold osmoCmp; rw [if_neg (by omega), if_pos h]
        rw [hc, if_pos (by decide)]
        exact ⟨1, rfl, SignOf.pos (by decide) ((Gsm23003.cons_lt' _ _ _ _).2 (.inl h))⟩

theorem Denotes.terminated {m : MobId} {i : Ident} {hex : Bool} (h : Denotes m i) (hv : i.Valid hex) : Terminated m := by
  cases i with
  | tmsi v =>
    refine ⟨h.2.1, fun k hk => ?_⟩
    rw [h.1] at hk
    exact absurd hk.symm (code_ne4 k)
  | num k ds =>
    refine ⟨h.2.1, fun k' hk' => ?_⟩
    have hkk : k' = k := by
      have e := hk'.symm.trans h.1
      revert e
      cases k <;> cases k' <;> decide
    subst hkk
    obtain ⟨h1, -⟩ := denotes_memberLen h hv.1
    unfold memberLen at h1
    rw [List.findIdx?_eq_some_iff_getElem] at h1
    obtain ⟨hlt, hz, -⟩ := h1
    simp only [decide_eq_true_eq] at hz
    exact hz ▸ List.getElem_mem hlt

theorem decDigit_inj : ∀ c d : Byte, (digitValue false c).isSome → digitValue false c = digitValue false d → c = d := by
  decide +kernel

theorem map_dec_of_hex {s : List Byte} {ds : List Nat} (h : s.map (digitValue true) = ds.map some)
    (hd : ∀ d ∈ ds, d < 10) : s.map (digitValue false) = ds.map some := by
  induction s generalizing ds with
  | nil => simpa using h
  | cons c s ih =>
    cases ds with
    | nil => simp at h
    | cons d ds =>
      simp only [List.map_cons, List.cons.injEq] at h ⊢
      exact ⟨dec_of_hex c d h.1 (hd d (by simp)), ih h.2 (fun e he => hd e (by simp [he]))⟩

theorem dec_text_unique {s t : List Byte} {ds : List Nat} (h : s.map (digitValue false) = ds.map some)
    (h' : t.map (digitValue false) = ds.map some) : s = t := by
  induction s generalizing t ds with
  | nil =>
    cases ds with
    | nil => cases t with
      | nil => rfl
      | cons b t => simp at h'
    | cons d ds => simp at h
  | cons c s ih =>
    cases ds with
    | nil => simp at h
    | cons d ds =>
      cases t with
      | nil => simp at h'
      | cons b t =>
        simp only [List.map_cons, List.cons.injEq] at h h'
        rw [decDigit_inj c b (by rw [h.1]; rfl) (h.1.trans h'.1.symm), ih h.2 h'.2]

theorem some_map_inj {ds es : List Nat} (h : ds.map some = es.map some) : ds = es := by
  have := congrArg (List.filterMap id) h
  simpa [List.filterMap_map, Function.comp_def] using this

theorem denotes_text {m : MobId} {k : Kind} {ds : List Nat} (h : Denotes m (.num k ds))
    (hv : (Ident.num k ds).Valid false) : (textBytes m).map (digitValue false) = ds.map some := by
  obtain ⟨-, -, s, rest, hu, hs⟩ := h
  have h0 := (text_of_denotes hs).2.1
  have ht : textBytes m = s := by unfold textBytes; rw [hu]; exact takeWhile_text h0
  rw [ht]
  exact map_dec_of_hex hs (fun d hd => by simpa using hv.2 d hd)

theorem toNat_map_inj {s t : List Byte} (h : s.map BitVec.toNat = t.map BitVec.toNat) : s = t := by
  have := congrArg (List.map (BitVec.ofNat 8)) h
  simpa [List.map_map, Function.comp_def] using this

/-- **C91i.** Two structures holding valid decimal identities compare equal
exactly if they hold the same identity. -/
theorem cmp_same (mag : Byte → Byte → Nat) (a b : MobId) (i j : Ident) (ha : Denotes a i) (hb : Denotes b j)
    (hi : i.Valid false) (hj : j.Valid false) : cmp mag (some a) (some b) = some 0 ↔ i = j := by
  obtain ⟨c, h1, -, h2, -⟩ := cmp_order mag (some a) (some b)
    (by simp only [Option.mem_def, Option.some.injEq]; rintro m rfl; exact ha.terminated hi)
    (by simp only [Option.mem_def, Option.some.injEq]; rintro m rfl; exact hb.terminated hj)
  rw [h1, Option.some.injEq, h2]
  have inj8 : ∀ x y : Byte, x.toNat = y.toNat → x = y := fun x y e => BitVec.eq_of_toNat_eq e
  have code_ne : ∀ k k' : Kind, BitVec.ofNat 8 k.code = BitVec.ofNat 8 k'.code → k = k' := by
    intro k k'; cases k <;> cases k' <;> decide
  cases i with
  | tmsi v =>
    cases j with
    | tmsi w =>
      simp only [key, ha.1, hb.1, if_true, List.cons.injEq, true_and, and_true, ha.2.2, hb.2.2, Ident.tmsi.injEq]
      exact ⟨fun e => BitVec.eq_of_toNat_eq e, fun e => by rw [e]⟩
    | num k ds =>
      simp only [key, ha.1, hb.1, List.cons.injEq, reduceCtorEq, iff_false]
      rintro ⟨e, -⟩
      exact code_ne4 k (inj8 _ _ e.symm)
  | num k ds =>
    cases j with
    | tmsi w =>
      simp only [key, ha.1, hb.1, List.cons.injEq, reduceCtorEq, iff_false]
      rintro ⟨e, -⟩
      exact code_ne4 k (inj8 _ _ e)
    | num k' es =>
      have ta := denotes_text ha hi
      have tb := denotes_text hb hj
      have hk : ∀ k : Kind, (BitVec.ofNat 8 k.code = 1#8 ∨ BitVec.ofNat 8 k.code = 2#8 ∨
          BitVec.ofNat 8 k.code = 3#8) := by intro k; cases k <;> decide
      simp only [key, ha.1, hb.1, if_neg (code_ne4 k), if_neg (code_ne4 k'), if_pos (hk k), if_pos (hk k'),
        List.cons.injEq, Ident.num.injEq]
      constructor
      · rintro ⟨e1, e2⟩
        refine ⟨code_ne _ _ (inj8 _ _ e1), ?_⟩
        rw [toNat_map_inj e2, tb] at ta
        exact some_map_inj ta.symm
      · rintro ⟨rfl, rfl⟩
        exact ⟨rfl, by rw [dec_text_unique ta tb]⟩

/-- The documentation ("-1 if ... , 1 if ...") does not hold: with a `strncmp`
that returns the difference of the bytes, other values occur. -/
theorem cmp_range_counterexample :
    ∃ (mag : Byte → Byte → Nat) (a b : MobId), Terminated a ∧ Terminated b ∧
      cmp mag (some a) (some b) = some 7 := by
  refine ⟨fun a b => (max a.toNat b.toNat - min a.toNat b.toNat) - 1, (Ident.num .imsi [9, 0, 1, 7, 0, 0]).canon,
    (Ident.num .imsi [2, 6, 2, 0, 1, 1]).canon, ?_, ?_, by decide +kernel⟩
  · exact (canon_denotes _ (by simp [Ident.Valid, Kind.okLen])).terminated
      (hex := true) (by simp [Ident.Valid, Kind.okLen])
  · exact (canon_denotes _ (by simp [Ident.Valid, Kind.okLen])).terminated
      (hex := true) (by simp [Ident.Valid, Kind.okLen])

/-! ### text -/

/-- what precedes the digits -/
def Kind.prefix : Kind → List Byte
  | .imsi => [0x49, 0x4d, 0x53, 0x49, 0x2d] -- IMSI-
  | .imei => [0x49, 0x4d, 0x45, 0x49, 0x2d] -- IMEI-
  | .imeisv => [0x49, 0x4d, 0x45, 0x49, 0x2d, 0x53, 0x56, 0x2d] -- IMEI-SV-

/-- `TMSI-0x` -/
def tmsiPrefix : List Byte := [0x54, 0x4d, 0x53, 0x49, 0x2d, 0x30, 0x78]

/-- the text of an identity: name of the type, a dash, the digits; a TMSI as
`0x` and eight hexadecimal digits -/
def Ident.text : Ident → List Byte
  | .tmsi v => tmsiPrefix ++ (List.range 8).map fun k => upHex (v.toNat / 16 ^ (7 - k) % 16)
  | .num k ds => k.prefix ++ digitText ds

theorem bcd2char_up : ∀ n, n < 16 → bcd2char (BitVec.ofNat 8 n) = upHex n := by decide +kernel

theorem hexUp_spec (k n : Nat) : hexUp k n = (List.range k).map fun j => upHex (n / 16 ^ (k - 1 - j) % 16) := by
  induction k generalizing n with
  | zero => rfl
  | succ k ih =>
    rw [hexUp, ih, List.range_succ, List.map_append, bcd2char_up _ (Nat.mod_lt _ (by omega))]
    congr 1
    · apply List.map_congr_left
      intro j hj
      rw [List.mem_range] at hj
      rw [Nat.div_div_eq_div_mul, ← Nat.pow_succ']
      rw [show (k - 1 - j).succ = k + 1 - 1 - j by omega]
    · simp

theorem toStrBuf_like {m : MobId} {t : List (List Byte)} (h : toStrTail m = some t) :
    SnprintfLike (toStrBuf (some m)) (typeName m.type ++ t.flatten) := by
  intro win
  unfold toStrBuf
  dsimp only
  rw [h, Option.bind_some]
  obtain ⟨sb, a1, a2, a3, a4⟩ := printAll_inv (typeName m.type :: t) (sbInit win) [] (SbInv.init win)
  have a1' : printAll { buf := win, pos := none, needed := 0 } (typeName m.type :: t) = some sb := a1
  rw [a1', Option.map_some]
  rw [List.nil_append, List.flatten_cons] at a2
  refine ⟨sb.buf, by rw [a2.needed], a3, ?_⟩
  intro hw
  exact a2.content (a4 (.inl (by simp))) (by
    have := List.length_pos_iff.2 hw
    rw [a3]; exact this)

theorem tmsi_text (v : BitVec 32) :
    typeName 4#8 ++ [[0x2d#8, 0x30#8, 0x78#8] ++ hexUp 8 v.toNat].flatten = (Ident.tmsi v).text := by
  have e1 : typeName 4#8 ++ [0x2d#8, 0x30#8, 0x78#8] =
      tmsiPrefix := by decide
  show _ = tmsiPrefix ++ _
  rw [← e1, hexUp_spec]
  simp only [List.flatten_cons, List.flatten_nil, List.append_nil, List.append_assoc, Nat.add_one_sub_one]

theorem prefix_text (k : Kind) : typeName (BitVec.ofNat 8 k.code) ++ [0x2d#8] =
    k.prefix := by
  cases k <;> decide

theorem num_text (k : Kind) (ds : List Nat) :
    typeName (BitVec.ofNat 8 k.code) ++ [0x2d#8 :: digitText ds].flatten = (Ident.num k ds).text := by
  show _ = k.prefix ++ _
  rw [← prefix_text]
  simp only [List.flatten_cons, List.flatten_nil, List.append_nil, List.append_assoc, List.cons_append, List.nil_append]

/-- **C91j.** `osmo_mobile_identity_to_str_buf` prints the identity a structure
denotes (here with its digits in upper case, as decoding leaves them), like
`snprintf`: full length returned, longest fitting prefix and NUL stored. -/
theorem toStr_spec (m : MobId) (i : Ident) (hd : Denotes m i) (hv : i.Valid true)
    (hup : ∀ k ds, i = .num k ds → textBytes m = digitText ds) :
    SnprintfLike (toStrBuf (some m)) i.text := by
  cases i with
  | tmsi v =>
    obtain ⟨x, x1, x2⟩ := getTmsi_eq hd.2.1
    have hx : x = v := BitVec.eq_of_toNat_eq (x2.trans hd.2.2)
    have ht : toStrTail m = some [[0x2d#8, 0x30#8, 0x78#8] ++ hexUp 8 v.toNat] := by
      unfold toStrTail
      rw [if_pos hd.1, x1, hx]; rfl
    have := toStrBuf_like ht
    rw [hd.1] at this
    rw [tmsi_text v] at this
    exact this
  | num k ds =>
    have htx := hup k ds rfl
    have hterm := hd.terminated hv
    obtain ⟨rest, -, -, -, hms⟩ := text_split (hterm.2 k hd.1)
    have ht : toStrTail m = some [0x2d#8 :: digitText ds] := by
      unfold toStrTail
      rw [hd.1, if_neg (code_ne4 k), ← htx]
      cases k
      · rw [if_pos (by decide)]
        have hms' : memberStr m 16 = some (textBytes m) := hms
        rw [hms']; rfl
      · rw [if_pos (by decide)]
        have hms' : memberStr m 16 = some (textBytes m) := hms
        rw [hms']; rfl
      · rw [if_neg (by decide), if_pos (by decide)]
        have hms' : memberStr m 17 = some (textBytes m) := hms
        rw [hms']; rfl
    have := toStrBuf_like ht
    rw [hd.1] at this
    rw [num_text k ds] at this
    exact this

/-- the decoded form is printed as above, a NULL pointer as "NULL" -/
theorem toStr_canon (i : Ident) (hv : i.Valid true) :
    SnprintfLike (toStrBuf (some i.canon)) i.text ∧
    SnprintfLike (toStrBuf none) [0x4e#8, 0x55#8, 0x4c#8, 0x4c#8] := by
  refine ⟨toStr_spec _ i (canon_denotes i hv) hv ?_, snprintfText_like _⟩
  rintro k ds rfl
  obtain ⟨-, -, s, rest, hu, hs⟩ := canon_denotes _ hv
  have hz : 0#8 ∉ digitText ds := by
    intro h
    obtain ⟨d, hd, e⟩ := List.mem_map.1 h
    have : ∀ d, d < 16 → upHex d ≠ 0#8 := by decide
    exact this d (hv.lt16 d hd) e
  have hl : ds.length < 17 := by
    have := (okLen_lt hv.1).1
    cases k <;> simp [Kind.size] at this <;> omega
  unfold textBytes
  show (digitText ds ++ List.replicate (17 - ds.length) 0#8).takeWhile (· ≠ 0#8) = _
  rw [show 17 - ds.length = (16 - ds.length) + 1 by omega, List.replicate_succ]
  exact takeWhile_text hz

/-- non-vacuity: "TMSI-0x00C0FFEE" -/
example : (toStrBuf (some (Ident.tmsi 0xc0ffee#32).canon) (List.replicate 20 0xaa#8)).map (·.2) = some 15 := by
  decide +kernel

end Verif.MobileId
