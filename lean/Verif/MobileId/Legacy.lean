import Verif.MobileId.Text
/-!
C91, the deprecated functions `gsm48_generate_mid`, `gsm48_generate_mid_from_tmsi`
and `gsm48_mi_to_string`.
-/
namespace Verif.MobileId
open Verif.Utils

theorem char2bcd_digit : ∀ c : Byte, ∀ d ∈ digitValue true c, char2bcd c = BitVec.ofNat 8 d ∧ d < 16 := by
  decide +kernel

theorem nib_join : ∀ a b : Fin 16,
    ((BitVec.ofNat 8 b.val &&& 0x0f#8) <<< 4 ||| BitVec.ofNat 8 a.val : Byte) = BitVec.ofNat 8 (a.val + 16 * b.val) := by
  decide +kernel

theorem nib_fill : ∀ a : Fin 16, ((0x0f#8 <<< 4) ||| BitVec.ofNat 8 a.val : Byte) = BitVec.ofNat 8 (a.val + 16 * 15) := by
  decide +kernel

theorem write_one (buf : List Byte) (pos : Nat) (v : Byte) (h : pos + 1 ≤ buf.length) :
    ∃ buf', writeAt buf (pos : Int) [v] = some buf' ∧ buf'.length = buf.length ∧
      ∀ X n, buf'.take (pos + 1) ++ X ++ buf'.drop (pos + 1 + n) = buf.take pos ++ (v :: X) ++ buf.drop (pos + (n + 1)) := by
  refine ⟨_, writeAt_eq_some (by simpa using h), by simp; omega, ?_⟩
  intro X n
  have h1 : (buf.take pos ++ [v]).length = pos + 1 := by simp; omega
  have e1 : (buf.take pos ++ [v] ++ buf.drop (pos + 1)).take (pos + 1) = buf.take pos ++ [v] := List.take_left' h1
  have e2 : (buf.take pos ++ [v] ++ buf.drop (pos + 1)).drop (pos + 1 + n) = buf.drop (pos + (n + 1)) := by
    rw [← List.drop_drop, List.drop_left' h1, List.drop_drop]
    congr 1; omega
  simp only [List.length_singleton]
  rw [e1, e2]
  simp

theorem midLoop_spec (id : List Byte) (ds : List Nat) (hid : id.map (digitValue true) = ds.map some) (odd : Bool)
    (ho : odd = decide (ds.length % 2 = 1)) (n pos off : Nat) (buf : List Byte)
    (hn : 2 * n = (ds.drop (off + 1) ++ if odd then [] else [15]).length) (hb : pos + n ≤ buf.length) :
    midLoop (id ++ [0#8]) ds.length odd n pos off buf =
      some (buf.take pos ++ packNibs (ds.drop (off + 1) ++ if odd then [] else [15]) ++ buf.drop (pos + n)) := by
  have hl : id.length = ds.length := by have := congrArg List.length hid; simpa using this
  have dig : ∀ j (h : j < ds.length), ∃ c, (id ++ [0#8])[j]? = some c ∧ char2bcd c = BitVec.ofNat 8 ds[j] ∧ ds[j] < 16 := by
    intro j h
    refine ⟨id[j]'(by omega), ?_, ?_⟩
    · rw [List.getElem?_append_left (by omega), List.getElem?_eq_getElem (by omega)]
    · have := congrArg (fun l => l[j]?) hid
      simp only [List.getElem?_map] at this
      rw [List.getElem?_eq_getElem (by omega), List.getElem?_eq_getElem h] at this
      exact char2bcd_digit _ _ (by simpa using this)
  induction n generalizing pos off buf with
  | zero =>
    have : (ds.drop (off + 1) ++ if odd then [] else [15]) = [] := List.eq_nil_of_length_eq_zero (by omega)
    rw [this]
    simp [midLoop, packNibs]
  | succ n ih =>
    have hlen : (ds.drop (off + 1)).length = ds.length - (off + 1) := by simp
    by_cases hodd : ds.length % 2 = 1
    · have ho' : odd = true := by rw [ho]; simpa using hodd
      subst ho'
      simp only [if_true, List.append_nil] at hn ih ⊢
      rw [hlen] at hn
      obtain ⟨c, c1, c2, c3⟩ := dig (off + 1) (by omega)
      obtain ⟨d, d1, d2, d3⟩ := dig (off + 2) (by omega)
      rw [midLoop, c1, Option.bind_some]
      simp only [Bool.not_true, Bool.false_and, Bool.false_eq_true, if_false]
      rw [d1, Option.bind_some, c2, d2, nib_join ⟨ds[off + 1], c3⟩ ⟨ds[off + 2], d3⟩]
      obtain ⟨buf', w1, w2, w3⟩ := write_one buf pos (BitVec.ofNat 8 (ds[off + 1] + 16 * ds[off + 2])) (by omega)
      rw [w1, Option.bind_some, ih _ _ _ (by simp; omega) (by omega), w3,
        List.drop_eq_getElem_cons (show off + 1 < ds.length by omega),
        List.drop_eq_getElem_cons (show off + 1 + 1 < ds.length by omega), packNibs]
    · have ho' : odd = false := by rw [ho]; simpa using hodd
      subst ho'
      simp only [Bool.false_eq_true, if_false] at hn ih ⊢
      rw [List.length_append, hlen] at hn
      simp only [List.length_singleton] at hn
      by_cases hlast : off + 2 = ds.length
      · have hn0 : n = 0 := by omega
        subst hn0
        obtain ⟨c, c1, c2, c3⟩ := dig (off + 1) (by omega)
        rw [midLoop, c1, Option.bind_some]
        simp only [Bool.not_false, Bool.true_and, decide_eq_true_eq, if_pos hlast]
        rw [c2, nib_fill ⟨ds[off + 1], c3⟩]
        rw [writeAt_eq_some (by simpa using hb), Option.bind_some, midLoop,
          List.drop_eq_getElem_cons (show off + 1 < ds.length by omega),
          (show ds.drop (off + 1 + 1) = [] from List.drop_eq_nil_of_le (by omega))]
        rfl
      · by_cases hz : off + 1 < ds.length
        · obtain ⟨c, c1, c2, c3⟩ := dig (off + 1) (by omega)
          obtain ⟨d, d1, d2, d3⟩ := dig (off + 2) (by omega)
          rw [midLoop, c1, Option.bind_some]
          simp only [Bool.not_false, Bool.true_and, decide_eq_true_eq, if_neg hlast]
          rw [d1, Option.bind_some, c2, d2, nib_join ⟨ds[off + 1], c3⟩ ⟨ds[off + 2], d3⟩]
          obtain ⟨buf', w1, w2, w3⟩ := write_one buf pos (BitVec.ofNat 8 (ds[off + 1] + 16 * ds[off + 2])) (by omega)
          rw [w1, Option.bind_some, ih _ _ _ (by simp; omega) (by omega), w3,
            List.drop_eq_getElem_cons (show off + 1 < ds.length by omega),
            List.drop_eq_getElem_cons (show off + 1 + 1 < ds.length by omega), List.cons_append, List.cons_append, packNibs]
        · omega

/-- **C91k.** `gsm48_generate_mid` of a string of 1 to 16 digits (hexadecimal
digits included) writes tag, length and the standard's octets of the identity,
which is what `osmo_mobile_identity_encode_buf` writes behind tag and length,
and nothing else. -/
theorem generateMid_spec (buf id : List Byte) (k : Kind) (ds : List Nat)
    (hid : id.map (digitValue true) = ds.map some) (h1 : 1 ≤ ds.length) (h2 : ds.length ≤ 16)
    (hb : 2 + (ds.length + 2) / 2 ≤ buf.length) (ty : Byte) (hty : ty.toNat % 8 = k.code) :
    generateMid buf id ty =
      some ([0x17#8, BitVec.ofNat 8 (Ident.num k ds).wire.length] ++ (Ident.num k ds).wire ++
          buf.drop (2 + (Ident.num k ds).wire.length), 2 + (Ident.num k ds).wire.length) := by
  have hl : id.length = ds.length := by have := congrArg List.length hid; simpa using this
  have hw := wire_length k ds
  match ds, h1 with
  | d0 :: ds', _ =>
    match id, hl with
    | c0 :: id', hl =>
      have hc0 := char2bcd_digit c0 d0 (by simp only [List.map_cons, List.cons.injEq] at hid; exact hid.1)
      have e7 : ty &&& 7#8 = BitVec.ofNat 8 k.code := by rw [type_bits, hty]
      have join : ∀ d : Fin 16, ∀ k : Kind, ∀ o : Bool,
          ((BitVec.ofNat 8 d.val <<< 4) ||| BitVec.ofNat 8 k.code ||| (if o = true then 8#8 else 0#8) : Byte) =
            BitVec.ofNat 8 ((k.code + if o = true then 8 else 0) + 16 * d.val) := by
        intro d k
        revert d
        cases k <;> decide +kernel
      have hmin : min (c0 :: id').length 16 = (d0 :: ds').length := by rw [hl]; omega
      unfold generateMid
      rw [hmin]
      simp only [List.cons_append, List.getElem?_cons_zero, Option.bind_some]
      have hL : ((d0 :: ds').length + if (d0 :: ds').length % 2 = 1 then 1 else 2) / 2 =
          ((d0 :: ds').length + 2) / 2 := by split <;> omega
      have hL2 : (d0 :: ds').length + (if decide ((d0 :: ds').length % 2 = 1) = true then 1 else 2) =
          (d0 :: ds').length + (if (d0 :: ds').length % 2 = 1 then 1 else 2) := by simp
      simp only [decide_eq_true_eq] at hL2 ⊢
      rw [hL, if_pos (by omega), hc0.1, e7]
      have hj := join ⟨d0, hc0.2⟩ k (decide ((d0 :: ds').length % 2 = 1))
      simp only [decide_eq_true_eq] at hj
      rw [hj]
      have hwr : writeAt buf 0 [0x17#8, BitVec.ofNat 8 (((d0 :: ds').length + 2) / 2),
            BitVec.ofNat 8 ((k.code + if (d0 :: ds').length % 2 = 1 then 8 else 0) + 16 * d0)] =
          some ([0x17#8, BitVec.ofNat 8 (((d0 :: ds').length + 2) / 2),
            BitVec.ofNat 8 ((k.code + if (d0 :: ds').length % 2 = 1 then 8 else 0) + 16 * d0)] ++ buf.drop 3) := by
        have := writeAt_eq_some (mem := buf) (o := 0) (bs := [0x17#8, BitVec.ofNat 8 (((d0 :: ds').length + 2) / 2),
            BitVec.ofNat 8 ((k.code + if (d0 :: ds').length % 2 = 1 then 8 else 0) + 16 * d0)]) (by
              simp at hb ⊢; omega)
        simpa using this
      rw [hwr, Option.bind_some]
      have hsem : (Ident.num k (d0 :: ds')).semis = (k.code + if (d0 :: ds').length % 2 = 1 then 8 else 0) :: d0 ::
          (ds' ++ if (d0 :: ds').length % 2 = 1 then [] else [15]) := by simp [Ident.semis]
      have hwire : (Ident.num k (d0 :: ds')).wire =
          BitVec.ofNat 8 ((k.code + if (d0 :: ds').length % 2 = 1 then 8 else 0) + 16 * d0) ::
            packNibs (ds' ++ if (d0 :: ds').length % 2 = 1 then [] else [15]) := by
        show packNibs (Ident.num k (d0 :: ds')).semis = _
        rw [hsem, packNibs]
      have hlp := midLoop_spec (c0 :: id') (d0 :: ds') hid (decide ((d0 :: ds').length % 2 = 1)) rfl
        (((d0 :: ds').length + 2) / 2 - 1) 3 0
        ([0x17#8, BitVec.ofNat 8 (((d0 :: ds').length + 2) / 2),
            BitVec.ofNat 8 ((k.code + if (d0 :: ds').length % 2 = 1 then 8 else 0) + 16 * d0)] ++ buf.drop 3)
        (by
          simp only [Nat.zero_add, List.drop_succ_cons, List.drop_zero, decide_eq_true_eq, List.length_append,
            List.length_cons]
          split <;> simp <;> omega)
        (by simp at hb ⊢; omega)
      have hlp' := hlp
      simp only [List.cons_append] at hlp' ⊢
      rw [hlp', Option.map_some]
      simp only [Nat.zero_add, List.drop_succ_cons, List.drop_zero, decide_eq_true_eq, List.nil_append,
        List.take_succ_cons, List.take_zero, List.cons_append]
      rw [hw, hwire]
      have e3 : 3 + (((d0 :: ds').length + 2) / 2 - 1) = ((((d0 :: ds').length + 2) / 2 - 1)) + 1 + 1 + 1 := by omega
      rw [e3]
      simp only [List.drop_succ_cons, List.drop_drop, List.cons_append]
      rw [show 3 + (((d0 :: ds').length + 2) / 2 - 1) = 2 + ((d0 :: ds').length + 2) / 2 by omega]

/-- an empty string is not refused; it gives one octet whose upper half is 0
instead of the filler 1111, which the decoder then rejects -/
theorem generateMid_empty (buf : List Byte) (ty : Byte) (hb : 3 ≤ buf.length) :
    generateMid buf [] ty = some ([0x17#8, 1#8, ty &&& 7#8] ++ buf.drop 3, 3) := by
  unfold generateMid
  have e : char2bcd 0#8 = 0#8 := by decide
  simp only [List.nil_append, List.getElem?_cons_zero, Option.bind_some, List.length_nil, Nat.zero_min, Nat.zero_mod,
    e]
  have := writeAt_eq_some (mem := buf) (o := 0) (bs := [0x17#8, 1#8, ty &&& 7#8]) (by simpa using hb)
  simp [midLoop] at this ⊢
  rw [this]
  simp

/-- **C91l.** `gsm48_generate_mid_from_tmsi`: tag, length 5, the standard's octets -/
theorem generateMidFromTmsi_spec (buf : List Byte) (v : BitVec 32) (hb : 7 ≤ buf.length) :
    generateMidFromTmsi buf v = some ([0x17#8, 5#8] ++ (Ident.tmsi v).wire ++ buf.drop 7, 7) := by
  unfold generateMidFromTmsi
  rw [beBytes, Option.bind_some]
  have := writeAt_eq_some (mem := buf) (o := 0) (bs := [0x17#8, 5#8, 0xf0#8 ||| 4#8] ++
    [BitVec.ofNat 8 (v.toNat / 2 ^ 24), BitVec.ofNat 8 (v.toNat / 2 ^ 16), BitVec.ofNat 8 (v.toNat / 2 ^ 8),
      BitVec.ofNat 8 v.toNat]) (by simpa using hb)
  simp only [Int.natCast_zero] at this
  rw [this]
  rfl

/-- **C91m.** `gsm48_mi_to_string` on the standard's octets: for a number, the
digits, cut to the buffer, and one more than the number of characters stored;
for a TMSI, `snprintf` of the decimal value (its return value included). -/
theorem miToString_wire (i : Ident) (hv : i.Valid true) (str : List Byte) (hs : 1 ≤ str.length) :
    match i with
    | .tmsi v => miToString str i.wire = snprintfText (decNat v.toNat) str
    | .num _ ds => miToString str i.wire =
        some ((digitText ds).take (str.length - 1) ++ 0#8 :: str.drop (min (str.length - 1) ds.length + 1),
          ((min (str.length - 1) ds.length + 1 : Nat) : Int)) := by
  cases i with
  | tmsi v =>
    show miToString str ((Ident.tmsi v).wire) = _
    unfold miToString
    have hw : (Ident.tmsi v).wire = 0xf4#8 :: [BitVec.ofNat 8 (v.toNat / 2 ^ 24), BitVec.ofNat 8 (v.toNat / 2 ^ 16),
      BitVec.ofNat 8 (v.toNat / 2 ^ 8), BitVec.ofNat 8 v.toNat] := rfl
    rw [hw]
    dsimp only
    rw [if_pos (by decide), if_pos ⟨rfl, rfl⟩]
    obtain ⟨w, w1, w2⟩ : ∃ w : BitVec 32, Endian.loadBe 32 [BitVec.ofNat 8 (v.toNat / 2 ^ 24), BitVec.ofNat 8 (v.toNat / 2 ^ 16),
      BitVec.ofNat 8 (v.toNat / 2 ^ 8), BitVec.ofNat 8 v.toNat] = some w ∧ w = v := by
      have := Endian.load_store_be v
      rw [beBytes] at this
      exact ⟨v, by simpa using this, rfl⟩
    simp only [List.drop_succ_cons, List.drop_zero]
    rw [w1, w2]
    rfl
  | num k ds =>
    have h16 := hv.lt16
    obtain ⟨t1, t2, t3, t4⟩ := digits_of_wire (k := k) h16
    have hwl := wire_length k ds
    have hnil := wire_ne_nil (.num k ds)
    have hlen := okLen_lt hv.1
    have hl17 : ds.length ≤ 16 := by
      have := hlen.1
      cases k <;> simp [Kind.size] at this <;> omega
    show miToString str ((Ident.num k ds).wire) = _
    generalize hW : (Ident.num k ds).wire = W at *
    match W, hnil with
    | b0 :: r, _ =>
      simp only [List.getD_cons_zero] at t1 t4
      unfold miToString
      dsimp only
      have hty : b0 &&& 7#8 = BitVec.ofNat 8 k.code := by rw [type_bits, t1]
      rw [hty, if_neg (code_ne4 k), if_pos (by cases k <;> decide)]
      simp only [List.getElem?_cons_zero, Option.bind_some]
      have hend : (((b0 :: r).length : Int) * 2 - if b0 &&& 8#8 ≠ 0#8 then 0 else 1) = ((1 + ds.length : Nat) : Int) := by
        unfold digitsOf at t2
        simp only [List.getD_cons_zero] at t2
        by_cases ho : 8 ≤ b0.toNat % 16
        · rw [if_pos ((odd_bit b0).2 ho)]
          rw [if_pos ho] at t2
          simp at t2 ⊢; omega
        · rw [if_neg (fun h => ho ((odd_bit b0).1 h))]
          rw [if_neg ho] at t2
          simp at t2 ⊢; omega
      have hfit : 1 + ds.length ≤ 2 * (b0 :: r).length := by rw [hwl]; omega
      have hbs := bcd2str_spec str (b0 :: r) 1 ((1 + ds.length : Nat) : Int) true hs (by omega)
      rw [show ((1 : Nat) : Int) = 1 from rfl] at hbs
      simp only [Bool.true_eq_false, false_and, if_false] at hbs
      rw [hend, hbs, Option.bind_some]
      dsimp only
      have hn : ((1 + ds.length : Nat) : Int).toNat - 1 = ds.length := by omega
      rw [hn]
      have hm : max (0 : Int) (((1 + ds.length : Nat) : Int) - 1) = (ds.length : Int) := by omega
      rw [hm]
      have htxt : nibbleText (b0 :: r) 1 (min (str.length - 1) ds.length) = (digitText ds).take (str.length - 1) := by
        rw [nibbleText_eq _ _ _ (by omega)]
        have : ((nibs (b0 :: r)).drop 1).take ds.length = ds := by
          unfold digitList at t3; rw [t2] at t3; exact t3
        have e : ((nibs (b0 :: r)).drop 1).take (min (str.length - 1) ds.length) = ds.take (str.length - 1) := by
          rw [← List.take_take, this]
        rw [e]
        simp [digitText, List.map_take]
      rw [htxt, if_neg (by omega)]
      by_cases hfits : (ds.length : Int) < str.length
      · rw [if_pos hfits]
        congr 2
        omega
      · rw [if_neg hfits]
        have hz : 0#8 ∉ (digitText ds).take (str.length - 1) := by
          intro h
          obtain ⟨d, hd, e⟩ := List.mem_map.1 (List.mem_of_mem_take h)
          have : ∀ d, d < 16 → upHex d ≠ 0#8 := by decide
          exact this d (h16 d hd) e
        have hfi : ((digitText ds).take (str.length - 1) ++ 0#8 ::
            str.drop (min (str.length - 1) ds.length + 1)).findIdx? (· = 0#8) =
            some ((digitText ds).take (str.length - 1)).length := by
          rw [List.findIdx?_eq_some_iff_getElem]
          refine ⟨by simp, by simp, ?_⟩
          intro j hj
          simp only [List.getElem_append_left hj, decide_eq_true_eq]
          intro e
          exact hz (e ▸ List.getElem_mem hj)
        rw [hfi, Option.map_some]
        congr 2
        rw [List.length_take, digitText_length]
        omega

/-- non-vacuity: IMSI 901700000017381 -/
example : generateMid (List.replicate 11 0#8) [0x39, 0x30, 0x31, 0x37, 0x30, 0x30, 0x30, 0x30, 0x30, 0x30, 0x31,
      0x37, 0x33, 0x38, 0x31] 1#8 =
    some ([0x17, 8, 0x99, 0x10, 0x07, 0, 0, 0x10, 0x37, 0x18, 0], 10) := by decide +kernel

end Verif.MobileId
