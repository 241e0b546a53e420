import Verif.MobileId.Decode
/-!
C91, encoding: `osmo_mobile_identity_encode_buf` writes exactly the standard's
octets of the identity a structure denotes, and refuses everything else.
-/
namespace Verif.MobileId
open Verif.Utils

/-- the string member selected by the type is terminated (as any C string must be) -/
def Terminated (m : MobId) : Prop :=
  m.u.length = 17 ∧ ∀ k : Kind, m.type = BitVec.ofNat 8 k.code → 0#8 ∈ m.u.take k.size

theorem memberLen_some {m : MobId} {size n : Nat} (h : memberLen m size = some n) :
    n < size ∧ ∃ rest, m.u = m.u.take n ++ 0#8 :: rest ∧ 0#8 ∉ m.u.take n := by
  unfold memberLen at h
  rw [List.findIdx?_eq_some_iff_getElem] at h
  obtain ⟨hlt, hz, hno⟩ := h
  have hn : n < size ∧ n < m.u.length := by simp at hlt; omega
  refine ⟨hn.1, m.u.drop (n + 1), ?_, ?_⟩
  · conv => lhs; rw [← List.take_append_drop n m.u]
    congr 1
    rw [List.drop_eq_getElem_cons hn.2]
    congr 1
    simpa using hz
  · intro hm
    obtain ⟨j, hj, e⟩ := List.getElem_of_mem hm
    have hj' : j < n := by simp at hj; omega
    have := hno j hj'
    simp only [List.getElem_take] at this e
    rw [e] at this
    simp at this

theorem memberLen_of {m : MobId} {size : Nat} {s rest : List Byte} (hu : m.u = s ++ 0#8 :: rest)
    (h0 : 0#8 ∉ s) (hs : s.length < size) : memberLen m size = some s.length := by
  unfold memberLen
  rw [hu, List.findIdx?_eq_some_iff_getElem]
  refine ⟨by simp; omega, ?_, ?_⟩
  · simp
  · intro j hj
    simp only [List.getElem_take, List.getElem_append_left hj, decide_eq_true_eq]
    intro e
    exact h0 (e ▸ List.getElem_mem hj)

theorem memberLen_total {m : MobId} {size : Nat} (h : 0#8 ∈ m.u.take size) : ∃ n, memberLen m size = some n := by
  unfold memberLen
  cases hf : (m.u.take size).findIdx? (· = 0#8) with
  | some n => exact ⟨n, rfl⟩
  | none =>
    rw [List.findIdx?_eq_none_iff] at hf
    have := hf _ h
    simp at this

theorem encodedLen_num {m : MobId} {k : Kind} {n : Nat} (ht : m.type = BitVec.ofNat 8 k.code)
    (hm : memberLen m k.size = some n) :
    encodedLen (some m) = some (if k.okLen n then ((((n + 2) / 2 : Nat) : Int), n) else (-EINVAL, 0)) := by
  unfold encodedLen
  dsimp only
  rw [ht]
  cases k
  · rw [if_neg (by decide), if_pos (by decide)]
    simp only [Kind.size] at hm
    rw [hm, Option.map_some]
    by_cases h : Kind.imsi.okLen n
    · rw [if_pos h]
      simp only [Kind.okLen] at h
      rw [if_neg (by omega)]
    · rw [if_neg h]
      simp only [Kind.okLen] at h
      rw [if_pos (by omega)]
  · rw [if_neg (by decide), if_neg (by decide), if_pos (by decide)]
    simp only [Kind.size] at hm
    rw [hm, Option.map_some]
    by_cases h : Kind.imei.okLen n
    · rw [if_pos h]
      simp only [Kind.okLen] at h
      rw [if_neg (by omega)]
    · rw [if_neg h]
      simp only [Kind.okLen] at h
      rw [if_pos (by omega)]
  · rw [if_neg (by decide), if_neg (by decide), if_neg (by decide), if_pos (by decide)]
    simp only [Kind.size] at hm
    rw [hm, Option.map_some]
    by_cases h : Kind.imeisv.okLen n
    · rw [if_pos h]
      simp only [Kind.okLen] at h
      rw [if_neg (by omega)]
    · rw [if_neg h]
      simp only [Kind.okLen] at h
      rw [if_pos (by omega)]

theorem okLen_lt {k : Kind} {n : Nat} (h : k.okLen n) : n < k.size ∧ 1 ≤ n := by
  cases k <;> simp only [Kind.okLen] at h <;> simp only [Kind.size] <;> omega

theorem first_octet (k : Kind) (n : Nat) :
    ((BitVec.ofNat 8 k.code &&& 7#8) ||| (if n % 2 = 1 then 8#8 else 0#8)).toNat =
      k.code + if n % 2 = 1 then 8 else 0 := by
  by_cases h : n % 2 = 1
  · rw [if_pos h, if_pos h]; cases k <;> decide
  · rw [if_neg h, if_neg h]; cases k <;> decide

theorem nibbleAt_append_left (a b : List Byte) (k : Nat) (h : k < 2 * a.length) :
    nibbleAt false (a ++ b) k = nibbleAt false a k := by
  unfold nibbleAt
  have : (a ++ b).getD (k / 2) 0#8 = a.getD (k / 2) 0#8 := by
    simp only [List.getD]
    rw [List.getElem?_append_left (by omega)]
  simp only [this]

theorem nibbleAt_congr (a b : List Byte) (k : Nat) (h : a.getD (k / 2) 0#8 = b.getD (k / 2) 0#8) :
    nibbleAt false a k = nibbleAt false b k := by
  unfold nibbleAt
  simp only [h]

theorem pack_nibbleAt (l : List Nat) (he : l.length % 2 = 0) (h : ∀ d ∈ l, d < 16) (k : Nat) (hk : k < l.length) :
    nibbleAt false (packNibs l) k = l.getD k 0 := by
  have h1 := nibs_getElem? (packNibs l) k (by rw [pack_length]; omega)
  rw [nibs_pack l he h, List.getElem?_eq_getElem hk, Option.some.injEq] at h1
  rw [← h1]
  simp [List.getD, hk]

/-- values of the digits of a string -/
def digitVals (hex : Bool) (s : List Byte) : List Nat := s.map fun c => (digitValue hex c).getD 0

theorem digitVals_lt (hex : Bool) (s : List Byte) : ∀ d ∈ digitVals hex s, d < 16 := by
  intro d hd
  simp only [digitVals, List.mem_map] at hd
  obtain ⟨c, -, rfl⟩ := hd
  cases h : digitValue hex c with
  | none => simp
  | some v => simpa using digitValue_lt hex c v h

/-- encoding a structure of type IMSI, IMEI or IMEISV -/
theorem encodeBuf_num {m : MobId} {k : Kind} {n : Nat} (buf : List Byte) (hex : Bool)
    (ht : m.type = BitVec.ofNat 8 k.code) (hl : m.u.length = 17)
    (hm : memberLen m k.size = some n) (hb : buf ≠ []) :
    (¬ k.okLen n → encodeBuf buf (some m) hex = some (buf, -EINVAL)) ∧
    (k.okLen n → buf.length < (n + 2) / 2 → encodeBuf buf (some m) hex = some (buf, -ENOSPC)) ∧
    (k.okLen n → (n + 2) / 2 ≤ buf.length →
      ((∀ c ∈ m.u.take n, (digitValue hex c).isSome) →
        encodeBuf buf (some m) hex =
          some ((Ident.num k (digitVals hex (m.u.take n))).wire ++ buf.drop ((n + 2) / 2),
            (((n + 2) / 2 : Nat) : Int))) ∧
      ((∃ c ∈ m.u.take n, digitValue hex c = none) →
        ∃ buf', encodeBuf buf (some m) hex = some (buf', -EINVAL) ∧ buf'.length = buf.length)) := by
  have hbl : 0 < buf.length := List.length_pos_iff.2 hb
  have hel := encodedLen_num ht hm
  refine ⟨?_, ?_, ?_⟩
  · intro hk
    unfold encodeBuf
    rw [if_neg (by omega), hel, Option.bind_some, if_neg hk, if_pos (by decide)]
  · intro hk hs
    unfold encodeBuf
    rw [if_neg (by omega), hel, Option.bind_some, if_pos hk]
    dsimp only
    rw [if_neg (by omega), if_pos (by omega)]
  · intro hk hs
    have hn := okLen_lt hk
    have htl : (m.u.take n).length = n := by
      rw [List.length_take]
      have : k.size ≤ 17 := by cases k <;> simp [Kind.size]
      omega
    generalize hb0 : (BitVec.ofNat 8 k.code &&& 7#8) ||| (if n % 2 = 1 then 8#8 else 0#8) = b0
    have hb0v : b0.toNat = k.code + if n % 2 = 1 then 8 else 0 := by rw [← hb0, first_octet]
    have hred : encodeBuf buf (some m) hex =
        (str2bcd (b0 :: buf.drop 1) (m.u.take n) 1 (-1) hex).map fun r =>
          (r.1, if r.2 ≠ (((n + 2) / 2 : Nat) : Int) then -EINVAL else (((n + 2) / 2 : Nat) : Int)) := by
      unfold encodeBuf
      rw [if_neg (by omega), hel, Option.bind_some, if_pos hk]
      dsimp only
      rw [if_neg (by omega), if_neg (by omega), Option.bind_some, ht, if_neg (code_ne4 k), hb0,
        show (0 : Int) = ((0 : Nat) : Int) from rfl, writeAt_eq_some (by simp; omega), Option.bind_some]
      simp
    have hdl : (b0 :: buf.drop 1).length = buf.length := by simp; omega
    constructor
    · intro hv
      obtain ⟨d, h1, h2, h3⟩ := str2bcd_auto (b0 :: buf.drop 1) (m.u.take n) 1 (-1) hex (by decide) (by simp)
        (by rw [hdl, htl]; omega) hv
      rw [show ((1 : Nat) : Int) = 1 from rfl] at h1
      rw [hred, h1, Option.map_some]
      have hrc : (1 + (m.u.take n).length + 1) / 2 = (n + 2) / 2 := by rw [htl]; congr 1; omega
      rw [hrc]
      dsimp only
      rw [if_neg (by simp)]
      congr 2
      have hwl : (Ident.num k (digitVals hex (m.u.take n))).wire.length = (n + 2) / 2 := by
        rw [wire_length]; simp only [digitVals, List.length_map, htl]
      have hvl : (digitVals hex (m.u.take n)).length = n := by simp only [digitVals, List.length_map, htl]
      apply ext_nibbleAt (msf := false)
      · rw [h2, hdl, List.length_append, hwl, List.length_drop]; omega
      · intro j hj
        rw [h3 j, htl]
        have hsl : (Ident.num k (digitVals hex (m.u.take n))).semis.length = 2 * ((n + 2) / 2) := by
          have := hwl
          change (packNibs _).length = _ at this
          rw [pack_length] at this
          have := semis_even k (digitVals hex (m.u.take n))
          omega
        by_cases hj2 : j < 2 * ((n + 2) / 2)
        · rw [nibbleAt_append_left _ _ _ (by rw [hwl]; exact hj2)]
          change _ = nibbleAt false (packNibs _) j
          rw [pack_nibbleAt _ (semis_even _ _) (semis_lt (digitVals_lt hex _)) j (by rw [hsl]; exact hj2)]
          have hsem : (Ident.num k (digitVals hex (m.u.take n))).semis =
              (k.code + if n % 2 = 1 then 8 else 0) :: digitVals hex (m.u.take n) ++
                (if n % 2 = 1 then [] else [15]) := by
            simp only [Ident.semis, hvl]
          rw [hsem]
          match j with
          | 0 =>
            rw [if_neg (by omega), if_neg (by omega)]
            simp only [nibbleAt, List.cons_append, List.getD_cons_zero, Nat.zero_div, hb0v]
            cases k <;> simp [Kind.code] <;> split <;> simp
          | j + 1 =>
            by_cases hjn : j < n
            · rw [if_pos (by omega)]
              simp only [List.cons_append, List.getD_cons_succ, Nat.add_sub_cancel]
              simp only [List.getD]
              rw [List.getElem?_append_left (by rw [hvl]; exact hjn)]
              rw [List.getElem?_eq_getElem (by rw [htl]; exact hjn), List.getElem?_eq_getElem (by rw [hvl]; exact hjn)]
              simp [digitVals]
            · have hjn' : j = n := by omega
              subst hjn'
              have ho : ¬ j % 2 = 1 := by omega
              rw [if_neg (by omega), if_pos (by omega)]
              simp only [if_neg ho, List.cons_append, List.getD_cons_succ]
              simp only [List.getD]
              rw [List.getElem?_append_right (by rw [hvl]), hvl]
              simp
        · rw [if_neg (by omega), if_neg (by omega)]
          apply nibbleAt_congr
          simp only [List.getD]
          rw [List.getElem?_append_right (by rw [hwl]; omega), hwl, List.getElem?_drop]
          rw [show j / 2 = (j / 2 - 1) + 1 by omega, List.getElem?_cons_succ, List.getElem?_drop]
          congr 2
          omega
    · intro hv
      obtain ⟨d, h1, h2⟩ := (str2bcd_rejects (b0 :: buf.drop 1) (m.u.take n) 1 (-1) hex (by decide) (by simp)).1
        (by rw [hdl, htl]; omega) hv
      rw [show ((1 : Nat) : Int) = 1 from rfl] at h1
      rw [hred, h1, Option.map_some]
      refine ⟨d, ?_, by rw [h2, hdl]⟩
      dsimp only
      rw [if_pos]
      simp only [EINVAL]
      omega

theorem getTmsi_eq {m : MobId} (h : m.u.length = 17) :
    ∃ v, getTmsi m = some v ∧ v.toNat = Endian.leVal (m.u.take 4) :=
  Endian.loadLeExt_value 32 m.u 4 (by decide) (by omega)

/-- encoding a structure of type TMSI -/
theorem encodeBuf_tmsi {m : MobId} {v : BitVec 32} (buf : List Byte) (hex : Bool) (h : Denotes m (.tmsi v)) :
    encodedLen (some m) = some (5, 8) ∧
    encodeBuf buf (some m) hex =
      some (if buf = [] then (buf, -EIO)
        else if buf.length < 5 then (buf, -ENOSPC)
        else ((Ident.tmsi v).wire ++ buf.drop 5, 5)) := by
  obtain ⟨ht, hl, hv⟩ := h
  have hel : encodedLen (some m) = some (5, 8) := by
    unfold encodedLen
    dsimp only
    rw [ht, if_pos rfl]
    rfl
  refine ⟨hel, ?_⟩
  unfold encodeBuf
  by_cases hb : buf = []
  · subst hb; simp
  · have hbl : 0 < buf.length := List.length_pos_iff.2 hb
    rw [if_neg (by omega), hel, Option.bind_some, if_neg hb]
    dsimp only
    rw [if_neg (by decide)]
    by_cases h5 : buf.length < 5
    · rw [if_pos h5, if_pos (by omega)]
    · rw [if_neg h5, if_neg (by omega), Option.bind_some, ht, if_pos rfl]
      obtain ⟨w, h1, h2⟩ := getTmsi_eq hl
      have hw : w = v := by apply BitVec.eq_of_toNat_eq; omega
      rw [show (0 : Int) = ((0 : Nat) : Int) from rfl, writeAt_eq_some (by simp; omega), Option.bind_some, h1,
        Option.bind_some, hw, beBytes, Option.bind_some, show (1 : Int) = ((1 : Nat) : Int) from rfl,
        writeAt_eq_some (by simp; omega), Option.map_some]
      simp [Ident.wire]

theorem digit_ne_zero : ∀ c : Byte, (digitValue true c).isSome → c ≠ 0#8 := by decide +kernel

theorem text_of_denotes {s : List Byte} {ds : List Nat} (h : s.map (digitValue true) = ds.map some) :
    s.length = ds.length ∧ 0#8 ∉ s ∧ digitVals true s = ds := by
  refine ⟨by simpa using congrArg List.length h, ?_, ?_⟩
  · intro hm
    have : digitValue true 0#8 ∈ s.map (digitValue true) := List.mem_map_of_mem hm
    rw [h] at this
    simp [digitValue] at this
  · induction s generalizing ds with
    | nil => cases ds with
      | nil => rfl
      | cons => simp at h
    | cons c s ih => cases ds with
      | nil => simp at h
      | cons d ds =>
        simp only [List.map_cons, List.cons.injEq] at h
        simp [digitVals, h.1]
        exact ih h.2

theorem dec_of_hex : ∀ c : Byte, ∀ d ∈ digitValue true c, d < 10 → digitValue false c = some d := by decide +kernel
theorem hex_of_dec : ∀ c : Byte, ∀ d ∈ digitValue false c, d < 10 ∧ digitValue true c = some d := by decide +kernel

theorem digits_for {hex : Bool} {s : List Byte} {ds : List Nat} (h : s.map (digitValue true) = ds.map some)
    (hv : ∀ d ∈ ds, d < if hex then 16 else 10) :
    (∀ c ∈ s, (digitValue hex c).isSome) ∧ digitVals hex s = ds := by
  cases hex with
  | true =>
    refine ⟨?_, (text_of_denotes h).2.2⟩
    intro c hc
    have : digitValue true c ∈ s.map (digitValue true) := List.mem_map_of_mem hc
    rw [h] at this
    obtain ⟨d, -, e⟩ := List.mem_map.1 this
    rw [← e]; rfl
  | false =>
    induction s generalizing ds with
    | nil => cases ds with
      | nil => exact ⟨by simp, rfl⟩
      | cons => simp at h
    | cons c s ih => cases ds with
      | nil => simp at h
      | cons d ds =>
        simp only [List.map_cons, List.cons.injEq] at h
        have hd := dec_of_hex c d h.1 (by simpa using hv d (by simp))
        obtain ⟨h1, h2⟩ := ih h.2 (fun e he => hv e (by simp [he]))
        refine ⟨?_, by simp [digitVals, hd]; exact h2⟩
        intro x hx
        rcases List.mem_cons.1 hx with rfl | hx
        · rw [hd]; rfl
        · exact h1 x hx

theorem denotes_memberLen {m : MobId} {k : Kind} {ds : List Nat} (h : Denotes m (.num k ds)) (hk : k.okLen ds.length) :
    memberLen m k.size = some ds.length ∧ (m.u.take ds.length).map (digitValue true) = ds.map some := by
  obtain ⟨-, hl, s, rest, hu, hs⟩ := h
  obtain ⟨h1, h2, -⟩ := text_of_denotes hs
  have := okLen_lt hk
  refine ⟨?_, ?_⟩
  · rw [← h1]
    exact memberLen_of hu h2 (by omega)
  · rw [hu, ← h1, List.take_left, hs]

theorem tmsi_wire_length (v : BitVec 32) : (Ident.tmsi v).wire.length = 5 := rfl

/-- **C91c.** Encoding a structure that denotes a valid identity writes exactly
the standard's octets, leaves the rest of the buffer alone and returns their
number, which is also what `osmo_mobile_identity_encoded_len` announces; a
buffer too small is refused untouched. -/
theorem encode_spec (m : MobId) (i : Ident) (buf : List Byte) (hex : Bool) (hd : Denotes m i) (hv : i.Valid hex) :
    (encodedLen (some m)).map (·.1) = some (i.wire.length : Int) ∧
    encodeBuf buf (some m) hex =
      some (if buf = [] then (buf, -EIO)
        else if buf.length < i.wire.length then (buf, -ENOSPC)
        else (i.wire ++ buf.drop i.wire.length, (i.wire.length : Int))) := by
  cases i with
  | tmsi v =>
    obtain ⟨h1, h2⟩ := encodeBuf_tmsi buf hex hd
    exact ⟨by rw [h1]; rfl, h2⟩
  | num k ds =>
    obtain ⟨hm, hs⟩ := denotes_memberLen hd hv.1
    obtain ⟨hc, hds⟩ := digits_for (hex := hex) hs hv.2
    have hwl := wire_length k ds
    refine ⟨?_, ?_⟩
    · rw [encodedLen_num hd.1 hm, if_pos hv.1, hwl]
      rfl
    · by_cases hb : buf = []
      · subst hb
        unfold encodeBuf
        simp
      · obtain ⟨-, h2, h3⟩ := encodeBuf_num buf hex hd.1 hd.2.1 hm hb
        rw [if_neg hb, hwl]
        by_cases hlen : buf.length < (ds.length + 2) / 2
        · rw [if_pos hlen, h2 hv.1 hlen]
        · rw [if_neg hlen, (h3 hv.1 (by omega)).1 hc, hds]

theorem canon_denotes (i : Ident) (h : i.Valid true) : Denotes i.canon i := by
  cases i with
  | tmsi v =>
    refine ⟨rfl, by simp [Ident.canon], ?_⟩
    have := v.isLt
    simp only [Ident.canon, List.cons_append, List.take_succ_cons, List.take_zero, Endian.leVal, BitVec.toNat_ofNat]
    omega
  | num k ds =>
    have hn := okLen_lt h.1
    have hs : k.size ≤ 17 := by cases k <;> simp [Kind.size]
    refine ⟨rfl, ?_, digitText ds, List.replicate (16 - ds.length) 0#8, ?_, ?_⟩
    · simp only [Ident.canon, List.length_append, digitText_length, List.length_replicate]; omega
    · simp only [Ident.canon]
      rw [show 17 - ds.length = (16 - ds.length) + 1 by omega, List.replicate_succ]
    · simp only [digitText, List.map_map]
      apply List.map_congr_left
      intro d hd
      exact digitValue_up d (h.lt16 d hd)

theorem valid_hex {hex : Bool} {i : Ident} (h : i.Valid hex) : i.Valid true := by
  cases i with
  | tmsi v => trivial
  | num k ds => exact ⟨h.1, fun d hd => by simpa using h.lt16 d hd⟩

/-- **C91d.** Conversely, whatever the structure contains (a terminated string):
encoding never leaves the buffer, and it returns a non-negative number only
when the structure denotes a valid identity and the buffer has received its
octets.  In particular an unknown type gives `-ENOTSUP`. -/
theorem encode_only (m : MobId) (buf : List Byte) (hex : Bool) (ht : Terminated m) :
    ∃ buf' rc, encodeBuf buf (some m) hex = some (buf', rc) ∧ buf'.length = buf.length ∧
      (0 ≤ rc → ∃ i : Ident, i.Valid hex ∧ Denotes m i ∧ rc = i.wire.length ∧
        buf' = i.wire ++ buf.drop i.wire.length) ∧
      (rc < 0 → ¬ (buf ≠ [] ∧ ∃ i : Ident, i.Valid hex ∧ Denotes m i ∧ i.wire.length ≤ buf.length)) ∧
      (m.type ∉ [1#8, 2#8, 3#8, 4#8] → buf ≠ [] → buf' = buf ∧ rc = -ENOTSUP) := by
  by_cases hb : buf = []
  · subst hb
    refine ⟨[], -EIO, rfl, rfl, ?_, ?_, fun _ h => absurd rfl h⟩
    · intro h; exact absurd h (by decide)
    · rintro - ⟨h, -⟩; exact h rfl
  · have hbl : 0 < buf.length := List.length_pos_iff.2 hb
    -- any identity denoted by m is encoded, by the previous theorem
    have hneg : ∀ buf' rc, encodeBuf buf (some m) hex = some (buf', rc) → rc < 0 →
        ¬ (buf ≠ [] ∧ ∃ i : Ident, i.Valid hex ∧ Denotes m i ∧ i.wire.length ≤ buf.length) := by
      rintro buf' rc he hrc ⟨-, i, hv, hd, hlen⟩
      have := (encode_spec m i buf hex hd hv).2
      rw [he, if_neg hb, if_neg (by omega)] at this
      simp only [Option.some.injEq, Prod.mk.injEq] at this
      omega
    by_cases h4 : m.type = 4#8
    · obtain ⟨v, -, hv⟩ := getTmsi_eq ht.1
      have hd : Denotes m (.tmsi v) := ⟨h4, ht.1, hv.symm⟩
      have hnot : m.type ∉ [1#8, 2#8, 3#8, 4#8] → buf ≠ [] → False := fun h _ => h (by simp [h4])
      have he := (encodeBuf_tmsi buf hex hd).2
      rw [if_neg hb] at he
      by_cases h5 : buf.length < 5
      · rw [if_pos h5] at he
        refine ⟨_, _, he, rfl, ?_, hneg _ _ he, fun a b => (hnot a b).elim⟩
        intro h; exact absurd h (by decide)
      · rw [if_neg h5] at he
        refine ⟨_, _, he, ?_, ?_, hneg _ _ he, fun a b => (hnot a b).elim⟩
        · rw [List.length_append, tmsi_wire_length, List.length_drop]; omega
        · intro _
          exact ⟨.tmsi v, trivial, hd, rfl, rfl⟩
    · by_cases hk : ∃ k : Kind, m.type = BitVec.ofNat 8 k.code
      · obtain ⟨k, hk⟩ := hk
        have hnot : m.type ∉ [1#8, 2#8, 3#8, 4#8] → buf ≠ [] → False := by
          intro h _; rw [hk] at h; cases k <;> exact h (by decide)
        obtain ⟨n, hn⟩ := memberLen_total (ht.2 k hk)
        have hsz : k.size ≤ m.u.length := by rw [ht.1]; cases k <;> simp [Kind.size]
        obtain ⟨hlt, rest, hu, h0⟩ := memberLen_some hn
        obtain ⟨e1, e2, e3⟩ := encodeBuf_num buf hex hk ht.1 hn hb
        by_cases hok : k.okLen n
        · by_cases hlen : buf.length < (n + 2) / 2
          · refine ⟨_, _, e2 hok hlen, rfl, ?_, hneg _ _ (e2 hok hlen), fun a b => (hnot a b).elim⟩
            intro h; exact absurd h (by decide)
          · obtain ⟨e4, e5⟩ := e3 hok (by omega)
            by_cases hbad : ∃ c ∈ m.u.take n, digitValue hex c = none
            · obtain ⟨buf', e6, e7⟩ := e5 hbad
              refine ⟨_, _, e6, e7, ?_, hneg _ _ e6, fun a b => (hnot a b).elim⟩
              intro h; exact absurd h (by decide)
            · have hall : ∀ c ∈ m.u.take n, (digitValue hex c).isSome := by
                intro c hc
                cases hcv : digitValue hex c with
                | none => exact absurd ⟨c, hc, hcv⟩ hbad
                | some v => rfl
              have htl : (m.u.take n).length = n := by rw [List.length_take]; omega
              have hvl : (digitVals hex (m.u.take n)).length = n := by simp only [digitVals, List.length_map, htl]
              have hwl : (Ident.num k (digitVals hex (m.u.take n))).wire.length = (n + 2) / 2 := by
                rw [wire_length, hvl]
              have he := e4 hall
              refine ⟨_, _, he, ?_, ?_, hneg _ _ he, fun a b => (hnot a b).elim⟩
              · rw [List.length_append, hwl, List.length_drop]; omega
              · intro _
                refine ⟨.num k (digitVals hex (m.u.take n)), ⟨by rw [hvl]; exact hok, ?_⟩,
                  ⟨hk, ht.1, m.u.take n, rest, hu, ?_⟩, by rw [hwl], by rw [hwl]⟩
                · intro d hd
                  simp only [digitVals, List.mem_map] at hd
                  obtain ⟨c, hc, rfl⟩ := hd
                  have hc' := hall c hc
                  cases hcv : digitValue hex c with
                  | none => rw [hcv] at hc'; simp at hc'
                  | some v =>
                    cases hex with
                    | true => simpa using digitValue_lt true c v hcv
                    | false => simpa using (hex_of_dec c v hcv).1
                · simp only [digitVals, List.map_map]
                  apply List.map_congr_left
                  intro c hc
                  have hc' := hall c hc
                  cases hcv : digitValue hex c with
                  | none => rw [hcv] at hc'; simp at hc'
                  | some v =>
                    cases hex with
                    | true => simp [hcv]
                    | false => simp [hcv, (hex_of_dec c v hcv).2]
        · refine ⟨_, _, e1 hok, rfl, ?_, hneg _ _ (e1 hok), fun a b => (hnot a b).elim⟩
          intro h; exact absurd h (by decide)
      · have n1 : m.type ≠ 1#8 := fun h => hk ⟨.imsi, h⟩
        have n2 : m.type ≠ 2#8 := fun h => hk ⟨.imei, h⟩
        have n3 : m.type ≠ 3#8 := fun h => hk ⟨.imeisv, h⟩
        have he : encodeBuf buf (some m) hex = some (buf, -ENOTSUP) := by
          unfold encodeBuf encodedLen
          rw [if_neg (by omega)]
          dsimp only
          rw [if_neg h4, if_neg n1, if_neg n2, if_neg n3, Option.bind_some, if_pos (by decide)]
        refine ⟨_, _, he, rfl, ?_, hneg _ _ he, fun _ _ => ⟨rfl, rfl⟩⟩
        intro h; exact absurd h (by decide)

/-- **C91e.** Round trip: what was decoded encodes to the same octets, and what
was encoded decodes to the same identity. -/
theorem roundtrip (hex : Bool) :
    (∀ (data tail buf : List Byte) (m : MobId), decode (data ++ tail) data.length hex = some (m, 0) →
      data.length ≤ buf.length →
      encodeBuf buf (some m) hex = some (data ++ buf.drop data.length, (data.length : Int))) ∧
    (∀ (m : MobId) (buf buf' : List Byte) (rc : Int), Terminated m → encodeBuf buf (some m) hex = some (buf', rc) →
      0 ≤ rc → ∃ i : Ident, Denotes m i ∧ decode buf' rc.toNat hex = some (i.canon, 0)) := by
  constructor
  · intro data tail buf m h hl
    rcases decode_only data tail hex with ⟨i, hv, hw, hd⟩ | ⟨-, hd⟩
    · rw [hd] at h
      simp only [Option.some.injEq, Prod.mk.injEq, and_true] at h
      have := (encode_spec m i buf hex (h ▸ canon_denotes i (valid_hex hv)) hv).2
      have hne : data ≠ [] := hw ▸ wire_ne_nil i
      have hb : buf ≠ [] := by
        intro e; subst e
        have := List.length_pos_iff.2 hne
        simp at hl; exact hne hl
      rw [this, if_neg hb, ← hw, if_neg (by omega)]
    · rw [hd] at h
      simp only [Option.some.injEq, Prod.mk.injEq] at h
      have := h.2
      split at this <;> exact absurd this (by decide)
  · intro m buf buf' rc ht h hrc
    obtain ⟨b, r, h1, -, h2, -⟩ := encode_only m buf hex ht
    rw [h1] at h
    simp only [Option.some.injEq, Prod.mk.injEq] at h
    obtain ⟨rfl, rfl⟩ := h
    obtain ⟨i, hv, hd, e1, e2⟩ := h2 hrc
    refine ⟨i, hd, ?_⟩
    rw [e1, e2, Int.toNat_natCast]
    exact decode_wire i hex hv _

/-- non-vacuity -/
example : Terminated (Ident.num .imei [1, 2, 3, 4, 5, 6, 7, 8, 9, 0, 1, 2, 3, 11]).canon ∧
    encodeBuf (List.replicate 9 0xee) (some (Ident.num .imei [1, 2, 3, 4, 5, 6, 7, 8, 9, 0, 1, 2, 3, 11]).canon) true =
      some ([0x12, 0x32, 0x54, 0x76, 0x98, 0x10, 0x32, 0xfb, 0xee], 8) ∧
    (encodeBuf (List.replicate 9 0xee)
      (some (Ident.num .imei [1, 2, 3, 4, 5, 6, 7, 8, 9, 0, 1, 2, 3, 11]).canon) false).map (·.2) = some (-22) := by
  refine ⟨⟨by decide, ?_⟩, by decide, by decide⟩
  intro k _
  cases k <;> decide

end Verif.MobileId
