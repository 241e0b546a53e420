import Verif.Chan.Xcch
/-!
C105: FACCH/F and FACCH/H.
-/
namespace Verif.Chan
open Verif.Conv Verif.ConvAcc Verif.Interleave

/-- the stealing flags of a full rate block -/
def tchFFlags : List Nat := [58, 174, 290, 406, 521, 637, 753, 869]

/-- the stealing flags of a FACCH/H block -/
def facchHFlags : List Nat := [58, 174, 290, 406, 289, 405, 521, 637]

/-- what the flags say -/
def flagSum (places : List Nat) (r : List Int) : Int := (places.map fun p => r.getD p 0).sum

theorem steal_spec (places : List Nat) (r : List Int) (h : ∀ p ∈ places, p < r.length) : steal places r = some (-flagSum places r) := by
  have : places.mapM (fun p => r[p]?) = some (places.map fun p => r.getD p 0) := by
    induction places with
    | nil => rfl
    | cons p ps ih =>
      rw [List.mapM_cons, List.getElem?_eq_getElem (h p (by simp)), ih fun q hq => h q (by simp [hq])]
      simp [List.getElem?_eq_getElem (h p (by simp))]
  unfold steal flagSum
  rw [this]
  rfl

theorem tchFrSend_pick (h : Byte) (iB cB bursts : List Byte) (h1 : iB.length = 912) (h2 : cB.length = 456) (h3 : 928 ≤ bursts.length) :
    ∃ b, tchFrSend 0 h iB cB bursts = some b ∧ b.length = bursts.length ∧ pick 0#8 ((List.range 456).map tchFPos) b = cB ∧
      (∀ p ∈ tchFFlags, b[p]? = some h) ∧ ∀ p, p ∉ tchFData → p ∉ tchFFlags → b[p]? = bursts[p]? := by
  obtain ⟨b, e1, e2, e3, e4, e5⟩ := genSend_spec (o := fun i => i >>> 2) tchFr_diagonal (by omega)
    (fun i _ => by rw [Nat.shiftRight_eq_div_pow]) 0 h iB cB bursts (by omega) h2 (by omega)
  have hlen := e2
  have hs : tchFrSend 0 h iB cB bursts = some b := e1
  obtain ⟨b', f1, -, f3⟩ := tchFr_stream [⟨h, cB, iB⟩] bursts (by simp; omega) (by simp; omega)
  have hbb : b' = b := by
    simp only [sendAll, Nat.mul_zero, hs, Option.bind_some] at f1
    exact (Option.some.inj f1).symm
  subst hbb
  obtain ⟨f3, -⟩ := f3 0 _ rfl
  have f4 := f3 cB iB h2 h1
  rw [Nat.mul_zero, tchFrReceive_spec _ _ _ 0#8 h2 h1 (by omega)] at f4
  refine ⟨b', hs, e2, Option.some.inj f4, ?_, ?_⟩
  · intro p hp
    simp only [tchFFlags, List.mem_cons, List.not_mem_nil, or_false] at hp
    rcases hp with rfl | rfl | rfl | rfl | rfl | rfl | rfl | rfl
    · exact e4 0 (by omega)
    · exact e4 1 (by omega)
    · exact e4 2 (by omega)
    · exact e4 3 (by omega)
    · exact e4 4 (by omega)
    · exact e4 5 (by omega)
    · exact e4 6 (by omega)
    · exact e4 7 (by omega)
  · intro p hp hf
    refine e5 p fun B hB => ?_
    simp only [tchFFlags, List.mem_cons, List.not_mem_nil, or_false] at hf
    simp only [tchFData, List.mem_filter, List.mem_range, decide_eq_true_eq] at hp
    by_cases hB' : 116 * B ≤ p ∧ p < 116 * B + 116
    · have q1 : p / 116 = B := by omega
      have q2 : p % 116 = p - 116 * B := by omega
      rw [q1, q2] at hp
      rw [Nat.zero_add]
      generalize p - 116 * B = y at *
      omega
    · omega

/-- C105: **FACCH/F.**  23 bytes are encoded to eight bursts, with the eight stealing flags set and no other places written.  They come
back from soft bits that speak against what was sent by less than 7/2 of the weakest one, if the flags, taken together, say stolen. -/
theorem facchF_roundtrip_soft (es : EncStack) (hes : es.Ok 912) (bursts l2 : List Byte) (hb : 928 ≤ bursts.length) (h3 : l2.length = 23) :
    ∃ b, facchFEncode es bursts l2 = some b ∧ b.length = bursts.length ∧ (∀ p ∈ tchFData, b.getD p 0#8 = 0#8 ∨ b.getD p 0#8 = 1#8) ∧
      (∀ p ∈ tchFFlags, b[p]? = some 1#8) ∧ (∀ p, p ∉ tchFData → p ∉ tchFFlags → b[p]? = bursts[p]?) ∧
      ∀ (ds : DecStack) (out : List Byte) (r : List Int) (m : Int) (e t : Nat), ds.Ok 912 → 23 ≤ out.length → 928 ≤ r.length → 0 ≤ m →
        m ≤ 127 → SoftAt tchFData m r → 2 * contra tchFData b r < 7 * m → flagSum tchFFlags r < 0 →
        facchFDecode ds out r e t = some { rv := 23, data := l2 ++ out.drop 23, errors := wrong tchFData b r, total := 456 } := by
  obtain ⟨sent, s1, s2, s3⟩ := xcchEncodeCB_spec es.conv es.cB l2 hes.conv hes.cB h3
  obtain ⟨b, b1, b2, b3, b4, b5⟩ := tchFrSend_pick 1#8 es.iB (sent.map ubit) bursts hes.iB (by simpa using s1) hb
  refine ⟨b, ?_, b2, bits_at tchF_perm b3, b4, b5, ?_⟩
  · unfold facchFEncode
    rw [s3]
    exact b1
  · intro ds out r m e t hds ho hr hm hm' hsoft hc hf
    have hst := steal_spec tchFFlags r (fun p hp => by
      simp only [tchFFlags, List.mem_cons, List.not_mem_nil, or_false] at hp; omega)
    unfold facchFDecode
    rw [show ([0, 1, 2, 3].map (fun i => i * 116 + 58) ++ [4, 5, 6, 7].map fun i => i * 116 + 57) = tchFFlags from rfl, hst,
      Option.bind_eq_bind, Option.bind_some, if_neg (by omega), tchFrReceive_spec _ _ _ 0 hds.cB hds.iB hr, Option.bind_eq_bind,
      Option.bind_some, cb_soft tchF_perm (by simp) h3 s2 b3 hds ho hm hm' hsoft hc, Option.bind_eq_bind,
      Option.bind_some, if_neg (by simp)]

/-- C105: three wrong bits of a FACCH/F block are corrected. -/
theorem facchF_corrects (es : EncStack) (hes : es.Ok 912) (bursts l2 b : List Byte) (hb : 928 ≤ bursts.length) (h3 : l2.length = 23)
    (he : facchFEncode es bursts l2 = some b) (ds : DecStack) (hds : ds.Ok 912) (out : List Byte) (ho : 23 ≤ out.length) (r : List Int)
    (hr : 928 ≤ r.length) (hh : ∀ p ∈ tchFData, r.getD p 0 = 127 ∨ r.getD p 0 = -127) (hw : wrong tchFData b r ≤ 3)
    (hf : flagSum tchFFlags r < 0) (e t : Nat) :
    facchFDecode ds out r e t = some { rv := 23, data := l2 ++ out.drop 23, errors := wrong tchFData b r, total := 456 } := by
  obtain ⟨b', e1, -, -, -, -, e5⟩ := facchF_roundtrip_soft es hes bursts l2 hb h3
  rw [he] at e1
  obtain rfl := Option.some.inj e1
  refine e5 ds out r 127 e t hds ho hr (by omega) (by omega) (fun p hp => ?_) ?_ hf
  · rcases hh p hp with h | h <;> rw [h] <;> omega
  · rw [contra_hard _ _ _ hh]; omega

/-- C105: what is received as FACCH/F is refused, or is a block that would be sent with as many differences as reported.  If the flags do
not say stolen nothing is written. -/
theorem facchF_decode_sound (ds : DecStack) (hds : ds.Ok 912) (out : List Byte) (ho : 23 ≤ out.length) (r : List Int)
    (hr : 928 ≤ r.length) (hs : ∀ p ∈ tchFData, -127 ≤ r.getD p 0 ∧ r.getD p 0 ≤ 127) (e t : Nat) :
    (0 ≤ flagSum tchFFlags r → facchFDecode ds out r e t = some { rv := -1, data := out, errors := e, total := t }) ∧
    (flagSum tchFFlags r < 0 → ∃ res, facchFDecode ds out r e t = some res ∧ res.total = 456 ∧
      ((res.rv = -1 ∧ res.data = out) ∨
        (res.rv = 23 ∧ ∃ l2, l2.length = 23 ∧ res.data = l2 ++ out.drop 23 ∧
          ∀ (es : EncStack) (bursts b : List Byte), es.Ok 912 → 928 ≤ bursts.length → facchFEncode es bursts l2 = some b →
            res.errors = wrong tchFData b r))) := by
  have hst := steal_spec tchFFlags r (fun p hp => by
    simp only [tchFFlags, List.mem_cons, List.not_mem_nil, or_false] at hp; omega)
  unfold facchFDecode
  rw [show ([0, 1, 2, 3].map (fun i => i * 116 + 58) ++ [4, 5, 6, 7].map fun i => i * 116 + 57) = tchFFlags from rfl, hst,
    Option.bind_eq_bind, Option.bind_some]
  constructor
  · intro hf
    rw [if_pos (by omega)]
  · intro hf
    rw [if_neg (by omega), tchFrReceive_spec _ _ _ 0 hds.cB hds.iB hr, Option.bind_eq_bind, Option.bind_some]
    obtain ⟨res, t1, t2, t3⟩ := cb_sound tchF_perm (by simp) hds ho hs
    rw [t1, Option.bind_eq_bind, Option.bind_some]
    refine ⟨_, rfl, ?_, ?_⟩
    · split <;> exact t2
    · rcases t3 with ⟨t3, t4⟩ | ⟨t3, l2, l1, l2', l3⟩
      · rw [if_pos (by rw [t3]; decide)]
        exact .inl ⟨rfl, t4⟩
      · rw [if_neg (by rw [t3]; decide)]
        refine .inr ⟨rfl, l2, l1, l2', ?_⟩
        intro es bursts b hes hb he
        obtain ⟨sent, s1, s2, s3⟩ := xcchEncodeCB_spec es.conv es.cB l2 hes.conv hes.cB l1
        obtain ⟨b', b1, b2, b3, -, -⟩ := tchFrSend_pick 1#8 es.iB (sent.map ubit) bursts hes.iB (by simpa using s1) hb
        unfold facchFEncode at he
        rw [s3] at he
        obtain rfl : b = b' := Option.some.inj (he.symm.trans b1)
        exact l3 sent b s2 b3

theorem facchHSend_pick (h : Byte) (iB cB bursts : List Byte) (h1 : iB.length = 912) (h2 : cB.length = 456) (h3 : 696 ≤ bursts.length) :
    ∃ b, facchHSend 0 h iB cB bursts = some b ∧ b.length = bursts.length ∧ pick 0#8 ((List.range 456).map facchHPos) b = cB ∧
      ∀ p ∈ facchHFlags, b[p]? = some h := by
  obtain ⟨b, e1, e2, e3, e4, e5⟩ := facchH_chain 0 h iB cB bursts cB iB h1 h2 (by omega) h2 h1
  refine ⟨b, e1, e2, ?_, ?_⟩
  · rw [facchHReceive_spec _ _ _ 0#8 h2 h1 (by omega)] at e3
    exact Option.some.inj e3
  · intro p hp
    simp only [facchHFlags, List.mem_cons, List.not_mem_nil, or_false] at hp
    rcases hp with rfl | rfl | rfl | rfl | rfl | rfl | rfl | rfl
    · exact e4 0 (by omega)
    · exact e4 1 (by omega)
    · exact e4 2 (by omega)
    · exact e4 3 (by omega)
    · exact e5 2 (by omega) (by omega)
    · exact e5 3 (by omega) (by omega)
    · exact e5 4 (by omega) (by omega)
    · exact e5 5 (by omega) (by omega)

/-- C105: **FACCH/H**, over six bursts. -/
theorem facchH_roundtrip_soft (es : EncStack) (hes : es.Ok 912) (bursts l2 : List Byte) (hb : 696 ≤ bursts.length) (h3 : l2.length = 23) :
    ∃ b, facchHEncode es bursts l2 = some b ∧ b.length = bursts.length ∧ (∀ p ∈ facchHData, b.getD p 0#8 = 0#8 ∨ b.getD p 0#8 = 1#8) ∧
      (∀ p ∈ facchHFlags, b[p]? = some 1#8) ∧
      ∀ (ds : DecStack) (out : List Byte) (r : List Int) (m : Int) (e t : Nat), ds.Ok 912 → 23 ≤ out.length → 696 ≤ r.length → 0 ≤ m →
        m ≤ 127 → SoftAt facchHData m r → 2 * contra facchHData b r < 7 * m → flagSum facchHFlags r < 0 →
        facchHDecode ds out r e t = some { rv := 23, data := l2 ++ out.drop 23, errors := wrong facchHData b r, total := 456 } := by
  obtain ⟨sent, s1, s2, s3⟩ := xcchEncodeCB_spec es.conv es.cB l2 hes.conv hes.cB h3
  obtain ⟨b, b1, b2, b3, b4⟩ := facchHSend_pick 1#8 es.iB (sent.map ubit) bursts hes.iB (by simpa using s1) hb
  refine ⟨b, ?_, b2, bits_at facchH_perm b3, b4, ?_⟩
  · unfold facchHEncode
    rw [s3]
    exact b1
  · intro ds out r m e t hds ho hr hm hm' hsoft hc hf
    have hst := steal_spec facchHFlags r (fun p hp => by
      simp only [facchHFlags, List.mem_cons, List.not_mem_nil, or_false] at hp; omega)
    unfold facchHDecode
    rw [show ([0, 1, 2, 3].map (fun i => i * 116 + 58) ++ [2, 3, 4, 5].map fun i => i * 116 + 57) = facchHFlags from rfl, hst,
      Option.bind_eq_bind, Option.bind_some, if_neg (by omega), facchHReceive_spec _ _ _ 0 hds.cB hds.iB hr, Option.bind_eq_bind,
      Option.bind_some, cb_soft facchH_perm (by simp) h3 s2 b3 hds ho hm hm' hsoft hc, Option.bind_eq_bind,
      Option.bind_some, if_neg (by simp)]

/-- C105: three wrong bits of a FACCH/H block are corrected. -/
theorem facchH_corrects (es : EncStack) (hes : es.Ok 912) (bursts l2 b : List Byte) (hb : 696 ≤ bursts.length) (h3 : l2.length = 23)
    (he : facchHEncode es bursts l2 = some b) (ds : DecStack) (hds : ds.Ok 912) (out : List Byte) (ho : 23 ≤ out.length) (r : List Int)
    (hr : 696 ≤ r.length) (hh : ∀ p ∈ facchHData, r.getD p 0 = 127 ∨ r.getD p 0 = -127) (hw : wrong facchHData b r ≤ 3)
    (hf : flagSum facchHFlags r < 0) (e t : Nat) :
    facchHDecode ds out r e t = some { rv := 23, data := l2 ++ out.drop 23, errors := wrong facchHData b r, total := 456 } := by
  obtain ⟨b', e1, -, -, -, e5⟩ := facchH_roundtrip_soft es hes bursts l2 hb h3
  rw [he] at e1
  obtain rfl := Option.some.inj e1
  refine e5 ds out r 127 e t hds ho hr (by omega) (by omega) (fun p hp => ?_) ?_ hf
  · rcases hh p hp with h | h <;> rw [h] <;> omega
  · rw [contra_hard _ _ _ hh]; omega

/-- C105: what is received as FACCH/H is refused, or is a block that would be sent with as many differences as reported. -/
theorem facchH_decode_sound (ds : DecStack) (hds : ds.Ok 912) (out : List Byte) (ho : 23 ≤ out.length) (r : List Int)
    (hr : 696 ≤ r.length) (hs : ∀ p ∈ facchHData, -127 ≤ r.getD p 0 ∧ r.getD p 0 ≤ 127) (e t : Nat) :
    (0 ≤ flagSum facchHFlags r → facchHDecode ds out r e t = some { rv := -1, data := out, errors := e, total := t }) ∧
    (flagSum facchHFlags r < 0 → ∃ res, facchHDecode ds out r e t = some res ∧ res.total = 456 ∧
      ((res.rv = -1 ∧ res.data = out) ∨
        (res.rv = 23 ∧ ∃ l2, l2.length = 23 ∧ res.data = l2 ++ out.drop 23 ∧
          ∀ (es : EncStack) (bursts b : List Byte), es.Ok 912 → 696 ≤ bursts.length → facchHEncode es bursts l2 = some b →
            res.errors = wrong facchHData b r))) := by
  have hst := steal_spec facchHFlags r (fun p hp => by
    simp only [facchHFlags, List.mem_cons, List.not_mem_nil, or_false] at hp; omega)
  unfold facchHDecode
  rw [show ([0, 1, 2, 3].map (fun i => i * 116 + 58) ++ [2, 3, 4, 5].map fun i => i * 116 + 57) = facchHFlags from rfl, hst,
    Option.bind_eq_bind, Option.bind_some]
  constructor
  · intro hf
    rw [if_pos (by omega)]
  · intro hf
    rw [if_neg (by omega), facchHReceive_spec _ _ _ 0 hds.cB hds.iB hr, Option.bind_eq_bind, Option.bind_some]
    obtain ⟨res, t1, t2, t3⟩ := cb_sound facchH_perm (by simp) hds ho hs
    rw [t1, Option.bind_eq_bind, Option.bind_some]
    refine ⟨_, rfl, ?_, ?_⟩
    · split <;> exact t2
    · rcases t3 with ⟨t3, t4⟩ | ⟨t3, l2, l1, l2', l3⟩
      · rw [if_pos (by rw [t3]; decide)]
        exact .inl ⟨rfl, t4⟩
      · rw [if_neg (by rw [t3]; decide)]
        refine .inr ⟨rfl, l2, l1, l2', ?_⟩
        intro es bursts b hes hb he
        obtain ⟨sent, s1, s2, s3⟩ := xcchEncodeCB_spec es.conv es.cB l2 hes.conv hes.cB l1
        obtain ⟨b', b1, b2, b3, -⟩ := facchHSend_pick 1#8 es.iB (sent.map ubit) bursts hes.iB (by simpa using s1) hb
        unfold facchHEncode at he
        rw [s3] at he
        obtain rfl : b = b' := Option.some.inj (he.symm.trans b1)
        exact l3 sent b s2 b3

end Verif.Chan
