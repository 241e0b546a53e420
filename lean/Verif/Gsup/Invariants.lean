import Verif.Gsup.Safety
/-!
C132: what a decoded message has in it, and IEs that the decoder does not know.
-/
namespace Verif.Gsup

/-- the counters stay within the arrays, and the pointers to arrays of a fixed
size point to as many octets -/
structure Sane (m : Msg) : Prop where
  pdpLen : m.pdpInfos.length = 10
  numPdp : m.numPdp ≤ 10
  pdpRest : m.pdpInfos.drop m.numPdp = List.replicate (10 - m.numPdp) {}
  authLen : m.authVecs.length = 5
  numAuth : m.messageType ≠ 8 → m.numAuth ≤ 5
  authRest : m.messageType ≠ 8 → m.authVecs.drop m.numAuth = List.replicate (5 - m.numAuth) {}
  auts : ∀ v, m.auts = some v → v.length = 14
  rand : ∀ v, m.rand = some v → v.length = 16
  rats : m.supportedRats.length ≤ 8
  imsi : m.imsi.length ≤ 16
  type : m.messageType ≤ 255

theorem sane_first {v after : List Byte} {f : Byte → Msg} {m' : Msg} (h : setFirst v after f = .ok m') (hf : ∀ b, Sane (f b)) :
    Sane m' := by
  obtain ⟨b, rfl⟩ := setFirst_ok h
  exact hf b

theorem drop_next {α : Type} {l : List α} {n k : Nat} {d : α} (h : l.drop n = List.replicate (k - n) d) (x : α) :
    (l.set n x).drop (n + 1) = List.replicate (k - (n + 1)) d := by
  rw [List.drop_set_of_lt (by omega), ← List.drop_drop, h, List.drop_replicate]
  congr 1

/-- the fields that matter -/
def core (m : Msg) := (m.pdpInfos, m.numPdp, m.authVecs, m.numAuth, m.auts, m.rand, m.supportedRats, m.imsi, m.messageType)

theorem sane_keep {m m' : Msg} (hs : Sane m) (h : core m' = core m) : Sane m' := by
  simp only [core, Prod.mk.injEq] at h
  obtain ⟨h1, h2, h3, h4, h5, h6, h7, h8, h9⟩ := h
  constructor
  · rw [h1]; exact hs.pdpLen
  · rw [h2]; exact hs.numPdp
  · rw [h1, h2]; exact hs.pdpRest
  · rw [h3]; exact hs.authLen
  · rw [h4, h9]; exact hs.numAuth
  · rw [h3, h4, h9]; exact hs.authRest
  · rw [h5]; exact hs.auts
  · rw [h6]; exact hs.rand
  · rw [h7]; exact hs.rats
  · rw [h8]; exact hs.imsi
  · rw [h9]; exact hs.type

theorem first_keep {m m' : Msg} {v after : List Byte} {f : Byte → Msg} (hs : Sane m) (h : setFirst v after f = .ok m')
    (hf : ∀ b, core (f b) = core m) : Sane m' ∧ m'.messageType = m.messageType := by
  obtain ⟨b, rfl⟩ := setFirst_ok h
  refine ⟨sane_keep hs (hf b), ?_⟩
  have := hf b
  simp only [core, Prod.mk.injEq] at this
  exact this.2.2.2.2.2.2.2.2

theorem sane_pdp {m : Msg} (hs : Sane m) (hn : m.numPdp < 10) (p : PdpInfo) :
    Sane { m with pdpInfos := m.pdpInfos.set m.numPdp p, numPdp := m.numPdp + 1 } where
  pdpLen := by simpa using hs.pdpLen
  numPdp := hn
  pdpRest := drop_next hs.pdpRest p
  authLen := hs.authLen
  numAuth := hs.numAuth
  authRest := hs.authRest
  auts := hs.auts
  rand := hs.rand
  rats := hs.rats
  imsi := hs.imsi
  type := hs.type

theorem sane_auth {m : Msg} (hs : Sane m) (hn : m.numAuth < 5) (a : AuthVec) :
    Sane { m with authVecs := m.authVecs.set m.numAuth a, numAuth := m.numAuth + 1 } where
  pdpLen := hs.pdpLen
  numPdp := hs.numPdp
  pdpRest := hs.pdpRest
  authLen := by simpa using hs.authLen
  numAuth := fun _ => hn
  authRest := fun h => drop_next (hs.authRest h) a
  auts := hs.auts
  rand := hs.rand
  rats := hs.rats
  imsi := hs.imsi
  type := hs.type

theorem cstr_length (s : List Byte) : (Bcd.cstr (s ++ [0])).length ≤ s.length := by
  induction s with
  | nil => simp [Bcd.cstr]
  | cons c s ih =>
    unfold Bcd.cstr at ih ⊢
    rw [List.cons_append, List.takeWhile_cons]
    split
    · simpa using ih
    · simp

theorem topIe_sane (m : Msg) (t : Byte) (v after : List Byte) (m' : Msg) (hs : Sane m) (h : topIe m t v after = .ok m') :
    Sane m' ∧ m'.messageType = m.messageType := by
  unfold topIe at h
  split at h
  all_goals first
    | (cases h; exact ⟨sane_keep hs rfl, rfl⟩)
    | exact first_keep hs h fun _ => rfl
    | skip
  · split at h
    · cases h
    · cases h; exact ⟨sane_pdp hs (by omega) _, rfl⟩
  · split at h
    · cases h
    · split at h
      · cases h
      · cases h
      · cases h; exact ⟨sane_pdp hs (by omega) _, rfl⟩
  · split at h
    · cases h
    · split at h
      · cases h
      · cases h
      · cases h; exact ⟨sane_auth hs (by omega) _, rfl⟩
  · split at h
    · cases h
    · cases h
      refine ⟨⟨hs.pdpLen, hs.numPdp, hs.pdpRest, hs.authLen, hs.numAuth, hs.authRest, ?_, hs.rand, hs.rats, hs.imsi, hs.type⟩, rfl⟩
      intro w hw
      cases hw
      omega
  · split at h
    · cases h
    · cases h
      refine ⟨⟨hs.pdpLen, hs.numPdp, hs.pdpRest, hs.authLen, hs.numAuth, hs.authRest, hs.auts, ?_, hs.rats, hs.imsi, hs.type⟩, rfl⟩
      intro w hw
      cases hw
      omega
  · split at h
    · cases h
    · cases h
      refine ⟨⟨hs.pdpLen, hs.numPdp, hs.pdpRest, hs.authLen, hs.numAuth, hs.authRest, hs.auts, hs.rand, ?_, hs.imsi, hs.type⟩, rfl⟩
      simp
      omega
  · split at h
    · cases h
    · cases h
    · cases h; exact ⟨sane_keep hs rfl, rfl⟩
  · split at h
    · cases h
    · cases h
    · cases h; exact ⟨sane_keep hs rfl, rfl⟩
  · split at h
    · cases h
    · cases h; exact ⟨sane_keep hs rfl, rfl⟩
  · split at h
    · rename_i h8
      obtain ⟨b, rfl⟩ := setFirst_ok h
      refine ⟨⟨hs.pdpLen, hs.numPdp, hs.pdpRest, hs.authLen, fun hh => absurd h8 hh, fun hh => absurd h8 hh, hs.auts, hs.rand,
        hs.rats, hs.imsi, hs.type⟩, rfl⟩
    · cases h; exact ⟨hs, rfl⟩

/-- C132: whatever the octets, the counters of a decoded message stay within
the arrays, the entries behind the counters were not touched, the pointers to
AUTS and RAND point to as many octets as these have, and the IMSI has at most
16 digits -/
theorem decode_sane (data : List Byte) (m : Msg) (h : decode data = .ok m) : Sane m := by
  rcases decode_cases data with he | ⟨t, l, v, rest, hd, hl, h8, he⟩
  · rw [h] at he; cases he
  · rw [he] at h
    have h0 : Sane { messageType := t.toNat, imsi := Bcd.cstr ((Bcd.nibblesOf v).map Bcd.charOf ++ [0]) } := by
      constructor
      all_goals try simp
      · have h1 := cstr_length ((Bcd.nibblesOf v).map Bcd.charOf)
        rw [List.length_map, Bcd.nibblesOf_length] at h1
        exact Nat.le_trans h1 (by omega)
      · have := t.isLt
        omega
    exact loop_inv topIe (fun a _ => Sane a) (fun r => ∀ m, r = .ok m → Sane m) (fun _ _ hh => by cases hh)
      (fun a hp m hh => by cases hh; exact hp)
      (by
        intro a t l v rest _ hp
        cases hr : topIe a t v rest with
        | err rc => exact .inl ⟨rc, rfl⟩
        | undef => exact .inr (.inl ⟨rfl, fun _ hh => by cases hh⟩)
        | ok a' => exact .inr (.inr ⟨a', rfl, (topIe_sane a t v rest a' hp hr).1⟩))
      _ rest _ rfl h0 m h

/-- C132: in a request for vectors the counter of the vectors is the number
that is asked for, which is any octet: it is not a bound for the array of five -/
theorem num_auth_counterexample (n : Byte) :
    decode [8, 0x01, 0, 0x52, 1, n] = .ok { messageType := 8, numAuth := n.toNat } := rfl

/-! ## IEs that the decoder does not know -/

/-- the tags that mean something -/
def knownTags : List Byte :=
  [0x02, 0x03, 0x04, 0x05, 0x06, 0x07, 0x08, 0x09, 0x0a, 0x10, 0x14, 0x15, 0x20, 0x26, 0x28, 0x29, 0x2a, 0x30, 0x31, 0x35,
   0x40, 0x41, 0x42, 0x43, 0x44, 0x45, 0x46, 0x50, 0x51, 0x52, 0x60, 0x61, 0x62, 0x63, 0x64, 0x65]

theorem topIe_unknown (m : Msg) (t : Byte) (v after : List Byte) (h : t ∉ knownTags) : topIe m t v after = .ok m := by
  unfold topIe
  split
  all_goals first
    | rfl
    | (rename_i ht
       exact absurd (by rw [tag_of ht]; decide) h)

theorem topIe_after (m : Msg) (t : Byte) (v a b : List Byte) (h : (v ++ a).head? = (v ++ b).head?) :
    topIe m t v a = topIe m t v b := by
  unfold topIe setFirst deref
  rw [h]

/-- the octets of IEs -/
def iesOf : List (Byte × List Byte) → List Byte
  | [] => []
  | x :: xs => x.1 :: BitVec.ofNat 8 x.2.length :: x.2 ++ iesOf xs

theorem loop_insert (u : Byte) (w rest : List Byte) (hu : u ∉ knownTags) (hw : w.length ≤ 255) :
    ∀ (xs : List (Byte × List Byte)) (a : Msg), (∀ x ∈ xs, x.2.length ≤ 255) → (∀ x, xs.getLast? = some x → x.2 ≠ []) →
      loop topIe (iesOf xs ++ (u :: BitVec.ofNat 8 w.length :: w ++ rest)) a = loop topIe (iesOf xs ++ rest) a
  | [], a, _, _ => by
    show loop topIe (u :: BitVec.ofNat 8 w.length :: w ++ rest) a = loop topIe rest a
    rw [loop_cons _ _ _ _ _ _ (by rw [byte_toNat hw]), topIe_unknown a u w rest hu]
  | x :: xs, a, hx, hl => by
    have ih : ∀ a, _ := fun a => loop_insert u w rest hu hw xs a (fun y hy => hx y (by simp [hy])) (fun y hy => hl y (by
      cases xs with
      | nil => cases hy
      | cons z zs => rw [List.getLast?_cons_cons]; exact hy))
    have hx0 := hx x (by simp)
    have e : ∀ r : List Byte, iesOf (x :: xs) ++ r = x.1 :: BitVec.ofNat 8 x.2.length :: x.2 ++ (iesOf xs ++ r) := by
      intro r; simp [iesOf]
    have hhead : ∀ r1 r2 : List Byte, (x.2 ++ (iesOf xs ++ r1)).head? = (x.2 ++ (iesOf xs ++ r2)).head? := by
      intro r1 r2
      cases hv : x.2 with
      | cons b bs => rfl
      | nil =>
        cases xs with
        | nil => exact absurd hv (hl x rfl)
        | cons z zs => rfl
    rw [e, e, loop_cons _ _ _ _ _ _ (by rw [byte_toNat hx0]), loop_cons _ _ _ _ _ _ (by rw [byte_toNat hx0]),
      topIe_after a x.1 x.2 _ _ (hhead (u :: BitVec.ofNat 8 w.length :: w ++ rest) rest)]
    cases topIe a x.1 x.2 (iesOf xs ++ rest) with
    | undef => rfl
    | err rc => rfl
    | ok a' => exact ih a'

/-- C132: an IE that the decoder does not know, anywhere behind the IMSI, changes
nothing.  The IE before it is to have a value, see `misread_counterexample` -/
theorem unknown_skipped (t l : Byte) (imsi : List Byte) (hi : imsi.length = l.toNat) (xs : List (Byte × List Byte))
    (hx : ∀ x ∈ xs, x.2.length ≤ 255) (hlast : ∀ x, xs.getLast? = some x → x.2 ≠ [])
    (u : Byte) (w rest : List Byte) (hu : u ∉ knownTags) (hw : w.length ≤ 255) :
    decode (t :: (0x01 :: l :: imsi ++ (iesOf xs ++ (u :: BitVec.ofNat 8 w.length :: w ++ rest)))) =
      decode (t :: (0x01 :: l :: imsi ++ (iesOf xs ++ rest))) := by
  rw [decode_head t l imsi _ hi, decode_head t l imsi _ hi, loop_insert u w rest hu hw xs _ hx hlast]

/-- C132: a message that is cut short within an IE is rejected, whatever was
decoded from the IEs before it, or is rejected already there -/
theorem truncated_rejected (t l : Byte) (imsi : List Byte) (hi : imsi.length = l.toNat) (xs : List (Byte × List Byte))
    (hx : ∀ x ∈ xs, x.2.length ≤ 255) (b : Byte) (w : List Byte)
    (hw : w = [] ∨ ∃ n v, w = n :: v ∧ v.length < n.toNat) :
    ∃ rc, decode (t :: (0x01 :: l :: imsi ++ (iesOf xs ++ (b :: w)))) = .err rc := by
  rw [decode_head t l imsi _ hi]
  split
  · generalize ({ messageType := t.toNat, imsi := Bcd.cstr ((Bcd.nibblesOf imsi).map Bcd.charOf ++ [0]) } : Msg) = a
    induction xs generalizing a with
    | nil =>
      refine ⟨-111, loop_broken topIe (b :: w) a (by simp) ?_⟩
      rintro ⟨t', l', v', r', h1, h2⟩
      rcases hw with rfl | ⟨n, v, rfl, hv⟩
      · simp at h1
      · simp only [List.cons_append, List.cons.injEq] at h1
        obtain ⟨_, rfl, rfl⟩ := h1
        simp at hv
        omega
    | cons x xs ih =>
      have e : iesOf (x :: xs) ++ (b :: w) = x.1 :: BitVec.ofNat 8 x.2.length :: x.2 ++ (iesOf xs ++ (b :: w)) := by simp [iesOf]
      rw [e, loop_cons _ _ _ _ _ _ (by rw [byte_toNat (hx x (by simp))])]
      cases hr : topIe a x.1 x.2 (iesOf xs ++ (b :: w)) with
      | undef =>
        have := (topIe_undef _ _ _ _ hr).2.1
        simp at this
      | err rc => exact ⟨rc, rfl⟩
      | ok a' => exact ih (fun y hy => hx y (by simp [hy])) a'
  · exact ⟨_, rfl⟩

theorem authInfoIe_types (a a' : AuthVec) (t : Byte) (v : List Byte) (h : authInfoIe a t v = .ok a') :
    (a'.gsm = true ↔ a.gsm = true ∨ t ∈ ([0x20, 0x21, 0x22] : List Byte)) ∧
      (a'.umts = true ↔ a.umts = true ∨ t ∈ ([0x23, 0x24, 0x25, 0x27] : List Byte)) := by
  unfold authInfoIe at h
  split at h
  case h_8 h1 h2 h3 h4 h5 h6 h7 =>
    have n : ∀ k : Byte, (t.toNat = k.toNat → False) → t ≠ k := fun k hk hh => hk (by rw [hh])
    cases h
    have g : t ∉ ([0x20, 0x21, 0x22] : List Byte) := by
      simp only [List.mem_cons, List.not_mem_nil, or_false, not_or]
      exact ⟨n _ h1, n _ h2, n _ h3⟩
    have u : t ∉ ([0x23, 0x24, 0x25, 0x27] : List Byte) := by
      simp only [List.mem_cons, List.not_mem_nil, or_false, not_or]
      exact ⟨n _ h4, n _ h5, n _ h6, n _ h7⟩
    exact ⟨(or_iff_left g).symm, (or_iff_left u).symm⟩
  all_goals
    rename_i ht
    rw [tag_of ht]
    split at h
    · cases h
    · cases h
      simp

/-- C132: the types of an authentication vector are those of which there is an
IE: RAND, SRES or Kc, and IK, CK, AUTN or RES -/
theorem auth_types (xs : List (Byte × List Byte)) (hx : ∀ x ∈ xs, x.2.length ≤ 255) (a : AuthVec)
    (h : decodeAuthInfo (iesOf xs) = .ok a) :
    (a.gsm = true ↔ ∃ x ∈ xs, x.1 ∈ ([0x20, 0x21, 0x22] : List Byte)) ∧
      (a.umts = true ↔ ∃ x ∈ xs, x.1 ∈ ([0x23, 0x24, 0x25, 0x27] : List Byte)) := by
  have key : ∀ (xs : List (Byte × List Byte)) (a0 : AuthVec), (∀ x ∈ xs, x.2.length ≤ 255) →
      loop (fun a t v _ => authInfoIe a t v) (iesOf xs) a0 = .ok a →
      (a.gsm = true ↔ a0.gsm = true ∨ ∃ x ∈ xs, x.1 ∈ ([0x20, 0x21, 0x22] : List Byte)) ∧
        (a.umts = true ↔ a0.umts = true ∨ ∃ x ∈ xs, x.1 ∈ ([0x23, 0x24, 0x25, 0x27] : List Byte)) := by
    intro xs
    induction xs with
    | nil =>
      intro a0 _ h
      cases h
      simp
    | cons x xs ih =>
      intro a0 hx h
      have e : iesOf (x :: xs) = x.1 :: BitVec.ofNat 8 x.2.length :: x.2 ++ iesOf xs := by simp [iesOf]
      rw [e, loop_cons _ _ _ _ _ _ (by rw [byte_toNat (hx x (by simp))])] at h
      cases hr : authInfoIe a0 x.1 x.2 with
      | undef => rw [hr] at h; cases h
      | err rc => rw [hr] at h; cases h
      | ok a1 =>
        rw [hr] at h
        have h1 := ih a1 (fun y hy => hx y (by simp [hy])) h
        have h2 := authInfoIe_types a0 a1 x.1 x.2 hr
        rw [h1.1, h1.2, h2.1, h2.2]
        have ex : ∀ p : Byte × List Byte → Prop, (∃ y, y ∈ x :: xs ∧ p y) ↔ p x ∨ ∃ y, y ∈ xs ∧ p y := by
          intro p
          constructor
          · rintro ⟨y, hy, hp⟩
            rcases List.mem_cons.1 hy with rfl | hy
            · exact .inl hp
            · exact .inr ⟨y, hy, hp⟩
          · rintro (hp | ⟨y, hy, hp⟩)
            · exact ⟨x, by simp, hp⟩
            · exact ⟨y, by simp [hy], hp⟩
        constructor <;> rw [or_assoc, ex]
  simpa using key xs {} hx h

/-! ## Examples -/

example : decodeAuthInfo (iesOf [(0x21, [1, 2, 3, 4])]) = .ok { sres := [1, 2, 3, 4], gsm := true } := by decide +kernel


/-- an update location request with a session, an IMEI and the name of its source -/
def sample : Msg :=
  { messageType := 0x04, imsi := [0x31, 0x32, 0x33, 0x34, 0x35], cnDomain := 1, sessionId := 0xdeadbeef, sessionState := 1,
    imei := some [0x12, 0x34], sourceName := some [0x4d, 0x53, 0x43], supportedRats := [1, 2],
    pdpInfos := { contextId := 1, haveInfo := true, typeOrg := 1, typeNr := 0x21, addr0 := .inet [10, 0, 0, 1],
                  apn := some [1, 0x61] } :: List.replicate 9 {}, numPdp := 1 }

def sampleBytes : List Byte :=
  [0x04, 0x01, 3, 0x21, 0x43, 0xf5, 0x05, 15, 0x10, 1, 1, 0x11, 6, 0xf1, 0x21, 10, 0, 0, 1, 0x12, 2, 1, 0x61, 0x28, 1, 1,
   0x30, 4, 0xde, 0xad, 0xbe, 0xef, 0x31, 1, 1, 0x50, 2, 0x12, 0x34, 0x60, 3, 0x4d, 0x53, 0x43, 0x29, 2, 1, 2]

example : encode 200 sample = .done 0 sampleBytes ∧ decode sampleBytes = .ok sample := by decide +kernel

example : decode (sampleBytes ++ [0x7f, 2, 0xaa, 0xbb]) = .ok sample := by decide +kernel

example : MsgOk { sample with pdpInfos := List.replicate 10 {}, numPdp := 0 } :=
  { bare_ok 0x04 [0x31, 0x32, 0x33, 0x34, 0x35] (by decide) (by decide) with
    cnDomain := by decide
    sessionId := by decide
    sessionState := by decide
    imei := by intro v h; cases h; decide
    sourceName := by intro v h; cases h; decide
    rats := by decide }

example : Sane sample := decode_sane sampleBytes sample (by decide +kernel)

example : decode [4, 0x01, 1, 0x21, 0x28] = .err (-111) := by decide +kernel

end Verif.Gsup
