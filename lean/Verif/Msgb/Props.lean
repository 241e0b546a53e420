import Verif.Msgb.Lemmas
import Verif.Endian.Props
/-!
Properties C01 (no pointer leaves the storage), C02 (double-ended byte
sequence), C03 (resizing), C04 (queue), C49 (reset), C51 (printf).
-/
namespace Verif.Msgb
open Verif.Endian (leVal beVal)

/-! ### C01 -/

/-- C01: for every size and every sequence of operations inside the documented
contract, the code never accesses memory outside the storage, its pointers stay
inside the storage, and head room, length and tail room are as specified. -/
theorem msgb_ops_in_storage (size : Nat) (hsz : size < 65536) (ops : List Op)
    (d : Deq) (os : List (List Byte))
    (h : specRun { hr := 0, pl := [], tr := size } ops = some (d, os)) :
    ∃ m, run (alloc size) ops = some (m, os) ∧ InStorage m ∧
      m.testInvariantCore = true ∧
      m.headroom = d.hr ∧ m.length = d.pl.length ∧ m.tailroom = d.tr ∧
      d.hr + d.pl.length + d.tr = size := by
  obtain ⟨m, hm, hp⟩ := run_presents (presents_alloc size hsz) h
  obtain ⟨hi, h1, h2, h3⟩ := presents_inStorage hp
  refine ⟨m, hm, hi, ?_, h1, h2, h3, ?_⟩
  · obtain ⟨a, b, c, e, f, g⟩ := hi
    simp [Msgb.testInvariantCore]
    omega
  · -- total room is conserved
    have cons : ∀ (ops : List Op) (d0 d : Deq) (os : List (List Byte)),
        specRun d0 ops = some (d, os) →
        d.hr + d.pl.length + d.tr = d0.hr + d0.pl.length + d0.tr := by
      intro ops
      induction ops with
      | nil => intro d0 d os h; cases h; rfl
      | cons op ops ih =>
        intro d0 d os h
        simp only [specRun, Option.bind_eq_some_iff, Option.map_eq_some_iff] at h
        obtain ⟨⟨d1, o⟩, hs1, ⟨d2, os2⟩, hs2, he⟩ := h
        cases he
        rw [ih _ _ _ hs2]
        cases op <;> simp only [specStep] at hs1
        case reset => cases hs1; simp
        all_goals
          split at hs1
          · rename_i hc; cases hs1; simp; omega
          · cases hs1
    have := cons _ _ _ _ h
    simpa using this

/-- a non-trivial history meeting the hypothesis of `msgb_ops_in_storage` -/
example : specRun { hr := 0, pl := [], tr := 16 }
    [.reserve 4, .put [1#8, 2#8, 3#8], .push [9#8], .pull 2, .get 1] =
    some ({ hr := 5, pl := [2#8], tr := 10 }, [[], [], [], [9#8, 1#8], [3#8]]) := by decide

/-- C01, the contract is tight: writing more than the tail room leaves the
storage. -/
theorem put_beyond_tailroom {m : Msgb} {d : Deq} (h : Presents m d) (bs : List Byte)
    (hb : d.tr < bs.length) : m.putBytes bs = none := by
  obtain ⟨h1, h2, h3, h4, h5, pre, post, h6, h7, h8⟩ := h
  have hl : m.mem.length = d.hr + d.pl.length + d.tr := by rw [h6]; simp; omega
  have : writeAt m.mem m.tail bs = none := by
    unfold writeAt; rw [if_neg (by omega)]
  simp [Msgb.putBytes, Msgb.put, this]

/-- C01, the contract is tight: pushing more than the head room leaves the
storage. -/
theorem push_beyond_headroom {m : Msgb} {d : Deq} (h : Presents m d) (bs : List Byte)
    (hb : d.hr < bs.length) : m.pushBytes bs = none := by
  obtain ⟨h1, h2, h3, h4, h5, pre, post, h6, h7, h8⟩ := h
  have : writeAt m.mem (m.data - bs.length) bs = none := by
    unfold writeAt; rw [if_neg (by omega)]
  simp [Msgb.pushBytes, Msgb.push, this]

example : Presents (alloc 4) { hr := 0, pl := [], tr := 4 } ∧ 4 < [0#8,0#8,0#8,0#8,0#8].length :=
  ⟨presents_alloc 4 (by decide), by decide⟩

/-! ### C02 -/

/-- C02: after any in-contract history, the bytes between `data` and `tail` are
exactly those of the specification, and each `get`/`pull` returned exactly the
bytes of the specification. -/
theorem msgb_refines_deque (size : Nat) (hsz : size < 65536) (ops : List Op)
    (d : Deq) (os : List (List Byte))
    (h : specRun { hr := 0, pl := [], tr := size } ops = some (d, os)) :
    ∃ m, run (alloc size) ops = some (m, os) ∧ readAt m.mem m.data m.len = some d.pl := by
  obtain ⟨m, hm, hp⟩ := run_presents (presents_alloc size hsz) h
  refine ⟨m, hm, ?_⟩
  obtain ⟨h1, h2, h3, h4, h5, pre, post, h6, h7, h8⟩ := hp
  rw [h2, h4, readAt_eq_some (by rw [h6]; simp; omega), h6, ← h7, List.append_assoc,
    List.drop_left, List.take_left]

/-- C02: `msgb_put_u16` then `msgb_get_u16` returns the value and restores the
payload; the two bytes appended are the big-endian value. -/
theorem put_get_u16 {m : Msgb} {d : Deq} (h : Presents m d) (w : BitVec 16) (hr : 2 ≤ d.tr) :
    ∃ m1 m2 bs, m.putU16 w = some m1 ∧ bs.length = 2 ∧ beVal bs = w.toNat ∧
      Presents m1 { d with pl := d.pl ++ bs, tr := d.tr - 2 } ∧
      m1.getU16 = some (w, m2) ∧ Presents m2 d := by
  obtain ⟨bs, hb, hl, hload⟩ := Endian.load_store_be w (by decide)
  obtain ⟨bs', hb', _, hv⟩ := Endian.storeBeExt_value w 2 (by decide)
  have : bs' = bs := by
    have : (some bs') = some bs := by rw [← hb, ← hb']; rfl
    exact Option.some.inj this
  subst this
  have hl2 : bs'.length = 2 := hl
  obtain ⟨m1, e1, p1⟩ := step_presents (op := .put bs') h (by rw [specStep, if_pos (by omega)])
  obtain ⟨m2, e2, p2⟩ := step_presents (op := .get 2) p1 (by rw [specStep, if_pos (by simp; omega)])
  simp only [step, Option.map_eq_some_iff] at e1 e2
  obtain ⟨a, ea, ha⟩ := e1; cases ha
  obtain ⟨⟨b, c⟩, eb, hb2⟩ := e2
  simp at hb2
  obtain ⟨hb2, hb3⟩ := hb2
  subst hb2
  have hk : d.pl.length + bs'.length - 2 = d.pl.length := by omega
  refine ⟨m1, c, bs', by simp [Msgb.putU16, hb, ea], hl2, ?_, by simpa [hl2] using p1, ?_, ?_⟩
  · rw [hv]; exact Nat.mod_eq_of_lt w.isLt
  · rw [Msgb.getU16, eb]
    rw [hk, List.drop_append, List.drop_length] at hb3
    simp at hb3
    simp [hb3, hload]
  · simp only [List.length_append, hk, List.take_left] at p2
    have et : d.tr - bs'.length + 2 = d.tr := by omega
    rw [et] at p2
    exact p2

/-- C02: `msgb_push_u32` then `msgb_pull_u32` returns the value and restores the
payload; the four bytes prepended are the big-endian value. -/
theorem push_pull_u32 {m : Msgb} {d : Deq} (h : Presents m d) (w : BitVec 32) (hr : 4 ≤ d.hr) :
    ∃ m1 m2 bs, m.pushU32 w = some m1 ∧ bs.length = 4 ∧ beVal bs = w.toNat ∧
      Presents m1 { d with pl := bs ++ d.pl, hr := d.hr - 4 } ∧
      m1.pullU32 = some (w, m2) ∧ Presents m2 d := by
  obtain ⟨bs, hb, hl, hload⟩ := Endian.load_store_be w (by decide)
  obtain ⟨bs', hb', _, hv⟩ := Endian.storeBeExt_value w 4 (by decide)
  have : bs' = bs := by
    have : (some bs') = some bs := by rw [← hb, ← hb']; rfl
    exact Option.some.inj this
  subst this
  have hl2 : bs'.length = 4 := hl
  obtain ⟨m1, e1, p1⟩ := step_presents (op := .push bs') h (by rw [specStep, if_pos (by omega)])
  obtain ⟨m2, e2, p2⟩ := step_presents (op := .pull 4) p1 (by rw [specStep, if_pos (by simp; omega)])
  simp only [step, Option.map_eq_some_iff] at e1 e2
  obtain ⟨a, ea, ha⟩ := e1; cases ha
  obtain ⟨⟨b, c⟩, eb, hb2⟩ := e2
  simp at hb2
  obtain ⟨hb2, hb3⟩ := hb2
  subst hb2
  refine ⟨m1, c, bs', by simp [Msgb.pushU32, hb, ea], hl2, ?_, by simpa [hl2] using p1, ?_, ?_⟩
  · rw [hv]; exact Nat.mod_eq_of_lt w.isLt
  · rw [Msgb.pullU32, eb]
    rw [← hl2, List.take_left] at hb3
    simp [hb3, hload]
  · rw [← hl2, List.drop_left] at p2
    have et : d.hr - bs'.length + bs'.length = d.hr := by omega
    simp only [et] at p2
    exact p2

example : Presents ((alloc 8).reserve 4) { hr := 4, pl := [], tr := 4 } := by
  refine ⟨rfl, rfl, rfl, rfl, by decide, List.replicate 4 0#8, List.replicate 4 0#8, rfl, rfl, rfl⟩

/-! ### C03: resizing -/

/-- C03 is false of `msgb_trim`: with head room 4 in 8 bytes of storage,
trimming to 8 reports success but leaves `tail` 4 bytes beyond the storage. -/
theorem msgb_trim_counterexample :
    ∃ m, allocHeadroom 8 4 = some m ∧ (m.trim 8).1 = 0 ∧ ¬ InStorage (m.trim 8).2 := by
  refine ⟨_, rfl, by decide, ?_⟩
  intro h
  exact absurd h.2.2.2.1 (by decide)

/-- C03 is false of `msgb_resize_area`: growing an area of a message with
head room moves bytes outside of the storage although the total length check
passes. -/
theorem msgb_resize_area_counterexample :
    ∃ m m', allocHeadroom 8 4 = some m ∧ m.putBytes [1#8, 2#8] = some m' ∧
      m'.resizeArea 4 1 4 = none := by
  refine ⟨_, _, rfl, rfl, by decide⟩

/-- C03 is false of `msgb_copy_resize`: the head room is kept but not accounted
for, so the copy writes outside of the new storage. -/
theorem msgb_copy_resize_counterexample :
    ∃ m m', allocHeadroom 8 4 = some m ∧ m.putBytes [1#8, 2#8] = some m' ∧
      m'.length ≤ 4 ∧ m'.copyResize 4 = .ub := by
  refine ⟨_, _, rfl, rfl, by decide, by decide⟩

/-- C03 (partial: additionally requires `n ≤ length + tailroom`, which
`msgb_trim` does not check): trimming stays in the storage and keeps the common
prefix of the payload. -/
theorem msgb_trim_partial {m : Msgb} {d : Deq} (h : Presents m d) (n : Nat)
    (hn : n ≤ d.pl.length + d.tr) :
    (m.trim n).1 = 0 ∧ ∃ pl, pl.length = n ∧
      pl.take (min n d.pl.length) = d.pl.take (min n d.pl.length) ∧
      Presents (m.trim n).2 { d with pl := pl, tr := d.pl.length + d.tr - n } := by
  obtain ⟨h1, h2, h3, h4, h5, pre, post, h6, h7, h8⟩ := h
  have hl : m.mem.length = d.hr + d.pl.length + d.tr := by rw [h6]; simp; omega
  have ht : ¬ ((n : Int) > m.dataLen) := by simp only [Msgb.dataLen]; omega
  simp only [Msgb.trim, if_neg ht]
  refine ⟨trivial, (d.pl ++ post).take n, by simp; omega, ?_, h1, h2, ?_, ?_, h5, pre,
    (d.pl ++ post).drop n, ?_, h7, ?_⟩
  · rw [List.take_take, show min (min n d.pl.length) n = min n d.pl.length by omega,
      List.take_append_of_le_length (by omega)]
  · simp; omega
  · dsimp only
    refine toU16_ofNat ?_ ?_ <;> simp <;> omega
  · simp [h6]
  · simp; omega

example : ∃ m, allocHeadroom 8 4 = some m ∧ (m.trim 4).1 = 0 ∧ (m.trim 4).2.tail = 8 :=
  ⟨_, rfl, by decide, by decide⟩

/-- C03: a request larger than the storage is refused and changes nothing. -/
theorem msgb_trim_refused (m : Msgb) (n : Int) (hn : m.dataLen < n) : m.trim n = (-1, m) := by
  simp [Msgb.trim, hn]

example : (alloc 4).dataLen < 5 := by decide

/-- C03 (partial: requires head room + payload to fit the new size, which
`msgb_copy_resize` does not check): the copy has the same head room and
payload. -/
theorem msgb_copy_resize_partial {m : Msgb} {d : Deq} (h : Presents m d) (n : Nat)
    (hn : n < 65536) (hfit : d.hr + d.pl.length ≤ n) :
    ∃ m', m.copyResize n = .ok m' ∧
      Presents m' { d with tr := n - d.hr - d.pl.length } ∧
      m'.l1h = m.l1h ∧ m'.l2h = m.l2h ∧ m'.l3h = m.l3h ∧ m'.l4h = m.l4h := by
  obtain ⟨h1, h2, h3, h4, h5, pre, post, h6, h7, h8⟩ := h
  have hr : readAt m.mem m.data m.len = some d.pl := by
    rw [h2, h4, readAt_eq_some (by rw [h6]; simp; omega), h6, ← h7, List.append_assoc,
      List.drop_left, List.take_left]
  have hw : writeAt (List.replicate n 0#8) (d.hr : Int) d.pl =
      some (List.replicate d.hr 0#8 ++ d.pl ++ List.replicate (n - d.hr - d.pl.length) 0#8) := by
    rw [writeAt_eq_some (by simp; omega)]
    simp [show min d.hr n = d.hr by omega, Nat.sub_add_eq]
  unfold Msgb.copyResize
  rw [Nat.mod_eq_of_lt hn, if_neg (by omega)]
  simp only [hr]
  simp only [alloc, Nat.mod_eq_of_lt hn, h2, Int.zero_add, hw]
  refine ⟨_, rfl, ⟨?_, ?_, ?_, ?_, ?_, _, _, rfl, ?_, ?_⟩, rfl, rfl, rfl, rfl⟩
  · simp [h1]
  · rfl
  · simp [h3]
  · exact h4
  · simp; omega
  · simp
  · simp

/-- C03: `msgb_copy` (same size) is always safe and preserves head room,
payload, tail room and layer pointers. -/
theorem msgb_copy_presents {m : Msgb} {d : Deq} (h : Presents m d) :
    ∃ m', m.copy = .ok m' ∧ Presents m' d ∧
      m'.l1h = m.l1h ∧ m'.l2h = m.l2h ∧ m'.l3h = m.l3h ∧ m'.l4h = m.l4h := by
  have hl : m.mem.length = d.hr + d.pl.length + d.tr := by
    obtain ⟨_, _, _, _, _, pre, post, h6, h7, h8⟩ := h
    rw [h6]; simp; omega
  obtain ⟨m', e, p, r⟩ := msgb_copy_resize_partial h m.mem.length h.2.2.2.2.1 (by omega)
  refine ⟨m', e, ?_, r⟩
  have : m.mem.length - d.hr - d.pl.length = d.tr := by omega
  rw [this] at p
  exact p

/-- C03 (partial: additionally requires the grown message to fit behind the
head room): resizing an area inside the payload keeps the bytes before and after
it, and the common prefix of the area. -/
theorem msgb_resize_area_partial {m : Msgb} {d : Deq} (h : Presents m d)
    (a b c : List Byte) (hd : d.pl = a ++ b ++ c) (n : Nat)
    (hn : n ≤ b.length + d.tr) :
    ∃ m' b', m.resizeArea (d.hr + a.length) b.length n = some (0, m') ∧ b'.length = n ∧
      b'.take (min n b.length) = b.take (min n b.length) ∧
      Presents m' { d with pl := a ++ b' ++ c, tr := d.tr + b.length - n } := by
  have hP := h
  obtain ⟨h1, h2, h3, h4, h5, pre, post, h6, h7, h8⟩ := h
  have hpl : d.pl.length = a.length + b.length + c.length := by rw [hd]; simp; omega
  have hl : m.mem.length = d.hr + d.pl.length + d.tr := by rw [h6]; simp; omega
  unfold Msgb.resizeArea
  by_cases hz : (n : Int) - b.length = 0
  · have hnb : n = b.length := by omega
    refine ⟨m, b, by simp [hz], hnb.symm, rfl, ?_⟩
    rw [← hd, hnb, Nat.add_sub_cancel]
    exact hP
  simp only [hz, if_false]
  have hpost : ((m.len : Int) - b.length - ((d.hr : Int) + a.length - m.data)).toNat = c.length := by
    rw [h2]; omega
  rw [hpost]
  have hmem : m.mem = (pre ++ a ++ b) ++ (c ++ post) := by rw [h6, hd]; simp
  have hrd : ∀ m1 : Msgb, m1.mem = m.mem →
      readAt m1.mem ((d.hr : Int) + a.length + b.length) c.length = some c := by
    intro m1 e
    rw [e, show (d.hr : Int) + a.length + b.length = ((pre ++ a ++ b).length : Nat) by simp; omega,
      readAt_eq_some (by simp; omega), hmem, List.drop_left, List.take_left]
  let mem' := m.mem.take (d.hr + a.length + n) ++ c ++ m.mem.drop (d.hr + a.length + n + c.length)
  have hwr : ∀ m1 : Msgb, m1.mem = m.mem →
      writeAt m1.mem ((d.hr : Int) + a.length + n) c = some mem' := by
    intro m1 e
    rw [e, show (d.hr : Int) + a.length + n = ((d.hr + a.length + n : Nat) : Int) by omega,
      writeAt_eq_some (by omega)]
  let b' := (b ++ c ++ post).take n
  have hmem' : mem' = pre ++ (a ++ b' ++ c) ++ m.mem.drop (d.hr + a.length + n + c.length) := by
    have : m.mem.take (d.hr + a.length + n) = pre ++ a ++ b' := by
      have e1 : m.mem = (pre ++ a) ++ (b ++ c ++ post) := by rw [hmem]; simp
      have e2 : d.hr + a.length + n = (pre ++ a).length + n := by simp; omega
      rw [e2, e1, List.take_length_add_append]
    simp only [mem', this]
    simp
  have hb'l : b'.length = n := by simp [b']; omega
  have hb't : b'.take (min n b.length) = b.take (min n b.length) := by
    simp only [b', List.take_take, List.append_assoc]
    rw [show min (min n b.length) n = min n b.length by omega, List.take_append_of_le_length (by omega)]
  have hpostl : (m.mem.drop (d.hr + a.length + n + c.length)).length = d.tr + b.length - n := by
    simp; omega
  have hmlen : mem'.length = m.mem.length := by
    rw [hmem']; simp [hpostl]; omega
  by_cases hpos : (n : Int) - b.length > 0
  · -- growth: msgb_trim first
    have ht : ¬ ((m.len : Int) + ((n : Int) - b.length) > m.dataLen) := by
      simp only [Msgb.dataLen]; omega
    simp only [hpos, if_true, Msgb.trim, if_neg ht]
    rw [hrd _ rfl]
    simp only [hwr { m with len := toU16 (m.len + (n - b.length)), tail := m.data + (m.len + (n - b.length)) } rfl]
    simp only [show ¬ ((0:Int) < 0) by omega, if_false, show ¬ ((n : Int) - b.length < 0) by omega]
    refine ⟨_, b', rfl, hb'l, hb't, h1, h2, ?_, ?_, ?_, pre, _, hmem', h7, hpostl⟩
    · simp; omega
    · dsimp only
      refine toU16_ofNat ?_ ?_ <;> simp <;> omega
    · simp only; omega
  · have hneg : (n : Int) - b.length < 0 := by omega
    simp only [hpos, if_false, hneg, if_true]
    rw [hrd _ rfl]
    simp only [hwr m rfl]
    have ht : ¬ ((m.len : Int) + ((n : Int) - b.length) > mem'.length) := by omega
    rw [trim_ok (by simpa only [Msgb.dataLen] using ht)]
    simp only [show ¬ ((0:Int) < 0) by omega, if_false]
    refine ⟨_, b', rfl, hb'l, hb't, h1, h2, ?_, ?_, ?_, pre, _, hmem', h7, hpostl⟩
    · simp; omega
    · dsimp only
      refine toU16_ofNat ?_ ?_ <;> simp <;> omega
    · simp only; omega

example : ∃ m m', allocHeadroom 16 4 = some m ∧ m.putBytes [1#8, 2#8, 3#8] = some m' ∧
    ∃ m'', m'.resizeArea 5 1 3 = some (0, m'') ∧
      readAt m''.mem m''.data m''.len = some [1#8, 2#8, 3#8, 0#8, 3#8] :=
  ⟨_, _, rfl, rfl, _, rfl, by decide⟩

/-! ### C49: reset -/

/-- C49 ("re-set all message buffer pointers") is false of the code: `l1h`
survives `msgb_reset`. -/
theorem msgb_reset_l1h_counterexample :
    ∃ m : Msgb, InStorage m ∧ m.testInvariant = true ∧ m.l1h = some 0 ∧ m.reset.l1h = some 0 := by
  refine ⟨{ alloc 4 with l1h := some 0 }, ?_, by decide, rfl, rfl⟩
  refine ⟨?_, ?_, ?_, ?_, ?_, ?_⟩ <;> decide

/-- C49 (partial: all but `l1h`): reset empties the message, gives back the whole
storage as tail room and clears `l2h`, `l3h`, `l4h`. -/
theorem msgb_reset_partial {m : Msgb} {d : Deq} (h : Presents m d) :
    Presents m.reset { hr := 0, pl := [], tr := d.hr + d.pl.length + d.tr } ∧
    m.reset.l2h = none ∧ m.reset.l3h = none ∧ m.reset.l4h = none := by
  obtain ⟨m', e, p⟩ := step_presents (op := .reset) h rfl
  cases e
  exact ⟨p, rfl, rfl, rfl⟩

/-! ### C51: msgb_printf -/

/-- C51: `msgb_printf` either appends exactly the rendered string and reports
0, or reports -EINVAL and leaves head room, payload and tail room unchanged; it
succeeds exactly when the string and its NUL terminator fit the tail room; it
never writes outside the storage. -/
theorem msgb_printf_spec {m : Msgb} {d : Deq} (h : Presents m d) (str : List Byte) :
    (str.length < d.tr → ∃ m', m.printf str = some (0, m') ∧
      Presents m' { d with pl := d.pl ++ str, tr := d.tr - str.length }) ∧
    (d.tr ≤ str.length → ∃ m', m.printf str = some (-22, m') ∧ Presents m' d) := by
  have hroom := (presents_inStorage h).2.2.2
  obtain ⟨h1, h2, h3, h4, h5, pre, post, h6, h7, h8⟩ := h
  have hl : m.mem.length = d.hr + d.pl.length + d.tr := by rw [h6]; simp; omega
  have hw : ∀ out : List Byte, out.length ≤ d.tr → writeAt m.mem m.tail out =
      some ((pre ++ d.pl) ++ (out ++ post.drop out.length)) := by
    intro out ho
    rw [h3, show (d.hr : Int) + d.pl.length = ((pre ++ d.pl).length : Nat) by simp; omega,
      writeAt_eq_some (by simp; omega), h6, List.take_left, List.drop_append]
    simp
  unfold Msgb.printf
  constructor
  · intro hs
    rw [if_neg (by omega)]
    dsimp only
    rw [hw _ (by simp; omega)]
    dsimp only
    rw [if_neg (by omega)]
    refine ⟨_, rfl, h1, h2, ?_, ?_, ?_, pre, [0#8] ++ post.drop (str.length + 1), ?_, h7, ?_⟩
    · simp [Msgb.put, h3]; omega
    · simp only [Msgb.put]
      refine toU16_ofNat ?_ ?_ <;> simp <;> omega
    · simp [Msgb.put]; omega
    · have e : List.take (m.tailroom.toNat - 1) str = str := List.take_of_length_le (by omega)
      simp [Msgb.put, e]
    · simp; omega
  · intro hs
    by_cases hz : m.tailroom < 1
    · rw [if_pos hz]
      exact ⟨m, rfl, h1, h2, h3, h4, h5, pre, post, h6, h7, h8⟩
    · rw [if_neg hz]
      dsimp only
      rw [hw _ (by simp; omega)]
      dsimp only
      rw [if_pos (by omega)]
      refine ⟨_, rfl, h1, h2, h3, h4, ?_, pre, _, rfl, h7, ?_⟩
      · simp; omega
      · simp; omega

example : ((alloc 4).printf [65#8, 66#8, 67#8]).map (·.1) = some 0 ∧
    ((alloc 4).printf [65#8, 66#8, 67#8, 68#8]).map (·.1) = some (-22) := by decide

/-! ### C04: message queue -/

/-- Operations on a counting queue. -/
inductive QOp (α : Type) where
  | enq (x : α)
  | deq

/-- A run of the counting queue operations of the code: outputs and final
state. -/
def qrun {α} (s : List α × BitVec 32) : List (QOp α) → List (Option α) × (List α × BitVec 32)
  | [] => ([], s)
  | .enq x :: ops => qrun (enqueueCount s x) ops
  | .deq :: ops =>
    let (o, s') := dequeueCount s
    let (os, s'') := qrun s' ops
    (o :: os, s'')

/-- The messages put in by a history, in order. -/
def enqueued {α} : List (QOp α) → List α
  | [] => []
  | .enq x :: ops => x :: enqueued ops
  | .deq :: ops => enqueued ops

/-- The messages that came out, in order. -/
def delivered {α} (os : List (Option α)) : List α := os.filterMap id

/-- C04: for every history on an initially empty queue, what came out followed
by what is still queued is exactly what was put in, in order (FIFO, nothing lost
or duplicated), and the counter equals the number of queued messages (modulo
2^32, the width of the counter). -/
theorem msgb_queue_fifo {α} (ops : List (QOp α)) :
    let r := qrun (([] : List α), 0#32) ops
    delivered r.1 ++ r.2.1 = enqueued ops ∧ r.2.2 = BitVec.ofNat 32 r.2.1.length := by
  have gen : ∀ (ops : List (QOp α)) (q : List α) (c : BitVec 32), c = BitVec.ofNat 32 q.length →
      delivered (qrun (q, c) ops).1 ++ (qrun (q, c) ops).2.1 = q ++ enqueued ops ∧
      (qrun (q, c) ops).2.2 = BitVec.ofNat 32 (qrun (q, c) ops).2.1.length := by
    intro ops
    induction ops with
    | nil => intro q c hc; simp [qrun, delivered, enqueued, hc]
    | cons op ops ih =>
      intro q c hc
      cases op with
      | enq x =>
        have := ih (q ++ [x]) (c + 1#32) (by
          subst hc; apply BitVec.eq_of_toNat_eq; simp)
        simpa [qrun, enqueueCount, enqueue, enqueued] using this
      | deq =>
        cases q with
        | nil =>
          have := ih [] c hc
          simpa [qrun, dequeueCount, dequeue, enqueued, delivered] using this
        | cons x q =>
          have := ih q (c - 1#32) (by
            subst hc; apply BitVec.eq_of_toNat_eq; simp; omega)
          simpa [qrun, dequeueCount, dequeue, enqueued, delivered] using this
  simpa using gen ops [] 0#32 rfl

/-- C04: a dequeue returns nothing exactly when the queue is empty. -/
theorem msgb_dequeue_empty_iff {α} (s : List α × BitVec 32) :
    (dequeueCount s).1 = none ↔ s.1 = [] := by
  obtain ⟨q, c⟩ := s
  cases q <;> simp [dequeueCount, dequeue]

example : qrun (([] : List Nat), 0#32) [.enq 5, .enq 6, .deq, .enq 7, .deq] =
    ([some 5, some 6], ([7], 1#32)) := by decide

end Verif.Msgb
