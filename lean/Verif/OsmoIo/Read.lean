import Verif.Common
/-!
Model of the read side of src/core/osmo_io.c (messages cut out of a byte stream), and its properties.
-/
namespace Verif.OsmoIo

/-! ### Model -/

/-- errno -/
def EAGAIN : Int := 11

/-- src/core/osmo_io_internal.h:147-151 `enum iofd_seg_act` -/
inductive Act where
  | one | more | defer
deriving DecidableEq, Repr

/-- src/core/osmo_io.c:268-324 `iofd_handle_segmentation`: the action, the message and what is pending.  `cb` is the segmentation
callback, if any, `size` the size of a message buffer.  Simplification: the callback does not change the message buffer.
`none`: more than a buffer holds is copied. -/
def handleSegmentation (cb : Option (List Byte → Int)) (size : Nat) (msg : List Byte) :
    Option (Act × List Byte × Option (List Byte)) :=
  match cb with
  | none => some (.one, msg, none)
  | some f =>
    let expected := f msg
    if expected = -EAGAIN then some (.defer, msg, some msg)
    else if expected < 0 then some (.defer, [], none)
    else
      let extra := (msg.length : Int) - expected
      if extra = 0 then some (.one, msg, none)
      else if extra < 0 then some (.defer, msg, some msg)
      else if extra > size then none
      else some (.more, msg.take expected.toNat, some (msg.drop expected.toNat))

/-- What the read callback is called with: a message, or an error and what was pending. -/
inductive Event where
  | msg (m : List Byte)
  | err (m : List Byte)
deriving DecidableEq, Repr

/-- What src/core/osmo_io_internal.h:52-111 `struct osmo_io_fd` has for reading, and the calls of the read callback so far. -/
structure Rd where
  pending : Option (List Byte)
  log : List Event
deriving DecidableEq, Repr

/-- src/core/osmo_io.c:340-349: the loop, at most `fuel` times; `none`: more often, or an assertion -/
def segLoop (cb : Option (List Byte → Int)) (size : Nat) : Nat → Rd → List Byte → Option Rd
  | 0, _, _ => none
  | fuel + 1, st, msg =>
    match handleSegmentation cb size msg with
    | none => none
    | some (act, m, pending) =>
      let st := if act ≠ .defer then { st with log := st.log ++ [.msg m] } else st
      if act = .more then
        match pending with
        | none => none
        | some p => segLoop cb size fuel st p
      else if st.pending ≠ none then none
      else some { st with pending := pending }

/-- src/core/osmo_io_poll.c:50-78 and src/core/osmo_io.c:328-350 `iofd_handle_segmented_read` for the bytes that a read gave;
an empty list is a return value of zero or less (end of file or an error).  `none`: more bytes than room -/
def recv (cb : Option (List Byte → Int)) (size : Nat) (st : Rd) (chunk : List Byte) : Option Rd :=
  let msg := st.pending.getD []
  let st := { st with pending := none }
  if chunk = [] then some { st with log := st.log ++ [.err msg] }
  else if msg.length + chunk.length > size then none
  else segLoop cb size (msg.length + chunk.length + 1) st (msg ++ chunk)

/-- all reads -/
def run (cb : Option (List Byte → Int)) (size : Nat) : Rd → List (List Byte) → Option Rd
  | st, [] => some st
  | st, c :: cs => (recv cb size st c).bind fun st => run cb size st cs

/-! ### What is wanted -/

/-- A callback that finds the length of the first message from a part or the whole of it: it waits or gives a length, it sticks
to the length, and needs no more than the message to know it. -/
structure Good (f : List Byte → Int) : Prop where
  cases : ∀ d, f d = -EAGAIN ∨ 0 < f d
  stable : ∀ d e, 0 < f d → f (d ++ e) = f d
  own : ∀ d k, f d = (k : Nat) → k ≤ d.length → f (d.take k) = (k : Nat)

/-- A full message. -/
def Whole (f : List Byte → Int) (m : List Byte) : Prop := m ≠ [] ∧ f m = m.length

/-- Part of a message. -/
def Part (f : List Byte → Int) (p : List Byte) : Prop := p = [] ∨ f p = -EAGAIN ∨ (p.length : Int) < f p

/-- The stream is these messages and then a part of one. -/
structure Framed (f : List Byte → Int) (ms : List (List Byte)) (rest stream : List Byte) : Prop where
  eq : ms.flatten ++ rest = stream
  whole : ∀ m ∈ ms, Whole f m
  part : Part f rest

theorem whole_prefix {f : List Byte → Int} (hf : Good f) {m d e : List Byte} (hm : Whole f m) (hd : Whole f d)
    (h : m ++ e = d) : e = [] ∧ m = d := by
  have h1 := hf.stable m e (by rw [hm.2]; have := List.length_pos_iff.mpr hm.1; omega)
  rw [h, hd.2, hm.2, ← h] at h1
  rw [List.length_append] at h1
  have he : e = [] := List.length_eq_zero_iff.mp (by omega)
  subst he
  simpa using h

theorem not_part {f : List Byte → Int} (hf : Good f) {m e : List Byte} (hm : Whole f m) : ¬ Part f (m ++ e) := by
  have hpos := List.length_pos_iff.mpr hm.1
  have h1 := hf.stable m e (by rw [hm.2]; omega)
  rintro (h | h | h)
  · exact hm.1 (List.append_eq_nil_iff.mp h).1
  · rw [h1, hm.2] at h
    unfold EAGAIN at h
    omega
  · rw [h1, hm.2] at h
    simp at h
    omega

/-- C81: there is only one way to see messages in a stream. -/
theorem framed_unique {f : List Byte → Int} (hf : Good f) (ms : List (List Byte)) : ∀ (ms' : List (List Byte))
    (rest rest' stream : List Byte), Framed f ms rest stream → Framed f ms' rest' stream → ms = ms' ∧ rest = rest' := by
  induction ms with
  | nil =>
    intro ms' rest rest' stream h h'
    cases ms' with
    | nil =>
      refine ⟨rfl, ?_⟩
      have := h.eq.trans h'.eq.symm
      simpa using this
    | cons m ms' =>
      exfalso
      have he := h.eq.trans h'.eq.symm
      simp only [List.flatten_nil, List.nil_append, List.flatten_cons, List.append_assoc] at he
      have := h.part
      rw [he] at this
      exact not_part hf (h'.whole m (by simp)) this
  | cons m ms ih =>
    intro ms' rest rest' stream h h'
    cases ms' with
    | nil =>
      exfalso
      have he := h'.eq.trans h.eq.symm
      simp only [List.flatten_nil, List.nil_append, List.flatten_cons, List.append_assoc] at he
      have := h'.part
      rw [he] at this
      exact not_part hf (h.whole m (by simp)) this
    | cons m' ms' =>
      have he := h.eq.trans h'.eq.symm
      simp only [List.flatten_cons, List.append_assoc] at he
      have hm := h.whole m (by simp)
      have hm' := h'.whole m' (by simp)
      have hmm : m = m' := by
        rcases List.append_eq_append_iff.mp he with ⟨e, h1, -⟩ | ⟨e, h1, -⟩
        · exact (whole_prefix hf hm hm' h1.symm).2
        · exact (whole_prefix hf hm' hm h1.symm).2.symm
      subst hmm
      have he := List.append_cancel_left he
      obtain ⟨a, b⟩ := ih ms' rest rest' (ms.flatten ++ rest) ⟨rfl, fun x hx => h.whole x (by simp [hx]), h.part⟩
        ⟨he.symm, fun x hx => h'.whole x (by simp [hx]), h'.part⟩
      exact ⟨by rw [a], b⟩

/-! ### The loop -/

theorem segLoop_spec {f : List Byte → Int} (hf : Good f) (size : Nat) : ∀ (fuel : Nat) (st : Rd) (msg : List Byte),
    st.pending = none → msg ≠ [] → msg.length < fuel → msg.length ≤ size →
    ∃ ms rest, segLoop (some f) size fuel st msg = some ⟨if rest = [] then none else some rest, st.log ++ ms.map .msg⟩ ∧
      Framed f ms rest msg := by
  intro fuel
  induction fuel with
  | zero => intro st msg _ _ h; omega
  | succ fuel ih =>
    intro st msg hp hne hl hs
    have hpos := List.length_pos_iff.mpr hne
    unfold segLoop handleSegmentation
    dsimp only
    rcases hf.cases msg with he | he
    · rw [if_pos he]
      simp only [hp]
      refine ⟨[], msg, ?_, ⟨by simp, by simp, Or.inr (Or.inl he)⟩⟩
      simp [hne, hp]
    · rw [if_neg (by unfold EAGAIN; omega), if_neg (by omega)]
      by_cases h0 : (msg.length : Int) - f msg = 0
      · rw [if_pos h0]
        refine ⟨[msg], [], ?_, ⟨by simp, ?_, Or.inl rfl⟩⟩
        · simp [hp]
        · intro m hm
          rw [List.mem_singleton.mp hm]
          exact ⟨hne, by omega⟩
      · rw [if_neg h0]
        by_cases h1 : (msg.length : Int) - f msg < 0
        · rw [if_pos h1]
          simp only [hp]
          refine ⟨[], msg, ?_, ⟨by simp, by simp, Or.inr (Or.inr (by omega))⟩⟩
          simp [hne, hp]
        · rw [if_neg h1, if_neg (by omega)]
          obtain ⟨k, hk⟩ : ∃ k : Nat, f msg = k := ⟨(f msg).toNat, by omega⟩
          rw [hk] at he h0 h1 ⊢
          have hdrop : (msg.drop k).length = msg.length - k := List.length_drop
          have hw : Whole f (msg.take k) := by
            have hlen : (msg.take k).length = k := by rw [List.length_take]; omega
            refine ⟨fun h => by rw [h] at hlen; simp at hlen; omega, ?_⟩
            rw [hlen]
            exact hf.own msg k hk (by omega)
          simp only [Int.toNat_natCast, ne_eq, reduceCtorEq, not_false_eq_true, if_true]
          obtain ⟨ms, rest, h2, h3⟩ := ih { st with log := st.log ++ [.msg (msg.take k)] } (msg.drop k) hp
            (fun h => by rw [h] at hdrop; simp at hdrop; omega) (by omega) (by omega)
          rw [h2]
          refine ⟨msg.take k :: ms, rest, by simp, ⟨?_, ?_, h3.part⟩⟩
          · rw [List.flatten_cons, List.append_assoc, h3.eq, List.take_append_drop]
          · intro m hm
            rcases List.mem_cons.mp hm with rfl | hm
            · exact hw
            · exact h3.whole m hm

/-! ### All reads -/

/-- C81: however the stream is cut into reads, the callback gets exactly the messages in it, each whole and in order, and
the rest is kept. -/
theorem run_spec {f : List Byte → Int} (hf : Good f) (size : Nat) (chunks : List (List Byte)) :
    ∀ st' , (∀ c ∈ chunks, c ≠ []) → run (some f) size ⟨none, []⟩ chunks = some st' →
      ∃ ms rest, st' = ⟨if rest = [] then none else some rest, ms.map .msg⟩ ∧ Framed f ms rest chunks.flatten := by
  suffices h : ∀ (chunks : List (List Byte)) (ms : List (List Byte)) (rest stream : List Byte) (st' : Rd),
      Framed f ms rest stream → (∀ c ∈ chunks, c ≠ []) →
      run (some f) size ⟨if rest = [] then none else some rest, ms.map .msg⟩ chunks = some st' →
      ∃ ms rest, st' = ⟨if rest = [] then none else some rest, ms.map .msg⟩ ∧ Framed f ms rest (stream ++ chunks.flatten) by
    intro st' hc hr
    exact h chunks [] [] [] st' ⟨rfl, by simp, Or.inl rfl⟩ hc (by simpa using hr)
  intro chunks
  induction chunks with
  | nil =>
    intro ms rest stream st' hfr _ hr
    simp only [run, Option.some.injEq] at hr
    exact ⟨ms, rest, hr.symm, by simpa using hfr⟩
  | cons c cs ih =>
    intro ms rest stream st' hfr hc hr
    unfold run at hr
    have hc0 := hc c (by simp)
    have hg : (if rest = [] then none else some rest : Option (List Byte)).getD [] = rest := by
      by_cases h : rest = [] <;> simp [h]
    unfold recv at hr
    dsimp only at hr
    rw [hg, if_neg hc0] at hr
    by_cases hs : rest.length + c.length > size
    · rw [if_pos hs] at hr
      cases hr
    · rw [if_neg hs] at hr
      obtain ⟨ms2, rest2, h1, h2⟩ := segLoop_spec hf size (rest.length + c.length + 1) ⟨none, ms.map .msg⟩ (rest ++ c) rfl
        (by simp [hc0]) (by simp) (by simp; omega)
      rw [h1, Option.bind_some] at hr
      have := ih (ms ++ ms2) rest2 (stream ++ c) st' ⟨?_, ?_, h2.part⟩ (fun x hx => hc x (by simp [hx]))
        (by simpa using hr)
      · simpa using this
      · rw [List.flatten_append, List.append_assoc, h2.eq, ← List.append_assoc, hfr.eq]
      · intro m hm
        rcases List.mem_append.mp hm with hm | hm
        · exact hfr.whole m hm
        · exact h2.whole m hm

/-- C81: the messages do not depend on how the stream is cut into reads. -/
theorem run_chunking {f : List Byte → Int} (hf : Good f) (size : Nat) (chunks chunks' : List (List Byte)) (st st' : Rd)
    (hc : ∀ c ∈ chunks, c ≠ []) (hc' : ∀ c ∈ chunks', c ≠ []) (he : chunks.flatten = chunks'.flatten)
    (h : run (some f) size ⟨none, []⟩ chunks = some st) (h' : run (some f) size ⟨none, []⟩ chunks' = some st') : st = st' := by
  obtain ⟨ms, rest, rfl, a⟩ := run_spec hf size chunks st hc h
  obtain ⟨ms', rest', rfl, b⟩ := run_spec hf size chunks' st' hc' h'
  rw [he] at a
  obtain ⟨rfl, rfl⟩ := framed_unique hf ms ms' rest rest' _ a b
  rfl

/-- C81: messages sent one after the other are what the callback gets, and nothing is left. -/
theorem run_messages {f : List Byte → Int} (hf : Good f) (size : Nat) (ms chunks : List (List Byte)) (st : Rd)
    (hm : ∀ m ∈ ms, Whole f m) (hc : ∀ c ∈ chunks, c ≠ []) (he : chunks.flatten = ms.flatten)
    (h : run (some f) size ⟨none, []⟩ chunks = some st) : st = ⟨none, ms.map .msg⟩ := by
  obtain ⟨ms', rest', rfl, b⟩ := run_spec hf size chunks st hc h
  obtain ⟨rfl, rfl⟩ := framed_unique hf ms ms' [] rest' chunks.flatten ⟨by rw [he]; simp, hm, Or.inl rfl⟩ b
  rfl

/-- C81: a read of no more bytes than there is room for is always processed. -/
theorem recv_defined {f : List Byte → Int} (hf : Good f) (size : Nat) (st : Rd) (c : List Byte)
    (hc : (st.pending.getD []).length + c.length ≤ size) : recv (some f) size st c ≠ none := by
  unfold recv
  dsimp only
  by_cases h0 : c = []
  · rw [if_pos h0]; simp
  · rw [if_neg h0, if_neg (by omega)]
    obtain ⟨ms2, rest2, h1, h2⟩ := segLoop_spec hf size ((st.pending.getD []).length + c.length + 1) ⟨none, st.log⟩
      ((st.pending.getD []) ++ c) rfl (by simp [h0]) (by simp) (by simp; omega)
    have e : ({ st with pending := none } : Rd) = ⟨none, st.log⟩ := rfl
    rw [e, h1]
    simp

/-- C81: if messages are not longer than a buffer, there is room for more after any reads. -/
theorem run_room {f : List Byte → Int} (hf : Good f) (size : Nat) (h0 : 0 < size) (hsz : ∀ d, f d ≤ size)
    (hlen : ∀ d, size ≤ d.length → f d ≠ -EAGAIN) (chunks : List (List Byte)) (hc : ∀ c ∈ chunks, c ≠ []) (st : Rd)
    (h : run (some f) size ⟨none, []⟩ chunks = some st) : (st.pending.getD []).length < size := by
  obtain ⟨ms, rest, rfl, a⟩ := run_spec hf size chunks st hc h
  have hg : (if rest = [] then none else some rest : Option (List Byte)).getD [] = rest := by
    by_cases h : rest = [] <;> simp [h]
  dsimp only
  rw [hg]
  rcases a.part with h | h | h
  · rw [h]; exact h0
  · apply Nat.lt_of_not_le
    intro hle
    exact hlen rest hle h
  · have := hsz rest
    omega

/-- C81: without a segmentation callback every read is a message. -/
theorem run_no_cb (size : Nat) (chunks : List (List Byte)) (hc : ∀ c ∈ chunks, c ≠ [] ∧ c.length ≤ size) (log : List Event) :
    run none size ⟨none, log⟩ chunks = some ⟨none, log ++ chunks.map .msg⟩ := by
  induction chunks generalizing log with
  | nil => simp [run]
  | cons c cs ih =>
    obtain ⟨h1, h2⟩ := hc c (by simp)
    unfold run recv segLoop handleSegmentation
    simp only [Option.getD_none, List.length_nil, Nat.zero_add, List.nil_append]
    rw [if_neg h1, if_neg (by omega)]
    simp only [ne_eq, reduceCtorEq, not_false_eq_true, if_true, if_false, not_true_eq_false, Option.bind_some]
    rw [ih (fun x hx => hc x (by simp [hx]))]
    simp

/-- C81: a message the callback refuses (an error other than -EAGAIN) is thrown away with all that was read, and reading goes
on. -/
theorem recv_error (f : List Byte → Int) (size : Nat) (st : Rd) (c : List Byte) (hc : c ≠ [])
    (hs : (st.pending.getD []).length + c.length ≤ size) (he : f (st.pending.getD [] ++ c) < 0)
    (he' : f (st.pending.getD [] ++ c) ≠ -EAGAIN) : recv (some f) size st c = some ⟨none, st.log⟩ := by
  unfold recv segLoop handleSegmentation
  dsimp only
  rw [if_neg hc, if_neg (by omega), if_neg he', if_pos he]
  simp

/-- C81: a callback that returns 0, which the documentation does not exclude, makes the loop endless. -/
theorem zero_counterexample (f : List Byte → Int) (size : Nat) (st : Rd) (msg : List Byte) (hm : msg ≠ []) (hs : msg.length ≤ size)
    (h0 : f msg = 0) : ∀ fuel, segLoop (some f) size fuel st msg = none := by
  intro fuel
  have hpos := List.length_pos_iff.mpr hm
  induction fuel generalizing st with
  | zero => rfl
  | succ fuel ih =>
    unfold segLoop handleSegmentation
    dsimp only
    rw [h0]
    unfold EAGAIN
    rw [if_neg (by omega), if_neg (by omega), if_neg (by omega), if_neg (by omega), if_neg (by omega)]
    simp [ih]

/-- C81: what was kept of a message is given to the callback with an error, such as -EAGAIN, and not kept for later reads. -/
theorem pending_lost_counterexample :
    let f : List Byte → Int := fun d => match d with | [] => -EAGAIN | n :: _ => n.toNat + 1
    run (some f) 10 ⟨none, []⟩ [[2, 7], [], [8]] = some ⟨some [8], [.err [2, 7]]⟩ := by decide +kernel

/-- A callback for messages with their length in the first byte. -/
def lenByte : List Byte → Int
  | [] => -EAGAIN
  | n :: _ => n.toNat + 1

theorem lenByte_good : Good lenByte where
  cases := by
    intro d
    cases d with
    | nil => exact Or.inl rfl
    | cons n d => right; simp only [lenByte]; omega
  stable := by
    intro d e h
    cases d with
    | nil => exact absurd h (by decide)
    | cons n d => rfl
  own := by
    intro d k hk hl
    cases d with
    | nil => simp only [lenByte, EAGAIN] at hk; omega
    | cons n d =>
      simp only [lenByte] at hk
      cases k with
      | zero => omega
      | succ k => simp only [List.take_succ_cons, lenByte]; exact hk

example : run (some lenByte) 10 ⟨none, []⟩ [[2, 7], [8, 1], [9, 0, 0, 3, 1]] =
    some ⟨some [3, 1], [.msg [2, 7, 8], .msg [1, 9], .msg [0], .msg [0]]⟩ := by decide +kernel

end Verif.OsmoIo
