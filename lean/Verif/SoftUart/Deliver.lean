import Verif.SoftUart.Rx
/-!
C42, receiving side: the messages passed to the application.
-/
namespace Verif.SoftUart

/-- A message with its flags read as characters with their errors: the flags
belong to the last character, the others had no error. -/
def tag (m : List Byte × Nat) : List (Byte × Nat) :=
  m.1.dropLast.map (fun ch => (ch, 0)) ++ (m.1.getLast?.map (fun ch => (ch, m.2))).toList

/-- The characters in the receive buffer. -/
def Uart.buffered (u : Uart) : List Byte := (u.msg.map Buf.chars).getD []

/-- All characters received so far, with their errors: those passed to the
application, then those in the buffer. -/
def Uart.received (u : Uart) : List (Byte × Nat) := u.log.flatMap tag ++ u.buffered.map (fun ch => (ch, 0))

/-- A frame read as a character with its errors. -/
def Frame.char (cfg : Cfg) (f : Frame) : Byte × Nat := (BitVec.ofNat 8 (value f.data), f.errors cfg.parity)

/-- The receiver is enabled, its buffer is large enough and not full, and there is
a call-back. -/
structure Uart.Live (u : Uart) : Prop where
  ok : u.cfg.Ok
  running : u.running = true
  cb : u.cfg.cb = true
  size : 0 < u.cfg.bufSize
  size_lt : u.cfg.bufSize < 65536
  buf : ∃ m, u.msg = some m ∧ u.cfg.bufSize ≤ m.cap ∧ m.chars.length < u.cfg.bufSize

theorem tag_snoc (cs : List Byte) (ch : Byte) (f : Nat) :
    tag (cs ++ [ch], f) = cs.map (fun ch => (ch, 0)) ++ [(ch, f)] := by
  simp [tag]

theorem tag_zero (cs : List Byte) : tag (cs, 0) = cs.map (fun ch => (ch, 0)) := by
  rcases List.eq_nil_or_concat cs with rfl | ⟨cs, c, rfl⟩
  · rfl
  · rw [List.concat_eq_append, tag_snoc]; simp

theorem flushRx_live {u : Uart} (h : u.Live) (hf : u.core.flags = 0) :
    (flushRx u).Live ∧ (flushRx u).received = u.received ∧ (flushRx u).core = u.core ∧
      (flushRx u).cfg = u.cfg ∧ (flushRx u).buffered = [] := by
  obtain ⟨m, hm, hcap, hlen⟩ := h.buf
  by_cases h0 : m.chars = []
  · have : flushRx u = u := by simp [flushRx, hm, h0]
    rw [this]
    exact ⟨h, rfl, rfl, rfl, by simp [Uart.buffered, hm, h0]⟩
  · have : flushRx u =
        { u with timer := false, log := u.log ++ [(m.chars, u.core.flags)], msg := some (allocBuf u.cfg.bufSize) } := by
      simp [flushRx, hm, h0, h.cb]
    rw [this]
    refine ⟨⟨h.ok, h.running, h.cb, h.size, h.size_lt, _, rfl, ?_, ?_⟩, ?_, rfl, rfl, rfl⟩
    · show u.cfg.bufSize ≤ u.cfg.bufSize % 65536
      rw [Nat.mod_eq_of_lt h.size_lt]
    · exact h.size
    · simp [Uart.received, Uart.buffered, hm, allocBuf, hf, tag_zero]

theorem rxCh_live {u : Uart} (h : u.Live) (ch : Byte) :
    ∃ u', rxCh u ch = some u' ∧ u'.Live ∧ u'.received = u.received ++ [(ch, u.core.flags)] ∧ u'.core = u.core ∧
      u'.cfg = u.cfg := by
  obtain ⟨m, hm, hcap, hlen⟩ := h.buf
  have hroom : ¬ m.cap < m.chars.length + 1 := by omega
  by_cases hfull : u.cfg.bufSize ≤ m.chars.length + 1 ∨ u.core.flags ≠ 0
  · refine ⟨{ u with timer := false, log := u.log ++ [(m.chars ++ [ch], u.core.flags)],
                     msg := some (allocBuf u.cfg.bufSize) }, ?_, ?_, ?_, rfl, rfl⟩
    · simp only [rxCh, hm, if_neg hroom, if_pos hfull]
      simp [flushRx, h.cb]
    · refine ⟨h.ok, h.running, h.cb, h.size, h.size_lt, _, rfl, ?_, h.size⟩
      show u.cfg.bufSize ≤ u.cfg.bufSize % 65536
      rw [Nat.mod_eq_of_lt h.size_lt]
    · simp [Uart.received, Uart.buffered, hm, allocBuf, tag_snoc]
  · have hfl : u.core.flags = 0 := by
      by_contra h0; exact hfull (Or.inr h0)
    have hlt : ¬ u.cfg.bufSize ≤ m.chars.length + 1 := fun h0 => hfull (Or.inl h0)
    refine ⟨{ u with msg := some { m with chars := m.chars ++ [ch] },
                     timer := if m.chars.length + 1 = 1 then true else u.timer }, ?_, ?_, ?_, rfl, rfl⟩
    · simp only [rxCh, hm, if_neg hroom, if_neg hfull]
      split <;> rfl
    · exact ⟨h.ok, h.running, h.cb, h.size, h.size_lt, _, rfl, hcap, by simp; omega⟩
    · simp [Uart.received, Uart.buffered, hm, hfl]

theorem Live.setCore {u : Uart} (h : u.Live) (c : Core) : Uart.Live { u with core := c } :=
  ⟨h.ok, h.running, h.cb, h.size, h.size_lt, h.buf⟩

theorem rxBit_expect {u : Uart} (h : u.Live) {fs b bs} (he : Expect u.cfg u.core fs (b :: bs)) :
    ∃ u' fs1 fs2, rxBit u b = some u' ∧ u'.Live ∧ u'.cfg = u.cfg ∧ fs = fs1 ++ fs2 ∧
      u'.received = u.received ++ fs1.map (Frame.char u.cfg) ∧ Expect u.cfg u'.core fs2 bs ∧
      (u'.core.flow = .idle → u'.core.flags = u.core.flags ∨ ∃ f ∈ fs, u'.core.flags = f.errors u.cfg.parity) := by
  obtain ⟨c', ⟨hb, he'⟩ | ⟨ch, f, fs', hb, rfl, hch, hfl, he'⟩⟩ := coreBit_expect h.ok he
  · refine ⟨{ u with core := c' }, [], fs, by simp [rxBit, hb], Live.setCore h c', rfl, rfl, ?_, he', ?_⟩
    · simp [Uart.received, Uart.buffered]
    · intro hidle
      left
      show c'.flags = u.core.flags
      simp only [coreBit] at hb
      split at hb
      · split at hb
        · simp only [Option.some.injEq, Prod.mk.injEq, and_true] at hb; rw [← hb] at hidle; cases hidle
        · simp only [Option.some.injEq, Prod.mk.injEq, and_true] at hb; rw [← hb]
      · split at hb
        · simp only [Option.some.injEq, Prod.mk.injEq, and_true] at hb; rw [← hb]
        · simp only [Option.some.injEq, Prod.mk.injEq, and_true] at hb; rw [← hb]
      · split at hb <;> first
          | cases hb; done
          | (simp only [Option.some.injEq, Prod.mk.injEq, and_true] at hb; rw [← hb] at hidle; cases hidle)
      · rename_i hst
        split at hb
        · cases hb
        · simp only [Option.some.injEq, Prod.mk.injEq, and_true] at hb
          rw [← hb] at hidle
          simp [hst] at hidle
  · obtain ⟨u', hr, hl', hrec, hcore, hcfg⟩ := rxCh_live (Live.setCore h c') ch
    refine ⟨{ u' with core := { u'.core with flow := .idle } }, [f], fs', by simp [rxBit, hb, hr],
      Live.setCore hl' _, hcfg, rfl, ?_, ?_, ?_⟩
    · show u'.received = _
      rw [hrec]
      show u.received ++ [(ch, c'.flags)] = _
      rw [hfl]
      have : ch = BitVec.ofNat 8 (value f.data) := by
        rw [← hch]; simp
      simp [Frame.char, this]
    · rw [hcore]; exact he'
    · intro _
      refine Or.inr ⟨f, List.mem_cons_self, ?_⟩
      show u'.core.flags = _
      rw [hcore]; exact hfl

theorem rxBits_expect {u : Uart} (h : u.Live) (bs : List Bool) {fs rest}
    (he : Expect u.cfg u.core fs (bs ++ rest)) :
    ∃ u' fs1 fs2, rxBits u bs = some u' ∧ u'.Live ∧ u'.cfg = u.cfg ∧ fs = fs1 ++ fs2 ∧
      u'.received = u.received ++ fs1.map (Frame.char u.cfg) ∧ Expect u.cfg u'.core fs2 rest := by
  induction bs generalizing u fs with
  | nil => exact ⟨u, [], fs, rfl, h, rfl, rfl, by simp, he⟩
  | cons b bs ih =>
    obtain ⟨u1, f1, f2, hb, hl, hcfg, rfl, hrec, he1, _⟩ := rxBit_expect h he
    rw [← hcfg] at he1
    obtain ⟨u2, g1, g2, hb2, hl2, hcfg2, rfl, hrec2, he2⟩ := ih hl he1
    refine ⟨u2, f1 ++ g1, g2, by simp [rxBits, hb, hb2], hl2, hcfg2.trans hcfg, by simp, ?_, hcfg ▸ he2⟩
    rw [hrec2, hrec, hcfg]; simp

theorem Expect.nil_done {cfg : Cfg} (hok : cfg.Ok) {c fs} (h : Expect cfg c fs []) : c.flow = .idle ∧ fs = [] := by
  generalize hbs : ([] : List Bool) = l at h
  cases h with
  | idle hf hl =>
    cases hl with
    | nil => exact ⟨hf, rfl⟩
    | idle _ => cases hbs
    | frame _ _ => simp [Frame.bits] at hbs
  | data _ _ _ hne =>
    have := congrArg List.length hbs
    simp at this
    exact absurd (List.eq_nil_of_length_eq_zero (by omega)) hne
  | @parity _ _ f hf hfit =>
    have := congrArg List.length hbs
    have h2 := hfit.stop
    have h3 := hok.stop_pos
    simp at this
    omega
  | stop _ _ _ hne =>
    have := congrArg List.length hbs
    simp at this
    exact absurd (List.eq_nil_of_length_eq_zero (by omega)) hne

/-- Every line of frames, right or wrong, is received as its characters, in
order: the data bits as a number, parity and framing errors exactly for the
frames that have them.  The flags passed with a message are those of its last
character; the characters before it had no error. -/
theorem rx_line {u : Uart} (h : u.Live) (hidle : u.core.flow = .idle) {fs : List Frame} {bits : List Bool}
    (hline : Line u.cfg fs bits) :
    ∃ u', rxUbits u bits = some (0, u') ∧ u'.Live ∧ u'.cfg = u.cfg ∧ u'.core.flow = .idle ∧
      u'.received = u.received ++ fs.map (Frame.char u.cfg) := by
  obtain ⟨u', f1, f2, hb, hl, hcfg, rfl, hrec, he⟩ := rxBits_expect h bits (rest := [])
    (by rw [List.append_nil]; exact Expect.idle hidle hline)
  obtain ⟨hi, rfl⟩ := he.nil_done h.ok
  exact ⟨u', by simp [rxUbits, h.running, hb], hl, hcfg, hi, by simpa using hrec⟩

/-- 7 data bits, even parity: 'A' arrives, then a character with a wrong parity
bit and a bad stop bit; the buffer of four is passed on at the error. -/
example :
    let cfg : Cfg := { nData := 7, nStop := 2, parity := .even, bufSize := 4, timeout := 100, cb := true }
    let u := setRx (configure (alloc cfg) cfg).2 true
    (rxUbits u [true, false, true, false, false, false, false, false, true, false, true, true,
      false, true, true, false, false, false, false, true, false, false, true]).map
      (fun r => (r.1, r.2.log, r.2.received)) = some (0, [([65, 67], 3)], [(65, 0), (67, 3)]) := by
  decide +kernel

/-! ### With timer expiries and flushes in between -/

/-- The bits fed by a sequence of operations. -/
def bitsOf : List Op → List Bool
  | [] => []
  | .rx bits :: ops => bits ++ bitsOf ops
  | _ :: ops => bitsOf ops

/-- No change of the configuration, receiver not switched off. -/
def Op.passive : Op → Bool
  | .configure _ => false
  | .setRx _ => false
  | .rx _ => true
  | .timer => true
  | .flush => true

theorem Expect.clean {cfg : Cfg} {c fs bs} (h : Expect cfg c fs bs) (hc : ∀ f ∈ fs, f.errors cfg.parity = 0)
    (h0 : c.flow = .idle → c.flags = 0) : c.flags = 0 := by
  cases h with
  | idle hf _ => exact h0 hf
  | data _ _ _ _ _ _ _ hfl _ => exact hfl
  | parity _ _ _ _ _ _ hfl _ => exact hfl
  | @stop fs' bs' f seen todo _ _ hd _ _ _ hfl _ =>
    have := hc f List.mem_cons_self
    rw [Frame.errors, hd] at this
    rw [hfl]
    have h1 : (if f.par = (parityFor cfg.parity f.data).toList then 0 else 2) = 0 := by omega
    have h2 : (if false ∈ seen ++ todo then 1 else 0) = 0 := by omega
    have h3 : false ∉ seen := by
      intro hin; rw [if_pos (List.mem_append_left _ hin)] at h2; cases h2
    rw [h1, if_neg h3]

theorem rxBits_clean {u : Uart} (h : u.Live) (bs : List Bool) {fs rest}
    (he : Expect u.cfg u.core fs (bs ++ rest)) (hc : ∀ f ∈ fs, f.errors u.cfg.parity = 0)
    (h0 : u.core.flags = 0) :
    ∃ u' fs1 fs2, rxBits u bs = some u' ∧ u'.Live ∧ u'.cfg = u.cfg ∧ fs = fs1 ++ fs2 ∧
      u'.received = u.received ++ fs1.map (Frame.char u.cfg) ∧ Expect u.cfg u'.core fs2 rest ∧ u'.core.flags = 0 := by
  induction bs generalizing u fs with
  | nil => exact ⟨u, [], fs, rfl, h, rfl, rfl, by simp, he, h0⟩
  | cons b bs ih =>
    obtain ⟨u1, f1, f2, hb, hl, hcfg, rfl, hrec, he1, hid⟩ := rxBit_expect h he
    have hc2 : ∀ f ∈ f2, f.errors u.cfg.parity = 0 := fun f hf => hc f (List.mem_append_right _ hf)
    have hfl1 : u1.core.flags = 0 := by
      refine he1.clean hc2 (fun hi => ?_)
      rcases hid hi with h | ⟨f, hf, h⟩
      · rw [h, h0]
      · rw [h]; exact hc f hf
    rw [← hcfg] at he1 hc2
    obtain ⟨u2, g1, g2, hb2, hl2, hcfg2, rfl, hrec2, he2, hfl2⟩ := ih hl he1 hc2 hfl1
    refine ⟨u2, f1 ++ g1, g2, by simp [rxBits, hb, hb2], hl2, hcfg2.trans hcfg, by simp, ?_, hcfg ▸ he2, hfl2⟩
    rw [hrec2, hrec, hcfg]; simp

theorem run_clean {u : Uart} (h : u.Live) (ops : List Op) (hp : ∀ o ∈ ops, o.passive) {fs rest}
    (he : Expect u.cfg u.core fs (bitsOf ops ++ rest)) (hc : ∀ f ∈ fs, f.errors u.cfg.parity = 0)
    (h0 : u.core.flags = 0) :
    ∃ u' fs1 fs2, run u ops = some u' ∧ u'.Live ∧ u'.cfg = u.cfg ∧ fs = fs1 ++ fs2 ∧
      u'.received = u.received ++ fs1.map (Frame.char u.cfg) ∧ Expect u.cfg u'.core fs2 rest ∧
      u'.core.flags = 0 := by
  induction ops generalizing u fs with
  | nil => exact ⟨u, [], fs, rfl, h, rfl, rfl, by simp, he, h0⟩
  | cons o ops ih =>
    have hp' : ∀ o ∈ ops, o.passive := fun o ho => hp o (List.mem_cons_of_mem _ ho)
    have key : ∀ u1 : Uart, u1.Live → u1.received = u.received → u1.core = u.core → u1.cfg = u.cfg →
        step u o = some u1 → bitsOf (o :: ops) = bitsOf ops →
        ∃ u' fs1 fs2, run u (o :: ops) = some u' ∧ u'.Live ∧ u'.cfg = u.cfg ∧ fs = fs1 ++ fs2 ∧
          u'.received = u.received ++ fs1.map (Frame.char u.cfg) ∧ Expect u.cfg u'.core fs2 rest ∧
          u'.core.flags = 0 := by
      intro u1 hl1 hrec1 hcore1 hcfg1 hstep hbits
      rw [hbits, ← hcfg1, ← hcore1] at he
      rw [← hcore1] at h0
      rw [← hcfg1] at hc
      obtain ⟨u2, g1, g2, hb2, hl2, hcfg2, hfs, hrec2, he2, hf2⟩ := ih hl1 hp' he hc h0
      exact ⟨u2, g1, g2, by simp [run, hstep, hb2], hl2, hcfg2.trans hcfg1, hfs, by rw [hrec2, hrec1, hcfg1],
        hcfg1 ▸ he2, hf2⟩
    cases o with
    | configure _ => exact absurd (hp _ List.mem_cons_self) (by simp [Op.passive])
    | setRx _ => exact absurd (hp _ List.mem_cons_self) (by simp [Op.passive])
    | flush =>
      obtain ⟨hl1, hrec1, hcore1, hcfg1, _⟩ := flushRx_live h h0
      exact key (flushRx u) hl1 hrec1 hcore1 hcfg1 rfl rfl
    | timer =>
      have hl : Uart.Live { u with timer := false } := ⟨h.ok, h.running, h.cb, h.size, h.size_lt, h.buf⟩
      by_cases ht : u.timer
      · by_cases htc : u.timerCb
        · obtain ⟨hl1, hrec1, hcore1, hcfg1, _⟩ := flushRx_live hl h0
          exact key _ hl1 hrec1 hcore1 hcfg1 (by simp [step, timerExpiry, ht, htc]) rfl
        · exact key { u with timer := false } hl rfl rfl rfl (by simp [step, timerExpiry, ht, htc]) rfl
      · exact key u h rfl rfl rfl (by simp [step, timerExpiry, ht]) rfl
    | rx bits =>
      rw [show bitsOf (Op.rx bits :: ops) = bits ++ bitsOf ops from rfl, List.append_assoc] at he
      obtain ⟨u1, f1, f2, hb1, hl1, hcfg1, rfl, hrec1, he1, hfl1⟩ := rxBits_clean h bits he hc h0
      have hc2 : ∀ f ∈ f2, f.errors u.cfg.parity = 0 := fun f hf => hc f (List.mem_append_right _ hf)
      rw [← hcfg1] at he1 hc2
      obtain ⟨u2, g1, g2, hb2, hl2, hcfg2, rfl, hrec2, he2, hf2⟩ := ih hl1 hp' he1 hc2 hfl1
      refine ⟨u2, f1 ++ g1, g2, ?_, hl2, hcfg2.trans hcfg1, by simp, ?_, hcfg1 ▸ he2, hf2⟩
      · simp [run, step, rxUbits, h.running, hb1, hb2]
      · rw [hrec2, hrec1, hcfg1]; simp

/-- A line of frames without error is received without error whenever the
timer expires and whenever the buffer is flushed. -/
theorem rx_clean_ops {u : Uart} (h : u.Live) (hidle : u.core.flow = .idle) (h0 : u.core.flags = 0)
    (ops : List Op) (hp : ∀ o ∈ ops, o.passive) {fs : List Frame} (hline : Line u.cfg fs (bitsOf ops))
    (hc : ∀ f ∈ fs, f.errors u.cfg.parity = 0) :
    ∃ u', run u ops = some u' ∧ u'.Live ∧ u'.core.flow = .idle ∧
      u'.received = u.received ++ fs.map (fun f => (BitVec.ofNat 8 (value f.data), 0)) := by
  obtain ⟨u', f1, f2, hb, hl, hcfg, rfl, hrec, he, _⟩ := run_clean h ops hp (rest := [])
    (by rw [List.append_nil]; exact Expect.idle hidle hline) hc h0
  obtain ⟨hi, rfl⟩ := he.nil_done h.ok
  refine ⟨u', hb, hl, hi, ?_⟩
  rw [hrec, List.append_nil]
  congr 1
  refine List.map_congr_left (fun f hf => ?_)
  rw [Frame.char, hc f (List.mem_append_left _ hf)]

/-- False with errors: if the timer expires after the parity bit of a wrong
frame, the characters before it, which were right, are reported with a parity
error. -/
theorem rx_timer_flags_counterexample :
    ∃ (cfg : Cfg) (ops : List Op) (u' : Uart), cfg.Ok ∧ cfg.cb = true ∧
      run (setRx (configure (alloc cfg) cfg).2 true) ops = some u' ∧
      bitsOf ops = Frame.bits ⟨[true], [true], [true]⟩ ++ Frame.bits ⟨[true], [false], [true]⟩ ∧
      Frame.errors cfg.parity ⟨[true], [true], [true]⟩ = 0 ∧
      Frame.errors cfg.parity ⟨[true], [false], [true]⟩ = 2 ∧
      u'.log = [([1], 2), ([1], 2)] :=
  ⟨{ nData := 1, nStop := 1, parity := .even, bufSize := 4, timeout := 100, cb := true },
   [.rx [false, true, true, true, false, true, false], .timer, .rx [true]],
   _, ⟨by decide, by decide, by decide, by decide, by decide⟩, rfl, rfl, rfl, by decide, by decide, by decide⟩

end Verif.SoftUart
