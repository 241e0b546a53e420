import Verif.SoftUart.Tx
/-!
C43: the receive buffer over all histories of operations.  C68: characters do
not stay in the receive buffer for longer than the timeout.
-/
namespace Verif.SoftUart

/-- A history in which every accepted configuration has a receive buffer size
that fits into 16 bits and is not larger than the one in force, if a buffer
exists already, and parity is not switched off while a parity bit is awaited. -/
def Mild (u : Uart) : List Op → Prop
  | [] => True
  | o :: os =>
    (match o with
     | .configure cfg =>
       cfg.bufSize < 65536 ∧ (u.msg ≠ none → cfg.bufSize ≤ u.cfg.bufSize) ∧
         (u.core.flow = .parity → cfg.parity ≠ .none)
     | _ => True) ∧ ∀ u', step u o = some u' → Mild u' os

structure BufInv (u : Uart) : Prop where
  par : u.cfg.parity ≠ .bad
  pos : 0 < u.cfg.bufSize
  lt : u.cfg.bufSize < 65536
  live : u.running = true → u.msg ≠ none
  room : ∀ m, u.msg = some m → u.cfg.bufSize ≤ m.cap ∧ m.chars.length < u.cfg.bufSize
  mode : u.core.flow = .parity → u.cfg.parity ≠ .none

theorem flushRx_frame (u : Uart) : (flushRx u).cfg = u.cfg ∧ (flushRx u).core = u.core ∧
    (flushRx u).running = u.running ∧ (flushRx u).timerCb = u.timerCb ∧
    ((flushRx u).msg = none ↔ u.msg = none) ∧
    (∀ m, (flushRx u).msg = some m → m.chars = [] ∧
      (u.msg = some m ∨ m.cap = u.cfg.bufSize % 65536 ∨ ∃ m0, u.msg = some m0 ∧ m.cap = m0.cap)) := by
  unfold flushRx
  cases hm : u.msg with
  | none => simp [hm]
  | some m0 =>
    by_cases h0 : m0.chars = []
    · simp [hm, h0]
    · by_cases hc : u.cfg.cb
      · simp [h0, hc, allocBuf]
      · simp [h0, hc]

theorem flushRx_inv {u : Uart} (h : BufInv u) : BufInv (flushRx u) := by
  obtain ⟨hc, hco, hr, _, hn, hm⟩ := flushRx_frame u
  refine ⟨by rw [hc]; exact h.par, by rw [hc]; exact h.pos, by rw [hc]; exact h.lt, ?_, ?_, ?_⟩
  · intro h1 h2; exact h.live (hr ▸ h1) (hn.mp h2)
  · intro m hmm
    obtain ⟨he, hcap⟩ := hm m hmm
    rw [hc, he]
    refine ⟨?_, h.pos⟩
    rcases hcap with h1 | h1 | ⟨m0, h1, h2⟩
    · exact (h.room m h1).1
    · rw [h1, Nat.mod_eq_of_lt h.lt]
    · rw [h2]; exact (h.room m0 h1).1
  · rw [hc, hco]; exact h.mode

theorem rxCh_inv {u : Uart} (h : BufInv u) (hr : u.running = true) (ch : Byte) :
    ∃ u', rxCh u ch = some u' ∧ BufInv { u' with core := { u'.core with flow := .idle } } ∧ u'.running = true := by
  cases hm : u.msg with
  | none => exact absurd hm (h.live hr)
  | some m =>
    obtain ⟨hcap, hlen⟩ := h.room m hm
    have hroom : ¬ m.cap < m.chars.length + 1 := by omega
    have hidle : ∀ v : Uart, BufInv v → BufInv { v with core := { v.core with flow := .idle } } :=
      fun v hv => ⟨hv.par, hv.pos, hv.lt, hv.live, hv.room, fun h => by cases h⟩
    by_cases hfull : u.cfg.bufSize ≤ m.chars.length + 1 ∨ u.core.flags ≠ 0
    · refine ⟨flushRx { u with msg := some { m with chars := m.chars ++ [ch] } },
        by simp only [rxCh, hm, if_neg hroom, if_pos hfull], ?_, ?_⟩
      · -- the flushed buffer is empty
        obtain ⟨hc, hco, hrr, _, hn, hmm⟩ := flushRx_frame { u with msg := some { m with chars := m.chars ++ [ch] } }
        apply hidle
        refine ⟨by rw [hc]; exact h.par, by rw [hc]; exact h.pos, by rw [hc]; exact h.lt, ?_, ?_, ?_⟩
        · intro _ h2; have := hn.mp h2; cases this
        · intro m' hm'
          obtain ⟨he, hcap'⟩ := hmm m' hm'
          rw [hc, he]
          refine ⟨?_, h.pos⟩
          rcases hcap' with h1 | h1 | ⟨m0, h1, h2⟩
          · cases h1; exact hcap
          · rw [h1]; exact le_of_eq (Nat.mod_eq_of_lt h.lt).symm
          · cases h1; rw [h2]; exact hcap
        · rw [hc, hco]; exact h.mode
      · have := (flushRx_frame { u with msg := some { m with chars := m.chars ++ [ch] } }).2.2.1
        rw [this]; exact hr
    · have hlt : m.chars.length + 1 < u.cfg.bufSize := by
        by_contra h0; exact hfull (Or.inl (by omega))
      have hv : ∀ b, BufInv { u with msg := some { m with chars := m.chars ++ [ch] }, timer := b } := by
        intro b
        refine ⟨h.par, h.pos, h.lt, fun _ h2 => (by cases h2), ?_, h.mode⟩
        intro m' hm'; cases hm'
        exact ⟨hcap, by simpa using hlt⟩
      refine ⟨{ u with msg := some { m with chars := m.chars ++ [ch] },
                       timer := if m.chars.length + 1 = 1 then true else u.timer }, ?_, hidle _ (hv _), hr⟩
      simp only [rxCh, hm, if_neg hroom, if_neg hfull]
      split <;> rfl

theorem coreBit_total {cfg : Cfg} {c : Core} (hp : cfg.parity ≠ .bad) (hm : c.flow = .parity → cfg.parity ≠ .none)
    (b : Bool) : ∃ c' o, coreBit cfg c b = some (c', o) ∧ (c'.flow = .parity → cfg.parity ≠ .none) := by
  unfold coreBit
  cases hf : c.flow with
  | idle => dsimp only; split <;> exact ⟨_, _, rfl, by simp [hf]⟩
  | data =>
    dsimp only
    split
    · refine ⟨_, _, rfl, ?_⟩
      intro h; by_contra h0; simp [h0] at h
    · exact ⟨_, _, rfl, by simp [hf]⟩
  | parity =>
    have := hm hf
    cases hpm : cfg.parity <;> simp [hpm] at this hp ⊢
  | stop => dsimp only; split <;> exact ⟨_, _, rfl, by simp [hf]⟩

theorem rxBit_inv {u : Uart} (h : BufInv u) (hr : u.running = true) (b : Bool) :
    ∃ u', rxBit u b = some u' ∧ BufInv u' ∧ u'.running = true := by
  obtain ⟨c', o, hb, hmode⟩ := coreBit_total h.par h.mode b
  have hv : BufInv { u with core := c' } := ⟨h.par, h.pos, h.lt, h.live, h.room, hmode⟩
  cases o with
  | none => exact ⟨_, by simp only [rxBit, hb], hv, hr⟩
  | some ch =>
    obtain ⟨u', hu, hi, hr'⟩ := rxCh_inv hv hr ch
    exact ⟨_, by simp only [rxBit, hb, hu], hi, hr'⟩

theorem rxBits_inv {u : Uart} (h : BufInv u) (hr : u.running = true) (bs : List Bool) :
    ∃ u', rxBits u bs = some u' ∧ BufInv u' := by
  induction bs generalizing u with
  | nil => exact ⟨u, rfl, h⟩
  | cons b bs ih =>
    obtain ⟨u1, h1, hi, hr1⟩ := rxBit_inv h hr b
    obtain ⟨u2, h2, hi2⟩ := ih hi hr1
    exact ⟨u2, by simp only [rxBits, h1, h2], hi2⟩

theorem step_inv {u : Uart} (h : BufInv u) (o : Op) (os : List Op) (hmild : Mild u (o :: os)) :
    ∃ u', step u o = some u' ∧ BufInv u' ∧ Mild u' os := by
  suffices hs : ∃ u', step u o = some u' ∧ BufInv u' by
    obtain ⟨u', h1, h2⟩ := hs
    exact ⟨u', h1, h2, hmild.2 u' h1⟩
  cases o with
  | configure cfg =>
    obtain ⟨hsz, hgrow, hpm⟩ := hmild.1
    refine ⟨_, rfl, ?_⟩
    unfold configure
    by_cases h1 : cfg.nData > 8 ∨ cfg.nData = 0
    · rw [if_pos h1]; exact h
    rw [if_neg h1]
    by_cases h2 : cfg.nStop = 0
    · rw [if_pos h2]; exact h
    rw [if_neg h2]
    by_cases h3 : cfg.parity = .bad
    · rw [if_pos h3]; exact h
    rw [if_neg h3]
    by_cases h4 : cfg.bufSize = 0
    · rw [if_pos h4]; exact h
    rw [if_neg h4]
    dsimp only
    by_cases h5 : u.cfg.bufSize > cfg.bufSize ∨ u.cfg.timeout > cfg.timeout
    · rw [if_pos h5]
      obtain ⟨hc, hco, hr, _, hn, hm⟩ := flushRx_frame u
      refine ⟨h3, Nat.pos_of_ne_zero h4, hsz, ?_, ?_, ?_⟩
      · intro h6 h7; exact h.live (hr ▸ h6) (hn.mp h7)
      · intro m hmm
        obtain ⟨he, hcap⟩ := hm m hmm
        rw [he]
        have hg : cfg.bufSize ≤ u.cfg.bufSize := by
          apply hgrow; intro h0
          have h9 := hn.mpr h0
          rw [show (flushRx u).msg = some m from hmm] at h9
          cases h9
        refine ⟨le_trans hg ?_, Nat.pos_of_ne_zero h4⟩
        rcases hcap with h6 | h6 | ⟨m0, h6, h7⟩
        · exact (h.room m h6).1
        · rw [h6, Nat.mod_eq_of_lt h.lt]
        · rw [h7]; exact (h.room m0 h6).1
      · intro h6; exact hpm (hco ▸ h6)
    · rw [if_neg h5]
      refine ⟨h3, Nat.pos_of_ne_zero h4, hsz, h.live, ?_, hpm⟩
      intro m hmm
      have hg := hgrow (by intro h0; rw [show u.msg = some m from hmm] at h0; cases h0)
      have : cfg.bufSize = u.cfg.bufSize := by
        have : ¬ u.cfg.bufSize > cfg.bufSize := fun h0 => h5 (Or.inl h0)
        omega
      show cfg.bufSize ≤ m.cap ∧ m.chars.length < cfg.bufSize
      rw [this]; exact h.room m hmm
  | setRx e =>
    refine ⟨_, rfl, ?_⟩
    unfold setRx
    split
    · have hf := flushRx_inv h
      exact ⟨hf.par, hf.pos, hf.lt, fun h0 => (by cases h0), hf.room, fun h0 => (by cases h0)⟩
    · split
      · cases hm : u.msg with
        | none =>
          refine ⟨h.par, h.pos, h.lt, fun _ h0 => (by cases h0), ?_, fun h0 => (by cases h0)⟩
          intro m hmm; cases hmm
          refine ⟨?_, h.pos⟩
          exact le_of_eq (Nat.mod_eq_of_lt h.lt).symm
        | some m0 =>
          refine ⟨h.par, h.pos, h.lt, fun _ h0 => ?_, h.room, fun h0 => (by cases h0)⟩
          rw [show u.msg = none from h0] at hm; cases hm
      · exact h
  | rx bits =>
    by_cases hr : u.running = true
    · obtain ⟨u', h1, h2⟩ := rxBits_inv h hr bits
      exact ⟨u', by simp [step, rxUbits, hr, h1], h2⟩
    · exact ⟨u, by simp [step, rxUbits, hr], h⟩
  | timer =>
    refine ⟨_, rfl, ?_⟩
    have hv : BufInv { u with timer := false } := ⟨h.par, h.pos, h.lt, h.live, h.room, h.mode⟩
    unfold timerExpiry
    split
    · exact h
    · split
      · exact flushRx_inv hv
      · exact hv
  | flush => exact ⟨_, rfl, flushRx_inv h⟩

theorem run_inv {u : Uart} (h : BufInv u) (ops : List Op) (hm : Mild u ops) :
    ∃ u', run u ops = some u' ∧ BufInv u' := by
  induction ops generalizing u with
  | nil => exact ⟨u, rfl, h⟩
  | cons o ops ih =>
    obtain ⟨u1, h1, hi, hm1⟩ := step_inv h o ops hm
    obtain ⟨u2, h2, hi2⟩ := ih hi hm1
    exact ⟨u2, by simp [run, h1, h2], hi2⟩

/-- Over every mild history the receiver never aborts, the buffer holds no more
characters than it was allocated for, and fewer than configured.

Missing for C43: histories that raise `rx_buf_size` while a buffer exists, sizes
of 65536 and more, and parity switched off in front of a parity bit; see the
counterexamples. -/
theorem rx_no_overflow_partial (cfg : Cfg) (hp : cfg.parity ≠ .bad) (h0 : 0 < cfg.bufSize) (h1 : cfg.bufSize < 65536)
    (ops : List Op) (hm : Mild (alloc cfg) ops) :
    ∃ u', run (alloc cfg) ops = some u' ∧
      ∀ m, u'.msg = some m → m.chars.length ≤ m.cap ∧ m.chars.length < u'.cfg.bufSize := by
  have hi : BufInv (alloc cfg) :=
    ⟨hp, h0, h1, fun h => (by cases h), fun m hm => (by cases hm), fun h => (by cases h)⟩
  obtain ⟨u', hr, hi'⟩ := run_inv hi ops hm
  refine ⟨u', hr, fun m hmm => ?_⟩
  have := hi'.room m hmm
  exact ⟨by omega, this.2⟩

/-- A buffer of three; two characters; reduced to two, which passes the two on;
then two more. -/
example :
    let cfg : Cfg := { nData := 1, nStop := 1, parity := .none, bufSize := 3, timeout := 100, cb := true }
    let ops : List Op := [.setRx true, .rx [false, true, true, false, false, true],
      .configure { cfg with bufSize := 2 }, .rx [false, true, true, false, true, true, false, true, true], .timer]
    (run (alloc cfg) ops).map Uart.log = some [([1, 0], 0), ([1, 1], 0), ([1], 0)] := by
  decide +kernel

/-- False if `rx_buf_size` is raised: the buffer keeps its size and the third
character does not fit (`msgb_put` aborts). -/
theorem rx_overflow_counterexample :
    ∃ (cfg : Cfg) (cfg' : Cfg) (bits : List Bool), cfg.Ok ∧ cfg'.Ok ∧ cfg.bufSize < cfg'.bufSize ∧
      cfg'.bufSize < 65536 ∧ run (alloc cfg) [.configure cfg, .setRx true, .configure cfg', .rx bits] = none :=
  ⟨{ nData := 1, nStop := 1, parity := .none, bufSize := 2, timeout := 100, cb := true },
   { nData := 1, nStop := 1, parity := .none, bufSize := 8, timeout := 100, cb := true },
   [false, true, true, false, false, true, false, true, true],
   ⟨by decide, by decide, by decide, by decide, by decide⟩,
   ⟨by decide, by decide, by decide, by decide, by decide⟩, by decide, by decide, by decide +kernel⟩

/-- False for sizes that do not fit into 16 bits: the size 65536 is accepted, but
the buffer has no room at all. -/
theorem rx_large_buffer_counterexample :
    ∃ (cfg : Cfg) (bits : List Bool), cfg.Ok ∧ cfg.bufSize < 2 ^ 32 ∧ (configure (alloc cfg) cfg).1 = 0 ∧
      run (alloc cfg) [.configure cfg, .setRx true, .rx bits] = none :=
  ⟨{ nData := 1, nStop := 1, parity := .none, bufSize := 65536, timeout := 100, cb := true },
   [false, true, true], ⟨by decide, by decide, by decide, by decide, by decide⟩, by decide, by decide,
   by decide +kernel⟩

/-- The assertion of line 168 ("shall not happen") fails if parity is switched off
while the parity bit is awaited. -/
theorem rx_parity_off_counterexample :
    ∃ (cfg : Cfg) (cfg' : Cfg) (b1 b2 : List Bool), cfg.Ok ∧ cfg'.Ok ∧ cfg.bufSize = cfg'.bufSize ∧
      run (alloc cfg) [.configure cfg, .setRx true, .rx b1, .configure cfg', .rx b2] = none :=
  ⟨{ nData := 1, nStop := 1, parity := .even, bufSize := 2, timeout := 100, cb := true },
   { nData := 1, nStop := 1, parity := .none, bufSize := 2, timeout := 100, cb := true },
   [false, true], [true],
   ⟨by decide, by decide, by decide, by decide, by decide⟩,
   ⟨by decide, by decide, by decide, by decide, by decide⟩, rfl, by decide +kernel⟩

/-! ### C68: the timeout -/

/-- While there are characters in the buffer, the timer is running. -/
def Watched (u : Uart) : Prop := u.timerCb = true ∧ (u.buffered ≠ [] → u.timer = true)

theorem flushRx_empty (u : Uart) : (flushRx u).buffered = [] := by
  unfold flushRx Uart.buffered
  cases hm : u.msg with
  | none => simp [hm]
  | some m =>
    by_cases h0 : m.chars = []
    · simp [hm, h0]
    · by_cases hc : u.cfg.cb <;> simp [h0, hc, allocBuf]

theorem flushRx_watched {u : Uart} (h : u.timerCb = true) : Watched (flushRx u) :=
  ⟨by rw [(flushRx_frame u).2.2.2.1]; exact h, fun h0 => absurd (flushRx_empty u) h0⟩

theorem rxCh_watched {u u' : Uart} (h : Watched u) {ch : Byte} (hr : rxCh u ch = some u') : Watched u' := by
  unfold rxCh at hr
  cases hm : u.msg with
  | none => rw [hm] at hr; cases hr
  | some m =>
    rw [hm] at hr
    dsimp only at hr
    split at hr
    · cases hr
    · split at hr
      · cases hr; exact flushRx_watched h.1
      · split at hr
        · cases hr; exact ⟨h.1, fun _ => rfl⟩
        · rename_i hne
          cases hr
          refine ⟨h.1, fun _ => h.2 ?_⟩
          simp only [Uart.buffered, hm, Option.map_some, Option.getD_some]
          intro h0; rw [h0] at hne; exact hne rfl

theorem rxBit_watched {u u' : Uart} (h : Watched u) {b : Bool} (hr : rxBit u b = some u') : Watched u' := by
  unfold rxBit at hr
  split at hr
  · cases hr
  · cases hr; exact h
  · split at hr
    · cases hr
    · rename_i c _ _ _ u1 hc
      cases hr
      have h0 : Watched { u with core := c } := h
      have h1 := rxCh_watched h0 hc
      exact h1

theorem rxBits_watched {u u' : Uart} (h : Watched u) {bs : List Bool} (hr : rxBits u bs = some u') : Watched u' := by
  induction bs generalizing u with
  | nil => cases hr; exact h
  | cons b bs ih =>
    unfold rxBits at hr
    split at hr
    · cases hr
    · rename_i u1 h1
      exact ih (rxBit_watched h h1) hr

theorem step_watched {u u' : Uart} (h : Watched u) {o : Op} (hr : step u o = some u') : Watched u' := by
  cases o with
  | configure cfg =>
    cases hr
    unfold configure
    split; · exact h
    split; · exact h
    split; · exact h
    split; · exact h
    dsimp only
    split
    · exact ⟨rfl, (flushRx_watched h.1).2⟩
    · exact ⟨rfl, h.2⟩
  | setRx e =>
    cases hr
    unfold setRx
    split
    · exact flushRx_watched h.1
    · split
      · cases hm : u.msg with
        | none => exact ⟨h.1, fun h0 => absurd rfl h0⟩
        | some m => exact h
      · exact h
  | rx bits =>
    simp only [step, rxUbits] at hr
    split at hr
    · cases hr; exact h
    · cases hb : rxBits u bits with
      | none => rw [hb] at hr; cases hr
      | some u1 => rw [hb] at hr; cases hr; exact rxBits_watched h hb
  | timer =>
    cases hr
    unfold timerExpiry
    split
    · exact h
    · rw [if_pos h.1]; exact flushRx_watched h.1
  | flush => cases hr; exact flushRx_watched h.1

/-- Once configured, over every history: whenever there are characters in the
receive buffer, the timer is running; when it expires, they are all passed to
the call-back in one message and the buffer is empty. -/
theorem rx_timeout {cfg cfg' : Cfg} (hcfg : (configure (alloc cfg) cfg').1 = 0) (ops : List Op) (u : Uart)
    (hrun : run (alloc cfg) (.configure cfg' :: ops) = some u) :
    (u.buffered ≠ [] → u.timer = true ∧ (timerExpiry u).buffered = [] ∧
      (u.cfg.cb = true → (timerExpiry u).log = u.log ++ [(u.buffered, u.core.flags)])) := by
  have h0 : Watched (configure (alloc cfg) cfg').2 := by
    unfold configure at hcfg ⊢
    split at hcfg; · cases hcfg
    split at hcfg; · cases hcfg
    split at hcfg; · cases hcfg
    split at hcfg; · cases hcfg
    rename_i h1 h2 h3 h4
    rw [if_neg h1, if_neg h2, if_neg h3, if_neg h4]
    dsimp only
    split
    · exact ⟨rfl, fun h => absurd (flushRx_empty _) h⟩
    · exact ⟨rfl, fun h => absurd rfl h⟩
  have hall : ∀ (ops : List Op) (v : Uart), Watched v → ∀ u, run v ops = some u → Watched u := by
    intro ops
    induction ops with
    | nil => intro v hv u hu; cases hu; exact hv
    | cons o ops ih =>
      intro v hv u hu
      unfold run at hu
      split at hu
      · cases hu
      · rename_i v1 h1
        exact ih v1 (step_watched hv h1) u hu
  have hw : Watched u := hall ops _ h0 u hrun
  intro hb
  have ht := hw.2 hb
  refine ⟨ht, ?_, ?_⟩
  · simp only [timerExpiry, ht, hw.1]
    exact flushRx_empty _
  · intro hc
    have hm : ∃ m, u.msg = some m := by
      cases hm : u.msg with
      | none => exact absurd (by simp [Uart.buffered, hm]) hb
      | some m => exact ⟨m, rfl⟩
    obtain ⟨m, hm⟩ := hm
    have hne : m.chars ≠ [] := by simpa [Uart.buffered, hm] using hb
    simp [timerExpiry, ht, hw.1, flushRx, hm, hne, hc, Uart.buffered]

/-- False without `osmo_soft_uart_configure`, although `osmo_soft_uart_alloc`
takes a configuration: the timer has no function and the character stays in the
buffer after it expired. -/
theorem rx_timeout_unconfigured_counterexample :
    ∃ (cfg : Cfg) (u : Uart) (bits : List Bool), cfg.Ok ∧ cfg.cb = true ∧
      run (alloc cfg) [.setRx true, .rx bits, .timer] = some u ∧ u.log = [] ∧ u.timer = false ∧ u.buffered = [1] :=
  ⟨{ nData := 1, nStop := 1, parity := .none, bufSize := 8, timeout := 100, cb := true }, _,
   [false, true, true], ⟨by decide, by decide, by decide, by decide, by decide⟩, rfl, rfl, by decide +kernel,
   by decide +kernel, by decide +kernel⟩

end Verif.SoftUart
