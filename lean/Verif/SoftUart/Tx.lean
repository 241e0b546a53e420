import Verif.SoftUart.Deliver
/-!
C42: the transmitter produces lines of correct frames; from end to end the
characters arrive unchanged.
-/
namespace Verif.SoftUart

/-- The data bits of a character, least significant first. -/
def dataBits (n : Nat) (ch : Byte) : List Bool := (List.range n).map (fun i => ch.toNat.testBit i)

/-- The frame that carries a character. -/
def frameOf (cfg : Cfg) (ch : Byte) : Frame :=
  { data := dataBits cfg.nData ch
    par := (parityFor cfg.parity (dataBits cfg.nData ch)).toList
    stop := List.replicate cfg.nStop true }

theorem frameOf_fits {cfg : Cfg} (h : cfg.Ok) (ch : Byte) : (frameOf cfg ch).Fits cfg := by
  refine ⟨by simp [frameOf, dataBits], ?_, by simp [frameOf]⟩
  have := h.parity
  cases hp : cfg.parity <;> simp [frameOf, hp, parityFor] <;> exact absurd hp this

/-- A correct frame has no error. -/
theorem frameOf_errors (cfg : Cfg) (ch : Byte) : (frameOf cfg ch).errors cfg.parity = 0 := by
  simp [Frame.errors, frameOf, List.mem_replicate]

theorem value_dataBits (n : Nat) (x : Nat) :
    value ((List.range n).map (fun i => x.testBit i)) = x % 2 ^ n := by
  induction n generalizing x with
  | zero => simp [value, Nat.mod_one]
  | succ n ih =>
    rw [List.range_succ_eq_map, List.map_cons, List.map_map]
    have : ((fun i => x.testBit i) ∘ Nat.succ) = fun i => (x / 2).testBit i := by
      funext i; simp [Nat.testBit_succ]
    rw [this, value, ih (x / 2)]
    have h0 : (if x.testBit 0 then 1 else 0) = x % 2 := by
      rw [Nat.testBit_zero]
      rcases Nat.mod_two_eq_zero_or_one x with h | h <;> simp [h]
    rw [h0, pow_succ, Nat.mul_comm (2 ^ n) 2, Nat.mod_mul]

/-- The character of a correct frame: the value modulo 2^num_data_bits. -/
theorem frameOf_char (cfg : Cfg) (ch : Byte) :
    (frameOf cfg ch).char cfg = (BitVec.ofNat 8 (ch.toNat % 2 ^ cfg.nData), 0) := by
  rw [Frame.char, frameOf_errors]
  rw [show (frameOf cfg ch).data = dataBits cfg.nData ch from rfl, dataBits, value_dataBits]

/-- One wrong data bit of a frame with even or odd parity is a parity error. -/
theorem flipped_bit_flagged {cfg : Cfg} (hp : cfg.parity = .even ∨ cfg.parity = .odd) (ch : Byte) (i : Nat)
    (hi : i < cfg.nData) :
    Frame.errors cfg.parity
      { frameOf cfg ch with data := (dataBits cfg.nData ch).set i (!ch.toNat.testBit i) } = 2 := by
  have hl : i < (dataBits cfg.nData ch).length := by simpa [dataBits] using hi
  have hget : (dataBits cfg.nData ch)[i] = ch.toNat.testBit i := by simp [dataBits]
  have key : ∀ (l : List Bool) (i : Nat) (h : i < l.length),
      (l.set i (!l[i])).count true + 1 = l.count true ∨ (l.set i (!l[i])).count true = l.count true + 1 := by
    intro l
    induction l with
    | nil => intro i h; simp at h
    | cons x l ih =>
      intro i h
      cases i with
      | zero => cases x <;> simp
      | succ i =>
        have := ih i (by simpa using h)
        simp only [List.set_cons_succ, List.getElem_cons_succ]
        cases x <;> simp only [List.count_cons] <;> simp only [show (false == true) = false from rfl, beq_self_eq_true, if_true, Bool.false_eq_true, if_false] <;> omega
  have hk := key _ i hl
  rw [hget] at hk
  have h0 : false ∉ (frameOf cfg ch).stop := by simp [frameOf, List.mem_replicate]
  simp only [Frame.errors, if_neg h0, Nat.add_zero]
  rw [if_neg]
  simp only [frameOf]
  rcases hp with hp | hp <;> rw [hp] <;> simp only [parityFor, Option.toList, List.cons.injEq, and_true,
    decide_eq_decide] <;> omega

/-! ### The transmitter -/

/-- The bits of the current frame still to be sent. -/
def pend (cfg : Cfg) (t : Tx) : List Bool :=
  let par (odd : Bool) : List Bool := match cfg.parity with
    | .even => [odd]
    | .odd => [!odd]
    | .mark => [true]
    | .space => [false]
    | .none => []
    | .bad => []
  match t.flow with
  | .idle => []
  | .data =>
    let d := (List.range (cfg.nData - t.bitCount)).map (fun i => t.shiftReg.toNat.testBit i)
    d ++ (par (xor t.parityBit (decide (d.count true % 2 = 1))) ++ List.replicate cfg.nStop true)
  | .parity => par t.parityBit ++ List.replicate cfg.nStop true
  | .stop => List.replicate (cfg.nData + cfg.nStop - t.bitCount) true

/-- What holds between two bits. -/
def TxInv (cfg : Cfg) (t : Tx) : Prop :=
  match t.flow with
  | .idle => True
  | .data => t.bitCount < cfg.nData
  | .parity => t.bitCount = cfg.nData ∧ cfg.parity ≠ .none
  | .stop => cfg.nData ≤ t.bitCount ∧ t.bitCount < cfg.nData + cfg.nStop

theorem range_testBit_succ (n x : Nat) : (List.range (n + 1)).map (fun i => x.testBit i) =
    x.testBit 0 :: (List.range n).map (fun i => (x / 2).testBit i) := by
  rw [List.range_succ_eq_map, List.map_cons, List.map_map]
  congr 1
  refine List.map_congr_left (fun i _ => ?_)
  simp [Nat.testBit_succ]

/-- One bit: either it is the next one of the current frame, or the transmitter
was idle and either starts the next character or sends an idle bit. -/
theorem txBit_spec {cfg : Cfg} (h : cfg.Ok) {t : Tx} (hi : TxInv cfg t) (msg : List Byte) :
    ∃ b t' msg', txBit cfg t msg = some (b, t', msg') ∧ TxInv cfg t' ∧ t'.running = t.running ∧
      ((t.flow ≠ .idle ∧ pend cfg t = b :: pend cfg t' ∧ msg' = msg) ∨
       (t.flow = .idle ∧ msg = [] ∧ msg' = [] ∧ b = true ∧ t' = t) ∨
       (t.flow = .idle ∧ ∃ ch, msg = ch :: msg' ∧ (frameOf cfg ch).bits = b :: pend cfg t')) := by
  have hd1 := h.data_pos
  have hd8 := h.data_le
  have hs1 := h.stop_pos
  have ht := h.total
  cases hf : t.flow with
  | idle =>
    cases msg with
    | nil => exact ⟨true, t, [], by simp [txBit, hf], hi, rfl, Or.inr (Or.inl ⟨rfl, rfl, rfl, rfl, rfl⟩)⟩
    | cons ch msg =>
      refine ⟨false, { t with shiftReg := ch, flow := .data, bitCount := 0, parityBit := false }, msg,
        by simp [txBit, hf], ?_, rfl, Or.inr (Or.inr ⟨rfl, ch, rfl, ?_⟩)⟩
      · show 0 < cfg.nData; omega
      · simp only [Frame.bits, pend, frameOf, dataBits, Nat.sub_zero, Bool.false_xor]
        congr 2
        generalize (List.range cfg.nData).map (fun i => ch.toNat.testBit i) = d
        cases cfg.parity <;> simp only [parityFor, Option.toList] <;> try rfl
        rcases Nat.mod_two_eq_zero_or_one (d.count true) with h | h <;> simp [h]
  | data =>
    have hbc : t.bitCount < cfg.nData := by simpa [TxInv, hf] using hi
    obtain ⟨k, hk⟩ : ∃ k, cfg.nData - t.bitCount = k + 1 := ⟨cfg.nData - t.bitCount - 1, by omega⟩
    have hmod : (t.bitCount + 1) % 256 = t.bitCount + 1 := by omega
    have hsh : (t.shiftReg >>> 1).toNat = t.shiftReg.toNat / 2 := by
      simp [BitVec.toNat_ushiftRight, Nat.shiftRight_eq_div_pow]
    have hb0 : t.shiftReg.getLsbD 0 = t.shiftReg.toNat.testBit 0 := rfl
    refine ⟨t.shiftReg.getLsbD 0,
      { t with
        parityBit := xor t.parityBit (t.shiftReg.getLsbD 0)
        shiftReg := t.shiftReg >>> 1
        bitCount := (t.bitCount + 1) % 256
        flow := if cfg.nData ≤ (t.bitCount + 1) % 256 then (if cfg.parity ≠ .none then .parity else .stop) else .data },
      msg, by simp only [txBit, hf], ?_, rfl, Or.inl ⟨by simp, ?_, rfl⟩⟩
    · rw [hmod]
      by_cases hge : cfg.nData ≤ t.bitCount + 1
      · rw [if_pos hge]
        by_cases hp : cfg.parity = .none
        · simp only [hp, ne_eq, not_true_eq_false, if_false, TxInv]; omega
        · simp only [hp, ne_eq, not_false_eq_true, if_true, TxInv]
          exact ⟨by omega, trivial⟩
      · simp only [if_neg hge, TxInv]; omega
    · rw [hmod]
      simp only [pend, hf, hk, range_testBit_succ, hb0]
      generalize hx : t.shiftReg.toNat.testBit 0 = b
      by_cases hge : cfg.nData ≤ t.bitCount + 1
      · have hk0 : k = 0 := by omega
        subst hk0
        rw [if_pos hge]
        have hpar : (xor t.parityBit (decide (List.count true [b] % 2 = 1))) = xor t.parityBit b := by
          cases b <;> simp
        by_cases hp : cfg.parity = .none
        · simp only [hp, ne_eq, not_true_eq_false, if_false, List.range_zero, List.map_nil, List.cons_append,
            List.nil_append]
          rw [show cfg.nData + cfg.nStop - (t.bitCount + 1) = cfg.nStop by omega]
        · simp only [hp, ne_eq, not_false_eq_true, if_true, List.range_zero, List.map_nil, List.cons_append,
            List.nil_append, hpar]
      · rw [if_neg hge]
        simp only [show cfg.nData - (t.bitCount + 1) = k by omega, hsh, List.cons_append]
        generalize (List.range k).map (fun i => (t.shiftReg.toNat / 2).testBit i) = d
        have hpar : (xor t.parityBit (decide (List.count true (b :: d) % 2 = 1))) =
            xor (xor t.parityBit b) (decide (List.count true d % 2 = 1)) := by
          rw [Bool.xor_assoc]
          congr 1
          cases b
          · simp
          · rw [List.count_cons_self]
            rcases Nat.mod_two_eq_zero_or_one (d.count true) with h | h
            · rw [h, show (List.count true d + 1) % 2 = 1 by omega]; rfl
            · rw [h, show (List.count true d + 1) % 2 = 0 by omega]; rfl
        rw [hpar]
  | parity =>
    obtain ⟨hbc, hp⟩ : t.bitCount = cfg.nData ∧ cfg.parity ≠ .none := by simpa [TxInv, hf] using hi
    have hinv : TxInv cfg { t with flow := .stop } := by
      show cfg.nData ≤ t.bitCount ∧ t.bitCount < cfg.nData + cfg.nStop; omega
    have hs : cfg.nData + cfg.nStop - t.bitCount = cfg.nStop := by omega
    cases hpm : cfg.parity with
    | none => exact absurd hpm hp
    | bad => exact absurd hpm h.parity
    | even => exact ⟨_, _, msg, by simp only [txBit, hf, hpm]; rfl, hinv, rfl, Or.inl ⟨by simp, by simp [pend, hf, hpm, hs], rfl⟩⟩
    | odd => exact ⟨_, _, msg, by simp only [txBit, hf, hpm]; rfl, hinv, rfl, Or.inl ⟨by simp, by simp [pend, hf, hpm, hs], rfl⟩⟩
    | mark => exact ⟨_, _, msg, by simp only [txBit, hf, hpm]; rfl, hinv, rfl, Or.inl ⟨by simp, by simp [pend, hf, hpm, hs], rfl⟩⟩
    | space => exact ⟨_, _, msg, by simp only [txBit, hf, hpm]; rfl, hinv, rfl, Or.inl ⟨by simp, by simp [pend, hf, hpm, hs], rfl⟩⟩
  | stop =>
    obtain ⟨hge, hlt⟩ : cfg.nData ≤ t.bitCount ∧ t.bitCount < cfg.nData + cfg.nStop := by simpa [TxInv, hf] using hi
    have hmod : (t.bitCount + 1) % 256 = t.bitCount + 1 := by omega
    obtain ⟨k, hk⟩ : ∃ k, cfg.nData + cfg.nStop - t.bitCount = k + 1 :=
      ⟨cfg.nData + cfg.nStop - t.bitCount - 1, by omega⟩
    refine ⟨true,
      { t with
        bitCount := (t.bitCount + 1) % 256
        flow := if cfg.nData + cfg.nStop ≤ (t.bitCount + 1) % 256 then .idle else .stop },
      msg, by simp only [txBit, hf], ?_, rfl, Or.inl ⟨by simp, ?_, rfl⟩⟩
    · rw [hmod]
      by_cases hend : cfg.nData + cfg.nStop ≤ t.bitCount + 1
      · simp only [if_pos hend, TxInv]
      · simp only [if_neg hend, TxInv]; omega
    · rw [hmod]
      by_cases hend : cfg.nData + cfg.nStop ≤ t.bitCount + 1
      · simp [pend, hf, hk, show k = 0 by omega, if_pos hend]
      · simp [pend, hf, hk, if_neg hend, List.replicate_succ, show cfg.nData + cfg.nStop - (t.bitCount + 1) = k by omega]

/-- The number of bits of a frame. -/
def frameLen (cfg : Cfg) : Nat := (if cfg.parity = .none then 1 else 2) + cfg.nData + cfg.nStop

theorem frameOf_len {cfg : Cfg} (h : cfg.Ok) (ch : Byte) : (frameOf cfg ch).bits.length = frameLen cfg := by
  have hf := frameOf_fits h ch
  have h1 := hf.data
  have h2 := hf.par
  have h3 := hf.stop
  simp only [Frame.bits, List.length_cons, List.length_append, frameLen, h1, h2, h3]
  split <;> omega

/-- `n` bits: they continue the line; no character stays behind if there are bits
enough to start them all. -/
theorem txPull_spec {cfg : Cfg} (h : cfg.Ok) (n : Nat) {t : Tx} (hi : TxInv cfg t) (msg : List Byte) :
    ∃ bs t' msg', txPull cfg t msg n = some (bs, t', msg') ∧ TxInv cfg t' ∧ t'.running = t.running ∧ bs.length = n ∧
      (∃ done x, msg = done ++ msg' ∧ Line cfg (done.map (frameOf cfg)) x ∧ pend cfg t ++ x = bs ++ pend cfg t') ∧
      ((msg = [] ∨ (pend cfg t).length + frameLen cfg * (msg.length - 1) < n) → msg' = []) := by
  induction n generalizing t msg with
  | zero =>
    refine ⟨[], t, msg, rfl, hi, rfl, rfl, ⟨[], [], rfl, Line.nil, by simp⟩, ?_⟩
    rintro (h | h)
    · exact h
    · omega
  | succ n ih =>
    obtain ⟨b, t1, m1, hb, hi1, hr1, hcase⟩ := txBit_spec h hi msg
    obtain ⟨bs, t2, m2, hb2, hi2, hr2, hlen, ⟨done, x, hm, hx, hp⟩, hall⟩ := ih hi1 m1
    refine ⟨b :: bs, t2, m2, by simp [txPull, hb, hb2], hi2, hr2.trans hr1, by simp [hlen], ?_, ?_⟩
    · rcases hcase with ⟨_, hpe, rfl⟩ | ⟨hf, rfl, rfl, rfl, rfl⟩ | ⟨hf, ch, rfl, hfr⟩
      · exact ⟨done, x, hm, hx, by rw [hpe]; simp [hp]⟩
      · have hpe : pend cfg t1 = [] := by simp [pend, hf]
        exact ⟨done, true :: x, hm, Line.idle hx, by rw [hpe] at hp ⊢; simpa using hp⟩
      · refine ⟨ch :: done, (frameOf cfg ch).bits ++ x, by simp [hm], Line.frame (frameOf_fits h ch) hx, ?_⟩
        rw [hfr, show pend cfg t = [] by simp [pend, hf]]
        simp [hp]
    · intro hn
      apply hall
      rcases hcase with ⟨_, hpe, rfl⟩ | ⟨hf, rfl, rfl, rfl, rfl⟩ | ⟨hf, ch, rfl, hfr⟩
      · rcases hn with hn | hn
        · exact Or.inl hn
        · right; rw [hpe] at hn; simp at hn; omega
      · exact Or.inl rfl
      · have hl : (pend cfg t1).length + 1 = frameLen cfg := by rw [← frameOf_len h ch, hfr]; simp
        rcases hn with hn | hn
        · cases hn
        · cases m1 with
          | nil => exact Or.inl rfl
          | cons c m1 =>
            right
            simp only [List.length_cons, Nat.add_sub_cancel] at hn ⊢
            have : frameLen cfg * (m1.length + 1) = frameLen cfg * m1.length + frameLen cfg := by ring
            omega

/-- Bits asked for while transmission is suspended: the rest of the current
frame, not more. -/
theorem txPending_spec {cfg : Cfg} (h : cfg.Ok) (n : Nat) {t : Tx} (hi : TxInv cfg t) :
    ∃ bs t', txPending cfg t n = some (bs, t') ∧ TxInv cfg t' ∧ t'.running = t.running ∧ bs.length ≤ n ∧
      pend cfg t = bs ++ pend cfg t' := by
  induction n generalizing t with
  | zero => exact ⟨[], t, rfl, hi, rfl, le_refl _, rfl⟩
  | succ n ih =>
    by_cases hf : t.flow = .idle
    · exact ⟨[], t, by simp [txPending, hf], hi, rfl, by simp, rfl⟩
    · obtain ⟨b, t1, m1, hb, hi1, hr1, hcase⟩ := txBit_spec h hi []
      obtain ⟨bs, t2, hb2, hi2, hr2, hlen, hp⟩ := ih hi1
      refine ⟨b :: bs, t2, by simp [txPending, hf, hb, hb2], hi2, hr2.trans hr1, by simpa using hlen, ?_⟩
      rcases hcase with ⟨_, hpe, rfl⟩ | ⟨hf', _⟩ | ⟨hf', _⟩
      · rw [hpe, hp]; rfl
      · exact absurd hf' hf
      · exact absurd hf' hf

theorem pend_len {cfg : Cfg} {t : Tx} (hi : TxInv cfg t) : (pend cfg t).length < frameLen cfg := by
  cases hf : t.flow with
  | idle => simp [pend, hf, frameLen]; split <;> omega
  | data =>
    have hbc : t.bitCount < cfg.nData := by simpa [TxInv, hf] using hi
    cases hp : cfg.parity <;> simp [pend, hf, frameLen, hp] <;> omega
  | parity =>
    obtain ⟨hbc, hp⟩ : t.bitCount = cfg.nData ∧ cfg.parity ≠ .none := by simpa [TxInv, hf] using hi
    cases hp : cfg.parity <;> simp [pend, hf, frameLen, hp] <;> omega
  | stop =>
    obtain ⟨hge, hlt⟩ : cfg.nData ≤ t.bitCount ∧ t.bitCount < cfg.nData + cfg.nStop := by simpa [TxInv, hf] using hi
    simp [pend, hf, frameLen]; split <;> omega

theorem txChars_spec (cfg : Cfg) (t : Tx) (n : Nat) : txChars cfg t n =
    if n / frameLen cfg = 0 then (if t.flow = .idle then 1 else 0) else n / frameLen cfg := by
  have : (if cfg.parity ≠ .none then 1 + cfg.nData + cfg.nStop + 1 else 1 + cfg.nData + cfg.nStop) = frameLen cfg := by
    unfold frameLen
    by_cases hp : cfg.parity = .none
    · rw [if_neg (by simpa using hp), if_pos hp]
    · rw [if_pos hp, if_neg hp]; omega
  simp only [txChars, this]

/-- The call-back writes as many characters as there is room for, or fewer. -/
def Supply (f : Nat → List Byte) : Prop := ∀ k, (f k).length ≤ k

/-- A call of `osmo_soft_uart_tx_ubits`: it does not abort, exactly as many bits
as returned are stored, no character of the call-back is lost, and the bits
continue the line. -/
theorem txUbits_spec {cfg : Cfg} (h : cfg.Ok) {t : Tx} (hi : TxInv cfg t) (hr : t.running = true) (status n : Nat)
    (hn : 0 < n) {supply : Nat → List Byte} (hsup : Supply supply) :
    ∃ o, txUbits cfg t status n supply = some o ∧ o.rc = o.bits.length ∧ o.bits.length ≤ n ∧
      (suspended cfg status = false → o.bits.length = n) ∧ (suspended cfg status = true → o.taken = []) ∧
      o.lost = [] ∧ TxInv cfg o.tx ∧ o.tx.running = true ∧
      ∃ x, Line cfg (o.taken.map (frameOf cfg)) x ∧ pend cfg t ++ x = o.bits ++ pend cfg o.tx := by
  have hn0 : ¬ n = 0 := by omega
  by_cases hsus : suspended cfg status
  · obtain ⟨bs, t', hb, hi', hr', hlen, hp⟩ := txPending_spec h n hi
    refine ⟨{ rc := bs.length, bits := bs, taken := [], lost := [], tx := t' }, ?_, rfl, hlen, ?_, fun _ => rfl, rfl,
      hi', hr'.trans hr, [], Line.nil, by simpa using hp⟩
    · simp only [txUbits, if_neg hn0, hr, hsus, hb]; simp
    · simp [hsus]
  · generalize hmsg : (if txChars cfg t n = 0 then [] else supply (txChars cfg t n % 65536)) = msg
    have hlen : msg.length ≤ txChars cfg t n % 65536 := by
      rw [← hmsg]
      split
      · simp
      · exact hsup _
    obtain ⟨bs, t', msg', hb, hi', hr', hbl, ⟨done, x, hm, hx, hp⟩, hall⟩ := txPull_spec h n hi msg
    have hmsg' : msg' = [] := by
      apply hall
      by_cases hm0 : msg = []
      · exact Or.inl hm0
      · right
        have hml : msg.length ≤ txChars cfg t n := le_trans hlen (Nat.mod_le _ _)
        have hpos : 0 < msg.length := List.length_pos_iff.mpr hm0
        rw [txChars_spec] at hml
        have hpl := pend_len hi
        by_cases hz : n / frameLen cfg = 0
        · rw [if_pos hz] at hml
          by_cases hf : t.flow = .idle
          · rw [if_pos hf] at hml
            have : msg.length = 1 := by omega
            rw [this]
            simp [pend, hf]; omega
          · rw [if_neg hf] at hml; omega
        · rw [if_neg hz] at hml
          have h1 : frameLen cfg * (n / frameLen cfg) ≤ n := Nat.mul_div_le n (frameLen cfg)
          have h2 : frameLen cfg * msg.length ≤ frameLen cfg * (n / frameLen cfg) := Nat.mul_le_mul_left _ hml
          obtain ⟨k, hk⟩ : ∃ k, msg.length = k + 1 := ⟨msg.length - 1, by omega⟩
          rw [hk] at h2 ⊢
          have h3 : frameLen cfg * (k + 1) = frameLen cfg * k + frameLen cfg := by ring
          simp only [Nat.add_sub_cancel]
          omega
    subst hmsg'
    refine ⟨{ rc := n, bits := bs, taken := msg, lost := [], tx := t' }, ?_, by simp [hbl], le_of_eq hbl, fun _ => hbl,
      fun h => absurd h hsus, rfl, hi', hr'.trans hr, x, ?_, hp⟩
    · simp only [txUbits, if_neg hn0, hr, hsus, hmsg]
      have : ¬ txChars cfg t n % 65536 < msg.length := by omega
      simp [this, hb]
    · rw [List.append_nil] at hm; rw [hm]; exact hx

theorem testBit_and (x k : Nat) : x.testBit k = decide (x &&& 2 ^ k ≠ 0) := by
  by_cases h : x.testBit k
  · have : x &&& 2 ^ k ≠ 0 := by
      intro h0
      have h1 := congrArg (fun y => Nat.testBit y k) h0
      simp [Nat.testBit_and, h] at h1
    simp [h, this]
  · have : x &&& 2 ^ k = 0 := by
      apply Nat.eq_of_testBit_eq
      intro i
      rw [Nat.testBit_and, Nat.testBit_two_pow]
      by_cases hi : k = i
      · subst hi; simp [h]
      · simp [hi]
    simp [h, this]

/-- Flow control: while the line is not asserted no character is taken from
the call-back and at most the rest of the frame that was begun is sent; as soon
as that is complete, nothing.  Otherwise exactly the number of bits asked for is
delivered. -/
theorem tx_flow_control {cfg : Cfg} (h : cfg.Ok) {t : Tx} (hi : TxInv cfg t) (hr : t.running = true) (status n : Nat)
    (hn : 0 < n) {supply : Nat → List Byte} (hsup : Supply supply) :
    ∃ o, txUbits cfg t status n supply = some o ∧
      ((cfg.flowCtrl = .dtrDsr ∧ status &&& 4 = 0) ∨ (cfg.flowCtrl = .rtsCts ∧ status &&& 32 = 0) →
        o.taken = [] ∧ o.rc = o.bits.length ∧ o.bits.length ≤ n ∧ (t.flow = .idle → o.rc = 0) ∧
          o.bits ++ pend cfg o.tx = pend cfg t) ∧
      (cfg.flowCtrl = .none ∨ (cfg.flowCtrl = .dtrDsr ∧ status &&& 4 ≠ 0) ∨
        (cfg.flowCtrl = .rtsCts ∧ status &&& 32 ≠ 0) → o.rc = n ∧ o.bits.length = n) := by
  obtain ⟨o, ho, hrc, hle, hn1, hn2, _, _, _, x, hx, hp⟩ := txUbits_spec h hi hr status n hn hsup
  have h4 := testBit_and status 2
  have h32 := testBit_and status 5
  rw [show 2 ^ 2 = 4 from rfl] at h4
  rw [show 2 ^ 5 = 32 from rfl] at h32
  refine ⟨o, ho, ?_, ?_⟩
  · intro hs
    have hsus : suspended cfg status = true := by
      rcases hs with ⟨h1, h2⟩ | ⟨h1, h2⟩
      · simp [suspended, h1, h4, h2]
      · simp [suspended, h1, h32, h2]
    have htk := hn2 hsus
    obtain ⟨bs, t', hb, _, _, hlen, hpe⟩ := txPending_spec h n hi
    have hob : o = { rc := bs.length, bits := bs, taken := [], lost := [], tx := t' } := by
      have : txUbits cfg t status n supply =
          some { rc := bs.length, bits := bs, taken := [], lost := [], tx := t' } := by
        have hn0 : ¬ n = 0 := by omega
        simp only [txUbits, if_neg hn0, hr, hsus, hb]; simp
      rw [this] at ho; cases ho; rfl
    refine ⟨htk, hrc, hle, ?_, ?_⟩
    · intro hf
      rw [hob]
      have : pend cfg t = [] := by simp [pend, hf]
      rw [this] at hpe
      have hbs : bs = [] := (List.append_eq_nil_iff.mp hpe.symm).1
      rw [hbs]; rfl
    · rw [hob]; exact hpe.symm
  · intro hs
    have hsus : suspended cfg status = false := by
      rcases hs with h1 | ⟨h1, h2⟩ | ⟨h1, h2⟩
      · simp [suspended, h1]
      · simp only [suspended, h1]; rw [h4, decide_eq_true h2]; rfl
      · simp only [suspended, h1]; rw [h32, decide_eq_true h2]; rfl
    have := hn1 hsus
    exact ⟨by rw [hrc, this], this⟩

/-- CTS drops in the middle of a character: the nine bits left are sent, then
nothing. -/
example :
    let cfg : Cfg := { nData := 8, nStop := 1, parity := .none, bufSize := 8, timeout := 100, cb := true,
                       flowCtrl := .rtsCts }
    let t : Tx := { running := true, flow := .idle, bitCount := 0, shiftReg := 0, parityBit := false }
    ((txUbits cfg t 32 1 (fun k => [0x55].take k)).bind (fun o => txUbits cfg o.tx 0 100 (fun k => [1, 2, 3].take k))).map
      (fun o => (o.rc, o.taken, (txUbits cfg o.tx 0 100 (fun k => [1, 2, 3].take k)).map TxOut.rc)) =
      some (9, [], some 0) := by
  decide +kernel

/-- Whatever the calls, the bits sent are a line with exactly the characters
the call-back supplied, in order, each in its frame; if the transmitter is not
idle, up to the bits of the last frame still to come. -/
theorem txRun_line {cfg : Cfg} (h : cfg.Ok) {t : Tx} (hi : TxInv cfg t) (hr : t.running = true)
    (calls : List (Nat × Nat × (Nat → List Byte))) (hc : ∀ c ∈ calls, 0 < c.2.1 ∧ Supply c.2.2) :
    ∃ bits chars t', txRun cfg t calls = some (bits, chars, t') ∧ TxInv cfg t' ∧ t'.running = true ∧
      ∃ x, Line cfg (chars.map (frameOf cfg)) x ∧ pend cfg t ++ x = bits ++ pend cfg t' := by
  induction calls generalizing t with
  | nil => exact ⟨[], [], t, rfl, hi, hr, [], Line.nil, by simp⟩
  | cons c calls ih =>
    obtain ⟨status, n, supply⟩ := c
    obtain ⟨hn, hsup⟩ := hc _ List.mem_cons_self
    obtain ⟨o, ho, _, _, _, _, _, hi1, hr1, x, hx, hp⟩ := txUbits_spec h hi hr status n hn hsup
    obtain ⟨bs, cs, t2, hrun, hi2, hr2, y, hy, hq⟩ := ih hi1 hr1 (fun c hc' => hc c (List.mem_cons_of_mem _ hc'))
    refine ⟨o.bits ++ bs, o.taken ++ cs, t2, by simp [txRun, ho, hrun], hi2, hr2, x ++ y, ?_, ?_⟩
    · rw [List.map_append]; exact hx.append hy
    · rw [← List.append_assoc, hp, List.append_assoc, hq, List.append_assoc]

/-- From end to end.  The bits of any sequence of `osmo_soft_uart_tx_ubits` calls,
fed to a receiver with the same framing in portions of any size, with timer
expiries and flushes in between: the receiver gets the first characters
supplied, reduced to `num_data_bits` bits, in order and without error, and all
of them if the transmitter is idle in the end. -/
theorem uart_end_to_end {t : Tx} (hr : t.running = true) (hidle : t.flow = .idle) {u : Uart} (hl : u.Live)
    (hrx : u.core.flow = .idle) (hfl : u.core.flags = 0) {cfg : Cfg}
    (hcfg : cfg.nData = u.cfg.nData ∧ cfg.nStop = u.cfg.nStop ∧ cfg.parity = u.cfg.parity)
    (calls : List (Nat × Nat × (Nat → List Byte))) (hc : ∀ c ∈ calls, 0 < c.2.1 ∧ Supply c.2.2) :
    ∃ bits chars t', txRun cfg t calls = some (bits, chars, t') ∧
      ∀ ops : List Op, (∀ o ∈ ops, o.passive) → bitsOf ops = bits →
        ∃ u' k, run u ops = some u' ∧
          u'.received = u.received ++ (chars.take k).map (fun ch => (BitVec.ofNat 8 (ch.toNat % 2 ^ cfg.nData), 0)) ∧
          (t'.flow = .idle → k = chars.length ∧ u'.core.flow = .idle) := by
  obtain ⟨hc1, hc2, hc3⟩ := hcfg
  have hok : cfg.Ok := ⟨hc1 ▸ hl.ok.data_pos, hc1 ▸ hl.ok.data_le, hc2 ▸ hl.ok.stop_pos,
    by rw [hc1, hc2]; exact hl.ok.total, hc3 ▸ hl.ok.parity⟩
  have hpend : pend cfg t = [] := by simp [pend, hidle]
  obtain ⟨bits, chars, t', hrun, hi', hr', x, hx, hp⟩ :=
    txRun_line hok (t := t) (by simp [TxInv, hidle]) hr calls hc
  refine ⟨bits, chars, t', hrun, ?_⟩
  intro ops hops hbits
  have hframe : ∀ ch, frameOf cfg ch = frameOf u.cfg ch := by
    intro ch; simp [frameOf, hc1, hc2, hc3]
  have hline : ∀ fs bs, Line cfg fs bs → Line u.cfg fs bs := by
    intro fs bs hl'
    induction hl' with
    | nil => exact Line.nil
    | idle _ ih => exact Line.idle ih
    | frame hf _ ih => exact Line.frame ⟨hc1 ▸ hf.data, by rw [← hc3]; exact hf.par, hc2 ▸ hf.stop⟩ ih
  have hx' := hline _ _ hx
  rw [hpend, List.nil_append] at hp
  rw [hp, ← hbits] at hx'
  obtain ⟨u', f1, f2, hb, hl', hcfg', hfs, hrec, he, _⟩ := run_clean hl ops hops (rest := pend cfg t')
    (Expect.idle hrx hx') (by
      intro f hf
      obtain ⟨ch, _, rfl⟩ := List.mem_map.mp hf
      rw [hframe]; exact frameOf_errors _ _) hfl
  refine ⟨u', f1.length, hb, ?_, ?_⟩
  · have hf1 : f1 = (chars.take f1.length).map (frameOf cfg) := by
      rw [List.map_take, hfs]; simp
    rw [hrec]
    congr 1
    conv_lhs => rw [hf1]
    rw [List.map_map]
    refine List.map_congr_left (fun ch _ => ?_)
    show (frameOf cfg ch).char u.cfg = _
    rw [hframe, frameOf_char, hc1]
  · intro hti
    rw [show pend cfg t' = [] by simp [pend, hti]] at he
    obtain ⟨hi, rfl⟩ := he.nil_done hl.ok
    refine ⟨?_, hi⟩
    have := congrArg List.length hfs
    simpa using this.symm

/-- "Hi" in 7-O-2, asked for in portions of 3, 40 and 5 bits. -/
example :
    let cfg : Cfg := { nData := 7, nStop := 2, parity := .odd, bufSize := 8, timeout := 100, cb := true }
    let t : Tx := { running := true, flow := .idle, bitCount := 0, shiftReg := 0, parityBit := false }
    let u := setRx (configure (alloc cfg) cfg).2 true
    (txRun cfg t [(0, 3, fun k => [72].take k), (0, 40, fun k => [105, 33].take k), (0, 5, fun _ => [])]).bind
      (fun r => (run u [.rx (r.1.take 20), .timer, .rx (r.1.drop 20)]).map (fun u' => (r.1.length, u'.log, u'.received)))
      = some (48, [([72], 0)], [(72, 0), (105, 0), (33, 0)]) := by
  decide +kernel

/-- False for 256 and more data and stop bits, which `osmo_soft_uart_configure`
accepts: the bit counter wraps, the first character never ends and nothing is
received, however long the line. -/
theorem uart_many_stop_bits_counterexample :
    ∃ cfg : Cfg, cfg.nData ≤ 255 ∧ cfg.nStop ≤ 255 ∧ (configure (alloc cfg) cfg).1 = 0 ∧
      ∀ n, ∃ u', rxUbits (setRx (configure (alloc cfg) cfg).2 true)
          (false :: (List.replicate 8 true ++ List.replicate n true)) = some (0, u') ∧ u'.received = [] ∧
        u'.core.flow = .stop := by
  refine ⟨{ nData := 8, nStop := 248, parity := .none, bufSize := 16, timeout := 100, cb := true },
    by decide, by decide, by decide, ?_⟩
  intro n
  have key : ∀ (n : Nat) (u : Uart), u.cfg.nData = 8 → u.cfg.nStop = 248 → u.core.flow = .stop →
      ∃ u', rxBits u (List.replicate n true) = some u' ∧ u'.received = u.received ∧ u'.core.flow = .stop := by
    intro n
    induction n with
    | zero => intro u _ _ h; exact ⟨u, rfl, rfl, h⟩
    | succ n ih =>
      intro u h1 h2 h3
      have hlt : ¬ u.cfg.nData + u.cfg.nStop ≤ (u.core.bitCount + 1) % 256 := by omega
      have hb : rxBit u true = some { u with core := { u.core with bitCount := (u.core.bitCount + 1) % 256 } } := by
        simp only [rxBit, coreBit, h3, if_neg hlt]; simp
      obtain ⟨u', hu, hrec, hst⟩ := ih { u with core := { u.core with bitCount := (u.core.bitCount + 1) % 256 } } h1 h2 h3
      refine ⟨u', ?_, hrec, hst⟩
      rw [List.replicate_succ]
      simp only [rxBits, hb]
      exact hu
  have happ : ∀ (a b : List Bool) (u : Uart), rxBits u (a ++ b) = (rxBits u a).bind (fun u' => rxBits u' b) := by
    intro a b
    induction a with
    | nil => intro u; rfl
    | cons x a ih =>
      intro u
      simp only [List.cons_append, rxBits]
      cases rxBit u x with
      | none => rfl
      | some u' => exact ih u'
  generalize hu0 : setRx (configure (alloc _) _).2 true = u0
  have h9 : rxBits u0 (false :: List.replicate 8 true) = some { u0 with
      core := { flow := .stop, bitCount := 8, shiftReg := 0xff#8, parityBit := false, flags := 0 } } := by
    subst hu0; decide +kernel
  obtain ⟨u', hu, hrec, hst⟩ := key n { u0 with
      core := { flow := .stop, bitCount := 8, shiftReg := 0xff#8, parityBit := false, flags := 0 } }
      (by subst hu0; rfl) (by subst hu0; rfl) rfl
  refine ⟨u', ?_, ?_, hst⟩
  · have : u0.running = true := by subst hu0; rfl
    rw [← List.cons_append]
    have hall : rxBits u0 (false :: List.replicate 8 true ++ List.replicate n true) = some u' := by
      rw [happ, h9, Option.bind_some, hu]
    simp [rxUbits, this] at hall ⊢
    rw [hall]
  · rw [hrec]; subst hu0; rfl

end Verif.SoftUart
