import Verif.ChanType.Model
/-!
Properties of channel type and encryption information elements and of AMR
configurations (C159, C160, C161).
-/
namespace Verif.ChanType

/-- A channel as TS 48.008 3.2.2.11 tells them: speech (with text telephony or
not) in one of the versions listed, of which there is a last; transparent and
other data, these with rates allowed and a preference of asymmetry or without;
signalling. -/
inductive Channel where
  | speech (ctm : Bool) (init : List Byte) (last : Byte)
  | transparent (rate : Byte)
  | data (rate : Byte)
  | dataAllowed (rate allowed : Byte)
  | dataAsym (rate allowed : Byte) (pref : Fin 4)
  | signalling

/-- The values fit their fields; there are up to nine speech versions. -/
def Channel.Fits : Channel → Prop
  | .speech _ init last => init.length ≤ 8 ∧ (∀ b ∈ init, b.toNat < 128) ∧ last.toNat < 128
  | .transparent r => r.toNat < 64
  | .data r => r.toNat < 64
  | .dataAllowed r a => r.toNat < 64 ∧ a.toNat < 128
  | .dataAsym r a _ => r.toNat < 64 ∧ a.toNat < 128
  | .signalling => True

/-- The structure of a channel. -/
def Channel.ct (rt : Byte) : Channel → CT
  | .speech ctm init last =>
    { blank (if ctm then 4 else 1) rt with
      spch := init ++ last :: List.replicate (8 - init.length) 0#8, spchLen := init.length + 1 }
  | .transparent r => { blank 2 rt with transparent := true, dataRate := r }
  | .data r => { blank 2 rt with dataRate := r }
  | .dataAllowed r a => { blank 2 rt with dataRate := r, allowedSet := true, allowed := a }
  | .dataAsym r a p =>
    { blank 2 rt with dataRate := r, allowedSet := true, allowed := a, asymSet := true, asym := p.val }
  | .signalling => blank 3 rt

/-- The octets from the third on: the top bit says that another octet follows,
the next one of data that it is not transparent. -/
def Channel.wire : Channel → List Byte
  | .speech _ init last => init.map (fun b => BitVec.ofNat 8 (128 + b.toNat)) ++ [last]
  | .transparent r => [r]
  | .data r => [BitVec.ofNat 8 (64 + r.toNat)]
  | .dataAllowed r a => [BitVec.ofNat 8 (192 + r.toNat), a]
  | .dataAsym r a p => [BitVec.ofNat 8 (192 + r.toNat), BitVec.ofNat 8 (128 + a.toNat), BitVec.ofNat 8 (32 * p.val)]
  | .signalling => [0#8]

/-- The channel indicator. -/
def Channel.indicator : Channel → Byte
  | .speech ctm _ _ => if ctm then 4 else 1
  | .signalling => 3
  | _ => 2

theorem byte_of (b : Byte) : b = BitVec.ofNat 8 b.toNat := by simp

theorem or80 (b : Byte) (h : b.toNat < 128) : b ||| 0x80#8 = BitVec.ofNat 8 (128 + b.toNat) := by
  have key : ∀ n : Fin 128, BitVec.ofNat 8 n.val ||| 0x80#8 = BitVec.ofNat 8 (128 + n.val) := by decide
  have := key ⟨b.toNat, h⟩
  rw [← byte_of b] at this
  exact this

theorem or40 (b : Byte) (h : b.toNat < 64) :
    b ||| 0x40#8 = BitVec.ofNat 8 (64 + b.toNat) ∧ b ||| 0x40#8 ||| 0x80#8 = BitVec.ofNat 8 (192 + b.toNat) := by
  have key : ∀ n : Fin 64, BitVec.ofNat 8 n.val ||| 0x40#8 = BitVec.ofNat 8 (64 + n.val) ∧
      BitVec.ofNat 8 n.val ||| 0x40#8 ||| 0x80#8 = BitVec.ofNat 8 (192 + n.val) := by decide
  have := key ⟨b.toNat, h⟩
  rw [← byte_of b] at this
  exact this

theorem bits7 (b : Byte) (h : b.toNat < 128) :
    b &&& 0x7f#8 = b ∧ b.getLsbD 7 = false ∧ (BitVec.ofNat 8 (128 + b.toNat)).getLsbD 7 = true ∧
    BitVec.ofNat 8 (128 + b.toNat) &&& 0x7f#8 = b := by
  have key : ∀ n : Fin 128, BitVec.ofNat 8 n.val &&& 0x7f#8 = BitVec.ofNat 8 n.val ∧
      (BitVec.ofNat 8 n.val).getLsbD 7 = false ∧ (BitVec.ofNat 8 (128 + n.val)).getLsbD 7 = true ∧
      BitVec.ofNat 8 (128 + n.val) &&& 0x7f#8 = BitVec.ofNat 8 n.val := by decide
  have := key ⟨b.toNat, h⟩
  simp only [] at this
  rw [← byte_of b] at this
  exact this

theorem bits6 (b : Byte) (h : b.toNat < 64) :
    (b.getLsbD 7 = false ∧ b.getLsbD 6 = false ∧ b &&& 0x3f#8 = b) ∧
    ((BitVec.ofNat 8 (64 + b.toNat)).getLsbD 7 = false ∧ (BitVec.ofNat 8 (64 + b.toNat)).getLsbD 6 = true ∧
      BitVec.ofNat 8 (64 + b.toNat) &&& 0x3f#8 = b) ∧
    ((BitVec.ofNat 8 (192 + b.toNat)).getLsbD 7 = true ∧ (BitVec.ofNat 8 (192 + b.toNat)).getLsbD 6 = true ∧
      BitVec.ofNat 8 (192 + b.toNat) &&& 0x3f#8 = b) := by
  have key : ∀ n : Fin 64,
    ((BitVec.ofNat 8 n.val).getLsbD 7 = false ∧ (BitVec.ofNat 8 n.val).getLsbD 6 = false ∧
      BitVec.ofNat 8 n.val &&& 0x3f#8 = BitVec.ofNat 8 n.val) ∧
    ((BitVec.ofNat 8 (64 + n.val)).getLsbD 7 = false ∧ (BitVec.ofNat 8 (64 + n.val)).getLsbD 6 = true ∧
      BitVec.ofNat 8 (64 + n.val) &&& 0x3f#8 = BitVec.ofNat 8 n.val) ∧
    ((BitVec.ofNat 8 (192 + n.val)).getLsbD 7 = true ∧ (BitVec.ofNat 8 (192 + n.val)).getLsbD 6 = true ∧
      BitVec.ofNat 8 (192 + n.val) &&& 0x3f#8 = BitVec.ofNat 8 n.val) := by decide
  have := key ⟨b.toNat, h⟩
  simp only [] at this
  rw [← byte_of b] at this
  exact this

theorem encSpch_wire (init : List Byte) (last : Byte) (h : ∀ b ∈ init, b.toNat < 128) :
    encSpch (init ++ [last]) = init.map (fun b => BitVec.ofNat 8 (128 + b.toNat)) ++ [last] := by
  induction init with
  | nil => rfl
  | cons b bs ih =>
    have e : encSpch (b :: (bs ++ [last])) = (b ||| 0x80#8) :: encSpch (bs ++ [last]) := by
      cases bs <;> rfl
    rw [List.cons_append, e, ih (fun x hx => h x (List.mem_cons_of_mem _ hx)), or80 b (h b (by simp))]
    rfl

/-- **C159a.** The element written. -/
theorem enc_spec (rt : Byte) (c : Channel) (h : c.Fits) :
    enc (c.ct rt) = some (11#8 :: BitVec.ofNat 8 (2 + c.wire.length) :: c.indicator :: rt :: c.wire,
      4 + c.wire.length) := by
  suffices hb : encBody (c.ct rt) = some c.wire ∧ (c.ct rt).spchLen ≤ 9 ∧ (c.ct rt).ind &&& 0x0f#8 = c.indicator ∧
      (c.ct rt).rateType = rt ∧ c.wire.length ≤ 9 by
    obtain ⟨h1, h2, h3, h4, h5⟩ := hb
    unfold enc
    rw [if_neg (by omega), h1, h3, h4]
    simp only [Option.bind_eq_bind, Option.bind_some]
    rw [Nat.mod_eq_of_lt (by omega), show 2 + c.wire.length + 2 = 4 + c.wire.length by omega]
  cases c with
  | speech ctm init last =>
    obtain ⟨h1, h2, h3⟩ := h
    have ei : (Channel.ct rt (.speech ctm init last)).ind = 1#8 ∨ (Channel.ct rt (.speech ctm init last)).ind = 4#8 := by
      cases ctm
      · exact Or.inl rfl
      · exact Or.inr rfl
    have e2 : ¬ (Channel.ct rt (.speech ctm init last)).ind = 2#8 := by
      cases ctm <;> simp [Channel.ct, blank]
    refine ⟨?_, ?_, ?_, rfl, ?_⟩
    · unfold encBody
      rw [if_neg e2, if_pos ei, if_pos (by simp [Channel.ct])]
      have : (Channel.ct rt (.speech ctm init last)).spch.take (Channel.ct rt (.speech ctm init last)).spchLen =
          init ++ [last] := by
        simp only [Channel.ct]
        rw [show init ++ last :: List.replicate (8 - init.length) 0#8 =
          (init ++ [last]) ++ List.replicate (8 - init.length) 0#8 by simp]
        rw [show init.length + 1 = (init ++ [last]).length by simp, List.take_left]
      rw [this, encSpch_wire init last h2]
      rfl
    · simp [Channel.ct]; omega
    · cases ctm <;> simp [Channel.ct, blank, Channel.indicator]
    · simp [Channel.wire]; omega
  | transparent r => exact ⟨rfl, by simp [Channel.ct, blank], by simp [Channel.ct, blank, Channel.indicator], rfl, by simp [Channel.wire]⟩
  | data r =>
    refine ⟨?_, by simp [Channel.ct, blank], by simp [Channel.ct, blank, Channel.indicator], rfl, by simp [Channel.wire]⟩
    have : encBody (Channel.ct rt (.data r)) = some [r ||| 0x40#8] := rfl
    rw [this, (or40 r h).1]
    rfl
  | dataAllowed r a =>
    refine ⟨?_, by simp [Channel.ct, blank], by simp [Channel.ct, blank, Channel.indicator], rfl, by simp [Channel.wire]⟩
    have : encBody (Channel.ct rt (.dataAllowed r a)) = some [r ||| 0x40#8 ||| 0x80#8, a] := rfl
    rw [this, (or40 r h.1).2]
    rfl
  | dataAsym r a p =>
    refine ⟨?_, by simp [Channel.ct, blank], by simp [Channel.ct, blank, Channel.indicator], rfl, by simp [Channel.wire]⟩
    have : encBody (Channel.ct rt (.dataAsym r a p)) =
      some [r ||| 0x40#8 ||| 0x80#8, a ||| 0x80#8, BitVec.ofNat 8 (p.val <<< 5)] := rfl
    rw [this, (or40 r h.1).2, or80 a h.2, Nat.shiftLeft_eq, Nat.mul_comm]
    rfl
  | signalling => exact ⟨rfl, by simp [Channel.ct, blank], by simp [Channel.ct, blank, Channel.indicator], rfl, by simp [Channel.wire]⟩

theorem decSpch_wire (init : List Byte) (last : Byte) (t : List Byte) (n : Nat) (hn : init.length < n)
    (h : ∀ b ∈ init, b.toNat < 128) (hl : last.toNat < 128) :
    decSpch n (init.map (fun b => BitVec.ofNat 8 (128 + b.toNat)) ++ [last] ++ t) =
      .ok (init ++ [last], init.length + 1) := by
  induction init generalizing n with
  | nil =>
    cases n with
    | zero => simp at hn
    | succ n =>
      have := bits7 last hl
      simp only [List.map_nil, List.nil_append, List.cons_append, decSpch]
      rw [if_pos this.2.1, this.1]
      rfl
  | cons b bs ih =>
    cases n with
    | zero => simp at hn
    | succ n =>
      have hb := bits7 b (h b (by simp))
      simp only [List.map_cons, List.cons_append, decSpch]
      rw [if_neg (by rw [hb.2.2.1]; simp)]
      rw [ih n (by simpa using hn) (fun x hx => h x (List.mem_cons_of_mem _ hx)), hb.2.2.2]
      simp

/-- What of a channel comes back: a preference of asymmetry does not. -/
def Channel.back (rt : Byte) (c : Channel) : CT := { c.ct rt with asym := 0 }

theorem dec_data (rt : Byte) (l : List Byte) (c : CT) (k : Nat) (h : decData (blank 2 rt) l = .ok (c, k)) :
    (if (blank (2#8 &&& 0x0f#8) rt).ind = 2#8 then
        match decData (blank (2#8 &&& 0x0f#8) rt) l with
        | .error e => .error e
        | .ok (c, k) => .ok (c, 2 + k)
      else if (blank (2#8 &&& 0x0f#8) rt).ind = 1#8 ∨ (blank (2#8 &&& 0x0f#8) rt).ind = 4#8 then
        match decSpch 9 l with
        | .error e => .error e
        | .ok (l, k) =>
          .ok ({ blank (2#8 &&& 0x0f#8) rt with spch := l ++ List.replicate (9 - l.length) 0#8, spchLen := k }, 2 + l.length)
      else if (blank (2#8 &&& 0x0f#8) rt).ind = 3#8 then .ok (blank (2#8 &&& 0x0f#8) rt, 2)
      else .error ENOTSUP : Except Int (CT × Nat)) = .ok (c, 2 + k) := by
  have e : 2#8 &&& 0x0f#8 = 2#8 := by decide
  rw [e, if_pos (by rfl)]
  have h' : decData (blank 2#8 rt) l = .ok (c, k) := h
  rw [h']

/-- **C159b.** An element is decoded to the channel written, except for the
preference of asymmetry, whatever follows within the eleven octets; the octets
counted are those of the channel, for signalling without the spare one. -/
theorem dec_wire_partial (rt : Byte) (c : Channel) (t : List Byte) (h : c.Fits)
    (hl : (c.wire ++ t).length ≤ 9) :
    dec (c.indicator :: rt :: (c.wire ++ t)) = .ok (c.back rt,
      match c with
      | .signalling => 2
      | _ => 2 + c.wire.length) := by
  have hw : 1 ≤ c.wire.length := by cases c <;> simp [Channel.wire]
  have hlen : ¬ ((c.indicator :: rt :: (c.wire ++ t)).length < 3 ∨
      (c.indicator :: rt :: (c.wire ++ t)).length > 11) := by
    simp only [List.length_cons, List.length_append] at hl ⊢
    omega
  unfold dec
  rw [if_neg hlen]
  simp only []
  cases c with
  | speech ctm init last =>
    obtain ⟨h1, h2, h3⟩ := h
    have := decSpch_wire init last t 9 (by omega) h2 h3
    have e2 : ¬ (blank (Channel.indicator (.speech ctm init last) &&& 0x0f#8) rt).ind = 2#8 := by
      cases ctm <;> simp [blank, Channel.indicator]
    have e1 : (blank (Channel.indicator (.speech ctm init last) &&& 0x0f#8) rt).ind = 1#8 ∨
        (blank (Channel.indicator (.speech ctm init last) &&& 0x0f#8) rt).ind = 4#8 := by
      cases ctm
      · exact Or.inl (by simp [blank, Channel.indicator])
      · exact Or.inr (by simp [blank, Channel.indicator])
    rw [if_neg e2, if_pos e1]
    simp only [Channel.wire]
    rw [this]
    simp only [Channel.back, Channel.ct, Channel.indicator, List.length_append, List.length_singleton,
      List.length_map, List.append_assoc, List.singleton_append]
    congr 2
    cases ctm <;> simp [blank] <;> omega
  | transparent r =>
    have hb := (bits6 r h).1
    have hd : decData (blank 2 rt) ([r] ++ t) = .ok (Channel.back rt (.transparent r), 1) := by
      simp only [List.cons_append, List.nil_append, decData, hb.1, hb.2.1, hb.2.2]
      rfl
    exact dec_data rt _ _ _ hd
  | data r =>
    have hb := (bits6 r h).2.1
    have hd : decData (blank 2 rt) ([BitVec.ofNat 8 (64 + r.toNat)] ++ t) = .ok (Channel.back rt (.data r), 1) := by
      simp only [List.cons_append, List.nil_append, decData, hb.1, hb.2.1, hb.2.2]
      rfl
    exact dec_data rt _ _ _ hd
  | dataAllowed r a =>
    have h6 := (bits6 r h.1).2.2
    have h7 := bits7 a h.2
    have hd : decData (blank 2 rt) ([BitVec.ofNat 8 (192 + r.toNat), a] ++ t) =
        .ok (Channel.back rt (.dataAllowed r a), 2) := by
      simp only [List.cons_append, List.nil_append, decData, h6.1, h6.2.1, h6.2.2, h7.1, h7.2.1]
      rfl
    exact dec_data rt _ _ _ hd
  | dataAsym r a p =>
    have h6 := (bits6 r h.1).2.2
    have h7 := bits7 a h.2
    have h3 : (BitVec.ofNat 8 (32 * p.val) &&& (0x60#8 >>> 5)).toNat = 0 := by
      have : ∀ p : Fin 4, (BitVec.ofNat 8 (32 * p.val) &&& (0x60#8 >>> 5)).toNat = 0 := by decide
      exact this p
    have hd : decData (blank 2 rt) ([BitVec.ofNat 8 (192 + r.toNat), BitVec.ofNat 8 (128 + a.toNat),
        BitVec.ofNat 8 (32 * p.val)] ++ t) = .ok (Channel.back rt (.dataAsym r a p), 3) := by
      simp only [List.cons_append, List.nil_append, decData, h6.1, h6.2.1, h6.2.2, h7.2.2.1, h7.2.2.2, h3]
      rfl
    exact dec_data rt _ _ _ hd
  | signalling => rfl

example : enc (Channel.ct 0x0a (.speech false [0x25, 0x05] 0x21)) =
    some ([11, 5, 1, 0x0a, 0xa5, 0x85, 0x21], 7) := by decide
example : dec [1, 0x0a, 0xa5, 0x85, 0x21] = .ok ((Channel.speech false [0x25, 0x05] 0x21).ct 0x0a, 5) := by rfl

/-- The preference of asymmetry is always decoded as none. -/
theorem asym_counterexample :
    enc (Channel.ct 8 (.dataAsym 0x11 1 2)) = some ([11, 5, 2, 8, 0xd1, 0x81, 0x40], 7) ∧
    dec [2, 8, 0xd1, 0x81, 0x40] = .ok (Channel.ct 8 (.dataAsym 0x11 1 0), 5) := ⟨by decide, rfl⟩

theorem decSpch_sound (n : Nat) (l : List Byte) (r : List Byte) (k : Nat) (h : decSpch n l = .ok (r, k)) :
    r.length ≤ n ∧ r.length ≤ l.length ∧ (k = r.length ∨ (k = n + 1 ∧ r.length = n ∧ ∀ b ∈ l.take n, b.getLsbD 7 = true)) := by
  induction n generalizing l r k with
  | zero =>
    simp only [decSpch, Except.ok.injEq, Prod.mk.injEq] at h
    obtain ⟨rfl, rfl⟩ := h
    simp
  | succ n ih =>
    cases l with
    | nil => cases h
    | cons b t =>
      simp only [decSpch] at h
      split at h
      · cases h
        simp
      · rename_i hb
        split at h
        · cases h
        · rename_i l' k' hd
          cases h
          obtain ⟨h1, h2, h3⟩ := ih t l' k' hd
          refine ⟨by simp; omega, by simp; omega, ?_⟩
          rcases h3 with h3 | ⟨h3, h4, h5⟩
          · exact Or.inl (by simp [h3])
          · refine Or.inr ⟨by omega, by simp [h4], ?_⟩
            intro x hx
            rcases List.mem_cons.mp hx with rfl | hx
            · simpa using hb
            · exact h5 x hx

/-- **C159c.** Whatever is decoded, the octets are those of the element, and the
number of speech versions is that of the array's elements used, unless nine
octets all say that another follows. -/
theorem dec_sound_partial (l : List Byte) (c : CT) (k : Nat) (h : dec l = .ok (c, k)) :
    3 ≤ l.length ∧ l.length ≤ 11 ∧ k ≤ l.length ∧ c.spch.length = 9 ∧
    (c.spchLen ≤ 9 ∨ (c.spchLen = 10 ∧ l.length = 11 ∧ ∀ b ∈ l.drop 2, b.getLsbD 7 = true)) := by
  unfold dec at h
  split at h
  · cases h
  · rename_i hl
    refine ⟨by omega, by omega, ?_⟩
    split at h
    · rename_i i r t
      simp only [List.length_cons] at hl
      simp only [] at h
      split at h
      · split at h
        · cases h
        · rename_i c' k' hd
          cases h
          have : k' ≤ t.length ∧ c.spch = List.replicate 9 0#8 ∧ c.spchLen = 0 := by
            cases t with
            | nil => cases hd
            | cons b t =>
              simp only [decData] at hd
              split at hd
              · split at hd
                · cases hd
                · split at hd
                  · cases hd
                  · split at hd
                    · split at hd
                      · cases hd
                      · cases hd
                        simp [blank]
                    · cases hd
                      simp [blank]
              · cases hd
                simp [blank]
          refine ⟨by simp only [List.length_cons]; omega, by rw [this.2.1]; rfl, Or.inl (by rw [this.2.2]; omega)⟩
      · split at h
        · split at h
          · cases h
          · rename_i l' k' hd
            cases h
            obtain ⟨h1, h2, h3⟩ := decSpch_sound 9 t l' k' hd
            refine ⟨by simp only [List.length_cons]; omega, by simp; omega, ?_⟩
            rcases h3 with h3 | ⟨h3, h4, h5⟩
            · exact Or.inl (by simp only []; omega)
            · refine Or.inr ⟨h3, by simp only [List.length_cons]; omega, ?_⟩
              intro b hb
              apply h5 b
              rw [List.take_of_length_le (by omega)]
              simpa using hb
        · split at h
          · cases h
            exact ⟨by simp, rfl, Or.inl (by simp [blank])⟩
          · cases h
    · cases h

/-- Nine octets that all say that another follows give ten speech versions in an
array of nine; encoding the structure again fails the assertion. -/
theorem overlong_counterexample :
    ∃ c, dec [1, 8, 0x81, 0x81, 0x81, 0x81, 0x81, 0x81, 0x81, 0x81, 0x81] = .ok (c, 11) ∧
      c.spchLen = 10 ∧ c.spch.length = 9 ∧ enc c = none := ⟨_, rfl, by decide, by decide, by decide⟩

/-- The octet of a signalling channel is not counted. -/
theorem signalling_counterexample :
    enc (Channel.ct 0 .signalling) = some ([11, 3, 3, 0, 0], 5) ∧
    dec [3, 0, 0] = .ok (Channel.ct 0 .signalling, 2) := ⟨by decide, rfl⟩

/-- What the encoder refuses, by an assertion: too many speech versions, a set of
rates for a transparent data channel, and channel indicators other than 1 to 4. -/
theorem enc_abort (c : CT) (h : c.spch.length = 9) :
    enc c = none ↔ 9 < c.spchLen ∨ (c.ind = 2#8 ∧ c.allowedSet = true ∧ c.transparent = true) ∨
      (c.ind ≠ 1#8 ∧ c.ind ≠ 2#8 ∧ c.ind ≠ 3#8 ∧ c.ind ≠ 4#8) := by
  unfold enc
  by_cases hs : c.spchLen > 9
  · simp [hs]
  · rw [if_neg hs]
    have hs' : c.spchLen ≤ c.spch.length := by omega
    simp only [Option.bind_eq_bind, Option.bind_eq_none_iff]
    have : (∀ a, encBody c = some a → (some (11#8 :: BitVec.ofNat 8 ((2 + a.length) % 256) :: (c.ind &&& 0x0f#8) ::
        c.rateType :: a, (2 + a.length) % 256 + 2) : Option (List Byte × Nat)) = none) ↔ encBody c = none := by
      cases encBody c <;> simp
    rw [this]
    unfold encBody
    by_cases h2 : c.ind = 2#8
    · simp only [h2, if_true, encData]
      cases c.allowedSet <;> cases c.transparent <;> cases c.asymSet <;> simp <;> omega
    · rw [if_neg h2]
      by_cases h14 : c.ind = 1#8 ∨ c.ind = 4#8
      · rw [if_pos h14, if_pos hs']
        rcases h14 with e | e <;> simp [e] <;> omega
      · rw [if_neg h14]
        by_cases h3 : c.ind = 3#8
        · simp [h3]; omega
        · simp only [not_or] at h14
          simp [h2, h3, h14]

/-! ### Encryption information (C160) -/

/-- The algorithms listed are numbers from 1 to 8. -/
def Algos (l : List Byte) : Prop := ∀ a ∈ l, 1 ≤ a.toNat ∧ a.toNat ≤ 8

theorem algoMask_spec (as : List Byte) (m : Byte) :
    (Algos as → ∃ r, algoMask as m = some r ∧ ∀ i, i < 8 → (r.getLsbD i = true ↔
      m.getLsbD i = true ∨ BitVec.ofNat 8 (i + 1) ∈ as)) ∧
    (¬ Algos as → algoMask as m = none) := by
  induction as generalizing m with
  | nil => exact ⟨fun _ => ⟨m, rfl, by simp⟩, fun h => absurd (by intro a ha; cases ha) h⟩
  | cons a as ih =>
    have hz : a = 0#8 ↔ a.toNat = 0 := ⟨fun h => by rw [h]; rfl, fun h => BitVec.eq_of_toNat_eq (by simpa using h)⟩
    have h8 : a > 8#8 ↔ a.toNat > 8 := by simp [BitVec.lt_def]
    by_cases ha : 1 ≤ a.toNat ∧ a.toNat ≤ 8
    · have e : algoMask (a :: as) m = algoMask as (m ||| (1#8 <<< (a.toNat - 1))) := by
        simp only [algoMask]
        rw [if_neg (by rw [hz, h8]; omega)]
      rw [e]
      have ⟨x, y⟩ := ih (m ||| (1#8 <<< (a.toNat - 1)))
      constructor
      · intro h
        obtain ⟨r, hr, hi⟩ := x (fun b hb => h b (List.mem_cons_of_mem _ hb))
        refine ⟨r, hr, fun i h8 => ?_⟩
        rw [hi i h8]
        have key : (1#8 <<< (a.toNat - 1)).getLsbD i = true ↔ BitVec.ofNat 8 (i + 1) = a := by
          have : ∀ (n : Fin 8) (i : Fin 8), (1#8 <<< n.val).getLsbD i.val = true ↔ i.val = n.val := by decide
          rw [this ⟨a.toNat - 1, by omega⟩ ⟨i, h8⟩]
          simp only []
          constructor
          · intro h
            apply BitVec.eq_of_toNat_eq
            simp
            omega
          · intro h
            rw [← h]
            simp
            omega
        rw [BitVec.getLsbD_or, Bool.or_eq_true, key, List.mem_cons]
        constructor
        · rintro ((h | h) | h)
          · exact Or.inl h
          · exact Or.inr (Or.inl h)
          · exact Or.inr (Or.inr h)
        · rintro (h | h | h)
          · exact Or.inl (Or.inl h)
          · exact Or.inl (Or.inr h)
          · exact Or.inr h
      · intro h
        apply y
        intro h'
        apply h
        intro b hb
        rcases List.mem_cons.mp hb with rfl | hb
        · exact ha
        · exact h' b hb
    · constructor
      · intro h
        exact absurd (h a (by simp)) ha
      · intro _
        simp only [algoMask]
        rw [if_pos (by rw [hz, h8]; omega)]

theorem algoList_eq (m : Byte) :
    algoList m 0 8 = ((List.range 8).filter fun i => m.getLsbD i).map fun i => BitVec.ofNat 8 (i + 1) := by
  revert m
  decide +kernel

/-- The numbers listed, in ascending order and each once. -/
def ascending (l : List Byte) : List Byte :=
  [1#8, 2#8, 3#8, 4#8, 5#8, 6#8, 7#8, 8#8].filter fun a => decide (a ∈ l)

/-- **C160a.** Encryption information is encoded exactly if its algorithms are
from 1 to 8, eight of them at most, and the key is not too long; it is then
decoded to the same key and the algorithms in ascending order, all octets used. -/
theorem ei_round_trip (e : EI) :
    (e.key.length ≤ 252 ∧ e.algos.length ≤ 8 ∧ Algos e.algos →
      ∃ body, encEi e = some (10#8 :: BitVec.ofNat 8 body.length :: body, body.length + 2) ∧
        decEi body = some (.ok (⟨ascending e.algos, e.key⟩, body.length))) ∧
    (¬ (e.key.length ≤ 252 ∧ e.algos.length ≤ 8 ∧ Algos e.algos) → encEi e = none) := by
  have ⟨a, b⟩ := algoMask_spec e.algos 0#8
  constructor
  · rintro ⟨h1, h2, h3⟩
    obtain ⟨m, hm, hi⟩ := a h3
    refine ⟨m :: e.key, ?_, ?_⟩
    · unfold encEi
      rw [if_neg (by omega), if_neg (by omega), hm]
      simp only [Option.bind_eq_bind, Option.bind_some, List.length_cons]
      rw [Nat.mod_eq_of_lt (by omega), Nat.mod_eq_of_lt (by omega), Nat.add_comm 1]
    · simp only [decEi]
      rw [if_neg (by omega), algoList_eq, List.length_cons, Nat.add_comm 1]
      have : ascending e.algos = ((List.range 8).filter fun i => m.getLsbD i).map fun i => BitVec.ofNat 8 (i + 1) := by
        unfold ascending
        have e8 : [1#8, 2#8, 3#8, 4#8, 5#8, 6#8, 7#8, 8#8] = (List.range 8).map fun i => BitVec.ofNat 8 (i + 1) := by
          decide
        rw [e8, List.filter_map]
        congr 1
        apply List.filter_congr
        intro i hr
        have := hi i (by simpa using hr)
        rw [Bool.eq_iff_iff]
        simp only [Function.comp, decide_eq_true_eq]
        rw [this]
        simp
      rw [this]
  · intro h
    unfold encEi
    by_cases h1 : e.key.length > 252
    · rw [if_pos h1]
    · rw [if_neg h1]
      by_cases h2 : e.algos.length > 8
      · rw [if_pos h2]
      · rw [if_neg h2, b (fun h3 => h ⟨by omega, by omega, h3⟩)]
        rfl

/-- **C160b.** An element of up to 253 octets is decoded, and encoded again to
the same octets. -/
theorem ei_decode_partial (l : List Byte) (h : 1 ≤ l.length ∧ l.length ≤ 253) :
    ∃ e, decEi l = some (.ok (e, l.length)) ∧
      encEi e = some (10#8 :: BitVec.ofNat 8 l.length :: l, l.length + 2) := by
  cases l with
  | nil => simp at h
  | cons m key =>
    simp only [List.length_cons] at h
    refine ⟨⟨algoList m 0 8, key⟩, ?_, ?_⟩
    · simp only [decEi]
      rw [if_neg (by omega), List.length_cons, Nat.add_comm 1]
    · have hm : algoMask (algoList m 0 8) 0#8 = some m ∧ (algoList m 0 8).length ≤ 8 := by
        have : ∀ m : Byte, algoMask (algoList m 0 8) 0#8 = some m ∧ (algoList m 0 8).length ≤ 8 := by
          decide +kernel
        exact this m
      unfold encEi
      rw [if_neg (by simp only []; omega), if_neg (by simp only []; omega), hm.1]
      simp only [Option.bind_eq_bind, Option.bind_some, List.length_cons]
      rw [Nat.mod_eq_of_lt (by omega), Nat.mod_eq_of_lt (by omega), Nat.add_comm 1]

/-- Elements of 254 and 255 octets are copied beyond the end of the key. -/
theorem ei_overrun_counterexample (l : List Byte) (h : l.length = 254 ∨ l.length = 255) : decEi l = none := by
  cases l with
  | nil => simp at h
  | cons m key =>
    simp only [List.length_cons] at h
    simp only [decEi]
    rw [if_pos (by omega)]

example : encEi ⟨[3, 1], [7, 7]⟩ = some ([10, 3, 5, 7, 7], 5) ∧
    decEi [5, 7, 7] = some (.ok (⟨[1, 3], [7, 7]⟩, 3)) := ⟨by decide, rfl⟩

/-! ### AMR configurations (C161) -/

/-- The rates of a configuration, by number from 4.75 (0) to 12.2 (7). -/
def rates (c : MrCfg) : List Bool :=
  [c.m4_75, c.m5_15, c.m5_90, c.m6_70, c.m7_40, c.m7_95, c.m10_2, c.m12_2]

/-- TS 28.062 Table 7.11.3.1.3-2: the rates that each of the configurations S0 to
S7 consists of. -/
def config : List (List Nat) := [[0], [0, 2, 4, 7], [2], [3], [4], [5], [6], [7]]

/-- The rates of all configurations whose bit is set. -/
def selected (s : BitVec 16) : List Bool :=
  (List.range 8).map fun r => (List.range 8).any fun k => s.getLsbD k && (config.getD k []).contains r

/-- **C161a.** The rates taken from the configuration bits are those of the
configurations set; it is refused exactly if these are none or more than four. -/
theorem mrFromSc_spec (s : BitVec 16) :
    (mrFromSc s).map rates =
      if (selected s).count true = 0 ∨ (selected s).count true > 4 then none else some (selected s) := by
  have key : ∀ n : Fin 256, (mrFromSc (BitVec.ofNat 16 n.val)).map rates =
      if (selected (BitVec.ofNat 16 n.val)).count true = 0 ∨ (selected (BitVec.ofNat 16 n.val)).count true > 4
      then none else some (selected (BitVec.ofNat 16 n.val)) := by decide +kernel
  have e1 : mrFromSc s = mrFromSc (s &&& 0x00ff#16) := by
    unfold mrFromSc
    simp only [BitVec.and_assoc, BitVec.and_self]
  have e2 : selected s = selected (s &&& 0x00ff#16) := by
    unfold selected
    apply List.map_congr_left
    intro r _
    rw [Bool.eq_iff_iff, List.any_eq_true, List.any_eq_true]
    have : ∀ k ∈ List.range 8, (s &&& 0x00ff#16).getLsbD k = s.getLsbD k := by
      intro k hk
      rw [BitVec.getLsbD_and]
      have : ∀ k ∈ List.range 8, (0x00ff#16).getLsbD k = true := by decide
      rw [this k hk, Bool.and_true]
    constructor
    · rintro ⟨k, hk, h⟩
      exact ⟨k, hk, by rw [this k hk]; exact h⟩
    · rintro ⟨k, hk, h⟩
      exact ⟨k, hk, by rw [this k hk] at h; exact h⟩
  have e3 : s &&& 0x00ff#16 = BitVec.ofNat 16 (s.toNat % 256) := by
    apply BitVec.eq_of_toNat_eq
    have : s.toNat &&& 255 = s.toNat % 2 ^ 8 := Nat.and_two_pow_sub_one_eq_mod s.toNat 8
    simp only [BitVec.toNat_and, BitVec.toNat_ofNat]
    rw [show 255 % 2 ^ 16 = 255 by rfl, this]
    omega
  rw [e1, e2, e3]
  exact key ⟨s.toNat % 256, by omega⟩

/-- **C161b.** On a full rate channel one to four rates other than 5.15 come back
from their configuration bits. -/
theorem mr_round_trip_fr (c : MrCfg) (h5 : c.m5_15 = false) (h : (rates c).count true ≤ 4)
    (h0 : 1 ≤ (rates c).count true) : mrFromSc (scFromMr c true) = some c := by
  obtain ⟨a, b, c, d, e, f, g, i⟩ := c
  simp only at h5
  subst h5
  revert a c d e f g i
  decide +kernel

/-- **C161c.** On a half rate channel the same holds for up to four rates without
10.2 and 12.2, if these are not 4.75, 5.9 and 7.4 together. -/
theorem mr_round_trip_hr_partial (c : MrCfg) (h5 : c.m5_15 = false) (h10 : c.m10_2 = false) (h12 : c.m12_2 = false)
    (h : (rates c).count true ≤ 4) (h0 : 1 ≤ (rates c).count true)
    (hn : ¬ (c.m4_75 = true ∧ c.m5_90 = true ∧ c.m7_40 = true)) : mrFromSc (scFromMr c false) = some c := by
  obtain ⟨a, b, c, d, e, f, g, i⟩ := c
  simp only at h5 h10 h12
  subst h5 h10 h12
  revert a c d e f
  decide +kernel

/-- The configuration bits of a half rate channel have neither 10.2 nor 12.2, and
no bits that TS 48.008 wants zero, for any rates. -/
theorem scFromMr_mask (c : MrCfg) (fr : Bool) :
    scFromMr c fr &&& ~~~(if fr then 0x57ff#16 else 0x073f#16) = 0#16 := by
  obtain ⟨a, b, c, d, e, f, g, i⟩ := c
  revert fr a b c d e f g i
  decide +kernel

/-- 4.75, 5.9 and 7.4 on a half rate channel come back with 12.2, which such a
channel does not have. -/
theorem hr_counterexample :
    mrFromSc (scFromMr ⟨true, false, true, false, true, false, false, false⟩ false) =
      some ⟨true, false, true, false, true, false, false, true⟩ := by decide

/-- The permitted speech version (TS 48.008 3.2.2.11) of each codec type (TS
48.008 3.2.2.103): GSM FR, GSM HR, GSM EFR, FR AMR, HR AMR, FR AMR-WB, OHR AMR,
OFR AMR-WB, OHR AMR-WB. -/
def permOf (t : Nat) : Nat :=
  (([(0, 0x01), (1, 0x05), (2, 0x11), (3, 0x21), (4, 0x25), (9, 0x42), (11, 0x45), (12, 0x41), (13, 0x46)] :
    List (Nat × Nat)).lookup t).getD 0

/-- **C161d.** Each permitted speech version has a codec, which can be encoded;
different ones have different codecs. -/
theorem codecFrom_valid (p : Byte) (c : SpeechCodec.Codec) (h : codecFrom p = some c) :
    SpeechCodec.Valid c ∧ c.fi = true ∧ permOf c.type.toNat = p.toNat ∧ ∀ q c', codecFrom q = some c' → c'.type = c.type → q = p := by
  have key : ∀ p : Byte, (codecFrom p).all (fun c => decide (c.fi = true ∧ permOf c.type.toNat = p.toNat ∧
        ([0, 1, 2].any fun n => decide ((c.type.toNat, n) ∈ SpeechCodec.cfgSize ∧ c.cfg.toNat < 256 ^ n)) = true)) =
      true := by
    decide +kernel
  have k := key p
  rw [h, Option.all_some, decide_eq_true_eq, List.any_eq_true] at k
  obtain ⟨k1, k2, n, _, k3⟩ := k
  obtain ⟨k3, k4⟩ := of_decide_eq_true k3
  refine ⟨⟨n, k3, k4⟩, k1, k2, fun q c' hq ht => ?_⟩
  have k' := key q
  rw [hq, Option.all_some, decide_eq_true_eq] at k'
  apply BitVec.eq_of_toNat_eq
  rw [← k2, ← k'.2.1, ht]

/-- Just these have a codec. -/
theorem codecFrom_isSome (p : Byte) :
    (codecFrom p).isSome = decide (p.toNat ∈ [0x01, 0x05, 0x11, 0x21, 0x25, 0x41, 0x42, 0x45, 0x46]) := by
  revert p
  decide +kernel

/-- The default configuration of the AMR codecs is that of all rates. -/
theorem codecFrom_amr :
    (codecFrom 0x21).map SpeechCodec.Codec.cfg = some (scFromMr ⟨true, true, true, true, true, true, true, true⟩ true) ∧
    (codecFrom 0x25).map SpeechCodec.Codec.cfg = some (scFromMr ⟨true, true, true, true, true, true, true, true⟩ false) ∧
    (codecFrom 0x45).map SpeechCodec.Codec.cfg = (codecFrom 0x21).map SpeechCodec.Codec.cfg := by decide +kernel

example : codecFrom 0x21 = some ⟨true, false, false, false, 3, 0x57ff⟩ := by decide

end Verif.ChanType
