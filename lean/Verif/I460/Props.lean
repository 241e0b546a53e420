import Verif.I460.Model
import Verif.Bits.Props
/-!
C89: the I.460 multiplexer and demultiplexer.
-/
namespace Verif.I460
open Verif.Bits

/-- How many bits of each byte a sub-channel has: 8 kbit/s for each. -/
def Rate.width : Rate → Nat
  | .off => 0
  | .k64 => 8
  | .k32 => 4
  | .k16 => 2
  | .k8 => 1

/-- The `w` bits of a byte from bit `off` on, the most significant bit being number 0. -/
def field (w off : Nat) (b : Byte) : List Byte := (List.range w).map fun i => ubitOf (b.getMsbD (off + i))

/-- The bits of a sub-channel in a string of bytes. -/
def subBits (s : Sub) (data : List Byte) : List Byte := data.flatMap (field s.rate.width s.offset)

/-! ### demultiplexer -/

/-- What the user of a sub-channel gets for a buffer full of bits. -/
def deliver (s : Sub) (chunk : List Byte) : Call := if s.bits then .bits chunk else .bytes (ubit2pbit chunk)

/-- A sub-channel set up so that the demultiplexer can work: there is a callback, the buffer is not empty (and made of whole bytes for the
callback that wants bytes). -/
structure Ready (s : Sub) : Prop where
  offset : s.offset ≤ 23
  room : s.pending.length < s.size
  callback : s.bits = true ∨ (s.bytes = true ∧ s.size % 8 = 0)

theorem appendBit_spec (s : Sub) (h : Ready s) (b : Bool) : ∃ (chunks : List (List Byte)) (p : List Byte), appendBit s b = some ({ s with pending := p }, chunks.map (deliver s)) ∧
    s.pending ++ [ubitOf b] = chunks.flatten ++ p ∧ (∀ c ∈ chunks, c.length = s.size) ∧ p.length < s.size := by
  unfold appendBit flush
  have hr := h.room
  rw [if_pos hr]
  dsimp only
  by_cases hl : s.size ≤ (s.pending ++ [if b then 1#8 else 0#8]).length
  · rw [if_pos hl]
    have hlen : (s.pending ++ [if b then 1#8 else 0#8]).length = s.size := by
      rw [List.length_append] at hl ⊢
      simp only [List.length_singleton] at hl ⊢
      omega
    refine ⟨[s.pending ++ [if b then 1#8 else 0#8]], [], ?_, by simp [ubitOf], by simpa using hlen, by simp; omega⟩
    by_cases hb : s.bits = true
    · rw [if_pos hb]
      simp [deliver, hb]
    · rw [if_neg hb]
      rcases h.callback with hc | ⟨hc, hc'⟩
      · exact absurd hc hb
      · rw [if_pos ⟨by rw [hlen]; exact hc', hc⟩]
        simp [deliver, hb]
  · rw [if_neg hl]
    exact ⟨[], s.pending ++ [if b then 1#8 else 0#8], rfl, by simp [ubitOf], by simp, by omega⟩

theorem appendBits_spec (bs : List Bool) : ∀ (s : Sub), Ready s → ∃ (chunks : List (List Byte)) (p : List Byte),
    appendBits s bs = some ({ s with pending := p }, chunks.map (deliver s)) ∧
    s.pending ++ bs.map ubitOf = chunks.flatten ++ p ∧ (∀ c ∈ chunks, c.length = s.size) ∧ p.length < s.size := by
  induction bs with
  | nil => intro s h; exact ⟨[], s.pending, rfl, by simp, by simp, h.room⟩
  | cons b bs ih =>
    intro s h
    obtain ⟨c1, p1, a1, a2, a3, a4⟩ := appendBit_spec s h b
    obtain ⟨c2, p2, b1, b2, b3, b4⟩ := ih { s with pending := p1 } ⟨h.offset, a4, h.callback⟩
    dsimp only at b1 b2 b3 b4
    refine ⟨c1 ++ c2, p2, ?_, ?_, ?_, b4⟩
    · unfold appendBits
      rw [a1]
      dsimp only [bind, Option.bind]
      rw [b1]
      dsimp only
      rw [List.map_append]
      rfl
    · rw [List.flatten_append, List.append_assoc, ← b2, ← List.append_assoc, ← a2]
      simp
    · intro c hc
      rcases List.mem_append.mp hc with hc | hc
      · exact a3 c hc
      · exact b3 c hc

theorem masks_field (r : Rate) (off : Nat) (b : Byte) :
    ((masks r).map fun m => ubitOf (decide ((b <<< off) &&& m ≠ 0#8))) = field r.width off b := by
  have key : ∀ i < 8, ubitOf (decide ((b <<< off) &&& (1#8 <<< (7 - i)) ≠ 0#8)) = ubitOf (b.getMsbD (off + i)) := by
    intro i hi
    congr 1
    have := and_bit_ne_zero (b <<< off) (k := 7 - i) (by omega)
    simp only [this]
    rw [BitVec.getLsbD_shiftLeft, BitVec.getMsbD]
    by_cases h : off + i < 8
    · rw [show 7 - i - off = 8 - 1 - (off + i) by omega]
      simp [show 7 - i < 8 by omega, show ¬ 7 - i < off by omega, h]
    · simp [show 7 - i < off by omega, h]
  cases r
  · rfl
  all_goals
    unfold masks field Rate.width
    simp only [List.map_cons, List.map_nil, List.range, List.range.loop]
  · rw [← key 0 (by omega), ← key 1 (by omega), ← key 2 (by omega), ← key 3 (by omega), ← key 4 (by omega), ← key 5 (by omega),
      ← key 6 (by omega), ← key 7 (by omega)]
    rfl
  · rw [← key 0 (by omega), ← key 1 (by omega), ← key 2 (by omega), ← key 3 (by omega)]
    rfl
  · rw [← key 0 (by omega), ← key 1 (by omega)]
    rfl
  · rw [← key 0 (by omega)]
    rfl

/-- C89: what is delivered to a sub-channel: the bits at its place of each byte, cut into pieces of the size asked for. -/
theorem extractBits_spec (data : List Byte) : ∀ (s : Sub), s.rate ≠ .off → Ready s → ∃ (chunks : List (List Byte)) (p : List Byte),
    extractBits s data = some ({ s with pending := p }, chunks.map (deliver s)) ∧
    s.pending ++ subBits s data = chunks.flatten ++ p ∧ (∀ c ∈ chunks, c.length = s.size) ∧ p.length < s.size := by
  induction data with
  | nil => intro s _ h; exact ⟨[], s.pending, rfl, by simp [subBits], by simp, h.room⟩
  | cons d data ih =>
    intro s hr h
    obtain ⟨c1, p1, a1, a2, a3, a4⟩ := appendBits_spec ((masks s.rate).map fun m => (d <<< s.offset) &&& m ≠ 0#8) s h
    obtain ⟨c2, p2, b1, b2, b3, b4⟩ := ih { s with pending := p1 } hr ⟨h.offset, a4, h.callback⟩
    dsimp only at b1 b2 b3 b4
    refine ⟨c1 ++ c2, p2, ?_, ?_, ?_, b4⟩
    · unfold extractBits
      rw [if_neg (fun h' => h'.elim hr fun h'' => absurd h.offset (by omega)), a1]
      dsimp only [bind, Option.bind]
      rw [b1]
      dsimp only
      rw [List.map_append]
      rfl
    · rw [List.flatten_append, List.append_assoc, ← b2, ← List.append_assoc, ← a2, List.map_map]
      have := masks_field s.rate s.offset d
      unfold subBits
      rw [List.flatMap_cons, ← this]
      simp [Function.comp_def]
    · intro c hc
      rcases List.mem_append.mp hc with hc | hc
      · exact a3 c hc
      · exact b3 c hc

/-- The calls for sub-channel `i`. -/
def callsOf (i : Nat) (calls : List (Nat × Call)) : List Call := (calls.filter fun c => c.1 == i).map (·.2)

/-- What a sub-channel gets from data (in any number of calls of the demultiplexer): `s` before, `s'` after. -/
def Gets (s s' : Sub) (calls : List Call) (data : List Byte) : Prop :=
  (s.rate = .off → s' = s ∧ calls = []) ∧
  (s.rate ≠ .off → ∃ (chunks : List (List Byte)) (p : List Byte), s' = { s with pending := p } ∧ calls = chunks.map (deliver s) ∧
    s.pending ++ subBits s data = chunks.flatten ++ p ∧ (∀ c ∈ chunks, c.length = s.size) ∧ p.length < s.size)

theorem callsOf_map_ne (i k : Nat) (h : k ≠ i) (c : List Call) : callsOf i (c.map (k, ·)) = [] := by
  unfold callsOf
  rw [List.map_eq_nil_iff, List.filter_eq_nil_iff]
  intro x hx
  obtain ⟨y, -, rfl⟩ := List.mem_map.mp hx
  simpa using h

theorem callsOf_map_eq (i : Nat) (c : List Call) : callsOf i (c.map (i, ·)) = c := by
  unfold callsOf
  rw [List.filter_eq_self.mpr, List.map_map]
  · simp [Function.comp_def]
  · intro x hx
    obtain ⟨y, -, rfl⟩ := List.mem_map.mp hx
    simp

theorem callsOf_append (i : Nat) (a b : List (Nat × Call)) : callsOf i (a ++ b) = callsOf i a ++ callsOf i b := by
  simp [callsOf]

theorem demuxAll_spec (data : List Byte) (ts : List Sub) : ∀ k, (∀ s ∈ ts, s.rate ≠ .off → Ready s) →
    ∃ ts' calls, demuxAll k ts data = some (ts', calls) ∧ ts'.length = ts.length ∧ (∀ i < k, callsOf i calls = []) ∧
      ∀ (i : Nat) (s : Sub), ts[i]? = some s → ∃ s' : Sub, ts'[i]? = some s' ∧ Gets s s' (callsOf (k + i) calls) data := by
  induction ts with
  | nil => intro k _; exact ⟨[], [], rfl, rfl, fun _ _ => rfl, by simp⟩
  | cons s ts ih =>
    intro k h
    obtain ⟨ts', calls, a1, a2, a3, a4⟩ := ih (k + 1) (fun x hx => h x (by simp [hx]))
    by_cases hr : s.rate = .off
    · refine ⟨s :: ts', calls, ?_, by simp [a2], fun i hi => a3 i (by omega), ?_⟩
      · unfold demuxAll
        rw [if_pos hr, a1]
        rfl
      · intro i x hx
        cases i with
        | zero =>
          simp only [List.getElem?_cons_zero, Option.some.injEq] at hx
          subst hx
          exact ⟨s, rfl, fun _ => ⟨rfl, a3 k (by omega)⟩, fun h => absurd hr h⟩
        | succ i =>
          rw [List.getElem?_cons_succ] at hx
          obtain ⟨s', e1, e2⟩ := a4 i x hx
          exact ⟨s', by simpa using e1, by rwa [show k + (i + 1) = k + 1 + i by omega]⟩
    · obtain ⟨c, p, b1, b2⟩ := extractBits_spec data s hr (h s (by simp) hr)
      refine ⟨{ s with pending := p } :: ts', (c.map (deliver s)).map (k, ·) ++ calls, ?_, by simp [a2], ?_, ?_⟩
      · unfold demuxAll
        rw [if_neg hr, b1]
        dsimp only [bind, Option.bind]
        rw [a1]
      · intro i hi
        rw [callsOf_append, callsOf_map_ne i k (by omega), a3 i (by omega)]
        rfl
      · intro i x hx
        cases i with
        | zero =>
          simp only [List.getElem?_cons_zero, Option.some.injEq] at hx
          subst hx
          refine ⟨_, rfl, fun h => absurd h hr, fun _ => ⟨c, p, rfl, ?_, b2⟩⟩
          rw [callsOf_append, Nat.add_zero, callsOf_map_eq, a3 k (by omega), List.append_nil]
        | succ i =>
          rw [List.getElem?_cons_succ] at hx
          obtain ⟨s', e1, e2⟩ := a4 i x hx
          refine ⟨s', by simpa using e1, ?_⟩
          rw [callsOf_append, callsOf_map_ne _ k (by omega), List.nil_append, show k + (i + 1) = k + 1 + i by omega]
          exact e2

/-- Several calls of `osmo_i460_demux_in`, one after the other. -/
def demuxRun : List Sub → List (List Byte) → Option (List Sub × List (Nat × Call))
  | ts, [] => some (ts, [])
  | ts, d :: ds => do
    let (ts, c) ← demuxIn ts d
    let (ts, c') ← demuxRun ts ds
    some (ts, c ++ c')

theorem single64k_eq {ts ts' : List Sub} (hl : ts'.length = ts.length)
    (h : ∀ (i : Nat) (s : Sub), ts[i]? = some s → ∃ s' : Sub, ts'[i]? = some s' ∧ s'.rate = s.rate) : single64k ts' = single64k ts := by
  have hm : ts'.map (·.rate) = ts.map (·.rate) := by
    apply List.ext_getElem? 
    intro i
    rw [List.getElem?_map, List.getElem?_map]
    cases hi : ts[i]? with
    | none =>
      rw [List.getElem?_eq_none_iff] at hi
      rw [List.getElem?_eq_none (by omega)]
    | some s =>
      obtain ⟨s', e1, e2⟩ := h i s hi
      rw [e1]
      simp [e2]
  have hc : ∀ l : List Sub, count l = (l.map (·.rate)).countP fun r => r ≠ .off := by
    intro l
    unfold count
    rw [List.countP_map]
    rfl
  unfold single64k
  rw [hc, hc, ← List.head?_map, ← List.head?_map, hm]

theorem Gets.rate {s s' : Sub} {c : List Call} {d : List Byte} (h : Gets s s' c d) : s'.rate = s.rate := by
  by_cases hr : s.rate = .off
  · rw [(h.1 hr).1]
  · obtain ⟨ch, p, e, -⟩ := h.2 hr
    rw [e]

theorem Gets.trans {s s' s'' : Sub} {c c' : List Call} {d d' : List Byte} (h : Gets s s' c d) (h' : Gets s' s'' c' d') :
    Gets s s'' (c ++ c') (d ++ d') := by
  constructor
  · intro hr
    obtain ⟨rfl, rfl⟩ := h.1 hr
    obtain ⟨rfl, rfl⟩ := h'.1 hr
    exact ⟨rfl, rfl⟩
  · intro hr
    obtain ⟨ch, p, e1, e2, e3, e4, e5⟩ := h.2 hr
    obtain ⟨ch', p', f1, f2, f3, f4, f5⟩ := h'.2 (by rw [h.rate]; exact hr)
    subst e1
    refine ⟨ch ++ ch', p', f1, ?_, ?_, ?_, f5⟩
    · rw [e2, f2, List.map_append]
      rfl
    · unfold subBits at *
      dsimp only at f3
      rw [List.flatMap_append, List.flatten_append, ← List.append_assoc, e3, List.append_assoc, f3, List.append_assoc]
    · intro x hx
      rcases List.mem_append.mp hx with hx | hx
      · exact e4 x hx
      · exact f4 x hx

/-- C89: with several sub-channels, whatever data is fed to the demultiplexer in whatever pieces: each sub-channel gets the bits at its
place, in order, in buffers of the size it asked for; what is left waits for more. -/
theorem demux_spec (ds : List (List Byte)) : ∀ (ts : List Sub), single64k ts = false → (∀ s ∈ ts, s.rate ≠ .off → Ready s) →
    ∃ ts' calls, demuxRun ts ds = some (ts', calls) ∧ ts'.length = ts.length ∧
      ∀ (i : Nat) (s : Sub), ts[i]? = some s → ∃ s' : Sub, ts'[i]? = some s' ∧ Gets s s' (callsOf i calls) ds.flatten := by
  induction ds with
  | nil =>
    intro ts _ h
    refine ⟨ts, [], rfl, rfl, fun i s hs => ⟨s, hs, fun _ => ⟨rfl, rfl⟩, fun hr => ⟨[], s.pending, rfl, rfl, by simp [subBits], by simp, ?_⟩⟩⟩
    exact (h s (List.mem_of_getElem? hs) hr).room
  | cons d ds ih =>
    intro ts h1 h
    obtain ⟨ts1, c1, a1, a2, -, a4⟩ := demuxAll_spec d ts 0 h
    have hrate : ∀ (i : Nat) (s : Sub), ts[i]? = some s → ∃ s' : Sub, ts1[i]? = some s' ∧ s'.rate = s.rate := by
      intro i s hs
      obtain ⟨s', e1, e2⟩ := a4 i s hs
      exact ⟨s', e1, e2.rate⟩
    have hready : ∀ s ∈ ts1, s.rate ≠ .off → Ready s := by
      intro s' hs' hr
      obtain ⟨i, hi⟩ := List.mem_iff_getElem?.mp hs'
      have hil : i < ts.length := by
        have := (List.getElem?_eq_some_iff.mp hi).1
        omega
      obtain ⟨s2, e1, e2⟩ := a4 i ts[i] (List.getElem?_eq_getElem hil)
      rw [hi, Option.some.injEq] at e1
      subst e1
      have hr' : ts[i].rate ≠ .off := by rw [← e2.rate]; exact hr
      have hR := h ts[i] (List.getElem_mem hil) hr'
      obtain ⟨ch, p, f1, -, -, -, f5⟩ := e2.2 hr'
      rw [f1]
      exact ⟨hR.offset, f5, hR.callback⟩
    obtain ⟨ts2, c2, b1, b2, b4⟩ := ih ts1 (by rw [single64k_eq a2 hrate]; exact h1) hready
    refine ⟨ts2, c1 ++ c2, ?_, by omega, ?_⟩
    · unfold demuxRun demuxIn
      rw [if_neg (by rw [h1]; exact Bool.false_ne_true), a1]
      dsimp only [bind, Option.bind]
      rw [b1]
    · intro i s hs
      obtain ⟨s1, e1, e2⟩ := a4 i s hs
      rw [Nat.zero_add] at e2
      obtain ⟨s2, f1, f2⟩ := b4 i s1 e1
      refine ⟨s2, f1, ?_⟩
      rw [callsOf_append, List.flatten_cons]
      exact e2.trans f2

/-- C89: the buffers, their number and the rest do not depend on how the pieces are cut: a string is cut into buffers in one way only. -/
theorem cut_unique {n : Nat} (a : List (List Byte)) : ∀ (b : List (List Byte)) (p q : List Byte), a.flatten ++ p = b.flatten ++ q →
    (∀ c ∈ a, c.length = n) → (∀ c ∈ b, c.length = n) → p.length < n → q.length < n → a = b ∧ p = q := by
  induction a with
  | nil =>
    intro b p q h _ hb hp _
    cases b with
    | nil => exact ⟨rfl, by simpa using h⟩
    | cons x b =>
      have := congrArg List.length h
      have hx := hb x (by simp)
      simp at this
      omega
  | cons x a ih =>
    intro b p q h ha hb hp hq
    cases b with
    | nil =>
      have := congrArg List.length h
      have hx := ha x (by simp)
      simp at this
      omega
    | cons y b =>
      rw [List.flatten_cons, List.flatten_cons, List.append_assoc, List.append_assoc] at h
      obtain ⟨rfl, h'⟩ := List.append_inj h ((ha x (by simp)).trans (hb y (by simp)).symm)
      obtain ⟨rfl, rfl⟩ := ih b p q h' (fun c hc => ha c (by simp [hc])) (fun c hc => hb c (by simp [hc])) hp hq
      exact ⟨rfl, rfl⟩

/-- C89: buffers given as bytes: their bits, most significant first, are the bits of the sub-channel. -/
theorem deliver_bytes (c : List Byte) (hc : IsUbits c) (h8 : c.length % 8 = 0) :
    (ubit2pbit c).flatMap (field 8 0) = c ∧ (ubit2pbit c).length = c.length / 8 := by
  obtain ⟨-, hl, hb, -⟩ := ubit2pbit_spec c hc
  refine ⟨?_, by omega⟩
  have gen : ∀ (l : List Byte), l.flatMap (field 8 0) = (List.range (8 * l.length)).map fun j => ubitOf (msb l j) := by
    intro l
    induction l with
    | nil => rfl
    | cons x l ih =>
      rw [List.flatMap_cons, ih, List.length_cons, show 8 * (l.length + 1) = 8 + 8 * l.length by omega, List.range_add, List.map_append,
        List.map_map]
      congr 1
      apply List.map_congr_left
      · intro i _
        unfold msb bitAt bitNum
        dsimp only [Function.comp_apply]
        rw [show (8 + i) / 8 = i / 8 + 1 by omega, show (8 + i) % 8 = i % 8 by omega]
        simp
  rw [gen]
  apply List.ext_getElem (by simp; omega)
  intro n h1 h2
  simp only [List.getElem_map, List.getElem_range]
  rw [hb n h2]
  exact ubitOf_getLsbD (hc _ (List.getElem_mem h2))

theorem isUbits_subBits (s : Sub) (data : List Byte) : IsUbits (subBits s data) := by
  intro b hb
  unfold subBits at hb
  obtain ⟨d, -, hb⟩ := List.mem_flatMap.mp hb
  obtain ⟨i, -, rfl⟩ := List.mem_map.mp hb
  unfold ubitOf
  split <;> simp

/-- C89: one sub-channel of 64 kbit/s: all data is handed on at once. -/
theorem demux_fast (ts : List Sub) (s : Sub) (data : List Byte) (h : single64k ts = true) (h0 : ts[0]? = some s) :
    (s.bytes = true → demuxIn ts data = some (ts, [(0, .bytes data)])) ∧
    (s.bytes = false → s.bits = true → data ≠ [] → demuxIn ts data = some (ts, [(0, .bits (data.flatMap (field 8 0)))])) := by
  have hh : ts.head? = some s := by
    cases ts with
    | nil => simp at h0
    | cons x ts => simpa using h0
  unfold demuxIn
  rw [if_pos h, hh]
  dsimp only [bind, Option.bind]
  unfold demuxFast
  constructor
  · intro hb
    rw [if_pos hb]
  · intro hb hb' hd
    rw [if_neg (by simp [hb]), if_pos hb']
    have hpos : 0 < data.length := List.length_pos_iff.mpr hd
    have hu : IsUbits (data.flatMap (field 8 0)) := isUbits_subBits ⟨.k64, 0, [], 0, false, false, [], []⟩ data
    have hl : (data.flatMap (field 8 0)).length = data.length * 8 := by
      clear hd hpos hu
      induction data with
      | nil => rfl
      | cons x l ih => rw [List.flatMap_cons, List.length_append, ih]; simp [field]; omega
    have h1 := deliver_bytes (data.flatMap (field 8 0)) hu (by rw [hl]; omega)
    rw [hl] at h1
    have hinj : ubit2pbit (data.flatMap (field 8 0)) = data := by
      have hall : ∀ (a b : List Byte), a.length = b.length → a.flatMap (field 8 0) = b.flatMap (field 8 0) → a = b := by
        intro a
        induction a with
        | nil => intro b hl _; exact (List.length_eq_zero_iff.mp hl.symm).symm
        | cons x a ih =>
          intro b hl he
          cases b with
          | nil => simp at hl
          | cons y b =>
            rw [List.flatMap_cons, List.flatMap_cons] at he
            obtain ⟨e1, e2⟩ := List.append_inj he (by simp [field])
            rw [ih b (by simpa using hl) e2]
            congr 1
            apply BitVec.eq_of_getMsbD_eq
            intro i hi
            have := congrArg (fun l : List Byte => l[i]?) e1
            simp only [field, List.getElem?_map, List.getElem?_range hi, Option.map_some, Option.some.injEq, Nat.zero_add] at this
            cases hx : x.getMsbD i <;> cases hy : y.getMsbD i <;> simp [hx, hy, ubitOf] at this ⊢
      exact hall _ _ (by rw [h1.2]; omega) h1.1
    have h2 := pack_unpack_partial (data.flatMap (field 8 0)) hu (by intro e; rw [e] at hl; simp at hl; omega)
    rw [hinj, hl] at h2
    rw [h2]
    rfl

/-- C89, where it goes wrong: called without data, the demultiplexer of a single 64 kbit/s channel with a callback for bits reads a byte. -/
theorem demux_empty_counterexample : demuxIn [⟨.k64, 0, [], 8, true, false, [], []⟩] [] = none := by decide

/-! ### multiplexer -/

/-- What a sub-channel still has to send: bits, and what the callback will come up with each time there are none left. -/
def source (s : Sub) : List Byte × List (List Byte) := (s.queue.flatten, s.refill.map List.flatten)

/-- The next bit: 1 when there is nothing to send. -/
def next : List Byte × List (List Byte) → Byte × List Byte × List (List Byte)
  | (b :: p, r) => (b, p, r)
  | ([], []) => (1#8, [], [])
  | ([], [] :: r) => (1#8, [], r)
  | ([], (b :: p) :: r) => (b, p, r)

/-- The next `n` bits. -/
def nextBits : Nat → List Byte × List (List Byte) → List Byte × List Byte × List (List Byte)
  | 0, x => ([], x)
  | n + 1, x => ((next x).1 :: (nextBits n (next x).2).1, (nextBits n (next x).2).2)

/-- Without a callback: what is in the queue, then ones. -/
theorem nextBits_queue (n : Nat) : ∀ p : List Byte, nextBits n (p, []) = (p.take n ++ List.replicate (n - p.length) 1#8, p.drop n, []) := by
  induction n with
  | zero => intro p; simp [nextBits]
  | succ n ih =>
    intro p
    cases p with
    | nil => simp [nextBits, next, ih, List.replicate_succ]
    | cons b p => simp [nextBits, next, ih]

theorem nextBits_length (n : Nat) : ∀ x, (nextBits n x).1.length = n := by
  induction n with
  | zero => intro x; rfl
  | succ n ih => intro x; simp [nextBits, ih]

theorem nextBits_add (m n : Nat) : ∀ x, nextBits (m + n) x = ((nextBits m x).1 ++ (nextBits n (nextBits m x).2).1, (nextBits n (nextBits m x).2).2) := by
  induction m with
  | zero => intro x; simp [nextBits]
  | succ m ih =>
    intro x
    rw [show m + 1 + n = m + n + 1 by omega]
    simp [nextBits, ih]

/-- Messages that are not empty and hold bits. -/
structure Sound (s : Sub) : Prop where
  queue : ∀ m ∈ s.queue, m ≠ [] ∧ IsUbits m
  refill : ∀ r ∈ s.refill, ∀ m ∈ r, m ≠ [] ∧ IsUbits m

theorem enqueueAll (r : List (List Byte)) : ∀ (s : Sub), (∀ m ∈ r, m ≠ []) → r.foldlM enqueue s = some { s with queue := s.queue ++ r } := by
  induction r with
  | nil => intro s _; simp
  | cons m r ih =>
    intro s h
    rw [List.foldlM_cons]
    have he : enqueue s m = some { s with queue := s.queue ++ [m] } := by
      unfold enqueue
      rw [if_pos (List.length_pos_iff.mpr (h m (by simp)))]
    rw [he]
    dsimp only [bind, Option.bind]
    rw [ih _ (fun x hx => h x (by simp [hx]))]
    simp

theorem takeBit_spec (s : Sub) (h : Sound s) : ∃ b q, takeBit s = some (b, { s with queue := q }) ∧
    Sound { s with queue := q } ∧ (b = 0#8 ∨ b = 1#8) ∧
    (s.queue = [] → b = 1#8 ∧ q = []) ∧ (s.queue ≠ [] → s.queue.flatten = b :: q.flatten) := by
  unfold takeBit
  cases hq : s.queue with
  | nil =>
    have hs : s = { s with queue := [] } := by rw [← hq]
    exact ⟨1#8, [], by rw [← hs], by rw [← hs]; exact h, Or.inr rfl, fun _ => ⟨rfl, rfl⟩, fun h => absurd rfl h⟩
  | cons m q =>
    have hm := h.queue m (by rw [hq]; simp)
    cases m with
    | nil => exact absurd rfl hm.1
    | cons b bs =>
      refine ⟨b, if bs.length = 0 then q else bs :: q, rfl, ⟨?_, h.refill⟩, hm.2 b (by simp), fun h => absurd h (by simp), fun _ => ?_⟩
      · dsimp only
        intro m hm'
        split at hm'
        · exact h.queue m (by rw [hq]; simp [hm'])
        · rename_i hb
          rcases List.mem_cons.mp hm' with rfl | hm'
          · exact ⟨fun e => hb (by rw [e]; rfl), fun x hx => hm.2 x (by simp [hx])⟩
          · exact h.queue m (by rw [hq]; simp [hm'])
      · split
        · rename_i hb
          rw [List.length_eq_zero_iff] at hb
          subst hb
          simp
        · simp

theorem provideBit_spec (s : Sub) (h : Sound s) : ∃ b q r, provideBit s = some (b, { s with queue := q, refill := r }) ∧
    Sound { s with queue := q, refill := r } ∧ (b = 0#8 ∨ b = 1#8) ∧ next (source s) = (b, source { s with queue := q, refill := r }) := by
  unfold provideBit
  by_cases hq : s.queue = []
  · rw [if_pos hq]
    unfold askMore
    cases hr : s.refill with
    | nil =>
      obtain ⟨b, q, e1, e2, e3, e4, -⟩ := takeBit_spec s h
      obtain ⟨rfl, rfl⟩ := e4 hq
      refine ⟨1#8, [], [], ?_, ?_, e3, ?_⟩
      · dsimp only [Option.bind]
        rw [e1, ← hr]
      · rw [← hr]; exact e2
      · unfold source
        rw [hq, hr]
        rfl
    | cons m r =>
      dsimp only
      have hm := h.refill m (by rw [hr]; simp)
      rw [enqueueAll m _ (fun x hx => (hm x hx).1)]
      dsimp only [Option.bind]
      rw [hq, List.nil_append]
      have hs : Sound { s with queue := m, refill := r } := ⟨hm, fun x hx => h.refill x (by rw [hr]; simp [hx])⟩
      obtain ⟨b, q, e1, e2, e3, e4, e5⟩ := takeBit_spec { s with queue := m, refill := r } hs
      refine ⟨b, q, r, e1, e2, e3, ?_⟩
      unfold source
      rw [hq, hr]
      dsimp only at e4 e5 ⊢
      by_cases hm0 : m = []
      · obtain ⟨rfl, rfl⟩ := e4 hm0
        rw [hm0]
        rfl
      · rw [List.map_cons, e5 hm0]
        rfl
  · rw [if_neg hq]
    obtain ⟨b, q, e1, e2, e3, -, e5⟩ := takeBit_spec s h
    refine ⟨b, q, s.refill, e1, e2, e3, ?_⟩
    unfold source
    dsimp only
    rw [e5 hq]
    rfl

/-- the bits or-ed together -/
def orBits : List Nat → List Byte → Byte → Byte
  | n :: ns, b :: bs, acc => orBits ns bs (acc ||| (b <<< n))
  | _, _, acc => acc

theorem collect_spec (ns : List Nat) : ∀ (acc : Byte) (s : Sub), Sound s → ∃ q r, Sound { s with queue := q, refill := r } ∧
    IsUbits (nextBits ns.length (source s)).1 ∧ (nextBits ns.length (source s)).2 = source { s with queue := q, refill := r } ∧
    collect ns acc s = some (orBits ns (nextBits ns.length (source s)).1 acc, { s with queue := q, refill := r }) := by
  induction ns with
  | nil => intro acc s h; exact ⟨s.queue, s.refill, h, by intro b hb; simp [nextBits] at hb, rfl, rfl⟩
  | cons n ns ih =>
    intro acc s h
    obtain ⟨b, q, r, e1, e2, e3, e4⟩ := provideBit_spec s h
    obtain ⟨q', r', f1, f2, f3, f4⟩ := ih (acc ||| (b <<< n)) { s with queue := q, refill := r } e2
    refine ⟨q', r', f1, ?_, ?_, ?_⟩
    · rw [List.length_cons, nextBits, e4]
      intro x hx
      rcases List.mem_cons.mp hx with rfl | hx
      · exact e3
      · exact f2 x hx
    · rw [List.length_cons, nextBits, e4]
      exact f3
    · unfold collect
      rw [e1]
      dsimp only [bind, Option.bind]
      rw [f4, List.length_cons, nextBits, e4]
      rfl

theorem orBits_shifts (r : Rate) (off : Nat) (bs : List Byte) (hl : bs.length = r.width) (hu : IsUbits bs) (ho : off + r.width ≤ 8) :
    field r.width off (orBits (shifts r) bs 0#8 >>> off) = bs ∧
    (∀ p, (orBits (shifts r) bs 0#8 >>> off).getMsbD p = true → (outmask r >>> off).getMsbD p = true) ∧
    ∀ p < 8, (outmask r >>> off).getMsbD p = decide (off ≤ p ∧ p < off + r.width) := by
  have two : ∀ b ∈ bs, b ∈ [0#8, 1#8] := fun b hb => by rcases hu b hb with h | h <;> simp [h]
  have m8 : ∀ r : Rate, ∀ off < 9, off + r.width ≤ 8 → ∀ p < 8, (outmask r >>> off).getMsbD p = decide (off ≤ p ∧ p < off + r.width) := by
    intro r
    cases r <;> decide +kernel
  have hlt : ∀ (b : Byte) p, b.getMsbD p = true → p < 8 := fun b p h => by
    rw [BitVec.getMsbD] at h
    simp at h
    exact h.1
  refine ⟨?_, ?_, m8 r off (by omega) ho⟩
  · cases r with
    | off =>
      cases bs with
      | nil => rfl
      | cons b bs => simp [Rate.width] at hl
    | k8 =>
      match bs, hl with
      | [a], _ =>
        have key : ∀ off < 8, ∀ a ∈ [0#8, 1#8], field Rate.k8.width off (orBits (shifts .k8) [a] 0#8 >>> off) = [a] := by decide +kernel
        exact key off (by simp only [Rate.width] at ho; omega) a (two a (by simp))
    | k16 =>
      match bs, hl with
      | [a, b], _ =>
        have key : ∀ off < 7, ∀ a ∈ [0#8, 1#8], ∀ b ∈ [0#8, 1#8], field Rate.k16.width off (orBits (shifts .k16) [a, b] 0#8 >>> off) = [a, b] := by decide +kernel
        exact key off (by simp only [Rate.width] at ho; omega) a (two a (by simp)) b (two b (by simp))
    | k32 =>
      match bs, hl with
      | [a, b, c, d], _ =>
        have key : ∀ off < 5, ∀ a b c d : Bool, field Rate.k32.width off (orBits (shifts .k32) [ubitOf a, ubitOf b, ubitOf c, ubitOf d] 0#8 >>> off) =
            [ubitOf a, ubitOf b, ubitOf c, ubitOf d] := by decide +kernel
        have := key off (by simp only [Rate.width] at ho; omega) (a.getLsbD 0) (b.getLsbD 0) (c.getLsbD 0) (d.getLsbD 0)
        rwa [ubitOf_getLsbD (hu a (by simp)), ubitOf_getLsbD (hu b (by simp)), ubitOf_getLsbD (hu c (by simp)), ubitOf_getLsbD (hu d (by simp))] at this
    | k64 =>
      match bs, hl with
      | [a, b, c, d, e, f, g, h], _ =>
        have key : ∀ off < 1, ∀ a b c d e f g h : Bool, field Rate.k64.width off (orBits (shifts .k64) [ubitOf a, ubitOf b, ubitOf c, ubitOf d, ubitOf e, ubitOf f, ubitOf g, ubitOf h] 0#8 >>> off) =
            [ubitOf a, ubitOf b, ubitOf c, ubitOf d, ubitOf e, ubitOf f, ubitOf g, ubitOf h] := by decide +kernel
        have := key off (by simp only [Rate.width] at ho; omega) (a.getLsbD 0) (b.getLsbD 0) (c.getLsbD 0) (d.getLsbD 0) (e.getLsbD 0) (f.getLsbD 0) (g.getLsbD 0) (h.getLsbD 0)
        rwa [ubitOf_getLsbD (hu a (by simp)), ubitOf_getLsbD (hu b (by simp)), ubitOf_getLsbD (hu c (by simp)), ubitOf_getLsbD (hu d (by simp)), ubitOf_getLsbD (hu e (by simp)), ubitOf_getLsbD (hu f (by simp)), ubitOf_getLsbD (hu g (by simp)), ubitOf_getLsbD (hu h (by simp))] at this
  · intro p hp
    have hp8 := hlt _ p hp
    rw [m8 r off (by omega) ho p hp8, decide_eq_true_eq]
    rw [BitVec.getMsbD_ushiftRight] at hp
    simp only [hp8, decide_true, Bool.true_and, Bool.and_eq_true, Bool.not_eq_true', decide_eq_false_iff_not] at hp
    refine ⟨by omega, ?_⟩
    have hx : ∀ i, r.width ≤ i → (orBits (shifts r) bs 0#8).getMsbD i = false := by
      intro i hi
      by_cases hi8 : i < 8
      · have gen : ∀ (ns : List Nat) (bs : List Byte) (acc : Byte), IsUbits bs → (∀ n ∈ ns, n < 8 ∧ n ≠ 7 - i) → acc.getLsbD (7 - i) = false →
            (orBits ns bs acc).getLsbD (7 - i) = false := by
          intro ns
          induction ns with
          | nil => intro bs acc _ _ ha; unfold orBits; exact ha
          | cons n ns ih =>
            intro bs acc hu hn ha
            cases bs with
            | nil => unfold orBits; exact ha
            | cons b bs =>
              unfold orBits
              apply ih bs _ (fun x hx => hu x (by simp [hx])) (fun x hx => hn x (by simp [hx]))
              rw [BitVec.getLsbD_or, ha, BitVec.getLsbD_shiftLeft, Bool.false_or]
              have := hn n (by simp)
              rcases hu b (by simp) with hb | hb <;> subst hb
              · simp
              · by_cases h7 : 7 - i < n
                · simp [h7]
                · simp only [BitVec.getLsbD_one]
                  have : 7 - i - n ≠ 0 := by omega
                  simp [this]
        rw [BitVec.getMsbD]
        simp only [hi8, decide_true, Bool.true_and]
        apply gen _ _ _ hu _ (by simp)
        cases r <;> simp only [shifts, Rate.width] at hi ⊢ <;> simp <;> omega
      · rw [BitVec.getMsbD]
        simp [hi8]
    by_cases hlt2 : p < off + r.width
    · exact hlt2
    · have := hx (p - off) (by omega)
      rw [this] at hp
      simp at hp

/-- The place of a sub-channel in the byte. -/
def Covers (s : Sub) (p : Nat) : Prop := s.offset ≤ p ∧ p < s.offset + s.rate.width

/-- A layout that makes sense: within the byte, and no two at the same place. -/
structure Layout (ts : List Sub) : Prop where
  inside : ∀ s ∈ ts, s.offset + s.rate.width ≤ 8
  apart : ts.Pairwise fun a b => ∀ p, Covers a p → ¬ Covers b p

/-- What a sub-channel gives to one or more bytes. -/
def Gives (s s' : Sub) (out : List Byte) : Prop :=
  s'.rate = s.rate ∧ s'.offset = s.offset ∧ Sound s' ∧ nextBits (out.length * s.rate.width) (source s) = (subBits s out, source s')

theorem muxByteLoop_spec (ts : List Sub) : ∀ (ret : Byte), Layout ts → (∀ s ∈ ts, Sound s) → ∃ b ts', muxByteLoop ts ret = some (b, ts') ∧
    ts'.length = ts.length ∧ (∀ (i : Nat) (s : Sub), ts[i]? = some s → ∃ s' : Sub, ts'[i]? = some s' ∧ Gives s s' [b]) ∧
    ∀ p < 8, (∀ s ∈ ts, ¬ Covers s p) → b.getMsbD p = ret.getMsbD p := by
  induction ts with
  | nil => intro ret _ _; exact ⟨ret, [], rfl, rfl, by simp, fun _ _ _ => rfl⟩
  | cons s ts ih =>
    intro ret hl hs
    have hl' : Layout ts := ⟨fun x hx => hl.inside x (by simp [hx]), (List.pairwise_cons.mp hl.apart).2⟩
    have hs' : ∀ x ∈ ts, Sound x := fun x hx => hs x (by simp [hx])
    by_cases hr : s.rate = .off
    · obtain ⟨b, ts', a1, a2, a3, a4⟩ := ih ret hl' hs'
      refine ⟨b, s :: ts', ?_, by simp [a2], ?_, fun p hp h => a4 p hp fun x hx => h x (by simp [hx])⟩
      · unfold muxByteLoop
        rw [if_pos hr, a1]
        rfl
      · intro i x hx
        cases i with
        | zero =>
          simp only [List.getElem?_cons_zero, Option.some.injEq] at hx
          subst hx
          refine ⟨s, rfl, rfl, rfl, hs s (by simp), ?_⟩
          unfold subBits field
          simp [hr, Rate.width, nextBits]
        | succ i => simpa using a3 i x (by simpa using hx)
    · have ho := hl.inside s (by simp)
      obtain ⟨q, r, c1, c2, c3, c4⟩ := collect_spec (shifts s.rate) 0#8 s (hs s (by simp))
      have hw : (shifts s.rate).length = s.rate.width := by cases s.rate <;> rfl
      rw [hw] at c2 c3 c4
      obtain ⟨o1, o2, o3⟩ := orBits_shifts s.rate s.offset (nextBits s.rate.width (source s)).1 (nextBits_length _ _) c2 ho
      obtain ⟨b, ts', a1, a2, a3, a4⟩ := ih ((ret &&& ~~~(outmask s.rate >>> s.offset)) |||
        (orBits (shifts s.rate) (nextBits s.rate.width (source s)).1 0#8 >>> s.offset)) hl' hs'
      have hap := (List.pairwise_cons.mp hl.apart).1
      refine ⟨b, { s with queue := q, refill := r } :: ts', ?_, by simp [a2], ?_, ?_⟩
      · unfold muxByteLoop provideBits
        rw [if_neg hr, if_neg (fun h' => h'.elim hr fun h'' => absurd h'' (by omega)), c4]
        dsimp only [bind, Option.bind]
        rw [a1]
      · intro i x hx
        cases i with
        | zero =>
          simp only [List.getElem?_cons_zero, Option.some.injEq] at hx
          subst hx
          refine ⟨_, rfl, rfl, rfl, c1, ?_⟩
          rw [List.length_singleton, Nat.one_mul, ← c3]
          refine Prod.ext ?_ rfl
          dsimp only
          unfold subBits
          rw [List.flatMap_cons, List.flatMap_nil, List.append_nil]
          conv => lhs; rw [← o1]
          unfold field
          apply List.map_congr_left
          intro k hk
          rw [List.mem_range] at hk
          congr 1
          rw [a4 (s.offset + k) (by omega) (fun x hx hc => hap x hx _ ⟨by omega, by omega⟩ hc), BitVec.getMsbD_or, BitVec.getMsbD_and,
            BitVec.getMsbD_not, o3 _ (by omega)]
          simp [hk]
        | succ i => simpa using a3 i x (by simpa using hx)
      · intro p hp h
        rw [a4 p hp (fun x hx => h x (by simp [hx])), BitVec.getMsbD_or, BitVec.getMsbD_and, BitVec.getMsbD_not, o3 p hp]
        have hn : ¬ (s.offset ≤ p ∧ p < s.offset + s.rate.width) := h s (by simp)
        have : (orBits (shifts s.rate) (nextBits s.rate.width (source s)).1 0#8 >>> s.offset).getMsbD p = false := by
          rw [← Bool.not_eq_true]
          intro ht
          have := o2 p ht
          rw [o3 p hp, decide_eq_true_eq] at this
          exact hn this
        rw [this, decide_eq_false hn]
        simp [hp]

/-- C89: each sub-channel finds its next bits at its place in the bytes sent, ones when it has none; bits of no sub-channel are one. -/
theorem mux_spec (n : Nat) : ∀ (ts : List Sub), Layout ts → (∀ s ∈ ts, Sound s) → ∃ out ts', muxOut n ts = some (out, ts') ∧ out.length = n ∧
    ts'.length = ts.length ∧ (∀ (i : Nat) (s : Sub), ts[i]? = some s → ∃ s' : Sub, ts'[i]? = some s' ∧ Gives s s' out) ∧
    ∀ b ∈ out, ∀ p < 8, (∀ s ∈ ts, ¬ Covers s p) → b.getMsbD p = true := by
  induction n with
  | zero =>
    intro ts _ hs
    exact ⟨[], ts, rfl, rfl, rfl, fun i s h => ⟨s, h, rfl, rfl, hs s (List.mem_of_getElem? h), by simp [nextBits, subBits]⟩, by simp⟩
  | succ n ih =>
    intro ts hl hs
    obtain ⟨b, ts1, a1, a2, a3, a4⟩ := muxByteLoop_spec ts 0xff#8 hl hs
    have back : ∀ (i : Nat) (s' : Sub), ts1[i]? = some s' → ∃ s : Sub, ts[i]? = some s ∧ Gives s s' [b] := by
      intro i s' hs'
      have hil : i < ts.length := by
        have := (List.getElem?_eq_some_iff.mp hs').1
        omega
      obtain ⟨s2, e1, e2⟩ := a3 i ts[i] (List.getElem?_eq_getElem hil)
      rw [hs', Option.some.injEq] at e1
      subst e1
      exact ⟨ts[i], List.getElem?_eq_getElem hil, e2⟩
    have hl1 : Layout ts1 := by
      constructor
      · intro s' hs'
        obtain ⟨i, hi⟩ := List.mem_iff_getElem?.mp hs'
        obtain ⟨s, e1, e2⟩ := back i s' hi
        rw [e2.1, e2.2.1]
        exact hl.inside s (List.mem_of_getElem? e1)
      · rw [List.pairwise_iff_getElem]
        intro i j hi hj hij p h1 h2
        obtain ⟨s, e1, e2⟩ := back i _ (List.getElem?_eq_getElem hi)
        obtain ⟨t, f1, f2⟩ := back j _ (List.getElem?_eq_getElem hj)
        obtain ⟨hi', rfl⟩ := List.getElem?_eq_some_iff.mp e1
        obtain ⟨hj', rfl⟩ := List.getElem?_eq_some_iff.mp f1
        unfold Covers at h1 h2
        rw [e2.1, e2.2.1] at h1
        rw [f2.1, f2.2.1] at h2
        exact (List.pairwise_iff_getElem.mp hl.apart) i j hi' hj' hij p h1 h2
    have hs1 : ∀ s ∈ ts1, Sound s := by
      intro s' hs'
      obtain ⟨i, hi⟩ := List.mem_iff_getElem?.mp hs'
      obtain ⟨s, -, e2⟩ := back i s' hi
      exact e2.2.2.1
    obtain ⟨out, ts2, b1, b2, b3, b4, b5⟩ := ih ts1 hl1 hs1
    refine ⟨b :: out, ts2, ?_, by simp [b2], by omega, ?_, ?_⟩
    · unfold muxOut muxByte
      rw [a1]
      dsimp only [bind, Option.bind]
      rw [b1]
    · intro i s hi
      obtain ⟨s1, e1, e2, e3, e4, e5⟩ := a3 i s hi
      obtain ⟨s2, f1, f2, f3, f4, f5⟩ := b4 i s1 e1
      refine ⟨s2, f1, by rw [f2, e2], by rw [f3, e3], f4, ?_⟩
      rw [List.length_singleton, Nat.one_mul] at e5
      rw [List.length_cons, Nat.succ_mul, Nat.add_comm, nextBits_add, e5]
      dsimp only
      rw [← e2, f5]
      dsimp only
      unfold subBits
      rw [e2, e3]
      simp
    · intro x hx p hp h
      rcases List.mem_cons.mp hx with rfl | hx
      · rw [a4 p hp h]
        revert p
        clear a4
        intro p hp h
        have : ∀ p < 8, (0xff#8).getMsbD p = true := by decide
        exact this p hp
      · apply b5 x hx p hp
        intro s' hs' hc
        obtain ⟨i, hi⟩ := List.mem_iff_getElem?.mp hs'
        obtain ⟨s, e1, e2⟩ := back i s' hi
        apply h s (List.mem_of_getElem? e1)
        unfold Covers at hc ⊢
        rw [e2.1, e2.2.1] at hc
        exact hc

/-- C89: from end to end: two time slots with sub-channel `i` at the same place.  The bits one sub-channel sends are the bits that the
other gets, whatever the other sub-channels do and however the bytes are cut on their way. -/
theorem mux_demux (n : Nat) (A B : List Sub) (hA : Layout A) (hs : ∀ s ∈ A, Sound s) (hB : single64k B = false)
    (hr : ∀ s ∈ B, s.rate ≠ .off → Ready s) (i : Nat) (a b : Sub) (ha : A[i]? = some a) (hb : B[i]? = some b) (he : b.rate = a.rate)
    (ho : b.offset = a.offset) (hon : a.rate ≠ .off) :
    ∃ out A', muxOut n A = some (out, A') ∧ ∀ ds : List (List Byte), ds.flatten = out → ∃ B' calls, ∃ (chunks : List (List Byte)) (p : List Byte), demuxRun B ds = some (B', calls) ∧
      callsOf i calls = chunks.map (deliver b) ∧ b.pending ++ (nextBits (n * a.rate.width) (source a)).1 = chunks.flatten ++ p ∧
      (∀ c ∈ chunks, c.length = b.size) ∧ p.length < b.size := by
  obtain ⟨out, A', a1, a2, -, a4, -⟩ := mux_spec n A hA hs
  obtain ⟨a', e1, e2, e3, e4, e5⟩ := a4 i a ha
  refine ⟨out, A', a1, fun ds hds => ?_⟩
  obtain ⟨B', calls, b1, b2, b3⟩ := demux_spec ds B hB hr
  obtain ⟨b', f1, f2⟩ := b3 i b hb
  obtain ⟨chunks, p, -, g2, g3, g4, g5⟩ := f2.2 (by rw [he]; exact hon)
  refine ⟨B', calls, chunks, p, b1, g2, ?_, g4, g5⟩
  rw [← a2, e5]
  dsimp only
  rw [← g3, hds]
  unfold subBits
  rw [he, ho]

/-! ### sub-channels -/

/-- C89: a new sub-channel is one that was not used, all others stay; no room gives NULL; without memory nothing is used. -/
theorem add_spec (ts : List Sub) (d : Desc) (hd : d.rate ≠ .off) :
    (∀ i, (add ts d true).1 = some i → ∃ old, ts[i]? = some old ∧ old.rate = .off ∧ count (add ts d true).2 = count ts + 1 ∧
      (∀ j, j ≠ i → (add ts d true).2[j]? = ts[j]?) ∧ (∀ j < i, ∃ s, ts[j]? = some s ∧ s.rate ≠ .off) ∧
      ∃ s, (add ts d true).2[i]? = some s ∧ s.rate = d.rate ∧ s.offset = d.offset ∧ s.size = d.size ∧ s.bits = d.bits ∧ s.bytes = d.bytes ∧
        s.refill = d.refill) ∧
    ((add ts d true).1 = none ↔ count ts = ts.length) ∧
    ((add ts d false).1 = none ∧ count (add ts d false).2 = count ts) := by
  have hcount : ∀ (l : List Sub) (i : Nat) (o n : Sub), l[i]? = some o → o.rate = .off →
      count (l.set i n) = count l + if n.rate = .off then 0 else 1 := by
    intro l
    induction l with
    | nil => intro i o n h; simp at h
    | cons x l ih =>
      intro i o n h ho
      cases i with
      | zero =>
        simp only [List.getElem?_cons_zero, Option.some.injEq] at h
        subst h
        unfold count
        rw [List.set_cons_zero, List.countP_cons, List.countP_cons]
        by_cases hn : n.rate = .off <;> simp [ho, hn]
      | succ i =>
        rw [List.getElem?_cons_succ] at h
        have := ih i o n h ho
        unfold count at this ⊢
        rw [List.set_cons_succ, List.countP_cons, List.countP_cons, this]
        omega
  unfold add
  cases hf : findUnused ts with
  | none =>
    unfold findUnused at hf
    rw [List.findIdx?_eq_none_iff] at hf
    refine ⟨by simp, ⟨fun _ => ?_, fun _ => rfl⟩, rfl, rfl⟩
    unfold count
    rw [List.countP_eq_length]
    intro s hs
    simpa using hf s hs
  | some i =>
    unfold findUnused at hf
    rw [List.findIdx?_eq_some_iff_getElem] at hf
    obtain ⟨hi, h1, h2⟩ := hf
    have h1' : ts[i].rate = .off := by simpa using h1
    have hg : ts[i]? = some ts[i] := List.getElem?_eq_getElem hi
    refine ⟨?_, ?_, rfl, ?_⟩
    · intro k hk
      simp only [if_true, Option.some.injEq] at hk ⊢
      subst hk
      refine ⟨ts[i], hg, h1', ?_, ?_, ?_, ?_⟩
      · rw [hcount ts i ts[i] _ hg h1']
        simp [hd]
      · intro j hj
        rw [List.getElem?_set_ne (Ne.symm hj)]
      · intro j hj
        exact ⟨ts[j], List.getElem?_eq_getElem (by omega), by simpa using h2 j hj⟩
      · exact ⟨_, List.getElem?_set_self hi, rfl, rfl, rfl, rfl, rfl, rfl⟩
    · simp only [if_true, reduceCtorEq, false_iff]
      intro hc
      unfold count at hc
      rw [List.countP_eq_length] at hc
      have := hc ts[i] (List.getElem_mem hi)
      simp [h1'] at this
    · simp only [Bool.false_eq_true, if_false]
      rw [hcount ts i ts[i] _ hg h1']
      rfl

/-- Histories of adding and removing sub-channels, from `osmo_i460_ts_init` on, with messages and data in between. -/
inductive Reach : List Sub → Prop
  | init : Reach init
  | add {ts} (d : Desc) (mem : Bool) : Reach ts → d.rate ≠ .off → Reach (add ts d mem).2
  | del {ts} (i : Nat) : Reach ts → Reach (del ts i)
  | enqueue {ts} (i : Nat) (s s' : Sub) (m : List Byte) : Reach ts → ts[i]? = some s → s.rate ≠ .off → enqueue s m = some s' →
      Reach (ts.set i s')
  | demux {ts ts' c} (data : List Byte) : Reach ts → (∀ s ∈ ts, s.rate ≠ .off → Ready s) → demuxIn ts data = some (ts', c) → Reach ts'
  | mux {ts ts' out} (n : Nat) : Reach ts → Layout ts → (∀ s ∈ ts, Sound s) → muxOut n ts = some (out, ts') → Reach ts'

/-- C89: there are always eight, and those not in use are as after the initialisation: nothing is left of former users. -/
theorem reach_idle {ts : List Sub} (h : Reach ts) : ts.length = 8 ∧ ∀ s ∈ ts, s.rate = .off → s.queue = [] ∧ s.pending = [] := by
  induction h with
  | init =>
    refine ⟨rfl, fun s hs _ => ?_⟩
    rw [List.eq_of_mem_replicate hs]
    exact ⟨rfl, rfl⟩
  | @add ts d mem _ hd ih =>
    unfold I460.add
    cases hf : findUnused ts with
    | none => exact ih
    | some i =>
      dsimp only
      split
      · refine ⟨by simpa using ih.1, fun s hs h => ?_⟩
        rcases List.mem_or_eq_of_mem_set hs with hs | rfl
        · exact ih.2 s hs h
        · exact absurd h hd
      · refine ⟨by simpa using ih.1, fun s hs h => ?_⟩
        rcases List.mem_or_eq_of_mem_set hs with hs | rfl
        · exact ih.2 s hs h
        · exact ⟨rfl, rfl⟩
  | @del ts i _ ih =>
    unfold I460.del
    refine ⟨by simpa using ih.1, fun s hs h => ?_⟩
    rcases List.mem_or_eq_of_mem_set hs with hs | rfl
    · exact ih.2 s hs h
    · exact ⟨rfl, rfl⟩
  | @enqueue ts i s s' m _ hs hr he ih =>
    refine ⟨by simpa using ih.1, fun x hx h => ?_⟩
    rcases List.mem_or_eq_of_mem_set hx with hx | rfl
    · exact ih.2 x hx h
    · unfold I460.enqueue at he
      split at he
      · cases he
        exact absurd h hr
      · cases he
  | @demux ts ts' c data _ hr he ih =>
    by_cases h64 : single64k ts = true
    · unfold demuxIn at he
      rw [if_pos h64] at he
      cases hh : ts.head? with
      | none => rw [hh] at he; cases he
      | some s =>
        rw [hh] at he
        dsimp only [bind, Option.bind] at he
        cases hd : demuxFast s data with
        | none => rw [hd] at he; cases he
        | some c' =>
          rw [hd] at he
          cases he
          exact ih
    · unfold demuxIn at he
      rw [if_neg h64] at he
      obtain ⟨ts2, calls, a1, a2, -, a4⟩ := demuxAll_spec data ts 0 hr
      rw [he] at a1
      cases a1
      refine ⟨by omega, fun s' hs' h => ?_⟩
      obtain ⟨i, hi⟩ := List.mem_iff_getElem?.mp hs'
      have hil : i < ts.length := by
        have := (List.getElem?_eq_some_iff.mp hi).1
        omega
      obtain ⟨s2, e1, e2⟩ := a4 i ts[i] (List.getElem?_eq_getElem hil)
      rw [hi, Option.some.injEq] at e1
      subst e1
      have hr' : ts[i].rate = .off := by rw [← e2.rate]; exact h
      rw [(e2.1 hr').1]
      exact ih.2 _ (List.getElem_mem hil) hr'
  | @mux ts ts' out n _ hl hs he ih =>
    have key : ∀ n (ts ts' : List Sub) out, muxOut n ts = some (out, ts') → ts.length = 8 →
        (∀ s ∈ ts, s.rate = .off → s.queue = [] ∧ s.pending = []) →
        ts'.length = 8 ∧ ∀ s ∈ ts', s.rate = .off → s.queue = [] ∧ s.pending = [] := by
      have bit : ∀ (s s' : Sub) b, provideBit s = some (b, s') → s'.rate = s.rate := by
        have tk : ∀ (s s' : Sub) b, takeBit s = some (b, s') → s'.rate = s.rate := by
          intro s s' b h
          unfold takeBit at h
          split at h
          · cases h; rfl
          · cases h
          · cases h; rfl
        have fl : ∀ (r : List (List Byte)) (s s' : Sub), r.foldlM I460.enqueue s = some s' → s'.rate = s.rate := by
          intro r
          induction r with
          | nil => intro s s' h; cases h; rfl
          | cons m r ih =>
            intro s s' h
            rw [List.foldlM_cons] at h
            cases he : I460.enqueue s m with
            | none => rw [he] at h; cases h
            | some s1 =>
              rw [he] at h
              rw [ih _ _ h]
              unfold I460.enqueue at he
              split at he
              · cases he; rfl
              · cases he
        intro s s' b h
        unfold provideBit at h
        split at h
        · unfold askMore at h
          split at h
          · exact tk _ _ _ h
          · rename_i r rs _
            cases hf : r.foldlM I460.enqueue { s with refill := rs } with
            | none => rw [hf] at h; cases h
            | some s1 =>
              rw [hf] at h
              rw [tk _ _ _ h, fl _ _ _ hf]
        · exact tk _ _ _ h
      have col : ∀ ns acc (s s' : Sub) b, collect ns acc s = some (b, s') → s'.rate = s.rate := by
        intro ns
        induction ns with
        | nil => intro acc s s' b h; cases h; rfl
        | cons n ns ih =>
          intro acc s s' b h
          unfold collect at h
          cases hp : provideBit s with
          | none => rw [hp] at h; cases h
          | some x =>
            obtain ⟨y, s1⟩ := x
            rw [hp] at h
            dsimp only [bind, Option.bind] at h
            rw [ih _ _ _ _ h, bit _ _ _ hp]
      have loop : ∀ (ts : List Sub) ret b ts', muxByteLoop ts ret = some (b, ts') → ts'.length = ts.length ∧
          ((∀ s ∈ ts, s.rate = .off → s.queue = [] ∧ s.pending = []) → ∀ s ∈ ts', s.rate = .off → s.queue = [] ∧ s.pending = []) := by
        intro ts
        induction ts with
        | nil => intro ret b ts' h; cases h; exact ⟨rfl, fun h => h⟩
        | cons s ts ih =>
          intro ret b ts' h
          unfold muxByteLoop at h
          split at h
          · cases hm : muxByteLoop ts ret with
            | none => rw [hm] at h; cases h
            | some x =>
              obtain ⟨y, t⟩ := x
              rw [hm] at h
              cases h
              obtain ⟨i1, i2⟩ := ih _ _ _ hm
              refine ⟨by simp [i1], fun hh x hx hr => ?_⟩
              rcases List.mem_cons.mp hx with rfl | hx
              · exact hh _ (by simp) hr
              · exact i2 (fun z hz => hh z (by simp [hz])) x hx hr
          · rename_i hr0
            unfold provideBits at h
            split at h
            · cases h
            · cases hc : collect (shifts s.rate) 0#8 s with
              | none => rw [hc] at h; cases h
              | some x =>
                obtain ⟨y, s1⟩ := x
                rw [hc] at h
                dsimp only [bind, Option.bind] at h
                cases hm : muxByteLoop ts ((ret &&& ~~~(outmask s.rate >>> s.offset)) ||| (y >>> s.offset)) with
                | none => rw [hm] at h; cases h
                | some x =>
                  obtain ⟨z, t⟩ := x
                  rw [hm] at h
                  cases h
                  obtain ⟨i1, i2⟩ := ih _ _ _ hm
                  refine ⟨by simp [i1], fun hh x hx hr => ?_⟩
                  rcases List.mem_cons.mp hx with rfl | hx
                  · rw [col _ _ _ _ _ hc] at hr
                    exact absurd hr hr0
                  · exact i2 (fun z hz => hh z (by simp [hz])) x hx hr
      intro n
      induction n with
      | zero => intro ts ts' out h h8 hh; cases h; exact ⟨h8, hh⟩
      | succ n ih =>
        intro ts ts' out h h8 hh
        unfold muxOut muxByte at h
        cases hm : muxByteLoop ts 0xff#8 with
        | none => rw [hm] at h; cases h
        | some x =>
          obtain ⟨y, t⟩ := x
          rw [hm] at h
          dsimp only [bind, Option.bind] at h
          cases hn : muxOut n t with
          | none => rw [hn] at h; cases h
          | some x =>
            obtain ⟨z, t'⟩ := x
            rw [hn] at h
            cases h
            obtain ⟨l1, l2⟩ := loop _ _ _ _ hm
            exact ih t _ _ hn (by omega) (l2 hh)
    exact key n ts ts' out he ih.1 ih.2

/-! Instances: two sub-channels of 16 kbit/s and one of 8 kbit/s. -/

/-- a time slot for the instances -/
def demo : List Sub :=
  [⟨.k16, 0, [], 4, true, false, [[1#8, 0#8, 0#8], [1#8]], []⟩, ⟨.k8, 7, [], 1, true, false, [], [[[0#8]], [], [[0#8]]]⟩,
   ⟨.off, 0, [], 0, false, false, [], []⟩, ⟨.k16, 2, [], 8, false, true, [[0#8, 0#8, 0#8, 0#8, 0#8, 0#8]], []⟩]

example : (muxOut 4 demo).map (·.1) = some [0x8e#8, 0x4f#8, 0xce#8, 0xff#8] := by decide

example : (demuxIn demo [0x8e#8, 0x4f#8, 0xce#8, 0xff#8]).map (·.2) =
    some [(0, .bits [1#8, 0#8, 0#8, 1#8]), (0, .bits [1#8, 1#8, 1#8, 1#8]), (1, .bits [0#8]), (1, .bits [1#8]), (1, .bits [0#8]),
      (1, .bits [1#8]), (3, .bytes [0x03#8])] := by decide

example : (muxOut 4 demo).isSome ∧ single64k demo = false ∧ count demo = 3 := by decide

example : (add init ⟨.k16, 2, 8, true, false, []⟩ true).1 = some 0 ∧
    (add (add init ⟨.k16, 2, 8, true, false, []⟩ true).2 ⟨.k8, 0, 8, true, false, []⟩ true).1 = some 1 := by decide

end Verif.I460
