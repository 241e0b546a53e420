import Verif.SoftUart.Model
import Mathlib.Tactic.Linarith
import Mathlib.Tactic.Ring
/-!
C42 and C43, receiving side: what a line of frames delivers, for every
interleaving with timer expiries and flushes.
-/
namespace Verif.SoftUart

/-- A configuration that makes sense: 1 to 8 data bits, at least one stop bit,
and together not more bits than an `uint8_t` counts. -/
structure Cfg.Ok (cfg : Cfg) : Prop where
  data_pos : 1 ≤ cfg.nData
  data_le : cfg.nData ≤ 8
  stop_pos : 1 ≤ cfg.nStop
  total : cfg.nData + cfg.nStop ≤ 255
  parity : cfg.parity ≠ .bad

/-- A frame as it is on the line, after the start bit: data bits in the order
of transmission, parity bit if there is one, stop bits. -/
structure Frame where
  data : List Bool
  par : List Bool
  stop : List Bool

def Frame.bits (f : Frame) : List Bool := false :: (f.data ++ (f.par ++ f.stop))

/-- The number of bits is the one configured; their values are arbitrary. -/
structure Frame.Fits (cfg : Cfg) (f : Frame) : Prop where
  data : f.data.length = cfg.nData
  par : f.par.length = if cfg.parity = .none then 0 else 1
  stop : f.stop.length = cfg.nStop

/-- The number with these binary digits, least significant first. -/
def value : List Bool → Nat
  | [] => 0
  | b :: bs => (if b then 1 else 0) + 2 * value bs

/-- What the parity bit has to be for these data bits, if anything. -/
def parityFor (p : Parity) (data : List Bool) : Option Bool :=
  match p with
  | .even => some (decide (data.count true % 2 = 1))
  | .odd => some (decide (data.count true % 2 = 0))
  | .mark => some true
  | .space => some false
  | .none => none
  | .bad => none

/-- Bit 1 for a wrong parity bit, bit 0 for a stop bit that is not 1. -/
def Frame.errors (p : Parity) (f : Frame) : Nat :=
  (if f.par = (parityFor p f.data).toList then 0 else 2) + (if false ∈ f.stop then 1 else 0)

/-- A line: frames with any number of idle bits (1) before, between and after. -/
inductive Line (cfg : Cfg) : List Frame → List Bool → Prop
  | nil : Line cfg [] []
  | idle {fs bs} : Line cfg fs bs → Line cfg fs (true :: bs)
  | frame {f fs bs} : f.Fits cfg → Line cfg fs bs → Line cfg (f :: fs) (f.bits ++ bs)

theorem Line.append {cfg fs gs bs cs} (h : Line cfg fs bs) (h' : Line cfg gs cs) :
    Line cfg (fs ++ gs) (bs ++ cs) := by
  induction h with
  | nil => simpa using h'
  | idle _ ih => exact Line.idle ih
  | frame hf _ ih =>
    rw [List.cons_append, List.append_assoc]
    exact Line.frame hf ih

theorem value_append (a b : List Bool) : value (a ++ b) = value a + 2 ^ a.length * value b := by
  induction a with
  | nil => simp [value]
  | cons x a ih => simp only [List.cons_append, value, ih, List.length_cons]; ring

theorem value_lt (a : List Bool) : value a < 2 ^ a.length := by
  induction a with
  | nil => simp [value]
  | cons x a ih => simp only [value, List.length_cons, pow_succ]; split <;> omega

/-! ### One bit -/

/-- Where the receiver stands: the frames and bits still to come. -/
inductive Expect (cfg : Cfg) : Core → List Frame → List Bool → Prop
  | idle {c fs bs} : c.flow = .idle → Line cfg fs bs → Expect cfg c fs bs
  | data {c fs bs} {f : Frame} {seen todo : List Bool} : c.flow = .data → f.Fits cfg → f.data = seen ++ todo →
      todo ≠ [] → c.bitCount = seen.length → c.shiftReg.toNat = 2 ^ (8 - seen.length) * value seen →
      c.parityBit = decide (seen.count true % 2 = 1) → c.flags = 0 → Line cfg fs bs →
      Expect cfg c (f :: fs) (todo ++ (f.par ++ (f.stop ++ bs)))
  | parity {c fs bs} {f : Frame} : c.flow = .parity → f.Fits cfg → cfg.parity ≠ .none →
      c.bitCount = cfg.nData → c.shiftReg.toNat = value f.data →
      c.parityBit = decide (f.data.count true % 2 = 1) → c.flags = 0 → Line cfg fs bs →
      Expect cfg c (f :: fs) (f.par ++ (f.stop ++ bs))
  | stop {c fs bs} {f : Frame} {seen todo : List Bool} : c.flow = .stop → f.Fits cfg → f.stop = seen ++ todo →
      todo ≠ [] → c.bitCount = cfg.nData + seen.length → c.shiftReg.toNat = value f.data →
      c.flags = (if f.par = (parityFor cfg.parity f.data).toList then 0 else 2) +
        (if false ∈ seen then 1 else 0) → Line cfg fs bs →
      Expect cfg c (f :: fs) (todo ++ bs)

theorem shift_toNat (s : Byte) (b : Bool) :
    (if b then s >>> 1 ||| 0x80#8 else s >>> 1).toNat = s.toNat / 2 + (if b then 128 else 0) := by
  revert s b; decide +kernel

/-- One bit: if it completes a character, it is the one of the first frame, with
the errors of that frame. -/
theorem coreBit_expect {cfg : Cfg} (hc : cfg.Ok) {c : Core} {fs : List Frame} {b : Bool} {bs : List Bool}
    (h : Expect cfg c fs (b :: bs)) :
    ∃ c', (coreBit cfg c b = some (c', none) ∧ Expect cfg c' fs bs) ∨
      (∃ ch f fs', coreBit cfg c b = some (c', some ch) ∧ fs = f :: fs' ∧ ch.toNat = value f.data ∧
        c'.flags = f.errors cfg.parity ∧ Expect cfg { c' with flow := .idle } fs' bs) := by
  have hd1 := hc.data_pos
  have hd8 := hc.data_le
  have hs1 := hc.stop_pos
  have ht := hc.total
  generalize hbs : b :: bs = l at h
  cases h with
  | idle hf hl =>
    cases hl with
    | nil => cases hbs
    | idle hl =>
      cases hbs
      refine ⟨c, Or.inl ⟨?_, Expect.idle hf hl⟩⟩
      simp [coreBit, hf]
    | @frame f fs' bs' hfit hl =>
      simp only [Frame.bits, List.cons_append, List.append_assoc] at hbs
      cases hbs
      refine ⟨_, Or.inl ⟨by simp [coreBit, hf]; rfl, ?_⟩⟩
      refine Expect.data (seen := []) rfl hfit rfl ?_ rfl ?_ ?_ rfl hl
      · intro h0; have := hfit.data; rw [h0] at this; simp at this; omega
      · simp [value]
      · simp
  | @data fs' bs' f seen todo hf hfit hd hne hbc hsr hpb hfl hl =>
    cases todo with
    | nil => exact absurd rfl hne
    | cons t todo =>
      simp only [List.cons_append, List.cons.injEq] at hbs
      obtain ⟨rfl, rfl⟩ := hbs
      have hlen : seen.length + (todo.length + 1) = cfg.nData := by
        have := hfit.data; rw [hd] at this; simpa using this
      have hval : value (seen ++ [b]) = value seen + 2 ^ seen.length * (if b then 1 else 0) := by
        rw [value_append]; simp [value]
      have hsr' : (if b then c.shiftReg >>> 1 ||| 0x80#8 else c.shiftReg >>> 1).toNat =
          2 ^ (8 - (seen.length + 1)) * value (seen ++ [b]) := by
        rw [shift_toNat, hsr, hval]
        have h7 : 8 - seen.length = (8 - (seen.length + 1)) + 1 := by omega
        have h8 : 2 ^ (8 - (seen.length + 1)) * 2 ^ seen.length = 128 := by
          rw [← pow_add, show 8 - (seen.length + 1) + seen.length = 7 by omega]; norm_num
        rw [h7, pow_succ, show 2 ^ (8 - (seen.length + 1)) * 2 * value seen =
          2 * (2 ^ (8 - (seen.length + 1)) * value seen) by ring, Nat.mul_div_cancel_left _ (by norm_num),
          Nat.mul_add, ← Nat.mul_assoc, h8]
        cases b <;> simp
      have hpb' : (if b then !c.parityBit else c.parityBit) = decide ((seen ++ [b]).count true % 2 = 1) := by
        rw [hpb, List.count_append]
        cases b
        · simp
        · simp only [if_true, List.count_singleton_self]
          rcases Nat.mod_two_eq_zero_or_one (seen.count true) with h | h
          · rw [h, show (List.count true seen + 1) % 2 = 1 by omega]; rfl
          · rw [h, show (List.count true seen + 1) % 2 = 0 by omega]; rfl
      have hmod : (c.bitCount + 1) % 256 = seen.length + 1 := by rw [hbc]; omega
      by_cases hend : todo = []
      · subst hend
        have hn : cfg.nData = seen.length + 1 := by simp at hlen; omega
        have hge : cfg.nData ≤ (c.bitCount + 1) % 256 := by omega
        have hsr2 : (if cfg.nData < 8 then
            (if b then c.shiftReg >>> 1 ||| 0x80#8 else c.shiftReg >>> 1) >>> (8 - cfg.nData)
            else (if b then c.shiftReg >>> 1 ||| 0x80#8 else c.shiftReg >>> 1)).toNat = value f.data := by
          rw [hd]
          split
          · rw [BitVec.toNat_ushiftRight, hsr', Nat.shiftRight_eq_div_pow, hn,
              Nat.mul_div_cancel_left _ (by positivity)]
          · rw [hsr', show 8 - (seen.length + 1) = 0 by omega]; simp
        refine ⟨{ flow := if cfg.parity ≠ .none then .parity else .stop, bitCount := (c.bitCount + 1) % 256,
                  shiftReg := if cfg.nData < 8 then
                    (if b then c.shiftReg >>> 1 ||| 0x80#8 else c.shiftReg >>> 1) >>> (8 - cfg.nData)
                    else (if b then c.shiftReg >>> 1 ||| 0x80#8 else c.shiftReg >>> 1),
                  parityBit := if b then !c.parityBit else c.parityBit, flags := c.flags }, Or.inl ⟨?_, ?_⟩⟩
        · simp only [coreBit, hf, if_pos hge]
        · rw [List.nil_append]
          by_cases hp : cfg.parity = .none
          · have hpar : f.par = [] := by
              have := hfit.par; rw [if_pos hp] at this; exact List.eq_nil_of_length_eq_zero this
            rw [hpar, List.nil_append]
            refine Expect.stop (seen := []) (by simp [hp]) hfit rfl ?_ ?_ hsr2 ?_ hl
            · intro h0; have := hfit.stop; rw [h0] at this; simp at this; omega
            · simp [hmod, hn]
            · simp [hpar, hp, parityFor, hfl]
          · refine Expect.parity (by simp [hp]) hfit hp (by simp [hmod, hn]) hsr2 ?_ hfl hl
            rw [hd]; exact hpb'
      · have htl : todo.length ≠ 0 := by intro h0; exact hend (List.eq_nil_of_length_eq_zero h0)
        have hlt : ¬ cfg.nData ≤ (c.bitCount + 1) % 256 := by omega
        refine ⟨{ c with bitCount := (c.bitCount + 1) % 256,
                         parityBit := if b then !c.parityBit else c.parityBit,
                         shiftReg := if b then c.shiftReg >>> 1 ||| 0x80#8 else c.shiftReg >>> 1 }, Or.inl ⟨?_, ?_⟩⟩
        · simp only [coreBit, hf, if_neg hlt]
        · refine Expect.data (seen := seen ++ [b]) hf hfit (by rw [hd]; simp) hend ?_ ?_ hpb' hfl hl
          · simp [hmod]
          · simpa using hsr'
  | @parity fs' bs' f hf hfit hp hbc hsr hpb hfl hl =>
    have hpl : f.par.length = 1 := by have := hfit.par; rwa [if_neg hp] at this
    obtain ⟨p, hpar⟩ := List.length_eq_one_iff.mp hpl
    rw [hpar] at hbs
    simp only [List.cons_append, List.nil_append, List.cons.injEq] at hbs
    obtain ⟨rfl, rfl⟩ := hbs
    have hstop : f.stop ≠ [] := by
      intro h0; have := hfit.stop; rw [h0] at this; simp at this; omega
    refine ⟨{ c with flow := .stop, flags := if [b] = (parityFor cfg.parity f.data).toList then 0 else 2 },
      Or.inl ⟨?_, Expect.stop (seen := []) rfl hfit rfl hstop (by simpa using hbc) hsr (by simp [hpar]) hl⟩⟩
    cases hpm : cfg.parity with
    | none => exact absurd hpm hp
    | bad => exact absurd hpm hc.parity
    | even =>
      simp only [coreBit, hf, hpm, parityFor, hfl, hpb, Option.toList]
      cases b <;> by_cases h : f.data.count true % 2 = 1 <;> simp [h]
    | odd =>
      simp only [coreBit, hf, hpm, parityFor, hfl, hpb, Option.toList]
      rcases Nat.mod_two_eq_zero_or_one (f.data.count true) with h | h <;> cases b <;> simp [h]
    | mark => simp only [coreBit, hf, hpm, parityFor, hfl, Option.toList]; cases b <;> simp
    | space => simp only [coreBit, hf, hpm, parityFor, hfl, Option.toList]; cases b <;> simp
  | @stop fs' bs' f seen todo hf hfit hd hne hbc hsr hfl hl =>
    cases todo with
    | nil => exact absurd rfl hne
    | cons t todo =>
      simp only [List.cons_append, List.cons.injEq] at hbs
      obtain ⟨rfl, rfl⟩ := hbs
      have hlen : seen.length + (todo.length + 1) = cfg.nStop := by
        have := hfit.stop; rw [hd] at this; simpa using this
      have hmod : (c.bitCount + 1) % 256 = cfg.nData + seen.length + 1 := by rw [hbc]; omega
      have hfl' : (if b ≠ true then c.flags ||| 1 else c.flags) =
          (if f.par = (parityFor cfg.parity f.data).toList then 0 else 2) +
            (if false ∈ seen ++ [b] then 1 else 0) := by
        rw [hfl]
        by_cases h1 : f.par = (parityFor cfg.parity f.data).toList <;> by_cases h2 : false ∈ seen <;> cases b <;>
          simp [h1, h2]
      by_cases hend : todo = []
      · subst hend
        have hge : cfg.nData + cfg.nStop ≤ (c.bitCount + 1) % 256 := by simp at hlen; omega
        refine ⟨{ c with bitCount := (c.bitCount + 1) % 256,
                         flags := if b ≠ true then c.flags ||| 1 else c.flags },
          Or.inr ⟨c.shiftReg, f, fs', ?_, rfl, hsr, ?_, Expect.idle rfl (by simpa using hl)⟩⟩
        · simp only [coreBit, hf, if_pos hge]
        · show _ = f.errors cfg.parity
          rw [Frame.errors, hd]; exact hfl'
      · have htl : todo.length ≠ 0 := by intro h0; exact hend (List.eq_nil_of_length_eq_zero h0)
        have hlt : ¬ cfg.nData + cfg.nStop ≤ (c.bitCount + 1) % 256 := by omega
        refine ⟨{ c with bitCount := (c.bitCount + 1) % 256,
                         flags := if b ≠ true then c.flags ||| 1 else c.flags }, Or.inl ⟨?_, ?_⟩⟩
        · simp only [coreBit, hf, if_neg hlt]
        · exact Expect.stop (seen := seen ++ [b]) hf hfit (by rw [hd]; simp) hend (by simp [hmod]; omega) hsr hfl' hl

end Verif.SoftUart
