import Verif.V110.Model
/-!
Properties of V.110 frames.
-/
namespace Verif.V110

/-! ### What a sequence of copies leaves where -/

/-- where a byte comes from: the source at an index, a constant, or it is what it was -/
inductive Org
  | src (j : Nat)
  | const (v : Byte)
  | old
  deriving DecidableEq, Repr

def Op.org : Op → Nat → Org
  | .copy to frm n, i => if to ≤ i ∧ i < to + n then .src (frm + (i - to)) else .old
  | .fill to v n, i => if to ≤ i ∧ i < to + n then .const v else .old

def orgs : List Op → Nat → Org
  | [], _ => .old
  | o :: os, i => match orgs os i with | .old => o.org i | r => r

def Op.fits (n m : Nat) : Op → Bool
  | .copy to frm k => to + k ≤ n && frm + k ≤ m
  | .fill to _ k => to + k ≤ n

def Org.get (src : List Byte) (old : Option Byte) : Org → Option Byte
  | .src j => src[j]?
  | .const v => some v
  | .old => old

theorem write_get {mem bs : List Byte} {o : Nat} (h : o + bs.length ≤ mem.length) (i : Nat) :
    (mem.take o ++ bs ++ mem.drop (o + bs.length))[i]? = if o ≤ i ∧ i < o + bs.length then bs[i - o]? else mem[i]? := by
  have ho : (mem.take o).length = o := by simp; omega
  by_cases h1 : i < o
  · rw [if_neg (by omega), List.append_assoc, List.getElem?_append_left (by omega), List.getElem?_take_of_lt h1]
  · by_cases h2 : i < o + bs.length
    · rw [if_pos (by omega), List.append_assoc, List.getElem?_append_right (by omega), ho, List.getElem?_append_left (by omega)]
    · rw [if_neg (by omega), List.getElem?_append_right (by simp; omega), List.getElem?_drop]
      congr 1
      simp
      omega

theorem op_run (src dst : List Byte) (o : Op) (h : o.fits dst.length src.length) :
    ∃ r, o.run src dst = some r ∧ r.length = dst.length ∧ ∀ i, i < dst.length → r[i]? = (o.org i).get src dst[i]? := by
  cases o with
  | copy to frm n =>
    simp only [Op.fits, Bool.and_eq_true, decide_eq_true_eq] at h
    have hl : ((src.drop frm).take n).length = n := by simp; omega
    refine ⟨_, by simp only [Op.run]; rw [readAt_eq_some h.2, Option.bind_some, writeAt_eq_some (by omega)], by simp; omega, ?_⟩
    intro i _
    rw [write_get (by omega), hl]
    simp only [Op.org]
    split
    · rename_i hc
      simp only [Org.get]
      rw [List.getElem?_take_of_lt (by omega), List.getElem?_drop]
    · rfl
  | fill to v n =>
    simp only [Op.fits, decide_eq_true_eq] at h
    refine ⟨_, by simp only [Op.run]; rw [writeAt_eq_some (by simpa using h)], by simp; omega, ?_⟩
    intro i _
    rw [write_get (by simpa using h), List.length_replicate]
    simp only [Op.org]
    split
    · rename_i hc
      simp only [Org.get]
      rw [List.getElem?_replicate, if_pos (by omega)]
    · rfl

theorem ops_run (src : List Byte) (os : List Op) : ∀ (dst : List Byte), os.all (Op.fits dst.length src.length) →
    ∃ r, runOps src os dst = some r ∧ r.length = dst.length ∧ ∀ i, i < dst.length → r[i]? = (orgs os i).get src dst[i]? := by
  induction os with
  | nil => intro dst _; exact ⟨dst, rfl, rfl, fun i _ => rfl⟩
  | cons o os ih =>
    intro dst h
    simp only [List.all_cons, Bool.and_eq_true] at h
    obtain ⟨d, h1, h2, h3⟩ := op_run src dst o h.1
    obtain ⟨r, h4, h5, h6⟩ := ih d (by rw [h2]; exact h.2)
    refine ⟨r, by simp only [runOps]; rw [h1, Option.bind_some, h4], by omega, ?_⟩
    intro i hi
    rw [h6 i (by omega), h3 i hi]
    simp only [orgs]
    cases orgs os i <;> rfl

theorem fits_mono {n m n' m' : Nat} (hn : n ≤ n') (hm : m ≤ m') {os : List Op} (h : os.all (Op.fits n m)) :
    os.all (Op.fits n' m') := by
  rw [List.all_eq_true] at h ⊢
  intro o ho
  have := h o ho
  cases o <;> simp only [Op.fits, Bool.and_eq_true, decide_eq_true_eq] at this ⊢ <;> omega

/-! ### Frames as drawn in the standards -/

/-- A place in a frame: a fixed bit, or a data, status, X or E bit, numbered from one as in V.110 -/
inductive Sym
  | bit (v : Byte)
  | D (n : Nat)
  | S (n : Nat)
  | X (n : Nat)
  | E (n : Nat)
  deriving DecidableEq, Repr

/-- ITU-T V.110 table 2: the frame of 80 bits, octet by octet -/
def table80 : List Sym :=
  [.bit 0, .bit 0, .bit 0, .bit 0, .bit 0, .bit 0, .bit 0, .bit 0,
   .bit 1, .D 1, .D 2, .D 3, .D 4, .D 5, .D 6, .S 1,
   .bit 1, .D 7, .D 8, .D 9, .D 10, .D 11, .D 12, .X 1,
   .bit 1, .D 13, .D 14, .D 15, .D 16, .D 17, .D 18, .S 3,
   .bit 1, .D 19, .D 20, .D 21, .D 22, .D 23, .D 24, .S 4,
   .bit 1, .E 1, .E 2, .E 3, .E 4, .E 5, .E 6, .E 7,
   .bit 1, .D 25, .D 26, .D 27, .D 28, .D 29, .D 30, .S 6,
   .bit 1, .D 31, .D 32, .D 33, .D 34, .D 35, .D 36, .X 2,
   .bit 1, .D 37, .D 38, .D 39, .D 40, .D 41, .D 42, .S 8,
   .bit 1, .D 43, .D 44, .D 45, .D 46, .D 47, .D 48, .S 9]

/-- 3GPP TS 44.021 section 8.1.2 (quoted in src/gsm/gsm44021.c:29-38): the frame of 60 bits -/
def table60 : List Sym :=
  [.D 1, .D 2, .D 3, .D 4, .D 5, .D 6, .S 1,
   .D 7, .D 8, .D 9, .D 10, .D 11, .D 12, .X 1,
   .D 13, .D 14, .D 15, .D 16, .D 17, .D 18, .S 3,
   .D 19, .D 20, .D 21, .D 22, .D 23, .D 24, .S 4,
   .E 4, .E 5, .E 6, .E 7, .D 25, .D 26, .D 27,
   .D 28, .D 29, .D 30, .S 6, .D 31, .D 32, .D 33,
   .D 34, .D 35, .D 36, .X 2, .D 37, .D 38, .D 39,
   .D 40, .D 41, .D 42, .S 8, .D 43, .D 44, .D 45,
   .D 46, .D 47, .D 48, .S 9]

/-- 3GPP TS 44.021 section 8.1.4 (quoted in src/gsm/gsm44021.c:122-128): the frame of 36 bits; its D1 .. D24 are the user bits of
2400 bit/s, each of which stands at two places of the frame of 80 bits: Dn here is D(2n-1) there -/
def table36 : List Sym :=
  [.D 1, .D 2, .D 3, .S 1, .D 4, .D 5, .D 6, .X 1,
   .D 7, .D 8, .D 9, .S 3, .D 10, .D 11, .D 12, .S 4,
   .E 4, .E 5, .E 6, .E 7, .D 13, .D 14, .D 15, .S 6,
   .D 16, .D 17, .D 18, .X 2, .D 19, .D 20, .D 21, .S 8,
   .D 22, .D 23, .D 24, .S 9]

/-- where the bit is kept in the decoded frame -/
def Sym.pos : Sym → Option Nat
  | .bit _ => none
  | .D n => some (n - 1)
  | .E n => some (48 + (n - 1))
  | .S n => some (55 + (n - 1))
  | .X n => some (64 + (n - 1))

/-- its value in a decoded frame -/
def Sym.val (fr : List Byte) (s : Sym) : Byte :=
  match s with
  | .bit v => v
  | s => match s.pos with | some p => fr.getD p 0 | none => 0

/-- doubled data bits of the small frame: the D of the large frame where the code takes it -/
def Sym.twice : Sym → Sym
  | .D n => .D (2 * n - 1)
  | s => s

/-- encoding tables: at each place of the table the operations leave the value of the symbol -/
def encodes (t : List Sym) (os : List Op) : Bool :=
  t.zipIdx.all fun p => match p.1, p.1.pos with
    | .bit v, _ => orgs os p.2 = .const v
    | _, some j => orgs os p.2 = .src j && j < 66
    | _, none => false

theorem encodes_run {t : List Sym} {os : List Op} (he : encodes t os) (hf : os.all (Op.fits t.length 66))
    (ho : ∀ i, t.length ≤ i → orgs os i = .old) (bits fr : List Byte) (hb : t.length ≤ bits.length) (hfr : fr.length = 66) :
    runOps fr os bits = some (t.map (Sym.val fr) ++ bits.drop t.length) := by
  obtain ⟨r, h1, h2, h3⟩ := ops_run fr os bits (fits_mono hb (by omega) hf)
  rw [h1]
  congr 1
  apply List.ext_getElem?
  intro i
  by_cases hi : i < bits.length
  · rw [h3 i hi]
    by_cases ht : i < t.length
    · rw [List.getElem?_append_left (by simpa using ht), List.getElem?_map]
      unfold encodes at he
      rw [List.all_eq_true] at he
      have hmem : (t[i], i) ∈ t.zipIdx := by
        rw [List.mk_mem_zipIdx_iff_getElem?]
        exact List.getElem?_eq_getElem ht
      have := he _ hmem
      simp only at this
      rw [List.getElem?_eq_getElem ht]
      have key : ∀ s : Sym, (match s, s.pos with
          | .bit v, _ => decide (orgs os i = .const v)
          | _, some j => decide (orgs os i = .src j) && decide (j < 66)
          | _, none => false) = true →
          Org.get fr bits[i]? (orgs os i) = Option.map (Sym.val fr) (some s) := by
        intro s hs
        cases s <;> simp only [Sym.pos, decide_eq_true_eq, Bool.and_eq_true] at hs <;>
          first
          | (rw [hs]; rfl)
          | (rw [hs.1]; simp only [Org.get, Sym.val, Sym.pos, Option.map_some, List.getD_eq_getElem?_getD]
             rw [List.getElem?_eq_getElem (by omega)]; rfl)
      exact key _ this
    · rw [List.getElem?_append_right (by simpa using ht), ho i (by omega), List.getElem?_drop]
      simp only [Org.get, List.length_map]
      congr 1
      omega
  · rw [List.getElem?_eq_none (by omega), List.getElem?_eq_none]
    simp
    omega

theorem orgs_old {os : List Op} {n m : Nat} (h : os.all (Op.fits n m)) {i : Nat} (hi : n ≤ i) : orgs os i = .old := by
  induction os with
  | nil => rfl
  | cons o os ih =>
    simp only [List.all_cons, Bool.and_eq_true] at h
    have ho : o.org i = .old := by
      have h1 := h.1
      cases o <;> simp only [Op.fits, Bool.and_eq_true, decide_eq_true_eq] at h1 <;>
        (simp only [Op.org]; rw [if_neg (by omega)])
    simp only [orgs]
    rw [ih h.2, ho]

/-- **The 80 bits of an encoded frame are those of the table**, the bits beyond are left alone; a shorter buffer is refused untouched. -/
theorem encode80 (bits fr : List Byte) (hfr : fr.length = 66) :
    encodeFrame bits fr = some (if bits.length < 80 then (-ENOSPC, bits) else (80, table80.map (Sym.val fr) ++ bits.drop 80)) := by
  unfold encodeFrame
  split
  · rfl
  · have hf : encOps80.all (Op.fits 80 66) := by decide
    rw [encodes_run (t := table80) (by decide) hf (fun i hi => orgs_old hf hi) bits fr (by simp [table80]; omega) hfr]
    rfl

/-- the same for the frame of 60 bits of 3GPP TS 44.021 -/
theorem encode60 (bits fr : List Byte) (hfr : fr.length = 66) :
    encodeFrame60 bits fr = some (if bits.length < 60 then (-EINVAL, bits) else (60, table60.map (Sym.val fr) ++ bits.drop 60)) := by
  unfold encodeFrame60
  split
  · rfl
  · have hf : encOps60.all (Op.fits 60 66) := by decide
    rw [encodes_run (t := table60) (by decide) hf (fun i hi => orgs_old hf hi) bits fr (by simp [table60]; omega) hfr]
    rfl

/-- and for that of 36 bits, whose data bits are every second one of the decoded frame -/
theorem encode36 (bits fr : List Byte) (hfr : fr.length = 66) :
    encodeFrame36 bits fr =
      some (if bits.length < 36 then (-EINVAL, bits) else (36, table36.map (fun s => Sym.val fr s.twice) ++ bits.drop 36)) := by
  unfold encodeFrame36
  split
  · rfl
  · have hf : encOps36.all (Op.fits 36 66) := by decide
    rw [encodes_run (t := table36.map Sym.twice) (by decide) hf (fun i hi => orgs_old hf hi) bits fr (by simp [table36]; omega) hfr]
    rfl

/-- decoding: the value a decoded frame gets at each of its places: the bit where the table has the symbol, otherwise what it was -/
def decodes (os : List Op) (place : Nat → Option Nat) : Bool :=
  (List.range 66).all fun p => orgs os p = match place p with | some i => .src i | none => .old

theorem decodes_run {os : List Op} {place : Nat → Option Nat} {n : Nat} (hd : decodes os place) (hf : os.all (Op.fits 66 n))
    (bits fr : List Byte) (hb : n ≤ bits.length) (hfr : fr.length = 66) :
    ∃ r, runOps bits os fr = some r ∧ r.length = 66 ∧
      ∀ p, p < 66 → r[p]? = match place p with | some i => bits[i]? | none => fr[p]? := by
  obtain ⟨r, h1, h2, h3⟩ := ops_run bits os fr (by rw [hfr]; exact fits_mono (Nat.le_refl _) hb hf)
  refine ⟨r, h1, by omega, ?_⟩
  intro p hp
  rw [h3 p (by omega)]
  unfold decodes at hd
  rw [List.all_eq_true] at hd
  have := hd p (List.mem_range.2 hp)
  simp only [decide_eq_true_eq] at this
  rw [this]
  cases place p <;> rfl

/-- the place of a table showing what is kept at `p` in the decoded frame -/
def placeIn (t : List Sym) (p : Nat) : Option Nat := (t.map Sym.pos).idxOf? (some p)

/-- in the small frame both D(2n-1) and D(2n) are shown by Dn -/
def placeIn36 (p : Nat) : Option Nat := if p < 48 then placeIn table36 (p / 2) else placeIn table36 p

/-- **Decoding a frame takes every D, S, X and E bit from its place in the table** and leaves the rest (S2, S5, S7) alone; too few bits are
refused. -/
theorem decode80 (fr bits : List Byte) (hfr : fr.length = 66) (hb : 80 ≤ bits.length) :
    ∃ r, decodeFrame fr bits = some (0, r) ∧ r.length = 66 ∧
      ∀ p, p < 66 → r[p]? = match placeIn table80 p with | some i => bits[i]? | none => fr[p]? := by
  obtain ⟨r, h1, h2, h3⟩ := decodes_run (os := decOps80) (place := placeIn table80) (n := 80) (by decide) (by decide) bits fr hb hfr
  refine ⟨r, ?_, h2, h3⟩
  unfold decodeFrame
  rw [if_neg (by omega), h1]
  rfl

theorem decode60 (fr bits : List Byte) (hfr : fr.length = 66) (hb : 60 ≤ bits.length) :
    ∃ r, decodeFrame60 fr bits = some (0, r) ∧ r.length = 66 ∧
      ∀ p, p < 66 → r[p]? = match placeIn table60 p with | some i => bits[i]? | none => fr[p]? := by
  obtain ⟨r, h1, h2, h3⟩ := decodes_run (os := decOps60) (place := placeIn table60) (n := 60) (by decide) (by decide) bits fr hb hfr
  refine ⟨r, ?_, h2, h3⟩
  unfold decodeFrame60
  rw [if_neg (by omega), h1]
  rfl

theorem decode36 (fr bits : List Byte) (hfr : fr.length = 66) (hb : 36 ≤ bits.length) :
    ∃ r, decodeFrame36 fr bits = some (0, r) ∧ r.length = 66 ∧
      ∀ p, p < 66 → r[p]? = match placeIn36 p with | some i => bits[i]? | none => fr[p]? := by
  obtain ⟨r, h1, h2, h3⟩ := decodes_run (os := decOps36) (place := placeIn36) (n := 36) (by decide) (by decide) bits fr hb hfr
  refine ⟨r, ?_, h2, h3⟩
  unfold decodeFrame36
  rw [if_neg (by omega), h1]
  rfl

theorem decode_short (fr bits : List Byte) :
    (bits.length < 80 → decodeFrame fr bits = some (-EINVAL, fr)) ∧ (bits.length < 60 → decodeFrame60 fr bits = some (-EINVAL, fr)) ∧
    (bits.length < 36 → decodeFrame36 fr bits = some (-EINVAL, fr)) := by
  refine ⟨fun h => ?_, fun h => ?_, fun h => ?_⟩
  · unfold decodeFrame; rw [if_pos h]
  · unfold decodeFrame60; rw [if_pos h]
  · unfold decodeFrame36; rw [if_pos h]

end Verif.V110
