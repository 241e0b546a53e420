import Verif.Bitcomp.Model
import Verif.Bitvec.Props
/-!
C143: what `osmo_t4_encode` produces can be decoded again.
-/
namespace Verif.Bitcomp
open Verif Verif.Bitvec

/-! ### the decoder -/

/-- `n` bit number, most significant bit first -/
def numBits (v n : Nat) : List Bool := (List.range n).map fun i => v.testBit (n - 1 - i)

/-- the code table of one colour: run length and code word -/
def table (b : Bool) : List (Nat × List Bool) :=
  (List.range 64).map (fun i => (i, numBits ((t4Term b).getD i 0) ((t4TermLength b).getD i 0))) ++
  (List.range 15).map
    (fun i => (64 * (i + 1), numBits ((t4MakeUp b).getD i 0) ((t4MakeUpLength b).getD i 0)))

/-- read one code word of colour `b` -/
def readWord (b : Bool) (code : List Bool) : Option (Nat × List Bool) :=
  match (table b).find? fun e => e.2.isPrefixOf code with
  | none => none
  | some e => some (e.1, code.drop e.2.length)

/-- read one run of colour `b`: a make-up code is followed by a terminating code -/
def readRun (b : Bool) (code : List Bool) : Option (Nat × List Bool) :=
  match readWord b code with
  | none => none
  | some (n, rest) =>
    if n < 64 then some (n, rest)
    else match readWord b rest with
      | none => none
      | some (m, rest') => if m < 64 then some (n + m, rest') else none

/-- read runs of alternating colour until the code is used up -/
def decodeRuns : Nat → Bool → List Bool → Option (List Bool)
  | _, _, [] => some []
  | 0, _, _ :: _ => none
  | k + 1, b, c :: cs =>
    match readRun b (c :: cs) with
    | none => none
    | some (n, rest) => (decodeRuns k (!b) rest).map fun t => List.replicate n b ++ t

/-- the decoder: colour of the first run, code bits -/
def decode (b : Bool) (code : List Bool) : Option (List Bool) := decodeRuns code.length b code

/-- the bits before the cursor -/
def bits (bv : BV) : List Bool := (List.range bv.cur).map (msb bv.data)

/-! ### code words -/

theorem find_prefix (l : List (Nat × List Bool)) (e : Nat × List Bool) (rest : List Bool)
    (he : e ∈ l) (hpf : ∀ x ∈ l, x.2.isPrefixOf e.2 → x = e)
    (hpf' : ∀ x ∈ l, e.2.isPrefixOf x.2 → x = e) :
    l.find? (fun x => x.2.isPrefixOf (e.2 ++ rest)) = some e := by
  induction l with
  | nil => cases he
  | cons y ys ih =>
    rw [List.find?_cons]
    by_cases hy : y.2.isPrefixOf (e.2 ++ rest) = true
    · rw [hy]
      have hp : y.2 <+: e.2 ++ rest := List.isPrefixOf_iff_prefix.mp hy
      have hq : e.2 <+: e.2 ++ rest := List.prefix_append _ _
      rcases List.prefix_or_prefix_of_prefix hp hq with h | h
      · rw [hpf y (List.mem_cons_self ..) (List.isPrefixOf_iff_prefix.mpr h)]
      · rw [hpf' y (List.mem_cons_self ..) (List.isPrefixOf_iff_prefix.mpr h)]
    · rw [Bool.not_eq_true] at hy
      rw [hy]
      have hne : e ≠ y := by
        intro h; subst h
        rw [List.isPrefixOf_iff_prefix.mpr (List.prefix_append _ _)] at hy; cases hy
      exact ih ((List.mem_cons.mp he).resolve_left hne)
        (fun x hx => hpf x (List.mem_cons_of_mem _ hx)) (fun x hx => hpf' x (List.mem_cons_of_mem _ hx))

/-- no code word is a prefix of another one of its colour -/
theorem prefix_free : ∀ b : Bool, ∀ x ∈ table b, ∀ y ∈ table b, x.2.isPrefixOf y.2 → x = y := by
  decide +kernel

theorem readWord_entry (b : Bool) (e : Nat × List Bool) (rest : List Bool) (he : e ∈ table b) :
    readWord b (e.2 ++ rest) = some (e.1, rest) := by
  unfold readWord
  rw [find_prefix (table b) e rest he (fun x hx h => prefix_free b x hx e he h)
    (fun x hx h => (prefix_free b e he x hx h).symm)]
  simp

/-- terminating and make-up code words as the model writes them -/
def termWord (b : Bool) (i : Nat) : List Bool := numBits ((t4Term b).getD i 0) ((t4TermLength b).getD i 0)
def makeUpWord (b : Bool) (i : Nat) : List Bool :=
  numBits ((t4MakeUp b).getD i 0) ((t4MakeUpLength b).getD i 0)

/-- code word of a run -/
def runWord (b : Bool) (n : Nat) : List Bool :=
  if n ≥ 64 then makeUpWord b (makeUpIdx n) ++ termWord b (n - 64 * (makeUpIdx n + 1)) else termWord b n

theorem term_mem (b : Bool) (i : Nat) (h : i < 64) : (i, termWord b i) ∈ table b :=
  List.mem_append_left _ (List.mem_map.mpr ⟨i, List.mem_range.mpr h, rfl⟩)

theorem makeUp_mem (b : Bool) (i : Nat) (h : i < 15) : (64 * (i + 1), makeUpWord b i) ∈ table b :=
  List.mem_append_right _ (List.mem_map.mpr ⟨i, List.mem_range.mpr h, rfl⟩)

theorem makeUpIdx_lt (n : Nat) (h : n ≥ 64) : makeUpIdx n < 15 ∧ 64 * (makeUpIdx n + 1) ≤ n := by
  unfold makeUpIdx; split <;> omega

theorem makeUpIdx_rem (n : Nat) (h : n ≥ 64) (h2 : n < 1024) : n - 64 * (makeUpIdx n + 1) < 64 := by
  unfold makeUpIdx; split <;> omega

theorem readRun_word (b : Bool) (n : Nat) (rest : List Bool) (h : n < 1024) :
    readRun b (runWord b n ++ rest) = some (n, rest) := by
  unfold readRun runWord
  by_cases h64 : n ≥ 64
  · obtain ⟨h1, h2⟩ := makeUpIdx_lt n h64
    have h3 := makeUpIdx_rem n h64 h
    rw [if_pos h64, List.append_assoc, readWord_entry b _ _ (makeUp_mem b _ h1)]
    simp only []
    rw [if_neg (by omega), readWord_entry b _ _ (term_mem b _ h3)]
    simp only []
    rw [if_pos h3]
    congr 2; omega
  · rw [if_neg h64, readWord_entry b _ _ (term_mem b n (by omega))]
    simp only []
    rw [if_pos (by omega)]

theorem table_nonempty : ∀ b : Bool, ∀ e ∈ table b, e.2 ≠ [] := by decide +kernel

theorem runWord_ne (b : Bool) (n : Nat) (h : n < 1024) : runWord b n ≠ [] := by
  unfold runWord
  by_cases h64 : n ≥ 64
  · rw [if_pos h64]
    intro e
    exact table_nonempty b _ (makeUp_mem b _ (makeUpIdx_lt n h64).1) (List.append_eq_nil_iff.mp e).1
  · rw [if_neg h64]
    exact table_nonempty b _ (term_mem b n (by omega))

/-- the code of a list of runs of alternating colour -/
def codeOf : Bool → List Nat → List Bool
  | _, [] => []
  | b, n :: ns => runWord b n ++ codeOf (!b) ns

/-- the bits of a list of runs of alternating colour -/
def expand : Bool → List Nat → List Bool
  | _, [] => []
  | b, n :: ns => List.replicate n b ++ expand (!b) ns

theorem decodeRuns_code (ns : List Nat) (b : Bool) (k : Nat) (hn : ∀ n ∈ ns, n < 1024)
    (hk : (codeOf b ns).length ≤ k) : decodeRuns k b (codeOf b ns) = some (expand b ns) := by
  induction ns generalizing b k with
  | nil => cases k <;> rfl
  | cons n ns ih =>
    have hlt := hn n (List.mem_cons_self ..)
    have hne := runWord_ne b n hlt
    have hrd := readRun_word b n (codeOf (!b) ns) hlt
    simp only [codeOf, expand] at *
    cases hw : runWord b n with
    | nil => exact absurd hw hne
    | cons c cs =>
      rw [hw] at hrd hk
      simp only [List.cons_append, List.length_cons, List.length_append] at hk hrd ⊢
      cases k with
      | zero => omega
      | succ k =>
        rw [decodeRuns, hrd]
        simp only []
        rw [ih (!b) k (fun m hm => hn m (List.mem_cons_of_mem _ hm)) (by omega)]
        rfl

theorem decode_code (ns : List Nat) (b : Bool) (hn : ∀ n ∈ ns, n < 1024) :
    decode b (codeOf b ns) = some (expand b ns) := decodeRuns_code ns b _ hn (Nat.le_refl _)

/-! ### writing -/

/-- `code` was appended as far as there was room -/
def App (a b : BV) (code : List Bool) : Prop :=
  b.data.length = a.data.length ∧
    (if a.cur + code.length ≤ 8 * a.data.length then Wrote a b code else b.cur = 8 * a.data.length)

theorem App.trans {a b c : BV} {x y : List Bool}
    (h1 : App a b x) (h2 : App b c y) : App a c (x ++ y) := by
  obtain ⟨l1, h1⟩ := h1
  obtain ⟨l2, h2⟩ := h2
  refine ⟨by omega, ?_⟩
  rw [l1] at h2
  rw [List.length_append]
  by_cases hx : a.cur + x.length ≤ 8 * a.data.length
  · rw [if_pos hx] at h1
    rw [h1.1] at h2
    by_cases hy : a.cur + (x.length + y.length) ≤ 8 * a.data.length
    · rw [if_pos hy]; rw [if_pos (by omega)] at h2; exact h1.trans h2
    · rw [if_neg hy]; rw [if_neg (by omega)] at h2; exact h2
  · rw [if_neg hx] at h1
    rw [if_neg (by omega)]
    by_cases hy : y = []
    · subst hy
      rw [if_pos (by simp; omega)] at h2
      have := h2.1
      simp at this; omega
    · have : y.length ≠ 0 := fun h => hy (List.length_eq_zero_iff.mp h)
      rw [if_neg (by omega)] at h2; exact h2

theorem App.nil (a : BV) (h : a.cur ≤ 8 * a.data.length) : App a a [] := by
  refine ⟨rfl, ?_⟩
  rw [if_pos (by simpa using h)]
  exact ⟨rfl, rfl, fun j => by rw [if_neg (by simp)]⟩

theorem App.cur_le {a b : BV} {x : List Bool} (h : App a b x) : b.cur ≤ 8 * b.data.length := by
  obtain ⟨l, h⟩ := h
  split at h
  · have := h.1; omega
  · omega

theorem put_app (bv : BV) (tab len : List Nat) (i : Nat) (hc : bv.cur ≤ 8 * bv.data.length)
    (h1 : i < tab.length) (h2 : i < len.length) (hv : tab.getD i 0 < 2 ^ 32) (hl : len.getD i 0 ≤ 64) :
    ∃ bv', put bv tab len i = some bv' ∧ App bv bv' (numBits (tab.getD i 0) (len.getD i 0)) := by
  have e1 : tab.getD i 0 = tab[i] := by simp [List.getD, h1]
  have e2 : len.getD i 0 = len[i] := by simp [List.getD, h2]
  unfold put
  rw [List.getElem?_eq_getElem h1, List.getElem?_eq_getElem h2]
  refine ⟨_, rfl, ?_⟩
  rw [e1] at hv ⊢
  rw [e2] at hl ⊢
  have hlen : (numBits tab[i] len[i]).length = len[i] := by simp [numBits]
  have hn : (BitVec.ofNat 32 tab[i]).toNat = tab[i] := by
    rw [BitVec.toNat_ofNat, Nat.mod_eq_of_lt hv]
  by_cases hf : bv.cur + len[i] ≤ 8 * bv.data.length
  · have := wrote_setUint bv (BitVec.ofNat 32 tab[i]) len[i] hl hf
    rw [hn] at this
    refine ⟨this.2.1, ?_⟩
    rw [hlen, if_pos hf]
    exact this
  · obtain ⟨bv', e, c, l, _⟩ := set_u64_beyond bv ((BitVec.ofNat 32 tab[i]).setWidth 64) len[i] hl hc
      (by omega)
    have : (setUint bv (BitVec.ofNat 32 tab[i]) len[i]).2 = bv' := by unfold setUint; rw [e]
    rw [this]
    refine ⟨l, ?_⟩
    rw [hlen, if_neg hf]; exact c

theorem tables_ok : ∀ b : Bool, (t4Term b).length = 64 ∧ (t4TermLength b).length = 64 ∧
    (t4MakeUp b).length = 15 ∧ (t4MakeUpLength b).length = 15 ∧
    (∀ i < 64, (t4Term b).getD i 0 < 2 ^ 32 ∧ (t4TermLength b).getD i 0 ≤ 64) ∧
    (∀ i < 15, (t4MakeUp b).getD i 0 < 2 ^ 32 ∧ (t4MakeUpLength b).getD i 0 ≤ 64) := by decide +kernel

theorem t4Rle_app (bv : BV) (n : Nat) (b : Bool) (hc : bv.cur ≤ 8 * bv.data.length) (h : n < 1024) :
    ∃ bv', t4Rle bv n b = some bv' ∧ App bv bv' (runWord b n) := by
  obtain ⟨l1, l2, l3, l4, h5, h6⟩ := tables_ok b
  unfold t4Rle runWord
  by_cases h64 : n ≥ 64
  · obtain ⟨k1, k2⟩ := makeUpIdx_lt n h64
    have k3 := makeUpIdx_rem n h64 h
    obtain ⟨bv1, e1, a1⟩ := put_app bv _ _ (makeUpIdx n) hc (by omega) (by omega) (h6 _ k1).1 (h6 _ k1).2
    obtain ⟨bv2, e2, a2⟩ := put_app bv1 (t4Term b) (t4TermLength b) (n - 64 * (makeUpIdx n + 1))
      a1.cur_le (by omega) (by omega) (h5 _ k3).1 (h5 _ k3).2
    rw [if_pos h64, if_pos h64, e1, Option.bind_some, e2]
    exact ⟨bv2, rfl, a1.trans a2⟩
  · rw [if_neg h64, if_neg h64]
    exact put_app bv _ _ n hc (by omega) (by omega) (h5 _ (by omega)).1 (h5 _ (by omega)).2

/-! ### runs of the vector -/

theorem rlLoop_le (bv : BV) (b : Bool) (n i r : Nat) (h : rlLoop bv b n i = some r) :
    r ≤ bv.cur ∨ r < 8 * (i + n) := by
  induction n generalizing i with
  | zero => left; simp only [rlLoop, Option.some.injEq] at h; omega
  | succ n ih =>
    unfold rlLoop at h
    split at h
    · cases h
    · rename_i d hd
      split at h
      · rename_i hm
        have := (leadingBits_spec d b hm).1
        simp only [Option.some.injEq] at h
        right; omega
      · rcases ih _ h with h | h
        · exact Or.inl h
        · right; omega

theorem rl_le (bv : BV) (b : Bool) (r : Nat) (h : rl bv b = some r) : r ≤ bv.cur + 7 := by
  unfold rl at h
  have := rlLoop_le bv b _ _ r h
  split at this <;> omega

/-- no 1017 consecutive bits before the cursor are the same -/
def NoLongRun (bv : BV) : Prop :=
  ∀ s, s + 1017 ≤ bv.cur → ∃ k, k < 1017 ∧ msb bv.data (s + k) ≠ msb bv.data s

/-- both run lengths of a non-empty vector -/
theorem rl_both (bv : BV) (hlen : bv.cur ≤ 8 * bv.data.length) (h0 : 0 < bv.cur) (hr : NoLongRun bv) :
    ∃ n, 0 < n ∧ n < 1024 ∧ n ≤ bv.cur + 7 ∧ rl bv (msb bv.data 0) = some n ∧
      rl bv (!msb bv.data 0) = some 0 ∧ (∀ k, k < min n bv.cur → msb bv.data k = msb bv.data 0) ∧
      (n < bv.cur → msb bv.data n = !msb bv.data 0) := by
  obtain ⟨r, e, ⟨_, hall, hend⟩, _⟩ := bitvec_rl_partial bv (msb bv.data 0) hlen
  obtain ⟨r', e', ⟨_, hall', _⟩, _⟩ := bitvec_rl_partial bv (!msb bv.data 0) hlen
  have h7 := rl_le bv _ _ e
  simp only [Nat.zero_add] at hall hend hall'
  have hr0 : r' = 0 := by
    apply Decidable.byContradiction
    intro hne
    have := hall' 0 (by omega)
    revert this; cases msb bv.data 0 <;> simp
  subst hr0
  have hpos : 0 < r := by
    apply Decidable.byContradiction
    intro hne
    have : r = 0 := by omega
    subst this
    rcases hend with h | h
    · omega
    · simp at h
  refine ⟨r, hpos, ?_, h7, e, e', hall, ?_⟩
  · apply Decidable.byContradiction
    intro hge
    obtain ⟨k, hk, hne⟩ := hr 0 (by omega)
    rw [Nat.zero_add] at hne
    exact hne (hall k (by omega))
  · intro hlt
    rw [Nat.min_eq_left (by omega)] at hend
    rcases hend with h | h
    · omega
    · revert h; cases msb bv.data r <;> cases msb bv.data 0 <;> simp

theorem bits_split (f : Nat → Bool) (n m : Nat) :
    (List.range (n + m)).map f = (List.range n).map f ++ (List.range m).map fun i => f (i + n) := by
  rw [List.range_add, List.map_append, List.map_map]
  congr 1
  apply List.map_congr_left
  intro i _
  simp [Nat.add_comm]

theorem const_replicate (f : Nat → Bool) (n : Nat) (b : Bool) (h : ∀ k, k < n → f k = b) :
    (List.range n).map f = List.replicate n b := by
  rw [List.eq_replicate_iff]
  refine ⟨by simp, ?_⟩
  intro x hx
  obtain ⟨k, hk, rfl⟩ := List.mem_map.mp hx
  exact h k (List.mem_range.mp hk)

theorem ite_colour {α : Type} (b : Bool) (n : Nat) (hn : 0 < n) (x y : α) :
    (if (if b then 0 else n) > (if b then n else 0) then x else y) = if b then y else x := by
  cases b <;> simp [hn]

/-- the loop writes the code of runs which expand to the bits of the vector,
with at most seven more bits of the last colour -/
theorem t4Loop_spec (fuel : Nat) (vec comp : BV) (n : Nat) (hf : vec.cur ≤ fuel)
    (h2 : 2 ≤ vec.data.length) (hlen : vec.cur ≤ 8 * (vec.data.length - 2))
    (h32 : vec.data.length < 2 ^ 32) (hr : NoLongRun vec) (hc : comp.cur ≤ 8 * comp.data.length)
    (hn : rl vec (msb vec.data 0) = some n) :
    ∃ comp' ns extra, t4Loop fuel vec comp (if msb vec.data 0 then 0 else n)
        (if msb vec.data 0 then n else 0) = some comp' ∧
      App comp comp' (codeOf (msb vec.data 0) ns) ∧ (∀ m ∈ ns, m < 1024) ∧
      expand (msb vec.data 0) ns = bits vec ++ extra ∧ extra.length ≤ 7 := by
  induction fuel generalizing vec comp n with
  | zero =>
    refine ⟨comp, [], [], ?_, App.nil comp hc, by simp, ?_, by simp⟩
    · unfold t4Loop; rw [if_neg (by omega)]
    · simp [expand, bits, show vec.cur = 0 by omega]
  | succ fuel ih =>
    by_cases h0 : 0 < vec.cur
    · obtain ⟨n', hpos, hlt, h7, hn', _, hall, hnext⟩ := rl_both vec (by omega) h0 hr
      rw [hn] at hn'
      simp only [Option.some.injEq] at hn'
      subst hn'
      generalize hb : msb vec.data 0 = b at *
      obtain ⟨comp1, e1, a1⟩ := t4Rle_app comp n b hc hlt
      have hm : (if (if b then 0 else n) > (if b then n else 0) then (if b then 0 else n)
          else (if b then n else 0)) = n := by cases b <;> simp [hpos]
      have hcol : (!decide ((if b then 0 else n) > (if b then n else 0))) = b := by
        cases b <;> simp [hpos]
      unfold t4Loop
      rw [if_pos h0]
      simp only []
      rw [hm, hcol, e1]
      by_cases hsh : n < vec.cur
      · obtain ⟨vec', es, ec, el, em⟩ := shiftl_partial vec n hpos hsh (by omega) h2 h32
        have hbit : ∀ i, i + n < vec.cur → msb vec'.data i = msb vec.data (i + n) := by
          intro i hi
          exact em i (by omega) (Or.inr (by omega))
        have hv0 : msb vec'.data 0 = !b := by
          rw [hbit 0 (by omega), Nat.zero_add]; exact hnext hsh
        have hr' : NoLongRun vec' := by
          intro s hs
          rw [ec] at hs
          obtain ⟨k, hk, hne⟩ := hr (s + n) (by omega)
          refine ⟨k, hk, ?_⟩
          rw [hbit _ (by omega), hbit _ (by omega), show s + k + n = s + n + k by omega]
          exact hne
        obtain ⟨m, _, _, _, hm1, hm2, _⟩ := rl_both vec' (by omega) (by omega) hr'
        rw [es, Option.bind_some, Option.bind_some]
        have hrl0 : rl vec' false = some (if msb vec'.data 0 then 0 else m) := by
          cases h : msb vec'.data 0 <;> rw [h] at hm1 hm2 <;> simp_all
        have hrl1 : rl vec' true = some (if msb vec'.data 0 then m else 0) := by
          cases h : msb vec'.data 0 <;> rw [h] at hm1 hm2 <;> simp_all
        rw [hrl0, hrl1, Option.bind_some, Option.bind_some]
        obtain ⟨comp', ns, extra, e2, a2, hns, hex, hx7⟩ := ih vec' comp1 m (by omega) (by omega)
          (by omega) (by omega) hr' a1.cur_le hm1
        refine ⟨comp', n :: ns, extra, e2, ?_, ?_, ?_, hx7⟩
        · rw [hv0] at a2
          exact a1.trans a2
        · intro x hx
          rcases List.mem_cons.mp hx with rfl | hx
          · exact hlt
          · exact hns x hx
        · rw [hv0] at hex
          simp only [expand]
          rw [hex, ← List.append_assoc]
          congr 1
          unfold bits
          rw [show vec.cur = n + (vec.cur - n) by omega, bits_split,
            const_replicate _ n b (fun k hk => hall k (by omega)), ec]
          congr 1
          apply List.map_congr_left
          intro i hi
          rw [List.mem_range] at hi
          exact hbit i (by omega)
      · rw [shiftl_all vec n hpos (by omega), Option.bind_some, Option.bind_some]
        have hz : ∀ x, rl ⟨0, List.replicate vec.data.length 0#8⟩ x = some 0 := fun _ => by simp [rl, rlLoop]
        rw [hz, hz, Option.bind_some, Option.bind_some]
        refine ⟨comp1, [n], List.replicate (n - vec.cur) b, ?_, ?_, ?_, ?_, ?_⟩
        · unfold t4Loop; rw [if_neg (by simp)]
        · simpa [codeOf] using a1
        · intro x hx
          rw [List.mem_singleton] at hx
          omega
        · simp only [expand, List.append_nil]
          unfold bits
          rw [const_replicate _ vec.cur b (fun k hk => hall k (by omega)), List.replicate_append_replicate]
          congr 1; omega
        · rw [List.length_replicate]; omega
    · refine ⟨comp, [], [], ?_, App.nil comp hc, by simp, ?_, by simp⟩
      · unfold t4Loop; rw [if_neg h0]
      · simp [expand, bits, show vec.cur = 0 by omega]

/-- C143: for a vector with two unused octets behind its bits and no run of 1017
equal bits there is a code which decodes, starting with the colour of the first
bit, to the bits of the vector followed by at most seven surplus bits.  If this
code is shorter than the vector it replaces the bits of the vector and the
colour is returned; otherwise the vector is left as it is and -1 returned.
Missing for the full claim: vectors without two spare octets, long runs and the
surplus bits (counterexamples below). -/
theorem t4_lossless_partial (bv : BV) (h0 : 0 < bv.cur) (h2 : 2 ≤ bv.data.length)
    (hlen : bv.cur ≤ 8 * (bv.data.length - 2)) (h32 : bv.data.length < 2 ^ 32) (hr : NoLongRun bv) :
    ∃ code extra, decode (msb bv.data 0) code = some (bits bv ++ extra) ∧ extra.length ≤ 7 ∧
      if code.length < bv.cur then
        ∃ bv', t4Encode bv = some (if msb bv.data 0 then 1 else 0, bv') ∧ bits bv' = code ∧
          bv'.data.length = bv.data.length
      else t4Encode bv = some (-1, bv) := by
  obtain ⟨n, hpos, _, _, hn, hz, _⟩ := rl_both bv (by omega) h0 hr
  obtain ⟨comp, ns, extra, e, ⟨hl, ha⟩, hns, hex, h7⟩ := t4Loop_spec bv.cur bv
    ⟨0, List.replicate (2 * bv.data.length) 0#8⟩ n (Nat.le_refl _) h2 hlen h32 hr (by simp) hn
  refine ⟨codeOf (msb bv.data 0) ns, extra, ?_, h7, ?_⟩
  · rw [← hex]; exact decode_code ns _ hns
  · have hrl0 : rl bv false = some (if msb bv.data 0 then 0 else n) := by
      cases h : msb bv.data 0 <;> rw [h] at hn hz <;> simp_all
    have hrl1 : rl bv true = some (if msb bv.data 0 then n else 0) := by
      cases h : msb bv.data 0 <;> rw [h] at hn hz <;> simp_all
    unfold t4Encode
    rw [hrl0, hrl1, Option.bind_some, Option.bind_some, e, Option.map_some]
    simp only [List.length_replicate, Nat.zero_add] at ha hl
    by_cases hs : (codeOf (msb bv.data 0) ns).length < bv.cur
    · rw [if_pos (by omega)] at ha
      obtain ⟨hc, _, hm⟩ := ha
      simp only [Nat.zero_add] at hc hm
      rw [if_pos hs, if_pos (by omega), ite_colour _ _ hpos]
      refine ⟨_, rfl, ?_, by simp; omega⟩
      unfold bits
      apply List.ext_getElem
      · simp; omega
      · intro i h1 h2
        simp only [List.length_map, List.length_range] at h1
        simp only [List.getElem_map, List.getElem_range]
        have hb : msb (comp.data.take bv.data.length) i = msb comp.data i := by
          unfold msb bitAt
          simp only [List.getD]
          rw [List.getElem?_take, if_pos (by omega)]
        rw [hb, hm, if_pos (by omega)]
        simp [List.getD, h2]
    · rw [if_neg hs]
      have : bv.cur ≤ comp.cur := by
        split at ha
        · have := ha.1; simp at this; omega
        · omega
      rw [if_neg (by omega)]

/-- C143: two vectors of the same size, as in the theorem above, with the same
return value and the same code had the same bits. -/
theorem t4_injective (x y x' y' : BV) (r : Int) (hrc : r ≠ -1) (hs : x.cur = y.cur)
    (hx : t4Encode x = some (r, x')) (hy : t4Encode y = some (r, y')) (hb : bits x' = bits y')
    (x0 : 0 < x.cur) (x2 : 2 ≤ x.data.length) (xl : x.cur ≤ 8 * (x.data.length - 2))
    (x32 : x.data.length < 2 ^ 32) (xr : NoLongRun x)
    (y2 : 2 ≤ y.data.length) (yl : y.cur ≤ 8 * (y.data.length - 2))
    (y32 : y.data.length < 2 ^ 32) (yr : NoLongRun y) : bits x = bits y := by
  have key : ∀ z z' : BV, t4Encode z = some (r, z') → 0 < z.cur → 2 ≤ z.data.length →
      z.cur ≤ 8 * (z.data.length - 2) → z.data.length < 2 ^ 32 → NoLongRun z →
      ∃ extra, decode (decide (r = 1)) (bits z') = some (bits z ++ extra) := by
    intro z z' hz z0 z2 zl z32 zr
    obtain ⟨code, extra, hd, _, hif⟩ := t4_lossless_partial z z0 z2 zl z32 zr
    split at hif
    · obtain ⟨bv', e, hb', _⟩ := hif
      rw [hz] at e
      simp only [Option.some.injEq, Prod.mk.injEq] at e
      obtain ⟨er, rfl⟩ := e
      refine ⟨extra, ?_⟩
      rw [← hd, hb', er]
      cases msb z.data 0 <;> rfl
    · rw [hz] at hif
      simp only [Option.some.injEq, Prod.mk.injEq] at hif
      exact absurd hif.1 hrc
  obtain ⟨ex, hdx⟩ := key x x' hx x0 x2 xl x32 xr
  obtain ⟨ey, hdy⟩ := key y y' hy (by omega) y2 yl y32 yr
  rw [hb, hdy] at hdx
  simp only [Option.some.injEq] at hdx
  exact (List.append_inj hdx (by simp [bits, hs])).1.symm

example : t4Encode ⟨24, [0x00, 0x00, 0x01, 0, 0]⟩ = some (0, ⟨17, [0x05, 0x03, 0x80, 0, 0]⟩) ∧
    decode false (bits ⟨17, [0x05, 0x03, 0x80, 0, 0]⟩) =
      some (List.replicate 23 false ++ [true]) := by decide +kernel

/-- C143 (finding): bits behind the cursor are coded: the 21 zero bits become a
run of 23. -/
theorem t4_surplus_counterexample :
    (t4Encode ⟨21, [0x00, 0x00, 0x01, 0, 0]⟩).map (fun r => (r.1, decode false (bits r.2))) =
      some (0, some (List.replicate 23 false)) := by decide +kernel

/-- C143 (finding): without two spare octets the code of another vector is
returned: bit 31 of the 40 bits is reported as bit 32. -/
theorem t4_lossy_counterexample :
    (t4Encode ⟨40, [0x80, 0x00, 0x00, 0x01, 0x00]⟩).map (fun r => (r.1, decode true (bits r.2))) =
      some (1, some (bits ⟨40, [0x80, 0x00, 0x00, 0x00, 0x80]⟩)) ∧
    bits ⟨40, [0x80, 0x00, 0x00, 0x00, 0x80]⟩ ≠ bits ⟨40, [0x80, 0x00, 0x00, 0x01, 0x00]⟩ := by
  decide +kernel

/-- C143 (finding): a run of 1024 bits and more reads outside the table of
terminating codes. -/
theorem t4_long_counterexample (bv : BV) (n : Nat) (b : Bool) (h : 1024 ≤ n) : t4Rle bv n b = none := by
  obtain ⟨l1, l2, l3, l4, h5, h6⟩ := tables_ok b
  unfold t4Rle
  rw [if_pos (by omega), show makeUpIdx n = 14 by unfold makeUpIdx; rw [if_pos (by omega)]]
  have : ∀ bv', put bv' (t4Term b) (t4TermLength b) (n - 64 * (14 + 1)) = none := by
    intro bv'
    unfold put
    rw [List.getElem?_eq_none (by omega)]
  cases put bv (t4MakeUp b) (t4MakeUpLength b) 14 with
  | none => rfl
  | some x => exact this x

/-- C143 (finding): a one octet vector with both values is read out of bounds. -/
theorem t4_short_counterexample : t4Encode ⟨8, [0xf0]⟩ = none := by
  have h : shiftl ⟨8, [0xf0]⟩ 4 = none := shiftl_one 0xf0 4 _ rfl (by decide) (by decide) (by decide)
  have h0 : rl ⟨8, [0xf0]⟩ false = some 0 := by decide
  have h1 : rl ⟨8, [0xf0]⟩ true = some 4 := by decide
  unfold t4Encode
  rw [h0, h1, Option.bind_some, Option.bind_some]
  unfold t4Loop
  simp only [show (8 : Nat) > 0 by decide, if_true, show ¬ ((0 : Nat) > 4) by decide, if_false, h,
    Option.bind_none, Option.map_none]

end Verif.Bitcomp
