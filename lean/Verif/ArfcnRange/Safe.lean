import Verif.ArfcnRange.Read
/-!
C70: `gsm48_decode_freq_list` on any message: it reads no octet beyond the length it
is given, sets no element beyond the array, and from a shortened message gets
no frequency that is not in the complete one.
-/
namespace Verif.ArfcnRange

/-- The fields lie before the length from which on they are read; what a node is
computed from is read when the node is. -/
def TableSafe (ns : List Node) : Bool :=
  ns.all (fun n => n.pieces.all (fun p => decide (p.1 < n.minLen)) &&
    n.path.all (fun q => decide (0 < q.2.2 ∧ q.2.2 ≤ 1023) && decide (1 ≤ q.1 ∧ q.1 ≤ ns.length) &&
      (ns[q.1 - 1]?.all (fun n' => decide (n'.minLen ≤ n.minLen)))) &&
    decide ((n.pieces.map (fun p => p.2.2)).sum ≤ 10))

theorem nodes1024_safe : TableSafe nodes1024 = true := by decide +kernel
theorem nodes512_safe : TableSafe nodes512 = true := by decide +kernel
theorem nodes256_safe : TableSafe nodes256 = true := by decide +kernel
theorem nodes128_safe : TableSafe nodes128 = true := by decide +kernel

theorem readField_some (cd : List Byte) (ps : List (Nat × Nat × Nat)) (acc b : Nat) (h : ∀ p ∈ ps, p.1 < cd.length) (hacc : acc < 2 ^ b) :
    ∃ v, readField cd acc ps = some v ∧ v < 2 ^ (b + (ps.map (fun p => p.2.2)).sum) := by
  induction ps generalizing acc b with
  | nil => exact ⟨acc, rfl, by simpa using hacc⟩
  | cons p ps ih =>
    simp only [readField, readPiece, List.getElem?_eq_getElem (h p (by simp)), Option.map_some, Option.bind_some]
    have hv : (cd[p.1]'(h p (by simp))).toNat >>> p.2.1 % 2 ^ p.2.2 < 2 ^ p.2.2 := Nat.mod_lt _ (Nat.two_pow_pos _)
    generalize (cd[p.1]'(h p (by simp))).toNat >>> p.2.1 % 2 ^ p.2.2 = v at *
    have hor : acc <<< p.2.2 ||| v < 2 ^ (b + p.2.2) := by
      apply Nat.or_lt_two_pow
      · rw [Nat.shiftLeft_eq, Nat.pow_add]
        exact Nat.mul_lt_mul_of_pos_right hacc (Nat.two_pow_pos _)
      · exact Nat.lt_of_lt_of_le hv (Nat.pow_le_pow_right (by omega) (by omega))
    obtain ⟨u, h1, h2⟩ := ih _ _ (fun q hq => h q (List.mem_cons_of_mem _ hq)) hor
    refine ⟨u, h1, ?_⟩
    rw [List.map_cons, List.sum_cons, ← Nat.add_assoc]
    exact h2

theorem tableSafe_mem {ns : List Node} (h : TableSafe ns = true) {n : Node} (hn : n ∈ ns) :
    (∀ p ∈ n.pieces, p.1 < n.minLen) ∧
      (∀ q ∈ n.path, (0 < q.2.2 ∧ q.2.2 ≤ 1023) ∧ ∃ n', ns[q.1 - 1]? = some n' ∧ n'.minLen ≤ n.minLen) ∧
      (n.pieces.map (fun p => p.2.2)).sum ≤ 10 := by
  simp only [TableSafe, List.all_eq_true, Bool.and_eq_true, decide_eq_true_eq] at h
  obtain ⟨⟨h1, h2⟩, h3⟩ := h n hn
  refine ⟨h1, ?_, h3⟩
  intro q hq
  obtain ⟨⟨h4, h5⟩, h6⟩ := h2 q hq
  refine ⟨h4, ?_⟩
  have : ns[q.1 - 1]? = some (ns[q.1 - 1]'(by omega)) := List.getElem?_eq_getElem (by omega)
  rw [this] at h6 ⊢
  exact ⟨_, rfl, by simpa using h6⟩

theorem readNode_some {n : Node} (hp : ∀ p ∈ n.pieces, p.1 < n.minLen) (hs : (n.pieces.map (fun p => p.2.2)).sum ≤ 10)
    (cd : List Byte) (len : Nat) (hl : len ≤ cd.length) : ∃ v, readNode cd len n = some v ∧ v < 1024 := by
  simp only [readNode]
  split
  · obtain ⟨v, h1, h2⟩ := readField_some cd n.pieces 0 0 (fun p hp' => by have := hp p hp'; omega) (by simp)
    refine ⟨v, h1, Nat.lt_of_lt_of_le h2 ?_⟩
    rw [Nat.zero_add, show 1024 = 2 ^ 10 by norm_num]
    exact Nat.pow_le_pow_right (by omega) hs
  · exact ⟨0, rfl, by omega⟩

theorem readNodes_some (ns : List Node) (h : ∀ n ∈ ns, (∀ p ∈ n.pieces, p.1 < n.minLen) ∧ (n.pieces.map (fun p => p.2.2)).sum ≤ 10)
    (cd : List Byte) (len : Nat) (hl : len ≤ cd.length) : ∃ W, readNodes cd len ns = some W ∧ W.length = ns.length ∧ ∀ v ∈ W, v < 1024 := by
  induction ns with
  | nil => exact ⟨[], rfl, rfl, by simp⟩
  | cons n ns ih =>
    obtain ⟨W, h1, h2, h3⟩ := ih (fun n hn => h n (List.mem_cons_of_mem _ hn))
    obtain ⟨v, hv, hlt⟩ := readNode_some (h n (by simp)).1 (h n (by simp)).2 cd len hl
    refine ⟨v :: W, by simp [readNodes, hv, h1], by simp [h2], ?_⟩
    intro u hu
    rcases List.mem_cons.1 hu with rfl | hu
    · exact hlt
    · exact h3 u hu

theorem smod_range (n : Int) (m : Nat) (h : 0 < m) : 0 < smod n m ∧ smod n m ≤ m := by
  have h1 : n.tmod (m : Int) < m := Int.tmod_lt_of_pos n (by omega)
  have h2 : -(m : Int) < n.tmod m := by
    have := Int.lt_tmod_of_pos n (show (0 : Int) < m by omega)
    exact this
  simp only [smod]
  split <;> omega

theorem nodeValues_range {ns : List Node} (h : TableSafe ns = true) (W : List Nat) (hW : ∀ v ∈ W, v < 1024) :
    ∀ v ∈ nodeValues W ns, 0 < v ∧ v < 1024 := by
  intro v hv
  simp only [nodeValues, List.mem_filterMap] at hv
  obtain ⟨⟨n, x⟩, hm, hx⟩ := hv
  obtain ⟨hn, hxW⟩ := List.of_mem_zip hm
  simp only [] at hx
  split at hx
  · rename_i hne
    simp only [Option.some.injEq] at hx
    obtain ⟨_, h2, _⟩ := tableSafe_mem h hn
    rcases hp : n.path with _ | ⟨q, ps⟩
    · rw [hp] at hx
      simp only [applyPath] at hx
      have := hW x hxW
      omega
    · rw [hp] at hx h2
      simp only [applyPath] at hx
      have hq := (h2 q (by simp)).1
      have := smod_range ((W.getD (q.1 - 1) 0 : Nat) - (q.2.1 : Nat) + applyPath W ps (x : Nat)) q.2.2 hq.1
      omega
  · simp at hx

theorem bitmapLoop_some (cd : List Byte) (hl : 16 ≤ cd.length) (fuel i : Nat) (hi : 1 ≤ i) (hf : i + fuel ≤ 1024) :
    ∃ l, bitmapLoop cd fuel i = some l ∧ ∀ v ∈ l, 0 ≤ v ∧ v < 1024 := by
  induction fuel generalizing i with
  | zero => exact ⟨[], rfl, by simp⟩
  | succ fuel ih =>
    obtain ⟨l, h1, h2⟩ := ih (i + 1) (by omega) (by omega)
    simp only [bitmapLoop, List.getElem?_eq_getElem (show 15 - ((i - 1) >>> 3) < cd.length by omega), Option.bind_some, h1, Option.map_some]
    refine ⟨_, rfl, ?_⟩
    intro v hv
    split at hv
    · rcases List.mem_cons.1 hv with rfl | hv
      · omega
      · exact h2 v hv
    · exact h2 v hv

theorem varLoop_some (cd : List Byte) (len orig : Nat) (hl : len ≤ cd.length) (fuel i : Nat) :
    ∃ l, varLoop cd len orig fuel i = some l ∧ ∀ v ∈ l, 0 ≤ v ∧ v < 1024 := by
  induction fuel generalizing i with
  | zero => exact ⟨[], rfl, by simp⟩
  | succ fuel ih =>
    obtain ⟨l, h1, h2⟩ := ih (i + 1)
    simp only [varLoop]
    split
    · rw [List.getElem?_eq_getElem (by omega)]
      simp only [Option.bind_some, h1, Option.map_some]
      refine ⟨_, rfl, ?_⟩
      intro v hv
      split at hv
      · rcases List.mem_cons.1 hv with rfl | hv
        · omega
        · exact h2 v hv
      · exact h2 v hv
    · exact ⟨[], rfl, by simp⟩

theorem origPieces_some (cd : List Byte) (hl : 3 ≤ cd.length) : ∃ v, readField cd 0 origPieces = some v ∧ v < 1024 := by
  obtain ⟨v, h1, h2⟩ := readField_some cd origPieces 0 0 (by
    intro p hp
    simp only [origPieces, List.mem_cons, List.not_mem_nil, or_false] at hp
    rcases hp with rfl | rfl | rfl <;> simp <;> omega) (by simp)
  exact ⟨v, h1, by simpa [origPieces] using h2⟩

theorem decodeOrig_some {ns : List Node} (h : TableSafe ns = true) (minLen : Nat) (hml : 3 ≤ minLen) (cd : List Byte) (len : Nat)
    (hl : len ≤ cd.length) : ∃ rc marks, decodeOrig ns minLen cd len = some (rc, marks) ∧ ∀ v ∈ marks, 0 ≤ v ∧ v < 1024 := by
  simp only [decodeOrig]
  split
  · exact ⟨_, _, rfl, by simp⟩
  · obtain ⟨w0, h1, h2⟩ := origPieces_some cd (by omega)
    obtain ⟨W, h3, _, h5⟩ := readNodes_some ns (fun n hn => ⟨(tableSafe_mem h hn).1, (tableSafe_mem h hn).2.2⟩) cd len hl
    refine ⟨_, _, by rw [h1, Option.bind_some, h3, Option.map_some], ?_⟩
    intro v hv
    rcases List.mem_cons.1 hv with rfl | hv
    · omega
    · rw [List.mem_map] at hv
      obtain ⟨u, hu, rfl⟩ := hv
      have := nodeValues_range h W h5 u hu
      rw [Int.tmod_eq_emod_of_nonneg (by omega)]
      omega

theorem decodeMarks_some (cd : List Byte) (len : Nat) (hl : len ≤ cd.length) (h1 : 1 ≤ len) (mask : Byte) :
    ∃ rc marks, decodeMarks cd len mask = some (rc, marks) ∧ ∀ v ∈ marks, 0 ≤ v ∧ v < 1024 := by
  simp only [decodeMarks, List.getElem?_eq_getElem (show 0 < cd.length by omega)]
  split
  · split
    · exact ⟨_, _, rfl, by simp⟩
    · obtain ⟨l, h2, h3⟩ := bitmapLoop_some cd (by omega) 124 1 (by omega) (by omega)
      exact ⟨0, l, by rw [h2, Option.map_some], h3⟩
  · split
    · split
      · exact ⟨_, _, rfl, by simp⟩
      · obtain ⟨v, h2, _⟩ := readField_some cd [(0, 2, 1)] 0 0 (by simp; omega) (by simp)
        obtain ⟨W, h3, _, h5⟩ := readNodes_some nodes1024
          (fun n hn => ⟨(tableSafe_mem nodes1024_safe hn).1, (tableSafe_mem nodes1024_safe hn).2.2⟩) cd len hl
        refine ⟨_, _, by rw [h2, Option.bind_some, h3, Option.map_some], ?_⟩
        intro u hu
        rcases List.mem_append.1 hu with hu | hu
        · split at hu
          · simp only [List.mem_singleton] at hu; omega
          · simp at hu
        · have := nodeValues_range nodes1024_safe W h5 u hu
          omega
    · split
      · exact decodeOrig_some nodes512_safe 4 (by omega) cd len hl
      · split
        · exact decodeOrig_some nodes256_safe 4 (by omega) cd len hl
        · split
          · exact decodeOrig_some nodes128_safe 3 (by omega) cd len hl
          · split
            · split
              · exact ⟨_, _, rfl, by simp⟩
              · obtain ⟨w0, h2, h3⟩ := origPieces_some cd (by omega)
                obtain ⟨l, h4, h5⟩ := varLoop_some cd len w0 hl (8 * len) 1
                refine ⟨_, _, by rw [h2, Option.bind_some, h4, Option.map_some], ?_⟩
                intro v hv
                rcases List.mem_cons.1 hv with rfl | hv
                · omega
                · exact h5 v hv
            · exact ⟨_, _, rfl, by simp⟩

/-- C70.  Whatever the message of `len` octets is, the decoder reads none but
these and touches no element outside of the array of 1024; and bits other than
`frqt` keep their value. -/
theorem decodeFreqList_safe (f : Nat → Byte) (cd : List Byte) (hlen : 1 ≤ cd.length) (mask frqt : Byte) :
    ∃ rc f', decodeFreqList f cd cd.length mask frqt = some (rc, f') ∧ ∀ i, f' i &&& ~~~frqt = f i &&& ~~~frqt := by
  obtain ⟨rc, marks, h1, h2⟩ := decodeMarks_some cd cd.length (Nat.le_refl _) hlen mask
  refine ⟨rc, fun i => (f i &&& ~~~frqt) ||| (if (i : Int) ∈ marks then frqt else 0), ?_, ?_⟩
  · simp only [decodeFreqList, h1]
    rw [if_pos]
    rw [List.all_eq_true]
    exact fun x hx => decide_eq_true (h2 x hx)
  · intro i
    apply BitVec.eq_of_getLsbD_eq
    intro j hj
    simp only []
    split <;> simp only [BitVec.getLsbD_and, BitVec.getLsbD_or, BitVec.getLsbD_not, BitVec.getLsbD_zero] <;>
      cases (f i).getLsbD j <;> cases frqt.getLsbD j <;> simp

/-! ### Shortened messages -/

theorem readNodes_at (cd : List Byte) (len : Nat) (ns : List Node) (W : List Nat) (h : readNodes cd len ns = some W) :
    W.length = ns.length ∧ ∀ (i : Nat) (n : Node), ns[i]? = some n → ∃ v, W[i]? = some v ∧ readNode cd len n = some v := by
  induction ns generalizing W with
  | nil =>
    simp only [readNodes, Option.some.injEq] at h
    subst h
    exact ⟨rfl, by simp⟩
  | cons n ns ih =>
    simp only [readNodes, Option.bind_eq_some_iff, Option.map_eq_some_iff] at h
    obtain ⟨v, h1, W', h2, rfl⟩ := h
    obtain ⟨h3, h4⟩ := ih W' h2
    refine ⟨by simp [h3], ?_⟩
    intro i n' hn'
    rcases i with _ | i
    · simp only [List.getElem?_cons_zero, Option.some.injEq] at hn'
      subst hn'
      exact ⟨v, by simp, h1⟩
    · simpa using h4 i n' (by simpa using hn')

/-- What is read with the shorter length is read with the longer one. -/
theorem readNodes_mono {cd : List Byte} {len len' : Nat} {ns : List Node} {W W' : List Nat} (hle : len' ≤ len)
    (h : readNodes cd len ns = some W) (h' : readNodes cd len' ns = some W') (i : Nat) (n : Node) (hn : ns[i]? = some n)
    (hm : n.minLen ≤ len') : W'[i]? = W[i]? := by
  obtain ⟨v, h1, h2⟩ := (readNodes_at cd len ns W h).2 i n hn
  obtain ⟨v', h1', h2'⟩ := (readNodes_at cd len' ns W' h').2 i n hn
  rw [readNode, if_pos (by omega)] at h2 h2'
  rw [h2] at h2'
  rw [h1, h1', h2']

theorem applyPath_congr (W W' : List Nat) (ps : List (Nat × Nat × Nat)) (x : Int)
    (h : ∀ q ∈ ps, W'[q.1 - 1]? = W[q.1 - 1]?) : applyPath W' ps x = applyPath W ps x := by
  induction ps with
  | nil => rfl
  | cons q ps ih =>
    simp only [applyPath, List.getD_eq_getElem?_getD]
    rw [h q (by simp), ih (fun r hr => h r (List.mem_cons_of_mem _ hr))]

theorem nodeValues_mono {ns : List Node} (hsafe : TableSafe ns = true) {cd : List Byte} {len len' : Nat} {W W' : List Nat}
    (hle : len' ≤ len) (h : readNodes cd len ns = some W) (h' : readNodes cd len' ns = some W') :
    ∀ v ∈ nodeValues W' ns, v ∈ nodeValues W ns := by
  intro v hv
  simp only [nodeValues, List.mem_filterMap] at hv ⊢
  obtain ⟨⟨n, x⟩, hm, hx⟩ := hv
  simp only [] at hx
  obtain ⟨i, hi⟩ := List.getElem?_of_mem hm
  rw [List.getElem?_zip_eq_some] at hi
  obtain ⟨hn, hxW⟩ := hi
  simp only [] at hn hxW
  split at hx
  · rename_i hne
    obtain ⟨x', g1, g2⟩ := (readNodes_at cd len' ns W' h').2 i n hn
    rw [hxW, Option.some.injEq] at g1
    subst g1
    have hml : n.minLen ≤ len' := by
      by_contra hcon
      rw [readNode, if_neg hcon, Option.some.injEq] at g2
      exact hne g2.symm
    refine ⟨(n, x), List.mem_of_getElem? (i := i) (by
      rw [List.getElem?_zip_eq_some]; exact ⟨hn, by rw [← readNodes_mono hle h h' i n hn hml]; exact hxW⟩), ?_⟩
    simp only []
    rw [if_pos hne, ← hx]
    congr 1
    symm
    apply applyPath_congr
    intro q hq
    obtain ⟨_, n', hn', hml'⟩ := (tableSafe_mem hsafe (List.mem_of_getElem? hn)).2.1 q hq
    exact readNodes_mono hle h h' _ n' hn' (by omega)
  · simp at hx

theorem decodeOrig_mono {ns : List Node} (hsafe : TableSafe ns = true) (minLen : Nat) {cd : List Byte} {len len' : Nat}
    (hle : len' ≤ len) {rc rc' : Int} {marks marks' : List Int} (h : decodeOrig ns minLen cd len = some (rc, marks))
    (h' : decodeOrig ns minLen cd len' = some (rc', marks')) : ∀ v ∈ marks', v ∈ marks := by
  simp only [decodeOrig] at h h'
  split at h'
  · simp only [Option.some.injEq, Prod.mk.injEq] at h'
    rw [← h'.2]; simp
  · rw [if_neg (by omega)] at h
    simp only [Option.bind_eq_some_iff, Option.map_eq_some_iff, Prod.mk.injEq] at h h'
    obtain ⟨w0, h1, W, h2, _, rfl⟩ := h
    obtain ⟨w0', h1', W', h2', _, rfl⟩ := h'
    rw [h1, Option.some.injEq] at h1'
    subst h1'
    intro v hv
    rcases List.mem_cons.1 hv with hv | hv
    · rw [hv]; exact List.mem_cons_self
    · rw [List.mem_map] at hv
      obtain ⟨u, hu, rfl⟩ := hv
      exact List.mem_cons_of_mem _ (List.mem_map.2 ⟨u, nodeValues_mono hsafe hle h2 h2' u hu, rfl⟩)

theorem varLoop_mono (cd : List Byte) (len len' orig : Nat) (hle : len' ≤ len) (fuel' fuel i : Nat) (hf : fuel' ≤ fuel)
    (l l' : List Int) (h : varLoop cd len orig fuel i = some l) (h' : varLoop cd len' orig fuel' i = some l') : ∀ v ∈ l', v ∈ l := by
  induction fuel' generalizing fuel i l l' with
  | zero =>
    simp only [varLoop, Option.some.injEq] at h'
    subst h'; simp
  | succ fuel' ih =>
    rcases fuel with _ | fuel
    · omega
    simp only [varLoop] at h h'
    split at h'
    · rw [if_pos (by omega)] at h
      simp only [Option.bind_eq_some_iff, Option.map_eq_some_iff] at h h'
      obtain ⟨b, h1, k, h2, rfl⟩ := h
      obtain ⟨b', h1', k', h2', rfl⟩ := h'
      rw [h1, Option.some.injEq] at h1'
      subst h1'
      have hk := ih fuel (i + 1) (by omega) k k' h2 h2'
      intro v hv
      split at hv
      · rename_i hb
        rw [if_pos hb]
        rcases List.mem_cons.1 hv with hv | hv
        · rw [hv]; exact List.mem_cons_self
        · exact List.mem_cons_of_mem _ (hk v hv)
      · rename_i hb
        rw [if_neg hb]
        exact hk v hv
    · simp only [Option.some.injEq] at h'
      subst h'; simp

/-- C70.  A frequency that is decoded with a shorter length is decoded with the
longer one. -/
theorem decodeFreqList_shortened (cd : List Byte) (len len' : Nat) (hle : len' ≤ len) (mask : Byte) (rc rc' : Int) (marks marks' : List Int)
    (h : decodeMarks cd len mask = some (rc, marks)) (h' : decodeMarks cd len' mask = some (rc', marks')) :
    ∀ v ∈ marks', v ∈ marks := by
  simp only [decodeMarks] at h h'
  split at h'
  · simp at h'
  · rename_i c0 hc0
    rw [hc0] at h
    simp only [] at h
    split at h' <;> rename_i t1
    · rw [if_pos t1] at h
      split at h'
      · simp only [Option.some.injEq, Prod.mk.injEq] at h'
        rw [← h'.2]; simp
      · rw [if_neg (by omega), h', Option.some.injEq, Prod.mk.injEq] at h
        rw [h.2]; exact fun v hv => hv
    · rw [if_neg t1] at h
      split at h' <;> rename_i t2
      · rw [if_pos t2] at h
        split at h'
        · simp only [Option.some.injEq, Prod.mk.injEq] at h'
          rw [← h'.2]; simp
        · rw [if_neg (by omega)] at h
          simp only [Option.bind_eq_some_iff, Option.map_eq_some_iff, Prod.mk.injEq] at h h'
          obtain ⟨w0, h1, W, h2, _, rfl⟩ := h
          obtain ⟨w0', h1', W', h2', _, rfl⟩ := h'
          rw [h1, Option.some.injEq] at h1'
          subst h1'
          intro v hv
          rcases List.mem_append.1 hv with hv | hv
          · exact List.mem_append_left _ hv
          · exact List.mem_append_right _ (nodeValues_mono nodes1024_safe hle h2 h2' v hv)
      · rw [if_neg t2] at h
        split at h' <;> rename_i t3
        · rw [if_pos t3] at h; exact decodeOrig_mono nodes512_safe 4 hle h h'
        · rw [if_neg t3] at h
          split at h' <;> rename_i t4
          · rw [if_pos t4] at h; exact decodeOrig_mono nodes256_safe 4 hle h h'
          · rw [if_neg t4] at h
            split at h' <;> rename_i t5
            · rw [if_pos t5] at h; exact decodeOrig_mono nodes128_safe 3 hle h h'
            · rw [if_neg t5] at h
              split at h' <;> rename_i t6
              · rw [if_pos t6] at h
                split at h'
                · simp only [Option.some.injEq, Prod.mk.injEq] at h'
                  rw [← h'.2]; simp
                · rw [if_neg (by omega)] at h
                  simp only [Option.bind_eq_some_iff, Option.map_eq_some_iff, Prod.mk.injEq] at h h'
                  obtain ⟨w0, h1, l, h2, _, rfl⟩ := h
                  obtain ⟨w0', h1', l', h2', _, rfl⟩ := h'
                  rw [h1, Option.some.injEq] at h1'
                  subst h1'
                  intro v hv
                  rcases List.mem_cons.1 hv with hv | hv
                  · rw [hv]; exact List.mem_cons_self
                  · exact List.mem_cons_of_mem _ (varLoop_mono cd len len' w0 hle _ _ 1 (by omega) l l' h2 h2' v hv)
              · simp only [Option.some.injEq, Prod.mk.injEq] at h'
                rw [← h'.2]; simp

/-- A message of the range 512 in full and shortened to six octets. -/
example : decodeMarks [136, 1, 176, 154, 108, 129, 0, 50] 8 206 = some (0, [3, 197, 46, 375, 175, 71]) ∧
    decodeMarks [136, 1, 176, 154, 108, 129, 0, 50] 6 206 = some (0, [3, 197, 46, 375]) := by decide +kernel

end Verif.ArfcnRange
