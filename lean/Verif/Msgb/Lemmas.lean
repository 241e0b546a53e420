import Verif.Msgb.Spec
namespace Verif.Msgb

theorem toU16_ofNat {n : Nat} (h : n < 65536) {i : Int} (hi : i = n) : toU16 i = n := by
  subst hi; unfold toU16; omega

theorem trim_ok {m : Msgb} {n : Int} (h : ¬ n > m.dataLen) :
    m.trim n = (0, { m with len := toU16 n, tail := m.data + n }) := by
  unfold Msgb.trim; rw [if_neg h]

theorem presents_alloc (size : Nat) (h : size < 65536) :
    Presents (alloc size) { hr := 0, pl := [], tr := size } := by
  refine ⟨rfl, rfl, rfl, rfl, ?_, [], List.replicate size 0#8, ?_, rfl, ?_⟩
  · simp only [alloc, List.length_replicate]; omega
  · simp [alloc, Nat.mod_eq_of_lt h]
  · simp

theorem presents_inStorage {m : Msgb} {d : Deq} (h : Presents m d) :
    InStorage m ∧ m.headroom = d.hr ∧ m.length = d.pl.length ∧ m.tailroom = d.tr := by
  obtain ⟨h1, h2, h3, h4, h5, pre, post, h6, h7, h8⟩ := h
  have hl : m.mem.length = d.hr + d.pl.length + d.tr := by rw [h6]; simp; omega
  refine ⟨⟨?_, ?_, ?_, ?_, ?_, ?_⟩, ?_, ?_, ?_⟩ <;>
    (try simp only [Msgb.headroom, Msgb.tailroom, Msgb.length, Msgb.dataLen]) <;> omega

theorem step_presents {m : Msgb} {d d' : Deq} {op : Op} {o : List Byte}
    (h : Presents m d) (hs : specStep d op = some (d', o)) :
    ∃ m', step m op = some (m', o) ∧ Presents m' d' := by
  obtain ⟨h1, h2, h3, h4, h5, pre, post, h6, h7, h8⟩ := h
  have hl : m.mem.length = d.hr + d.pl.length + d.tr := by rw [h6]; simp; omega
  cases op with
  | reserve n =>
    simp only [specStep] at hs
    split at hs
    case isFalse => cases hs
    rename_i hc
    cases hs
    obtain ⟨hc1, hc2⟩ := hc
    refine ⟨_, rfl, ?_⟩
    have hpl : d.pl.length = 0 := by simp [hc1]
    refine ⟨h1, ?_, ?_, ?_, h5, pre ++ post.take n, post.drop n, ?_, ?_, ?_⟩
    · simp [Msgb.reserve, h2]
    · simp only [Msgb.reserve]; omega
    · simpa [Msgb.reserve] using h4
    · simp [Msgb.reserve, h6, hc1, List.append_assoc]
    · simp; omega
    · simp; omega
  | put bs =>
    simp only [specStep] at hs
    split at hs
    case isFalse => cases hs
    rename_i hc
    cases hs
    have hw : writeAt m.mem m.tail bs =
        some ((pre ++ d.pl) ++ bs ++ post.drop bs.length) := by
      rw [h3, show (d.hr : Int) + d.pl.length = ((d.hr + d.pl.length : Nat) : Int) by omega,
        writeAt_eq_some (by omega)]
      have e : (pre ++ d.pl).length = d.hr + d.pl.length := by simp [h7]
      rw [h6, ← e, List.take_left, List.drop_append]
      simp
    refine ⟨_, by simp [step, Msgb.putBytes, Msgb.put, hw]; rfl, ?_⟩
    refine ⟨h1, h2, ?_, ?_, ?_, pre, post.drop bs.length, ?_, h7, ?_⟩
    · simp [h3]; omega
    · dsimp only
      refine toU16_ofNat ?_ ?_ <;> simp <;> omega
    · simp; omega
    · simp
    · simp; omega
  | push bs =>
    simp only [specStep] at hs
    split at hs
    case isFalse => cases hs
    rename_i hc
    cases hs
    have hw : writeAt m.mem (m.data - bs.length) bs =
        some (pre.take (d.hr - bs.length) ++ bs ++ (d.pl ++ post)) := by
      rw [h2, show (d.hr : Int) - bs.length = ((d.hr - bs.length : Nat) : Int) by omega,
        writeAt_eq_some (by omega)]
      rw [show d.hr - bs.length + bs.length = pre.length by omega, h6, List.append_assoc pre,
        List.drop_left, List.take_append_of_le_length (by omega)]
    refine ⟨_, by simp [step, Msgb.pushBytes, Msgb.push, hw]; rfl, ?_⟩
    refine ⟨h1, ?_, ?_, ?_, ?_, pre.take (d.hr - bs.length), post, ?_, ?_, h8⟩
    · simp [h2]; omega
    · simp [h3]; omega
    · dsimp only
      refine toU16_ofNat ?_ ?_ <;> simp <;> omega
    · simp; omega
    · simp
    · simp; omega
  | pull n =>
    simp only [specStep] at hs
    split at hs
    case isFalse => cases hs
    rename_i hc
    cases hs
    have hr : readAt m.mem (m.data + n - n) n = some (d.pl.take n) := by
      rw [h2, show (d.hr : Int) + n - n = ((d.hr : Nat) : Int) by omega,
        readAt_eq_some (by omega), h6, ← h7, List.append_assoc, List.drop_left,
        List.take_append_of_le_length hc]
    refine ⟨_, by simp only [step, Msgb.pullBytes, Msgb.pull, hr]; rfl, ?_⟩
    refine ⟨h1, ?_, ?_, ?_, h5, pre ++ d.pl.take n, post, ?_, ?_, h8⟩
    · simp [h2]
    · simp [h3]; omega
    · dsimp only
      refine toU16_ofNat ?_ ?_ <;> simp <;> omega
    · simp [h6]
    · simp; omega
  | get n =>
    simp only [specStep] at hs
    split at hs
    case isFalse => cases hs
    rename_i hc
    cases hs
    have hr : readAt m.mem (m.tail - n) n = some (d.pl.drop (d.pl.length - n)) := by
      rw [h3, show (d.hr : Int) + d.pl.length - n = ((pre.length + (d.pl.length - n) : Nat) : Int) by omega,
        readAt_eq_some (by omega), h6, List.append_assoc, ← List.drop_drop, List.drop_left,
        List.drop_append_of_le_length (by omega), List.take_append_of_le_length (by simp; omega),
        List.take_of_length_le (by simp; omega)]
    refine ⟨_, by simp [step, Msgb.getBytes, Msgb.get, hr]; rfl, ?_⟩
    refine ⟨h1, h2, ?_, ?_, h5, pre, d.pl.drop (d.pl.length - n) ++ post, ?_, h7, ?_⟩
    · simp [h3]; omega
    · dsimp only
      refine toU16_ofNat ?_ ?_ <;> simp <;> omega
    · simp only [h6, List.append_assoc]
      rw [← List.append_assoc (d.pl.take _), List.take_append_drop]
    · simp; omega
  | trim n =>
    simp only [specStep] at hs
    split at hs
    case isFalse => cases hs
    rename_i hc
    cases hs
    have ht : ¬ ((n : Int) > m.dataLen) := by simp only [Msgb.dataLen]; omega
    refine ⟨_, by simp only [step, Msgb.trim, if_neg ht]; rfl, ?_⟩
    refine ⟨h1, h2, ?_, ?_, h5, pre, d.pl.drop n ++ post, ?_, h7, ?_⟩
    · simp [h2]; omega
    · dsimp only
      refine toU16_ofNat ?_ ?_ <;> simp <;> omega
    · simp only [h6, List.append_assoc]
      rw [← List.append_assoc (d.pl.take _), List.take_append_drop]
    · simp; omega
  | reset =>
    simp only [specStep] at hs
    cases hs
    refine ⟨_, rfl, ?_⟩
    exact ⟨rfl, rfl, rfl, rfl, h5, [], m.mem, by simp [Msgb.reset], rfl, hl⟩

theorem run_presents {m : Msgb} {d d' : Deq} {ops : List Op} {os : List (List Byte)}
    (h : Presents m d) (hs : specRun d ops = some (d', os)) :
    ∃ m', run m ops = some (m', os) ∧ Presents m' d' := by
  induction ops generalizing m d os with
  | nil => simp only [specRun] at hs; cases hs; exact ⟨m, rfl, h⟩
  | cons op ops ih =>
    simp only [specRun, Option.bind_eq_some_iff, Option.map_eq_some_iff] at hs
    obtain ⟨⟨d1, o⟩, hs1, ⟨d2, os2⟩, hs2, he⟩ := hs
    cases he
    obtain ⟨m1, hm1, hp1⟩ := step_presents h hs1
    obtain ⟨m2, hm2, hp2⟩ := ih hp1 hs2
    exact ⟨m2, by simp [run, hm1, hm2], hp2⟩

end Verif.Msgb
