import Verif.Lapd.Claims
/-!
C110: runs of a LAPD link, and where a user may be surprised.
-/
namespace Verif.Lapd
open Verif

/-- events while both sides keep the link -/
def runEst (s : Sys) : List (Bool × Ev) → Option Sys
  | [] => some s
  | e :: es => (step s e).bind fun s => if Est s.a ∧ Est s.b then runEst s es else none

theorem runEst_reach {s0 : Sys} : ∀ (es : List (Bool × Ev)) (s s' : Sys), Reach s0 s → runEst s es = some s' → Reach s0 s'
  | [], s, s', h, e => by cases e; exact h
  | e :: es, s, s', h, h1 => by
    rw [runEst] at h1
    cases hst : step s e with
    | none => rw [hst] at h1; cases h1
    | some t =>
      rw [hst, Option.bind_some] at h1
      by_cases hE : Est t.a ∧ Est t.b
      · rw [if_pos hE] at h1
        exact runEst_reach es t s' (.step e h hst hE.1 hE.2) h1
      · rw [if_neg hE] at h1
        cases h1

/-- a link with a window of 7 among 128 numbers, segments of 3 octets, N200 = 3 -/
def ends (maxf : Nat) : Ends :=
  { ka := 7, kb := 7, e := 7, n201 := 3, maxfA := maxf, maxfB := maxf, n200A := 3, n200B := 3, reA := true, reB := true, d2A := false, d2B := false, t203A := true, t203B := true, he := by decide, hn := by decide }

abbrev atA (e : Ev) : Bool × Ev := (false, e)
abbrev atB (e : Ev) : Bool × Ev := (true, e)

def start (maxf : Nat) (es : List (Bool × Ev)) : Option Sys := (establish (ends maxf).a (ends maxf).b).bind fun s => run s es

/-- two messages, one of two segments; the first segment is lost, asked for again and repeated: both arrive, and all is acknowledged -/
def recovery : List (Bool × Ev) :=
  [atA (.data [1, 2, 3, 4]), atA (.data [5]), atB (.lose 0), atB .recv, atA .recv, atB .recv, atB .recv, atB .recv, atB .recv, atA .recv, atA .recv,
    atA .recv, atA .recv]

example : ∃ s0 s, establish (ends 100).a (ends 100).b = some s0 ∧ Reach s0 s ∧ s.reqA = [[1, 2, 3, 4], [5]] ∧ s.b.up = [[1, 2, 3, 4], [5]] ∧
    (∀ x ∈ s.a.hist, x = none) ∧ s.a.t200 = false := by
  obtain ⟨s0, h0, -⟩ := lapd_establish (ends 100)
  have h : ((establish (ends 100).a (ends 100).b).bind fun s => runEst s recovery).any
      (fun s => s.reqA = [[1, 2, 3, 4], [5]] ∧ s.b.up = [[1, 2, 3, 4], [5]] ∧ (∀ x ∈ s.a.hist, x = none) ∧ s.a.t200 = false) = true := by
    decide +kernel
  rw [h0, Option.bind_some, Option.any_eq_true] at h
  obtain ⟨s, h1, h2⟩ := h
  simp only [decide_eq_true_eq] at h2
  exact ⟨s0, s, h0, runEst_reach _ _ _ .refl h1, h2⟩

/-- the window of 7 is filled by ten messages, the others wait -/
example : (start 100 (List.replicate 10 (atA (.data [1])))).any
    (fun s => s.a.hist.countP (·.isSome) = 7 ∧ s.a.sendQueue.length = 3 ∧ s.a.t200 = true ∧ s.a.tx.length = 7) = true := by decide +kernel

/-- **A link that works is given up** (src/isdn/lapd_core.c:1397-1412): a side that waits for a repetition leaves polls unanswered, on the
ground that it has sent a REJ; if the frames repeated on that REJ are lost, the link breaks though nothing more is lost, and the three
messages are gone -/
theorem lapd_poll_counterexample :
    (start 100 ([atA (.data [1]), atA (.data [2]), atA (.data [3]), atB (.lose 0), atB .recv, atB .recv, atA .recv, atB (.lose 0), atB (.lose 0),
      atB (.lose 0), atA .t200, atB (.lose 0), atA .recv] ++
      -- from here on nothing is lost
      [atA .t200, atB .recv, atA .recv, atA .t200, atB .recv, atA .recv, atA .t200])).any
    (fun s => s.a.state = .sabmSent ∧ s.a.mdl = [1] ∧ s.a.sendQueue = [] ∧ s.b.up = [] ∧ s.reqA = [[1], [2], [3]]) = true := by decide +kernel

/-- **A message longer than MAXF is delivered with a hole** (src/isdn/lapd_core.c:1702-1713), instead of not at all -/
theorem lapd_long_counterexample :
    (start 5 [atA (.data [1, 2, 3, 4, 5, 6, 7]), atB .recv, atB .recv, atB .recv]).any
      (fun s => Est s.a ∧ Est s.b ∧ s.b.up = [[1, 2, 3, 7]]) = true := by decide +kernel

/-- **A message nobody sent** (src/isdn/lapd_core.c:872-1016): the segments received of an unfinished message outlive the set-up of a new
link by the peer, and are put before its first message -/
theorem lapd_merge_counterexample :
    (start 100 [atA (.data [1, 2, 3, 4]), atB .recv, atB (.lose 0), atA (.lose 0), atA .t200, atB (.lose 0), atA .t200, atB (.lose 0), atA .t200,
      atB (.lose 0), atA .t200, atB .recv, atA .recv, atA (.data [9]), atB .recv]).any
      (fun s => Est s.a ∧ Est s.b ∧ s.reqA = [[1, 2, 3, 4], [9]] ∧ s.b.up = [[1, 2, 3, 9]]) = true := by decide +kernel

/-- **Busy for ever** (src/isdn/lapd_core.c:1389-1430): after a RNR frame, a RR frame does not let the side send again -/
theorem lapd_busy_counterexample :
    ((start 100 [atA (.data [1])]).bind fun s =>
      (rx s.a { cmd := false, kind := .rnr, pf := false, nr := 0, data := [], more := false }).bind fun a =>
      (rx a { cmd := false, kind := .rr, pf := false, nr := 1, data := [], more := false }).bind fun a => dataReq { a with tx := [] } [2]).any
      (fun a => a.state = .mfEst ∧ a.t200 = false ∧ a.tx = [] ∧ a.sendQueue = [[2]]) = true := by decide +kernel

/-- **Frames dropped on a wrong N(R)** (src/isdn/lapd_core.c:816-843): an N(R) beyond V(S) is reported, but only after the frames not
acknowledged have been freed; nothing repeats them, and T200 no longer runs -/
theorem lapd_nr_counterexample :
    ((start 100 [atA (.data [1])]).bind fun s => rx s.a { cmd := false, kind := .rr, pf := false, nr := 5, data := [], more := false }).any
      (fun a => a.state = .mfEst ∧ a.vAck = 0 ∧ a.vSend = 1 ∧ a.t200 = false ∧ (∀ x ∈ a.hist, x = none)) = true := by decide +kernel

end Verif.Lapd
