import Verif.Ctrl.Claims
/-!
C114: which call-back a control command reaches, and what is answered.
-/
namespace Verif.Ctrl
open Verif

/-! ### The words -/

/-- an element stands for a request: it has no more words, and those before one with a star are the first of the request -/
def Matches (words vline : List Str) : Prop :=
  words.length ≤ vline.length ∧ ∃ pre suf, words = pre ++ suf ∧ pre <+: vline ∧ (suf = [] ∨ ∃ w s, suf = (0x2a :: w) :: s)

theorem matchFrom_iff : ∀ (ds ss : List Str), ds.length ≤ ss.length → (matchFrom ds ss = true ↔
    ∃ pre suf, ds = pre ++ suf ∧ pre <+: ss ∧ (suf = [] ∨ ∃ w s, suf = (0x2a :: w) :: s))
  | [], ss, _ => by
    refine ⟨fun _ => ⟨[], [], rfl, List.nil_prefix, .inl rfl⟩, fun _ => ?_⟩
    unfold matchFrom; rfl
  | d :: ds, [], h => by simp at h
  | d :: ds, s :: ss, h => by
    have h' : ds.length ≤ ss.length := by simpa using h
    unfold matchFrom
    by_cases h1 : d.head? = some 0x2a
    · rw [if_pos h1]
      cases d with
      | nil => cases h1
      | cons c w =>
        cases h1
        exact ⟨fun _ => ⟨[], _, rfl, List.nil_prefix, .inr ⟨w, ds, rfl⟩⟩, fun _ => rfl⟩
    · rw [if_neg h1]
      by_cases h2 : d = s
      · subst h2
        rw [if_neg (fun e => e rfl), matchFrom_iff ds ss h']
        constructor
        · rintro ⟨pre, suf, e, hp, hs⟩
          exact ⟨d :: pre, suf, by rw [e]; rfl, List.cons_prefix_cons.2 ⟨rfl, hp⟩, hs⟩
        · rintro ⟨pre, suf, e, hp, hs⟩
          cases pre with
          | nil =>
            rcases hs with rfl | ⟨w, s', rfl⟩
            · cases e
            · rw [List.nil_append] at e
              cases e
              exact absurd rfl h1
          | cons a pre =>
            rw [List.cons_append] at e
            cases e
            exact ⟨pre, suf, rfl, (List.cons_prefix_cons.1 hp).2, hs⟩
      · rw [if_pos h2]
        refine ⟨fun e => (by cases e), ?_⟩
        rintro ⟨pre, suf, e, hp, hs⟩
        cases pre with
        | nil =>
          rcases hs with rfl | ⟨w, s', rfl⟩
          · cases e
          · rw [List.nil_append] at e
            cases e
            exact absurd rfl h1
        | cons a pre =>
          rw [List.cons_append] at e
          cases e
          exact absurd (List.cons_prefix_cons.1 hp).1 h2

/-- the first of those registered that stands for the request -/
def Chosen (vline : List Str) (es : List Elem) (e : Elem) : Prop :=
  ∃ pre suf, es = pre ++ e :: suf ∧ Matches e.words vline ∧ ∀ x ∈ pre, ¬ Matches x.words vline

/-- **The first element that stands for the request is taken** -/
theorem ctrl_match_iff (vline : List Str) : ∀ (es : List Elem) (e : Elem), elemMatch vline es = some e ↔ Chosen vline es e
  | [], e => by
    refine ⟨fun h => (by cases h), ?_⟩
    rintro ⟨pre, suf, h, _⟩
    cases pre <;> cases h
  | a :: es, e => by
    have skip : ¬ Matches a.words vline → (Chosen vline es e ↔ Chosen vline (a :: es) e) := by
      intro hn
      constructor
      · rintro ⟨pre, suf, rfl, h1, h2⟩
        refine ⟨a :: pre, suf, rfl, h1, fun x hx => ?_⟩
        rcases List.mem_cons.1 hx with rfl | hx
        · exact hn
        · exact h2 x hx
      · rintro ⟨pre, suf, h0, h1, h2⟩
        cases pre with
        | nil =>
          rw [List.nil_append] at h0
          cases h0
          exact absurd h1 hn
        | cons b pre =>
          rw [List.cons_append] at h0
          cases h0
          exact ⟨pre, suf, rfl, h1, fun x hx => h2 x (by simp [hx])⟩
    unfold elemMatch
    by_cases hlen : a.words.length > vline.length
    · rw [if_pos hlen, ctrl_match_iff vline es e]
      exact skip fun h => by have := h.1; omega
    · rw [if_neg hlen]
      have hm := matchFrom_iff a.words vline (by omega)
      by_cases h : matchFrom a.words vline = true
      · rw [if_pos h]
        have ha : Matches a.words vline := ⟨by omega, hm.1 h⟩
        constructor
        · intro e1
          cases e1
          exact ⟨[], es, rfl, ha, fun x hx => by cases hx⟩
        · rintro ⟨pre, suf, h0, h1, h2⟩
          cases pre with
          | nil => rw [List.nil_append] at h0; cases h0; rfl
          | cons b pre =>
            rw [List.cons_append] at h0
            cases h0
            exact absurd ha (h2 _ (by simp))
      · rw [if_neg h, ctrl_match_iff vline es e]
        exact skip fun h' => h (hm.2 h'.2)

/-! ### Carrying out -/

/-- the same but for the reply -/
def Re (st st' : St) : Prop := ∃ r, st' = ⟨{ st.cmd with reply := r }, st.defer, st.calls⟩

theorem Re.refl (st : St) : Re st st := ⟨st.cmd.reply, rfl⟩
theorem Re.say (st : St) (s : Str) : Re st (st.say s) := ⟨some s, rfl⟩
theorem Re.trans {a b c : St} (h1 : Re a b) (h2 : Re b c) : Re a c := by
  obtain ⟨r, rfl⟩ := h1
  obtain ⟨r', rfl⟩ := h2
  exact ⟨r', rfl⟩

/-- what the look-up finds from a word and a node on: it takes words (it returns 1), or tells a node without commands; until it is done with the
words, and the node has commands -/
inductive Found (h : Handle) (vline : List Str) : Nat → Nat → Nat → Nat → Prop
  | here (i node : Nat) (rc : Int) (node' j : Nat) : i < vline.length → h.lookup vline i node = (rc, node', j) → rc ≠ 1 → rc ≠ -19 → rc ≠ -34 →
      (h.nodes node').isSome → Found h vline i node j node'
  | object (i node node' k j node'' : Nat) : i < vline.length → h.lookup vline i node = (1, node', k) → Found h vline (k + 1) node' j node'' →
      Found h vline i node j node''
  | bare (i node : Nat) (rc : Int) (node' k j node'' : Nat) : i < vline.length → h.lookup vline i node = (rc, node', k) → rc ≠ 1 → rc ≠ -19 → rc ≠ -34 →
      h.nodes node' = none → Found h vline (k + 1) node' j node'' → Found h vline i node j node''

/-- how the loop over the words ends: an error before anything is called, or a command is carried out with some of the last words -/
theorem walk_cases (h : Handle) (vline : List Str) : ∀ (n i node : Nat) (st : St) (ret : Int) (st' : St) (now : Bool),
    walk h vline n i node st = some (ret, st', now) →
      (now = true ∧ ret = -1 ∧ ∃ m, st' = ⟨{ st.cmd with type := .error, reply := some m }, st.defer, st.calls⟩) ∨
      (now = false ∧ ret = -1 ∧ Re st st') ∨
      (now = false ∧ ∃ j node' cmds st1, Found h vline i node j node' ∧ h.nodes node' = some cmds ∧ Re st st1 ∧ exec (vline.drop j) cmds st1 = (ret, st'))
  | 0, _, _, _, _, _, _, e => by cases e
  | n + 1, i, node, st, ret, st', now, e => by
    have more : ∀ k node' st1, Re st st1 → (∀ j node'', Found h vline k node' j node'' → Found h vline i node j node'') →
        walk h vline n k node' st1 = some (ret, st', now) →
        (now = true ∧ ret = -1 ∧ ∃ m, st' = ⟨{ st.cmd with type := .error, reply := some m }, st.defer, st.calls⟩) ∨
        (now = false ∧ ret = -1 ∧ Re st st') ∨
        (now = false ∧ ∃ j node' cmds st1, Found h vline i node j node' ∧ h.nodes node' = some cmds ∧ Re st st1 ∧ exec (vline.drop j) cmds st1 = (ret, st')) := by
      intro k node' st1 hr hf e
      rcases walk_cases h vline n k node' st1 ret st' now e with ⟨h1, h2, m, h3⟩ | ⟨h1, h2, h3⟩ | ⟨h1, j, node'', cmds, st2, h0, h2, h3, h4⟩
      · obtain ⟨r, rfl⟩ := hr
        exact .inl ⟨h1, h2, m, h3⟩
      · exact .inr (.inl ⟨h1, h2, hr.trans h3⟩)
      · exact .inr (.inr ⟨h1, j, node'', cmds, st2, hf _ _ h0, h2, hr.trans h3, h4⟩)
    unfold walk at e
    split at e
    · rename_i hi
      generalize hl : h.lookup vline i node = l at e
      obtain ⟨rc, node', i'⟩ := l
      simp only at e
      split at e
      · rename_i h1
        subst h1
        refine more _ _ _ ?_ (fun j n'' hf => .object _ _ _ _ _ _ hi hl hf) e
        split
        · exact .say _ _
        · exact .refl _
      split at e
      · cases e
        exact .inl ⟨rfl, rfl, _, rfl⟩
      split at e
      · cases e
        exact .inl ⟨rfl, rfl, _, rfl⟩
      · rename_i h1 h2 h3
        split at e
        · rename_i hc
          refine more _ _ _ ?_ (fun j n'' hf => .bare _ _ _ _ _ _ _ hi hl h1 h2 h3 hc hf) e
          split <;> exact .say _ _
        · rename_i cmds hc
          cases e
          exact .inr (.inr ⟨rfl, i', node', cmds, st, .here _ _ _ _ _ hi hl h1 h2 h3 (by rw [hc]; rfl), hc, .refl _, rfl⟩)
    · cases e
      exact .inr (.inl ⟨rfl, rfl, .refl _⟩)

/-- the line of an answer -/
def errorLine (id m : Str) : Str := nameOf .error ++ [0x20] ++ id ++ [0x20] ++ m
def getReplyLine (id var r : Str) : Str := nameOf .getReply ++ [0x20] ++ id ++ [0x20] ++ var ++ [0x20] ++ r
def setReplyLine (id var r : Str) : Str := nameOf .setReply ++ [0x20] ++ id ++ [0x20] ++ var ++ [0x20] ++ r

/-- what is answered for a return value of a call-back: nothing if it is 0 or the answer deferred; the reply for 1; an error for -1;
and for all other values the request itself -/
def answerFor (r : Result) (defer : Bool) (ok err echo : List Byte) : Option (List Byte) :=
  if defer = true ∨ r.defer = true ∨ r.rc = 0 then none else if r.rc = 1 then some ok else if r.rc = -1 then some err else some echo

theorem finish_err {st : St} {id : Str} (hid : st.cmd.id = some id) : ∃ m,
    (finish (-1) st).1 = -1 ∧ (finish (-1) st).2.calls = st.calls ∧ (finish (-1) st).2.defer = st.defer ∧ make (finish (-1) st).2.cmd = some (errorLine id m) ∧
      ∀ x, st.cmd.reply = some x → m = x := by
  unfold finish
  cases hr : st.cmd.reply with
  | none =>
    refine ⟨sOccurred, rfl, ?_, ?_, ?_, fun x h => by cases h⟩
    · simp [St.say]
    · simp [St.say]
    · simp [St.say, make, hid, errorLine]
  | some m =>
    refine ⟨m, rfl, ?_, ?_, ?_, fun x h => by cases h; rfl⟩
    · simp
    · simp
    · simp [make, hid, hr, errorLine]

theorem handle_eq {h : Handle} {fuel : Nat} {c : Cmd} (ht : c.type = .get ∨ c.type = .set) :
    handle h fuel c = match c.var.bind vlineOf with
      | none => some (finish (-1) (St.say ⟨{ c with reply := none }, false, []⟩ sStrvec))
      | some vline => (walk h vline fuel 0 0 ⟨{ c with reply := none }, false, []⟩).map fun (ret, st, now) => if now then (ret, st) else finish ret st := by
  unfold handle
  rw [if_neg (by rintro ⟨h1 | h1, _⟩ <;> rcases ht with e | e <;> rw [e] at h1 <;> cases h1), if_neg (by rcases ht with e | e <;> rw [e] <;> decide)]
  rfl

/-- what comes of a GET or SET: an error and no calls, or a command is carried out -/
theorem handleMsg_cases {h : Handle} {fuel : Nat} {p : Str} {c : Cmd} {calls : List Call} {ans : Option (List Byte)} {id : Str}
    (hp : parse p = (c, false)) (ht : c.type = .get ∨ c.type = .set) (hid : c.id = some id) (hm : handleMsg h fuel p = some (calls, ans)) :
    (calls = [] ∧ ∃ m, ans = some (errorLine id m)) ∨
    ∃ vline i node cmds r ret st', c.var.bind vlineOf = some vline ∧ Found h vline 0 0 i node ∧ h.nodes node = some cmds ∧
      exec (vline.drop i) cmds ⟨{ c with reply := r }, false, []⟩ = (ret, st') ∧
      calls = (finish ret st').2.calls ∧
      ans = (if (finish ret st').2.defer = true ∨ ret = 0 then none else make (finish ret st').2.cmd) := by
  unfold handleMsg at hm
  rw [hp] at hm
  simp only at hm
  rw [handle_eq ht] at hm
  cases hv : c.var.bind vlineOf with
  | none =>
    left
    rw [hv] at hm
    simp only [Option.map_some, Option.some.injEq, Prod.mk.injEq] at hm
    obtain ⟨m, e1, e2, e3, e4, -⟩ := finish_err (st := St.say ⟨{ c with reply := none }, false, []⟩ sStrvec) (id := id) hid
    rw [e1, e2, e3, e4] at hm
    obtain ⟨rfl, h2⟩ := hm
    refine ⟨rfl, m, ?_⟩
    rw [← h2, if_neg]
    rintro (e | e)
    · cases e
    · cases e
  | some vline =>
    rw [hv] at hm
    simp only at hm
    obtain ⟨⟨result, st⟩, h1, h2⟩ := Option.map_eq_some_iff.1 hm
    obtain ⟨⟨ret, st', now⟩, h3, h4⟩ := Option.map_eq_some_iff.1 h1
    simp only [Prod.mk.injEq] at h2
    obtain ⟨rfl, rfl⟩ := h2
    rcases walk_cases h vline fuel 0 0 _ ret st' now h3 with ⟨rfl, rfl, m, rfl⟩ | ⟨rfl, rfl, r, rfl⟩ | ⟨rfl, i, node, cmds, st1, hf, h5, ⟨r, rfl⟩, h7⟩
    · left
      simp only [if_true] at h4
      cases h4
      refine ⟨rfl, m, ?_⟩
      simp [make, hid, errorLine]
    · left
      simp only [Bool.false_eq_true, if_false] at h4
      obtain ⟨m, e1, e2, e3, e4, -⟩ := finish_err (st := ⟨{ c with reply := r }, false, []⟩) (id := id) hid
      have f1 := congrArg Prod.fst h4
      have f2 := congrArg Prod.snd h4
      simp only at f1 f2
      rw [← f2, ← f1]
      refine ⟨e2, m, ?_⟩
      rw [if_neg, e4]
      rintro (e | e)
      · rw [e3] at e; cases e
      · rw [e1] at e; cases e
    · right
      simp only [Bool.false_eq_true, if_false] at h4
      have f1 := congrArg Prod.fst h4
      have f2 := congrArg Prod.snd h4
      simp only at f1 f2
      have f3 : (finish ret st').1 = ret := rfl
      refine ⟨vline, i, node, cmds, r, ret, st', rfl, hf, h5, h7, by rw [← f2], ?_⟩
      rw [← f2, ← f1, f3]

theorem finish_same (ret : Int) (st : St) : (finish ret st).2.calls = st.calls ∧ (finish ret st).2.defer = st.defer := by
  unfold finish
  by_cases h1 : st.cmd.reply = none <;> by_cases h2 : ret = -1 <;> simp [h1, h2, St.say]

/-- what is sent after a call-back -/
theorem finish_called {st : St} {id var : Str} {r : Result} {isGet : Bool} (hid : st.cmd.id = some id) (hvar : st.cmd.var = some var)
    (ht : st.cmd.type = if isGet then .get else .set) (hval : isGet = false → st.cmd.value.isSome) (call : Call) (ret : Int) (st' : St)
    (he : execOut r.rc (st.called call r) = (ret, st')) :
    ret = r.rc ∧ (finish ret st').2.calls = st.calls ++ [call] ∧ (finish ret st').2.defer = (st.defer || r.defer) ∧
      ∃ text echo, (∀ x, r.reply = some x → text = x) ∧
        (r.rc = 1 → make (finish ret st').2.cmd = some (if isGet then getReplyLine id var text else setReplyLine id var text)) ∧
        (r.rc = -1 → make (finish ret st').2.cmd = some (errorLine id text)) ∧
        (r.rc ≠ 1 → r.rc ≠ -1 → make (finish ret st').2.cmd = some echo ∧ make st.cmd = some echo) := by
  obtain ⟨rc, reply, defer⟩ := r
  obtain ⟨⟨t, i, v, val, rep⟩, d, cs⟩ := st
  simp only at hid hvar ht hval
  subst hid hvar ht
  by_cases h1 : rc = 1
  · subst h1
    simp only [execOut, St.called, if_true] at he
    cases he
    refine ⟨rfl, ?_, ?_, ?_⟩
    · exact (finish_same _ _).1
    · exact (finish_same _ _).2
    · refine ⟨(reply.or rep).getD [], [], (fun x hx => by simp only at hx; rw [hx]; rfl), fun _ => ?_, (fun h => by cases h), fun h => absurd rfl h⟩
      unfold finish
      cases ho : reply.or rep <;> cases isGet <;> simp [make, St.say, getReplyLine, setReplyLine]
  · by_cases h2 : rc = -1
    · subst h2
      simp only [execOut, St.called] at he
      cases he
      refine ⟨rfl, ?_, ?_, ?_⟩
      · exact (finish_same _ _).1
      · exact (finish_same _ _).2
      · refine ⟨(reply.or rep).getD sOccurred, [], (fun x hx => by simp only at hx; rw [hx]; rfl), (fun h => by cases h), fun _ => ?_, fun _ h => absurd rfl h⟩
        unfold finish
        cases ho : reply.or rep <;> cases isGet <;> simp [make, St.say, errorLine]
    · simp only [execOut, St.called, if_neg h1, if_neg h2] at he
      cases he
      refine ⟨rfl, ?_, ?_, ?_⟩
      · exact (finish_same _ _).1
      · exact (finish_same _ _).2
      · cases isGet with
        | true =>
          refine ⟨(reply.or rep).getD [], nameOf .get ++ [0x20] ++ id ++ [0x20] ++ var, (fun x hx => by simp only at hx; rw [hx]; rfl), fun h => absurd h h1, fun h => absurd h h2, fun _ _ => ⟨?_, ?_⟩⟩
          · unfold finish
            cases ho : reply.or rep <;> simp [make, St.say, h2]
          · simp [make]
        | false =>
          obtain ⟨x, hx⟩ := Option.isSome_iff_exists.1 (hval rfl)
          subst hx
          refine ⟨(reply.or rep).getD [], nameOf .set ++ [0x20] ++ id ++ [0x20] ++ var ++ [0x20] ++ x, (fun x hx => by simp only at hx; rw [hx]; rfl), fun h => absurd h h1, fun h => absurd h h2, fun _ _ => ⟨?_, ?_⟩⟩
          · unfold finish
            cases ho : reply.or rep <;> simp [make, St.say, h2]
          · simp [make]

theorem exec_get {vline : List Str} {cmds : List Elem} {st : St} {var : Str} (ht : st.cmd.type = .get) (hv : st.cmd.var = some var) :
    exec vline cmds st = match elemMatch vline cmds with
      | none => execOut (-1) (st.say sNotFound)
      | some e => execGet e var st := by
  unfold exec
  rw [ht, hv]
  cases st.cmd.value <;> rfl

theorem exec_set {vline : List Str} {cmds : List Elem} {st : St} {var val : Str} (ht : st.cmd.type = .set) (hv : st.cmd.var = some var)
    (hx : st.cmd.value = some val) :
    exec vline cmds st = match elemMatch vline cmds with
      | none => execOut (-1) (st.say sNotFound)
      | some e => execSet e var val st := by
  unfold exec
  rw [ht, hv, hx]
  rfl

/-- an error without a call-back -/
theorem finish_said {st st' : St} {id m : Str} {ret : Int} (hid : st.cmd.id = some id) (hd : st.defer = false)
    (he : execOut (-1) (st.say m) = (ret, st')) :
    ret = -1 ∧ (finish ret st').2.calls = st.calls ∧
      (if (finish ret st').2.defer = true ∨ ret = 0 then none else make (finish ret st').2.cmd) = some (errorLine id m) := by
  obtain ⟨⟨t, i, v, val, rep⟩, d, cs⟩ := st
  simp only at hid hd
  subst hid hd
  simp only [execOut, St.say] at he
  cases he
  refine ⟨rfl, (finish_same _ _).1, ?_⟩
  rw [(finish_same _ _).2]
  simp [finish, make, errorLine]

/-- **GET**: either nothing is called and an error with the id is answered; or, of the element that is chosen for the last words of the variable,
`get` is called once, and nothing else, and its return value and text make the answer -/
theorem ctrl_get {h : Handle} {fuel : Nat} {p id var : Str} {calls : List Call} {ans : Option (List Byte)}
    (hp : parse p = (⟨.get, some id, some var, none, none⟩, false)) (hm : handleMsg h fuel p = some (calls, ans)) :
    (calls = [] ∧ ∃ m, ans = some (errorLine id m)) ∨
    ∃ words i node cmds e g text, vlineOf var = some words ∧ Found h words 0 0 i node ∧ h.nodes node = some cmds ∧ Chosen (words.drop i) cmds e ∧ e.get = some g ∧
      calls = [.get e.words var] ∧ (∀ x, (g var).reply = some x → text = x) ∧
      ans = answerFor (g var) false (getReplyLine id var text) (errorLine id text) (nameOf .get ++ [0x20] ++ id ++ [0x20] ++ var) := by
  rcases handleMsg_cases hp (.inl rfl) rfl hm with h1 | ⟨vline, i, node, cmds, r, ret, st', h1, hf, h2, h3, h4, h5⟩
  · exact .inl h1
  · rw [exec_get (var := var) rfl rfl] at h3
    cases hmt : elemMatch (vline.drop i) cmds with
    | none =>
      left
      rw [hmt] at h3
      obtain ⟨e1, e2, e3⟩ := finish_said (id := id) rfl rfl h3
      exact ⟨h4.trans e2, _, h5.trans e3⟩
    | some e =>
      rw [hmt] at h3
      simp only at h3
      unfold execGet at h3
      cases hg : e.get with
      | none =>
        left
        rw [hg] at h3
        obtain ⟨e1, e2, e3⟩ := finish_said (id := id) rfl rfl h3
        exact ⟨h4.trans e2, _, h5.trans e3⟩
      | some g =>
        right
        rw [hg] at h3
        simp only at h3
        obtain ⟨e1, e2, e3, text, echo, e4, e5, e6, e7⟩ := finish_called (isGet := true) (id := id) (var := var) rfl rfl rfl (fun h => by cases h) _ ret st' h3
        refine ⟨vline, i, node, cmds, e, g, text, h1, hf, h2, (ctrl_match_iff _ _ _).1 hmt, hg, h4.trans e2, e4, ?_⟩
        rw [h5, e3, e1]
        unfold answerFor
        by_cases hd : (g var).defer = true
        · simp [hd]
        · by_cases h0 : (g var).rc = 0
          · simp [h0]
          · simp only [hd, h0, Bool.false_or, Bool.false_eq_true, or_self, if_false]
            by_cases ha : (g var).rc = 1
            · rw [if_pos ha, ← e1, e5 ha]; rfl
            · rw [if_neg ha]
              by_cases hb : (g var).rc = -1
              · rw [if_pos hb, ← e1, e6 hb]
              · rw [if_neg hb, ← e1, (e7 ha hb).1, ← (e7 ha hb).2]
                simp [make]

/-- **SET**: nothing is called and an error with the id is answered; or, of the element that is chosen, `verify` is called first if there is one;
if it refuses, an error is answered; if not, `set` is called once with the value, and its return value and text make the answer -/
theorem ctrl_set {h : Handle} {fuel : Nat} {p id var val : Str} {calls : List Call} {ans : Option (List Byte)}
    (hp : parse p = (⟨.set, some id, some var, some val, none⟩, false)) (hm : handleMsg h fuel p = some (calls, ans)) :
    (calls = [] ∧ ∃ m, ans = some (errorLine id m)) ∨
    ∃ words i node cmds e s, vlineOf var = some words ∧ Found h words 0 0 i node ∧ h.nodes node = some cmds ∧ Chosen (words.drop i) cmds e ∧ e.set = some s ∧
      ((∃ v text, e.verify = some v ∧ (v var val).rc ≠ 0 ∧ calls = [.verify e.words var val] ∧ (∀ x, (v var val).reply = some x → text = x) ∧
          ans = if (v var val).defer = true then none else some (errorLine id text)) ∨
       (∃ text defer, (∀ x, (s var val).reply = some x → text = x) ∧
          ans = answerFor (s var val) defer (setReplyLine id var text) (errorLine id text) (nameOf .set ++ [0x20] ++ id ++ [0x20] ++ var ++ [0x20] ++ val) ∧
          ((e.verify = none ∧ defer = false ∧ calls = [.set e.words var val]) ∨
           (∃ v, e.verify = some v ∧ (v var val).rc = 0 ∧ defer = (v var val).defer ∧ calls = [.verify e.words var val, .set e.words var val])))) := by
  rcases handleMsg_cases hp (.inr rfl) rfl hm with h1 | ⟨vline, i, node, cmds, r, ret, st', h1, hf, h2, h3, h4, h5⟩
  · exact .inl h1
  · rw [exec_set (var := var) (val := val) rfl rfl rfl] at h3
    cases hmt : elemMatch (vline.drop i) cmds with
    | none =>
      left
      rw [hmt] at h3
      obtain ⟨e1, e2, e3⟩ := finish_said (id := id) rfl rfl h3
      exact ⟨h4.trans e2, _, h5.trans e3⟩
    | some e =>
      rw [hmt] at h3
      simp only at h3
      unfold execSet at h3
      cases hs : e.set with
      | none =>
        left
        rw [hs] at h3
        obtain ⟨e1, e2, e3⟩ := finish_said (id := id) rfl rfl h3
        exact ⟨h4.trans e2, _, h5.trans e3⟩
      | some s =>
        right
        rw [hs] at h3
        simp only at h3
        refine ⟨vline, i, node, cmds, e, s, h1, hf, h2, (ctrl_match_iff _ _ _).1 hmt, hs, ?_⟩
        have called : ∀ st : St, st.cmd.id = some id → st.cmd.var = some var → st.cmd.type = .set → st.cmd.value = some val →
            execOut (s var val).rc (st.called (.set e.words var val) (s var val)) = (ret, st') →
            calls = st.calls ++ [.set e.words var val] ∧ ∃ text, (∀ x, (s var val).reply = some x → text = x) ∧
              ans = answerFor (s var val) st.defer (setReplyLine id var text) (errorLine id text) (nameOf .set ++ [0x20] ++ id ++ [0x20] ++ var ++ [0x20] ++ val) := by
          intro st a1 a2 a3 a4 h3
          obtain ⟨e1, e2, e3, text, echo, e4, e5, e6, e7⟩ := finish_called (isGet := false) (id := id) (var := var) a1 a2 a3 (fun _ => by rw [a4]; rfl) _ ret st' h3
          refine ⟨h4.trans e2, text, e4, ?_⟩
          rw [h5, e3, e1]
          unfold answerFor
          by_cases hd0 : st.defer = true
          · simp [hd0]
          by_cases hd : (s var val).defer = true
          · simp [hd]
          · by_cases h0 : (s var val).rc = 0
            · simp [h0]
            · simp only [hd0, hd, h0, Bool.or_self, Bool.false_eq_true, or_self, if_false]
              by_cases ha : (s var val).rc = 1
              · rw [if_pos ha, ← e1, e5 ha]; rfl
              · rw [if_neg ha]
                by_cases hb : (s var val).rc = -1
                · rw [if_pos hb, ← e1, e6 hb]
                · rw [if_neg hb, ← e1, (e7 ha hb).1, ← (e7 ha hb).2]
                  simp [make, a1, a2, a3, a4]
        cases hv : e.verify with
        | none =>
          rw [hv] at h3
          obtain ⟨c1, text, c2, c3⟩ := called _ rfl rfl rfl rfl h3
          exact .inr ⟨text, false, c2, c3, .inl ⟨rfl, rfl, c1⟩⟩
        | some v =>
          rw [hv] at h3
          simp only at h3
          by_cases hr : (v var val).rc = 0
          · rw [if_neg (fun e => e hr)] at h3
            obtain ⟨c1, text, c2, c3⟩ := called _ rfl rfl rfl rfl h3
            refine .inr ⟨text, (v var val).defer, c2, ?_, .inr ⟨v, rfl, hr, rfl, c1⟩⟩
            simpa [St.called] using c3
          · rw [if_pos hr] at h3
            left
            have key : ∀ st : St, st.cmd.id = some id → (∃ x, st.cmd.reply = some x) → st.defer = (v var val).defer → execOut (-1) st = (ret, st') →
                st.calls = [.verify e.words var val] → (∀ x, (v var val).reply = some x → st.cmd.reply = some x) →
                ∃ v' text, some v = some v' ∧ (v' var val).rc ≠ 0 ∧ calls = [.verify e.words var val] ∧ (∀ x, (v' var val).reply = some x → text = x) ∧
                  ans = if (v' var val).defer = true then none else some (errorLine id text) := by
              rintro ⟨⟨t, i, va, vl, rep⟩, d, cs⟩ a1 ⟨x, a2⟩ a3 a4 a5 a6
              simp only at a1 a2 a3 a5 a6
              subst a1 a2 a3 a5
              simp only [execOut] at a4
              cases a4
              refine ⟨v, x, rfl, hr, h4.trans (finish_same _ _).1, fun y hy => by have := a6 y hy; cases this; rfl, ?_⟩
              rw [h5, (finish_same _ _).2]
              simp only
              by_cases hd : (v var val).defer = true
              · simp [hd]
              · simp [hd, finish, make, errorLine]
            by_cases hn : (St.called ⟨{ type := .set, id := some id, var := some var, value := some val, reply := r }, false, []⟩ (.verify e.words var val) (v var val)).cmd.reply = none
            · rw [if_pos hn] at h3
              refine key _ rfl ⟨sVerify, rfl⟩ (by simp [St.say, St.called]) h3 rfl fun x hx => ?_
              simp [St.called, hx] at hn
            · rw [if_neg hn] at h3
              refine key _ rfl (Option.ne_none_iff_exists'.1 hn) (by simp [St.called]) h3 rfl fun x hx => ?_
              simp [St.called, hx]

/-- **Nothing but GET and SET calls anything**: replies, errors and TRAPs do not; what is answered is an error, and only an ERROR, a reply
"OK", and any reply if there is a call-back for them, get no answer -/
theorem ctrl_other {h : Handle} {fuel : Nat} {p : Str} {c : Cmd} {calls : List Call} {ans : Option (List Byte)} {id : Str}
    (hp : parse p = (c, false)) (ht : c.type ≠ .get ∧ c.type ≠ .set) (hid : c.id = some id) (hm : handleMsg h fuel p = some (calls, ans)) :
    calls = [] ∧ ((ans = none ∧ (c.type = .error ∨ (c.type = .setReply ∨ c.type = .getReply) ∧ (h.replyCb = true ∨ (c.reply.getD []).take 2 = [0x4f, 0x4b]))) ∨
      ∃ m, ans = some (errorLine id m)) := by
  unfold handleMsg at hm
  rw [hp] at hm
  obtain ⟨⟨result, st⟩, h1, h2⟩ := Option.map_eq_some_iff.1 hm
  simp only [Prod.mk.injEq] at h2
  obtain ⟨rfl, rfl⟩ := h2
  unfold handle at h1
  simp only at h1
  split at h1
  · rename_i hs
    cases h1; exact ⟨rfl, .inl ⟨if_pos (.inr rfl), .inr hs⟩⟩
  split at h1
  · rename_i hs
    cases h1; exact ⟨rfl, .inl ⟨if_pos (.inr rfl), .inl hs⟩⟩
  have fin : ∀ {P : Prop} (st0 : St), st0.cmd.id = some id → st0.calls = [] → st0.defer = false → finish (-1) st0 = (result, st) →
      st.calls = [] ∧ (P ∨ ∃ m, (if st.defer = true ∨ result = 0 then none else make st.cmd) = some (errorLine id m)) := by
    intro P st0 a1 a2 a0 a3
    obtain ⟨m, e1, e2, e3, e4, -⟩ := finish_err a1
    rw [a3] at e1 e2 e3 e4
    refine ⟨e2.trans a2, .inr ⟨m, ?_⟩⟩
    simp only at e1 e3
    rw [e3, a0, e1]
    exact e4
  split at h1
  · simp only [Option.some.injEq] at h1
    exact fin _ (by exact hid) rfl rfl h1
  · rename_i vline _
    obtain ⟨⟨ret, st', now⟩, h3, h4⟩ := Option.map_eq_some_iff.1 h1
    rcases walk_cases h vline fuel 0 0 _ ret st' now h3 with ⟨rfl, rfl, m, rfl⟩ | ⟨rfl, rfl, r, rfl⟩ | ⟨rfl, i, node, cmds, st1, hf, h5, ⟨r, rfl⟩, h7⟩
    · simp only [if_true] at h4
      cases h4
      exact ⟨rfl, .inr ⟨m, by simp [make, hid, errorLine]⟩⟩
    · simp only [Bool.false_eq_true, if_false] at h4
      exact fin _ (by exact hid) rfl rfl h4
    · simp only [Bool.false_eq_true, if_false] at h4
      have hx : exec (vline.drop i) cmds ⟨{ c with reply := r }, false, []⟩ = execOut (-1) (St.say ⟨{ c with reply := r }, false, []⟩ sNotGetSet) := by
        obtain ⟨t, _, _, vl, _⟩ := c
        unfold exec
        cases t with
        | get => exact absurd rfl ht.1
        | set => exact absurd rfl ht.2
        | _ => cases vl <;> rfl
      rw [hx] at h7
      simp only [execOut, St.say] at h7
      cases h7
      exact fin _ (by exact hid) rfl rfl h4

/-- **No message is answered that is itself an answer**: not an ERROR, nor a reply "OK", nor any reply if there is a call-back for them -/
theorem ctrl_silent {h : Handle} {fuel : Nat} {p : Str} {c : Cmd} (hp : parse p = (c, false))
    (ht : c.type = .error ∨ (c.type = .getReply ∨ c.type = .setReply) ∧ (h.replyCb = true ∨ ∃ r, c.reply = some (0x4f :: 0x4b :: r))) :
    handleMsg h fuel p = some ([], none) := by
  unfold handleMsg
  rw [hp]
  unfold handle
  rcases ht with e | ⟨e, e'⟩
  · simp [e]
  · have : (c.type = .setReply ∨ c.type = .getReply) ∧ (h.replyCb = true ∨ (c.reply.getD []).take 2 = [0x4f, 0x4b]) := by
      refine ⟨e.symm, e'.imp id ?_⟩
      rintro ⟨r, hr⟩
      rw [hr]; rfl
    simp only
    rw [if_pos this]
    simp

/-- **A line that is not a command is answered by an ERROR**, and nothing is called -/
theorem ctrl_bad_line {h : Handle} {fuel : Nat} {p l : Str} {c : Cmd} (hl : Line p l) (hp : parse p = (c, true)) :
    ∃ id m, handleMsg h fuel p = some ([], some (errorLine id m)) ∧ (id = sErr ∨ ∃ t rest, Head l t id rest) := by
  obtain ⟨-, id, m, -, -, h1, h2, -⟩ := ctrl_parse_fail hl c hp
  refine ⟨id, m, ?_, h2⟩
  unfold handleMsg
  rw [hp]
  simp only
  rw [h1]; rfl

/-- **What cannot be told is told to be so**: the error of a GET for which the node has no element is "Command not found", of an element without
`get` "GET not implemented" -/
theorem ctrl_get_error {h : Handle} {fuel : Nat} {p id var : Str} {words : List Str} {rc : Int} {node j : Nat} {cmds : List Elem}
    (hp : parse p = (⟨.get, some id, some var, none, none⟩, false)) (hv : vlineOf var = some words) (hne : words ≠ [])
    (hl : h.lookup words 0 0 = (rc, node, j)) (h1 : rc ≠ 1) (h2 : rc ≠ -19) (h3 : rc ≠ -34) (hn : h.nodes node = some cmds) :
    ((∀ e, ¬ Chosen (words.drop j) cmds e) → handleMsg h (fuel + 1) p = some ([], some (errorLine id sNotFound))) ∧
    (∀ e, Chosen (words.drop j) cmds e → e.get = none → handleMsg h (fuel + 1) p = some ([], some (errorLine id sGetNot))) ∧
    (∀ e g, Chosen (words.drop j) cmds e → e.get = some g → ∃ ans, handleMsg h (fuel + 1) p = some ([.get e.words var], ans) ∧
      ((g var).reply = none → (g var).defer = false → (g var).rc = -1 → ans = some (errorLine id sOccurred)) ∧
      ((g var).reply = none → (g var).defer = false → (g var).rc = 1 → ans = some (getReplyLine id var []))) := by
  have hlen : 0 < words.length := List.length_pos_iff.2 hne
  have hb : (some var).bind vlineOf = some words := hv
  have hrun : ∀ ret st', exec (words.drop j) cmds ⟨⟨.get, some id, some var, none, none⟩, false, []⟩ = (ret, st') →
      handleMsg h (fuel + 1) p = some ((finish ret st').2.calls, if (finish ret st').2.defer = true ∨ ret = 0 then none else make (finish ret st').2.cmd) := by
    intro ret st' he
    unfold handleMsg
    rw [hp]
    simp only
    rw [handle_eq (.inl rfl)]
    simp only
    rw [hb]
    simp only
    unfold walk
    rw [if_pos hlen, hl]
    simp only
    rw [if_neg h1, if_neg h2, if_neg h3, hn]
    simp only
    rw [he]
    rfl
  refine ⟨fun hno => ?_, fun e hc hg => ?_, fun e g hc hg => ?_⟩
  · have hm : elemMatch (words.drop j) cmds = none := by
      cases hm : elemMatch (words.drop j) cmds with
      | none => rfl
      | some e => exact absurd ((ctrl_match_iff _ _ _).1 hm) (hno e)
    have he := exec_get (vline := words.drop j) (cmds := cmds) (st := ⟨⟨.get, some id, some var, none, none⟩, false, []⟩) (var := var) rfl rfl
    rw [hm] at he
    rcases hx : execOut (-1) (St.say ⟨⟨.get, some id, some var, none, none⟩, false, []⟩ sNotFound) with ⟨ret, st'⟩
    obtain ⟨e1, e2, e3⟩ := finish_said (id := id) rfl rfl hx
    rw [hrun ret st' (he.trans hx), e2, e3]
  · have he := exec_get (vline := words.drop j) (cmds := cmds) (st := ⟨⟨.get, some id, some var, none, none⟩, false, []⟩) (var := var) rfl rfl
    rw [(ctrl_match_iff _ _ _).2 hc] at he
    simp only [execGet, hg] at he
    rcases hx : execOut (-1) (St.say ⟨⟨.get, some id, some var, none, none⟩, false, []⟩ sGetNot) with ⟨ret, st'⟩
    obtain ⟨e1, e2, e3⟩ := finish_said (id := id) rfl rfl hx
    rw [hrun ret st' (he.trans hx), e2, e3]
  · have he := exec_get (vline := words.drop j) (cmds := cmds) (st := ⟨⟨.get, some id, some var, none, none⟩, false, []⟩) (var := var) rfl rfl
    rw [(ctrl_match_iff _ _ _).2 hc] at he
    simp only [execGet, hg] at he
    rcases hx : execOut (g var).rc (St.called ⟨⟨.get, some id, some var, none, none⟩, false, []⟩ (.get e.words var) (g var)) with ⟨ret, st'⟩
    have hcalls : st'.calls = [.get e.words var] := by
      have : (execOut (g var).rc (St.called ⟨⟨.get, some id, some var, none, none⟩, false, []⟩ (.get e.words var) (g var))).2.calls = [.get e.words var] := by
        unfold execOut
        split
        · rfl
        · split <;> rfl
      rwa [hx] at this
    refine ⟨if (finish ret st').2.defer = true ∨ ret = 0 then none else make (finish ret st').2.cmd, ?_, ?_, ?_⟩
    · rw [hrun ret st' (he.trans hx), (finish_same _ _).1, hcalls]
    · intro a b c
      simp [execOut, St.called, a, b, c] at hx
      obtain ⟨rfl, rfl⟩ := hx
      simp [finish, St.say, make, errorLine]
    · intro a b c
      simp [execOut, St.called, a, b, c] at hx
      obtain ⟨rfl, rfl⟩ := hx
      simp [finish, St.say, make, getReplyLine]

end Verif.Ctrl
