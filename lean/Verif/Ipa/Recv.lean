import Verif.Common
/-!
Model of the reception of IPA messages from a stream socket (src/gsm/ipa.c), and its properties.
-/
namespace Verif.Ipa

/-! ### Model -/

/-- errno -/
def EAGAIN : Int := 11
/-- errno -/
def EIO : Int := 5

/-- src/gsm/ipa.c:52-52 `IPA_ALLOC_SIZE`, and the bytes there is room for in a buffer of src/gsm/ipa.c:718-728 `ipa_msg_alloc` -/
def ALLOC : Nat := 1200

/-- a message being received: the bytes from `data` to `tail`, and whether `l2h` is set -/
structure Msg where
  data : List Byte
  l2 : Bool
deriving DecidableEq, Repr

/-- What the kernel does in a `recv` of at least one byte: gives `k + 1` bytes, or as many as asked for or there are, if less (none
there: EAGAIN), or end of file, EAGAIN or EINTR, or another error `e`. -/
inductive Rx where
  | data (k : Nat)
  | eof
  | again
  | err (e : Nat)
deriving DecidableEq, Repr

/-- the bytes received and those left, or a return value with which to give up -/
inductive Got where
  | ok (bytes rest : List Byte)
  | discard (ret : Int)
deriving DecidableEq, Repr

/-- `recv(fd, msg->tail, needed, 0)` and the handling of its result, as in src/gsm/ipa.c:616-627 and 666-678; `none`: there is no
room for `needed` bytes -/
def sockRecv (room needed : Nat) (sock : List Byte) (r : Rx) : Option Got :=
  if needed > room then none
  else
    match r with
    | .data k => some (.ok (sock.take (min (k + 1) needed)) (sock.drop (min (k + 1) needed)))
    | .eof => some (.discard 0)
    | .again => some (.ok [] sock)
    | .err e => some (.discard (-(e : Int)))

/-- the return value, `*rmsg`, `*tmp_msg` and the bytes left in the socket -/
structure Res where
  ret : Int
  msg : Option (List Byte)
  cache : Option Msg
  sock : List Byte
deriving DecidableEq, Repr

/-- the length in the header -/
def hdrLen : List Byte → Nat
  | a :: b :: _ => a.toNat * 256 + b.toNat
  | _ => 0

/-- src/gsm/ipa.c:695-713 -/
def finish (msg : Msg) (sock : List Byte) : Res :=
  let ret := msg.data.length - 3
  if ret = 0 then ⟨-EAGAIN, none, none, sock⟩ else ⟨ret, some msg.data, none, sock⟩

/-- src/gsm/ipa.c:651-713; `tmp`: `tmp_msg` is not NULL -/
def body (tmp : Bool) (msg : Msg) (sock : List Byte) (r2 : Rx) : Option Res :=
  let len := hdrLen msg.data
  if ALLOC < len + 3 then some ⟨-EIO, none, none, sock⟩
  else
    let needed : Int := (len : Int) - (msg.data.length - 3)
    if needed > 0 then
      match sockRecv (ALLOC - msg.data.length) needed.toNat sock r2 with
      | none => none
      | some (.discard ret) => some ⟨ret, none, none, sock⟩
      | some (.ok bs rest) =>
        let msg := { msg with data := msg.data ++ bs }
        if (bs.length : Int) < needed then
          if tmp then some ⟨-EAGAIN, none, some msg, rest⟩ else some ⟨-EIO, none, none, rest⟩
        else some (finish msg rest)
    else some (finish msg sock)

/-- src/gsm/ipa.c:597-714 `ipa_msg_recv_buffered`; `r1` and `r2` are what happens in the `recv` of the header and of the payload.
Simplification: memory can be allocated. -/
def recvBuffered (tmp : Bool) (cache : Option Msg) (sock : List Byte) (r1 r2 : Rx) : Option Res :=
  let msg := if tmp then cache.getD ⟨[], false⟩ else ⟨[], false⟩
  if msg.l2 = false then
    match sockRecv (ALLOC - msg.data.length) (3 - msg.data.length) sock r1 with
    | none => none
    | some (.discard ret) => some ⟨ret, none, none, sock⟩
    | some (.ok bs rest) =>
      let needed := 3 - msg.data.length
      let msg := { msg with data := msg.data ++ bs }
      if bs.length < needed then
        if msg.data.length = 0 then some ⟨-EAGAIN, none, none, rest⟩
        else if tmp then some ⟨-EAGAIN, none, some msg, rest⟩
        else some ⟨-EIO, none, none, rest⟩
      else body tmp { msg with l2 := true } rest r2
  else body tmp msg sock r2

/-- calls of `ipa_msg_recv_buffered` with the same `tmp_msg`: the messages got, what is cached and what is left in the socket -/
def run : Option Msg → List Byte → List (Rx × Rx) → Option (List (List Byte) × Option Msg × List Byte)
  | cache, sock, [] => some ([], cache, sock)
  | cache, sock, (r1, r2) :: rs =>
    match recvBuffered true cache sock r1 r2 with
    | none => none
    | some res => (run res.cache res.sock rs).map fun x => (res.msg.toList ++ x.1, x.2)

/-! ### What is wanted -/

/-- A message on the wire. -/
structure Frame where
  proto : Byte
  payload : List Byte
deriving DecidableEq, Repr

/-- Header with the length of the payload, most significant byte first, and the protocol; then the payload. -/
def Frame.enc (f : Frame) : List Byte :=
  [BitVec.ofNat 8 (f.payload.length / 256), BitVec.ofNat 8 (f.payload.length % 256), f.proto] ++ f.payload

/-- no longer than a buffer -/
def Frame.Ok (f : Frame) : Prop := f.payload.length + 3 ≤ 1200

/-- what has been received of a message that is not complete -/
def held (c : Option Msg) : List Byte := (c.map (·.data)).getD []

/-- What `*tmp_msg` can be: a part of a header, or a header and less than its payload. -/
def Valid : Option Msg → Prop
  | none => True
  | some m => (m.l2 = false ∧ 0 < m.data.length ∧ m.data.length < 3) ∨
      (m.l2 = true ∧ 3 ≤ m.data.length ∧ m.data.length < 3 + hdrLen m.data ∧ hdrLen m.data + 3 ≤ 1200)

/-- neither end of file nor an error -/
def Rx.Benign : Rx → Prop
  | .data _ => True
  | .again => True
  | _ => False

theorem hdrLen_append {a b : List Byte} (h : 2 ≤ a.length) : hdrLen (a ++ b) = hdrLen a := by
  match a, h with
  | x :: y :: _, _ => rfl

theorem enc_of_bytes (d : List Byte) (h3 : 3 ≤ d.length) (hl : d.length = 3 + hdrLen d) :
    ∃ f : Frame, f.enc = d ∧ f.payload.length = hdrLen d := by
  match d, h3 with
  | a :: b :: c :: p, _ =>
    have hp : p.length = a.toNat * 256 + b.toNat := by simp [hdrLen] at hl; omega
    refine ⟨⟨c, p⟩, ?_, hp⟩
    have ha := a.isLt
    have hb := b.isLt
    have h1 : p.length / 256 = a.toNat := by omega
    have h2 : p.length % 256 = b.toNat := by omega
    simp [Frame.enc, h1, h2]

theorem hdrLen_enc (f : Frame) (h : f.Ok) (t : List Byte) : hdrLen (f.enc ++ t) = f.payload.length := by
  unfold Frame.Ok at h
  simp only [Frame.enc, List.cons_append, hdrLen, BitVec.toNat_ofNat]
  omega

theorem length_enc (f : Frame) : f.enc.length = 3 + f.payload.length := by
  simp [Frame.enc]
  omega

/-- The four things a call can come to, when there is no end of file and no error. -/
structure Wait (c : Option Msg) (sock : List Byte) (res : Res) : Prop where
  msg : res.msg = none
  ret : res.ret = -EAGAIN
  bytes : held res.cache ++ res.sock = held c ++ sock

/-- a message has been received -/
structure Full (c : Option Msg) (sock : List Byte) (f : Frame) (res : Res) : Prop where
  ok : f.Ok
  msg : res.msg = if f.payload = [] then none else some f.enc
  ret : res.ret = if f.payload = [] then -EAGAIN else (f.payload.length : Int)
  cache : res.cache = none
  bytes : f.enc ++ res.sock = held c ++ sock

/-- a header with too great a length has been received -/
structure Bad (c : Option Msg) (sock : List Byte) (h : List Byte) (res : Res) : Prop where
  len : h.length = 3 ∧ 1200 < hdrLen h + 3
  msg : res.msg = none
  ret : res.ret = -EIO
  cache : res.cache = none
  bytes : h ++ res.sock = held c ++ sock

/-- end of file or an error: what was received is thrown away -/
structure Dead (r : Rx) (res : Res) : Prop where
  msg : res.msg = none
  cache : res.cache = none
  ret : (r = .eof ∧ res.ret = 0) ∨ ∃ e : Nat, r = .err e ∧ res.ret = -(e : Int)

theorem sockRecv_cases (room needed : Nat) (sock : List Byte) (r : Rx) (h : needed ≤ room) :
    (∃ bs rest, sockRecv room needed sock r = some (.ok bs rest) ∧ bs ++ rest = sock ∧ bs.length ≤ needed ∧
      (∀ k, r = .data k → sock ≠ [] → 0 < needed → bs ≠ [])) ∨
    ∃ ret, sockRecv room needed sock r = some (.discard ret) ∧
      ((r = .eof ∧ ret = 0) ∨ ∃ e : Nat, r = .err e ∧ ret = -(e : Int)) := by
  unfold sockRecv
  rw [if_neg (by omega)]
  cases r with
  | data k =>
    refine Or.inl ⟨_, _, rfl, List.take_append_drop _ _, ?_, ?_⟩
    · rw [List.length_take]; omega
    · intro k' _ hs hn h0
      have h1 := congrArg List.length h0
      have h2 := List.length_pos_iff.mpr hs
      rw [List.length_take, List.length_nil] at h1
      omega
  | again => exact Or.inl ⟨_, _, rfl, rfl, by simp, by simp⟩
  | eof => exact Or.inr ⟨_, rfl, Or.inl ⟨rfl, rfl⟩⟩
  | err e => exact Or.inr ⟨_, rfl, Or.inr ⟨e, rfl, rfl⟩⟩

theorem finish_full (c : Option Msg) (sock rest : List Byte) (m : Msg) (h3 : 3 ≤ m.data.length) (hl : m.data.length = 3 + hdrLen m.data)
    (hok : hdrLen m.data + 3 ≤ 1200) (hb : m.data ++ rest = held c ++ sock) : ∃ f, Full c sock f (finish m rest) := by
  obtain ⟨f, he, hp⟩ := enc_of_bytes m.data h3 hl
  refine ⟨f, ?_⟩
  have hnil : f.payload = [] ↔ m.data.length - 3 = 0 := by
    rw [← List.length_eq_zero_iff, hp]
    omega
  unfold finish
  dsimp only
  by_cases h0 : m.data.length - 3 = 0
  · rw [if_pos h0]
    exact ⟨by unfold Frame.Ok; omega, by rw [if_pos (hnil.mpr h0)], by rw [if_pos (hnil.mpr h0)], rfl, by rw [he]; exact hb⟩
  · rw [if_neg h0]
    have hn : ¬ f.payload = [] := fun h => h0 (hnil.mp h)
    refine ⟨by unfold Frame.Ok; omega, by rw [if_neg hn, he], ?_, rfl, by rw [he]; exact hb⟩
    rw [if_neg hn]
    dsimp only
    omega

theorem body_spec (c : Option Msg) (sock0 sock : List Byte) (m : Msg) (r2 : Rx) (hm : m.l2 = true)
    (h3 : 3 ≤ m.data.length) (hl : hdrLen m.data + 3 ≤ 1200 → m.data.length ≤ 3 + hdrLen m.data) (hbad : 1200 < hdrLen m.data + 3 → m.data.length = 3)
    (hb : m.data ++ sock = held c ++ sock0) :
    ∃ res, body true m sock r2 = some res ∧ Valid res.cache ∧
      (Wait c sock0 res ∨ (∃ f, Full c sock0 f res) ∨ (∃ h, Bad c sock0 h res) ∨ Dead r2 res) := by
  unfold body ALLOC
  dsimp only
  by_cases hbig : 1200 < hdrLen m.data + 3
  · rw [if_pos hbig]
    exact ⟨_, rfl, trivial, Or.inr (Or.inr (Or.inl ⟨m.data, ⟨hbad hbig, hbig⟩, rfl, rfl, rfl, hb⟩))⟩
  · rw [if_neg hbig]
    have hl := hl (by omega)
    by_cases hn : (hdrLen m.data : Int) - (m.data.length - 3) > 0
    · rw [if_pos hn]
      obtain ⟨bs, rest, hs, hcat, hle, -⟩ | ⟨ret, hs, hret⟩ := sockRecv_cases (1200 - m.data.length)
        ((hdrLen m.data : Int) - (m.data.length - 3)).toNat sock r2 (by omega)
      rotate_left
      · rw [hs]
        exact ⟨_, rfl, trivial, Or.inr (Or.inr (Or.inr ⟨rfl, rfl, hret⟩))⟩
      rw [hs]
      dsimp only
      have hh := hdrLen_append (b := bs) (show 2 ≤ m.data.length by omega)
      have hb' : (m.data ++ bs) ++ rest = held c ++ sock0 := by rw [List.append_assoc, hcat, hb]
      by_cases hlt : (bs.length : Int) < (hdrLen m.data : Int) - (m.data.length - 3)
      · rw [if_pos hlt]
        refine ⟨_, rfl, ?_, Or.inl ⟨rfl, rfl, hb'⟩⟩
        right
        dsimp only
        rw [hh, List.length_append]
        exact ⟨hm, by omega, by omega, by omega⟩
      · rw [if_neg hlt]
        obtain ⟨f, hf⟩ := finish_full c sock0 rest ⟨m.data ++ bs, m.l2⟩ (by simp; omega) (by dsimp only; rw [hh]; simp; omega)
          (by dsimp only; rw [hh]; omega) hb'
        refine ⟨_, rfl, ?_, Or.inr (Or.inl ⟨f, hf⟩)⟩
        rw [hf.cache]; trivial
    · rw [if_neg hn]
      obtain ⟨f, hf⟩ := finish_full c sock0 sock m (by omega) (by omega) (by omega) hb
      refine ⟨_, rfl, ?_, Or.inr (Or.inl ⟨f, hf⟩)⟩
      rw [hf.cache]; trivial

/-- C84: a call receives a message or an empty frame, or waits and keeps all it has received, or gets a header with too great a
length, or ends with end of file or an error; whatever bytes come, nothing is written outside of the buffer and later calls can go
on. -/
theorem recv_spec (c : Option Msg) (sock : List Byte) (r1 r2 : Rx) (hc : Valid c) :
    ∃ res, recvBuffered true c sock r1 r2 = some res ∧ Valid res.cache ∧
      (Wait c sock res ∨ (∃ f, Full c sock f res) ∨ (∃ h, Bad c sock h res) ∨ Dead r1 res ∨ Dead r2 res) := by
  unfold recvBuffered
  dsimp only
  rw [if_pos rfl]
  have hheld : (c.getD ⟨[], false⟩).data = held c := by cases c <;> rfl
  have wk : ∀ res : Res, (Wait c sock res ∨ (∃ f, Full c sock f res) ∨ (∃ h, Bad c sock h res) ∨ Dead r2 res) →
      (Wait c sock res ∨ (∃ f, Full c sock f res) ∨ (∃ h, Bad c sock h res) ∨ Dead r1 res ∨ Dead r2 res) := by
    rintro res (h | h | h | h)
    · exact Or.inl h
    · exact Or.inr (Or.inl h)
    · exact Or.inr (Or.inr (Or.inl h))
    · exact Or.inr (Or.inr (Or.inr (Or.inr h)))
  by_cases hl2 : (c.getD ⟨[], false⟩).l2 = false
  · rw [if_pos hl2]
    have hlen : (c.getD ⟨[], false⟩).data.length < 3 := by
      cases c with
      | none => simp
      | some m =>
        simp only [Option.getD_some] at hl2 ⊢
        rcases hc with h | h
        · exact h.2.2
        · rw [h.1] at hl2; exact absurd hl2 (by simp)
    obtain ⟨bs, rest, hs, hcat, hle, -⟩ | ⟨ret, hs, hret⟩ := sockRecv_cases (ALLOC - (c.getD ⟨[], false⟩).data.length)
      (3 - (c.getD ⟨[], false⟩).data.length) sock r1 (by unfold ALLOC; omega)
    rotate_left
    · rw [hs]
      exact ⟨_, rfl, trivial, Or.inr (Or.inr (Or.inr (Or.inl ⟨rfl, rfl, hret⟩)))⟩
    rw [hs]
    dsimp only
    have hb : (held c ++ bs) ++ rest = held c ++ sock := by rw [List.append_assoc, hcat]
    rw [hheld] at hlen hle ⊢
    by_cases hlt : bs.length < 3 - (held c).length
    · rw [if_pos hlt]
      by_cases h0 : (held c ++ bs).length = 0
      · rw [if_pos h0]
        refine ⟨_, rfl, trivial, Or.inl ⟨rfl, rfl, ?_⟩⟩
        have := List.length_eq_zero_iff.mp h0
        rw [this] at hb
        simpa [held] using hb
      · rw [if_neg h0]
        refine ⟨_, rfl, ?_, Or.inl ⟨rfl, rfl, hb⟩⟩
        left
        dsimp only
        refine ⟨hl2, by omega, ?_⟩
        rw [List.length_append]
        omega
    · rw [if_neg hlt]
      have h3 : (held c ++ bs).length = 3 := by rw [List.length_append]; omega
      obtain ⟨res, h1, h2, h4⟩ := body_spec c sock rest ⟨held c ++ bs, true⟩ r2 rfl (by dsimp only; omega) (by intro _; dsimp only; omega)
        (fun _ => h3) hb
      exact ⟨res, h1, h2, wk res h4⟩
  · rw [if_neg hl2]
    cases c with
    | none => exact absurd rfl hl2
    | some m =>
      simp only [Option.getD_some] at hl2 ⊢
      rcases hc with h | h
      · exact absurd h.1 hl2
      · obtain ⟨res, h1, h2, h4⟩ := body_spec (some m) sock sock m r2 h.1 h.2.1 (fun _ => by omega) (fun _ => by omega) rfl
        exact ⟨res, h1, h2, wk res h4⟩

theorem sockRecv_le {room needed : Nat} {sock : List Byte} {r : Rx} {bs rest : List Byte}
    (h : sockRecv room needed sock r = some (.ok bs rest)) : bs ++ rest = sock := by
  unfold sockRecv at h
  split at h
  · cases h
  · cases r with
    | data k =>
      simp only [Option.some.injEq, Got.ok.injEq] at h
      rw [← h.1, ← h.2, List.take_append_drop]
    | again =>
      simp only [Option.some.injEq, Got.ok.injEq] at h
      rw [← h.1, ← h.2, List.nil_append]
    | eof => simp at h
    | err e => simp at h

theorem finish_sock (m : Msg) (sock : List Byte) : (finish m sock).sock = sock := by
  unfold finish
  dsimp only
  split <;> rfl

/-- nothing is put back into the socket -/
theorem body_le {tmp : Bool} {m : Msg} {sock : List Byte} {r2 : Rx} {res : Res} (h : body tmp m sock r2 = some res) :
    res.sock.length ≤ sock.length := by
  unfold body at h
  dsimp only at h
  split at h
  · cases h; exact Nat.le_refl _
  · split at h
    · split at h
      · cases h
      · cases h; exact Nat.le_refl _
      · rename_i bs rest hs
        have := congrArg List.length (sockRecv_le hs)
        rw [List.length_append] at this
        split at h
        · cases tmp
          · simp at h; rw [← h]; dsimp only; omega
          · simp at h; rw [← h]; dsimp only; omega
        · cases h
          rw [finish_sock]
          omega
    · cases h
      rw [finish_sock]
      exact Nat.le_refl _

/-- C84: a call that finds bytes in the socket and is given some takes at least one. -/
theorem recv_progress (c : Option Msg) (sock : List Byte) (k1 k2 : Nat) (hc : Valid c) (res : Res)
    (h : recvBuffered true c sock (.data k1) (.data k2) = some res) :
    res.sock.length ≤ sock.length ∧ (sock ≠ [] → res.sock.length < sock.length) := by
  have hdata : ∀ {room needed : Nat} {k : Nat} {bs rest : List Byte}, sockRecv room needed sock (.data k) = some (.ok bs rest) →
      0 < needed → rest.length ≤ sock.length ∧ (sock ≠ [] → rest.length < sock.length) := by
    intro room needed k bs rest hs hn
    have h1 := congrArg List.length (sockRecv_le hs)
    rw [List.length_append] at h1
    refine ⟨by omega, fun hne => ?_⟩
    have hroom : needed ≤ room := by
      unfold sockRecv at hs
      split at hs
      · cases hs
      · omega
    obtain ⟨bs', rest', hs', -, -, hp⟩ | ⟨ret, hs', -⟩ := sockRecv_cases room needed sock (.data k) hroom
    · rw [hs] at hs'
      cases hs'
      have := List.length_pos_iff.mpr (hp k rfl hne hn)
      omega
    · rw [hs] at hs'; cases hs'
  unfold recvBuffered at h
  dsimp only at h
  rw [if_pos rfl] at h
  split at h
  · rename_i hl2
    have hlen : (c.getD ⟨[], false⟩).data.length < 3 := by
      cases c with
      | none => simp
      | some m =>
        simp only [Option.getD_some] at hl2 ⊢
        rcases hc with h | h
        · exact h.2.2
        · rw [h.1] at hl2; exact absurd hl2 (by simp)
    split at h
    · cases h
    · rename_i hs
      unfold sockRecv at hs
      split at hs <;> simp at hs
    · rename_i bs rest hs
      have hd := hdata hs (by omega)
      have hres : res.sock.length ≤ rest.length := by
        split at h
        · split at h
          · cases h; exact Nat.le_refl _
          · simp at h; rw [← h]; exact Nat.le_refl _
        · exact body_le h
      exact ⟨by omega, fun hne => by have := hd.2 hne; omega⟩
  · rename_i hl2
    cases c with
    | none => exact absurd rfl hl2
    | some m =>
      simp only [Option.getD_some] at hl2 h
      rcases hc with hm | hm
      · exact absurd hm.1 hl2
      · refine ⟨body_le h, fun hne => ?_⟩
        unfold body ALLOC at h
        dsimp only at h
        rw [if_neg (by omega), if_pos (by omega)] at h
        split at h
        · cases h
        · rename_i hs
          unfold sockRecv at hs
          split at hs <;> simp at hs
        · rename_i bs rest hs
          have hd := (hdata hs (by omega)).2 hne
          split at h
          · simp at h; rw [← h]; exact hd
          · cases h
            rw [finish_sock]
            exact hd

/-! ### Streams -/

/-- the messages in frames: those with a payload -/
def messages (fs : List Frame) : List (List Byte) := (fs.filter (fun f => f.payload ≠ [])).map Frame.enc

theorem frame_prefix {f g : Frame} (hf : f.Ok) (hg : g.Ok) {s t : List Byte} (h : f.enc ++ s = g.enc ++ t) : f = g ∧ s = t := by
  have h1 := hdrLen_enc f hf s
  have h2 := hdrLen_enc g hg t
  rw [h] at h1
  have hl : f.enc.length = g.enc.length := by rw [length_enc, length_enc]; omega
  obtain ⟨h3, h4⟩ := List.append_inj h hl
  refine ⟨?_, h4⟩
  obtain ⟨p, d⟩ := f
  obtain ⟨p', d'⟩ := g
  simp only [Frame.enc, List.cons_append, List.nil_append, List.cons.injEq] at h3
  rw [h3.2.2.1, h3.2.2.2]

/-- C84: frames sent one after the other are received as exactly the messages among them, in order, however the kernel splits the
stream, and nothing of what has been received is lost. -/
theorem run_stream (rs : List (Rx × Rx)) (hrs : ∀ r ∈ rs, r.1.Benign ∧ r.2.Benign) : ∀ (c : Option Msg) (sock : List Byte) (fs : List Frame),
    Valid c → (∀ f ∈ fs, f.Ok) → held c ++ sock = (fs.map Frame.enc).flatten →
    ∃ got rest c' sock', fs = got ++ rest ∧ run c sock rs = some (messages got, c', sock') ∧ Valid c' ∧
      held c' ++ sock' = (rest.map Frame.enc).flatten := by
  induction rs with
  | nil => intro c sock fs hc _ h; exact ⟨[], fs, c, sock, rfl, rfl, hc, h⟩
  | cons r rs ih =>
    intro c sock fs hc hfs h
    obtain ⟨r1, r2⟩ := r
    have hr := hrs (r1, r2) (by simp)
    have hrs' : ∀ r ∈ rs, r.1.Benign ∧ r.2.Benign := fun r hr => hrs r (by simp [hr])
    obtain ⟨res, he, hv, hcase⟩ := recv_spec c sock r1 r2 hc
    unfold run
    rw [he]
    dsimp only
    rcases hcase with hw | ⟨f, hf⟩ | ⟨hd, hb⟩ | hd | hd
    · obtain ⟨got, rest, c', sock', a, b, c1, d⟩ := ih hrs' res.cache res.sock fs hv hfs (by rw [hw.bytes, h])
      refine ⟨got, rest, c', sock', a, ?_, c1, d⟩
      rw [b, hw.msg]
      simp
    · cases fs with
      | nil =>
        have := hf.bytes.trans h
        have := congrArg List.length this
        simp [length_enc] at this
      | cons g fs =>
        have := hf.bytes.trans h
        rw [List.map_cons, List.flatten_cons] at this
        obtain ⟨rfl, hs⟩ := frame_prefix hf.ok (hfs g (by simp)) this
        obtain ⟨got, rest, c', sock', a, b, c1, d⟩ := ih hrs' res.cache res.sock fs hv (fun f hf => hfs f (by simp [hf]))
          (by rw [hf.cache, ← hs]; rfl)
        refine ⟨f :: got, rest, c', sock', by rw [a]; rfl, ?_, c1, d⟩
        rw [b, hf.msg]
        by_cases hp : f.payload = [] <;> simp [messages, hp]
    · exfalso
      have := hb.bytes.trans h
      cases fs with
      | nil =>
        have h1 := congrArg List.length this
        have := hb.len.1
        simp at h1
        simp [h1.1] at this
      | cons g fs =>
        have hg := hdrLen_enc g (hfs g (by simp)) ((fs.map Frame.enc).flatten)
        rw [List.map_cons, List.flatten_cons] at this
        rw [← this, hdrLen_append (by rw [hb.len.1]; omega)] at hg
        have := hfs g (by simp)
        unfold Frame.Ok at this
        have := hb.len.2
        omega
    · exfalso
      rcases hd.ret with ⟨rfl, -⟩ | ⟨e, rfl, -⟩
      · exact hr.1
      · exact hr.1
    · exfalso
      rcases hd.ret with ⟨rfl, -⟩ | ⟨e, rfl, -⟩
      · exact hr.2
      · exact hr.2

theorem valid_partial {c : Option Msg} (hc : Valid c) (fs : List Frame) (hfs : ∀ f ∈ fs, f.Ok)
    (h : held c = (fs.map Frame.enc).flatten) : fs = [] ∧ c = none := by
  cases fs with
  | nil =>
    refine ⟨rfl, ?_⟩
    cases c with
    | none => rfl
    | some m =>
      have h' : m.data = [] := h
      rcases hc with hm | hm
      · rw [h'] at hm; simp at hm
      · rw [h'] at hm; simp at hm
  | cons f fs =>
    exfalso
    rw [List.map_cons, List.flatten_cons] at h
    cases c with
    | none =>
      have := congrArg List.length h
      simp [held, length_enc] at this
      omega
    | some m =>
      have h' : m.data = f.enc ++ (fs.map Frame.enc).flatten := h
      have hl := hdrLen_enc f (hfs f (by simp)) ((fs.map Frame.enc).flatten)
      have hlen := congrArg List.length h'
      rw [List.length_append, length_enc] at hlen
      rw [← h'] at hl
      rcases hc with hm | hm <;> omega

/-- C84: once all bytes have been received, so have all messages, and nothing is cached. -/
theorem run_all (rs : List (Rx × Rx)) (hrs : ∀ r ∈ rs, r.1.Benign ∧ r.2.Benign) (fs : List Frame) (hfs : ∀ f ∈ fs, f.Ok)
    (ms : List (List Byte)) (c' : Option Msg) (h : run none (fs.map Frame.enc).flatten rs = some (ms, c', [])) :
    ms = messages fs ∧ c' = none := by
  obtain ⟨got, rest, c'', sock', rfl, b, hv, d⟩ := run_stream rs hrs none (fs.map Frame.enc).flatten fs trivial hfs rfl
  rw [b] at h
  simp only [Option.some.injEq, Prod.mk.injEq] at h
  obtain ⟨rfl, rfl, rfl⟩ := h
  rw [List.append_nil] at d
  obtain ⟨rfl, rfl⟩ := valid_partial hv rest (fun f hf => hfs f (by simp [hf])) d
  simp

/-- C84: and with enough calls that are given bytes all have been received. -/
theorem run_complete (fs : List Frame) (hfs : ∀ f ∈ fs, f.Ok) (ks : List (Nat × Nat)) (hn : ((fs.map Frame.enc).flatten).length ≤ ks.length) :
    run none (fs.map Frame.enc).flatten (ks.map fun k => (.data k.1, .data k.2)) = some (messages fs, none, []) := by
  suffices h : ∀ (ks : List (Nat × Nat)) (c : Option Msg) (sock : List Byte), Valid c → sock.length ≤ ks.length →
      ∃ ms c', run c sock (ks.map fun k => (.data k.1, .data k.2)) = some (ms, c', []) by
    obtain ⟨ms, c', h⟩ := h ks none (fs.map Frame.enc).flatten trivial hn
    obtain ⟨rfl, rfl⟩ := run_all _ (by
      intro r hr
      obtain ⟨k, -, rfl⟩ := List.mem_map.mp hr
      exact ⟨trivial, trivial⟩) fs hfs ms c' h
    exact h
  intro ks
  induction ks with
  | nil =>
    intro c sock _ hl
    have : sock = [] := List.length_eq_zero_iff.mp (by simpa using hl)
    exact ⟨[], c, by rw [this]; rfl⟩
  | cons k ks ih =>
    intro c sock hc hl
    obtain ⟨res, he, hv, -⟩ := recv_spec c sock (.data k.1) (.data k.2) hc
    have hlen : res.sock.length ≤ ks.length := by
      have := recv_progress c sock k.1 k.2 hc res he
      simp only [List.length_cons] at hl
      by_cases hs : sock = []
      · rw [hs] at this
        simp at this
        rw [this]
        simp
      · have := this.2 hs
        omega
    obtain ⟨ms, c', h⟩ := ih res.cache res.sock hv hlen
    refine ⟨res.msg.toList ++ ms, c', ?_⟩
    rw [List.map_cons]
    unfold run
    rw [he]
    simp [h]

/-- C84: without `tmp_msg` (`ipa_msg_recv`) nothing is kept, and what is returned is a whole message. -/
theorem recv_unbuffered (c : Option Msg) (sock : List Byte) (r1 r2 : Rx) :
    ∃ res, recvBuffered false c sock r1 r2 = some res ∧ res.cache = none ∧
      ∀ m, res.msg = some m → ∃ f : Frame, f.Ok ∧ f.payload ≠ [] ∧ m = f.enc ∧ sock = m ++ res.sock ∧ res.ret = f.payload.length := by
  unfold recvBuffered
  dsimp only
  rw [show (if false = true then c.getD ⟨[], false⟩ else (⟨[], false⟩ : Msg)) = ⟨[], false⟩ from rfl]
  dsimp only
  rw [if_pos rfl]
  obtain ⟨bs, rest, hs, hcat, hle, -⟩ | ⟨ret, hs, -⟩ := sockRecv_cases (ALLOC - ([] : List Byte).length) (3 - ([] : List Byte).length)
    sock r1 (by unfold ALLOC; simp)
  rotate_left
  · rw [hs]
    exact ⟨_, rfl, rfl, by simp⟩
  rw [hs]
  dsimp only
  rw [List.nil_append]
  simp only [List.length_nil, Nat.sub_zero] at hle ⊢
  by_cases hlt : bs.length < 3
  · rw [if_pos hlt]
    by_cases h0 : bs.length = 0
    · rw [if_pos h0]; exact ⟨_, rfl, rfl, by simp⟩
    · rw [if_neg h0]; exact ⟨_, rfl, rfl, by simp⟩
  · rw [if_neg hlt]
    have h3 : bs.length = 3 := by omega
    unfold body ALLOC
    dsimp only
    by_cases hbig : 1200 < hdrLen bs + 3
    · rw [if_pos hbig]; exact ⟨_, rfl, rfl, by simp⟩
    · rw [if_neg hbig]
      -- what is returned in the end
      have fin : ∀ (d rest' : List Byte), d ++ rest' = sock → 3 ≤ d.length → d.length = 3 + hdrLen d → hdrLen d + 3 ≤ 1200 →
          ∃ res, some (finish ⟨d, true⟩ rest') = some res ∧ res.cache = none ∧
            ∀ m, res.msg = some m → ∃ f : Frame, f.Ok ∧ f.payload ≠ [] ∧ m = f.enc ∧ sock = m ++ res.sock ∧ res.ret = f.payload.length := by
        intro d rest' hd h3 hl hok
        obtain ⟨f, hf⟩ := finish_full none sock rest' ⟨d, true⟩ h3 hl hok (by simpa [held] using hd)
        refine ⟨_, rfl, hf.cache, fun m hm => ⟨f, hf.ok, ?_⟩⟩
        rw [hf.msg] at hm
        by_cases hp : f.payload = []
        · rw [if_pos hp] at hm; cases hm
        · rw [if_neg hp] at hm
          cases hm
          refine ⟨hp, rfl, ?_, ?_⟩
          · have := hf.bytes
            simpa [held] using this.symm
          · rw [hf.ret, if_neg hp]
      by_cases hn : (hdrLen bs : Int) - (bs.length - 3) > 0
      · rw [if_pos hn]
        obtain ⟨bs', rest', hs', hcat', hle', -⟩ | ⟨ret, hs', -⟩ := sockRecv_cases (1200 - bs.length)
          ((hdrLen bs : Int) - (bs.length - 3)).toNat rest r2 (by omega)
        rotate_left
        · rw [hs']
          exact ⟨_, rfl, rfl, by simp⟩
        rw [hs']
        dsimp only
        by_cases hlt' : (bs'.length : Int) < (hdrLen bs : Int) - (bs.length - 3)
        · rw [if_pos hlt']; exact ⟨_, rfl, rfl, by simp⟩
        · rw [if_neg hlt']
          have hh := hdrLen_append (b := bs') (show 2 ≤ bs.length by omega)
          exact fin (bs ++ bs') rest' (by rw [List.append_assoc, hcat', hcat]) (by simp; omega) (by rw [hh]; simp; omega)
            (by rw [hh]; omega)
      · rw [if_neg hn]
        exact fin bs rest hcat (by omega) (by omega) (by omega)

/-- two messages and an empty frame, received in pieces -/
example : run none (((⟨0xfe, [0]⟩ : Frame).enc ++ (⟨1, []⟩ : Frame).enc) ++ (⟨0, [7, 8]⟩ : Frame).enc)
    [(.data 1, .again), (.again, .again), (.data 5, .data 5), (.data 2, .data 0), (.data 9, .data 0), (.again, .data 3)] =
    some ([[0, 1, 0xfe, 0], [0, 2, 0, 7, 8]], none, []) := by decide +kernel

end Verif.Ipa
