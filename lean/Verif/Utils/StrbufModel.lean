import Verif.Common
/-!
Model of the string buffers of include/osmocom/core/utils.h (OSMO_STRBUF_*),
of src/core/utils.c osmo_print_n, osmo_strbuf_*, osmo_strlcpy and of the escape
and quote functions built on them.

An snprintf-like function `int func(char *dst, size_t dst_len, ...)` is a
function from the content of the window `dst[0..dst_len-1]` to its new content
(same length) and the return value; `none` = undefined behaviour.
-/
namespace Verif.Utils

/-- `snprintf(dst, dst_len, ...)` producing the text `t` (C11 7.21.6.5): at most
`dst_len - 1` characters and a NUL, nothing when `dst_len` is 0; returns the
untruncated length.  Simplification: lengths below 2^31. -/
def snprintfText (t : List Byte) (win : List Byte) : Option (List Byte × Int) :=
  if win.length = 0 then some (win, t.length)
  else
    let w := t.take (win.length - 1)
    some (w ++ 0#8 :: win.drop (w.length + 1), t.length)

/-- src/core/utils.c:733-752 `osmo_print_n` with a string `str` (no NUL inside)
and a limit `n`; `strncpy` of `write_n` characters, then the NUL. -/
def printN (str : List Byte) (n : Nat) (win : List Byte) : Option (List Byte × Int) :=
  let n := min str.length n
  if win.length = 0 then some (win, n)
  else
    let wn := if n ≥ win.length then win.length - 1 else n
    (writeAt win 0 (str.take wn)).bind fun win =>
      (writeAt win wn [0#8]).map fun win => (win, (n : Int))

/-- include/osmocom/core/utils.h:200-211 `struct osmo_strbuf` with a non-NULL
`buf`; `len = buf.length`, `pos` as offset (`none` = NULL). -/
structure Sb where
  buf : List Byte
  pos : Option Nat
  needed : Nat
  deriving DecidableEq, Repr

/-- include/osmocom/core/utils.h:249-260 `OSMO_STRBUF_APPEND`; `none` if `pos`
lies behind the buffer (the remaining size would wrap). -/
def appendWith (sb : Sb) (f : List Byte → Option (List Byte × Int)) : Option Sb :=
  let pos := sb.pos.getD 0
  if pos ≤ sb.buf.length then
    let remain := sb.buf.length - pos
    (f (sb.buf.drop pos)).bind fun (sub, l) =>
      some { buf := sb.buf.take pos ++ sub
             pos := some (if l < 0 ∨ l > remain then sb.buf.length else pos + l.toNat)
             needed := if l > 0 then sb.needed + l.toNat else sb.needed }
  else none

/-- include/osmocom/core/utils.h:324-337 `OSMO_STRBUF_APPEND_NOLEN` with a
function printing `t` (no NUL inside); `strnlen` counts up to the first NUL of the window. -/
def appendNolen (sb : Sb) (t : List Byte) : Option Sb :=
  let pos := sb.pos.getD 0
  if pos ≤ sb.buf.length then
    let win := sb.buf.drop pos
    (if win.length = 0 then some win else (snprintfText t win).map (·.1)).bind fun sub =>
      let l := (sub.takeWhile (· ≠ 0#8)).length
      some { buf := sb.buf.take pos ++ sub
             pos := some (if l > win.length then sb.buf.length else pos + l)
             needed := sb.needed + l }
  else none

/-- include/osmocom/core/utils.h:303-310 `_osmo_strbuf_char_count` -/
def charCount (sb : Sb) : Nat :=
  match sb.pos with
  | none => 0
  | some p => if p = 0 then 0 else min p (sb.buf.length - 1)

/-- src/core/utils.c:1228-1241 `osmo_strbuf_drop_tail`. `sb->pos <= sb->buf`
is true for a NULL `pos`. -/
def dropTail (sb : Sb) (n : Nat) : Option Sb :=
  if sb.pos.getD 0 = 0 then some sb
  else
    let needed := sb.needed - min sb.needed n
    if needed ≥ charCount sb then some { sb with needed := needed }
    else (writeAt sb.buf needed [0#8]).map fun b => { buf := b, pos := some needed, needed := needed }

/-- src/core/utils.c:1248-1267 `osmo_strbuf_added_tail` -/
def addedTail (sb : Sb) (n : Nat) : Option Sb :=
  let pos := sb.pos.getD 0
  let needed := sb.needed + n
  if pos ≤ sb.buf.length then
    let added := min (sb.buf.length - pos - 1) n
    let pos := pos + added
    if pos < sb.buf.length then
      (writeAt sb.buf pos [0#8]).map fun b => { buf := b, pos := some pos, needed := needed }
    else some { sb with pos := some pos, needed := needed }
  else none

/-- one use of the string buffer API; `added t`: the caller stores as much of
`t` as fits in the remaining window itself and calls `osmo_strbuf_added_tail`
with the full length. -/
inductive SbOp where
  | append (t : List Byte)
  | appendNolen (t : List Byte)
  | drop (n : Nat)
  | added (t : List Byte)

def sbStep (sb : Sb) : SbOp → Option Sb
  | .append t => appendWith sb (snprintfText t)
  | .appendNolen t => appendNolen sb t
  | .drop n => dropTail sb n
  | .added t =>
    (writeAt sb.buf (sb.pos.getD 0) (t.take (sb.buf.length - sb.pos.getD 0))).bind fun b =>
      addedTail { sb with buf := b } t.length

def sbRun (sb : Sb) : List SbOp → Option Sb
  | [] => some sb
  | o :: os => (sbStep sb o).bind fun sb => sbRun sb os

/-- `struct osmo_strbuf sb = { .buf = buf, .len = len }` -/
def sbInit (buf : List Byte) : Sb := { buf := buf, pos := none, needed := 0 }

/-! escaping -/

/-- `isprint()` in the C locale, also for negative `char` values (glibc) -/
def isPrint (c : Byte) : Bool := 0x20 ≤ c.toNat && c.toNat ≤ 0x7e

/-- src/core/utils.c:784-788: loop condition of the run of plain characters -/
def isPlain (c : Byte) : Bool := isPrint c && c ≠ 0x22#8 && c ≠ 0x5c#8

/-- `"%u"` of an `unsigned char` -/
def decText (c : Byte) : List Byte :=
  (Nat.toDigits 10 c.toNat).map fun ch => BitVec.ofNat 8 ch.toNat

/-- `"%02x"` of an `unsigned char` -/
def hexText2 (c : Byte) : List Byte :=
  [c.toNat / 16, c.toNat % 16].map fun n => BitVec.ofNat 8 (if n < 10 then 0x30 + n else 0x57 + n)

/-- src/core/utils.c:796-825: text appended for a character that is not plain -/
def escapeOne (legacy : Bool) (c : Byte) : List Byte :=
  if c = 0x0a#8 then [0x5c#8, 0x6e#8]
  else if c = 0x0d#8 then [0x5c#8, 0x72#8]
  else if c = 0x09#8 then [0x5c#8, 0x74#8]
  else if c = 0x00#8 then [0x5c#8, 0x30#8]
  else if c = 0x5c#8 then [0x5c#8, 0x5c#8]
  else if c = 0x22#8 then [0x5c#8, 0x22#8]
  else if legacy then
    if c = 0x07#8 then [0x5c#8, 0x61#8]
    else if c = 0x08#8 then [0x5c#8, 0x62#8]
    else if c = 0x0b#8 then [0x5c#8, 0x76#8]
    else if c = 0x0c#8 then [0x5c#8, 0x66#8]
    else 0x5c#8 :: decText c
  else 0x5c#8 :: 0x78#8 :: hexText2 c

/-- src/core/utils.c:783-828: the `while (in_pos < in_len)` loop over the
remaining input -/
def escapeLoop (legacy : Bool) (str : List Byte) (sb : Sb) : Option Sb :=
  match str with
  | [] => some sb
  | c :: cs =>
    let run := (c :: cs).takeWhile isPlain
    (appendWith sb (printN run run.length)).bind fun sb =>
      match h : (c :: cs).dropWhile isPlain with
      | [] => some sb
      | x :: rest =>
        (appendWith sb (snprintfText (escapeOne legacy x))).bind fun sb =>
          escapeLoop legacy rest sb
termination_by str.length
decreasing_by
  have := (List.dropWhile_sublist (l := c :: cs) isPlain).length_le
  rw [h] at this
  simp at this ⊢
  omega

/-- src/core/utils.c:767-832 `_osmo_escape_str_buf` with `in_len = str.length`,
as an snprintf-like function. -/
def escapeStrBuf (legacy : Bool) (str : List Byte) (win : List Byte) : Option (List Byte × Int) :=
  let sb := sbInit win
  (if str.length = 0 then appendWith sb (snprintfText []) else some sb).bind fun sb =>
    (escapeLoop legacy str sb).map fun (sb : Sb) => (sb.buf, (sb.needed : Int))

/-- src/core/utils.c:895-906 `_osmo_quote_str_buf`; `none` as string = NULL. -/
def quoteStrBuf (legacy : Bool) (str : Option (List Byte)) (win : List Byte) : Option (List Byte × Int) :=
  let sb := sbInit win
  (match str with
    | none => appendWith sb (snprintfText [0x4e#8, 0x55#8, 0x4c#8, 0x4c#8])
    | some s =>
      (appendWith sb (snprintfText [0x22#8])).bind fun sb =>
      (appendWith sb (escapeStrBuf legacy s)).bind fun sb =>
        appendWith sb (snprintfText [0x22#8])).map fun (sb : Sb) => (sb.buf, (sb.needed : Int))

/-- src/core/utils.c:575-586 `osmo_strlcpy` for a non-NULL `src`. -/
def strlcpy (dst src : List Byte) : Option (List Byte × Nat) :=
  if dst.length ≠ 0 then
    let len := min (dst.length - 1) src.length
    (writeAt dst 0 (src.take len)).bind fun d => (writeAt d len [0#8]).map fun d => (d, src.length)
  else some (dst, src.length)

end Verif.Utils
