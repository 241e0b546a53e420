import Verif.Msgb.Model
/-!
Specification vocabulary for C01-C03: a message as a double-ended byte sequence
with room at both ends, stated without reference to pointers.
-/
namespace Verif.Msgb

/-- What a user sees of a message: head room, payload, tail room. -/
structure Deq where
  hr : Nat
  pl : List Byte
  tr : Nat
deriving DecidableEq, Repr

/-- The user-level operations. -/
inductive Op where
  | reserve (n : Nat)
  | put (bs : List Byte)
  | push (bs : List Byte)
  | pull (n : Nat)
  | get (n : Nat)
  | trim (n : Nat)
  | reset
deriving DecidableEq, Repr

/-- Documented effect of every operation; `none` = outside the documented
contract (not enough room, or not enough data). The second component is what is
read back by `get`/`pull`. -/
def specStep (d : Deq) : Op → Option (Deq × List Byte)
  | .reserve n => if d.pl = [] ∧ n ≤ d.tr then some ({ d with hr := d.hr + n, tr := d.tr - n }, []) else none
  | .put bs => if bs.length ≤ d.tr then
      some ({ d with pl := d.pl ++ bs, tr := d.tr - bs.length }, []) else none
  | .push bs => if bs.length ≤ d.hr then
      some ({ d with pl := bs ++ d.pl, hr := d.hr - bs.length }, []) else none
  | .pull n => if n ≤ d.pl.length then
      some ({ d with pl := d.pl.drop n, hr := d.hr + n }, d.pl.take n) else none
  | .get n => if n ≤ d.pl.length then
      some ({ d with pl := d.pl.take (d.pl.length - n), tr := d.tr + n },
        d.pl.drop (d.pl.length - n)) else none
  | .trim n => if n ≤ d.pl.length then
      some ({ d with pl := d.pl.take n, tr := d.tr + (d.pl.length - n) }, []) else none
  | .reset => some ({ hr := 0, pl := [], tr := d.hr + d.pl.length + d.tr }, [])

/-- Run of the specification over a list of operations, collecting outputs. -/
def specRun (d : Deq) : List Op → Option (Deq × List (List Byte))
  | [] => some (d, [])
  | op :: ops => (specStep d op).bind fun (d', o) => (specRun d' ops).map fun (d'', os) => (d'', o :: os)

/-- The same operations on the modelled code; `none` = access outside the
storage. -/
def step (m : Msgb) : Op → Option (Msgb × List Byte)
  | .reserve n => some (m.reserve n, [])
  | .put bs => (m.putBytes bs).map fun m' => (m', [])
  | .push bs => (m.pushBytes bs).map fun m' => (m', [])
  | .pull n => (m.pullBytes n).map fun (bs, m') => (m', bs)
  | .get n => (m.getBytes n).map fun (bs, m') => (m', bs)
  | .trim n => some ((m.trim n).2, [])
  | .reset => some (m.reset, [])

/-- Run of the code over a list of operations. -/
def run (m : Msgb) : List Op → Option (Msgb × List (List Byte))
  | [] => some (m, [])
  | op :: ops => (step m op).bind fun (m', o) => (run m' ops).map fun (m'', os) => (m'', o :: os)

/-- The message `m` presents the view `d`, and its pointers are inside the
storage. -/
def Presents (m : Msgb) (d : Deq) : Prop :=
  m.head = 0 ∧ m.data = d.hr ∧ m.tail = d.hr + d.pl.length ∧ m.len = d.pl.length ∧
  m.mem.length < 65536 ∧
  ∃ pre post : List Byte, m.mem = pre ++ d.pl ++ post ∧ pre.length = d.hr ∧ post.length = d.tr

/-- All pointers are inside the storage and consistent. -/
def InStorage (m : Msgb) : Prop :=
  0 ≤ m.head ∧ m.head ≤ m.data ∧ m.data ≤ m.tail ∧ m.tail ≤ m.head + m.dataLen ∧
  m.data + m.len = m.tail ∧ m.headroom + m.length + m.tailroom = m.dataLen

end Verif.Msgb
