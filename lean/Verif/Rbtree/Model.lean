import Verif.Common
/-!
Red-black trees: src/core/rbtree.c, include/osmocom/core/linuxrbtree.h.

The memory is a map from addresses to nodes; address 0 is NULL, reading or
writing through it is `none`.  The pointer and the colour packed into
`rb_parent_color` are two fields: nodes are aligned, so the two low bits of
their addresses are zero (include/osmocom/core/linuxrbtree.h:96-101, 110-124).
-/
namespace Verif.Rbtree

/-- include/osmocom/core/linuxrbtree.h:94-101 `struct rb_node` -/
structure Node where
  parent : Nat
  black : Bool
  left : Nat
  right : Nat
deriving DecidableEq, Repr

/-- the nodes, and include/osmocom/core/linuxrbtree.h:104-107 `struct rb_root` -/
structure Mem where
  root : Nat
  node : Nat → Node

def Mem.get (m : Mem) (p : Nat) : Option Node := if p = 0 then none else some (m.node p)

def Mem.put (m : Mem) (p : Nat) (n : Node) : Mem := { m with node := fun j => if j = p then n else m.node j }

/-- include/osmocom/core/linuxrbtree.h:110 `rb_parent` -/
def Mem.parent (m : Mem) (p : Nat) : Option Nat := (m.get p).map (·.parent)
/-- include/osmocom/core/linuxrbtree.h:111-113 `rb_color`, `rb_is_red`, `rb_is_black` -/
def Mem.black (m : Mem) (p : Nat) : Option Bool := (m.get p).map (·.black)
def Mem.left (m : Mem) (p : Nat) : Option Nat := (m.get p).map (·.left)
def Mem.right (m : Mem) (p : Nat) : Option Nat := (m.get p).map (·.right)
/-- include/osmocom/core/linuxrbtree.h:117-120 `rb_set_parent` -/
def Mem.setParent (m : Mem) (p v : Nat) : Option Mem := (m.get p).map fun n => m.put p { n with parent := v }
/-- include/osmocom/core/linuxrbtree.h:114-115, 121-124 `rb_set_red`, `rb_set_black`, `rb_set_color` -/
def Mem.setBlack (m : Mem) (p : Nat) (b : Bool) : Option Mem := (m.get p).map fun n => m.put p { n with black := b }
def Mem.setLeft (m : Mem) (p v : Nat) : Option Mem := (m.get p).map fun n => m.put p { n with left := v }
def Mem.setRight (m : Mem) (p v : Nat) : Option Mem := (m.get p).map fun n => m.put p { n with right := v }
def Mem.setRoot (m : Mem) (v : Nat) : Mem := { m with root := v }

/-- `if (p) rb_set_parent(p, v)` -/
def Mem.setParentIf (m : Mem) (p v : Nat) : Option Mem := if p ≠ 0 then m.setParent p v else some m

/-- src/core/rbtree.c:34-42 (likewise 231-237, 266-274, 366-373): put `new` in the place of `old` below `parent` -/
def Mem.relinkL (m : Mem) (parent old new : Nat) : Option Mem :=
  if parent ≠ 0 then
    (m.left parent).bind fun pl => if old = pl then m.setLeft parent new else m.setRight parent new
  else some (m.setRoot new)

/-- src/core/rbtree.c:57-65: the same, looking at the right child -/
def Mem.relinkR (m : Mem) (parent old new : Nat) : Option Mem :=
  if parent ≠ 0 then
    (m.right parent).bind fun pr => if old = pr then m.setRight parent new else m.setLeft parent new
  else some (m.setRoot new)

/-- src/core/rbtree.c:23-44 `__rb_rotate_left` -/
def rotateLeft (m : Mem) (node : Nat) : Option Mem := do
  let right ← m.right node
  let parent ← m.parent node
  let rl ← m.left right
  let m ← m.setRight node rl
  let m ← m.setParentIf rl node
  let m ← m.setLeft right node
  let m ← m.setParent right parent
  let m ← m.relinkL parent node right
  m.setParent node right

/-- src/core/rbtree.c:46-67 `__rb_rotate_right` -/
def rotateRight (m : Mem) (node : Nat) : Option Mem := do
  let left ← m.left node
  let parent ← m.parent node
  let lr ← m.right left
  let m ← m.setLeft node lr
  let m ← m.setParentIf lr node
  let m ← m.setRight left node
  let m ← m.setParent left parent
  let m ← m.relinkR parent node left
  m.setParent node left

/-- `p && rb_is_red(p)` -/
def Mem.redIf (m : Mem) (p : Nat) : Bool := p ≠ 0 && !(m.node p).black

/-- src/core/rbtree.c:69-132 `rb_insert_color`.  The first argument bounds the number of rounds of the loop. -/
def insertColor : Nat → Mem → Nat → Option Mem
  | 0, _, _ => none
  | f + 1, m, node => do
    let parent ← m.parent node
    if m.redIf parent then
      let gparent ← m.parent parent
      let gl ← m.left gparent
      let gr ← m.right gparent
      if parent = gl then
        if m.redIf gr then
          let m ← m.setBlack gr true
          let m ← m.setBlack parent true
          let m ← m.setBlack gparent false
          insertColor f m gparent
        else
          let pr ← m.right parent
          if pr = node then
            let m ← rotateLeft m parent
            let m ← m.setBlack node true
            let m ← m.setBlack gparent false
            let m ← rotateRight m gparent
            insertColor f m parent
          else
            let m ← m.setBlack parent true
            let m ← m.setBlack gparent false
            let m ← rotateRight m gparent
            insertColor f m node
      else
        if m.redIf gl then
          let m ← m.setBlack gl true
          let m ← m.setBlack parent true
          let m ← m.setBlack gparent false
          insertColor f m gparent
        else
          let pl ← m.left parent
          if pl = node then
            let m ← rotateRight m parent
            let m ← m.setBlack node true
            let m ← m.setBlack gparent false
            let m ← rotateLeft m gparent
            insertColor f m parent
          else
            let m ← m.setBlack parent true
            let m ← m.setBlack gparent false
            let m ← rotateLeft m gparent
            insertColor f m node
    else m.setBlack m.root true

/-- `!p || rb_is_black(p)` -/
def Mem.blackOrNull (m : Mem) (p : Nat) : Bool := p = 0 || (m.node p).black

/-- src/core/rbtree.c:210-211 -/
def eraseEnd (m : Mem) (node : Nat) : Option Mem := if node ≠ 0 then m.setBlack node true else some m

/-- src/core/rbtree.c:160-173: the sibling on the right has a red child -/
def eraseFixL (m : Mem) (parent other : Nat) : Option Mem := do
  let or ← m.right other
  let r ← if m.blackOrNull or then do
      let ol ← m.left other
      let m ← m.setBlack ol true
      let m ← m.setBlack other false
      let m ← rotateRight m other
      let o ← m.right parent
      some (m, o)
    else some (m, other)
  let m := r.1
  let other := r.2
  let pc ← m.black parent
  let m ← m.setBlack other pc
  let m ← m.setBlack parent true
  let or ← m.right other
  let m ← m.setBlack or true
  let m ← rotateLeft m parent
  eraseEnd m m.root

/-- src/core/rbtree.c:194-207: the sibling on the left has a red child -/
def eraseFixR (m : Mem) (parent other : Nat) : Option Mem := do
  let ol ← m.left other
  let r ← if m.blackOrNull ol then do
      let or ← m.right other
      let m ← m.setBlack or true
      let m ← m.setBlack other false
      let m ← rotateLeft m other
      let o ← m.left parent
      some (m, o)
    else some (m, other)
  let m := r.1
  let other := r.2
  let pc ← m.black parent
  let m ← m.setBlack other pc
  let m ← m.setBlack parent true
  let ol ← m.left other
  let m ← m.setBlack ol true
  let m ← rotateRight m parent
  eraseEnd m m.root

/-- src/core/rbtree.c:143-150: a red sibling on the right goes up; memory and sibling after that -/
def eraseRedL (m : Mem) (parent : Nat) : Option (Mem × Nat) := do
  let other ← m.right parent
  let b ← m.black other
  if b then some (m, other)
  else
    let m ← m.setBlack other true
    let m ← m.setBlack parent false
    let m ← rotateLeft m parent
    let o ← m.right parent
    some (m, o)

/-- src/core/rbtree.c:177-184 -/
def eraseRedR (m : Mem) (parent : Nat) : Option (Mem × Nat) := do
  let other ← m.left parent
  let b ← m.black other
  if b then some (m, other)
  else
    let m ← m.setBlack other true
    let m ← m.setBlack parent false
    let m ← rotateRight m parent
    let o ← m.left parent
    some (m, o)

/-- src/core/rbtree.c:134-212 `__rb_erase_color` -/
def eraseColor : Nat → Mem → Nat → Nat → Option Mem
  | 0, _, _, _ => none
  | f + 1, m, node, parent =>
    if m.blackOrNull node && node ≠ m.root then do
      let pl ← m.left parent
      if pl = node then
        let r ← eraseRedL m parent
        let ol ← r.1.left r.2
        let or ← r.1.right r.2
        if r.1.blackOrNull ol && r.1.blackOrNull or then
          let m ← r.1.setBlack r.2 false
          let gp ← m.parent parent
          eraseColor f m parent gp
        else eraseFixL r.1 parent r.2
      else
        let r ← eraseRedR m parent
        let ol ← r.1.left r.2
        let or ← r.1.right r.2
        if r.1.blackOrNull ol && r.1.blackOrNull or then
          let m ← r.1.setBlack r.2 false
          let gp ← m.parent parent
          eraseColor f m parent gp
        else eraseFixR r.1 parent r.2
    else eraseEnd m node

/-- src/core/rbtree.c:228-229, 319-320, 291-292: go down to the left as far as possible -/
def leftmost : Nat → Mem → Nat → Option Nat
  | 0, _, _ => none
  | f + 1, m, n => (m.left n).bind fun l => if l ≠ 0 then leftmost f m l else some n

/-- src/core/rbtree.c:303-304, 347-348 -/
def rightmost : Nat → Mem → Nat → Option Nat
  | 0, _, _ => none
  | f + 1, m, n => (m.right n).bind fun r => if r ≠ 0 then rightmost f m r else some n

/-- src/core/rbtree.c:243-252: take the successor `node` of `old` from its place; what
follows needs its former parent -/
def unhook (m : Mem) (old node child parent : Nat) : Option (Mem × Nat) :=
  if parent = old then some (m, node)
  else do
    let m ← m.setParentIf child parent
    let m ← m.setLeft parent child
    let oldr ← m.right old
    let m ← m.setRight node oldr
    let m ← m.setParent oldr node
    some (m, parent)

/-- src/core/rbtree.c:225-258: both children there.  Returns the memory, `child`, `parent` and the colour. -/
def eraseTwo (f : Nat) (m : Mem) (old : Nat) : Option (Mem × Nat × Nat × Bool) := do
  let r ← m.right old
  let node ← leftmost f m r
  let op ← m.parent old
  let m ← m.relinkL op old node
  let child ← m.right node
  let parent ← m.parent node
  let color ← m.black node
  let u ← unhook m old node child parent
  let m := u.1
  let oldn ← m.get old
  let noden ← m.get node
  let m := m.put node { noden with parent := oldn.parent, black := oldn.black, left := oldn.left }
  let m ← m.setParent oldn.left node
  some (m, child, u.2, color)

/-- src/core/rbtree.c:261-274: at most one child -/
def eraseOne (m : Mem) (node child : Nat) : Option (Mem × Nat × Nat × Bool) := do
  let parent ← m.parent node
  let color ← m.black node
  let m ← m.setParentIf child parent
  let m ← m.relinkL parent node child
  some (m, child, parent, color)

/-- src/core/rbtree.c:219-274 -/
def unlink (f : Nat) (m : Mem) (node : Nat) : Option (Mem × Nat × Nat × Bool) := do
  let l ← m.left node
  let r ← m.right node
  if l = 0 then eraseOne m node r
  else if r = 0 then eraseOne m node l
  else eraseTwo f m node

/-- src/core/rbtree.c:214-279 `rb_erase`; `f` bounds the number of rounds of each loop -/
def erase (f : Nat) (m : Mem) (node : Nat) : Option Mem := do
  let u ← unlink f m node
  if u.2.2.2 then eraseColor f u.1 u.2.1 u.2.2.1 else some u.1

/-- src/core/rbtree.c:284-294 `rb_first` -/
def first (f : Nat) (m : Mem) : Option Nat := if m.root = 0 then some 0 else leftmost f m m.root

/-- src/core/rbtree.c:296-306 `rb_last` -/
def last (f : Nat) (m : Mem) : Option Nat := if m.root = 0 then some 0 else rightmost f m m.root

/-- src/core/rbtree.c:330-333 -/
def upRight : Nat → Mem → Nat → Option Nat
  | 0, _, _ => none
  | f + 1, m, node => (m.parent node).bind fun parent =>
    if parent ≠ 0 then (m.right parent).bind fun pr => if node = pr then upRight f m parent else some parent
    else some parent

/-- src/core/rbtree.c:354-357 -/
def upLeft : Nat → Mem → Nat → Option Nat
  | 0, _, _ => none
  | f + 1, m, node => (m.parent node).bind fun parent =>
    if parent ≠ 0 then (m.left parent).bind fun pl => if node = pl then upLeft f m parent else some parent
    else some parent

/-- src/core/rbtree.c:308-334 `rb_next` -/
def next (f : Nat) (m : Mem) (node : Nat) : Option Nat := do
  let p ← m.parent node
  if p = node then some 0
  else
    let r ← m.right node
    if r ≠ 0 then leftmost f m r else upRight f m node

/-- src/core/rbtree.c:336-358 `rb_prev` -/
def prev (f : Nat) (m : Mem) (node : Nat) : Option Nat := do
  let p ← m.parent node
  if p = node then some 0
  else
    let l ← m.left node
    if l ≠ 0 then rightmost f m l else upLeft f m node

/-- src/core/rbtree.c:360-381 `rb_replace_node` -/
def replaceNode (m : Mem) (victim new : Nat) : Option Mem := do
  let parent ← m.parent victim
  let m ← m.relinkL parent victim new
  let l ← m.left victim
  let m ← m.setParentIf l new
  let r ← m.right victim
  let m ← m.setParentIf r new
  let v ← m.get victim
  let _ ← m.get new
  some (m.put new v)

/-- where a link is stored: the root, or a child of a node -/
inductive Link where
  | root
  | left (p : Nat)
  | right (p : Nat)
deriving DecidableEq, Repr

/-- include/osmocom/core/linuxrbtree.h:146-153 `rb_link_node` -/
def linkNode (m : Mem) (node parent : Nat) (link : Link) : Option Mem := do
  let _ ← m.get node
  let m := m.put node ⟨parent, false, 0, 0⟩
  match link with
  | .root => some (m.setRoot node)
  | .left p => m.setLeft p node
  | .right p => m.setRight p node

/-- src/core/timer.c:46-59, the search for the place in `__add_timer`.  `lt a b`: the
timeout of `a` is before that of `b`. -/
def descend (lt : Nat → Nat → Bool) (x : Nat) : Nat → Mem → Link → Nat → Nat → Option (Link × Nat)
  | 0, _, _, _, _ => none
  | f + 1, m, link, cur, parent =>
    if cur ≠ 0 then
      if lt x cur then (m.left cur).bind fun l => descend lt x f m (.left cur) l cur
      else (m.right cur).bind fun r => descend lt x f m (.right cur) r cur
    else some (link, parent)

/-- src/core/timer.c:44-63 `__add_timer` -/
def insert (lt : Nat → Nat → Bool) (f : Nat) (m : Mem) (x : Nat) : Option Mem := do
  let d ← descend lt x f m .root m.root 0
  let m ← linkNode m x d.2 d.1
  insertColor f m x

end Verif.Rbtree
