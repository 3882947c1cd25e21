/-
Model of libyasm/inttree.c: the interval tree the optimizer keeps its span terms in.

A tree is a value; a node together with its parent pointers is the subtree and the list of nodes above it
(frames, nearest first).  `long` values are integers: they are only copied and compared, except in
`Overlap`, whose `int` parameters truncate them.  `IT_delete_node` is in `Verif.Inttree.Delete`;
printing is not modelled, and allocation always succeeds.
-/
namespace Verif.Inttree

/-- limits.h. -/
def LONG_MIN : Int := -9223372036854775808

/-- inttree.h:20-26: the key of a node and its data (a number standing for the pointer). -/
structure Iv where
  low : Int
  high : Int
  data : Nat
  deriving DecidableEq, Repr

/-- inttree.h:20-26 `IntervalTreeNode`; `nil` is the nil sentinel. -/
inductive Tree where
  | nil
  | node (red : Bool) (left : Tree) (iv : Iv) (maxHigh : Int) (right : Tree)
  deriving DecidableEq, Repr

/-- `node->red`; the nil sentinel is black (inttree.c:79). -/
def Tree.red : Tree → Bool
  | .nil => false
  | .node r _ _ _ _ => r

/-- `node->maxHigh`; LONG_MIN in the nil sentinel (inttree.c:75). -/
def Tree.maxHigh : Tree → Int
  | .nil => LONG_MIN
  | .node _ _ _ m _ => m

/-- `node->red = red`. -/
def Tree.setRed (red : Bool) : Tree → Tree
  | .nil => .nil
  | .node _ l iv m r => .node red l iv m r

/-- inttree.c:52 `ITMax`. -/
def itMax (a b : Int) : Int := if a > b then a else b

/-- inttree.c:54-68 `ITN_create`, the key. -/
def mkIv (low high : Int) (data : Nat) : Iv := if low < high then ⟨low, high, data⟩ else ⟨high, low, data⟩

/-- inttree.c:54-68 `ITN_create` and 246: a new leaf.  `maxHigh` is the parameter `high`. -/
def create (low high : Int) (data : Nat) : Tree := .node true .nil (mkIv low high data) high .nil

/-- inttree.c:114-158 `LeftRotate` at the root of the tree given; none if the right child is nil. -/
def leftRotate : Tree → Option Tree
  | .node xred xl xiv _ (.node yred yl yiv _ yr) =>
    let xm := itMax xl.maxHigh (itMax yl.maxHigh xiv.high)
    let ym := itMax xm (itMax yr.maxHigh yiv.high)
    some (.node yred (.node xred xl xiv xm yl) yiv ym yr)
  | _ => none

/-- inttree.c:179-222 `RightRotate`. -/
def rightRotate : Tree → Option Tree
  | .node yred (.node xred xl xiv _ xr) yiv _ yr =>
    let ym := itMax xr.maxHigh (itMax yr.maxHigh yiv.high)
    let xm := itMax xl.maxHigh (itMax ym xiv.high)
    some (.node xred xl xiv xm (.node yred xr yiv ym yr))
  | _ => none

/-- A node above the one in hand: whether we are below its left link, and the rest of the node. -/
structure Frame where
  left : Bool
  red : Bool
  iv : Iv
  maxHigh : Int
  sib : Tree
  deriving DecidableEq, Repr

/-- The node of a frame with a given child. -/
def Frame.plug (f : Frame) (x : Tree) : Tree :=
  if f.left then .node f.red x f.iv f.maxHigh f.sib else .node f.red f.sib f.iv f.maxHigh x

/-- The whole tree. -/
def plug : List Frame → Tree → Tree
  | [], x => x
  | f :: fs, x => plug fs (f.plug x)

/-- inttree.c:239-267 `TreeInsertHelp`: the way down to the empty place where z goes (the test at 257
    repeats the last comparison of the loop). -/
def descend (zlow : Int) : Tree → List Frame → List Frame
  | .nil, path => path
  | .node red l iv m r, path =>
    if iv.low > zlow then descend zlow l (⟨true, red, iv, m, r⟩ :: path)
    else descend zlow r (⟨false, red, iv, m, l⟩ :: path)

/-- inttree.c:283-293 `FixUpMaxHigh`: from the parent of a node whose `maxHigh` is m up to the root. -/
def fixUpMaxHigh (m : Int) : List Frame → List Frame
  | [] => []
  | f :: fs =>
    let m' := itMax f.iv.high (if f.left then itMax m f.sib.maxHigh else itMax f.sib.maxHigh m)
    { f with maxHigh := m' } :: fixUpMaxHigh m' fs

/-- inttree.c:333-336: the parent, rotated left if x is its right child. -/
def innerLeft (p : Frame) (x : Tree) : Option Tree := if p.left then some (p.plug x) else leftRotate (p.plug x)

/-- inttree.c:351-354: the parent, rotated right if x is its left child. -/
def innerRight (p : Frame) (x : Tree) : Option Tree := if p.left then rightRotate (p.plug x) else some (p.plug x)

/-- inttree.c:324-360: the loop of `IT_insert` at the node x.  None: the code would rotate at the root
    sentinel or at a missing child. -/
def fixUp (x : Tree) : List Frame → Option Tree
  | [] => some x
  | [p] => if p.red then none else some (plug [p] x)
  | p :: g :: path =>
    if p.red then
      if g.left then
        -- 325-340
        if g.sib.red then
          fixUp (.node true ((p.plug x).setRed false) g.iv g.maxHigh (g.sib.setRed false)) path
        else
          (innerLeft p x).bind fun s =>
          (rightRotate (.node true (s.setRed false) g.iv g.maxHigh g.sib)).bind fun t => some (plug path t)
      else
        -- 341-359
        if g.sib.red then
          fixUp (.node true (g.sib.setRed false) g.iv g.maxHigh ((p.plug x).setRed false)) path
        else
          (innerRight p x).bind fun s =>
          (leftRotate (.node true g.sib g.iv g.maxHigh (s.setRed false))).bind fun t => some (plug path t)
    else some (plug (p :: g :: path) x)

/-- inttree.c:314-372 `IT_insert(it, low, high, data)`. -/
def insert (t : Tree) (low high : Int) (data : Nat) : Option Tree :=
  let x := create low high data
  let path := descend (mkIv low high data).low t []
  (fixUp x (fixUpMaxHigh x.maxHigh path)).map (Tree.setRed false)

/-- A `long` passed as an `int` (gcc: modulo 2^32). -/
def toInt (v : Int) : Int := v.bmod (2 ^ 32)

/-- inttree.c:741-748 `Overlap`, with its `int` parameters. -/
def overlap (a1 a2 b1 b2 : Int) : Bool :=
  if toInt a1 ≤ toInt b1 then decide (toInt b1 ≤ toInt a2) else decide (toInt a1 ≤ toInt b2)

/-- inttree.h:28-37 `it_recursion_node`; of the start node only the right child is used. -/
structure Entry where
  right : Tree
  tryRight : Bool
  parent : Nat
  deriving DecidableEq, Repr

/-- `it->recursionNodeStack[i].tryRightBranch = 1`. -/
def mark (i : Nat) (stack : List Entry) : List Entry := stack.modify i fun e => { e with tryRight := true }

/-- Number of nodes. -/
def Tree.size : Tree → Nat
  | .nil => 0
  | .node _ l _ _ r => l.size + r.size + 1

/-- What is left to do (for termination only). -/
def work (stack : List Entry) : Nat := (stack.map fun e => 2 * e.right.size + 1).sum

theorem work_mark (i : Nat) (stack : List Entry) : work (mark i stack) = work stack := by
  unfold work mark
  induction stack generalizing i with
  | nil => simp
  | cons e s ih =>
    cases i with
    | zero => simp [List.modify_cons]
    | succ i => simp [List.modify_cons, ih]

theorem work_append (a b : List Entry) : work (a ++ b) = work a + work b := by simp [work]

theorem work_dropLast {stack : List Entry} {e : Entry} (h : stack.getLast? = some e) :
    work stack = work stack.dropLast + (2 * e.right.size + 1) := by
  obtain ⟨l, rfl⟩ := List.getLast?_eq_some_iff.1 h
  simp [work_append, List.dropLast_concat]; simp [work]

/-- inttree.c:804-833, the loops of `IT_enumerate` at node x with the stack (entry 0 is the sentinel) and
    `currentParent`; the result is the intervals the callback is called with, in order.  Entries above the
    top of the stack are not kept: they are overwritten before they are read. -/
def enumLoop (low high : Int) : Tree → List Entry → Nat → List Iv
  | .node _ l iv _ r, stack, cur =>
    let hit := overlap low high iv.low iv.high
    let stack' := if hit then mark cur stack else stack
    (if hit then [iv] else []) ++
      if l.maxHigh ≥ low then enumLoop low high l (stack' ++ [⟨r, false, cur⟩]) stack'.length
      else enumLoop low high r stack' cur
  | .nil, stack, cur =>
    if 1 < stack.length then
      match h : stack.getLast? with
      | none => []
      | some e =>
        if e.tryRight then enumLoop low high e.right (mark e.parent stack.dropLast) e.parent
        else enumLoop low high .nil stack.dropLast cur
    else []
termination_by x stack => 2 * x.size + work stack
decreasing_by
  · simp only [Tree.size, work_append]
    have : work stack' = work stack := by simp only [stack']; split <;> simp [work_mark]
    simp only [stack'] at this ⊢
    rw [this]; simp [work]; omega
  · have : work stack' = work stack := by simp only [stack']; split <;> simp [work_mark]
    simp only [stack'] at this ⊢
    rw [this]; simp only [Tree.size]; omega
  · have := work_dropLast h
    rw [work_mark]; simp only [Tree.size]; omega
  · have := work_dropLast h
    simp only [Tree.size]; omega

/-- inttree.c:789-838 `IT_enumerate(it, low, high, cbd, callback)`: the intervals the callback gets. -/
def enumerate (t : Tree) (low high : Int) : List Iv := enumLoop low high t [⟨.nil, false, 0⟩] 0

/-- inttree.c:387-395: the leftmost node. -/
def minIv : Tree → Option Iv
  | .nil => none
  | .node _ .nil iv _ _ => some iv
  | .node _ l _ _ _ => minIv l

/-- inttree.c:387-406 `IT_get_successor` of the node x below the frames: up while we are a right child. -/
def upSucc : List Frame → Option Iv
  | [] => none
  | f :: fs => if f.left then some f.iv else upSucc fs

/-- inttree.c:387-406 `IT_get_successor`; none for the nil sentinel. -/
def successor (right : Tree) (path : List Frame) : Option Iv :=
  match right with
  | .nil => upSucc path
  | r => minIv r

/-- inttree.c:426-429: the rightmost node. -/
def maxIv : Tree → Option Iv
  | .nil => none
  | .node _ _ iv _ .nil => some iv
  | .node _ _ _ _ r => maxIv r

/-- inttree.c:431-438: up while we are a left child; at the root sentinel, nil. -/
def upPred : List Frame → Option Iv
  | [] => none
  | f :: fs => if f.left then upPred fs else some f.iv

/-- inttree.c:421-440 `IT_get_predecessor`. -/
def predecessor (left : Tree) (path : List Frame) : Option Iv :=
  match left with
  | .nil => upPred path
  | l => maxIv l

end Verif.Inttree
