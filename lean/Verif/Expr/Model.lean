import Verif.Intnum.Model
/-
Model of libyasm/expr.c: expression trees and their simplification.

An expression is a tree; the C code's in-place updates of a node's `terms` array become list functions.
What the model keeps of memory management is the one place where it goes wrong: the deletion loop of
`expr_simplify_identity` (`tailFault`, `Fault`).  Line numbers, reallocation and the item pool used
while parsing are not modelled.  `fold_const` and `simplify_ident` are 1 in every call in the library
(expr.c:121, expr.c:223 of expr.h, value.c:465,546, insn.c:256,274, x86expr.c:274,309, bin-objfmt.c:677,
954), so they are not parameters.  Floating-point numbers are leaves that only know how to change sign.
-/
namespace Verif.Expr
open Verif.Intnum

/-- expr.h:105-121, coretype.h:183-193 `yasm_expr__item`: a term of an expression. -/
inductive Item where
  | none
  | reg (r : Nat)
  | int (i : Intnum)
  | subst (n : Nat)
  | flt (neg : Bool) (id : Nat)
  | sym (s : Nat)
  | precbc (b : Nat)
  | expr (op : Op) (terms : List Item)
  deriving Repr

/-- expr.h:124-132 `struct yasm_expr` (without the line number): operator and terms. -/
structure Node where
  op : Op
  terms : List Item
  deriving Repr

/-- A node used as a term (`yasm_expr_expr`, expr.c:159-166). -/
def Node.item (n : Node) : Item := .expr n.op n.terms

/-- Ways the memory management of expr.c fails. -/
inductive Fault where
  /-- `yasm_intnum_destroy(NULL)` -/
  | nullDeref
  /-- a subexpression or float is destroyed twice -/
  | doubleFree
  /-- the deletion loop runs past the reallocated term array -/
  | outOfBounds
  /-- a term array slot is overwritten before it is read (expr.c:745-787) -/
  | corrupt
  /-- the model's recursion bound was too small (never happens, see `Verif.Expr.Props`) -/
  | fuel
  deriving DecidableEq, Repr

/-- A call of `yasm_intnum_calc` with two operands made while folding constants. -/
structure Call where
  op : Op
  acc : Intnum
  operand : Intnum
  deriving DecidableEq, Repr

/-- The new accumulator after a call.  The previous content of the static result vector only matters for
    SEG, WRT and ':' (`Verif.Intnum.seg_stale`), which are never folded (expr.c:632-633). -/
def Call.result (c : Call) : Intnum := (intCalc 0#256 c.acc c.op (some c.operand)).acc
/-- The error a call sets. -/
def Call.err (c : Call) : Option Err := (intCalc 0#256 c.acc c.op (some c.operand)).err

/-- A computation that folds constants: the calls it makes and how it ends. -/
structure M (α : Type) where
  log : List Call
  out : Except Fault α

/-- Return without folding anything. -/
def M.pure {α : Type} (a : α) : M α := ⟨[], .ok a⟩
/-- Run one computation after another; a fault ends the program. -/
def M.bind {α β : Type} (x : M α) (f : α → M β) : M β :=
  match x.out with
  | .ok a => ⟨x.log ++ (f a).log, (f a).out⟩
  | .error e => ⟨x.log, .error e⟩

/-- coretype.h: `op > YASM_EXPR_NONNUM`. -/
def nonnum : Op → Bool
  | .SEG | .WRT | .SEGOFF => true
  | _ => false

/-- expr.c:704-707: operators that may have more than two terms. -/
def multi : Op → Bool
  | .ADD | .MUL | .OR | .AND | .LOR | .LAND | .LXOR | .XOR => true
  | _ => false

/-- Is the term an integer? -/
def Item.isInt : Item → Bool
  | .int _ => true
  | _ => false

/-- The number of an integer term. -/
def Item.int? : Item → Option Intnum
  | .int i => some i
  | _ => Option.none

mutual
/-- expr.c:1047-1058, 1126-1147 `yasm_expr__contains(e, YASM_EXPR_FLOAT)`, on a term. -/
def hasFlt : Item → Bool
  | .flt _ _ => true
  | .expr _ ts => hasFltL ts
  | _ => false
/-- The loop over the terms. -/
def hasFltL : List Item → Bool
  | [] => false
  | t :: ts => hasFlt t || hasFltL ts
end

mutual
/-- expr.c:1047-1058, 1126-1147 `yasm_expr__contains(e, YASM_EXPR_REG)`, on a term. -/
def hasReg : Item → Bool
  | .reg _ => true
  | .expr _ ts => hasRegL ts
  | _ => false
/-- The loop over the terms. -/
def hasRegL : List Item → Bool
  | [] => false
  | t :: ts => hasReg t || hasRegL ts
end

/-- intnum.c: `yasm_intnum_calc(i, op, NULL)` for the unary operators. -/
def calcUnary (op : Op) (i : Intnum) : Intnum := (intCalc 0#256 i op Option.none).acc

/-- intnum.c:325 `yasm_intnum_create_int(-1)`. -/
def minusOne : Item := .int (createInt (-1#64))

mutual
/-- expr.c:386-449 `expr_xform_neg_helper` (on subexpressions) and expr.c:361-378 `expr_xform_neg_item`
    (on the other terms).  Line 425: the result of the recursive call is dropped, so that the
    negation is lost when that call had to allocate a new node. -/
def neg : Item → Item
  | .expr .ADD ts => .expr .ADD (negL ts)
  | .expr .SUB ts => .expr .ADD (negHead ts)
  | .expr .NEG ts => .expr .IDENT ts
  | .expr .IDENT ts => negIdent ts
  | .expr op ts => .expr .MUL [minusOne, .expr op ts]
  | t => .expr .MUL [minusOne, t]
/-- expr.c:393-401: negate every term. -/
def negL : List Item → List Item
  | [] => []
  | t :: ts => neg t :: negL ts
/-- expr.c:403-410: negate the first term. -/
def negHead : List Item → List Item
  | [] => []
  | t :: ts => neg t :: ts
/-- expr.c:415-432: the IDENT case. -/
def negIdent : List Item → Item
  | .flt s f :: ts => .expr .IDENT (.flt (!s) f :: ts)
  | .int i :: ts => .expr .IDENT (.int (calcUnary .NEG i) :: ts)
  | t :: ts =>
    match t with
    | .expr op us =>
      if hasFltL us then
        -- in place where the callee works in place, otherwise (default case) no effect
        match op with
        | .ADD | .SUB | .NEG | .IDENT => .expr .IDENT (neg t :: ts)
        | _ => .expr .IDENT (t :: ts)
      else .expr .MUL [t, minusOne]
    | _ => .expr .MUL [t, minusOne]
  | [] => .expr .MUL []
end

/-- expr.c:459-483 `expr_xform_neg`.  (Subtractions always have two terms; others are left alone here.) -/
def xformNeg (op : Op) (ts : List Item) : Item :=
  match op, ts with
  | .NEG, ts => negIdent ts
  | .SUB, [a, b] => .expr .ADD [a, neg b]
  | op, ts => .expr op ts

mutual
/-- expr.c:643-648: bring up IDENTs: while the term is an IDENT subexpression, take its first term. -/
def bringUp : Item → Item
  | .expr .IDENT ts => bringUpHead ts
  | t => t
/-- The first term of the IDENT. -/
def bringUpHead : List Item → Item
  | [] => .expr .IDENT []
  | t :: _ => bringUp t
end

mutual
/-- expr.c:625-629: while the expression is an IDENT of a subexpression, take the subexpression. -/
def stripTop : Item → Item
  | .expr .IDENT ts => stripHead ts
  | t => t
/-- The first term of the IDENT. -/
def stripHead : List Item → Item
  | .expr op us :: _ => stripTop (.expr op us)
  | ts => .expr .IDENT ts
end

/-- expr.c:488-496 `expr_is_constant`. -/
def isConstant (op : Op) (i : Intnum) : Bool :=
  (isZero i && op == .MUL) || (isZero i && op == .AND) || (isZero i && op == .LAND) ||
    (isNeg1 i && op == .OR)

/-- expr.c:499-509 `expr_can_destroy_int_left`. -/
def destroyLeft (op : Op) (i : Intnum) : Bool :=
  (isPos1 i && op == .MUL) || (isZero i && op == .ADD) || (isNeg1 i && op == .AND) ||
    (!isZero i && op == .LAND) || (isZero i && op == .OR) || (isZero i && op == .LOR)

/-- expr.c:512-527 `expr_can_destroy_int_right`. -/
def destroyRight (op : Op) (i : Intnum) : Bool :=
  (isPos1 i && op == .MUL) || (isPos1 i && op == .DIV) || (isZero i && op == .ADD) ||
    (isZero i && op == .SUB) || (isNeg1 i && op == .AND) || (!isZero i && op == .LAND) ||
    (isZero i && op == .OR) || (isZero i && op == .LOR) || (isZero i && op == .SHL) ||
    (isZero i && op == .SHR)

/-- The terms of a node whose integers have been combined: no integer (`first_int_term == -1`), or one
    integer with the terms before and after it. -/
inductive Terms where
  | plain (ts : List Item)
  | withInt (pre : List Item) (i : Intnum) (post : List Item)

/-- All terms in order. -/
def Terms.list : Terms → List Item
  | .plain ts => ts
  | .withInt pre i post => pre ++ .int i :: post

/-- expr.c:536-604 `expr_simplify_identity(e, numterms, &int_term, simplify_reg_mul)` for a node with
    operator `op` and terms `pre ++ [i] ++ post`; `del` is what goes wrong in the deletion loop 573-576,
    if it is reached. -/
def simpId (regmul : Bool) (op : Op) (pre : List Item) (i : Intnum) (post : List Item)
    (del : Option Fault) : Except Fault (Op × Terms) :=
  let n := pre.length + 1 + post.length
  if (regmul || op != .MUL || !isPos1 i || !(hasRegL pre || hasRegL post)) &&
      ((pre.isEmpty && decide (n > 1) && destroyLeft op i) || (!pre.isEmpty && destroyRight op i)) then
    .ok (if n - 1 = 1 then .IDENT else op, .plain (pre ++ post))
  else if n > 1 ∧ isConstant op i = true then
    match del with
    | some f => .error f
    | Option.none => .ok (.IDENT, .withInt [] i [])
  else if n = 1 then
    .ok (.IDENT, .withInt [] (if unary op then calcUnary op i else i) [])
  else .ok (op, .withInt pre i post)

/-- expr.c:670-673: split a term list at its first integer. -/
def splitInt : List Item → Option (List Item × Intnum × List Item)
  | [] => Option.none
  | .int i :: ts => some ([], i, ts)
  | t :: ts => (splitInt ts).map fun r => (t :: r.1, r.2)

/-- expr.c:684-686: fold integers into the accumulator one after another. -/
def foldInts (op : Op) (a : Intnum) : List Intnum → Intnum × List Call
  | [] => (a, [])
  | b :: bs =>
    let c : Call := ⟨op, a, b⟩
    let r := foldInts op c.result bs
    (r.1, c :: r.2)

/-- expr.c:573-576: the deletion loop runs over the old number of terms.  The slots past the new number
    hold integers already destroyed (NULL) and second copies of terms that moved down. -/
def tailFault : List Item → Option Fault
  | [] => Option.none
  | .int _ :: _ => some .nullDeref
  | .expr _ _ :: _ => some .doubleFree
  | .flt _ _ :: _ => some .doubleFree
  | _ :: ts => tailFault ts

/-- The terms of a subexpression with the same operator. -/
def sameOp (op : Op) : Item → Option (List Item)
  | .expr o us => if o = op then some us else Option.none
  | _ => Option.none

/-- expr.c:650-655: the number of terms leveling adds. -/
def levelExtra (op : Op) : List Item → Int
  | [] => 0
  | t :: ts => (match sameOp op t with | some us => (us.length : Int) - 1 | Option.none => 0) + levelExtra op ts

/-- expr.c:742-787: bring up the terms of subexpressions with the same operator. -/
def flat (op : Op) : List Item → List Item
  | [] => []
  | t :: ts => (match sameOp op t with | some us => us | Option.none => [t]) ++ flat op ts

/-- Does some subexpression with the same operator consist of integers only?  Then expr.c:742-787
    overwrites slots it has not read yet. -/
def allIntKid (op : Op) : List Item → Bool
  | [] => false
  | t :: ts => (match sameOp op t with | some us => us.all Item.isInt | Option.none => false) || allIntKid op ts

/-- Split a list of terms at its last integer. -/
def splitLastInt (ts : List Item) : Option (List Item × Intnum × List Item) :=
  (splitInt ts.reverse).map fun r => (r.2.2.reverse, r.2.1, r.1.reverse)

/-- The integers among the terms. -/
def ints (ts : List Item) : List Intnum := ts.filterMap Item.int?
/-- The other terms. -/
def nonInts (ts : List Item) : List Item := ts.filter fun t => !t.isInt

/-- expr.c:757-770, 790-798: fold the integers brought up into the node's integer and simplify identities.
    `old` is the node's `numterms`, over which the deletion loop runs. -/
def levelGo (regmul : Bool) (op : Op) (old : Nat) (pre : List Item) (i : Intnum) (post : List Item)
    (folded : List Intnum) : M Node :=
  let r := foldInts op i folded
  let n := pre.length + 1 + post.length
  ⟨r.2, (simpId regmul op pre r.1 post (if n < old then some .outOfBounds else Option.none)).map
    fun s => ⟨s.1, s.2.list⟩⟩

/-- expr.c:737-798: level a node: bring up terms, right to left, folding the integers found into the
    node's own integer, or if it has none into the rightmost one.  `old` is the node's `numterms`. -/
def levelUp (regmul : Bool) (op : Op) (fold : Bool) (old : Nat) (ts : Terms) : M Node :=
  if fold then
    if allIntKid op ts.list then ⟨[], .error .corrupt⟩
    else
      match ts with
      | .withInt pre i post =>
        levelGo regmul op old (nonInts (flat op pre)) i (nonInts (flat op post))
          ((ints (flat op pre)) ++ (ints (flat op post))).reverse
      | .plain ts =>
        match splitLastInt (flat op ts) with
        | some (pre, i, post) => levelGo regmul op old (nonInts pre) i post (ints pre).reverse
        | Option.none => M.pure ⟨op, flat op ts⟩
  else M.pure ⟨op, flat op ts.list⟩

/-- expr.c:704-717: level only where it is allowed and brings something up. -/
def levelTail (regmul : Bool) (op : Op) (fold : Bool) (old : Nat) (extra : Int) (ts : Terms) : M Node :=
  if multi op = true ∧ extra > 0 then levelUp regmul op fold old ts
  else M.pure ⟨op, ts.list⟩

/-- expr.c:632-798: `expr_level_op` after the initial loop. -/
def levelNode (regmul : Bool) (op : Op) (ts0 : List Item) : M Node :=
  let ts := ts0.map bringUp
  let extra := levelExtra op ts
  let fold := !nonnum op
  match (if fold then splitInt ts else Option.none) with
  | Option.none => levelTail regmul op fold ts.length extra (.plain ts)
  | some (pre, i, post) =>
    let r := foldInts op i (ints post)
    let post' := nonInts post
    let tail := ts.drop (pre.length + 1 + post'.length)
    match simpId regmul op pre r.1 post' (tailFault tail) with
    | .error f => ⟨r.2, .error f⟩
    | .ok (op', ts') =>
      let t := levelTail regmul op' fold ts.length extra ts'
      ⟨r.2 ++ t.log, t.out⟩

/-- expr.c:617-801 `expr_level_op(e, 1, 1, simplify_reg_mul)`. -/
def levelOp (regmul : Bool) (e : Node) : M Node :=
  match stripTop e.item with
  | .expr op ts => levelNode regmul op ts
  | _ => M.pure e

/-- expr.c:870-878: SEG of SEG:OFF is the segment. -/
def segSimp (op : Op) (ts : List Item) : Node :=
  match op, ts with
  | .SEG, .expr .SEGOFF (a :: _) :: ts => ⟨.IDENT, .expr .IDENT [a] :: ts⟩
  | op, ts => ⟨op, ts⟩

/-- expr.c:859-866: recurse into the subexpressions. -/
def levelKids (f : Node → M Node) : List Item → M (List Item)
  | [] => M.pure []
  | .expr op us :: ts =>
    (f ⟨op, us⟩).bind fun n => (levelKids f ts).bind fun r => M.pure (n.item :: r)
  | t :: ts => (levelKids f ts).bind fun r => M.pure (t :: r)

/-- expr.c:850-891 `expr_level_tree`; `post` is the part 882-889 done after leveling each node. -/
def levelTree (regmul : Bool) (post : Node → M Node) : Nat → Node → M Node
  | 0, _ => ⟨[], .error .fuel⟩
  | k + 1, e =>
    match xformNeg e.op e.terms with
    | .expr op ts =>
      (levelKids (levelTree regmul post k) ts).bind fun ts' =>
        (levelOp regmul (segSimp op ts')).bind post
    | _ => ⟨[], .error .fuel⟩

mutual
/-- Recursion bound for `levelTree`: nesting depth, where the operators that `expr_xform_neg` rewrites
    count twice. -/
def height : Item → Nat
  | .expr op ts => (match op with | .SUB => 2 | .NEG => 2 | _ => 1) + heightL ts
  | _ => 0
/-- Greatest depth of the terms. -/
def heightL : List Item → Nat
  | [] => 0
  | t :: ts => max (height t) (heightL ts)
end

/-- `expr_level_tree(e, 1, 1, simplify_reg_mul, 0, NULL, NULL)`. -/
def levelPlain (regmul : Bool) (e : Node) : M Node := levelTree regmul M.pure (height e.item) e

/-- What an expression refers to: EQU definitions (symrec.c:539 `yasm_symrec_get_equ`), labels
    (symrec.c:547 `yasm_symrec_get_label`), and for each bytecode its section and the offset of its
    end (bytecode.c:219 `yasm_bc_next_offset`). -/
structure Ctx where
  equ : Nat → Option Node
  label : Nat → Option Nat
  sect : Nat → Nat
  next : Nat → BitVec 64

/-- bytecode.c:199-217 `yasm_calc_bc_dist`. -/
def calcBcDist (c : Ctx) (p1 p2 : Nat) : Option Intnum :=
  if c.sect p1 ≠ c.sect p2 then Option.none
  else if (c.next p2).ult (c.next p1) then some (calcUnary .NEG (createUint (c.next p1 - c.next p2)))
  else some (createUint (c.next p2 - c.next p1))

/-- expr.c:237-264: is the term -1*label or -1*bytecode?  Returns the bytecode. -/
def minusLabel (c : Ctx) : Item → Option Nat
  | .expr .MUL [.int i, .sym s] => if isNeg1 i then c.label s else Option.none
  | .expr .MUL [.int i, .precbc b] => if isNeg1 i then some b else Option.none
  | .expr .MUL [.sym s, .int i] => if isNeg1 i then c.label s else Option.none
  | .expr .MUL [.precbc b, .int i] => if isNeg1 i then some b else Option.none
  | _ => Option.none

/-- expr.c:268-271: the bytecode a label or bytecode term stands for. -/
def plusLabel (c : Ctx) : Item → Option Nat
  | .sym s => c.label s
  | .precbc b => some b
  | _ => Option.none

/-- expr.c:267-281: the first term j in the same section for which the callback succeeds is replaced. -/
def replaceFirst (c : Ctx) (cb : Nat → Nat → Option Item) (p : Nat) : List Item → Option (List Item)
  | [] => Option.none
  | t :: ts =>
    match (plusLabel c t).bind fun q => if c.sect q = c.sect p then cb p q else Option.none with
    | some t' => some (t' :: ts)
    | Option.none => (replaceFirst c cb p ts).map (t :: ·)

/-- expr.c:216-282, one iteration of the loop over i. -/
def distStep (c : Ctx) (cb : Nat → Nat → Option Item) (ts : List Item) (i : Nat) : List Item :=
  match (ts[i]?).bind (minusLabel c) with
  | Option.none => ts
  | some p =>
    match replaceFirst c cb p ts with
    | Option.none => ts
    | some ts' => ts'.set i .none

/-- Is the term a deleted one? -/
def Item.isNone : Item → Bool
  | .none => true
  | _ => false

/-- expr.c:201-293 `expr_xform_bc_dist_base`. -/
def xformDist (c : Ctx) (cb : Nat → Nat → Option Item) (e : Node) : Node :=
  if e.op ≠ .ADD then e
  else
    let ts := ((List.range e.terms.length).foldl (distStep c cb) e.terms).filter fun t => !t.isNone
    ⟨if ts.length ≠ e.terms.length ∧ ts.length = 1 then .IDENT else .ADD, ts⟩

/-- expr.c:295-306 `expr_xform_bc_dist_cb`. -/
def distInt (c : Ctx) (p q : Nat) : Option Item := (calcBcDist c p q).map .int

/-- expr.c:882-889 with `calc_bc_dist` set. -/
def distPost (c : Ctx) (regmul : Bool) (e : Node) : M Node :=
  levelPlain regmul (xformDist c (distInt c) e)

mutual
/-- expr.c:810-848 `expr_expand_equ`, for one term; `onEqu s` is the expansion of the EQU symbol `s`
    (`none` for other symbols), `Except` carries the circular reference report.  The flag returned says
    whether the enclosing loop stops here. -/
def expandItem (onEqu : Nat → Option (Item × Bool × Bool)) : Item → Item × Bool × Bool
  | .sym s => match onEqu s with
    | Option.none => (.sym s, false, false)
    | some r => r
  | .expr op ts => let r := expandItems onEqu ts; (.expr op r.1, r.2, false)
  | t => (t, false, false)
/-- The loop over the terms: new terms and whether an error was set.  When a circular reference is found
    among the terms of this node the remaining terms are left alone (line 831). -/
def expandItems (onEqu : Nat → Option (Item × Bool × Bool)) : List Item → List Item × Bool
  | [] => ([], false)
  | t :: ts =>
    let r := expandItem onEqu t
    if r.2.2 then (r.1 :: ts, true)
    else
      let rs := expandItems onEqu ts
      (r.1 :: rs.1, r.2.1 || rs.2)
end

/-- expr.c:819-842: an EQU symbol is replaced by a copy of its definition, in which EQUs are expanded in
    turn, unless the definition is being expanded already (`seen`).  Two symbols never share the
    definition's address, so the symbol identifies it.  Result: replacement, error set, stop. `k` bounds
    the depth. -/
def onEqu (c : Ctx) : Nat → List Nat → Nat → Option (Item × Bool × Bool)
  | 0, _, _ => Option.none
  | k + 1, seen, s =>
    match c.equ s with
    | Option.none => Option.none
    | some d =>
      if s ∈ seen then some (.sym s, true, true)
      else
        let r := expandItems (onEqu c k (s :: seen)) d.terms
        some (.expr d.op r.1, r.2, false)

/-- expr.c:904 `expr_expand_equ(e, &eh)` with an empty list; `k` is larger than the number of EQU symbols.
    Result: expression and whether "circular reference detected" was set. -/
def expandEqu (c : Ctx) (k : Nat) (e : Node) : Node × Bool :=
  let r := expandItems (onEqu c k []) e.terms
  (⟨e.op, r.1⟩, r.2)

/-- expr.c:893-911 `yasm_expr__level_tree(e, 1, 1, simplify_reg_mul, calc_bc_dist, NULL, NULL)`. -/
def simplify (c : Ctx) (nequ : Nat) (regmul dist : Bool) (e : Node) : M Node :=
  let e' := (expandEqu c (nequ + 1) e).1
  levelTree regmul (if dist then distPost c regmul else M.pure) (height e'.item) e'

/-- expr.c:1262-1271 `yasm_expr_get_intnum(ep, calc_bc_dist)`: the number if the expression simplified to
    one. -/
def getIntnum (c : Ctx) (nequ : Nat) (dist : Bool) (e : Node) : M (Option Intnum) :=
  (simplify c nequ true dist e).bind fun n => M.pure <|
    match n.op, n.terms with
    | .IDENT, .int i :: _ => some i
    | _, _ => Option.none

/-- expr.c:63-122 `yasm_expr_create(op, left, right, line)`, with `right` absent for unary operators. -/
def create (op : Op) (left : Item) (right : Option Item) : M Node :=
  levelOp false ⟨op, bringUp left :: (right.map bringUp).toList⟩

end Verif.Expr
