import Verif.Expr.Model
/-
Model of the expression parsers: modules/parsers/nasm/nasm-parse.c (parse_expr and below),
modules/parsers/gas/gas-parse.c (parse_expr and below) and modules/preprocs/nasm/nasm-eval.c.

The scanners are not modelled: a parser gets the list of the tokens up to the end of the line (the
current token is the head of the list, the end of the line the empty list).  A parser first gives the
tree of the `yasm_expr_create` calls it makes; `Tree.built` makes these calls, in the same order, with
the model of `yasm_expr_create` in Verif.Expr.  Error messages are not modelled (except that there is one).
Recursion and loops are bounded by a number of steps; running out of steps is a separate outcome that
never happens (theorem `never_stuck`).
-/
namespace Verif.Parse
open Verif.Intnum (Intnum Op createUint createInt)
open Verif.Expr (Item Node M create)

abbrev Name := List (BitVec 8)

/-- nasm-parser.h:57-67, gas-parser.h: the kinds of identifier tokens. -/
inductive IdKind
  | id | localId | nonlocal | special
deriving DecidableEq, Repr

/-- Tokens longer than a character (nasm-parser.h:38-75, nasm.h: TOKEN_SHL ...). -/
inductive Kw
  | shl | shr | signdiv | signmod | wrt | seg | low | high
  | dblOr | dblXor | dblAnd | eq | lt | gt | ne | le | ge
deriving DecidableEq, Repr

/-- A token. -/
inductive Tok
  | chr (c : Char)
  | kw (k : Kw)
  | int (i : Intnum)
  | reg (r : Nat)
  | flt (f : Nat)
  | str (s : List (BitVec 8))
  | ident (k : IdKind) (n : Name)
  | here
  | base
deriving Repr

/-- The `yasm_expr_create` calls of a parser. -/
inductive Tree
  /-- `yasm_expr_create_ident` -/
  | leaf (i : Item)
  /-- `yasm_expr_copy` -/
  | copy (n : Node)
  /-- `yasm_expr_create_branch` -/
  | un (op : Op) (t : Tree)
  /-- `yasm_expr_create_tree` -/
  | bin (op : Op) (l r : Tree)
  /-- an error is reported, and parsing goes on -/
  | noted (t : Tree)
deriving Repr

/-- expr.h:155-190: the calls, made in order. -/
def Tree.built : Tree → M Node
  | .leaf i => create .IDENT i none
  | .copy n => M.pure n
  | .un op t => M.bind t.built fun n => create op n.item none
  | .bin op l r => M.bind l.built fun a => M.bind r.built fun b => create op a.item (some b.item)
  | .noted t => t.built

/-- What a parse function returns, with the tokens left. -/
inductive R
  | ok (t : Tree) (rest : List Tok)
  | null
  | stuck
deriving Repr

/-- Apply a constructor to the tree. -/
def R.map (f : Tree → Tree) : R → R
  | .ok t rest => .ok (f t) rest
  | .null => .null
  | .stuck => .stuck

/-- nasm-parse.c:1193-1205 (macro `parse_expr_common`), and the same loop written out in the functions
    of all three parsers: as long as the current token is one of the operators, parse another operand. -/
def loop (isop : Tok → Option Op) (right : List Tok → R) : Nat → Tree → List Tok → R
  | 0, _, _ => .stuck
  | _ + 1, e, [] => .ok e []
  | n + 1, e, t :: rest =>
    match isop t with
    | none => .ok e (t :: rest)
    | some op =>
      match right rest with
      | .ok f rest' => loop isop right n (.bin op e f) rest'
      | .null => .null
      | .stuck => .stuck

/-- nasm-parse.c:1186-1207 `parse_expr_common`: first operand, then the loop. -/
def level (n : Nat) (left : List Tok → R) (isop : Tok → Option Op) (right : List Tok → R) (toks : List Tok) : R :=
  match left toks with
  | .ok e rest => loop isop right n e rest
  | .null => .null
  | .stuck => .stuck

/-- The test of a loop for one token and the operator given to `p_expr_new_tree`. -/
def one (c : Char) (op : Op) : Tok → Option Op
  | .chr d => if d = c then some op else none
  | _ => none

/-! ### nasm-parse.c -/

/-- nasm-parse.c:35-39 `expr_type`. -/
inductive Kind
  | norm | dir | dv
deriving DecidableEq, Repr

/-- What the primary expressions refer to: the symbol for a name (`yasm_symtab_use`), special symbols
    of the object format, the position and start of an absolute section, the symbols made for `$` and
    `$$`, and the value of a character constant. -/
structure Ctx where
  use : Name → Nat
  special : Name → Option Nat
  abspos : Option Node
  absstart : Option Node
  here : Nat
  base : Nat
  charconst : List (BitVec 8) → Intnum

/-- nasm-parse.c:1225. -/
def isWrt : Tok → Option Op
  | .kw .wrt => some .WRT
  | _ => none

/-- nasm-parse.c:1255, 1267-1270. -/
def isShift : Tok → Option Op
  | .kw .shl => some .SHL
  | .kw .shr => some .SHR
  | _ => none

/-- nasm-parse.c:1283, 1295-1298. -/
def isAdd : Tok → Option Op
  | .chr '+' => some .ADD
  | .chr '-' => some .SUB
  | _ => none

/-- nasm-parse.c:1311-1312, 1324-1330. -/
def isMul : Tok → Option Op
  | .chr '*' => some .MUL
  | .chr '/' => some .DIV
  | .chr '%' => some .MOD
  | .kw .signdiv => some .SIGNDIV
  | .kw .signmod => some .SIGNMOD
  | _ => none

section
variable (n : Nat) (e6 : List Tok → R)

/-- nasm-parse.c:1303-1332 `parse_expr5`; `e6` is `parse_expr6`. -/
def expr5 : List Tok → R := level n e6 isMul e6
/-- nasm-parse.c:1275-1301 `parse_expr4`. -/
def expr4 : List Tok → R := level n (expr5 n e6) isAdd (expr5 n e6)
/-- nasm-parse.c:1247-1273 `parse_expr3`. -/
def expr3 : List Tok → R := level n (expr4 n e6) isShift (expr4 n e6)
/-- nasm-parse.c:1241-1244 `parse_expr2`. -/
def expr2 : List Tok → R := level n (expr3 n e6) (one '&' .AND) (expr3 n e6)
/-- nasm-parse.c:1235-1238 `parse_expr1`. -/
def expr1 : List Tok → R := level n (expr2 n e6) (one '^' .XOR) (expr2 n e6)
/-- nasm-parse.c:1229-1232 `parse_expr0`. -/
def expr0 : List Tok → R := level n (expr1 n e6) (one '|' .OR) (expr1 n e6)
/-- nasm-parse.c:1223-1226 `parse_bexpr`. -/
def bexpr : List Tok → R := level n (expr0 n e6) isWrt e6
/-- nasm-parse.c:1209-1220 `parse_expr`. -/
def expr (ty : Kind) : List Tok → R :=
  if ty = .dir then expr0 n e6 else level n (bexpr n e6) (one ':' .SEGOFF) (bexpr n e6)
end

/-- An integer leaf. -/
def number (i : Intnum) : Tree := .leaf (.int i)

/-- nasm-parse.c:1358-1359: LOW. -/
def lowTree (t : Tree) : Tree := .bin .AND t (number (createUint 0xff#64))
/-- nasm-parse.c:1368-1373: HIGH. -/
def highTree (t : Tree) : Tree :=
  .bin .AND (.bin .SHR t (number (createUint 8#64))) (number (createUint 0xff#64))

/-- nasm-parse.c:1399-1412, 1414-1485: the primary expressions that are one token. -/
def primary (c : Ctx) (ty : Kind) : Tok → Option Tree
  | .int i => some (number i)
  | .reg r => if ty = .dv then none else some (.leaf (.reg r))
  | .ident .id n => some (.leaf (.sym (c.use n)))
  | .flt f => if ty = .dir then none else some (.leaf (.flt false f))
  | .str s => if ty = .dir then none else some (number (c.charconst s))
  | .ident .special n => if ty = .dir then none
    else some (.leaf (.sym ((c.special (n.drop 2)).getD (c.use n))))
  | .ident _ n => if ty = .dir then none else some (.leaf (.sym (c.use n)))
  | .here => if ty = .dir then none
    else some (match c.abspos with | some e => .copy e | none => .leaf (.sym c.here))
  | .base => if ty = .dir then none
    else some (match c.absstart with | some e => .copy e | none => .leaf (.sym c.base))
  | _ => none

/-- nasm-parse.c:1335-1488 `parse_expr6`. -/
def expr6 (c : Ctx) (ty : Kind) : Nat → List Tok → R
  | 0, _ => .stuck
  | _ + 1, [] => .null
  | n + 1, t :: rest =>
    match t with
    | .chr '+' => expr6 c ty n rest
    | .chr '-' => (expr6 c ty n rest).map (.un .NEG)
    | .chr '~' => (expr6 c ty n rest).map (.un .NOT)
    | .kw .low => (expr6 c ty n rest).map lowTree
    | .kw .high => (expr6 c ty n rest).map highTree
    | .kw .seg => (expr6 c ty n rest).map (.un .SEG)
    | .chr '(' =>
      match expr n (expr6 c ty n) ty rest with
      | .ok e (.chr ')' :: rest') => .ok e rest'
      | .ok _ _ => .null
      | .null => .null
      | .stuck => .stuck
    | t => match primary c ty t with
      | some e => .ok e rest
      | none => .null

/-- nasm-parse.c:1209-1220 `parse_expr`, called from outside. -/
def nasmExpr (c : Ctx) (ty : Kind) (toks : List Tok) : R :=
  expr (toks.length + 1) (expr6 c ty (toks.length + 1)) ty toks

/-- nasm-parse.c:1223-1226 `parse_bexpr`, called from outside (operands and memory addresses). -/
def nasmBexpr (c : Ctx) (toks : List Tok) : R :=
  bexpr (toks.length + 1) (expr6 c .norm (toks.length + 1)) toks

/-! ### nasm-eval.c -/

/-- nasm-eval.c:141-142, 153-172. -/
def isRel : Tok → Option Op
  | .kw .eq => some .EQ
  | .kw .lt => some .LT
  | .kw .gt => some .GT
  | .kw .ne => some .NE
  | .kw .le => some .LE
  | .kw .ge => some .GE
  | _ => none

/-- nasm-eval.c:82. -/
def isLor : Tok → Option Op
  | .kw .dblOr => some .LOR
  | _ => none
/-- nasm-eval.c:104. -/
def isLxor : Tok → Option Op
  | .kw .dblXor => some .LXOR
  | _ => none
/-- nasm-eval.c:125. -/
def isLand : Tok → Option Op
  | .kw .dblAnd => some .LAND
  | _ => none

section
variable (n : Nat) (e6 : List Tok → R)

/-- nasm-eval.c:133-176 `rexp3`.  Its `expr0` to `expr5` (178-334) are the loops of nasm-parse.c. -/
def rexp3 : List Tok → R := level n (expr0 n e6) isRel (expr0 n e6)
/-- nasm-eval.c:113-131 `rexp2`. -/
def rexp2 : List Tok → R := level n (rexp3 n e6) isLand (rexp3 n e6)
/-- nasm-eval.c:93-111 `rexp1`. -/
def rexp1 : List Tok → R := level n (rexp2 n e6) isLxor (rexp2 n e6)
/-- nasm-eval.c:71-91 `rexp0`. -/
def rexp0 : List Tok → R := level n (rexp1 n e6) isLor (rexp1 n e6)
/-- nasm-eval.c:69, 424-428: `bexpr`: with relational operators or without. -/
def ppBexpr (crit : Bool) : List Tok → R := if crit then rexp0 n e6 else expr0 n e6
end

/-- nasm-eval.c:369-414: the primary expressions that are one token.  `find` looks a name up in the
    symbol table (`yasm_symtab_get`), if there is one. -/
def ppPrimary (find : Option (Name → Option Nat)) : Tok → Option Tree
  | .int i => some (number i)
  | .ident .id n =>
    match find with
    | none => some (.noted (number (createInt 1#64)))
    | some f =>
      match f n with
      | some s => some (.leaf (.sym s))
      | none => some (.noted (number (createInt 1#64)))
  | .here => some (.noted (number (createInt 1#64)))
  | .base => some (.noted (number (createInt 1#64)))
  | _ => none

/-- nasm-eval.c:336-418 `expr6`. -/
def ppExpr6 (find : Option (Name → Option Nat)) (crit : Bool) : Nat → List Tok → R
  | 0, _ => .stuck
  | _ + 1, [] => .null
  | n + 1, t :: rest =>
    match t with
    | .chr '-' => (ppExpr6 find crit n rest).map (.un .NEG)
    | .chr '+' => ppExpr6 find crit n rest
    | .chr '~' => (ppExpr6 find crit n rest).map (.un .NOT)
    | .kw .seg => (ppExpr6 find crit n rest).map .noted
    | .chr '(' =>
      match ppBexpr n (ppExpr6 find crit n) crit rest with
      | .ok e (.chr ')' :: rest') => .ok e rest'
      | .ok _ _ => .null
      | .null => .null
      | .stuck => .stuck
    | t => match ppPrimary find t with
      | some e => .ok e rest
      | none => .null

/-- nasm-eval.c:420-441 `nasm_evaluate`. -/
def ppExpr (find : Option (Name → Option Nat)) (crit : Bool) (toks : List Tok) : R :=
  ppBexpr (toks.length + 1) (ppExpr6 find crit (toks.length + 1)) crit toks

/-! ### gas-parse.c -/

/-- gas-parse.c:1367, 1376-1381. -/
def isBit : Tok → Option Op
  | .chr '|' => some .OR
  | .chr '^' => some .XOR
  | .chr '&' => some .AND
  | .chr '!' => some .NOR
  | _ => none

/-- gas-parse.c:1394-1395, 1404-1410. -/
def isMulShift : Tok → Option Op
  | .chr '*' => some .MUL
  | .chr '/' => some .DIV
  | .chr '%' => some .MOD
  | .kw .shl => some .SHL
  | .kw .shr => some .SHR
  | _ => none

section
variable (n : Nat) (e2 : List Tok → R)

/-- gas-parse.c:1387-1413 `parse_expr1`; `e2` is `parse_expr2`. -/
def gasExpr1 : List Tok → R := level n e2 isMulShift e2
/-- gas-parse.c:1360-1384 `parse_expr0`. -/
def gasExpr0 : List Tok → R := level n (gasExpr1 n e2) isBit (gasExpr1 n e2)
/-- gas-parse.c:1335-1357 `parse_expr`. -/
def gasParse : List Tok → R := level n (gasExpr0 n e2) isAdd (gasExpr0 n e2)
end

/-- gas-parse.c:1462-1472: the symbol of an identifier: `.` is the current position. -/
def gasSym (c : Ctx) (n : Name) : Nat := if n = [0x2e#8] then c.here else c.use n

/-- gas-parse.c:1457-1498: an identifier, perhaps with `@` and another one. -/
def gasIdent (c : Ctx) (n : Name) : List Tok → R
  | .chr '@' :: rest =>
    match rest with
    | .ident _ w :: rest' =>
      match c.special w with
      | some s => .ok (.bin .WRT (.leaf (.sym (gasSym c n))) (.leaf (.sym s))) rest'
      | none => .ok (.leaf (.sym (gasSym c n))) rest'
    | _ => .null
  | rest => .ok (.leaf (.sym (gasSym c n))) rest

/-- gas-parse.c:1416-1502 `parse_expr2`. -/
def gasExpr2 (c : Ctx) : Nat → List Tok → R
  | 0, _ => .stuck
  | _ + 1, [] => .null
  | n + 1, t :: rest =>
    match t with
    | .chr '+' => gasExpr2 c n rest
    | .chr '-' => (gasExpr2 c n rest).map (.un .NEG)
    | .chr '~' => (gasExpr2 c n rest).map (.un .NOT)
    | .chr '(' =>
      match gasParse n (gasExpr2 c n) rest with
      | .ok e (.chr ')' :: rest') => .ok e rest'
      | .ok _ _ => .null
      | .null => .null
      | .stuck => .stuck
    | .int i => .ok (number i) rest
    | .flt f => .ok (.leaf (.flt false f)) rest
    | .ident _ n => gasIdent c n rest
    | _ => .null

/-- gas-parse.c:1335-1357 `parse_expr`, called from outside. -/
def gasExpr (c : Ctx) (toks : List Tok) : R :=
  gasParse (toks.length + 1) (gasExpr2 c (toks.length + 1)) toks

end Verif.Parse
