import Verif.Parse.Model
import Verif.Expr.Spec
/-
Specification of the expression languages: grammars given by a table of binary operators with their
precedences, prefix operators, and primary expressions; and the value of an expression.
-/
namespace Verif.Parse
open Verif.Intnum (Intnum Op createUint createInt)
open Verif.Expr (Item Node Word Env opVal)

/-- An expression language.  Level 0 binds least; `top` is the level of prefix operators, parentheses
    and primary expressions.  All binary operators group to the left. -/
structure Grammar where
  /-- the operator a token stands for, among those of a level -/
  ops : Nat → Tok → Option Op
  /-- the level of the operand to the right of an operator -/
  right : Nat → Nat
  top : Nat
  /-- the level of what can be in parentheses -/
  start : Nat
  /-- prefix operators -/
  pre : Tok → Option (Tree → Tree)
  /-- primary expressions -/
  atom : List Tok → Option Tree

/-- These tokens are an expression of that level, and this is its structure. -/
inductive Grammar.Derives (g : Grammar) : Nat → List Tok → Tree → Prop
  | up {k : Nat} {l : List Tok} {e : Tree} : k < g.top → g.Derives (k + 1) l e → g.Derives k l e
  | bin {k : Nat} {l r : List Tok} {t : Tok} {op : Op} {a b : Tree} : k < g.top → g.ops k t = some op →
      g.Derives k l a → g.Derives (g.right k) r b → g.Derives k (l ++ t :: r) (.bin op a b)
  | pre {t : Tok} {f : Tree → Tree} {r : List Tok} {e : Tree} : g.pre t = some f →
      g.Derives g.top r e → g.Derives g.top (t :: r) (f e)
  | paren {l : List Tok} {e : Tree} : g.Derives g.start l e →
      g.Derives g.top (.chr '(' :: l ++ [.chr ')']) e
  | atom {l : List Tok} {e : Tree} : g.atom l = some e → g.Derives g.top l e

/-- The binary operators of NASM by precedence, as in the manual: `:` (segment:offset), WRT, `|`, `^`,
    `&`, shifts, `+` and `-`, then multiplication and division. -/
def nasmOps : Nat → Tok → Option Op
  | 0, .chr ':' => some .SEGOFF
  | 1, .kw .wrt => some .WRT
  | 2, .chr '|' => some .OR
  | 3, .chr '^' => some .XOR
  | 4, .chr '&' => some .AND
  | 5, .kw .shl => some .SHL
  | 5, .kw .shr => some .SHR
  | 6, .chr '+' => some .ADD
  | 6, .chr '-' => some .SUB
  | 7, .chr '*' => some .MUL
  | 7, .chr '/' => some .DIV
  | 7, .chr '%' => some .MOD
  | 7, .kw .signdiv => some .SIGNDIV
  | 7, .kw .signmod => some .SIGNMOD
  | _, _ => none

/-- Prefix operators of NASM: `+ - ~ SEG`, and TASM's LOW and HIGH. -/
def nasmPre : Tok → Option (Tree → Tree)
  | .chr '+' => some id
  | .chr '-' => some (.un .NEG)
  | .chr '~' => some (.un .NOT)
  | .kw .seg => some (.un .SEG)
  | .kw .low => some fun t => .bin .AND t (number (createUint 255#64))
  | .kw .high => some fun t => .bin .AND (.bin .SHR t (number (createUint 8#64))) (number (createUint 255#64))
  | _ => none

/-- `$` and `$$` are labels, except in an absolute section. -/
def position (abs : Option Node) (s : Nat) : Tree :=
  match abs with
  | some e => .copy e
  | none => .leaf (.sym s)

/-- Primary expressions of NASM: numbers, registers (not in data), identifiers, and, except in
    directives, floating-point numbers, strings, special symbols, `$` and `$$`. -/
def nasmAtom (c : Ctx) (ty : Kind) : List Tok → Option Tree
  | [.int i] => some (number i)
  | [.reg r] => if ty = .dv then none else some (.leaf (.reg r))
  | [.ident .id n] => some (.leaf (.sym (c.use n)))
  | [t] =>
    if ty = .dir then none
    else match t with
      | .flt f => some (.leaf (.flt false f))
      | .str s => some (number (c.charconst s))
      | .ident .special n => some (.leaf (.sym ((c.special (n.drop 2)).getD (c.use n))))
      | .ident _ n => some (.leaf (.sym (c.use n)))
      | .here => some (position c.abspos c.here)
      | .base => some (position c.absstart c.base)
      | _ => none
  | _ => none

/-- NASM expressions.  The right operand of WRT is a single primary expression; directives know neither
    `:` nor WRT, so that level 2 is what can be in parentheses. -/
def nasm (c : Ctx) (ty : Kind) : Grammar where
  ops := nasmOps
  right k := if k = 1 then 8 else k + 1
  top := 8
  start := if ty = .dir then 2 else 0
  pre := nasmPre
  atom := nasmAtom c ty

/-- The preprocessor's operators by precedence: `||`, `^^`, `&&`, comparisons, and those of NASM. -/
def ppOps : Nat → Tok → Option Op
  | 0, .kw .dblOr => some .LOR
  | 1, .kw .dblXor => some .LXOR
  | 2, .kw .dblAnd => some .LAND
  | 3, .kw .eq => some .EQ
  | 3, .kw .ne => some .NE
  | 3, .kw .lt => some .LT
  | 3, .kw .gt => some .GT
  | 3, .kw .le => some .LE
  | 3, .kw .ge => some .GE
  | k + 4, t => nasmOps (k + 2) t
  | _, _ => none

/-- Prefix operators of the preprocessor; SEG is an error. -/
def ppPre : Tok → Option (Tree → Tree)
  | .chr '+' => some id
  | .chr '-' => some (.un .NEG)
  | .chr '~' => some (.un .NOT)
  | .kw .seg => some .noted
  | _ => none

/-- The number 1, with an error. -/
def ppOne : Tree := .noted (number (createInt 1#64))

/-- Primary expressions of the preprocessor: numbers and symbols; symbols that are not known, `$` and
    `$$` count as 1 and are errors. -/
def ppAtom (find : Option (Name → Option Nat)) : List Tok → Option Tree
  | [.int i] => some (number i)
  | [.ident .id n] =>
    match find.bind (· n) with
    | some s => some (.leaf (.sym s))
    | none => some ppOne
  | [.here] => some ppOne
  | [.base] => some ppOne
  | _ => none

/-- Preprocessor expressions, with logical and relational operators or without. -/
def pp (find : Option (Name → Option Nat)) (crit : Bool) : Grammar where
  ops := ppOps
  right k := k + 1
  top := 10
  start := if crit then 0 else 4
  pre := ppPre
  atom := ppAtom find

/-- The binary operators of the GNU assembler by precedence: `+` and `-`; then the bitwise ones, among
    them `!` (or not); then multiplication, division and shifts. -/
def gasOps : Nat → Tok → Option Op
  | 0, .chr '+' => some .ADD
  | 0, .chr '-' => some .SUB
  | 1, .chr '|' => some .OR
  | 1, .chr '^' => some .XOR
  | 1, .chr '&' => some .AND
  | 1, .chr '!' => some .NOR
  | 2, .chr '*' => some .MUL
  | 2, .chr '/' => some .DIV
  | 2, .chr '%' => some .MOD
  | 2, .kw .shl => some .SHL
  | 2, .kw .shr => some .SHR
  | _, _ => none

/-- Prefix operators of the GNU assembler. -/
def gasPre : Tok → Option (Tree → Tree)
  | .chr '+' => some id
  | .chr '-' => some (.un .NEG)
  | .chr '~' => some (.un .NOT)
  | _ => none

/-- Primary expressions of the GNU assembler: numbers, identifiers (`.` is the current position), and
    identifiers with a relocation type, as in `f@PLT` (ignored if unknown). -/
def gasAtom (c : Ctx) : List Tok → Option Tree
  | [.int i] => some (number i)
  | [.flt f] => some (.leaf (.flt false f))
  | [.ident _ n] => some (.leaf (.sym (gasSym c n)))
  | [.ident _ n, .chr '@', .ident _ w] =>
    match c.special w with
    | some s => some (.bin .WRT (.leaf (.sym (gasSym c n))) (.leaf (.sym s)))
    | none => some (.leaf (.sym (gasSym c n)))
  | _ => none

/-- GNU assembler expressions. -/
def gas (c : Ctx) : Grammar where
  ops := gasOps
  right k := k + 1
  top := 3
  start := 0
  pre := gasPre
  atom := gasAtom c

/-- The token is a binary operator of the language (of level `k` or tighter). -/
def Grammar.Operator (g : Grammar) (k : Nat) (t : Tok) : Prop :=
  ∃ j op, k ≤ j ∧ j < g.top ∧ g.ops j t = some op

/-- The value of a tree. -/
def Tree.value (ρ : Env) : Tree → Word
  | .leaf i => Verif.Expr.eval ρ i
  | .copy n => n.eval ρ
  | .un op t => opVal ρ op [t.value ρ]
  | .bin op l r => opVal ρ op [l.value ρ, r.value ρ]
  | .noted t => t.value ρ

/-- The leaves of the tree are single terms, and the expressions it copies were built the same way. -/
def Tree.Proper : Tree → Prop
  | .leaf i => Verif.Expr.Leaf i
  | .copy n => Verif.Expr.Built n.item
  | .un op t => Verif.Expr.Arity op 1 ∧ t.Proper
  | .bin op l r => Verif.Expr.Arity op 2 ∧ l.Proper ∧ r.Proper
  | .noted t => t.Proper

/-- Numbers are in range, there are no floating-point numbers, and the operands of `&&` and `||` are
    truth values (see C19). -/
def Tree.Good (ρ : Env) : Tree → Prop
  | .leaf i => Verif.Expr.Leaf i ∧ Verif.Expr.Good ρ i
  | .copy n => Verif.Expr.Good ρ n.item
  | .un op t => Verif.Expr.Arity op 1 ∧ t.Good ρ
  | .bin op l r => Verif.Expr.Arity op 2 ∧
      (op = .LAND ∨ op = .LOR → Verif.Expr.IsBool (l.value ρ) ∧ Verif.Expr.IsBool (r.value ρ)) ∧
      l.Good ρ ∧ r.Good ρ
  | .noted t => t.Good ρ

/-- Is an error reported while the tree is built? -/
def Tree.flagged : Tree → Bool
  | .leaf _ => false
  | .copy _ => false
  | .un _ t => t.flagged
  | .bin _ l r => l.flagged || r.flagged
  | .noted _ => true

end Verif.Parse
