import Verif.Expr.Model
import Verif.Intnum.Spec
/-
Specification of expressions: what an expression means, for given values of its leaves.

Numbers are 256-bit two's complement words.  An environment gives the value of every leaf that is not a
number, and an interpretation of SEG, WRT and ':'.
-/
namespace Verif.Expr
open Verif.Intnum

abbrev Word := BitVec 256

/-- Values of the leaves and meaning of the segment operators. -/
structure Env where
  reg : Nat → Word
  subst : Nat → Word
  flt : Nat → Word
  sym : Nat → Word
  precbc : Nat → Word
  seg : Word → Word
  wrt : Word → Word → Word
  segoff : Word → Word → Word

/-- 1 for true, 0 for false. -/
def word (b : Bool) : Word := if b then 1 else 0

/-- The meaning of an operator on the values of its terms. -/
def opVal (ρ : Env) : Op → List Word → Word
  | .IDENT, [a] => a
  | .ADD, l => l.foldr (· + ·) 0
  | .SUB, [a, b] => a - b
  | .MUL, l => l.foldr (· * ·) 1
  | .DIV, [a, b] => a.sdiv b
  | .SIGNDIV, [a, b] => a.sdiv b
  | .MOD, [a, b] => a.srem b
  | .SIGNMOD, [a, b] => a.srem b
  | .NEG, [a] => -a
  | .NOT, [a] => ~~~a
  | .OR, l => l.foldr (· ||| ·) 0
  | .AND, l => l.foldr (· &&& ·) (-1)
  | .XOR, l => l.foldr (· ^^^ ·) 0
  | .XNOR, [a, b] => ~~~(a ^^^ b)
  | .NOR, [a, b] => ~~~(a ||| b)
  | .SHL, [a, b] => if b.toInt < 0 then 0 else a <<< b.toNat
  | .SHR, [a, b] => if b.toInt < 0 then 0 else a.sshiftRight b.toNat
  | .LOR, l => word (l.any (· != 0))
  | .LAND, l => word (l.all (· != 0))
  | .LNOT, [a] => word (a == 0)
  | .LXOR, l => word (l.foldr (fun x b => (x != 0) ^^ b) false)
  | .LXNOR, [a, b] => word ((a != 0) == (b != 0))
  | .LNOR, [a, b] => word (a == 0 && b == 0)
  | .LT, [a, b] => word (decide (a.toInt < b.toInt))
  | .GT, [a, b] => word (decide (a.toInt > b.toInt))
  | .EQ, [a, b] => word (decide (a.toInt = b.toInt))
  | .LE, [a, b] => word (decide (a.toInt ≤ b.toInt))
  | .GE, [a, b] => word (decide (a.toInt ≥ b.toInt))
  | .NE, [a, b] => word (decide (a.toInt ≠ b.toInt))
  | .SEG, [a] => ρ.seg a
  | .WRT, [a, b] => ρ.wrt a b
  | .SEGOFF, [a, b] => ρ.segoff a b
  | _, _ => 0

mutual
/-- The value of a term. -/
def eval (ρ : Env) : Item → Word
  | .none => 0
  | .reg r => ρ.reg r
  | .int i => BitVec.ofInt 256 (val i)
  | .subst n => ρ.subst n
  | .flt s f => if s then -ρ.flt f else ρ.flt f
  | .sym s => ρ.sym s
  | .precbc b => ρ.precbc b
  | .expr op ts => opVal ρ op (evalL ρ ts)
/-- The values of a list of terms. -/
def evalL (ρ : Env) : List Item → List Word
  | [] => []
  | t :: ts => eval ρ t :: evalL ρ ts
end

/-- The value of an expression. -/
def Node.eval (ρ : Env) (e : Node) : Word := Verif.Expr.eval ρ e.item

/-- The number of terms each operator takes. -/
def Arity : Op → Nat → Prop
  | .ADD, n | .MUL, n | .OR, n | .AND, n | .XOR, n | .LOR, n | .LAND, n | .LXOR, n => 2 ≤ n
  | .IDENT, n | .NEG, n | .NOT, n | .LNOT, n | .SEG, n => n = 1
  | .NONNUM, _ => False
  | _, n => n = 2

/-- Truth values. -/
def IsBool (w : Word) : Prop := w = 0 ∨ w = 1

mutual
/-- The expressions simplification is for: every operator has the right number of terms, there are no
    floating-point numbers and no deleted terms, numbers are in the range the library computes with,
    and the operands of && and || are truth values. -/
def Good (ρ : Env) : Item → Prop
  | .none => False
  | .flt _ _ => False
  | .int i => Fits i
  | .expr op ts => Arity op ts.length ∧ (op = .LAND ∨ op = .LOR → ∀ w ∈ evalL ρ ts, IsBool w) ∧ GoodL ρ ts
  | _ => True
/-- All terms are `Good`. -/
def GoodL (ρ : Env) : List Item → Prop
  | [] => True
  | t :: ts => Good ρ t ∧ GoodL ρ ts
end

/-- A constant computation the library gets right (see C10): no product of magnitude 2^255 or more, no
    division by zero, no right shift of a negative number by 2^31 or more. -/
def Call.Sound (c : Call) : Prop :=
  (c.op = .MUL → (val c.acc * val c.operand).natAbs < 2 ^ 255) ∧
  (IsDiv c.op → val c.operand ≠ 0) ∧
  (c.op = .SHR → 0 ≤ val c.acc ∨ ∃ l, c.operand = .L l)

/-- The environment agrees with the definitions the expression refers to: EQU symbols have the value of
    their definition, labels and bytecode references the address of the end of the bytecode, sections
    are smaller than 4 GB, and the segment of SEG:OFF is SEG. -/
structure Env.Agrees (ρ : Env) (c : Ctx) (base : Nat → Word) : Prop where
  equ : ∀ s d, c.equ s = some d → ρ.sym s = d.eval ρ ∧ Good ρ d.item
  label : ∀ s b, c.label s = some b → ρ.sym s = ρ.precbc b
  precbc : ∀ b, ρ.precbc b = base (c.sect b) + BitVec.ofNat 256 (c.next b).toNat
  small : ∀ b, (c.next b).toNat < 2 ^ 32
  seg : ∀ a b, ρ.seg (ρ.segoff a b) = a

mutual
/-- Is the term made of numbers (in the range the library computes with) and numeric operators (with
    the right number of operands) only? -/
def Constant : Item → Prop
  | .int i => Fits i
  | .expr op ts => Numeric op ∧ Arity op ts.length ∧ ConstantL ts
  | _ => False
/-- All terms are `Constant`. -/
def ConstantL : List Item → Prop
  | [] => True
  | t :: ts => Constant t ∧ ConstantL ts
end

mutual
/-- Is the term made of numbers, symbols and numeric operators only? -/
def ConstantOrSym : Item → Prop
  | .int i => Fits i
  | .sym _ => True
  | .expr op ts => Numeric op ∧ Arity op ts.length ∧ ConstantOrSymL ts
  | _ => False
/-- All terms are `ConstantOrSym`. -/
def ConstantOrSymL : List Item → Prop
  | [] => True
  | t :: ts => ConstantOrSym t ∧ ConstantOrSymL ts
end

mutual
/-- The symbols a term mentions. -/
def syms : Item → List Nat
  | .sym s => [s]
  | .expr _ ts => symsL ts
  | _ => []
/-- The symbols a list of terms mentions. -/
def symsL : List Item → List Nat
  | [] => []
  | t :: ts => syms t ++ symsL ts
end

/-- The definition of the EQU symbol `s` mentions `t`. -/
def Uses (c : Ctx) (s t : Nat) : Prop := ∃ d, c.equ s = some d ∧ t ∈ syms d.item

/-- `t` is mentioned by the definition of `s`, directly or through other definitions. -/
inductive Reaches (c : Ctx) : Nat → Nat → Prop
  | one {s t : Nat} : Uses c s t → Reaches c s t
  | step {s t u : Nat} : Reaches c s t → Uses c t u → Reaches c s u

/-- The expression is circular: some EQU symbol it depends on depends on itself. -/
def Circular (c : Ctx) (e : Node) : Prop :=
  ∃ s ∈ syms e.item, ∃ t, (t = s ∨ Reaches c s t) ∧ Reaches c t t

/-- There are at most n EQU symbols. -/
def AtMost (c : Ctx) (n : Nat) : Prop := ∃ l : List Nat, l.length ≤ n ∧ ∀ s, c.equ s ≠ Option.none → s ∈ l

/-- Operators for which one operand can decide the result. -/
def Absorbing (op : Op) : Prop := op = .MUL ∨ op = .AND ∨ op = .OR ∨ op = .LAND

/-- A leaf. -/
def Leaf : Item → Prop
  | .expr _ _ => False
  | _ => True

mutual
/-- Every operator has the right number of operands, and the chains of three or more operands of
    `*`, `&`, `|` and `&&` have no subexpressions and at most one integer among their operands. -/
def Calm : Item → Prop
  | .expr op ts => Arity op ts.length ∧
      (Absorbing op → ts.length ≤ 2 ∨ ((∀ t ∈ ts, Leaf t) ∧ (ts.filter Item.isInt).length ≤ 1)) ∧ CalmL ts
  | _ => True
/-- All terms are `Calm`. -/
def CalmL : List Item → Prop
  | [] => True
  | t :: ts => Calm t ∧ CalmL ts
end

/-- The expressions the parser builds: every operator node comes from `yasm_expr_create`. -/
inductive Built : Item → Prop
  | leaf {t : Item} : Leaf t → Built t
  | node {op : Op} {l : Item} {r : Option Item} {n : Node} :
      Built l → (∀ t, r = some t → Built t) → Arity op (1 + r.toList.length) →
      (create op l r).out = .ok n → Built n.item

end Verif.Expr
