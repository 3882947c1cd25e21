import Verif.Nasm.Model
/-
Specification for names and labels in NASM source: what a program says, statement by statement, without a parser.

A name that starts with a dot belongs to the last ordinary label before it.  A label stands for the place of what follows it: in a section
the place after all that was put into that section before; after `absolute`, the address given there and the space reserved since.
Statements are looked at with those before them, the last one first.
-/
namespace Verif.Nasm

/-! ### Words -/

/-- A name as somebody writes it: `name`, `$name`, `.tail`, `$.tail`, `..tail`. -/
inductive Word where
  | plain (n : Name)
  | forced (n : Name)
  | loc (t : List Char)
  | forcedLoc (t : List Char)
  | special (t : List Char)
  deriving DecidableEq, Repr

def Word.text : Word → List Char
  | .plain n => n
  | .forced n => '$' :: n
  | .loc t => '.' :: t
  | .forcedLoc t => '$' :: '.' :: t
  | .special t => '.' :: '.' :: t

/-- The full name, after the last ordinary label `scope`. -/
def Word.full (scope : Option Name) : Word → Name
  | .plain n => n
  | .forced n => n
  | .loc t => scope.getD [] ++ '.' :: t
  | .forcedLoc t => scope.getD [] ++ '.' :: t
  | .special t => '.' :: '.' :: t

/-- A label of this form starts a new scope. -/
def Word.ordinary : Word → Bool
  | .plain _ => true
  | .forced _ => true
  | _ => false

/-- The form is one that is not taken for something else: a plain name is no keyword and does not start with a dot, a dollar sign or `@@`;
    what is forced is no number (`$12`). -/
def Word.Ok (keyword : Name → Bool) : Word → Prop
  | .plain n => keyword n = false ∧ n ≠ [] ∧ n.head? ≠ some '.' ∧ n.head? ≠ some '$' ∧ n.take 2 ≠ ['@', '@']
  | .forced n => n ≠ [] ∧ n.head? ≠ some '.' ∧ ∀ c ∈ n.head?, isDigit c = false
  | .loc t => t ≠ [] ∧ t.head? ≠ some '.'
  | .forcedLoc t => t ≠ [] ∧ t.head? ≠ some '.'
  | .special _ => True

/-! ### Programs -/

inductive SEx where
  | num (v : Int)
  | word (w : Word)
  | here
  | start
  | op (o : Op) (a b : SEx)
  deriving DecidableEq, Repr

structure Body where
  mnemonic : Nat
  reserve : Option Nat
  operands : List SEx
  times : Option SEx
  deriving DecidableEq, Repr

/-- A statement: a line with a label or with code, or both, or none; the flag says whether a colon is after the label. -/
inductive Stmt where
  | line (label : Option (Word × Bool)) (body : Option Body)
  | equ (label : Word) (colon : Bool) (e : SEx)
  | sect (k : Nat)
  | absolute (e : SEx)
  deriving DecidableEq, Repr

/-! ### Writing them -/

def SEx.src : SEx → Src
  | .num v => .num v
  | .word w => .word w.text
  | .here => .here
  | .start => .start
  | .op o a b => .op o a.src b.src

def colonToks (c : Bool) : List Tok := if c then [.colon] else []

def Body.toks (b : Body) : List Tok :=
  (match b.times with | some e => [.times, .expr e.src] | none => []) ++ [.code b.mnemonic b.reserve (b.operands.map SEx.src)]

def labelToks : Option (Word × Bool) → List Tok
  | some (w, c) => .word w.text :: colonToks c
  | none => []

def bodyToks : Option Body → List Tok
  | some b => b.toks
  | none => []

def Stmt.toks : Stmt → List Tok
  | .line l b => labelToks l ++ bodyToks b
  | .equ w c e => .word w.text :: colonToks c ++ [.equ, .expr e.src]
  | .sect k => [.section k]
  | .absolute e => [.absolute (some e.src)]

/-! ### What they mean -/

/-- Values of symbols, and of places in sections. -/
structure Env where
  sym : Name → Int
  spot : Place → Int

def Op.eval : Op → Int → Int → Int
  | .add, a, b => a + b
  | .sub, a, b => a - b
  | .mul, a, b => a * b

def SEx.value (env : Env) (scope : Option Name) (here start : Int) : SEx → Int
  | .num v => v
  | .word w => env.sym (w.full scope)
  | .here => here
  | .start => start
  | .op o a b => o.eval (a.value env scope here start) (b.value env scope here start)

/-- The last ordinary label. -/
def scope : List Stmt → Option Name
  | [] => none
  | .line (some (w, _)) _ :: past => if w.ordinary then some (w.full none) else scope past
  | _ :: past => scope past

/-- The section that code is put into; none after `absolute`. -/
def home : List Stmt → Option Nat
  | [] => some 0
  | .sect k :: _ => some k
  | .absolute _ :: _ => none
  | _ :: past => home past

/-- How many pieces have been put into a section. -/
def pieces (k : Nat) : List Stmt → Nat
  | [] => 0
  | .line _ (some _) :: past => pieces k past + if home past = some k then 1 else 0
  | _ :: past => pieces k past

/-- The bytes that a line reserves. -/
def Body.space (b : Body) (env : Env) (sc : Option Name) (here start : Int) : Int :=
  (match b.operands with | n :: _ => n.value env sc here start | [] => 0) * (b.reserve.getD 0) *
    match b.times with | some t => t.value env sc here start | none => 1

/-- After `absolute`: the address given there, and the current one. -/
def address (env : Env) : List Stmt → Int × Int
  | [] => (0, 0)
  | .absolute e :: _ => (e.value env none 0 0, e.value env none 0 0)
  | .line l (some b) :: past =>
    ((address env past).1, (address env past).2 + b.space env (scope (.line l (some b) :: past)) (address env past).2 (address env past).1)
  | _ :: past => address env past

/-- `$` -/
def here (env : Env) (past : List Stmt) : Int :=
  match home past with | some k => env.spot ⟨k, pieces k past⟩ | none => (address env past).2

/-- `$$` -/
def start (env : Env) (past : List Stmt) : Int := match home past with | some k => env.spot ⟨k, 0⟩ | none => (address env past).1

inductive Meaning where
  | label (p : Place)
  | value (v : Int)
  deriving DecidableEq, Repr

/-- What a label at this point stands for. -/
def point (env : Env) (past : List Stmt) : Meaning :=
  match home past with | some k => .label ⟨k, pieces k past⟩ | none => .value (address env past).2

/-- What a statement defines. -/
def Stmt.defines (env : Env) (past : List Stmt) : Stmt → List (Name × Meaning)
  | .line (some (w, _)) _ => [(w.full (scope past), point env past)]
  | .equ w _ e => [(w.full (scope past), .value (e.value env (scope past) (here env past) (start env past)))]
  | _ => []

/-- A piece of code with the values of its operands. -/
structure Made where
  mnemonic : Nat
  reserve : Option Nat
  operands : List Int
  times : Option Int
  deriving DecidableEq, Repr

def Body.made (b : Body) (env : Env) (sc : Option Name) (here start : Int) : Made :=
  ⟨b.mnemonic, b.reserve, b.operands.map (·.value env sc here start), b.times.map (·.value env sc here start)⟩

/-- The code that a statement puts into a section. -/
def Stmt.makes (env : Env) (past : List Stmt) (s : Stmt) : List (Nat × Made) :=
  match s, home past with
  | .line _ (some b), some k => [(k, b.made env (scope (s :: past)) (here env past) (start env past))]
  | _, _ => []

def allDefines (env : Env) : List Stmt → List Stmt → List (Name × Meaning)
  | _, [] => []
  | past, s :: ss => s.defines env past ++ allDefines env (s :: past) ss

def allMakes (env : Env) : List Stmt → List Stmt → List (Nat × Made)
  | _, [] => []
  | past, s :: ss => s.makes env past ++ allMakes env (s :: past) ss

/-! ### Programs in order -/

def SEx.Ok (keyword : Name → Bool) : SEx → Prop
  | .word w => w.Ok keyword
  | .op _ a b => a.Ok keyword ∧ b.Ok keyword
  | _ => True

/-- In directives: no local names, no `$`, and, except alone, no forced names. -/
def SEx.DirOk (keyword : Name → Bool) : SEx → Prop
  | .num _ => True
  | .word (.plain n) => Word.Ok keyword (.plain n) ∧ n.head? ≠ some '@'
  | .word (.special _) => True
  | .op _ a b => a.DirOk keyword ∧ b.DirOk keyword
  | _ => False

def SEx.ArgOk (keyword : Name → Bool) : SEx → Prop
  | .word (.forced n) => Word.Ok keyword (.forced n)
  | e => e.DirOk keyword

structure Body.Ok (keyword : Name → Bool) (b : Body) : Prop where
  operands : ∀ e ∈ b.operands, e.Ok keyword
  times : ∀ e, b.times = some e → e.Ok keyword

/-- Words have one of the forms; after `absolute` there is only reserved space. -/
def Stmt.Ok (keyword : Name → Bool) (past : List Stmt) : Stmt → Prop
  | .line l b => (∀ w c, l = some (w, c) → w.Ok keyword) ∧ (∀ x, b = some x → x.Ok keyword) ∧
      (home past = none → ∀ x, b = some x → x.reserve.isSome ∧ x.operands ≠ [])
  | .equ w _ e => w.Ok keyword ∧ e.Ok keyword
  | .sect _ => True
  | .absolute e => e.ArgOk keyword

def AllOk (keyword : Name → Bool) : List Stmt → List Stmt → Prop
  | _, [] => True
  | past, s :: ss => s.Ok keyword past ∧ AllOk keyword (s :: past) ss

/-! ### What the parser has made of them -/

def Ex.value (env : Env) : Ex → Int
  | .num v => v
  | .sym n => env.sym n
  | .place p => env.spot p
  | .op o a b => o.eval (a.value env) (b.value env)

def Def.meaning (env : Env) : Def → Meaning
  | .label p => .label p
  | .equ e => .value (e.value env)

def Piece.made (env : Env) (p : Piece) : Made := ⟨p.mnemonic, p.reserve, p.operands.map (·.value env), p.times.map (·.value env)⟩

end Verif.Nasm
