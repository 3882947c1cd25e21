import Mathlib.Data.List.Basic
/-
Model of names, labels and absolute sections in the NASM parser: modules/parsers/nasm/nasm-token.re and nasm-parse.c, not in TASM mode.

A line is a list of tokens.  Words are longest sequences of characters of identifiers; which of them are instructions, registers or other
keywords is a parameter.  Expressions come as trees (their parser is modelled in Verif.Parse) whose words are looked at when the parser
comes to them; instructions and data are `code` with the expressions in their operands.
-/
namespace Verif.Nasm

abbrev Name := List Char

/-! ### Words -/

/-- The tokens for names (nasm-parse.c:172-175). -/
inductive Kind where
  | id | loc | special | nonlocal
  deriving DecidableEq, Repr

/-- What a word is: a name, a number, or a keyword. -/
inductive Lexed where
  | name (k : Kind) (n : Name)
  | num (v : Nat)
  | keyword
  deriving DecidableEq, Repr

/-- nasm-token.re:73-117 `handle_dot_label`, from `tok + zeropos` on; `base` is `locallabel_base`. -/
def dot (base : Option Name) (tok : List Char) : Lexed :=
  match tok with
  | _ :: '.' :: '@' :: _ => .name .nonlocal tok
  | _ :: '.' :: _ => .name .special tok
  | _ => .name .loc (match base with | some b => b ++ tok | none => tok)

/-- `hexdigit` (nasm-token.re:68). -/
def hexDigit (c : Char) : Option Nat :=
  let i := "0123456789abcdef_ABCDEF".toList.idxOf c
  if i ≤ 16 then some i else if i < 23 then some (i - 7) else none

/-- yasm_intnum_create_hex: underscores do not count. -/
def hexNum (acc : Nat) : List Char → Nat
  | [] => acc
  | c :: cs => match hexDigit c with | some 16 => hexNum acc cs | some d => hexNum (acc * 16 + d) cs | none => hexNum acc cs

def isDigit (c : Char) : Bool := "0123456789".toList.contains c

/-- The rules of nasm-token.re:190-203, 363-420 for a word that is not a number starting with a digit: a hexadecimal number `$0AA`, a local
    label, a forced identifier, or an identifier that may be a keyword.  The earlier rule takes precedence. -/
def lexWord (keyword : Name → Bool) (base : Option Name) (w : List Char) : Lexed :=
  match w with
  | '.' :: c :: r => dot base ('.' :: c :: r)
  | '@' :: '@' :: c :: r => dot base ('@' :: '@' :: c :: r)
  | '$' :: c :: r =>
    if isDigit c && !r.isEmpty && r.all fun x => (hexDigit x).isSome then .num (hexNum 0 (c :: r))
    else if c = '.' then dot base (c :: r)
    else .name .id (c :: r)
  | w => if keyword w then .keyword else .name .id w

/-- nasm-token.re:694-731: a word in a directive; `$` is kept; a word that starts with `@` loses it and is then taken as outside of
    directives (`goto scan`). -/
def lexDir (keyword : Name → Bool) (base : Option Name) (w : List Char) : Lexed :=
  match w with
  | '$' :: c :: r =>
    if isDigit c && !r.isEmpty && r.all fun x => (hexDigit x).isSome then .num (hexNum 0 (c :: r)) else .name .id w
  | '@' :: r => lexWord keyword base r
  | w => .name .id w

/-! ### Expressions -/

inductive Op where
  | add | sub | mul
  deriving DecidableEq, Repr

/-- An expression in the source; `here` is `$`, `start` is `$$`. -/
inductive Src where
  | num (v : Int)
  | word (w : List Char)
  | here
  | start
  | op (o : Op) (a b : Src)
  deriving DecidableEq, Repr

/-- A place: before the bytecode `idx` of a section, where the empty one at the start is not counted; as `precbc` of the symbol it is the
    bytecode before. -/
structure Place where
  sect : Nat
  idx : Nat
  deriving DecidableEq, Repr

inductive Ex where
  | num (v : Int)
  | sym (n : Name)
  | place (p : Place)
  | op (o : Op) (a b : Ex)
  deriving DecidableEq, Repr

/-! ### The parser -/

/-- What a label is defined as. -/
inductive Def where
  | label (p : Place)
  | equ (e : Ex)
  deriving DecidableEq, Repr

/-- A bytecode; for `resb` and the like `size` is the number of bytes of an item. -/
structure Piece where
  mnemonic : Nat
  reserve : Option Nat
  operands : List Ex
  times : Option Ex
  deriving DecidableEq, Repr

inductive Err where
  | expression | junk | instruction | start | onlyReserve | noSection | argument
  deriving DecidableEq, Repr

/-- Tokens; a word may be a keyword.  `section k` is the directive that switches to section `k` (what the object format does is not
    modelled), `absolute e` the other; `none` for an argument that is not an expression, as a string. -/
inductive Tok where
  | word (w : List Char)
  | colon
  | equ
  | times
  | expr (e : Src)
  | code (mnemonic : Nat) (reserve : Option Nat) (operands : List Src)
  | section (k : Nat)
  | absolute (e : Option Src)
  deriving DecidableEq, Repr

/-- yasm_parser_nasm (nasm-parser.h): `locallabel_base`, the current section, `prev_bc`, `absstart`, `abspos`; the number of bytecodes in each
    section; and what has been put into the symbol table and the sections. -/
structure St where
  base : Option Name
  sect : Option Nat
  prev : Option Place
  absstart : Option Ex
  abspos : Option Ex
  len : Nat → Nat
  defs : List (Name × Def)
  code : List (Nat × Piece)
  errs : List Err

/-- nasm-parser.c:34-66. -/
def St.init : St := ⟨none, some 0, some ⟨0, 0⟩, none, none, fun _ => 0, [], [], []⟩

/-- Expressions outside of directives (nasm-parse.c:1429-1494).  `$` without a bytecode before (`prev_bc` is null) is not modelled further than
    that there is no value; `$$` without a section is a null pointer (`none`).  The special symbols of object formats, as `..gotpc`, are left
    out. -/
def resolve (keyword : Name → Bool) (s : St) : Src → Option Ex
  | .num v => some (.num v)
  | .word w =>
    match lexWord keyword s.base w with
    | .name _ n => some (.sym n)
    | .num v => some (.num v)
    | .keyword => none
  | .here =>
    match s.abspos with
    | some e => some e
    | none => match s.prev with | some p => some (.place p) | none => none
  | .start =>
    match s.absstart with
    | some e => some e
    | none => match s.sect with | some k => some (.place ⟨k, 0⟩) | none => none
  | .op o a b =>
    match resolve keyword s a, resolve keyword s b with
    | some x, some y => some (.op o x y)
    | _, _ => none

/-- Expressions in directives (nasm-parse.c:1429-1440). -/
def resolveDir (keyword : Name → Bool) (s : St) : Src → Option Ex
  | .num v => some (.num v)
  | .word w =>
    match lexDir keyword s.base w with
    | .name .id n => some (.sym n)
    | .num v => some (.num v)
    | _ => none
  | .op o a b =>
    match resolveDir keyword s a, resolveDir keyword s b with
    | some x, some y => some (.op o x y)
    | _, _ => none
  | _ => none

/-- yasm_vp_id (libyasm/valparam.c:131-144): the prefix is taken off a single identifier. -/
def unforce : Ex → Ex
  | .sym ('$' :: n) => .sym n
  | e => e

/-- The argument of a directive (nasm-parse.c:476-537, libyasm/valparam.c:101-114): a single identifier, or an expression. -/
def argument (keyword : Name → Bool) (s : St) : Src → Option Ex
  | .word w => (resolveDir keyword s (.word w)).map unforce
  | e => resolveDir keyword s e

def resolveAll (keyword : Name → Bool) (s : St) : List Src → Option (List Ex)
  | [] => some []
  | e :: es =>
    match resolve keyword s e, resolveAll keyword s es with
    | some x, some xs => some (x :: xs)
    | _, _ => none

def St.error (s : St) (e : Err) : St := { s with errs := s.errs ++ [e] }

/-- nasm-parse.c:1519-1536 `define_label`. -/
def St.define (s : St) (n : Name) : St :=
  match s.abspos with
  | some e => { s with defs := s.defs ++ [(n, .equ e)] }
  | none =>
    match s.prev with
    | some p => { s with defs := s.defs ++ [(n, .label p)] }
    | none => s

/-- nasm-parse.c:1506-1517 `set_nonlocal_label`, if the token is of the right kind (nasm-parse.c:393-396). -/
def St.setBase (s : St) (k : Kind) (n : Name) : St := if k = .id then { s with base := some n } else s

/-- nasm-parse.c:560-730 `parse_exp`: the bytecode, and the errors.  With junk after it the bytecode is in fact appended all the same. -/
def parseExp (keyword : Name → Bool) (s : St) : List Tok → Option Piece × Option Err
  | [.code m r os] =>
    match resolveAll keyword s os with
    | some es => (some ⟨m, r, es, none⟩, none)
    | none => (none, some .expression)
  | .code _ _ _ :: _ => (none, some .junk)
  | _ => (none, some .instruction)

/-- nasm-parse.c:539-558 `parse_times`. -/
def parseTimes (keyword : Name → Bool) (s : St) : List Tok → Option Piece × Option Err
  | .expr e :: ts =>
    match resolve keyword s e with
    | none => (none, some .expression)
    | some x =>
      match parseExp keyword s ts with
      | (some b, err) => (some { b with times := some x }, err)
      | (none, err) => (none, err)
  | _ => (none, some .expression)

/-- The end of nasm_parser_directive (nasm-parse.c:1627-1642): out of the absolute section; `prev_bc` is the last of the section. -/
def St.afterDirective (s : St) : St :=
  match s.sect with
  | some k => { s with absstart := none, abspos := none, prev := some ⟨k, s.len k⟩ }
  | none => s

/-- nasm-parse.c:296-474 `parse_line` after the first token, which is the name: the state, the bytecode and the error.  The token after the name
    and the colon is taken before the base of local labels is set, but it is no name if the line is right. -/
def parseNamed (keyword : Name → Bool) (s : St) (k : Kind) (n : Name) : List Tok → St × Option Piece × Option Err
  | [] => ((s.setBase k n).define n, none, none)
  | ts =>
    let ts := match ts with | .colon :: r => r | r => r
    match ts with
    | .equ :: r =>
      match r with
      | [.expr e] =>
        match resolve keyword s e with
        | some x => ({ s with defs := s.defs ++ [(n, .equ x)] }, none, none)
        | none => (s, none, some .expression)
      | _ => (s, none, some .expression)
    | [] => ((s.setBase k n).define n, none, none)
    | .times :: r =>
      let s := (s.setBase k n).define n
      let p := parseTimes keyword s r
      (s, p.1, p.2)
    | r =>
      let s := s.setBase k n
      let p := parseExp keyword s r
      (s.define n, p.1, p.2)

/-- nasm-parse.c:286-474 `parse_line`. -/
def parseLine (keyword : Name → Bool) (s : St) : List Tok → St × Option Piece × Option Err
  | [] => (s, none, none)
  | .word w :: ts =>
    match lexWord keyword s.base w with
    | .name k n => parseNamed keyword s k n ts
    | _ => (s, none, some .start)
  | .times :: ts => let p := parseTimes keyword s ts; (s, p.1, p.2)
  | .code m r os :: ts => let p := parseExp keyword s (.code m r os :: ts); (s, p.1, p.2)
  | [.section k] => (St.afterDirective { s with sect := some k }, none, none)
  | [.absolute a] =>
    match a with
    | none => ({ s with absstart := none, abspos := none, sect := none, prev := none }, none, none)
    | some e =>
      match argument keyword s e with
      | none => (s, none, some .argument)
      | some x => ({ s with absstart := some x, abspos := some x, sect := none, prev := none }, none, none)
  | _ => (s, none, some .start)

/-- nasm-parse.c:236-268: the bytecode is put into the section, or counted in an absolute section. -/
def place (s : St) : Option Piece → St
  | none => s
  | some b =>
    match s.abspos with
    | some pos =>
      match b.reserve, b.operands with
      | some size, n :: _ =>
        let e := Ex.op .mul n (.num size)
        let e := match b.times with | some t => Ex.op .mul e t | none => e
        { s with abspos := some (.op .add pos e) }
      | _, _ => s.error .onlyReserve
    | none =>
      match s.sect with
      | none => s.error .noSection
      | some k =>
        { s with code := s.code ++ [(k, b)], len := fun j => if j = k then s.len k + 1 else s.len j, prev := some ⟨k, s.len k + 1⟩ }

/-- nasm-parse.c:213-282 `nasm_parser_parse`: one line. -/
def step (keyword : Name → Bool) (s : St) (ts : List Tok) : St :=
  let r := parseLine keyword s ts
  let s := place r.1 r.2.1
  match r.2.2 with | some e => s.error e | none => s

def run (keyword : Name → Bool) (ls : List (List Tok)) : St := ls.foldl (step keyword) St.init

end Verif.Nasm
