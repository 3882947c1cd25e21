import Verif.Comment.Model
/-
Model of the parameters of macros in the GAS preprocessor: modules/preprocs/gas/gas-preproc.c:309-452 (`gas_scan`, as far as it says where tokens end), :855-966
(`get_param_value`, `expand_macro`).  Characters outside of ASCII are neither letters nor digits (as in the C locale).
-/
namespace Verif.Param
open Verif.Comment (Str isSpace)

/-- gas-preproc.c:309-313 `ishex`. -/
def isHex (c : Char) : Bool := c.isDigit || decide (c.toLower.toNat ≥ 97 ∧ c.toLower.toNat ≤ 102)

/-- gas-preproc.c:431: the first character of a symbol. -/
def isFirst (c : Char) : Bool := c.isAlpha || c = '_' || c = '.' || c = '%'

/-- gas-preproc.c:435: the others. -/
def isNext (c : Char) : Bool := c.isAlphanum || c = '$' || c = '_'

/-- gas-preproc.c:396-410: operators of two characters. -/
def ops : List Str := ["<<", ">>", "//", "%%", "==", "!=", "<>", "<=", ">=", "&&", "^^", "||"].map String.toList

inductive Tok where
  | num
  | op
  | id (n : Str)
  | chr (c : Char)
  deriving DecidableEq, Repr

/-- gas-preproc.c:352-450: a token that starts with `c`, and how many of the characters behind it belong to it. -/
def tok (c : Char) (r : Str) : Tok × Nat :=
  if c.isDigit then
    if c = '0' ∧ r.head? = some 'x' then (.num, 1 + ((r.drop 1).takeWhile isHex).length) else (.num, (r.takeWhile Char.isDigit).length)
  else if ops.contains (c :: r.take 1) then (.op, 1)
  else if isFirst c then (.id (c :: r.takeWhile isNext), (r.takeWhile isNext).length)
  else (.chr c, 0)

/-- gas-preproc.c:336-452 `gas_scan`: the text up to the end of the token, the token, and the text behind it; `none` is the end of the line (TOKEN_EOS is 0,
    which is also what a zero behind white space gives). -/
def scan (s : Str) : Option (Str × Tok × Str) :=
  match s.dropWhile isSpace with
  | [] => none
  | c :: r => some (s.takeWhile isSpace ++ c :: r.take (tok c r).2, (tok c r).1, r.drop (tok c r).2)

/-- A parameter of a macro: its text up to `=`, and what is behind it (gas-preproc.c:858-864, 912-914). -/
structure Param where
  name : Str
  default : Option Str
  deriving DecidableEq, Repr

/-- gas-preproc.c:866-889: the arguments of a call, one after the other. -/
def arguments : Nat → Str → List Str
  | 0, _ => []
  | _, [] => []
  | fuel + 1, c :: s =>
    let w := (c :: s).takeWhile fun c => !isSpace c && c ≠ ','
    match ((c :: s).drop w.length).dropWhile isSpace with
    | ',' :: t => w :: arguments fuel (t.dropWhile isSpace)
    | t => w :: arguments fuel t

/-- gas-preproc.c:874-881, 891-892: an argument that is there (an empty one counts as missing if there is a default), or the default. -/
def choose (d : Option Str) : Option Str → Str
  | some w => if w = [] then d.getD [] else w
  | none => d.getD []

/-- gas-preproc.c:855-892 `get_param_value`. -/
def value (p : Param) (j : Nat) (args : Str) : Str := choose p.default (arguments (args.length + 1) (args.dropWhile isSpace))[j]?

/-- gas-preproc.c:911-922: the first parameter with the name, and its value. -/
def lookup (ps : List Param) (args : Str) (n : Str) : Option Str :=
  match ps.findIdx? fun p => p.name = n with
  | none => none
  | some j => ps[j]?.map fun p => value p j args

/-- gas-preproc.c:907-952: the loop; `done` is the line up to the cursor.  A name behind a backslash is replaced together with one character before it. -/
def walk (val : Str → Option Str) : Nat → Str → Bool → Str → Str
  | 0, done, _, s => done ++ s
  | fuel + 1, done, prev, s =>
    match scan s with
    | none => done ++ s
    | some (text, t, rest) =>
      if prev then
        match t with
        | .id n =>
          match val n with
          | some v => walk val fuel ((done ++ text).take ((done ++ text).length - (n.length + 1)) ++ v) false rest
          | none => walk val fuel (done ++ text) false rest
        | _ => walk val fuel (done ++ text) false rest
      else walk val fuel (done ++ text) (decide (t = .chr '\\')) rest

/-- gas-preproc.c:894-966 `expand_macro`, for a line of the macro. -/
def expandLine (ps : List Param) (args line : Str) : Str := walk (lookup ps args) (line.length + 1) [] false line

end Verif.Param
