import Mathlib.Data.List.Basic
/-
Model of the command line of yasm: frontends/yasm/yasm-options.c, lines 43-184, with the table of options and the handlers of other arguments in
frontends/yasm/yasm.c.

Arguments are C strings, lists of characters without a zero.  What the handlers of options do is not modelled; whether one takes an option is given by a
function of what it is called with (`takes`): none of them looks at the calls before to decide that.
-/
namespace Verif.Cmdline

abbrev Str := List Char

/-- frontends/yasm/yasm-options.h:32-51 `opt_option`. -/
structure Opt where
  sopt : Option Char
  lopt : Option Str
  param : Bool
  deriving DecidableEq, Repr

/-- What happens: the handler of option `i` is called with the text of the option and a parameter; an argument is no option (yasm.c:958-970, always
    accepted); "option needs an argument" (an error); "unrecognized option" (a warning). -/
inductive Ev where
  | call (i : Nat) (cmd : Str) (param : Option Str)
  | file (a : Str)
  | needs (i : Nat)
  | unrecognized (a : Str)
  deriving DecidableEq, Repr

/-- isspace in the C locale. -/
def isSpace (c : Char) : Bool := c = ' ' || c = '\t' || c = '\n' || c = '\x0b' || c = '\x0c' || c = '\r'

/-- yasm-options.c:75-84, 136-145: the text is the long name of the option, then the end, `=` or white space. -/
def longMatch (s : Str) (o : Opt) : Bool :=
  match o.lopt with
  | none => false
  | some l => l.isPrefixOf s && (match s.drop l.length with | [] => true | c :: _ => c = '=' || isSpace c)

/-- yasm-options.c:110: the text, which is not empty, starts with the letter of the option. -/
def shortMatch (s : Str) (o : Opt) : Bool := decide (s.head? = o.sopt)

/-- strchr(s, '='): what is before it and what is behind it. -/
def splitEq : Str → Option (Str × Str)
  | [] => none
  | c :: s => if c = '=' then some ([], s) else (splitEq s).map fun p => (c :: p.1, p.2)

/-- yasm.c:972-987 `other_option_handler`: `-O` and digits are taken. -/
def other : Str → Bool
  | '-' :: 'O' :: s => s.all Char.isDigit
  | _ => false

/-- A handler is called; if it does not take the option, the other handler gets the argument (as it is by then), and then there is a warning
    (yasm-options.c:101-104, 165-172). -/
def called (takes : Nat → Str → Option Str → Bool) (i : Nat) (cmd : Str) (param : Option Str) (arg : Str) : List Ev :=
  .call i cmd param :: (if takes i cmd param then [] else if other arg then [] else [.unrecognized arg])

/-- An option by its long name, behind `dashes` (yasm-options.c:86-103, 147-164). -/
def byLong (takes : Nat → Str → Option Str → Bool) (i : Nat) (o : Opt) (dashes s : Str) : List Ev :=
  if o.param then
    match splitEq s with
    | none => [.needs i]
    | some (cmd, p) => called takes i cmd (some p) (dashes ++ cmd)
  else called takes i s none (dashes ++ s)

/-- No option has been found. -/
def notFound (arg : Str) : List Ev := if other arg then [] else [.unrecognized arg]

/-- yasm-options.c:43-184 `parse_cmdline`, for the arguments behind the name of the program. -/
def parse (takes : Nat → Str → Option Str → Bool) (T : List Opt) : List Str → List Ev
  | [] => []
  | ('-' :: '-' :: []) :: rest => rest.map .file
  | ('-' :: '-' :: s) :: rest =>
    (match T.findIdx? (longMatch s) with
    | none => notFound ('-' :: '-' :: s)
    | some i => match T[i]? with | none => [] | some o => byLong takes i o ['-', '-'] s) ++ parse takes T rest
  | ('-' :: []) :: rest => .file ['-'] :: parse takes T rest
  | ('-' :: c :: s) :: rest =>
    match T.findIdx? (fun o => shortMatch (c :: s) o || longMatch (c :: s) o) with
    | none => notFound ('-' :: c :: s) ++ parse takes T rest
    | some i =>
      match T[i]? with
      | none => parse takes T rest
      | some o =>
        if shortMatch (c :: s) o then
          if o.param then
            if s ≠ [] then called takes i (c :: s) (some s) ('-' :: c :: s) ++ parse takes T rest
            else
              match rest with
              | [] => [.needs i]
              | p :: rest' =>
                if p.head? = some '-' then .needs i :: parse takes T (p :: rest')
                else called takes i [c] (some p) p ++ parse takes T rest'
          else called takes i (c :: s) none ('-' :: c :: s) ++ parse takes T rest
        else byLong takes i o ['-'] (c :: s) ++ parse takes T rest
  | a :: rest => .file a :: parse takes T rest

/-- The result of `parse_cmdline`: yasm stops if it is not 0 (yasm.c:759-760). -/
def errors (es : List Ev) : Nat := (es.filter fun | .needs _ => true | _ => false).length

def opt (c : Char) (l : String) (param : Bool) : Opt := ⟨if c = '-' then none else some c, if l.toList = [] then none else some l.toList, param⟩

/-- yasm.c:159-241: the options of yasm; no letter is given as `-`. -/
def table : List Opt := [
  opt '-' "version" false, opt '-' "license" false, opt 'h' "help" false, opt 'a' "arch" true, opt 'p' "parser" true, opt 'r' "preproc" true,
  opt 'f' "oformat" true, opt 'g' "dformat" true, opt 'L' "lformat" true, opt 'l' "list" true, opt 'o' "objfile" true, opt '-' "mapfile" true,
  opt 'm' "machine" true, opt '-' "force-strict" false, opt 'w' "" false, opt 'W' "" false, opt '-' "MD" true, opt '-' "MP" false, opt '-' "MT" true,
  opt 'M' "" false, opt '-' "makedep-dos2unix-slash" false, opt 'Z' "" true, opt 's' "" false, opt 'e' "preproc-only" false, opt 'E' "" false,
  opt 'i' "" true, opt 'I' "" true, opt 'P' "" true, opt 'd' "" true, opt 'D' "" true, opt 'u' "" true, opt 'U' "" true, opt 'X' "" true,
  opt '-' "prefix" true, opt '-' "suffix" true, opt '-' "postfix" true]

end Verif.Cmdline
