import Verif.Cmdline.Model
/-
What is written on a command line, and what it stands for: `-s`, `-s value`, `-svalue`, `--name`, `--name=value`, `--`, and file names (help text of
yasm; frontends/yasm/yasm-options.h:29-31).
-/
namespace Verif.Cmdline

/-- The things a user writes. -/
inductive Item where
  /-- `-c`, with more text, as in `-Wno-foo` -/
  | flag (i : Nat) (text : Str)
  /-- `-cvalue` -/
  | joined (i : Nat) (value : Str)
  /-- `-c value` -/
  | separate (i : Nat) (value : Str)
  /-- `--name` -/
  | long (i : Nat)
  /-- `--name=value` -/
  | longValue (i : Nat) (value : Str)
  /-- `--name` of an option that takes a value -/
  | valueless (i : Nat)
  /-- an option that does not exist -/
  | unknown (a : Str)
  /-- `-O` and digits, taken for compatibility -/
  | optimize (digits : Str)
  | file (a : Str)
  deriving DecidableEq, Repr

/-- The letter and the name of an option of the table. -/
def letter (T : List Opt) (i : Nat) : Char := (((T[i]?).bind (·.sopt))).getD '?'
def name (T : List Opt) (i : Nat) : Str := (((T[i]?).bind (·.lopt))).getD []

/-- How it is written. -/
def Item.args (T : List Opt) : Item → List Str
  | .flag i text => ['-' :: letter T i :: text]
  | .joined i v => ['-' :: letter T i :: v]
  | .separate i v => [['-', letter T i], v]
  | .long i => ['-' :: '-' :: name T i]
  | .longValue i v => ['-' :: '-' :: (name T i ++ '=' :: v)]
  | .valueless i => ['-' :: '-' :: name T i]
  | .unknown a => [a]
  | .optimize d => ['-' :: 'O' :: d]
  | .file a => [a]

/-- What it means. -/
def Item.events (T : List Opt) : Item → List Ev
  | .flag i text => [.call i (letter T i :: text) none]
  | .joined i v => [.call i (letter T i :: v) (some v)]
  | .separate i v => [.call i [letter T i] (some v)]
  | .long i => [.call i (name T i) none]
  | .longValue i v => [.call i (name T i) (some v)]
  | .valueless i => [.needs i]
  | .unknown a => [.unrecognized a]
  | .optimize _ => []
  | .file a => [.file a]

/-- The characters a long name ends before. -/
def Ends (s : Str) : Prop := s = [] ∨ ∃ c t, s = c :: t ∧ (c = '=' ∨ c ∈ [' ', '\t', '\n', '\x0b', '\x0c', '\r'])

/-- A text is the name of a long option, perhaps with more behind it. -/
def Names (T : List Opt) (s : Str) : Prop := ∃ o ∈ T, ∃ l t, o.lopt = some l ∧ s = l ++ t ∧ Ends t

def Letter (T : List Opt) (i : Nat) (param : Bool) : Prop := ∃ o c, T[i]? = some o ∧ o.sopt = some c ∧ o.param = param
def Long (T : List Opt) (i : Nat) (param : Bool) : Prop := ∃ o l, T[i]? = some o ∧ o.lopt = some l ∧ o.param = param

/-- It is written as the documentation says: options exist, those that take values have them and the others do not; text behind a letter does not make it
    a long name; a value that stands for itself does not start with a dash; a file name does not either, unless it is just a dash. -/
def Item.Ok (takes : Nat → Str → Option Str → Bool) (T : List Opt) : Item → Prop
  | .flag i text => Letter T i false ∧ ¬ Names T (letter T i :: text) ∧ takes i (letter T i :: text) none = true
  | .joined i v => Letter T i true ∧ v ≠ [] ∧ ¬ Names T (letter T i :: v) ∧ takes i (letter T i :: v) (some v) = true
  | .separate i v => Letter T i true ∧ v.head? ≠ some '-' ∧ ¬ Names T [letter T i] ∧ takes i [letter T i] (some v) = true
  | .long i => Long T i false ∧ takes i (name T i) none = true
  | .longValue i v => Long T i true ∧ takes i (name T i) (some v) = true
  | .valueless i => Long T i true
  | .unknown a => (∃ s, a = '-' :: '-' :: s ∧ s ≠ [] ∧ ¬ Names T s) ∨
      (∃ c s, a = '-' :: c :: s ∧ c ≠ '-' ∧ c ≠ 'O' ∧ (∀ o ∈ T, o.sopt ≠ some c) ∧ ¬ Names T (c :: s))
  | .optimize d => d.all Char.isDigit = true ∧ (∀ o ∈ T, o.sopt ≠ some 'O') ∧ ¬ Names T ('O' :: d)
  | .file a => a.head? ≠ some '-' ∨ a = ['-']

/-- Tables of options: no letter and no name twice; no letter is a dash; names are not empty and have no `=` and no white space. -/
structure TableOk (T : List Opt) : Prop where
  letters : T.Pairwise fun a b => a.sopt = none ∨ a.sopt ≠ b.sopt
  names : T.Pairwise fun a b => a.lopt = none ∨ a.lopt ≠ b.lopt
  dash : ∀ o ∈ T, o.sopt ≠ some '-'
  name : ∀ o ∈ T, ∀ l ∈ o.lopt, l ≠ [] ∧ ∀ c ∈ l, c ≠ '=' ∧ c ∉ [' ', '\t', '\n', '\x0b', '\x0c', '\r']

end Verif.Cmdline
