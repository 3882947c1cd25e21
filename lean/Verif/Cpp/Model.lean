import Mathlib.Data.List.Basic
/-
Model of the preprocessor that runs an external C preprocessor: modules/preprocs/cpp/cpp-preproc.c, the command line (lines 33-130, 187-214, 337-378) and the
dependencies (lines 289-335).

Strings are C strings, lists of characters without a zero.  The external program is not modelled: its output is any text.
-/
namespace Verif.Cpp

abbrev Str := List Char

/-! ### The command line -/

/-- cpp-preproc.c:45-57 `cpp_arg_entry`. -/
structure Arg where
  op : Str
  param : Str
  deriving DecidableEq, Repr

/-- Requests to the preprocessor: cpp-preproc.c:337-378 `add_include_file`, `predefine_macro`, `undefine_macro`, `define_builtin`. -/
inductive Req where
  | pre (file : Str)
  | define (m : Str)
  | undefine (m : Str)
  | builtin (m : Str)
  deriving DecidableEq, Repr

/-- cpp-preproc.c:337-378: the entry a request adds. -/
def Req.arg : Req → Arg
  | .pre f => ⟨"-include".toList, f⟩
  | .define m => ⟨"-D".toList, m⟩
  | .undefine m => ⟨"-U".toList, m⟩
  | .builtin m => ⟨"-D".toList, m⟩

/-- cpp-preproc.c:203-210: the entries made at the start, then those of the requests, each at the end of the list. -/
def argsOf (dirs : List Str) (rs : List Req) : List Arg :=
  rs.foldl (fun l r => l ++ [r.arg]) (dirs.foldl (fun l d => l ++ [⟨"-I".toList, d⟩]) [])

/-- cpp-preproc.c:33 `CMDLINE_SIZE`. -/
def size : Nat := 32770

/-- cpp-preproc.c:84-90 `APPEND`; `none` is the fatal error "command line too long!". -/
def append (buf : Option Str) (s : Str) : Option Str :=
  match buf with
  | none => none
  | some b => if b.length + s.length ≥ size then none else some (b ++ s)

/-- cpp-preproc.c:111-118: the entries of the list. -/
def appendArgs (buf : Option Str) : List Arg → Option Str
  | [] => buf
  | a :: l => appendArgs (append (append (append (append buf [' ']) a.op) [' ']) a.param) l

/-- cpp-preproc.c:121-124: the extra argument. -/
def appendExtra (buf : Option Str) (extra : Option Str) : Option Str :=
  match extra with
  | none => buf
  | some e => append (append buf [' ']) e

/-- cpp-preproc.c:96-130 `cpp_build_cmdline`. -/
def build (prog : Str) (args : List Arg) (extra : Option Str) (file : Str) : Option Str :=
  append (append (appendExtra (appendArgs (some prog) args) extra) " -x assembler-with-cpp ".toList) file

/-! ### The dependencies -/

/-- cpp-preproc.c:304-305: up to the first colon; `none` is the loop without an end, as `fgetc` returns EOF again and again. -/
def skipTarget : Str → Option Str
  | [] => none
  | c :: s => if c = ':' then some s else skipTarget s

/-- cpp-preproc.c:309-313: up to the first blank; `none` is the end of the file. -/
def skipSource : Str → Option Str
  | [] => none
  | c :: s => if c = ' ' then some s else skipSource s

/-- cpp-preproc.c:316-334: one name of at most `max` characters; what is returned, what is in the buffer, and the rest of the file. -/
def readName (max : Nat) (acc : Str) : Str → Nat × Str × Str
  | [] => if acc.length < max then (acc.length, acc, []) else (acc.length, acc.dropLast, [])
  | c :: s =>
    if acc.length < max then
      if c = ' ' then (acc.length, acc, s)
      else if c < ' ' then readName max acc s
      else readName max (acc ++ [c]) s
    else (acc.length, acc.dropLast, c :: s)

/-- frontends/yasm/yasm.c:335: the calls, until one returns 0. -/
def readAll (max : Nat) : Nat → Str → List Str
  | 0, _ => []
  | fuel + 1, s =>
    match readName max [] s with
    | (0, _, _) => []
    | (_ + 1, name, rest) => name :: readAll max fuel rest

/-- cpp-preproc.c:289-335 `cpp_preproc_get_included_file`, all calls, on the output of the external program; `none` is a loop without an end. -/
def included (max : Nat) (out : Str) : Option (List Str) :=
  match skipTarget out with
  | none => none
  | some s =>
    match skipSource (s.drop 1) with
    | none => some []
    | some s => some (readAll max (s.length + 1) s)

end Verif.Cpp
