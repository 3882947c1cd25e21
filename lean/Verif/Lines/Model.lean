import Mathlib.Data.List.Basic
/-
Model of the reading of source lines: modules/preprocs/raw/raw-preproc.c:73-115, modules/preprocs/gas/gas-preproc.c:195-235,
modules/preprocs/cpp/cpp-preproc.c:231-289 and modules/preprocs/nasm/nasm-pp.c:1196-1265.

A file is a list of characters; reading it does not fail.  Buffers have natural numbers as sizes (the code has them in an `int`).  The contents of a
buffer are kept up to `p`: what fgets has written behind a zero character is never looked at.  Loops have fuel; `none` for a loop is one that has not
ended yet.
-/
namespace Verif.Lines

abbrev Str := List Char

/-- fgets with room for `n` characters, with the zero at the end: `none` at the end of the file; what it has written, and the rest of the file.  With room
    for the zero only, it writes that (as the C libraries do). -/
def fgets : Nat → Str → Option (Str × Str)
  | 0, f => some ([], f)
  | 1, f => some ([], f)
  | _, [] => none
  | n + 2, c :: f =>
    if c = '\n' then some ([c], f)
    else
      match fgets (n + 1) f with
      | none => some ([c], f)
      | some (s, f') => some (c :: s, f')

/-- What strlen counts. -/
def cstr (s : Str) : Str := s.takeWhile (· ≠ '\x00')

/-- The new size of a buffer with `used` characters: raw-preproc.c:96-102, gas-preproc.c:218-224. -/
def growRaw (used size : Nat) : Nat := if used + 1 ≥ size then size * 2 else size

/-- cpp-preproc.c:267-273. -/
def growCpp (used size : Nat) : Nat := if used ≥ size then size * 2 else size

/-- nasm-pp.c:1232-1238; BUF_DELTA is 512. -/
def growNasm (used size : Nat) : Nat := if used + 10 > size then size + 512 else size

/-- raw-preproc.c:83-103 (and the same loops of the others): what is in the buffer, and the rest of the file. -/
def loop (grow : Nat → Nat → Nat) : Nat → Nat → Str → Str → Option (Str × Str)
  | 0, _, _, _ => none
  | fuel + 1, size, buf, f =>
    match fgets (size - buf.length) f with
    | none => some (buf, f)
    | some (s, f') =>
      let buf := buf ++ cstr s
      if buf.getLast? = some '\n' then some (buf, f') else loop grow fuel (grow buf.length size) buf f'

/-- A call that has ended: at the end of the file, or with a line, and the rest of the file. -/
inductive Got (α : Type) where
  | eof
  | line (l : α) (rest : Str)
  deriving DecidableEq, Repr

/-- raw-preproc.c:73-115 `raw_preproc_get_line`, gas-preproc.c:195-235 `read_line_from_file`, cpp-preproc.c:231-289 `cpp_preproc_get_line`; BSIZE is 512. -/
def getLine (grow : Nat → Nat → Nat) (fuel : Nat) (f : Str) : Option (Got Str) :=
  (loop grow fuel 512 [] f).map fun r => if r.1 = [] then .eof else .line (r.1.takeWhile fun c => c ≠ '\r' ∧ c ≠ '\n') r.2

/-- All the lines of a file, one call after the other. -/
def lines (grow : Nat → Nat → Nat) : Nat → Str → Option (List Str)
  | 0, _ => none
  | fuel + 1, f =>
    match getLine grow (fuel + 1) f with
    | none => none
    | some .eof => some []
    | some (.line l rest) => (lines grow fuel rest).map (l :: ·)

/-! ### NASM -/

/-- nasm-pp.c:1214-1230: a buffer that ends with a newline is cut before a backslash, if there is one, for a line that goes on. -/
def continued (buf : Str) : Option Str :=
  match buf.reverse with
  | '\n' :: '\r' :: '\\' :: r => some r.reverse
  | '\n' :: '\\' :: r => some r.reverse
  | _ => none

/-- nasm-pp.c:1206-1239: the buffer, the number of continuations, and the rest of the file. -/
def nasmLoop : Nat → Nat → Str → Nat → Str → Option (Str × Nat × Str)
  | 0, _, _, _, _ => none
  | fuel + 1, size, buf, n, f =>
    match fgets (size - buf.length) f with
    | none => some (buf, n, f)
    | some (s, f') =>
      let buf := buf ++ cstr s
      if buf.getLast? = some '\n' then
        match continued buf with
        | none => some (buf, n, f')
        | some buf => nasmLoop fuel (growNasm buf.length size) buf (n + 1) f'
      else nasmLoop fuel (growNasm buf.length size) buf n f'

/-- nasm-pp.c:1249-1260: newlines and carriage returns at the end are removed, and everything from a ^Z on. -/
def strip (buf : Str) : Str := ((buf.reverse.dropWhile fun c => c = '\n' ∨ c = '\r').reverse).takeWhile (· ≠ '\x1a')

/-- nasm-pp.c:1196-1265 `read_line`: the line, and by how much the line number grows (for `istk->lineinc` 1).  At the end of the file the buffer is
    empty. -/
def readLine (fuel : Nat) (f : Str) : Option (Got (Str × Nat)) :=
  (nasmLoop fuel 512 [] 0 f).map fun r => if r.1 = [] then .eof else .line (strip r.1, 1 + r.2.1) r.2.2

/-- All the lines with their numbers, from the number `at_` on: a line has the number of the last of its parts. -/
def nasmLines : Nat → Nat → Str → Option (List (Str × Nat))
  | 0, _, _ => none
  | fuel + 1, at_, f =>
    match readLine (fuel + 1) f with
    | none => none
    | some .eof => some []
    | some (.line l rest) => (nasmLines fuel (at_ + l.2) rest).map ((l.1, at_ + l.2) :: ·)

end Verif.Lines
