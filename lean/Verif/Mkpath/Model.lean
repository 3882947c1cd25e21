import Mathlib.Data.List.Basic
/-
Model of creating the directories of a path: libyasm/file.c:468-528 `yasm__createpath_common` for Unix (`win` 0, with sys/stat.h).

The disk is a set of directories and a set of other files, each named by the parts of its path; `.`, `..` and symbolic links are not resolved.  Making a
directory fails only if its name is empty, if it exists or if its parent does not exist.
-/
namespace Verif.Mkpath

abbrev Str := List Char

/-- The parts of a path: what is between slashes, if not empty; `cur` is the part so far. -/
def partsFrom : Str → Str → List Str
  | cur, [] => if cur = [] then [] else [cur]
  | cur, c :: s => if c = '/' then (if cur = [] then partsFrom [] s else cur :: partsFrom [] s) else partsFrom (cur ++ [c]) s

/-- Whether a path starts at the root, and its parts. -/
abbrev Key := Bool × List Str

def key (p : Str) : Key := (p.head? == some '/', partsFrom [] p)

structure Disk where
  dirs : List Key
  files : List Key

/-- What stat tells; `missing` is ENOENT. -/
inductive Stat where
  | missing
  | dir
  | file
  deriving DecidableEq, Repr

/-- stat(2). -/
def stat (d : Disk) (p : Str) : Stat :=
  if p = [] then .missing
  else if key p ∈ d.files then .file
  else if (key p).2 = [] ∨ key p ∈ d.dirs then .dir
  else .missing

/-- mkdir(2); `none` is -1. -/
def mkdir (d : Disk) (p : Str) : Option Disk :=
  if p = [] then none
  else if stat d p ≠ .missing then none
  else if (key p).2.dropLast = [] ∨ ((key p).1, (key p).2.dropLast) ∈ d.dirs then some { d with dirs := key p :: d.dirs }
  else none

/-- What happens at a slash, file.c:510-520: go on, or leave the loop with a result. -/
inductive Step where
  | next (d : Disk)
  | leave (lth : Nat)

/-- file.c:510-520. -/
def atSlash (d : Disk) (lth : Nat) (ts : Str) : Step :=
  match stat d ts with
  | .dir => .next d
  | .file => .leave lth
  | .missing =>
    match mkdir d ts with
    | some d => .next d
    | none => .leave 0

/-- file.c:484-524: the loop; `ts` is the text so far, the rest is up to the last slash. -/
def loop (lth : Nat) : Disk → Str → Str → Disk × Nat
  | d, ts, [] =>
    match atSlash d lth ts with
    | .next d => (d, lth)
    | .leave n => (d, n)
  | d, ts, c :: r =>
    if c = '/' then
      match atSlash d lth ts with
      | .next d => loop lth d (ts ++ [c]) r
      | .leave n => (d, n)
    else loop lth d (ts ++ [c]) r

/-- file.c:475-482: the place of the last slash, or 0. -/
def lastSlash (path : Str) : Nat := (path.reverse.dropWhile (· ≠ '/')).length - 1

/-- file.c:468-528 `yasm__createpath_common`. -/
def createpath (d : Disk) (path : Str) : Disk × Nat := loop (lastSlash path) d [] (path.take (lastSlash path))

end Verif.Mkpath
