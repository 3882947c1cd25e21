/-
What a path denotes lexically: whether it is absolute, and the names left after "", "." and ".." are
resolved.
-/

namespace Verif.File.Spec

/-- The components of a path: the maximal stretches without slashes. -/
def parts : List Char → List (List Char)
  | [] => [[]]
  | c :: t =>
    if c = '/' then [] :: parts t
    else
      match parts t with
      | [] => [[c]]
      | p :: ps => (c :: p) :: ps

/-- Apply one component to the names collected so far (innermost first).  ".." removes the innermost name;
    at the root it does nothing, at the start of a relative path (or after other "..") it is kept. -/
def enter (abs : Bool) (names : List (List Char)) (c : List Char) : List (List Char) :=
  if c = [] ∨ c = ['.'] then names
  else if c = ['.', '.'] then
    match names with
    | [] => if abs then [] else [c]
    | n :: t => if n = ['.', '.'] then c :: names else t
  else c :: names

def isAbs (p : List Char) : Bool := decide (p.head? = some '/')

/-- The file a path names, symbolic links aside. -/
def resolve (p : List Char) : Bool × List (List Char) :=
  (isAbs p, (parts p).foldl (enter (isAbs p)) [])

/-- The directory part of a path as text: everything up to and including the last slash. -/
def dirText (p : List Char) : List Char := (p.reverse.dropWhile (· ≠ '/')).reverse

/-- The last component of a path as text: everything after the last slash. -/
def tailText (p : List Char) : List Char := (p.reverse.takeWhile (· ≠ '/')).reverse

/-- Head and tail put together again. -/
def rejoin (head tail : List Char) : List Char :=
  if head = [] ∨ head.getLast? = some '/' then head ++ tail else head ++ '/' :: tail

/-- A directory name such as "foo.": it ends in exactly one dot but is not ".". -/
def dotted (c : List Char) : Prop := ∃ x d, c = x ++ [d, '.'] ∧ d ≠ '.'

/-- `to` starts by leaving the directory: "../", after any "./". -/
inductive LeavesDir : List Char → Prop
  | up (t) : LeavesDir ('.' :: '.' :: '/' :: t)
  | here (t) (h : LeavesDir t) : LeavesDir ('.' :: '/' :: t)
  | slash (t) (h : LeavesDir t) : LeavesDir ('/' :: t)

end Verif.File.Spec
