import Verif.Comment.Model
/-
What comments are: read character by character.
-/
namespace Verif.Comment

/-- The text outside of comments, and whether a comment is open at the end; from within a comment or not. -/
def clean : Bool → Str → Str × Bool
  | o, [] => ([], o)
  | true, [_] => ([], true)
  | false, [c] => ([c], false)
  | true, c :: d :: s => if c = '*' ∧ d = '/' then clean false s else clean true (d :: s)
  | false, c :: d :: s =>
    if c = '/' ∧ d = '*' then clean true s else let r := clean false (d :: s); (c :: r.1, r.2)

/-- The same for the lines of a file. -/
def cleanAll : Bool → List Str → List Str
  | _, [] => []
  | o, l :: ls => (clean o l).1 :: cleanAll (clean o l).2 ls

/-- The line is no comment as a whole (`#` or `//` at its start). -/
def NoLineComment (l : Str) : Prop := (l.dropWhile isSpace).head? ≠ some '#' ∧ (l.dropWhile isSpace).take 2 ≠ ['/', '/']

end Verif.Comment
