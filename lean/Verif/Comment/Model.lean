import Mathlib.Data.List.Basic
/-
Model of the removal of comments in the GAS preprocessor: modules/preprocs/gas/gas-preproc.c:1052-1111.  A line is a list of characters; a pointer into it
is the list from there on.
-/
namespace Verif.Comment

abbrev Str := List Char

/-- isspace in the C locale. -/
def isSpace (c : Char) : Bool := c = ' ' || c = '\t' || c = '\n' || c = '\x0b' || c = '\x0c' || c = '\r'

/-- strstr with a string of two characters: what is before it, and what is behind it. -/
def cut (a b : Char) : Str → Option (Str × Str)
  | [] => none
  | [_] => none
  | c :: d :: s => if c = a ∧ d = b then some ([], s) else (cut a b (d :: s)).map fun r => (c :: r.1, r.2)

/-- gas-preproc.c:1052-1059 `find_str_bound`: how far the next quote is. -/
def strBound : Str → Option Nat
  | [] => none
  | '"' :: _ => some 0
  | '\\' :: '"' :: s => (strBound s).map (· + 2)
  | _ :: s => (strBound s).map (· + 1)

/-- gas-preproc.c:1066-1072: the loop, from the quote at `s` on; `c` is the place of the comment.  The second search starts behind the quote, the first one
    of the next round at the quote that was found. -/
def inner (line : Str) (c : Nat) : Nat → Nat → Bool
  | 0, _ => false
  | fuel + 1, s =>
    match strBound (line.drop s) with
    | none => true
    | some k =>
      if s + k > c then true
      else
        match strBound (line.drop (s + k + 1)) with
        | none => false
        | some j => if s + k + 1 + j > c then false else inner line c fuel (s + k + 1 + j)

/-- gas-preproc.c:1061-1076 `find_comment`: what is before the comment, and what is behind its start.  Both ways out of the inner loop end the function. -/
def findComment (line : Str) : Option (Str × Str) :=
  match cut '/' '*' line with
  | none => none
  | some r => if inner line r.1.length (line.length + 1) 0 then some r else none

/-- gas-preproc.c:1097-1110: from within a comment on: what is left of the text, and whether the comment is still open. -/
def inside : Nat → Str → Str × Bool
  | 0, _ => ([], true)
  | fuel + 1, s =>
    match cut '*' '/' s with
    | none => ([], true)
    | some r =>
      match cut '/' '*' r.2 with
      | none => (r.2, false)
      | some q => let t := inside fuel q.2; (q.1 ++ t.1, t.2)

/-- gas-preproc.c:1078-1111 `kill_comments`, with `in_comment`: the line and the new `in_comment`. -/
def kill (open_ : Bool) (line : Str) : Str × Bool :=
  let blank := line.takeWhile isSpace
  let text := line.dropWhile isSpace
  if text.head? = some '#' ∨ text.take 2 = ['/', '/'] then (blank, open_)
  else if open_ then
    let t := inside (text.length + 1) text
    (blank ++ t.1, t.2)
  else
    match findComment text with
    | none => (line, false)
    | some r => let t := inside (text.length + 1) r.2; (blank ++ (r.1 ++ t.1), t.2)

/-- The lines of a file, one after the other. -/
def killAll : Bool → List Str → List Str
  | _, [] => []
  | o, l :: ls => (kill o l).1 :: killAll (kill o l).2 ls

end Verif.Comment
