/-
Model of the Unix path functions of libyasm/file.c: yasm__splitpath_unix (183-203) and
yasm__combpath_unix (284-367).

Paths are lists of characters; only '/' and '.' are looked at.  A pointer walking left through a string is
represented by the reversed prefix that ends at it (the character it points to comes first), and the output
buffer, of which only an initial part `out[0..pathlen)` is in use, by that part reversed.  That the part in
use never exceeds the allocation is a theorem of `Verif.File.PathProps`.
-/

namespace Verif.File

/-- `strrchr(path, '/')`: the reversed prefix that ends at the last slash, and the text after it. -/
def strrchr : List Char → List Char → Option (List Char × List Char)
  | _, [] => none
  | seen, c :: t =>
    match strrchr (c :: seen) t with
    | some r => some r
    | none => if c = '/' then some (c :: seen, t) else none

/-- file.c:194-197: strip trailing "./", `s` at a slash preceded by a dot not itself preceded by a dot. -/
def stripDots : List Char → List Char
  | '/' :: '.' :: '.' :: t => '/' :: '.' :: '.' :: t
  | '/' :: '.' :: t => stripDots t
  | t => t

/-- file.c:199-200: strip trailing slashes, except one that begins the path. -/
def stripSlashes : List Char → List Char
  | '/' :: c :: t => stripSlashes (c :: t)
  | t => t

/-- yasm__splitpath_unix (file.c:183-203): the head, whose length is what the function returns, and the
    tail. -/
def splitpath (path : List Char) : List Char × List Char :=
  match strrchr [] path with
  | none => ([], path)
  | some (r, tail) => ((stripSlashes (stripDots r)).reverse, tail)

/-- The copying loops of file.c:295-299, 309-314 and 358-362: a slash followed by a slash is skipped. -/
def collapse : List Char → List Char
  | [] => []
  | c :: t => if c = '/' ∧ t.head? = some '/' then collapse t else c :: collapse t

/-- `while (*to == '/') to++`. -/
def skipSlashes : List Char → List Char
  | '/' :: t => skipSlashes t
  | t => t

/-- file.c:347-350: strip the trailing slash, then everything back to the slash before it. -/
def backUp : List Char → List Char
  | [] => []
  | _ :: t => t.dropWhile (· ≠ '/')

/-- file.c:346-351: back out the last directory unless at the root. -/
def backOne (out : List Char) : List Char := if 1 < out.length then backUp out else out

/-- Whether `out` ends in "../" (file.c:337-338). -/
def endsUp : List Char → Bool
  | '/' :: '.' :: '.' :: _ => true
  | _ => false

theorem skipSlashes_length (l : List Char) : (skipSlashes l).length ≤ l.length := by
  fun_induction skipSlashes l with
  | case1 t ih => simp only [List.length_cons]; omega
  | case2 t h => exact Nat.le_refl _

/-- The scanning loop of file.c:328-354; `out` reversed, `to` what is left. -/
def scan (out : List Char) : List Char → List Char × List Char
  | '.' :: '/' :: t => scan out (skipSlashes t)
  | '.' :: '.' :: '/' :: t =>
    if out = [] then (out, '.' :: '.' :: '/' :: t)
    else if endsUp out then (out, '.' :: '.' :: '/' :: t)
    else scan (backOne out) (skipSlashes t)
  | to => (out, to)
termination_by to => to.length
decreasing_by
  · have := skipSlashes_length t; simp only [List.length_cons]; omega
  · have := skipSlashes_length t; simp only [List.length_cons]; omega

/-- file.c:316-318: add the trailing slash back in (`out` reversed). -/
def addSlash : List Char → List Char
  | [] => []
  | '/' :: t => '/' :: t
  | t => '/' :: t

/-- yasm__combpath_unix (file.c:284-367). -/
def combpath (src to : List Char) : List Char :=
  if to.head? = some '/' then collapse to
  else
    let r := scan (addSlash (collapse (splitpath src).1).reverse) to
    r.1.reverse ++ collapse r.2

/-- The size allocated for the result (file.c:292, 306). -/
def combAlloc (src to : List Char) : Nat :=
  if to.head? = some '/' then to.length + 1
  else (splitpath src).1.length + to.length + 2

end Verif.File
