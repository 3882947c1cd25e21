import Verif.Pp.Tok
/-
Lines of text and lines of tokens.
modules/preprocs/nasm/nasm-pp.c
-/
namespace Verif.Pp

/-! Classes of characters in the C locale; characters of 128 and more are in none (as `char`s they
are negative there, which the C library takes). -/

/-- `isdigit`. -/
def isDigit (c : Nat) : Bool := decide (48 ≤ c ∧ c ≤ 57)
/-- `isalpha`. -/
def isAlpha (c : Nat) : Bool := decide (65 ≤ c ∧ c ≤ 90 ∨ 97 ≤ c ∧ c ≤ 122)
/-- `isspace`. -/
def isSpace (c : Nat) : Bool := decide (c = 32 ∨ (9 ≤ c ∧ c ≤ 13))
/-- `isidstart` (nasm.h:243-244). -/
def isIdStart (c : Nat) : Bool := isAlpha c || decide (c = 95 ∨ c = 46 ∨ c = 63 ∨ c = 64)
/-- `isidchar` (nasm.h:245-246). -/
def isIdChar (c : Nat) : Bool := isIdStart c || isDigit c || decide (c = 36 ∨ c = 35 ∨ c = 126)
/-- `isnumchar` (nasm.h:251). -/
def isNumChar (c : Nat) : Bool := isAlpha c || isDigit c

/-- A test of the first character; the NUL at the end passes none of the tests. -/
def first (p : Nat → Bool) : Name → Bool
  | [] => false
  | c :: _ => p c

/-- The operators of two characters (nasm-pp.c:1395-1406). -/
def pairs : List (Nat × Nat) :=
  [(62, 62), (60, 60), (47, 47), (60, 61), (62, 61), (61, 61), (33, 61), (60, 62), (38, 38), (124, 124), (94, 94)]

/-- One turn of the loop of `tokenise` for the line `c :: s` (nasm-pp.c:1282-1428): the token,
    unless it is a comment, and the rest of the line.  A token of white space has no text; it is
    given as one space here, as `detoken` writes it. -/
def lexOne (c : Nat) (s : Name) : Option Tok × Name :=
  if c = 37 then
    match s with
    | [] => (some ⟨.other, [37]⟩, [])
    | d :: r =>
      if isDigit d || ((decide (d = 45) || decide (d = 43)) && first isDigit r) ||
          (decide (d = 43) && (first isSpace r || r.isEmpty)) then
        (some ⟨.ppid, 37 :: d :: r.takeWhile isDigit⟩, r.dropWhile isDigit)
      else if d = 123 then
        (some ⟨.ppid, 37 :: r.takeWhile (fun x => decide (x ≠ 125))⟩,
          (r.dropWhile (fun x => decide (x ≠ 125))).drop 1)
      else if isIdChar d || ((decide (d = 33) || decide (d = 37) || decide (d = 36)) && first isIdChar r) then
        (some ⟨.ppid, 37 :: d :: r.takeWhile isIdChar⟩, r.dropWhile isIdChar)
      else if d = 37 then (some ⟨.other, [37, 37]⟩, r)
      else (some ⟨.other, [37]⟩, d :: r)
  else if isIdStart c || (decide (c = 36) && first isIdStart s) then
    (some ⟨.id, c :: s.takeWhile isIdChar⟩, s.dropWhile isIdChar)
  else if c = 39 ∨ c = 34 then
    (some ⟨.str, c :: (s.takeWhile (fun x => decide (x ≠ c)) ++ [c])⟩,
      (s.dropWhile (fun x => decide (x ≠ c))).drop 1)
  else if isDigit c || decide (c = 36) then
    (some ⟨.num, c :: s.takeWhile isNumChar⟩, s.dropWhile isNumChar)
  else if isSpace c then
    let r := s.dropWhile isSpace
    if r.isEmpty || first (fun x => decide (x = 59)) r then (none, []) else (some ⟨.white, [32]⟩, r)
  else if c = 59 then (none, [])
  else
    match s with
    | d :: r => if pairs.contains (c, d) then (some ⟨.other, [c, d]⟩, r) else (some ⟨.other, [c]⟩, d :: r)
    | [] => (some ⟨.other, [c]⟩, [])

/-- `tokenise` (nasm-pp.c:1272-1431); the fuel is the length of the line. -/
def tokeniseF : Nat → Name → List Tok
  | _, [] => []
  | 0, _ :: _ => []
  | n + 1, c :: s => (lexOne c s).1.toList ++ tokeniseF n (lexOne c s).2

/-- The same with the fuel. -/
def tokenise (line : Name) : List Tok := tokeniseF line.length line

/-- Names that `detoken` replaces: environment variables `%!x` and names local to a context `%$x`. -/
def Tok.isOuter (t : Tok) : Bool :=
  decide (t.ty = .ppid) && (match t.text with | _ :: 33 :: _ => true | _ :: 36 :: _ => true | _ => false)

/-- `detoken` (nasm-pp.c:1534-1597); what environment variables and local names are replaced by is
    arbitrary. -/
def detoken (outer : Name → Name) (l : List Tok) : Name :=
  l.flatMap (fun t => if t.ty = .white then [32] else if t.isOuter then outer t.text else t.text)

end Verif.Pp
