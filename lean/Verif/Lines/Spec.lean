import Verif.Lines.Model
/-
What files of lines look like.
-/
namespace Verif.Lines

/-- The end of a line: CR LF or LF. -/
def ending (crlf : Bool) : Str := if crlf then ['\r', '\n'] else ['\n']

/-- A line with its ending. -/
def write (l : Str × Bool) : Str := l.1 ++ ending l.2

/-- Text without newlines, carriage returns and zero characters. -/
def Plain (s : Str) : Prop := ∀ c ∈ s, c ≠ '\n' ∧ c ≠ '\r' ∧ c ≠ '\x00'

/-- For NASM: a line of several parts, with a backslash at the end of each but the last. -/
structure Long where
  parts : List (Str × Bool)
  last : Str × Bool
  deriving DecidableEq, Repr

/-- A part that goes on in the next line. -/
def writePart (p : Str × Bool) : Str := p.1 ++ '\\' :: ending p.2

def Long.write (l : Long) : Str := l.parts.flatMap writePart ++ Lines.write l.last

/-- The text it stands for. -/
def Long.text (l : Long) : Str := l.parts.flatMap (·.1) ++ l.last.1

/-- Its parts are plain and without ^Z, and its text does not end with a backslash. -/
structure Long.Ok (l : Long) : Prop where
  plain : Plain l.text
  ctrlZ : ∀ c ∈ l.text, c ≠ '\x1a'
  backslash : l.text.getLast? ≠ some '\\'

/-- Lines with the numbers they should have: that of the last of its parts. -/
def numbered : Nat → List Long → List (Str × Nat)
  | _, [] => []
  | n, l :: ls => (l.text, n + l.parts.length + 1) :: numbered (n + l.parts.length + 1) ls

end Verif.Lines
