import Verif.Param.Model
/-
How the line of a macro and the arguments of a call are written, and what they mean.
-/
namespace Verif.Param
open Verif.Comment (Str isSpace)

/-- A name that can be a parameter. -/
def Name (n : Str) : Prop := ∃ c r, n = c :: r ∧ (c.isAlpha || c = '_' || c = '.') = true ∧ r.all isNext = true

/-- A line: text, then references to parameters, each with text behind it. -/
structure Body where
  start : Str
  refs : List (Str × Str)
  deriving DecidableEq, Repr

def writeRefs : List (Str × Str) → Str
  | [] => []
  | r :: rs => '\\' :: (r.1 ++ (r.2 ++ writeRefs rs))

def Body.write (b : Body) : Str := b.start ++ writeRefs b.refs

/-- The line with the values of the parameters. -/
def meanRefs (val : Str → Str) : List (Str × Str) → Str
  | [] => []
  | r :: rs => val r.1 ++ (r.2 ++ meanRefs val rs)

def Body.mean (b : Body) (val : Str → Str) : Str := b.start ++ meanRefs val b.refs

/-- No backslashes in the text, and text behind a name is no part of it. -/
structure Body.Ok (b : Body) : Prop where
  start : '\\' ∉ b.start
  names : ∀ r ∈ b.refs, Name r.1
  texts : ∀ r ∈ b.refs, '\\' ∉ r.2 ∧ ∀ c, r.2.head? = some c → isNext c = false

/-- Arguments, each with a comma and blanks behind it, but for the last. -/
def writeArgs : List (Str × Str) → Str
  | [] => []
  | [a] => a.1
  | a :: as => a.1 ++ (',' :: (a.2 ++ writeArgs as))

/-- Arguments are without white space and commas; they may be empty. -/
def ArgOk (a : Str × Str) : Prop := (∀ c ∈ a.1, isSpace c = false ∧ c ≠ ',') ∧ ∀ c ∈ a.2, isSpace c = true

/-- What a parameter stands for: its argument, if there is one that is not empty, or else its default, or else nothing. -/
def meaning (p : Param) (arg : Str) : Str := if arg ≠ [] then arg else p.default.getD []

end Verif.Param
