/-
Specification for C71: what can be written with a name.
-/
import Verif.Match.Spec
import Verif.Match.Lookup

namespace Verif.Match

/-- A form can be written with a name in a syntax: in that of GAS the letter at the end of the name has to be one of the form's. -/
def Writable (k : Keyword) (parser : Parser) (f : Form) : Prop :=
  if parser = .gas then f.gasIllegal = false ∧ ∃ b, k.suffixBits.getLsbD b = true ∧ f.suffixes.getLsbD b = true
  else f.gasOnly = false

/-- A form can be used in a mode. -/
def ForMode (mode : Nat) (f : Form) : Prop := if mode = 64 then f.not64 = false else f.only64 = false

/-- The name is refused in the mode. -/
def ModeRefused (r : Named) : Prop := r = .only64 ∨ r = .not64

/-- The same letters, in either case. -/
def SameName (id : List Char) (name : String) : Prop := id.map lower = name.toList

end Verif.Match
