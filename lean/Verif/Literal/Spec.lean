import Verif.Intnum.Spec
import Verif.Literal.Model
/-
Specification of numeric literals: the number a digit string denotes.
-/
namespace Verif.Literal

/-- Value of a digit character in bases up to 16 (99 for anything else). -/
def digitOf (c : BitVec 8) : Nat :=
  if 48 ≤ c.toNat ∧ c.toNat ≤ 57 then c.toNat - 48
  else if 65 ≤ c.toNat ∧ c.toNat ≤ 70 then c.toNat - 55
  else if 97 ≤ c.toNat ∧ c.toNat ≤ 102 then c.toNat - 87
  else 99

/-- The underscore, allowed between digits of hexadecimal, octal and binary literals. -/
def us : BitVec 8 := 0x5F#8

/-- The number denoted by a digit string in the given base; underscores are skipped. -/
def litVal (base : Nat) (s : List (BitVec 8)) : Nat :=
  s.foldl (fun acc c => if c = us then acc else acc * base + digitOf c) 0

/-- A well-formed literal of the base. -/
def ValidLit (base : Nat) (s : List (BitVec 8)) : Prop := ∀ c ∈ s, c = us ∨ digitOf c < base

/-- Number of digits of a literal. -/
def numDigits (s : List (BitVec 8)) : Nat := (s.filter (· ≠ us)).length

/-- All characters are decimal digits. -/
def DecDigits (s : List (BitVec 8)) : Prop := ∀ c ∈ s, 48 ≤ c.toNat ∧ c.toNat ≤ 57

/-- The decimal value. -/
def decVal (s : List (BitVec 8)) : Nat := s.foldl (fun acc c => acc * 10 + (c.toNat - 48)) 0

end Verif.Literal
