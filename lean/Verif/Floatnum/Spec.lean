/-
What floating-point numbers are supposed to do: the value of a decimal literal, the value of an internal
number, rounding to a number of significant bits, and the meaning of the emitted bytes.  Independent of the
code's algorithm.
-/
import Verif.Floatnum.Model
import Mathlib.Algebra.Order.Field.Basic
import Mathlib.Algebra.Order.Ring.Rat
import Mathlib.Data.Rat.Lemmas

namespace Verif.Floatnum.Spec

open Verif.Floatnum

/-! ### Decimal literals -/

/-- A decimal literal: sign character, digits before the point, digits after it (if there is a point),
    exponent (if there is one). -/
structure Literal where
  sign : Option Bool
  whole : List (Fin 10)
  frac : Option (List (Fin 10))
  exp : Option (Option Bool × List (Fin 10))

/-- A digit as a character. -/
def digitChar (d : Fin 10) : Char := Char.ofNat (48 + d.val)

/-- A sign as text; `true` is minus. -/
def signText : Option Bool → List Char
  | none => []
  | some true => ['-']
  | some false => ['+']

/-- The text of a literal. -/
def Literal.text (l : Literal) : List Char :=
  signText l.sign ++ l.whole.map digitChar ++
    (match l.frac with | none => [] | some f => '.' :: f.map digitChar) ++
    (match l.exp with | none => [] | some (s, e) => 'e' :: (signText s ++ e.map digitChar))

/-- The number a string of digits denotes. -/
def natValue (ds : List (Fin 10)) : Nat := ds.foldl (fun v d => v * 10 + d.val) 0

/-- The digits after the point. -/
def Literal.fracDigits (l : Literal) : List (Fin 10) := l.frac.getD []

/-- The decimal exponent. -/
def Literal.expValue (l : Literal) : Int :=
  match l.exp with
  | none => 0
  | some (s, e) => if s = some true then -(natValue e : Int) else natValue e

/-- The magnitude the literal denotes. -/
def Literal.magnitude (l : Literal) : ℚ :=
  (natValue (l.whole ++ l.fracDigits) : ℚ) * (10 : ℚ) ^ (l.expValue - (l.fracDigits.length : Int))

/-- The literal starts with a minus sign. -/
def Literal.negative (l : Literal) : Bool := l.sign == some true

/-- The number of digits from the first non-zero one on. -/
def Literal.significant (l : Literal) : Nat :=
  ((l.whole ++ l.fracDigits).dropWhile (· == 0)).length

/-! ### Values -/

/-- The magnitude of an internal number: an 80-bit mantissa with the point after its first bit, and an
    exponent biased by 0x7FFF. -/
def value (f : Flt) : ℚ := (f.mant.toNat : ℚ) * (2 : ℚ) ^ ((f.exp : ℤ) - 0x7FFF - 79)

/-- The first bit of the mantissa is set. -/
def Normal (f : Flt) : Prop := 2 ^ 79 ≤ f.mant.toNat

/-- The numbers of `p` significant bits (and any exponent). -/
def Representable (p : Nat) (y : ℚ) : Prop :=
  ∃ (q : Nat) (j : Int), 2 ^ (p - 1) ≤ q ∧ q < 2 ^ p ∧ y = (q : ℚ) * (2 : ℚ) ^ j

/-- `d` is `x` rounded to `p` significant bits: no number of `p` bits is nearer, and of two equally near
    it is the greater. -/
structure Rounded (p : Nat) (x d : ℚ) : Prop where
  repr : Representable p d
  nearest : ∀ y, Representable p y → |x - d| ≤ |x - y|
  halfUp : ∀ y, Representable p y → |x - y| = |x - d| → y ≤ d

/-- Digits and exponent of a literal are small enough for the decimal exponent to stay in the range of
    `int` throughout. -/
def Readable (l : Literal) : Prop :=
  l.whole.length + l.fracDigits.length + l.expValue.natAbs ≤ 2147483647

/-- `f` is a reading of the magnitude `x` with relative error at most `ε`: a normal number that close, or
    infinity or zero, the latter only beyond the range of every format. -/
inductive Result (x : ℚ) (ε : ℚ) (f : Flt) : Prop
  | near (normal : Normal f) (top : f.exp ≤ 0xFFFF) (close : |value f - x| ≤ x * ε)
  | over (exp : f.exp = 0xFFFF) (mant : Normal f ∨ f.mant = 0) (far : (2 : ℚ) ^ (32759 : ℤ) ≤ x)
  | under (exp : f.exp = 0) (mant : f.mant = 0) (far : x ≤ (2 : ℚ) ^ (-32759 : ℤ))

/-! ### Formats -/

/-- A binary interchange format: bytes, bits of the fraction field, whether the leading bit is implied,
    bits of the exponent. -/
structure Format where
  bytes : Nat
  mantBits : Nat
  hidden : Bool
  expBits : Nat

/-- IEEE half, single, double precision, and the 80-bit extended format. -/
def half : Format := ⟨2, 10, true, 5⟩
def single : Format := ⟨4, 23, true, 8⟩
def double : Format := ⟨8, 52, true, 11⟩
def extended : Format := ⟨10, 64, false, 15⟩

/-- The four formats the assembler emits. -/
def formats : List Format := [half, single, double, extended]

/-- Significant bits. -/
def Format.precision (F : Format) : Nat := if F.hidden then F.mantBits + 1 else F.mantBits

/-- Exponent bias. -/
def Format.bias (F : Format) : Nat := 2 ^ (F.expBits - 1) - 1

/-- Little-endian bytes as a number. -/
def leNat : List (BitVec 8) → Nat
  | [] => 0
  | b :: t => b.toNat + 256 * leNat t

/-- The three fields of an encoded number. -/
def mantField (F : Format) (bytes : List (BitVec 8)) : Nat := leNat bytes % 2 ^ F.mantBits
def expField (F : Format) (bytes : List (BitVec 8)) : Nat := leNat bytes / 2 ^ F.mantBits % 2 ^ F.expBits
def signField (F : Format) (bytes : List (BitVec 8)) : Nat := leNat bytes / 2 ^ (F.mantBits + F.expBits)

/-- The bytes encode a normal number. -/
def IsNormal (F : Format) (bytes : List (BitVec 8)) : Prop :=
  0 < expField F bytes ∧ expField F bytes < 2 ^ F.expBits - 1 ∧
    (F.hidden = false → 2 ^ (F.mantBits - 1) ≤ mantField F bytes)

/-- The magnitude of a normal number. -/
def decode (F : Format) (bytes : List (BitVec 8)) : ℚ :=
  ((mantField F bytes + (if F.hidden then 2 ^ F.mantBits else 0) : Nat) : ℚ) *
    (2 : ℚ) ^ ((expField F bytes : ℤ) - (F.bias : ℤ) - ((F.precision : ℤ) - 1))

/-- The bytes encode zero. -/
def IsZero (F : Format) (bytes : List (BitVec 8)) : Prop :=
  expField F bytes = 0 ∧ mantField F bytes = 0

/-- The bytes encode an infinity: all-ones exponent, fraction zero, and in the format with an explicit
    leading bit that bit set. -/
def IsInfinity (F : Format) (bytes : List (BitVec 8)) : Prop :=
  expField F bytes = 2 ^ F.expBits - 1 ∧
    mantField F bytes = (if F.hidden then 0 else 2 ^ (F.mantBits - 1))

end Verif.Floatnum.Spec
