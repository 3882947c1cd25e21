import Verif.Intnum.Model
import Verif.Bitvect.Bits
/-
Specification of integers: what each operation means on mathematical integers.
-/
namespace Verif.Intnum
open Verif.Bitvect (ibit)

/-- The integer a number denotes. -/
def val : Intnum → Int
  | .L l => l.toInt
  | .BV v => v.toInt

/-- Reduction to 256-bit two's complement. -/
def wrap (z : Int) : Int := Int.bmod z (2 ^ 256)

def ofBool (b : Bool) : Int := if b then 1 else 0

/-- `OpRel op a b r`: r is the result of the operation on the integers a and b. Bitwise operations are
    given bit by bit on infinite two's complement; a shift by a negative count gives 0. -/
def OpRel : Op → Int → Int → Int → Prop
  | .IDENT, a, _, r => r = a
  | .ADD, a, b, r => r = wrap (a + b)
  | .SUB, a, b, r => r = wrap (a - b)
  | .MUL, a, b, r => r = wrap (a * b)
  | .DIV, a, b, r => r = wrap (a.tdiv b)
  | .SIGNDIV, a, b, r => r = wrap (a.tdiv b)
  | .MOD, a, b, r => r = a.tmod b
  | .SIGNMOD, a, b, r => r = a.tmod b
  | .NEG, a, _, r => r = wrap (-a)
  | .NOT, a, _, r => r = -a - 1
  | .OR, a, b, r => ∀ i, ibit r i = (ibit a i || ibit b i)
  | .AND, a, b, r => ∀ i, ibit r i = (ibit a i && ibit b i)
  | .XOR, a, b, r => ∀ i, ibit r i = (ibit a i ^^ ibit b i)
  | .XNOR, a, b, r => ∀ i, ibit r i = !(ibit a i ^^ ibit b i)
  | .NOR, a, b, r => ∀ i, ibit r i = !(ibit a i || ibit b i)
  | .SHL, a, b, r => r = if b < 0 then 0 else wrap (a * 2 ^ b.toNat)
  | .SHR, a, b, r => r = if b < 0 then 0 else a / 2 ^ b.toNat
  | .LOR, a, b, r => r = ofBool (a ≠ 0 || b ≠ 0)
  | .LAND, a, b, r => r = ofBool (a ≠ 0 && b ≠ 0)
  | .LNOT, a, _, r => r = ofBool (a = 0)
  | .LXOR, a, b, r => r = ofBool (decide (a ≠ 0) != decide (b ≠ 0))
  | .LXNOR, a, b, r => r = ofBool (decide (a ≠ 0) == decide (b ≠ 0))
  | .LNOR, a, b, r => r = ofBool (a = 0 && b = 0)
  | .LT, a, b, r => r = ofBool (a < b)
  | .GT, a, b, r => r = ofBool (a > b)
  | .EQ, a, b, r => r = ofBool (a = b)
  | .LE, a, b, r => r = ofBool (a ≤ b)
  | .GE, a, b, r => r = ofBool (a ≥ b)
  | .NE, a, b, r => r = ofBool (a ≠ b)
  | .NONNUM, _, _, _ => False
  | .SEG, _, _, _ => False
  | .WRT, _, _, _ => False
  | .SEGOFF, _, _, _ => False

/-- The operators that compute a number. -/
def Numeric (op : Op) : Prop := op ≠ .NONNUM ∧ op ≠ .SEG ∧ op ≠ .WRT ∧ op ≠ .SEGOFF
def IsDiv (op : Op) : Prop := op = .DIV ∨ op = .SIGNDIV ∨ op = .MOD ∨ op = .SIGNMOD

/-- The canonical form the library reduces results to: a `long` exactly for magnitudes below 2^31. -/
def Canon : Intnum → Prop
  | .L l => -(2 ^ 31) < l.toInt ∧ l.toInt < 2 ^ 31
  | .BV v => v.toInt ≤ -(2 ^ 31) ∨ 2 ^ 31 ≤ v.toInt

/-- The representations whose 256-bit conversion is exact and which do not hide a small value in a
    bit vector: all canonical numbers and all character constants are of this kind. -/
def Fits : Intnum → Prop
  | .L l => -(2 ^ 32) < l.toInt ∧ l.toInt < 2 ^ 32
  | .BV v => v.toInt < -255 ∨ 255 < v.toInt

/-- DWARF unsigned LEB128: value and number of bytes, `none` if unterminated. -/
def uleb : List (BitVec 8) → Option (Int × Nat)
  | [] => none
  | b :: bs =>
    if b.toNat < 128 then some (b.toNat, 1)
    else (uleb bs).map fun r => ((b.toNat : Int) - 128 + 128 * r.1, r.2 + 1)

/-- DWARF signed LEB128: the last byte contributes a 7-bit two's complement digit. -/
def sleb : List (BitVec 8) → Option (Int × Nat)
  | [] => none
  | b :: bs =>
    if b.toNat < 64 then some (b.toNat, 1)
    else if b.toNat < 128 then some ((b.toNat : Int) - 128, 1)
    else (sleb bs).map fun r => ((b.toNat : Int) - 128 + 128 * r.1, r.2 + 1)

/-- Decode with the chosen signedness. -/
def leb (sgn : Bool) (bs : List (BitVec 8)) : Option (Int × Nat) := if sgn then sleb bs else uleb bs

/-- Little-endian value of a byte string. -/
def leVal : List (BitVec 8) → Nat
  | [] => 0
  | b :: bs => b.toNat + 256 * leVal bs

/-- Big-endian value of a byte string. -/
def beVal (bs : List (BitVec 8)) : Nat := leVal bs.reverse

/-- Bit i of a byte buffer (bit 0 is the low bit of the first byte). -/
def bufBit (bs : List (BitVec 8)) (i : Nat) : Bool := (bs.getD (i / 8) 0#8).getLsbD (i % 8)

end Verif.Intnum
