/-
Model of libyasm/floatnum.c: the 97-bit internal format, multiplication, reading of decimal literals and
conversion to the 16-, 32-, 64- and 80-bit formats.

Mantissas are `BitVec 80`; the vector operations are those of `Verif.Bitvect`.  Texts are lists of
characters.  `int` variables are integers, an out-of-range decimal exponent being the outcome `none`
(undefined behaviour in C); texts are assumed shorter than 2^31 characters, so that the digit count does
not overflow.
-/
import Verif.Bitvect.Model
import Verif.Floatnum.Tables

namespace Verif.Floatnum

open Verif.Bitvect

/-- struct yasm_floatnum (floatnum.c:50-55); `flags` holds FLAG_ISZERO only. -/
structure Flt where
  mant : BitVec 80
  exp : Nat
  sign : Bool
  isZero : Bool
deriving DecidableEq, Repr

/-- POT_Entry (floatnum.c:71-74). -/
structure Entry where
  f : Flt
  dec : Int
deriving DecidableEq, Repr

/-- POT_Table_Init_Entry (floatnum.c:139-157). -/
def initEntry (s : Source) : Entry := ⟨⟨blockStore 80 s.mantissa, s.exponent, false, false⟩, s.dec⟩

/-- POT_TableN and POT_TableP (from its entry 0) as yasm_floatnum_initialize (159-188) builds them. -/
def potN : List Entry := potNSource.map initEntry
def potP : List Entry := potPSource.map initEntry

/-- floatnum_normalize (floatnum.c:211-228). -/
def normalize (f : Flt) : Flt :=
  if f.mant.toNat = 0 then { f with exp := 0 }
  else
    let n := 79 - setMax f.mant
    let n := if n > (f.exp : Int) then (f.exp : Int) else n
    { f with mant := moveLeft f.mant n.toNat, exp := f.exp - n.toNat }

/-- BitVector_Copy of 80 bits into 81 (the extra bit filled with the sign), then BitVector_MSB(op, 0)
    (floatnum.c:274-277): the 80 bits with a zero in front. -/
def widen (m : BitVec 80) : BitVec 81 := (m.signExtend 81) &&& ~~~(BitVec.twoPow 81 80)

/-- BitVector_Multiply (bitvect.c:2735-2813) with a result twice as wide as the operands. -/
def multiplyWide (y z : BitVec 81) : BitVec 162 :=
  if y.toNat = 0 ∨ z.toNat = 0 then 0
  else
    let a := if y.msb then -y else y
    let b := if z.msb then -z else z
    let r := if topWordGt a b 3 then mulPos (a.setWidth 162) b true else mulPos (b.setWidth 162) a true
    if r.2 && (y.msb != z.msb) then -r.1 else r.1

/-- floatnum_mul (floatnum.c:230-301). -/
def mul (acc op : Flt) : Flt :=
  let sign := acc.sign != op.sign
  if acc.mant.toNat = 0 ∨ op.mant.toNat = 0 then { acc with mant := 0, exp := 0, sign := sign }
  else
    let expon : Int := ((acc.exp : Int) - 0x7FFF) + ((op.exp : Int) - 0x7FFF) + 0x7FFF
    if expon > 0xFFFE then { acc with mant := 0, exp := 0xFFFF, sign := sign }
    else if expon < 1 then { acc with mant := 0, exp := 0, sign := sign }
    else
      let e := (expon + 1).toNat
      let product := multiplyWide (widen acc.mant) (widen op.mant)
      let n := 159 - setMax product
      let n := if n > (e : Int) then (e : Int) else n
      { acc with
        mant := intervalCopy acc.mant (moveLeft product n.toNat) 0 80 80
        exp := e - n.toNat
        sign := sign }

/-- `isdigit`. -/
def isdigit (c : Char) : Bool := '0' ≤ c && c ≤ '9'

/-- `c - '0'`. -/
def digitVal (c : Char) : Nat := c.toNat - 48

/-- floatnum.c:358-369: multiply the mantissa by ten and add a digit. -/
def addDigit (m : BitVec 80) (c : Char) : BitVec 80 :=
  let m2 := shl1 m false
  let m8 := moveLeft m2 2
  (m2 + m8) + chunkStore (0 : BitVec 80) 4 0 (BitVec.ofNat 64 (digitVal c))

/-- What the reading loops change: mantissa, decimal exponent, digits seen. -/
structure Read where
  mant : BitVec 80
  dec : Int
  sig : Nat

/-- floatnum.c:355-378: digits before the point. -/
def readInt : Read → List Char → Read × List Char
  | r, [] => (r, [])
  | r, c :: t =>
    if isdigit c then
      if r.sig < 24 then readInt { r with mant := addDigit r.mant c, sig := r.sig + 1 } t
      else readInt { r with dec := r.dec + 1, sig := r.sig + 1 } t
    else (r, c :: t)

/-- floatnum.c:388-409: digits after the point. -/
def readFrac : Read → List Char → Read × List Char
  | r, [] => (r, [])
  | r, c :: t =>
    if isdigit c then
      if r.sig < 19 then readFrac ⟨addDigit r.mant c, r.dec - 1, r.sig + 1⟩ t
      else readFrac { r with sig := r.sig + 1 } t
    else (r, c :: t)

/-- `while (*str == '0') str++`. -/
def skipZeros : List Char → List Char
  | '0' :: t => skipZeros t
  | t => t

/-- floatnum.c:349-352: the zeros after the point, each lowering the exponent. -/
def skipZerosDec : Int → List Char → Int × List Char
  | d, '0' :: t => skipZerosDec (d - 1) t
  | d, t => (d, t)

/-- The digits `sscanf("%d")` reads. -/
def scanDigits : List Char → Nat → Nat
  | c :: t, v => if isdigit c then scanDigits t (v * 10 + digitVal c) else v
  | [], v => v

/-- `sscanf(str, "%d", &x)` with `x` zero before: an optional sign and digits.  (White space, which no
    token contains, is not modelled.) -/
def scanInt : List Char → Int
  | '-' :: t => -(scanDigits t 0 : Int)
  | '+' :: t => scanDigits t 0
  | t => scanDigits t 0

/-- The range of `int`. -/
def isInt (z : Int) : Bool := -2147483648 ≤ z && z ≤ 2147483647

/-- floatnum.c:328-336. -/
def readSign : List Char → Bool × List Char
  | '-' :: t => (true, t)
  | '+' :: t => (false, t)
  | t => (false, t)

/-- floatnum.c:347-410, from the end of the leading zeros. -/
def readDigits (s : List Char) : Read × List Char :=
  match s with
  | '.' :: t =>
    let z := skipZerosDec 0 t
    readFrac ⟨0, z.1, 0⟩ z.2
  | s =>
    let r := readInt ⟨0, 0, 0⟩ s
    match r.2 with
    | '.' :: t => readFrac r.1 t
    | _ => r

/-- floatnum.c:412-420: the final decimal exponent; `none` if it leaves the range of `int`. -/
def readExp (r : Read × List Char) : Option Int :=
  match r.2 with
  | c :: t =>
    if c = 'e' ∨ c = 'E' then
      if isInt (scanInt t) && isInt (r.1.dec + scanInt t) then some (r.1.dec + scanInt t) else none
    else some r.1.dec
  | [] => some r.1.dec

/-- floatnum.c:451-452 and 470-471: find the first power not beyond the exponent; the table is given from
    `POT_index` on. -/
def seek (neg : Bool) (dec : Int) : List Entry → List Entry
  | [] => []
  | e :: t => if (if neg then dec > e.dec else dec < e.dec) then seek neg dec t else e :: t

/-- The loops of floatnum.c:446-461 and 465-480; `none` if cut off by the fuel or if the table is left. -/
def scale (neg : Bool) : Nat → List Entry → Int → Flt → Option Flt
  | 0, tbl, dec, f =>
    if tbl = [] ∨ dec = 0 ∨ f.exp = (if neg then 0 else 0xFFFF) then some f else none
  | n + 1, tbl, dec, f =>
    if tbl = [] ∨ dec = 0 ∨ f.exp = (if neg then 0 else 0xFFFF) then some f
    else
      match seek neg dec tbl with
      | [] => none
      | e :: t => scale neg n (e :: t) (dec - e.dec) (mul f e.f)

/-- floatnum.c:486-488: "round" the result. -/
def bump (f : Flt) : Flt :=
  if f.exp ≠ 0xFFFF ∧ f.exp ≠ 0 ∧ f.mant ≠ BitVec.allOnes 80 then { f with mant := f.mant + 1 } else f

/-- yasm_floatnum_create (floatnum.c:303-491). -/
def create (str : List Char) : Option Flt :=
  let s := readSign str
  let r := readDigits (skipZeros s.2)
  match readExp r with
  | none => none
  | some dec =>
    if r.1.mant.toNat = 0 then some ⟨r.1.mant, 0, s.1, true⟩
    else
      let f := normalize ⟨r.1.mant, 0x7FFF + 79, s.1, false⟩
      match (if dec > 0 then scale false dec.natAbs potP dec f
             else if dec < 0 then scale true dec.natAbs potN dec f
             else some f) with
      | none => none
      | some f => some (bump f)

/-! ### Conversion -/

/-- floatnum.c:567-585: the rounded mantissa, the exponent, and whether the exponent overflowed there.
    `n` is the number of bits of the output. -/
def roundMant (n mantBits : Nat) (implicit1 : Bool) (f : Flt) : BitVec n × Int × Bool :=
  let i := if implicit1 then 1 else 0
  let out := intervalCopy (0 : BitVec n) f.mant 0 (80 - i - mantBits) mantBits
  let out := if f.mant.getLsbD (80 - i - (mantBits + 1)) then out + 1 else out
  if out.getLsbD mantBits then
    let out := if implicit1 then 0 else BitVec.twoPow n (mantBits - 1)
    if (f.exp : Int) + 1 ≥ 0xFFFF then (out, f.exp, true) else (out, f.exp + 1, false)
  else (out, f.exp, false)

/-- How floatnum_get_common can end. -/
inductive Conv
  | internal
  | ok (bytes : List (BitVec 8)) (ret : Int)
deriving DecidableEq, Repr

/-- floatnum_get_common (floatnum.c:551-631). -/
def getCommon (f : Flt) (byteSize mantBits : Nat) (implicit1 : Bool) (expBits : Nat) : Conv :=
  let n := byteSize * 8
  let expBias : Int := 2 ^ (expBits - 1) - 1
  let expInf : Int := 2 ^ expBits - 1
  let r := roundMant n mantBits implicit1 f
  let exponent := r.2.1 - (0x7FFF - expBias)
  let overflow := r.2.2 || decide (exponent ≥ expInf)
  let underflow := !decide (exponent ≥ expInf) && decide (exponent ≤ 0)
  if underflow && overflow then .internal
  else
    let o : BitVec n × Int × Int :=
      if underflow then (0, 0, if f.isZero then 0 else -1)
      else if overflow then (0, expInf, 1)
      else (r.1, exponent, 0)
    let out := chunkStore o.1 expBits mantBits (BitVec.ofInt 64 o.2.1)
    let out := if f.sign then out ||| BitVec.twoPow n (n - 1) else out &&& ~~~(BitVec.twoPow n (n - 1))
    .ok (blockRead out) o.2.2

/-- yasm_floatnum_get_sized (floatnum.c:673-710) with no shift and little-endian: the switch; the
    warnings follow from the return value.  (`blockRead` gives the bytes of the vector, of which the code
    copies `destsize`.) -/
def getSized (f : Flt) (destsize : Nat) : Conv :=
  if destsize = 2 then getCommon f 2 10 true 5
  else if destsize = 4 then getCommon f 4 23 true 8
  else if destsize = 8 then getCommon f 8 52 true 11
  else if destsize = 10 then getCommon f 10 64 false 15
  else .internal

/-- yasm_floatnum_check_size (floatnum.c:712-725). -/
def checkSize (size : Nat) : Bool := size = 16 || size = 32 || size = 64 || size = 80

/-- yasm_floatnum_calc with YASM_EXPR_NEG (floatnum.c:513-524). -/
def neg (f : Flt) : Flt := { f with sign := !f.sign }

end Verif.Floatnum
