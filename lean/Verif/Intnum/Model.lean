import Verif.Bitvect.Model
/-
Model of libyasm/intnum.c: integers with 256-bit storage.

`long` is 64 bits (LP64), modelled by `BitVec 64` with wrap-around; where C leaves signed overflow
undefined (`-LONG_MIN`) the model wraps.  The static scratch vectors are only modelled where their
old content can be observed (`result` in `calc`).  Allocation never fails.  Heap ownership of the bit
vectors is not modelled, except that `get_sized` mutating its argument is visible in its result.
-/
namespace Verif.Intnum
open Verif.Bitvect

/-- intnum.c:41 `BITVECT_NATIVE_SIZE`. -/
abbrev native : Nat := 256

/-- intnum.c:43-49 `struct yasm_intnum`. -/
inductive Intnum where
  | L (l : BitVec 64)
  | BV (v : BitVec 256)
  deriving DecidableEq, Repr

/-- coretype.h `yasm_expr_op` (as far as `yasm_intnum_calc` distinguishes them). -/
inductive Op where
  | IDENT | ADD | SUB | MUL | DIV | SIGNDIV | MOD | SIGNMOD | NEG | NOT | OR | AND | XOR | XNOR | NOR
  | SHL | SHR | LOR | LAND | LNOT | LXOR | LXNOR | LNOR | LT | GT | EQ | LE | GE | NE | NONNUM
  | SEG | WRT | SEGOFF
  deriving DecidableEq, Repr

/-- errwarn.h error classes set in intnum.c. -/
inductive Err where
  | arithmetic | zeroDivision | overflow | value
  deriving DecidableEq, Repr

/-- Store a C `long` as intnum.c does for scratch vectors (intnum.c:121-127, 893-905, 1008-1014):
    only 32 bits of the magnitude are stored. -/
def longBv (l : BitVec 64) : BitVec 256 :=
  if l.slt 0#64 then -(chunkStore 0#256 32 0 (-l)) else chunkStore 0#256 32 0 l

/-- intnum.c:115-129 `intnum_tobv`. -/
def tobv : Intnum → BitVec 256
  | .BV v => v
  | .L l => longBv l

/-- intnum.c:86-110 `intnum_frombv`. -/
def frombv (v : BitVec 256) : Intnum :=
  if setMax v < 31 then .L (chunkRead v 31 0)
  else if v.msb then
    if setMax (-v) ≥ 32 ∨ chunkRead (-v) 32 0 &&& 0x80000000#64 ≠ 0#64 then .BV v
    else .L (-(chunkRead (-v) 32 0))
  else .BV v

/-- `BitVector_Empty(result); BitVector_LSB(result, b)`. -/
def boolBv (b : Bool) : BitVec 256 := if b then 1#256 else 0#256

/-- Result of `yasm_intnum_calc`: new accumulator, return code, error set. -/
structure CalcOut where
  acc : Intnum
  ret : Nat
  err : Option Err
  deriving DecidableEq, Repr

/-- The four cases 455-491: `sel` picks quotient or remainder; `none` is the divide-by-zero exit. -/
def divCase (sel : BitVec 256 × BitVec 256 → BitVec 256) (a b : BitVec 256) : Option (BitVec 256) :=
  if b.toNat = 0 then none else (divide a b).map sel

/-- intnum.c:446-602: the `switch` of `yasm_intnum_calc` for an operation with both operands present
    (`b` is unused by the unary ones); `stale` is the previous content of the static vector `result`.
    `.inl e` is an error exit with return code 1, `.inr (r, e)` falls through to line 604. -/
def calcSwitch (stale : BitVec 256) (op : Op) (a : BitVec 256) (operand : Intnum) (b : BitVec 256) :
    Err ⊕ (BitVec 256 × Option Err) :=
  let ok (r : BitVec 256) : Err ⊕ (BitVec 256 × Option Err) := .inr (r, none)
  let dv (r : Option (BitVec 256)) : Err ⊕ (BitVec 256 × Option Err) :=
    match r with | none => .inl .zeroDivision | some r => .inr (r, none)
  let shiftOk : Option (BitVec 64) := match operand with
    | .L l => if l.slt 0#64 then none else some l
    | .BV _ => none
  let az := a.toNat = 0
  let bz := b.toNat = 0
  match op with
  | .ADD => ok (a + b)
  | .SUB => ok (a - b)
  | .MUL => ok (multiply a b).1
  | .DIV => dv (divCase Prod.fst a b)
  | .SIGNDIV => dv (divCase Prod.fst a b)
  | .MOD => dv (divCase Prod.snd a b)
  | .SIGNMOD => dv (divCase Prod.snd a b)
  | .NEG => ok (-a)
  | .NOT => ok (~~~a)
  | .OR => ok (a ||| b)
  | .AND => ok (a &&& b)
  | .XOR => ok (a ^^^ b)
  | .XNOR => ok (~~~(a ^^^ b))
  | .NOR => ok (~~~(a ||| b))
  | .SHL => match shiftOk with
    | some l => ok (moveLeft a (l.toNat % 2 ^ 32))
    | none => ok 0#256
  | .SHR => match shiftOk with
    | some l => ok (shrLoop a.msb (l.toNat % 2 ^ 32) a)
    | none => ok 0#256
  | .LOR => ok (boolBv (!az || !bz))
  | .LAND => ok (boolBv (!az && !bz))
  | .LNOT => ok (boolBv az)
  | .LXOR => ok (boolBv ((!az) ^^ (!bz)))
  | .LXNOR => ok (boolBv (!((!az) ^^ (!bz))))
  | .LNOR => ok (boolBv (!(!az || !bz)))
  | .EQ => ok (boolBv (a == b))
  | .LT => ok (boolBv (cmp a b < 0))
  | .GT => ok (boolBv (cmp a b > 0))
  | .LE => ok (boolBv (cmp a b ≤ 0))
  | .GE => ok (boolBv (cmp a b ≥ 0))
  | .NE => ok (boolBv (!(a == b)))
  | .SEG => .inr (stale, some .arithmetic)
  | .WRT => .inr (stale, some .arithmetic)
  | .SEGOFF => .inr (stale, some .arithmetic)
  | .IDENT => ok a
  | .NONNUM => .inl .arithmetic

/-- intnum.c:439-441: operations that accept a missing operand. -/
def unary : Op → Bool
  | .NEG | .NOT | .LNOT => true
  | _ => false

/-- intnum.c:423-610 `yasm_intnum_calc(acc, op, operand)`. -/
def intCalc (stale : BitVec 256) (acc : Intnum) (op : Op) (operand : Option Intnum) : CalcOut :=
  match operand with
  | none =>
    if unary op then
      match calcSwitch stale op (tobv acc) (.L 0#64) 0#256 with
      | .inl e => ⟨acc, 1, some e⟩
      | .inr (r, e) => ⟨frombv r, 0, e⟩
    else ⟨acc, 1, some .arithmetic⟩
  | some o =>
    match calcSwitch stale op (tobv acc) o (tobv o) with
    | .inl e => ⟨acc, 1, some e⟩
    | .inr (r, e) => ⟨frombv r, 0, e⟩

/-- intnum.c:614-630 `yasm_intnum_compare`. -/
def compareI (x y : Intnum) : Int :=
  match x, y with
  | .L a, .L b => if a.slt b then -1 else if b.slt a then 1 else 0
  | _, _ => cmp (tobv x) (tobv y)

/-- intnum.c:691-695 `yasm_intnum_is_zero`. -/
def isZero : Intnum → Bool
  | .L l => l == 0#64
  | .BV _ => false
/-- intnum.c:697-701 `yasm_intnum_is_pos1`. -/
def isPos1 : Intnum → Bool
  | .L l => l == 1#64
  | .BV _ => false
/-- intnum.c:703-707 `yasm_intnum_is_neg1`. -/
def isNeg1 : Intnum → Bool
  | .L l => l == -1#64
  | .BV _ => false

/-- intnum.c:709-721 `yasm_intnum_sign`. -/
def signI : Intnum → Int
  | .L l => if l = 0#64 then 0 else if l.slt 0#64 then -1 else 1
  | .BV v => sign v

/-- intnum.c:723-742 `yasm_intnum_get_uint`. -/
def getUint : Intnum → BitVec 64
  | .L l => if l.slt 0#64 then 0#64 else l
  | .BV v => if v.msb then 0#64 else if setMax v > 32 then BitVec.allOnes 64 else chunkRead v 32 0

/-- intnum.c:744-774 `yasm_intnum_get_int`. -/
def getInt : Intnum → BitVec 64
  | .L l => l
  | .BV v =>
    if v.msb then
      if setMax (-v) ≥ 32 then BitVec.ofInt 64 longMin
      else if chunkRead (-v) 32 0 &&& 0x80000000#64 ≠ 0#64 then BitVec.ofInt 64 longMin
      else -(chunkRead (-v) 32 0)
    else BitVec.ofInt 64 longMax

/-- intnum.c:841-882 `yasm_intnum_check_size`. `rangetype`: 0 unsigned, 1 signed, 2 either.
    `size` and `rshift` are `size_t`. -/
def checkSize (x : Intnum) (size rshift : Nat) (rangetype : Int) : Bool :=
  if size ≥ native then true
  else
    let v := tobv x
    let val := if rshift > 0 then shrLoop v.msb rshift v else v
    if rangetype > 0 then
      if val.msb then decide (setMax (-val - 1#256) < (size : Int) - 1)
      else if rangetype = 1 then decide (setMax val < (size : Int) - 1)
      else decide (setMax val < (size : Int))
    else decide (setMax val < (size : Int))

/-- intnum.c:884-911 `yasm_intnum_in_range`. -/
def inRange (x : Intnum) (low high : BitVec 64) : Bool :=
  decide (cmp (tobv x) (longBv low) ≥ 0) && decide (cmp (tobv x) (longBv high) ≤ 0)

/-- The two warnings `yasm_intnum_get_sized` can raise. -/
inductive SizedWarn where
  | signedField | field | misaligned
  deriving DecidableEq, Repr

/-- Outcome of `yasm_intnum_get_sized`. -/
structure Sized where
  /-- destination bytes -/
  buf : List (BitVec 8)
  /-- the number passed in, afterwards -/
  intn : Intnum
  warns : List SizedWarn
  deriving DecidableEq, Repr

/-- intnum.c:776-838 `yasm_intnum_get_sized(intn, ptr, destsize, valsize, shift, bigendian, warn)`,
    where `buf` is the `destsize` bytes at `ptr`; `none` is `yasm_internal_error`. -/
def getSized (x : Intnum) (buf : List (BitVec 8)) (valsize : Nat) (shift : Int) (bigendian : Bool)
    (warn : Int) : Option Sized :=
  if buf.length * 8 > native then none
  else if bigendian then none
  else
    let rshift : Nat := if shift < 0 then (-shift).toNat else 0
    let w1 := if warn < 0 ∧ checkSize x valsize rshift 1 = false then [SizedWarn.signedField] else []
    let w2 := if warn > 0 ∧ checkSize x valsize rshift 2 = false then [SizedWarn.field] else []
    let op1 := blockStore 256 buf
    let op2 := tobv x
    let w3 := if warn ≠ 0 ∧ rshift > 0 ∧
        (moveLeft op2 ((2 ^ 32 + native - rshift % 2 ^ 32) % 2 ^ 32)).toNat ≠ 0
      then [SizedWarn.misaligned] else []
    let op2s := if rshift > 0 then shrLoop op2.msb rshift op2 else op2
    let x' := match x with | .L l => Intnum.L l | .BV _ => .BV op2s
    let sh : Nat := if rshift > 0 then 0 else shift.toNat
    let op1' := intervalCopy op1 op2s sh 0 valsize
    some { buf := (blockRead op1').take buf.length, intn := x', warns := w1 ++ w2 ++ w3 }

/-- intnum.c:923-938: the number of bits `get_leb128` writes, as `unsigned long`. -/
def lebBits (v : BitVec 256) (sgn : Bool) : BitVec 64 :=
  if sgn then
    if v.msb then BitVec.ofInt 64 (setMax (-v) + 2) else BitVec.ofInt 64 (setMax v + 2)
  else BitVec.ofInt 64 (setMax v + 1)

/-- intnum.c:941-946: the byte written for bit offset i (before the last byte's MSB is cleared). -/
def lebByte (v : BitVec 256) (i : Nat) : BitVec 8 := (chunkRead v 7 i).truncate 8 ||| 0x80#8

/-- intnum.c:913-948 `get_leb128`: bytes written; `none` when no byte or more than 2^32 bytes would be
    written (the size of an empty vector wraps around, or is 0 so that line 947 writes before the
    buffer). -/
def getLeb (v : BitVec 256) (sgn : Bool) : Option (List (BitVec 8)) :=
  let size := (lebBits v sgn).toNat
  let cnt := (size + 6) / 7
  if cnt = 0 ∨ cnt > 2 ^ 32 then none
  else some ((List.range (cnt - 1)).map (fun j => lebByte v (7 * j)) ++
    [lebByte v (7 * (cnt - 1)) &&& 0x7F#8])

/-- intnum.c:944-961 `size_leb128` (a `long` division converted to `unsigned long`). -/
def sizeLeb (v : BitVec 256) (sgn : Bool) : BitVec 64 :=
  if sgn then
    if v.msb then BitVec.ofInt 64 ((setMax (-v) + 8).tdiv 7) else BitVec.ofInt 64 ((setMax v + 8).tdiv 7)
  else BitVec.ofInt 64 ((setMax v + 7).tdiv 7)

/-- intnum.c:963-978 `yasm_intnum_get_leb128`. -/
def getLeb128 (x : Intnum) (sgn : Bool) : Option (List (BitVec 8)) :=
  if x = .L 0#64 then some [0#8] else getLeb (tobv x) sgn
/-- intnum.c:980-994 `yasm_intnum_size_leb128`. -/
def sizeLeb128 (x : Intnum) (sgn : Bool) : BitVec 64 :=
  if x = .L 0#64 then 1#64 else sizeLeb (tobv x) sgn

/-- intnum.c:996-1015 `yasm_get_sleb128`. -/
def getSleb (v : BitVec 64) : Option (List (BitVec 8)) :=
  if v = 0#64 then some [0#8] else getLeb (longBv v) true
/-- intnum.c:1017-1034 `yasm_size_sleb128`. -/
def sizeSleb (v : BitVec 64) : BitVec 64 := if v = 0#64 then 1#64 else sizeLeb (longBv v) true
/-- intnum.c:1036-1050 `yasm_get_uleb128`. -/
def getUleb (v : BitVec 64) : Option (List (BitVec 8)) :=
  if v = 0#64 then some [0#8] else getLeb (chunkStore 0#256 32 0 v) false
/-- intnum.c:1052-1062 `yasm_size_uleb128`. -/
def sizeUleb (v : BitVec 64) : BitVec 64 := if v = 0#64 then 1#64 else sizeLeb (chunkStore 0#256 32 0 v) false

/-- A created number and the error set while creating it. -/
structure Created where
  num : Intnum
  err : Option Err
  deriving DecidableEq, Repr

/-- intnum.c:344-351, the reading loop of `yasm_intnum_create_leb128`: vector, final `i`, last byte and
    number of bytes; `none` when it runs past the end of the memory given. -/
def lebRead : List (BitVec 8) → Nat → BitVec 256 → Nat → Option (BitVec 256 × Nat × BitVec 8 × Nat)
  | [], _, _, _ => none
  | b :: bs, i, acc, cnt =>
    let acc' := chunkStore acc 7 i (b.zeroExtend 64)
    if b &&& 0x80#8 ≠ 0x80#8 then some (acc', i + 7, b, cnt + 1)
    else lebRead bs (i + 7) acc' (cnt + 1)

/-- intnum.c:336-363 `yasm_intnum_create_leb128`: number, error and `*size`. -/
def createLeb128 (mem : List (BitVec 8)) (sgn : Bool) : Option (Created × Nat) :=
  match lebRead mem 0 0#256 0 with
  | none => none
  | some (v, i, last, size) =>
    if i > native then some (⟨frombv v, some .overflow⟩, size)
    else if sgn && (last &&& 0x40#8 == 0x40#8) then
      some (⟨frombv (intervalFill v i (native - 1)), none⟩, size)
    else some (⟨frombv v, none⟩, size)

/-- intnum.c:380-381, the little-endian reading loop of `yasm_intnum_create_sized`. -/
def sizedRead : List (BitVec 8) → Nat → BitVec 256 → BitVec 256
  | [], _, acc => acc
  | b :: bs, i, acc => sizedRead bs (i + 1) (chunkStore acc 8 (i * 8) (b.zeroExtend 64))

/-- intnum.c:365-392 `yasm_intnum_create_sized`; `none` is `yasm_internal_error` (big endian) or the
    read of `ptr[-1]` (srcsize 0 with sign). -/
def createSized (buf : List (BitVec 8)) (sgn bigendian : Bool) : Option Created :=
  let err := if buf.length * 8 > native then some Err.overflow else none
  if bigendian then none
  else
    let v := sizedRead buf 0 0#256
    if buf.length * 8 < native ∧ sgn = true then
      match buf.getLast? with
      | none => none
      | some last =>
        if last &&& 0x80#8 = 0x80#8 then
          some ⟨frombv (intervalFill v (buf.length * 8) (native - 1)), err⟩
        else some ⟨frombv v, err⟩
    else some ⟨frombv v, err⟩

/-- intnum.c:307-323 `yasm_intnum_create_uint`. -/
def createUint (i : BitVec 64) : Intnum :=
  if i.toNat > 2 ^ 63 - 1 then .BV (chunkStore 0#256 32 0 i) else .L i

/-- intnum.c:325-334 `yasm_intnum_create_int`. -/
def createInt (i : BitVec 64) : Intnum := .L i

/-- intnum.c:660-680 `yasm_intnum_set_uint`. -/
def setUint (x : Intnum) (i : BitVec 64) : Intnum :=
  if i.toNat > 2 ^ 63 - 1 then
    match x with
    | .BV v => .BV (chunkStore v 32 0 i)
    | .L _ => .BV (chunkStore 0#256 32 0 i)
  else .L i

/-- intnum.c:682-689 `yasm_intnum_set_int`. -/
def setInt (_ : Intnum) (i : BitVec 64) : Intnum := .L i

/-- intnum.c:638-658 `yasm_intnum_set`. -/
def setI (_ val : Intnum) : Intnum := val

/-- intnum.c:246-251, the loop for long strings: the characters from the last to the first. -/
def nasmLoop : List (BitVec 8) → BitVec 256 → BitVec 256
  | [], acc => acc
  | c :: cs, acc => nasmLoop cs (chunkStore (moveLeft acc 8) 8 0 (c.zeroExtend 64))

/-- intnum.c:213-256 `yasm_intnum_create_charconst_nasm`; `str` has no NUL.  The `long` arithmetic of
    the short cases cannot overflow. -/
def charconstNasm (str : List (BitVec 8)) : Created :=
  let err := if str.length * 8 > native then some Err.overflow else none
  let z (c : BitVec 8) : BitVec 64 := c.zeroExtend 64
  match str with
  | [] => ⟨.L 0#64, err⟩
  | [a] => ⟨.L (z a), err⟩
  | [a, b] => ⟨.L ((z b <<< 8) ||| z a), err⟩
  | [a, b, c] => ⟨.L ((((z c <<< 8) ||| z b) <<< 8) ||| z a), err⟩
  | _ => ⟨.BV (nasmLoop str.reverse 0#256), err⟩

/-- intnum.c:294-299, the loop of the TASM variant: `Chunk_Store` at (len-i-1)*8. -/
def tasmLoop (len : Nat) : List (BitVec 8) → Nat → BitVec 256 → BitVec 256
  | [], _, acc => acc
  | c :: cs, i, acc => tasmLoop len cs (i + 1) (chunkStore acc 8 ((len - i - 1) * 8) (c.zeroExtend 64))

/-- intnum.c:258-304 `yasm_intnum_create_charconst_tasm`. -/
def charconstTasm (str : List (BitVec 8)) : Created :=
  let err := if str.length * 8 > native then some Err.overflow else none
  let z (c : BitVec 8) : BitVec 64 := c.zeroExtend 64
  match str with
  | [] => ⟨.L 0#64, err⟩
  | [a] => ⟨.L (z a), err⟩
  | [a, b] => ⟨.L ((z a <<< 8) ||| z b), err⟩
  | [a, b, c] => ⟨.L ((((z a <<< 8) ||| z b) <<< 8) ||| z c), err⟩
  | _ => ⟨.BV (tasmLoop str.length str 0 0#256), err⟩

end Verif.Intnum
