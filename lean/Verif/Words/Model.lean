import Verif.Bitvect.Model
/-
Model of libyasm/bitvect.c at the level of its machine words.

`N_word` is 32 bits and `N_long` 64 (LP64).  A bit vector is its number of bits `bits_` and the list of its words,
lowest first; `size_` is the length of the list and `mask_` is `mask bits`.  Loops that walk over the words with a
pointer are recursions over the list.  A result written over an operand (X == Y) gives the same words, since word i
of the result is written after word i of the operands is read.  Where a function masks the last word of an
*operand* in place, the model leaves the operand alone: its unused bits are already zero (see `Rep` in
`Verif.Words.Spec`).  Memory that cannot be allocated is not modelled.
-/
namespace Verif.Words

/-- bitvect.h `N_word`. -/
abbrev W := BitVec 32

/-- bitvect.c:119 `LSB`. -/
def lsb : W := 1#32
/-- bitvect.c:117, 367 `MSB`. -/
def msb : W := 0x80000000#32
/-- `(N_word) ~0L` -/
def ones : W := ~~~0#32

/-- bitvect.c:390-397 `BitVector_Size`. -/
def size (bits : Nat) : Nat := if bits % 32 ≠ 0 then bits / 32 + 1 else bits / 32

/-- bitvect.c:399-406 `BitVector_Mask`. -/
def mask (bits : Nat) : W := if bits % 32 ≠ 0 then ~~~(ones <<< (bits % 32)) else ones

/-- `mask AND NOT (mask >> 1)`: the highest bit in use (bitvect.c:2377 and elsewhere). -/
def topBit (m : W) : W := m &&& ~~~(m >>> 1)

/-- `*last &= mask` -/
def maskLast (m : W) : List W → List W
  | [] => []
  | [w] => [w &&& m]
  | w :: ws => w :: maskLast m ws

/-- `*last |= NOT mask` -/
def fillLast (m : W) : List W → List W
  | [] => []
  | [w] => [w ||| ~~~m]
  | w :: ws => w :: fillLast m ws

/-- The word at `addr + size - 1`. -/
def lastWord (ws : List W) : W := ws.getLastD 0#32

/-- bitvect.c:636-641 `BitVector_Empty`. -/
def empty (ws : List W) : List W := List.replicate ws.length 0#32

/-- bitvect.c:601-634 `BitVector_Copy(X, Y)`, X and Y distinct: a shorter vector is extended by its highest bit. -/
def copy (bitsX bitsY : Nat) (ys : List W) : List W :=
  let neg := !(lastWord ys &&& topBit (mask bitsY) == 0#32)
  let ys' := if neg then fillLast (mask bitsY) ys else maskLast (mask bitsY) ys
  let fill := if neg then ones else 0#32
  maskLast (mask bitsX)
    ((if ys.isEmpty then [] else ys'.take (size bitsX)) ++
      List.replicate (size bitsX - ys.length) (if ys.isEmpty then 0#32 else fill))

/-- bitvect.c:1344-1355 `BitVector_is_empty`. -/
def isEmpty : List W → Bool
  | [] => true
  | w :: ws => if w == 0#32 then isEmpty ws else false

/-- bitvect.c:1375-1392 `BitVector_equal`, vectors of the same number of bits. -/
def equal : List W → List W → Bool
  | x :: xs, y :: ys => if x == y then equal xs ys else false
  | _, _ => true

/-- bitvect.c:1442-1447: from the last word down to the first that differ; the lists are reversed. -/
def compareDown : List W → List W → Int
  | x :: xs, y :: ys => if x == y then compareDown xs ys else if x < y then -1 else 1
  | _, _ => 0

/-- bitvect.c:1421-1453 `BitVector_Compare`, vectors of the same number of bits. -/
def compare (bits : Nat) (xs ys : List W) : Int :=
  if xs.isEmpty then 0
  else
    let m := topBit (mask bits)
    if lastWord xs &&& m ≠ lastWord ys &&& m then (if lastWord xs &&& m ≠ 0#32 then -1 else 1)
    else compareDown xs.reverse ys.reverse

/-- bitvect.c:1394-1419 `BitVector_Lexicompare`, vectors of the same number of bits. -/
def lexicompare (xs ys : List W) : Int := compareDown xs.reverse ys.reverse

/-! ### Single bits -/

/-- bitvect.c:369-372 `BITMASKTAB[i]`. -/
def bitMask (i : Nat) : W := lsb <<< i

/-- bitvect.c:2255-2259 `BitVector_bit_test`. -/
def bitTest (bits : Nat) (ws : List W) (i : Nat) : Bool :=
  if i < bits then !(ws.getD (i / 32) 0#32 &&& bitMask (i % 32) == 0#32) else false

/-- bitvect.c:2242-2245 `BitVector_Bit_On`. -/
def bitOn (bits : Nat) (ws : List W) (i : Nat) : List W :=
  if i < bits then ws.set (i / 32) (ws.getD (i / 32) 0#32 ||| bitMask (i % 32)) else ws

/-- bitvect.c:2237-2240 `BitVector_Bit_Off`. -/
def bitOff (bits : Nat) (ws : List W) (i : Nat) : List W :=
  if i < bits then ws.set (i / 32) (ws.getD (i / 32) 0#32 &&& ~~~(bitMask (i % 32))) else ws

/-- bitvect.c:2270-2277 `BitVector_LSB`. -/
def setLsb (b : Bool) : List W → List W
  | [] => []
  | w :: ws => (if b then w ||| lsb else w &&& ~~~lsb) :: ws

/-- bitvect.c:2279-2289 `BitVector_MSB`. -/
def setMsb (bits : Nat) (b : Bool) : List W → List W
  | [] => []
  | [w] => [if b then w ||| topBit (mask bits) else w &&& (~~~(mask bits) ||| (mask bits >>> 1))]
  | w :: ws => w :: setMsb bits b ws

/-- bitvect.c:2297-2306 `BitVector_msb_`. -/
def getMsb (bits : Nat) (ws : List W) : Bool :=
  if ws.isEmpty then false else !(lastWord ws &&& topBit (mask bits) == 0#32)

/-! ### Arithmetic -/

/-- bitvect.c:2552-2560: a full word of `BitVector_compute`: the word and the carry. -/
def fullStep (minus : Bool) (y z cc : W) : W × W :=
  let zz := if minus then ~~~z else z
  let lo := (y &&& lsb) + (zz &&& lsb) + cc
  let hi := (y >>> 1) + (zz >>> 1) + (lo >>> 1)
  ((hi <<< 1) ||| (lo &&& lsb), if hi &&& msb ≠ 0#32 then 1#32 else 0#32)

/-- bitvect.c:2566-2573: the last word when one bit of it is in use: the word, the carry and the overflow. -/
def topOne (yy zz cc : W) : W × W × W :=
  let lo := yy + zz + cc
  (lo &&& lsb, lo >>> 1, cc ^^^ (lo >>> 1))

/-- bitvect.c:2576-2587: more than one bit, but not all. -/
def topSome (m yy zz cc : W) : W × W × W :=
  let mm := m >>> 1
  let lo := yy + zz + cc
  (lo &&& m, (lo >>> 1) &&& (m &&& ~~~mm), (((yy &&& mm) + (zz &&& mm) + cc) ^^^ (lo >>> 1)) &&& (m &&& ~~~mm))

/-- bitvect.c:2588-2596: all bits. -/
def topAll (yy zz cc : W) : W × W × W :=
  let mm := ~~~msb
  let lo := (yy &&& mm) + (zz &&& mm) + cc
  let vv := lo &&& msb
  let hi := ((yy &&& msb) >>> 1) + ((zz &&& msb) >>> 1) + (vv >>> 1)
  ((hi <<< 1) ||| (lo &&& mm), hi &&& msb, vv ^^^ (hi &&& msb))

/-- bitvect.c:2561-2597: the last word. -/
def topStep (m : W) (minus : Bool) (y z cc : W) : W × W × W :=
  let yy := y &&& m
  let zz := (if minus then ~~~z else z) &&& m
  if m = lsb then topOne yy zz cc
  else if ~~~m ≠ 0#32 then topSome m yy zz cc
  else topAll yy zz cc

/-- bitvect.c:2550-2597: the words, the carry and the overflow. -/
def computeLoop (m : W) (minus : Bool) : List W → List W → W → List W × W × W
  | [y], [z], cc => let t := topStep m minus y z cc; ([t.1], t.2)
  | y :: ys, z :: zs, cc =>
    let s := fullStep minus y z cc
    let r := computeLoop m minus ys zs s.2
    (s.1 :: r.1, r.2)
  | _, _, cc => ([], cc, 0#32)

/-- What `BitVector_compute` gives: X, `*carry`, and the value returned. -/
structure Computed where
  words : List W
  carry : Bool
  overflow : Bool
deriving DecidableEq, Repr

/-- bitvect.c:2533-2602 `BitVector_compute(X, Y, Z, minus, &carry)`. -/
def compute (bits : Nat) (ys zs : List W) (minus carry : Bool) : Computed :=
  if ys.isEmpty then ⟨[], carry, false⟩
  else
    let cc : W := if minus then (if carry then 0#32 else 1#32) else (if carry then 1#32 else 0#32)
    let r := computeLoop (mask bits) minus ys zs cc
    ⟨r.1, if minus then r.2.1 == 0#32 else !(r.2.1 == 0#32), !(r.2.2 == 0#32)⟩

/-- bitvect.c:2636-2644: the loop of `BitVector_Negate`. -/
def negLoop (carry : Bool) : List W → List W
  | [] => []
  | y :: ys => if carry then (~~~y + 1#32) :: negLoop (~~~y + 1#32 == 0#32) ys else ~~~y :: negLoop false ys

/-- bitvect.c:2628-2647 `BitVector_Negate`. -/
def negate (bits : Nat) (ys : List W) : List W := maskLast (mask bits) (negLoop true ys)

/-- bitvect.c:2504-2507: the loop of `BitVector_increment`. -/
def incLoop : List W → List W × Bool
  | [] => ([], true)
  | w :: ws => if w + 1#32 == 0#32 then ((w + 1#32) :: (incLoop ws).1, (incLoop ws).2) else ((w + 1#32) :: ws, false)

/-- bitvect.c:2494-2511 `BitVector_increment`: the words and the carry. -/
def increment (bits : Nat) (ws : List W) : List W × Bool :=
  let r := incLoop (fillLast (mask bits) ws)
  (maskLast (mask bits) r.1, r.2)

/-- bitvect.c:2661-2679 `BitVector_Sign`. -/
def sign (bits : Nat) (ws : List W) : Int :=
  if isEmpty ws then 0 else if lastWord ws &&& topBit (mask bits) ≠ 0#32 then -1 else 1

/-- bitvect.c:3430-3493 `Set_Union`, `Set_Intersection`, `Set_ExclusiveOr`, for vectors of the same number of bits. -/
def setUnion (bits : Nat) (ys zs : List W) : List W := maskLast (mask bits) (List.zipWith (· ||| ·) ys zs)
@[inherit_doc setUnion]
def setIntersection (bits : Nat) (ys zs : List W) : List W := maskLast (mask bits) (List.zipWith (· &&& ·) ys zs)
@[inherit_doc setUnion]
def setExclusiveOr (bits : Nat) (ys zs : List W) : List W := maskLast (mask bits) (List.zipWith (· ^^^ ·) ys zs)
/-- bitvect.c:3482-3492 `Set_Complement`. -/
def setComplement (bits : Nat) (ys : List W) : List W := maskLast (mask bits) (ys.map (~~~ ·))

/-! ### Shifts -/

/-- bitvect.c:2375-2390: the loop of `BitVector_shift_left`. -/
def shlLoop (m : W) : List W → Bool → List W × Bool
  | [], c => ([], c)
  | [w], c => ([((w <<< 1) ||| (if c then lsb else 0#32)) &&& m], !(w &&& topBit m == 0#32))
  | w :: ws, c =>
    let r := shlLoop m ws (!(w &&& msb == 0#32))
    (((w <<< 1) ||| (if c then lsb else 0#32)) :: r.1, r.2)

/-- bitvect.c:2368-2392 `BitVector_shift_left`: the words and the bit shifted out. -/
def shiftLeft (bits : Nat) (ws : List W) (c : Bool) : List W × Bool := shlLoop (mask bits) ws c

/-- bitvect.c:2401-2420: the loop of `BitVector_shift_right`, from the last word down. -/
def shrLoop (m : W) : List W → Bool → List W × Bool
  | [], c => ([], c)
  | [w], c => ([((w &&& m) >>> 1) ||| (if c then topBit m else 0#32)], !(w &&& m &&& lsb == 0#32))
  | w :: ws, c =>
    let r := shrLoop m ws c
    (((w >>> 1) ||| (if r.2 then msb else 0#32)) :: r.1, !(w &&& lsb == 0#32))

/-- bitvect.c:2394-2422 `BitVector_shift_right`. -/
def shiftRight (bits : Nat) (ws : List W) (c : Bool) : List W × Bool := shrLoop (mask bits) ws c

/-- bitvect.c:199-211 `BIT_VECTOR_ins_words` with `clear`. -/
def insWords (ws : List W) (count : Nat) : List W :=
  let count := if count > ws.length then ws.length else count
  List.replicate count 0#32 ++ ws.take (ws.length - count)

/-- bitvect.c:3323-3337 `BitVector_Word_Insert(addr, 0, count, TRUE)`. -/
def wordInsert (bits : Nat) (ws : List W) (count : Nat) : List W :=
  maskLast (mask bits) (insWords (maskLast (mask bits) ws) count)

/-- bitvect.c:2435: `while (count-- > 0) BitVector_shift_left(addr,0)`. -/
def shiftsLeft (bits : Nat) : Nat → List W → List W
  | 0, ws => ws
  | k + 1, ws => shiftsLeft bits k (shiftLeft bits ws false).1

/-- bitvect.c:2424-2440 `BitVector_Move_Left`. -/
def moveLeft (bits : Nat) (ws : List W) (count : Nat) : List W :=
  if count > 0 then
    if count ≥ bits then empty ws
    else wordInsert bits (shiftsLeft bits (count % 32) ws) (count / 32)
  else ws

/-! ### The highest bit -/

/-- bitvect.c:3602-3606: `while (not (c AND MSB)) { c <<= 1; i--; }`, at most 31 times for a word that is not 0. -/
def normLoop : Nat → W → Nat → Nat
  | 0, _, i => i
  | k + 1, c, i => if c &&& msb ≠ 0#32 then i else normLoop k (c <<< 1) (i - 1)

/-- bitvect.c:3596-3607; the list is reversed and `i` is its length. -/
def maxDown : List W → Int
  | [] => Bitvect.longMin
  | c :: cs => if c ≠ 0#32 then ((normLoop 32 c ((cs.length + 1) * 32) : Nat) : Int) - 1 else maxDown cs

/-- bitvect.c:3589-3608 `Set_Max`. -/
def setMax (ws : List W) : Int := maxDown ws.reverse

/-! ### Fields -/

/-- bitvect.c:3366-3384: the loop of `BitVector_Chunk_Store`. -/
def storeLoop : List W → Nat → Nat → BitVec 64 → List W
  | [], _, _, _ => []
  | w :: ws, offset, chunk, v =>
    if chunk = 0 then w :: ws
    else
      let m := if offset + chunk < 32 then (ones <<< offset) &&& ~~~(ones <<< (offset + chunk)) else ones <<< offset
      let b := if offset + chunk < 32 then chunk else 32 - offset
      ((w &&& ~~~m) ||| ((v <<< offset).setWidth 32 &&& m)) :: storeLoop ws 0 (chunk - b) (v >>> b)

/-- bitvect.c:3362-3363, 3399-3400: the number of bits, clipped. -/
def clip (bits chunk offset : Nat) : Nat :=
  let chunk := if chunk > 64 then 64 else chunk
  if offset + chunk > bits then bits - offset else chunk

/-- bitvect.c:3355-3387 `BitVector_Chunk_Store`. -/
def chunkStore (bits : Nat) (ws : List W) (chunk offset : Nat) (v : BitVec 64) : List W :=
  if chunk > 0 ∧ offset < bits then
    ws.take (offset / 32) ++ storeLoop (ws.drop (offset / 32)) (offset % 32) (clip bits chunk offset) v
  else ws

/-- bitvect.c:3403-3420: the loop of `BitVector_Chunk_Read`. -/
def readLoop : List W → Nat → Nat → Nat → BitVec 64 → BitVec 64
  | [], _, _, _, v => v
  | w :: ws, offset, chunk, got, v =>
    if chunk = 0 then v
    else
      let m := if offset + chunk < 32 then ~~~(ones <<< (offset + chunk)) else ones
      let b := if offset + chunk < 32 then chunk else 32 - offset
      readLoop ws 0 (chunk - b) (got + b) (v ||| (((w &&& m) >>> offset).setWidth 64 <<< got))

/-- bitvect.c:3389-3423 `BitVector_Chunk_Read`. -/
def chunkRead (bits : Nat) (ws : List W) (chunk offset : Nat) : BitVec 64 :=
  if chunk > 0 ∧ offset < bits then
    readLoop (ws.drop (offset / 32)) (offset % 32) (clip bits chunk offset) 0 0#64
  else 0#64

/-- bitvect.c:805-808: `count` words from place `i` on are set to all ones. -/
def fillWords (ws : List W) (i : Nat) : Nat → List W
  | 0 => ws
  | k + 1 => fillWords (ws.set i ones) (i + 1) k

/-- bitvect.c:778-817 `BitVector_Interval_Fill`. -/
def intervalFill (bits : Nat) (ws : List W) (lower upper : Nat) : List W :=
  if ws.length > 0 ∧ lower < bits ∧ upper < bits ∧ lower ≤ upper then
    let lo := lower / 32
    let hi := upper / 32
    let lomask := ones <<< (lower % 32)
    let himask := ~~~((ones <<< (upper % 32)) <<< 1)
    maskLast (mask bits)
      (if hi - lo = 0 then ws.set lo (ws.getD lo 0#32 ||| (lomask &&& himask))
       else
         let ws := fillWords (ws.set lo (ws.getD lo 0#32 ||| lomask)) (lo + 1) (hi - lo - 1)
         ws.set hi (ws.getD hi 0#32 ||| himask))
  else ws

/-- bitvect.c:3258-3262: the bytes of one word. -/
def packWord : Nat → List (BitVec 8) → W
  | _, [] => 0#32
  | count, b :: bs => if count < 32 then (b.setWidth 32 <<< count) ||| packWord (count + 8) bs else 0#32

/-- bitvect.c:3255-3264: `size` words. -/
def packWords : Nat → List (BitVec 8) → List W
  | 0, _ => []
  | k + 1, bs => packWord 0 bs :: packWords k (bs.drop 4)

/-- bitvect.c:3246-3267 `BitVector_Block_Store`. -/
def blockStore (bits : Nat) (bs : List (BitVec 8)) : List W := maskLast (mask bits) (packWords (size bits) bs)

/-- bitvect.c:3286-3292: the bytes of a word. -/
def unpackWord : Nat → W → List (BitVec 8)
  | 0, _ => []
  | k + 1, v => (v &&& 0xff#32).setWidth 8 :: unpackWord k (if k > 0 then v >>> 8 else v)

/-- bitvect.c:3269-3298 `BitVector_Block_Read`, without the zero byte at the end. -/
def blockRead (ws : List W) : List (BitVec 8) := ws.flatMap (unpackWord 4)

/-! ### Copying a range of bits -/

/-- The local variables of `BitVector_Interval_Copy` that change. -/
structure Cp where
  x : List W
  sBase : Nat
  tBase : Nat
  source : W
  target : W
  sLower : Nat
  sUpper : Nat
  sBits : Nat
  tLower : Nat
  tUpper : Nat
  tBits : Nat

/-- The constants: the first and the last word and bit of source and target, and the direction. -/
structure Range where
  sLo : Nat
  sHi : Nat
  sLoBit : Nat
  sHiBit : Nat
  tLo : Nat
  tHi : Nat
  tLoBit : Nat
  tHiBit : Nat
  asc : Bool

/-- bitvect.c:1130-1160, 1184-1208: the bits of word `base` that belong to the range. -/
def lowerBit (base lo loBit : Nat) : Nat := if base = lo then loBit else 0
@[inherit_doc lowerBit]
def upperBit (base hi hiBit : Nat) : Nat := if base = hi then hiBit else 31

/-- bitvect.c:1128-1161: start a word of the target. -/
def startTarget (r : Range) (s : Cp) : Cp :=
  let lower := lowerBit s.tBase r.tLo r.tLoBit
  let upper := upperBit s.tBase r.tHi r.tHiBit
  let w := s.x.getD s.tBase 0#32
  { s with
    tLower := lower
    tUpper := upper
    tBits := upper - lower + 1
    target :=
      if s.tBase = r.tHi then
        if s.tBase = r.tLo then w &&& ~~~((ones <<< lower) &&& ~~~((ones <<< upper) <<< 1))
        else w &&& ((ones <<< upper) <<< 1)
      else if s.tBase = r.tLo then w &&& ~~~(ones <<< lower)
      else 0#32 }

/-- bitvect.c:1182-1209: start a word of the source. -/
def startSource (r : Range) (ys : List W) (s : Cp) : Cp :=
  let lower := lowerBit s.sBase r.sLo r.sLoBit
  let upper := upperBit s.sBase r.sHi r.sHiBit
  { s with source := ys.getD s.sBase 0#32, sLower := lower, sUpper := upper, sBits := upper - lower + 1 }

/-- bitvect.c:1211-1253: move as many bits as both words have. -/
def moveBits (r : Range) (s : Cp) : Cp :=
  let bits := if s.sBits > s.tBits then s.tBits else s.sBits
  let sMin := if s.sBits > s.tBits then (if r.asc then s.sLower else s.sUpper - (bits - 1)) else s.sLower
  let sMax := if s.sBits > s.tBits then (if r.asc then s.sLower + (bits - 1) else s.sUpper) else s.sUpper
  let tMin := if s.sBits > s.tBits then s.tLower
    else if r.asc then s.tLower else s.tUpper - (bits - 1)
  let m := (ones <<< sMin) &&& ~~~((ones <<< sMax) <<< 1)
  let part := if sMin = tMin then s.source &&& m
    else if sMin < tMin then (s.source &&& m) <<< (tMin - sMin) else (s.source &&& m) >>> (sMin - tMin)
  { s with
    target := s.target ||| part
    sLower := if r.asc then s.sLower + bits else s.sLower
    tLower := if r.asc then s.tLower + bits else s.tLower
    sUpper := if r.asc then s.sUpper else s.sUpper - bits
    tUpper := if r.asc then s.tUpper else s.tUpper - bits
    sBits := s.sBits - bits
    tBits := s.tBits - bits }

/-- bitvect.c:1111-1127: the target word is full: write it and go on to the next; none is the end. -/
def nextTarget (r : Range) (s : Cp) : Cp × Bool :=
  if s.tBits = 0 then
    let s := { s with x := s.x.set s.tBase s.target }
    if s.tBase = (if r.asc then r.tHi else r.tLo) then (s, true)
    else (startTarget r { s with tBase := if r.asc then s.tBase + 1 else s.tBase - 1 }, false)
  else (s, false)

/-- bitvect.c:1163-1181: the source word is used up: go on to the next. -/
def nextSource (r : Range) (ys : List W) (s : Cp) : Cp × Bool :=
  if s.sBits = 0 then
    if s.sBase = (if r.asc then r.sHi else r.sLo) then (s, true)
    else (startSource r ys { s with sBase := if r.asc then s.sBase + 1 else s.sBase - 1 }, false)
  else (s, false)

/-- bitvect.c:1107-1254: the loop, from its second iteration on; every iteration moves a bit, so that `length`
    iterations are enough. -/
def copyLoop (r : Range) (ys : List W) : Nat → Cp → List W
  | 0, s => s.x
  | k + 1, s =>
    let a := nextTarget r s
    if a.2 then a.1.x
    else
      let b := nextSource r ys a.1
      if b.2 then b.1.x else copyLoop r ys k (moveBits r b.1)

/-- bitvect.c:1080-1104: the range; `n` is the length after clipping. -/
def mkRange (xo yo n : Nat) : Range :=
  ⟨yo / 32, (yo + (n - 1)) / 32, yo % 32, (yo + (n - 1)) % 32, xo / 32, (xo + (n - 1)) / 32, xo % 32,
    (xo + (n - 1)) % 32, decide (xo ≤ yo)⟩

/-- bitvect.c:1077-1078: the length, clipped. -/
def clipCopy (bitsX bitsY xo yo len : Nat) : Nat :=
  let len := if xo + len > bitsX then bitsX - xo else len
  if yo + len > bitsY then bitsY - yo else len

/-- bitvect.c:1045-1256 `BitVector_Interval_Copy(X, Y, Xoffset, Yoffset, length)`, X and Y distinct. -/
def intervalCopy (bitsX bitsY : Nat) (xs ys : List W) (xo yo len : Nat) : List W :=
  if len > 0 ∧ xo < bitsX ∧ yo < bitsY then
    let n := clipCopy bitsX bitsY xo yo len
    let r := mkRange xo yo n
    let s : Cp := ⟨xs, if r.asc then r.sLo else r.sHi, if r.asc then r.tLo else r.tHi, 0#32, 0#32, 0, 0, 0, 0, 0, 0⟩
    maskLast (mask bitsX) (copyLoop r ys (n + 1) (moveBits r (startSource r ys (startTarget r s))))
  else xs

/-! ### Multiplication and division -/

/-- bitvect.c:2713-2731: the loop of `BitVector_Mul_Pos`; the first argument is `limit + 1 - count`. -/
def mulLoop (bits bitsZ : Nat) (strict : Bool) (zs : List W) : Nat → Nat → List W → List W → List W × Bool
  | 0, _, xs, _ => (xs, true)
  | k + 1, count, xs, ys =>
    let hit := bitTest bitsZ zs count
    let r := compute bits xs ys false false
    let xs1 := if hit then r.words else xs
    let ok := if hit then (if strict then !(r.carry || r.overflow) else !r.carry) else true
    if ok = false then (xs1, false)
    else if k = 0 then (xs1, true)
    else
      let s := shiftLeft bits ys false
      let over := !(lastWord s.1 &&& topBit (mask bits) == 0#32)
      let ok2 := if strict then !(s.2 || over) else !s.2
      if ok2 = false then (xs1, false) else mulLoop bits bitsZ strict zs k (count + 1) xs1 s.1

/-- bitvect.c:2681-2733 `BitVector_Mul_Pos(X, Y, Z, strict)`: X and whether ErrCode_Ok; `bitsZ` is `bits_(Z)`. -/
def mulPos (bits bitsZ : Nat) (ys zs : List W) (strict : Bool) : List W × Bool :=
  if isEmpty ys then (empty ys, true)
  else if setMax zs < 0 then (empty ys, true)
  else mulLoop bits bitsZ strict zs ((setMax zs).toNat + 1) 0 (empty ys) ys

/-- bitvect.c:2776-2785: the walk down, lists reversed; is `*ptr_y > *ptr_z` where it stops? -/
def gtDown : List W → List W → Bool
  | a :: as, b :: bs =>
    if a == 0#32 && b == 0#32 then (if as.isEmpty then false else gtDown as bs) else decide (b < a)
  | _, _ => false

/-- bitvect.c:2735-2813 `BitVector_Multiply`, vectors of the same number of bits: X and whether ErrCode_Ok. -/
def multiply (bits : Nat) (ys zs : List W) : List W × Bool :=
  if isEmpty ys || isEmpty zs then (empty ys, true)
  else
    let negY := !(lastWord ys &&& topBit (mask bits) == 0#32)
    let negZ := !(lastWord zs &&& topBit (mask bits) == 0#32)
    let a := if negY then negate bits ys else copy bits bits ys
    let b := if negZ then negate bits zs else copy bits bits zs
    let r := if gtDown a.reverse b.reverse then mulPos bits bits a b true else mulPos bits bits b a true
    if r.2 && (negY != negZ) then (negate bits r.1, r.2) else r

/-- Q, X, R and `copy` of `BitVector_Div_Pos`. -/
structure Div where
  q : List W
  x : List W
  r : List W
  copy : Bool

/-- bitvect.c:2847-2868: one iteration, for bit `k`. -/
def divStep (bits : Nat) (ys : List W) (k : Nat) (s : Div) : Div :=
  let flag := !(s.q.getD (k / 32) 0#32 &&& bitMask (k % 32) == 0#32)
  let off := s.q.set (k / 32) (s.q.getD (k / 32) 0#32 &&& ~~~(bitMask (k % 32)))
  let on := s.q.set (k / 32) (s.q.getD (k / 32) 0#32 ||| bitMask (k % 32))
  if s.copy then
    let x := (shiftLeft bits s.x flag).1
    let c := compute bits x ys true false
    if c.carry then ⟨off, x, c.words, true⟩ else ⟨on, x, c.words, false⟩
  else
    let r := (shiftLeft bits s.r flag).1
    let c := compute bits r ys true false
    if c.carry then ⟨off, c.words, r, false⟩ else ⟨on, c.words, r, true⟩

/-- bitvect.c:2847-2868 `while (bits-- > 0)`. -/
def divLoop (bits : Nat) (ys : List W) : Nat → Div → Div
  | 0, s => s
  | k + 1, s => divLoop bits ys k (divStep bits ys k s)

/-- bitvect.c:2815-2871 `BitVector_Div_Pos(Q, X, Y, R)`, Y not zero: Q and R. -/
def divPos (bits : Nat) (xs ys : List W) : List W × List W :=
  let q := copy bits bits xs
  if setMax q < 0 then (q, empty xs)
  else
    let s := divLoop bits ys ((setMax q).toNat + 1) ⟨q, xs, empty xs, false⟩
    (s.q, if s.copy then copy bits bits s.x else s.r)

/-- bitvect.c:2873-2931 `BitVector_Divide(Q, X, Y, R)`: none for ErrCode_Zero, else Q and R. -/
def divide (bits : Nat) (xs ys : List W) : Option (List W × List W) :=
  if isEmpty ys then none
  else if isEmpty xs then some (empty xs, empty xs)
  else
    let negX := !(lastWord xs &&& topBit (mask bits) == 0#32)
    let negY := !(lastWord ys &&& topBit (mask bits) == 0#32)
    let a := if negX then negate bits xs else copy bits bits xs
    let b := if negY then negate bits ys else copy bits bits ys
    let qr := divPos bits a b
    some (if negX != negY then negate bits qr.1 else qr.1, if negX then negate bits qr.2 else qr.2)

end Verif.Words
