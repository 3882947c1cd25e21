/-
Model of libyasm/bitvect.c at the level of whole bit vectors.

A bit vector of `bits_` = n bits is a `BitVec n`; bit i of the vector is bit `i AND 31` of word
`i >> 5`.  Where bitvect.c loops over the 32-bit words of an operand (add, subtract, negate, compare,
shift by one, highest set bit, ...) the model uses one `BitVec` operation; the word loops themselves
are modelled in `Verif.Words`, which proves that they compute these operations.  The bit-serial
multiplication and division loops are modelled here as written.  `N_word` is 32 bits, `N_long` 64.
-/
namespace Verif.Bitvect

/-- The vector of `n` bits whose bit i is `f i`. -/
def ofBits : (n : Nat) → (Nat → Bool) → BitVec n
  | 0, _ => 0#0
  | n + 1, f => BitVec.cons (f n) (ofBits n f)

/-- limits.h `LONG_MIN` on LP64. -/
def longMin : Int := -(2 ^ 63)
/-- limits.h `LONG_MAX` on LP64. -/
def longMax : Int := 2 ^ 63 - 1

/-- bitvect.c:3589-3608 `Set_Max`: index of the highest set bit, `LONG_MIN` when there is none. -/
def setMax {n : Nat} (x : BitVec n) : Int := if x.toNat = 0 then longMin else (Nat.log2 x.toNat : Int)

/-- bitvect.c:2368-2392 `BitVector_shift_left(addr, carry_in)`: shifted vector. -/
def shl1 {n : Nat} (x : BitVec n) (c : Bool) : BitVec n := (x <<< 1) ||| (if c then 1#n else 0#n)
/-- bitvect.c:2387: the bit shifted out by `BitVector_shift_left`. -/
def shl1Carry {n : Nat} (x : BitVec n) : Bool := x.msb

/-- bitvect.c:2394-2422 `BitVector_shift_right(addr, carry_in)`. -/
def shr1 {n : Nat} (x : BitVec n) (c : Bool) : BitVec n :=
  (x >>> 1) ||| (if c then 1#n <<< (n - 1) else 0#n)

/-- The loop `while (count-- > 0) BitVector_shift_right(x, carry)` (intnum.c:523-524, 822-823, 862-863). -/
def shrLoop {n : Nat} (c : Bool) : Nat → BitVec n → BitVec n
  | 0, x => x
  | k + 1, x => shrLoop c k (shr1 x c)

/-- bitvect.c:2424-2440 `BitVector_Move_Left`: `count` single shifts, then a shift by whole words. -/
def moveLeft {n : Nat} (x : BitVec n) (bits : Nat) : BitVec n :=
  if bits = 0 then x else if bits ≥ n then 0#n else (x <<< (bits % 32)) <<< (32 * (bits / 32))

/-- bitvect.c:1421-1453 `BitVector_Compare`: signed comparison of equally sized vectors. -/
def cmp {n : Nat} (x y : BitVec n) : Int :=
  if x.msb ≠ y.msb then (if x.msb then -1 else 1)
  else if x.toNat = y.toNat then 0 else if x.toNat < y.toNat then -1 else 1

/-- bitvect.c:2661-2679 `BitVector_Sign`. -/
def sign {n : Nat} (x : BitVec n) : Int := if x.toNat = 0 then 0 else if x.msb then -1 else 1

/-- bitvect.c:2533-2602 `BitVector_compute` with `minus` false: carry out. -/
def addCarry {n : Nat} (x y : BitVec n) : Bool := decide (2 ^ n ≤ x.toNat + y.toNat)
/-- bitvect.c:2533-2602 `BitVector_compute` with `minus` false: return value (signed overflow). -/
def addOvfl {n : Nat} (x y : BitVec n) : Bool := (x.msb == y.msb) && ((x + y).msb != x.msb)
/-- bitvect.c:2533-2602 `BitVector_compute` with `minus` true: carry out (borrow). -/
def subBorrow {n : Nat} (x y : BitVec n) : Bool := decide (x.toNat < y.toNat)

/-- bitvect.c:3355-3387 `BitVector_Chunk_Store`: `size` bits (at most 64, clipped at the end of the
    vector) at `off` are replaced by the low bits of `v`; nothing happens when `off` is out of range. -/
def chunkStore {n : Nat} (x : BitVec n) (size off : Nat) (v : BitVec 64) : BitVec n :=
  ofBits n fun i =>
    if off ≤ i ∧ i < off + min size 64 ∧ off < n then v.getLsbD (i - off)
    else x.getLsbD i

/-- bitvect.c:3389-3423 `BitVector_Chunk_Read`. -/
def chunkRead {n : Nat} (x : BitVec n) (size off : Nat) : BitVec 64 :=
  BitVec.ofNat 64 (x.toNat / 2 ^ off % 2 ^ min size 64)

/-- bitvect.c `BitVector_Interval_Fill(addr, lower, upper)`. -/
def intervalFill {n : Nat} (x : BitVec n) (lo hi : Nat) : BitVec n :=
  ofBits n fun i =>
    if lo ≤ i ∧ i ≤ hi ∧ lo < n ∧ hi < n then true else x.getLsbD i

/-- bitvect.c:1045-1256 `BitVector_Interval_Copy(X, Y, Xoffset, Yoffset, length)`. -/
def intervalCopy {n m : Nat} (x : BitVec n) (y : BitVec m) (xo yo len : Nat) : BitVec n :=
  ofBits n fun i =>
    if xo ≤ i ∧ i < xo + len ∧ xo < n ∧ yo + (i - xo) < m then
      y.getLsbD (yo + (i - xo))
    else x.getLsbD i

/-- bitvect.c:3246-3267 `BitVector_Block_Store`: little-endian bytes, the rest cleared. -/
def blockStore (n : Nat) (bs : List (BitVec 8)) : BitVec n :=
  ofBits n fun i => (bs.getD (i / 8) 0#8).getLsbD (i % 8)
/-- bitvect.c:3269-3298 `BitVector_Block_Read`: the bytes of a vector whose size is a multiple of 32. -/
def blockRead {n : Nat} (x : BitVec n) : List (BitVec 8) :=
  (List.range (n / 8)).map fun j => BitVec.ofNat 8 (x.toNat / 2 ^ (8 * j))

/-- bitvect.c:2713-2731, the loop of `BitVector_Mul_Pos`.  The first argument is
    `limit + 1 - count`, the second is `count`; the result is X and `ok`. -/
def mulLoop {n m : Nat} (strict : Bool) (z : BitVec m) : Nat → Nat → BitVec n → BitVec n → BitVec n × Bool
  | 0, _, x, _ => (x, true)
  | k + 1, count, x, y =>
    let x1 := if z.getLsbD count then x + y else x
    let ok := if z.getLsbD count then
        (if strict then !(addCarry x y || addOvfl x y) else !(addCarry x y)) else true
    if ok = false then (x1, false)
    else if k = 0 then (x1, true)
    else
      let y1 := shl1 y false
      let ok2 := if strict then !(shl1Carry y || y1.msb) else !(shl1Carry y)
      if ok2 = false then (x1, false) else mulLoop strict z k (count + 1) x1 y1

/-- bitvect.c:2681-2733 `BitVector_Mul_Pos(X, Y, Z, strict)`: X and whether ErrCode_Ok. -/
def mulPos {n m : Nat} (y : BitVec n) (z : BitVec m) (strict : Bool) : BitVec n × Bool :=
  if y.toNat = 0 then (0#n, true)
  else if setMax z < 0 then (0#n, true)
  else mulLoop strict z ((setMax z).toNat + 1) 0 (0#n) y

/-- The word of 32 bits at index i. -/
def word {n : Nat} (x : BitVec n) (i : Nat) : Nat := x.toNat / 2 ^ (32 * i) % 2 ^ 32

/-- bitvect.c:2776-2785: walk down from the top while both words are zero; is the word of A greater
    than the word of B where the walk stops? -/
def topWordGt {n : Nat} (a b : BitVec n) : Nat → Bool
  | 0 => false
  | i + 1 =>
    if word a i = 0 ∧ word b i = 0 then (if i = 0 then false else topWordGt a b i)
    else decide (word b i < word a i)

/-- bitvect.c:2735-2813 `BitVector_Multiply` (all three vectors of the same size): X and ErrCode_Ok. -/
def multiply {n : Nat} (y z : BitVec n) : BitVec n × Bool :=
  if y.toNat = 0 ∨ z.toNat = 0 then (0#n, true)
  else
    let a := if y.msb then -y else y
    let b := if z.msb then -z else z
    let r := if topWordGt a b ((n + 31) / 32) then mulPos a b true else mulPos b a true
    if r.2 && (y.msb != z.msb) then (-r.1, r.2) else r

/-- Result of one of the division loops: quotient, the scratch operand X, remainder R, `copy`. -/
structure DivState (n : Nat) where
  q : BitVec n
  x : BitVec n
  r : BitVec n
  copy : Bool

/-- bitvect.c:2847-2868, the loop body of `BitVector_Div_Pos` for bit `k`. -/
def divStep {n : Nat} (y : BitVec n) (k : Nat) (s : DivState n) : DivState n :=
  let flag := s.q.getLsbD k
  if s.copy then
    let x1 := shl1 s.x flag
    let r1 := x1 - y
    if subBorrow x1 y then { q := s.q &&& ~~~(BitVec.twoPow n k), x := x1, r := r1, copy := true }
    else { q := s.q ||| BitVec.twoPow n k, x := x1, r := r1, copy := false }
  else
    let r1 := shl1 s.r flag
    let x1 := r1 - y
    if subBorrow r1 y then { q := s.q &&& ~~~(BitVec.twoPow n k), x := x1, r := r1, copy := false }
    else { q := s.q ||| BitVec.twoPow n k, x := x1, r := r1, copy := true }

/-- bitvect.c:2847-2868 `while (bits-- > 0)`. -/
def divLoop {n : Nat} (y : BitVec n) : Nat → DivState n → DivState n
  | 0, s => s
  | k + 1, s => divLoop y k (divStep y k s)

/-- bitvect.c:2815-2871 `BitVector_Div_Pos(Q, X, Y, R)` for non-zero Y: quotient and remainder. -/
def divPos {n : Nat} (x y : BitVec n) : BitVec n × BitVec n :=
  if setMax x < 0 then (x, 0#n)
  else
    let s := divLoop y ((setMax x).toNat + 1) { q := x, x := x, r := 0#n, copy := false }
    (s.q, if s.copy then s.x else s.r)

/-- bitvect.c:2873-2925 `BitVector_Divide(Q, X, Y, R)`: `none` for ErrCode_Zero, else (Q, R). -/
def divide {n : Nat} (x y : BitVec n) : Option (BitVec n × BitVec n) :=
  if y.toNat = 0 then none
  else if x.toNat = 0 then some (0#n, 0#n)
  else
    let a := if x.msb then -x else x
    let b := if y.msb then -y else y
    let qr := divPos a b
    some (if x.msb != y.msb then -qr.1 else qr.1, if x.msb then -qr.2 else qr.2)

end Verif.Bitvect
