import Verif.Intnum.Model
/-
Model of the numeric literal readers and writers of libyasm/bitvect.c and their callers in
libyasm/intnum.c.  Strings are lists of bytes without the terminating NUL.  `N_word` is 32 bits, so
BITS = 32, LOG10 = (BITS-1)*0.30103 truncated = 9 and EXP10 = 10^9 (bitvect.c:379-380); the vector
`conv_bv` has 256 bits, i.e. 8 words and a full `mask_` in its last word.
-/
namespace Verif.Literal
open Verif.Bitvect Verif.Intnum

/-- What a reader makes of one character. -/
inductive Cls where
  | sep
  | digit (d : Nat)
  | bad
  deriving DecidableEq, Repr

/-- bitvect.c:1513-1524: `toupper`, '_', `isxdigit` and the digit's value. -/
def hexCls (c : BitVec 8) : Cls :=
  let d := if 97 ≤ c.toNat ∧ c.toNat ≤ 122 then c.toNat - 32 else c.toNat
  if d = 95 then .sep
  else if 48 ≤ d ∧ d ≤ 57 then .digit (d - 48)
  else if 65 ≤ d ∧ d ≤ 70 then .digit (d - (65 - 10))
  else .bad

/-- bitvect.c:1552-1558. -/
def octCls (c : BitVec 8) : Cls :=
  if c.toNat = 95 then .sep
  else if 48 ≤ c.toNat ∧ c.toNat ≤ 57 ∧ c.toNat ≠ 56 ∧ c.toNat ≠ 57 then .digit (c.toNat - 48)
  else .bad

/-- bitvect.c:1626-1639: the `switch`; a '1' sets bit `count`. -/
def binCls (c : BitVec 8) : Cls :=
  if c.toNat = 48 then .digit 0 else if c.toNat = 49 then .digit 1
  else if c.toNat = 95 then .sep else .bad

/-- Result of filling one word. -/
structure Scan where
  value : Nat
  count : Nat
  /-- the variable `digit` after the loop (octal reader) -/
  digit : Nat
  ok : Bool
  /-- characters not yet read, last one first -/
  rest : List (BitVec 8)

/-- The `for` loops 1510-1525 (k = 4), 1549-1560 (k = 3) and 1623-1640 (k = 1); the list is the unread
    part of the string, last character first.  A separator decrements `count` by k before the loop
    increments it (unsigned wrap-around cancels out). -/
def scan (k : Nat) (cls : BitVec 8 → Cls) : List (BitVec 8) → (count value digit : Nat) → Scan
  | [], count, value, digit => ⟨value, count, digit, true, []⟩
  | c :: cs, count, value, digit =>
    if count < 32 then
      match cls c with
      | .sep => scan k cls cs count value c.toNat
      | .digit d => scan k cls cs (count + k) (value ||| (d * 2 ^ count % 2 ^ 32)) d
      | .bad => ⟨value, count + k, c.toNat, false, cs⟩
    else ⟨value, count, digit, true, c :: cs⟩

/-- bitvect.c:1507-1527 and 1620-1642, the loop over the words: once `ok` is false the words are 0. -/
def words (k : Nat) (cls : BitVec 8 → Cls) : Nat → Bool → List (BitVec 8) → List Nat × Bool
  | 0, ok, _ => ([], ok)
  | n + 1, false, l => let r := words k cls n false l; (0 :: r.1, r.2)
  | n + 1, true, l =>
    let s := scan k cls l 0 0 0
    let r := words k cls n s.ok s.rest
    (s.value :: r.1, r.2)

/-- bitvect.c:1546-1567, the loop over the words of the octal reader, with `value_fill`, `count_fill`
    and `digit` carried from word to word. -/
def wordsOct : Nat → (ok : Bool) → (vfill : Nat) → (cfill : Int) → (digit : Nat) → List (BitVec 8) →
    List Nat × Bool
  | 0, ok, _, _, _, _ => ([], ok)
  | n + 1, ok, vfill, cfill, digit, l =>
    let count := (cfill % 2 ^ 32).toNat
    let s : Scan := if ok then scan 3 octCls l count vfill digit else ⟨vfill, count, digit, false, l⟩
    let cfill' : Int := Int.bmod s.count (2 ^ 32) - 32
    let vfill' := if cfill' > 0 then s.digit / 2 ^ (3 - cfill').toNat % 2 ^ 32 else 0
    let r := wordsOct n s.ok vfill' cfill' s.digit s.rest
    (s.value :: r.1, r.2)

/-- The vector with the given 32-bit words, least significant first. -/
def ofWords (ws : List Nat) : BitVec 256 := BitVec.ofNat 256 (ws.foldr (fun w acc => w + 2 ^ 32 * acc) 0)

/-- bitvect.c:1491-1528 `BitVector_from_Hex`. -/
def fromHex (s : List (BitVec 8)) : BitVec 256 × Bool :=
  let r := words 4 hexCls 8 true s.reverse; (ofWords r.1, r.2)
/-- bitvect.c:1607-1648 `BitVector_from_Bin`. -/
def fromBin (s : List (BitVec 8)) : BitVec 256 × Bool :=
  let r := words 1 binCls 8 true s.reverse; (ofWords r.1, r.2)
/-- bitvect.c:1530-1571 `BitVector_from_Oct`. -/
def fromOct (s : List (BitVec 8)) : BitVec 256 × Bool :=
  let r := wordsOct 8 true 0 0 0 s.reverse; (ofWords r.1, r.2)

/-- bitvect.c `ErrCode`, as far as the decimal reader returns it. -/
inductive EC where
  | ok | pars | ovfl
  deriving DecidableEq, Repr

/-- bitvect.c:1857-1872: read up to `count` digits (the list is reversed): `accu` and the unread rest,
    `none` on a character that is not a digit. -/
def decChunk : (count : Nat) → List (BitVec 8) → (accu powr : Nat) → Option (Nat × List (BitVec 8))
  | 0, l, accu, _ => some (accu, l)
  | _ + 1, [], accu, _ => some (accu, [])
  | n + 1, c :: cs, accu, powr =>
    if 48 ≤ c.toNat ∧ c.toNat ≤ 57 then
      decChunk n cs ((accu + (c.toNat - 48) * powr) % 2 ^ 32) (powr * 10 % 2 ^ 32)
    else none

/-- bitvect.c:1854-1907: the main loop.  `rank` is 0 until `shift` is set.  The first argument bounds the
    number of rounds (each consumes at least one character); the caller passes the length. -/
def decLoop : Nat → List (BitVec 8) → (addr rank : BitVec 256) → (shift : Bool) → BitVec 256 × EC
  | _, [], addr, _, _ => (addr, .ok)
  | 0, _ :: _, addr, _, _ => (addr, .ok)
  | f + 1, c :: cs, addr, rank, shift =>
    match decChunk 9 (c :: cs) 0 1 with
    | none => (addr, .pars)
    | some (accu, rest) =>
      let p := if shift then mulPos rank (BitVec.ofNat 32 accu) false else (BitVec.ofNat 256 accu, true)
      if p.2 = false then (addr, .ovfl)
      else if addCarry addr p.1 then (addr + p.1, .ovfl)
      else if rest = [] then (addr + p.1, .ok)
      else
        let r := if shift then mulPos rank (BitVec.ofNat 32 (10 ^ 9)) false
          else (BitVec.ofNat 256 (10 ^ 9), true)
        if r.2 = false then (addr + p.1, .ovfl)
        else decLoop f rest (addr + p.1) r.1 true

/-- bitvect.c:1807-1917 `BitVector_from_Dec_static` on a 256-bit vector, whose old content is `old`. -/
def fromDec (old : BitVec 256) (s : List (BitVec 8)) : BitVec 256 × EC :=
  match s with
  | [] => (old, .pars)
  | c :: cs =>
    let minus := decide (c.toNat = 45)
    let body := if minus ∨ c.toNat = 43 then cs else c :: cs
    if body = [] then (old, .pars)
    else
      let r := decLoop body.length body.reverse 0#256 0#256 false
      if r.2 = .ok ∧ minus = true then
        (-r.1, if (-r.1).msb then .ok else .ovfl)
      else r

/-- intnum.c:195-210 `yasm_intnum_create_hex`. -/
def createHex (s : List (BitVec 8)) : Created :=
  let r := fromHex s; ⟨frombv r.1, if r.2 then none else some .value⟩
/-- intnum.c:174-193 `yasm_intnum_create_oct`. -/
def createOct (s : List (BitVec 8)) : Created :=
  let r := fromOct s; ⟨frombv r.1, if r.2 then none else some .value⟩
/-- intnum.c:153-172 `yasm_intnum_create_bin`. -/
def createBin (s : List (BitVec 8)) : Created :=
  let r := fromBin s; ⟨frombv r.1, if r.2 then none else some .value⟩
/-- intnum.c:131-151 `yasm_intnum_create_dec`; `old` is the content of `conv_bv`. -/
def createDec (old : BitVec 256) (s : List (BitVec 8)) : Created :=
  let r := fromDec old s
  ⟨frombv r.1, match r.2 with | .ok => none | .pars => some .value | .ovfl => some .overflow⟩

/-- bitvect.c:1736-1747, the digit loop of `BitVector_to_Dec` while `loop` is set: LOG10 = 9 digits of
    q, least significant first, as long as fewer than `room` digits are written. -/
def putDigits : Nat → Nat → Nat → List (BitVec 8)
  | 0, _, _ => []
  | _ + 1, _, 0 => []
  | n + 1, q, room + 1 => BitVec.ofNat 8 (48 + q % 10) :: putDigits n (q / 10) room

/-- bitvect.c:1736-1747 when `loop` is clear: digits until q is 0 (q < 2^32 has at most 10 digits: the
    first argument bounds the rounds and the caller passes 10). -/
def putLast : Nat → Nat → Nat → List (BitVec 8)
  | 0, _, _ => []
  | _ + 1, _, 0 => []
  | n + 1, q, room + 1 => if q = 0 then [] else BitVec.ofNat 8 (48 + q % 10) :: putLast n (q / 10) room

/-- bitvect.c:1717-1749, the `do` loop of `BitVector_to_Dec` for a vector of at least 32 bits: `loop`
    stays set until a quotient is empty, which ends the outer loop.  The first argument bounds the
    rounds; the caller passes 256. -/
def decDigits : Nat → BitVec 256 → Nat → List (BitVec 8)
  | 0, _, _ => []
  | f + 1, quot, room =>
    let d := divPos quot (BitVec.ofNat 256 (10 ^ 9))
    if d.1.toNat = 0 then putLast 10 (d.2.toNat % 2 ^ 32) room
    else
      let ds := putDigits 9 (d.2.toNat % 2 ^ 32) room
      if ds.length < room then ds ++ decDigits f d.1 (room - ds.length) else ds

/-- bitvect.c:1650-1762 `BitVector_to_Dec` on a 256-bit vector: length = 256/3.3 + 2 = 79. -/
def toDec (x : BitVec 256) : List (BitVec 8) :=
  if sign x = 0 then [48#8]
  else
    let ds := decDigits 256 (if sign x < 0 then -x else x) 79
    let ds := if sign x < 0 ∧ ds.length < 79 then ds ++ [45#8] else ds
    ds.reverse

/-- libc `sprintf("%ld")`. -/
def ldDigits : Nat → Nat → List (BitVec 8)
  | 0, _ => []
  | f + 1, n => (if n / 10 = 0 then [] else ldDigits f (n / 10)) ++ [BitVec.ofNat 8 (48 + n % 10)]

/-- intnum.c:1064-1081 `yasm_intnum_get_str`; `none` when the `sprintf` runs over its 16-byte buffer. -/
def getStr : Intnum → Option (List (BitVec 8))
  | .L l =>
    let ds := ldDigits 20 l.toInt.natAbs
    let s := if l.slt 0#64 then 45#8 :: ds else ds
    if s.length + 1 ≤ 16 then some s else none
  | .BV v => some (toDec v)

end Verif.Literal
