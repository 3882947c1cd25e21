/-
The MD5 message digest of RFC 1321, on 32-bit words.
-/

namespace Verif.Md5.Spec

abbrev Word := BitVec 32
abbrev Byte := BitVec 8

/-- The auxiliary functions F, G, H, I (RFC 1321, 3.4). -/
def aux (round : Nat) (x y z : Word) : Word :=
  match round with
  | 0 => (x &&& y) ||| (~~~x &&& z)
  | 1 => (x &&& z) ||| (y &&& ~~~z)
  | 2 => x ^^^ y ^^^ z
  | _ => y ^^^ (x ||| ~~~z)

/-- `T[i+1]`: the integer part of 4294967296 times abs(sin(i+1)), i in radians; computed from the sine. -/
def T : List Word :=
  [0xd76aa478, 0xe8c7b756, 0x242070db, 0xc1bdceee,
   0xf57c0faf, 0x4787c62a, 0xa8304613, 0xfd469501,
   0x698098d8, 0x8b44f7af, 0xffff5bb1, 0x895cd7be,
   0x6b901122, 0xfd987193, 0xa679438e, 0x49b40821,
   0xf61e2562, 0xc040b340, 0x265e5a51, 0xe9b6c7aa,
   0xd62f105d, 0x02441453, 0xd8a1e681, 0xe7d3fbc8,
   0x21e1cde6, 0xc33707d6, 0xf4d50d87, 0x455a14ed,
   0xa9e3e905, 0xfcefa3f8, 0x676f02d9, 0x8d2a4c8a,
   0xfffa3942, 0x8771f681, 0x6d9d6122, 0xfde5380c,
   0xa4beea44, 0x4bdecfa9, 0xf6bb4b60, 0xbebfbc70,
   0x289b7ec6, 0xeaa127fa, 0xd4ef3085, 0x04881d05,
   0xd9d4d039, 0xe6db99e5, 0x1fa27cf8, 0xc4ac5665,
   0xf4292244, 0x432aff97, 0xab9423a7, 0xfc93a039,
   0x655b59c3, 0x8f0ccc92, 0xffeff47d, 0x85845dd1,
   0x6fa87e4f, 0xfe2ce6e0, 0xa3014314, 0x4e0811a1,
   0xf7537e82, 0xbd3af235, 0x2ad7d2bb, 0xeb86d391]

/-- Which word of the block step `i` uses. -/
def index (i : Nat) : Nat :=
  match i / 16 with
  | 0 => i % 16
  | 1 => (5 * i + 1) % 16
  | 2 => (3 * i + 5) % 16
  | _ => (7 * i) % 16

/-- By how much step `i` rotates. -/
def shift (i : Nat) : Nat :=
  match i / 16, i % 4 with
  | 0, 0 => 7 | 0, 1 => 12 | 0, 2 => 17 | 0, _ => 22
  | 1, 0 => 5 | 1, 1 => 9 | 1, 2 => 14 | 1, _ => 20
  | 2, 0 => 4 | 2, 1 => 11 | 2, 2 => 16 | 2, _ => 23
  | _, 0 => 6 | _, 1 => 10 | _, 2 => 15 | _, _ => 21

def rotl (x : Word) (s : Nat) : Word := (x <<< s) ||| (x >>> (32 - s))

/-- The four words of state. -/
structure State where
  a : Word
  b : Word
  c : Word
  d : Word
deriving DecidableEq, Repr

/-- One operation: the new `b` is computed, the others shift along. -/
def op (x : Nat → Word) (s : State) (i : Nat) : State where
  a := s.d
  b := s.b + rotl (s.a + aux (i / 16) s.b s.c s.d + x (index i) + T.getD i 0) (shift i)
  c := s.b
  d := s.c

/-- Little-endian word number `i` of a block. -/
def wordAt (block : List Byte) (i : Nat) : Word :=
  block.getD (4 * i + 3) 0 ++ block.getD (4 * i + 2) 0 ++ block.getD (4 * i + 1) 0 ++ block.getD (4 * i) 0

/-- Processing one 16-word block. -/
def compress (s : State) (block : List Byte) : State :=
  let r := (List.range 64).foldl (op (wordAt block)) s
  ⟨s.a + r.a, s.b + r.b, s.c + r.c, s.d + r.d⟩

/-- Processing all the whole blocks of a message. -/
def absorb (s : State) (m : List Byte) : State :=
  if 64 ≤ m.length then absorb (compress s (m.take 64)) (m.drop 64) else s
termination_by m.length
decreasing_by rw [List.length_drop]; omega

/-- The four bytes of a word, low-order first. -/
def le32 (w : Word) : List Byte :=
  [w.extractLsb' 0 8, w.extractLsb' 8 8, w.extractLsb' 16 8, w.extractLsb' 24 8]

/-- The message padded: a one bit, zeros up to 56 bytes modulo 64, the length in bits as two words, the
    low-order one first. -/
def pad (m : List Byte) : List Byte :=
  m ++ [0x80] ++ List.replicate ((119 - m.length % 64) % 64) 0 ++
    le32 (BitVec.ofNat 32 (8 * m.length)) ++ le32 (BitVec.ofNat 32 (8 * m.length / 2 ^ 32))

def start : State := ⟨0x67452301, 0xefcdab89, 0x98badcfe, 0x10325476⟩

def digest (m : List Byte) : List Byte :=
  let s := absorb start (pad m)
  le32 s.a ++ le32 s.b ++ le32 s.c ++ le32 s.d

end Verif.Md5.Spec
