/-
Model of libyasm/md5.c.

`unsigned long` has `W` bits, `32 ≤ W`: 32 on some platforms, 64 on others; the code is written so as not
to depend on it and the theorems hold for every such `W`.  Registers are `BitVec W`, the two bit counters
naturals below 2^W, bytes `BitVec 8`.  The 64-byte buffer `ctx->in` is a list; copying into it outside its
bounds is the outcome `none`.
-/
import Verif.Md5.Steps

namespace Verif.Md5

abbrev Byte := BitVec 8

/-- getu32 (md5.c:41-46). -/
def getu32 (W : Nat) (b0 b1 b2 b3 : Byte) : BitVec W :=
  ((((((b3.setWidth W) <<< 8) ||| b2.setWidth W) <<< 8) ||| b1.setWidth W) <<< 8) ||| b0.setWidth W

/-- putu32 (md5.c:48-55). -/
def putu32 {W : Nat} (d : BitVec W) : List Byte :=
  [d.setWidth 8, (d >>> 8).setWidth 8, (d >>> 16).setWidth 8, (d >>> 24).setWidth 8]

/-- 0xffffffff. -/
def mask (W : Nat) : BitVec W := BitVec.ofNat W 0xffffffff

/-- F1 to F4 (md5.c:173-176). -/
def ff {W : Nat} (f : Nat) (x y z : BitVec W) : BitVec W :=
  match f with
  | 1 => z ^^^ (x &&& (y ^^^ z))
  | 2 => y ^^^ (z &&& (x ^^^ y))
  | 3 => x ^^^ y ^^^ z
  | _ => y ^^^ (x ||| ~~~z)

/-- The registers a, b, c, d. -/
structure Regs (W : Nat) where
  a : BitVec W
  b : BitVec W
  c : BitVec W
  d : BitVec W
deriving DecidableEq, Repr

/-- Register number `i` (all numbers in the table are below 4). -/
def Regs.get {W : Nat} (r : Regs W) : Nat → BitVec W
  | 0 => r.a
  | 1 => r.b
  | 2 => r.c
  | _ => r.d

def Regs.put {W : Nat} (r : Regs W) (v : BitVec W) : Nat → Regs W
  | 0 => { r with a := v }
  | 1 => { r with b := v }
  | 2 => { r with c := v }
  | _ => { r with d := v }

/-- MD5STEP (md5.c:179-180). -/
def md5step {W : Nat} (inw : Nat → BitVec W) (r : Regs W) (a : StepArgs) : Regs W :=
  let w1 := (r.get a.w + (ff a.f (r.get a.x) (r.get a.y) (r.get a.z) +
    (inw a.k + BitVec.ofNat W a.t))) &&& mask W
  let w2 := (w1 <<< a.s) ||| (w1 >>> (32 - a.s))
  r.put (w2 + r.get a.x) a.w

/-- The data words: `in[i] = getu32(inraw + 4*i)` (md5.c:194-195). -/
def word (W : Nat) (inraw : List Byte) (i : Nat) : BitVec W :=
  getu32 W (inraw.getD (4 * i) 0) (inraw.getD (4 * i + 1) 0) (inraw.getD (4 * i + 2) 0)
    (inraw.getD (4 * i + 3) 0)

/-- yasm_md5_transform (md5.c:187-274); `inraw` has 64 bytes. -/
def transform {W : Nat} (buf : Regs W) (inraw : List Byte) : Regs W :=
  let r := steps.foldl (md5step (word W inraw)) buf
  ⟨buf.a + r.a, buf.b + r.b, buf.c + r.c, buf.d + r.d⟩

/-- yasm_md5_context (md5.h). -/
structure Ctx (W : Nat) where
  buf : Regs W
  bits0 : Nat
  bits1 : Nat
  inb : List Byte

/-- yasm_md5_init (md5.c:61-71); `inb` is whatever the memory held. -/
def init (W : Nat) (inb : List Byte) : Ctx W where
  buf := ⟨BitVec.ofNat W 0x67452301, BitVec.ofNat W 0xefcdab89, BitVec.ofNat W 0x98badcfe,
    BitVec.ofNat W 0x10325476⟩
  bits0 := 0
  bits1 := 0
  inb := inb

/-- memcpy (or memset) of `src` to `in + off`; `none` outside the 64 bytes. -/
def copyIn (inb : List Byte) (off : Nat) (src : List Byte) : Option (List Byte) :=
  if off + src.length ≤ 64 then some (inb.take off ++ src ++ inb.drop (off + src.length)) else none

/-- The loop and the final copy of md5.c:110-119. -/
def chunks {W : Nat} (buf : Regs W) (inb : List Byte) (d : List Byte) : Option (Regs W × List Byte) :=
  if 64 ≤ d.length then
    match copyIn inb 0 (d.take 64) with
    | none => none
    | some inb' => chunks (transform buf inb') inb' (d.drop 64)
  else
    match copyIn inb 0 d with
    | none => none
    | some inb' => some (buf, inb')
termination_by d.length
decreasing_by rw [List.length_drop]; omega

/-- yasm_md5_update (md5.c:77-120). -/
def update {W : Nat} (c : Ctx W) (d : List Byte) : Option (Ctx W) :=
  let len := d.length
  let t := c.bits0
  let bits0 := (t + len * 8 % 2 ^ W) % 2 ^ W % 2 ^ 32
  let bits1 := if bits0 < t then (c.bits1 + 1) % 2 ^ W else c.bits1
  let bits1 := (bits1 + len / 2 ^ 29) % 2 ^ W
  let t := t / 8 % 64
  if t ≠ 0 then
    if len < 64 - t then
      match copyIn c.inb t d with
      | none => none
      | some inb => some ⟨c.buf, bits0, bits1, inb⟩
    else
      match copyIn c.inb t (d.take (64 - t)) with
      | none => none
      | some inb =>
        match chunks (transform c.buf inb) inb (d.drop (64 - t)) with
        | none => none
        | some (buf, inb) => some ⟨buf, bits0, bits1, inb⟩
  else
    match chunks c.buf c.inb d with
    | none => none
    | some (buf, inb) => some ⟨buf, bits0, bits1, inb⟩

/-- md5.c:144-155: zeros up to byte 56, by way of a block of their own if they do not fit. -/
def padTo56 {W : Nat} (buf : Regs W) (inb : List Byte) (p count : Nat) : Option (Regs W × List Byte) :=
  if count < 8 then
    match copyIn inb p (List.replicate count 0) with
    | none => none
    | some i1 =>
      match copyIn i1 0 (List.replicate 56 0) with
      | none => none
      | some i2 => some (transform buf i1, i2)
  else
    match copyIn inb p (List.replicate (count - 8) 0) with
    | none => none
    | some i1 => some (buf, i1)

/-- yasm_md5_final (md5.c:126-166): the digest.  (The context is zeroed afterwards.) -/
def final {W : Nat} (c : Ctx W) : Option (List Byte) :=
  let count := c.bits0 / 8 % 64
  match copyIn c.inb count [0x80] with
  | none => none
  | some i0 =>
    match padTo56 c.buf i0 (count + 1) (64 - 1 - count) with
    | none => none
    | some (buf, i1) =>
      match copyIn i1 56 (putu32 (BitVec.ofNat W c.bits0)) with
      | none => none
      | some i2 =>
        match copyIn i2 60 (putu32 (BitVec.ofNat W c.bits1)) with
        | none => none
        | some i3 =>
          let b := transform buf i3
          some (putu32 b.a ++ putu32 b.b ++ putu32 b.c ++ putu32 b.d)

/-- Any number of updates. -/
def updates {W : Nat} (c : Ctx W) : List (List Byte) → Option (Ctx W)
  | [] => some c
  | d :: ds =>
    match update c d with
    | none => none
    | some c' => updates c' ds

/-- Initialise, update with each chunk in turn, finish. -/
def md5 (W : Nat) (inb : List Byte) (ds : List (List Byte)) : Option (List Byte) :=
  match updates (init W inb) ds with
  | none => none
  | some c => final c

end Verif.Md5
