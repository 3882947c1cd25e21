/-
Specification for C53 to C56: what the bytes of an instruction mean to the processor, and from which states
an instruction starts.
-/
import Verif.Insn.Model
import Verif.Ea.Spec

namespace Verif.Insn

open Verif.Intnum
open Verif.Expr
open Verif.Value
open Verif.Ea

/-! ### Lengths -/

/-- An output function fills the bytes it was given, and leaves the size of the value alone. -/
def Contract (out : OutputValue) : Prop :=
  ∀ f n pos w, (out f n pos).out = .ok w → w.bytes.length = n ∧ w.field.size = f.size

/-- An output function does not end in an internal error, as long as the bytes can hold no more than 256 bits. -/
def NoInternal (out : OutputValue) : Prop := ∀ f n pos, n ≤ 32 → (out f n pos).out ≠ .error .internal

/-- The effective addresses instructions are given: memory, as the parser leaves it (x86bc.c:224-257), a
    register (x86bc.c:206-222; an immediate may follow it, x86bc.c:259-271), or a displacement (or immediate) alone
    (x86bc.c:173-180, 259-271). -/
def Kind (ea : Effaddr) : Prop :=
  (ea.needModrm = true ∧ ea.validModrm = false ∧ ea.needDisp = true ∧ ea.validSib = false) ∨
  (ea.needModrm = true ∧ ea.validModrm = true ∧ ea.needSib = 0 ∧ (ea.needDisp = true ∨ ea.size = 0 ∧ ea.needNonzero = false) ∧ ea.size ≤ 64) ∨
  (ea.needModrm = false ∧ ea.needSib = 0 ∧ ea.needDisp = true)

/-- An instruction before its length is computed. -/
structure Start (i : Insn) : Prop where
  mode : i.common.mode = 16 ∨ i.common.mode = 32 ∨ i.common.mode = 64
  addrsize : i.common.addrsize = 0 ∨ i.common.addrsize = 16 ∨ i.common.addrsize = 32 ∨ i.common.addrsize = 64
  opcode : i.opcode.len ≤ 3
  /-- The word-sized opcode follows the other one in the array. -/
  word : i.imm.isSome = true → i.postop = .signextImm8 → i.opcode.len ≤ 2
  ea : ∀ ea, i.ea = some ea → Kind ea
  /-- A segment register has its prefix in the high byte. -/
  seg : i.seg = 0#16 ∨ (i.seg >>> 8).truncate 8 ≠ (0#8 : Byte)
  /-- Outside 64-bit mode there is no REX byte. -/
  rex : i.common.mode ≠ 64 → i.rex = 0#8 ∨ i.rex = 0xff#8
  /-- The two-byte form of VEX is only chosen when the length is computed. -/
  special : i.special ≠ 0xC5#8
  /-- Immediates have up to 64 bits. -/
  imm : ∀ f, i.imm = some f → f.size ≤ 64

/-- What happens to an instruction `i` between parsing and output: its length is computed, then it is widened,
    any number of times. -/
inductive Life (c : Ctx) (nequ absSym : Nat) (i : Insn) : Insn → Nat → Prop where
  | count {r : Count Insn} : (calcLen c nequ absSym i).out = .ok r → Life c nequ absSym i r.insn r.len
  | widen {j j' : Insn} {len len' : Nat} (span : Nat) : Life c nequ absSym i j len → expand j len span = .ok (j', len') →
      Life c nequ absSym i j' len'

/-- A jump before its length is computed: no form, or a forced one, has been selected (x86id.c:533-543). -/
structure StartJmp (j : Jmp) : Prop where
  short : j.shortop.len ≤ 3
  near : j.nearop.len ≤ 3
  sel : j.sel = .none ∨ j.sel = .shortForced ∨ j.sel = .nearForced

/-- The same for a jump, with the spans it still has: it is only widened for one of them, and gives it up
    (x86bc.c:786). -/
inductive LifeJmp (c : Ctx) (bc : At) : Jmp → Nat → List Span → Prop where
  | count {j : Jmp} {r : Count Jmp} : StartJmp j → jmpLen c bc j = .ok r → LifeJmp c bc r.insn r.len r.spans
  | widen {j j' : Jmp} {len len' : Nat} {spans : List Span} (s : Span) : LifeJmp c bc j len spans → s ∈ spans →
      jmpExpand j len s.id = .ok (j', len') → LifeJmp c bc j' len' []

/-! ### Numbers in bytes -/

/-- A number in two's complement, little endian. -/
def signedLE (bs : List Byte) : Int :=
  if 2 * leVal bs < 2 ^ (8 * bs.length) then leVal bs else (leVal bs : Int) - 2 ^ (8 * bs.length)

/-- A value that can be output: its expression is a proper one, without SEG:OFF, there is no WRT, and
    the shift is one the field can hold. -/
structure Fine (ρ : Env) (v : Value) : Prop where
  good : ∀ e, v.abs = some e → Good ρ e.item
  ops : ∀ e, v.abs = some e → Allowed NoSegoff (fun _ => True) e.item
  shift : v.p.rshift ≤ 127
  wrt : v.p.wrt = none

/-- The numbers a field of `n` bytes takes without a warning: those of either sign, or the signed ones. -/
def Takes (sign : Bool) (n : Nat) (z : Int) : Prop :=
  -(2 ^ (8 * n - 1)) ≤ z ∧ (if sign then z < 2 ^ (8 * n - 1) else z < 2 ^ (8 * n))

/-- An output function that writes the value: its low bytes, with a warning if and only if it does not fit
    (unless warnings are off).  The value may be rewritten but must go on meaning the same. -/
def Writes (out : OutputValue) (ρ : Env) (w : Place) : Prop :=
  ∀ f n pos r, Fine ρ f.v → f.size = 8 * n → 1 ≤ n → n ≤ 8 → (out f n pos).out = .ok r →
    (∀ k ∈ (out f n pos).log, k.Sound) →
    r.bytes.length = n ∧ (leVal r.bytes : Int) = (meaning ρ w f.v).toInt % 2 ^ (8 * n) ∧
    (r.warns = [] ↔ f.v.noWarn = true ∨ Takes f.sign n (meaning ρ w f.v).toInt) ∧
    Fine ρ r.field.v ∧ meaning ρ w r.field.v = meaning ρ w f.v ∧ r.field.size = f.size ∧ r.field.sign = f.sign ∧
    r.field.v.noWarn = f.v.noWarn

/-- Whether a value is relative to the instruction pointer outlives output. -/
def Keeps (out : OutputValue) : Prop := ∀ f n pos r, (out f n pos).out = .ok r → r.field.ipRel = f.ipRel

/-- Output does not make a value relative to the instruction pointer. -/
def Stays (out : OutputValue) : Prop := ∀ f n pos r, (out f n pos).out = .ok r → f.ipRel = false → r.field.ipRel = false

/-- The flat binary format has the right addresses: those of the labels and of the bytecode being written, and
    the values of the special symbols. -/
structure BinCtx.Right (b : BinCtx) (ρ : Env) (w : Place) : Prop where
  vaddr : ∀ q, Fits (b.vaddr q) ∧ BitVec.ofInt 256 (val (b.vaddr q)) = ρ.precbc q
  special : ∀ s i, b.special s = some i → Fits i ∧ BitVec.ofInt 256 (val i) = ρ.sym s
  abs : ∀ s, b.isAbs s = true → ρ.sym s = 0
  here : Fits b.here ∧ BitVec.ofInt 256 (val b.here) = w.cur

/-! ### Jumps -/

/-- Where a relative jump goes: the displacement, its last `n` bytes, counts from the instruction after it. -/
def jumpsTo (start : Word) (insn : List Byte) (n : Nat) : Word :=
  start + BitVec.ofNat 256 insn.length + BitVec.ofInt 256 (signedLE (insn.drop (insn.length - n)))

/-- The bytes of copy `k` of an instruction of `len` bytes. -/
def copy (bytes : List Byte) (len k : Nat) : List Byte := (bytes.drop (k * len)).take len

/-- The form a jump is output in, once it is chosen: the opcode and the bytes of displacement. -/
def form (j : Jmp) : Opcode × Nat :=
  match j.sel with
  | .short | .shortForced => (j.shortop, 1)
  | _ => (j.nearop, if (if j.common.opersize = 0 then j.common.mode else j.common.opersize) = 16 then 2 else 4)

/-! ### Memory operands -/

/-- How the processor, in a mode of `mode` bits with addresses of `a` bits, reads a ModRM byte and a SIB byte. -/
def readOperand (mode a vsib : Nat) (rex modrm sib : Byte) : Option Mem :=
  if a = 16 then decode16 modrm
  else decode3264 mode a vsib (rexBit rex 1) (rexBit rex 0) modrm sib

/-- The parts of an instruction with a memory operand. -/
structure Layout where
  head : List Byte
  modrm : Byte
  sib : Option Byte
  disp : List Byte
  imm : List Byte

/-- In the order they come in. -/
def Layout.bytes (l : Layout) : List Byte := l.head ++ l.modrm :: (l.sib.toList ++ l.disp ++ l.imm)

/-- The processor reads the operand as `m`: as many SIB and displacement bytes as there are, and registers that
    leave the displacement `m` has bytes for if `address` is to be the result. -/
structure Layout.Reads (l : Layout) (ρ : Env) (mode a vsib : Nat) (rex : Byte) (address : Word) (m : Mem) : Prop where
  operand : readOperand mode a vsib rex l.modrm (l.sib.getD 0) = some m
  sib : m.sib = l.sib.isSome
  disp : m.disp = l.disp.length
  /-- The displacement is right as far as its bytes go. -/
  low : (BitVec.ofInt 256 (signedLE l.disp)).setWidth (8 * m.disp) = (address - m.val ρ).setWidth (8 * m.disp)
  /-- The address is right if the displacement fits. -/
  exact : (m.disp = 0 ∨ Takes true m.disp (address - m.val ρ).toInt) → m.val ρ + BitVec.ofInt 256 (signedLE l.disp) = address
  /-- There are no bytes only if none are needed. -/
  zero : m.disp = 0 → address = m.val ρ

/-- What is assumed of a memory operand as written: that of C52, for an instruction whose address size is not
    fixed at 16 bits. -/
structure OperandOk (ρ : Env) (c : Ctx) (nequ absSym : Nat) (i : Insn) (ea : Effaddr) : Prop where
  mode : i.common.mode = 16 ∨ i.common.mode = 32 ∨ i.common.mode = 64
  size : i.common.addrsize = 0 ∨ i.common.addrsize = 16 ∨ i.common.addrsize = 32 ∨ i.common.addrsize = 64
  has : i.ea = some ea
  postop : i.postop ≠ .address16
  fresh : Fresh ea
  plain : PlainParts ea.disp.p
  rex : RexFree i.rex
  good : ∀ e, ea.disp.abs = some e → Good ρ e.item ∧
    ∀ r, (checkea c nequ absSym ea i.common.addrsize i.common.mode false i.rex).out = .ok r →
      Ea.Written c nequ ea.vsib i.common.mode r.addrsize e

/-! ### VEX and XOP prefixes -/

/-- What a VEX or XOP prefix says: the bits that extend registers (`r`, `x`, `b`), the operand size bit, the
    opcode map, the extra register, the vector length and the implied legacy prefix. -/
structure Vex where
  r : Bool
  x : Bool
  b : Bool
  w : Bool
  map : BitVec 5
  v : BitVec 4
  l : Bool
  pp : BitVec 2
deriving DecidableEq

/-- How the processor reads one: three bytes from 0xC4 or 0x8F, two from 0xC5, which leaves out `x`, `b`, `w`
    and the map (taken as 1). -/
def decodeVex : List Byte → Option (Vex × List Byte)
  | p :: a :: rest =>
    if p = 0xC5#8 then
      some (⟨!a.getLsbD 7, false, false, false, 1, ~~~(a.extractLsb' 3 4), a.getLsbD 2, a.extractLsb' 0 2⟩, rest)
    else if p = 0xC4#8 ∨ p = 0x8F#8 then
      match rest with
      | c :: rest =>
        some (⟨!a.getLsbD 7, !a.getLsbD 6, !a.getLsbD 5, c.getLsbD 7, a.extractLsb' 0 5, ~~~(c.extractLsb' 3 4), c.getLsbD 2,
          c.extractLsb' 0 2⟩, rest)
      | [] => none
    else none
  | _ => none

/-- What an instruction asks for: the map and the byte after it as the instruction table gives them (x86id.c:1647-1668),
    the registers and the operand size by the bits of a REX byte. -/
def wanted (op : Opcode) (rex : Byte) : Vex :=
  ⟨rex.getLsbD 2, rex.getLsbD 1, rex.getLsbD 0, op.b1.getLsbD 7 || rex.getLsbD 3, op.b0.extractLsb' 0 5, ~~~(op.b1.extractLsb' 3 4),
    op.b1.getLsbD 2, op.b1.extractLsb' 0 2⟩

/-- The opcode map and the opcode byte of an instruction written with escape bytes, or for XOP with the map as
    its first byte. -/
def mapped (xop : Bool) (op : Opcode) : BitVec 5 × Byte :=
  if xop then (op.b0.truncate 5, op.b1)
  else if op.b1 = 0x38#8 then (2, op.b2)
  else if op.b1 = 0x3A#8 then (3, op.b2)
  else (1, op.b1)

/-- The legacy prefix a prefix stands for: none, 0x66, 0xF3, 0xF2. -/
def implied (special : Byte) (table : BitVec 2) : BitVec 2 :=
  if special = 0x66#8 then 1 else if special = 0xF3#8 then 2 else if special = 0xF2#8 then 3 else table

end Verif.Insn
