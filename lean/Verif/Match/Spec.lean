/-
Specification for C68 to C70: when a form of an instruction fits its operands, and which operand the processor finds
in which field.
-/
import Verif.Match.Model
import Verif.Insn.Spec

namespace Verif.Match

open Verif.Intnum
open Verif.Expr
open Verif.Value
open Verif.Ea
open Verif.Insn

/-! ### Which form fits -/

/-- The register occurs in the expression. -/
inductive Occurs (r : Nat) : Item → Prop where
  | here : Occurs r (.reg r)
  | sub {op : Op} {ts : List Item} {t : Item} : t ∈ ts → Occurs r t → Occurs r (.expr op ts)

/-- The operand is a register that satisfies `p`. -/
def IsReg (op : Operand) (p : Nat → Prop) : Prop := ∃ r, op.data = .reg r ∧ p r
/-- The operand is the segment register with the given number. -/
def IsSeg (op : Operand) (n : Nat) : Prop := ∃ r, op.data = .segreg r ∧ r % 16 = n
/-- The operand is in memory, and satisfies `p`. -/
def IsMem (op : Operand) (p : MemArg → Prop) : Prop := ∃ m, op.data = .mem m ∧ p m
/-- The operand is an immediate. -/
def IsImm (op : Operand) : Prop := ∃ e, op.data = .imm e

/-- The kinds of registers, by the classes of x86arch.h:128-142: the integer registers and those of the FPU; MMX, XMM and YMM. -/
def General (r : Nat) : Prop := r / 16 ∈ [1, 2, 3, 4, 5, 6]
def Simd (r : Nat) : Prop := r / 16 ∈ [7, 8, 9]

/-- The integer register with number `n` of the size a form asks for; forms without a size are not restricted. -/
def Numbered (n : Nat) : OpSize → Nat → Prop
  | .s8, r => r = 0x10 + n ∨ r = 0x20 + n
  | .s16, r => r = 0x30 + n
  | .s32, r => r = 0x40 + n
  | .s64, r => r = 0x50 + n
  | _, _ => True

/-- The address is a register alone. -/
def Alone (m : MemArg) (r : Nat) : Prop := m.addr.op = .IDENT ∧ ∃ ts, m.addr.terms = .reg r :: ts

/-- An operand is of the type a form asks for. -/
def HasType (c : Ctx) (nequ : Nat) (defaultRel : Bool) (f : OpInfo) (op : Operand) : Prop :=
  match f.type with
  | .imm => IsImm op
  | .reg => IsReg op General
  | .mem => IsMem op fun _ => True
  | .rm => IsReg op General ∨ IsMem op fun _ => True
  | .simdReg => IsReg op Simd
  | .simdRM => IsReg op Simd ∨ IsMem op fun _ => True
  | .segReg => ∃ n, IsSeg op n
  | .crReg => IsReg op fun r => r / 16 = 10
  | .drReg => IsReg op fun r => r / 16 = 11
  | .trReg => IsReg op fun r => r / 16 = 12
  | .st0 => IsReg op fun r => r = 0x60
  | .areg => IsReg op (Numbered 0 f.size)
  | .creg => IsReg op (Numbered 1 f.size)
  | .dreg => IsReg op (Numbered 2 f.size)
  | .es => IsSeg op 0
  | .cs => IsSeg op 1
  | .ss => IsSeg op 2
  | .ds => IsSeg op 3
  | .fs => IsSeg op 4
  | .gs => IsSeg op 5
  | .cr4 => IsReg op fun r => r = 0xA4
  | .memOffs => IsMem op fun m => (∀ r, ¬ Occurs r m.addr.item) ∧ m.pcRel = false ∧
      (defaultRel = true → m.notPcRel = true ∨ m.size = 64)
  | .imm1 => ∃ e, op.data = .imm e ∧ (getIntnum c nequ false e).out = .ok (some (.L 1))
  | .immNotSegOff => IsImm op ∧ op.tmod = .none ∧ op.seg = none
  | .xmm0 => IsReg op fun r => r = 0x80
  | .memrAX => IsMem op fun m => Alone m 0x30 ∨ Alone m 0x40 ∨ Alone m 0x50
  | .memEAX => IsMem op fun m => Alone m 0x40
  | .memXMMIndex => IsMem op fun m => ∃ r, r / 16 = 8 ∧ Occurs r m.addr.item
  | .memYMMIndex => IsMem op fun m => ∃ r, r / 16 = 9 ∧ Occurs r m.addr.item

/-- The bits of a register, by its class. -/
def widthOf (r : Nat) : Option Nat :=
  [none, some 8, some 8, some 16, some 32, some 64, some 80, some 64, some 128, some 256, some 32, some 32, some 32].getD (r / 16) none

/-- The tests that can be left out: the size of operand `k` (counted from 1) if it is a register, or if it is anything else, and
    the processor. -/
inductive Leave where
  | nothing
  | otherSize (k : Nat)
  | registerSize (k : Nat)
  | processor
deriving DecidableEq

/-- An operand has the size a form asks for.  The size of a register is its own unless one was written; in the syntax of GAS
    other operands have no sizes, so that immediates need a form that takes them as they are. -/
def HasSize (leave : Leave) (x : IdInsn) (k : Nat) (f : OpInfo) (op : Operand) : Prop :=
  (∃ r, op.data = .reg r ∧ op.size = 0 ∧ (widthOf r = some (sizeVal x.mode f.size) ∨ x.parser ≠ .gas ∧ leave = .registerSize k)) ∨
  (¬ (IsReg op (fun _ => True) ∧ op.size = 0) ∧
    if x.parser = .gas then (f.type ∈ [.imm, .immNotSegOff, .imm1] → f.relaxed = true ∨ f.action = .jmpRel)
    else op.size = sizeVal x.mode f.size ∨ f.relaxed = true ∧ (op.size = 0 ∨ sizeVal x.mode f.size = 0) ∨ leave = .otherSize k)

/-- An operand fits its place in a form. -/
structure OperandFits (leave : Leave) (c : Ctx) (nequ : Nat) (x : IdInsn) (k : Nat) (f : OpInfo) (op : Operand) : Prop where
  type : HasType c nequ x.defaultRel f op
  size : HasSize leave x k f op
  /-- A displacement of 64 bits exactly where the form has one. -/
  disp : ∀ m, op.data = .mem m → x.parser ≠ .gas → (m.size = 64 ↔ f.eas64 = true)
  modifier : op.tmod = f.tmod

/-- A form fits an instruction. -/
structure Fits (leave : Leave) (c : Ctx) (nequ : Nat) (x : IdInsn) (f : Form) : Prop where
  mode : if x.mode = 64 then f.not64 = false else f.only64 = false
  processor : leave = .processor ∨ ∀ k ∈ f.cpu, x.cpu k = true
  count : x.ops.length = f.ops.length
  avx : if x.avx then f.notAvx = false else f.onlyAvx = false
  parser : if x.parser = .gas then f.gasIllegal = false ∧ ∃ k, x.suffix.getLsbD k = true ∧ f.suffixes.getLsbD k = true
    else f.gasOnly = false
  /-- The operands in the order of the form: that of GAS is the reverse, unless the form says otherwise. -/
  operands : ∀ k g op, f.ops[k]? = some g →
    (if x.parser = .gas ∧ f.gasNoRev = false then x.ops.reverse else x.ops)[k]? = some op → OperandFits leave c nequ x (k + 1) g op

/-- A form is the first of the group to fit. -/
def First (leave : Leave) (c : Ctx) (nequ : Nat) (x : IdInsn) (f : Form) : Prop :=
  ∃ before behind, x.group = before ++ f :: behind ∧ Fits leave c nequ x f ∧ ∀ g ∈ before, ¬ Fits leave c nequ x g

/-- What is to be reported if leaving out a test gives a form. -/
def blame (leave : Leave) (f : Form) : Report :=
  match leave with
  | .otherSize k | .registerSize k => .operandSize k
  | .processor => .requiresCpu f.cpu
  | .nothing => .combination

/-- The tests in the order in which they are blamed. -/
def suspects : List Leave :=
  [.otherSize 1, .otherSize 2, .otherSize 3, .registerSize 1, .registerSize 2, .registerSize 3, .processor]

/-- The registers of an instruction are ones the assembler knows. -/
def KnownRegs (x : IdInsn) : Prop := ∀ op ∈ x.ops, ∀ r, op.data = .reg r → (widthOf r).isSome = true

/-! ### Where the processor finds the operands -/

/-- The register a processor takes three bits for, together with bit `pos` of the REX byte, in an operand of the class `cls`.  REX
    values 0 and 0xff stand for no REX byte.  Of the byte registers numbers 4 to 7 are AH to BH without REX and SPL to DIL
    (the class 2) with it. -/
def readReg (cls : Nat) (rex : Byte) (pos : Nat) (low : Nat) : Nat :=
  let present : Bool := decide (rex ≠ 0#8 ∧ rex ≠ 0xff#8)
  let number := low + if present && rex.getLsbD pos then 8 else 0
  if cls = 1 ∨ cls = 2 then
    if present && decide (4 ≤ number ∧ number < 8) then 0x20 + number else 0x10 + number
  else cls * 16 + number

/-- A register exists in a mode: numbers from 8 on, and SPL to DIL, only with 64 bits. -/
def Exists (mode r : Nat) : Prop :=
  (mode = 64 ∨ r % 16 < 8 ∧ r / 16 ≠ 2) ∧ (r / 16 = 2 → 4 ≤ r % 16 ∧ r % 16 < 8)

/-- The three fields of a ModRM byte. -/
def modField (m : Byte) : Nat := m.toNat / 64
def regField (m : Byte) : Nat := m.toNat / 8 % 8
def rmField (m : Byte) : Nat := m.toNat % 8

/-- The ModRM byte names the register, as the operand that may also be in memory. -/
def InRm (i : Insn) (r : Nat) : Prop :=
  ∃ ea, i.ea = some ea ∧ ea.validModrm = true ∧ ea.needModrm = true ∧ modField ea.modrm = 3 ∧
    readReg (r / 16) i.rex 0 (rmField ea.modrm) = r

/-- The ModRM byte names the register, as the other operand. -/
def InReg (i : Insn) (r : Nat) : Prop :=
  ∀ ea, i.ea = some ea → readReg (r / 16) i.rex 2 (regField ea.modrm) = r

/-- The actions that write a field: bit 0 of REX, bit 2 of REX, the extra register of VEX, the effective address, the immediate. -/
def Action.writesB (a : Action) : Bool := decide (a ∈ [.ea, .eaVEX, .op0Add, .op1Add, .spareEA])
def Action.writesR (a : Action) : Bool := decide (a ∈ [.spare, .spareVEX, .spareEA])
def Action.writesV (a : Action) : Bool := decide (a ∈ [.vex, .eaVEX, .spareVEX])
def Action.writesEa (a : Action) : Bool := decide (a ∈ [.ea, .eaVEX, .spareEA])
def Action.writesImm (a : Action) : Bool := decide (a ∈ [.imm, .simm, .vexImmSrc, .vexImm])

/-- An operand that is for bit 0 of REX: not a number next to a register (EXTRQ, INSERTQ). -/
def takesB (g : OpInfo) : Bool := g.action.writesB && !decide (g.action = .ea ∧ g.type = .imm)

/-- No two operands of a form are for the same field, and one in the opcode leaves no choice of opcodes. -/
def Form.once (f : Form) : Bool :=
  decide (f.ops.countP takesB ≤ 1) && decide (f.ops.countP (fun g => g.action.writesR) ≤ 1) &&
    decide (f.ops.countP (fun g => g.action.writesImm) ≤ 1) &&
    (f.ops.all fun g => decide (g.action ≠ .op0Add ∧ g.action ≠ .op1Add) ||
      decide (f.ops.countP (fun g => g.action.writesB) ≤ 1) && f.ops.all fun g => decide (g.post ≠ .simm8))

/-- The extra register of VEX is taken from the last operand that is for it. -/
def LastVex (f : Form) (k : Nat) : Prop := ∀ j h, k < j → f.ops[j]? = some h → h.action.writesV = false

/-- The operands that are to be numbers are. -/
def ImmsFit (gs : List OpInfo) (ops : List Operand) : Prop :=
  ∀ (j : Nat) (g : OpInfo) (op : Operand), gs[j]? = some g → ops[j]? = some op → g.type = .imm → IsImm op

/-- No operand of a form asks for another form to be tried at the end (`mov` of the accumulator and of 64-bit immediates). -/
def Form.settled (f : Form) : Bool := f.ops.all fun g => decide (g.post ≠ .shortMov ∧ g.post ≠ .simm32Avail)

/-- The VEX or XOP byte of an instruction: the last the name gives, or that of the form. -/
def vexByte (x : IdInsn) (f : Form) : Byte :=
  (paramsOf .setVEX f.modifiers x.modData).getLastD (if f.special &&& 0xF0#8 = 0xC0#8 ∨ f.special &&& 0xF0#8 = 0x80#8 then f.special else 0)

/-- Eight times the sum. -/
def eightfold (l : List Byte) : Byte := l.foldl (fun (s v : Byte) => s + (v <<< 3)) 0

/-- The first and the second byte of the opcode before operands are added. -/
def firstByte (x : IdInsn) (f : Form) : Byte := (paramsOf .op0Add f.modifiers x.modData).foldl (· + ·) f.opcode.b0
def secondByte (x : IdInsn) (f : Form) : Byte :=
  (paramsOf .op1Add f.modifiers x.modData).foldl (· + ·) f.opcode.b1 + eightfold (paramsOf .op1AddSp f.modifiers x.modData)

/-- The size of the operation, and the size it has without REX in 64-bit mode. -/
def operSize (x : IdInsn) (f : Form) : Nat := ((paramsOf .opSizeR f.modifiers x.modData).map BitVec.toNat).getLastD f.opersize
def natural64 (x : IdInsn) (f : Form) : Nat := ((paramsOf .dOpS64R f.modifiers x.modData).map BitVec.toNat).getLastD f.def64

/-- The extra register of a VEX or XOP prefix. -/
def InVex (i : Insn) (r : Nat) : Prop := (wanted i.opcode i.rex).v.toNat = r % 16

/-- The register is in the three low bits of a byte of the opcode. -/
def InOpcode (byte : Byte) (rex : Byte) (r : Nat) : Prop := readReg (r / 16) rex 0 (byte.toNat % 8) = r

/-- The register is in the upper half of the immediate byte. -/
def InImm (ρ : Env) (w : Place) (i : Insn) (r : Nat) : Prop :=
  ∃ f, i.imm = some f ∧ f.size = 8 ∧ (meaning ρ w f.v).setWidth 8 = (BitVec.ofNat 8 (r % 16) <<< 4)

/-- The operands in the order of the form: that of GAS is the reverse, unless the form says otherwise. -/
def inOrder (x : IdInsn) (f : Form) : List Operand := if x.parser = .gas ∧ f.gasNoRev = false then x.ops.reverse else x.ops

/-- No prefix is written that sets REX. -/
def LeavesRex (ps : List Prefix) : Prop := ∀ p ∈ ps, match p with
  | .rex _ => False
  | .opersize n => n ≠ 64
  | _ => True

end Verif.Match
