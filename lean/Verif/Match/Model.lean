/-
Model of modules/arch/x86/x86id.c: which form of an instruction its operands select, what is reported if none
fits, and where the operands go.

The tables of forms (x86insns.c, which gen_x86_insn.py writes) are arguments here; they are in `Verif.Match.Table`.
Expressions, values, effective addresses and instructions are those of `Verif.Expr`, `Verif.Value`, `Verif.Ea` and
`Verif.Insn`.  An error that is reported ends the model's computation with `reject`, although the program
goes on for a while; `internal` is yasm_internal_error or undefined behaviour.  Warnings are left out.
-/
import Verif.Insn.Model

namespace Verif.Match

open Verif.Intnum
open Verif.Expr
open Verif.Value
open Verif.Ea
open Verif.Insn

/-! ### The table -/

/-- x86id.c:79-123 `x86_operand_type`. -/
inductive OpType where
  | imm | reg | mem | rm | simdReg | simdRM | segReg | crReg | drReg | trReg | st0 | areg | creg | dreg
  | cs | ds | es | fs | gs | ss | cr4 | memOffs | imm1 | immNotSegOff | xmm0 | memrAX | memEAX
  | memXMMIndex | memYMMIndex
deriving DecidableEq, Repr

/-- x86id.c:125-141 `x86_operand_size`. -/
inductive OpSize where
  | any | s8 | s16 | s32 | s64 | s80 | s128 | s256 | bits
deriving DecidableEq, Repr

/-- x86id.c:143-149 `x86_operand_targetmod`, and x86arch.h:154-159 `x86_parse_targetmod`, which has the same numbers. -/
inductive Tmod where
  | none | near | short | far | to
deriving DecidableEq, Repr

/-- x86id.c:151-186 `x86_operand_action`. -/
inductive Action where
  | none | ea | imm | simm | spare | op0Add | op1Add | spareEA | jmpRel | adSizeR | jmpFar | adSizeEA
  | vex | eaVEX | spareVEX | vexImmSrc | vexImm
deriving DecidableEq, Repr

/-- x86id.c:188-198 `x86_operand_post_action`. -/
inductive Post where
  | none | simm8 | shortMov | a16 | simm32Avail
deriving DecidableEq, Repr

/-- x86id.c:200-245 `x86_info_operand`. -/
structure OpInfo where
  type : OpType
  size : OpSize
  relaxed : Bool
  eas64 : Bool
  tmod : Tmod
  action : Action
  post : Post
deriving DecidableEq, Repr

/-- x86id.c:40-51: the modifiers. -/
inductive Modifier where
  | gap | preAdd | op0Add | op1Add | op2Add | spAdd | opSizeR | imm8 | adSizeR | dOpS64R | op1AddSp | setVEX
deriving DecidableEq, Repr

/-- x86id.c:247-311 `x86_insn_info`.  The flags of `gas_flags` and `misc_flags` are separate fields, of `gas_flags`
    the suffixes stay one set of bits (x86id.c:54-60).  The operands are a list, not a place in the common array. -/
structure Form where
  gasOnly : Bool
  gasIllegal : Bool
  gasNoRev : Bool
  suffixes : BitVec 6
  only64 : Bool
  not64 : Bool
  onlyAvx : Bool
  notAvx : Bool
  cpu : List Nat
  modifiers : List Modifier
  opersize : Nat
  def64 : Nat
  special : Byte
  opcode : Opcode
  spare : Byte
  ops : List OpInfo

/-- `insn_operands[info->operands_index+0].action`. -/
def Form.firstAction (f : Form) : Option Action := f.ops.head?.map fun g => g.action
/-- `insn_operands[info->operands_index+0].targetmod`. -/
def Form.firstTmod (f : Form) : Option Tmod := f.ops.head?.map fun g => g.tmod

/-! ### The instruction as parsed -/

/-- x86arch.h:94-98: the parser. -/
inductive Parser where
  | nasm | tasm | gas
deriving DecidableEq, Repr

/-- A memory operand as parsed (insn.h:42-77, x86bc.c:224-257): the address, the size given for the displacement, the flags
    and the segment override. -/
structure MemArg where
  addr : Node
  size : Nat
  nosplit : Bool
  strong : Bool
  pcRel : Bool
  notPcRel : Bool
  seg : BitVec 16

/-- insn.h:86-98: the contents of an operand. -/
inductive Data where
  | reg (r : Nat)
  | segreg (r : Nat)
  | mem (m : MemArg)
  | imm (e : Node)

/-- insn.h:80-117 `yasm_insn_operand`: `seg` is the segment of SEG:OFF. -/
structure Operand where
  data : Data
  seg : Option Node
  tmod : Tmod
  size : Nat
  deref : Bool
  strict : Bool

/-- x86arch.h:145-152 `x86_parse_insn_prefix`: a prefix with its value. -/
inductive Prefix where
  | lockrep (v : Byte)
  | addrsize (n : Nat)
  | opersize (n : Nat)
  | segreg (v : Byte)
  | rex (v : Byte)
  | acqrel (v : Byte)
deriving DecidableEq, Repr

/-- x86id.c:313-347 `x86_id_insn` and insn.h:123-133 `yasm_insn`.  `cpu` tells which feature bits are on, `avx` is the flag
    ONLY_AVX, the one flag of `misc_flags` that is looked at. -/
structure IdInsn where
  group : List Form
  cpu : Nat → Bool
  modData : List Byte
  mode : Nat
  suffix : BitVec 6
  avx : Bool
  parser : Parser
  forceStrict : Bool
  defaultRel : Bool
  ops : List Operand
  prefixes : List Prefix
  segregs : List (BitVec 16)

/-! ### Registers and sizes -/

/-- `size_lookup` of x86id.c:1081-1084. -/
def sizeVal (mode : Nat) : OpSize → Nat
  | .any => 0
  | .s8 => 8
  | .s16 => 16
  | .s32 => 32
  | .s64 => 64
  | .s80 => 80
  | .s128 => 128
  | .s256 => 256
  | .bits => mode

/-- x86arch.c:459-486 `yasm_x86__get_reg_size`; `reject` for an unknown class. -/
def regSize (r : Nat) : Except Stop Nat :=
  match r / 16 with
  | 1 | 2 => .ok 8
  | 3 => .ok 16
  | 4 | 10 | 11 | 12 => .ok 32
  | 5 | 7 => .ok 64
  | 8 => .ok 128
  | 9 => .ok 256
  | 6 => .ok 80
  | _ => .error .reject

mutual
/-- x86id.c:367-395 `x86_expr_contains_simd`: is there an XMM (or YMM) register in the expression? -/
def hasSimd (ymm : Bool) : Item → Bool
  | .reg r => r / 16 == (if ymm then 9 else 8)
  | .expr _ ts => hasSimdL ymm ts
  | _ => false
/-- The loop over the terms. -/
def hasSimdL (ymm : Bool) : List Item → Bool
  | [] => false
  | t :: ts => hasSimd ymm t || hasSimdL ymm ts
end

/-- expr.c:1289-1300 `yasm_expr_get_reg(ep, 0)`. -/
def getReg (e : Node) : Option Nat :=
  match e.op, e.terms with
  | .IDENT, .reg r :: _ => some r
  | _, _ => none

/-! ### Matching -/

/-- x86id.c:769-807: the accumulator, count or data register, of the size the form asks for. -/
def fixedReg (n : Nat) (size : OpSize) (r : Nat) : Bool :=
  match size with
  | .s8 => r == 0x10 + n || r == 0x20 + n
  | .s16 => r == 0x30 + n
  | .s32 => r == 0x40 + n
  | .s64 => r == 0x50 + n
  | _ => true

/-- `op->type == YASM_INSN__OPERAND_REG` and the register satisfies `p`. -/
def Operand.regIs (op : Operand) (p : Nat → Bool) : Bool :=
  match op.data with
  | .reg r => p r
  | _ => false
/-- `op->type == YASM_INSN__OPERAND_SEGREG` and the number satisfies `p`. -/
def Operand.segIs (op : Operand) (p : Nat → Bool) : Bool :=
  match op.data with
  | .segreg r => p r
  | _ => false
/-- `op->type == YASM_INSN__OPERAND_MEMORY` and the operand satisfies `p`. -/
def Operand.memIs (op : Operand) (p : MemArg → Bool) : Bool :=
  match op.data with
  | .mem m => p m
  | _ => false
/-- `op->type == YASM_INSN__OPERAND_IMM`. -/
def Operand.isImm (op : Operand) : Bool :=
  match op.data with
  | .imm _ => true
  | _ => false

/-- The classes of x86id.c:708-719. -/
def generalClass (r : Nat) : Bool := decide (1 ≤ r / 16 ∧ r / 16 ≤ 6)
/-- The classes of x86id.c:734-742. -/
def simdClass (r : Nat) : Bool := decide (7 ≤ r / 16 ∧ r / 16 ≤ 9)

/-- x86id.c:843-851: an address without registers, not relative to the instruction pointer. -/
def memOffs (defaultRel : Bool) (m : MemArg) : Bool :=
  !hasReg m.addr.item && !m.pcRel && !(!m.notPcRel && defaultRel && decide (m.size ≠ 64))

/-- x86id.c:852-860: is the number 1?  (The expression is simplified in place; here it stays as it is.) -/
def isOne (c : Ctx) (nequ : Nat) (op : Operand) : Except Stop Bool :=
  match op.data with
  | .imm e =>
    match (lift (getIntnum c nequ false e)).out with
    | .error s => .error s
    | .ok none => .ok false
    | .ok (some i) => .ok (isPos1 i)
  | _ => .ok false

/-- x86id.c:695-901: is the operand of the type the form asks for? -/
def typeOk (c : Ctx) (nequ : Nat) (x : IdInsn) (f : OpInfo) (op : Operand) : Except Stop Bool :=
  match f.type with
  | .imm => .ok op.isImm
  | .rm => .ok (op.memIs (fun _ => true) || op.regIs generalClass)
  | .reg => .ok (op.regIs generalClass)
  | .mem => .ok (op.memIs fun _ => true)
  | .simdRM => .ok (op.memIs (fun _ => true) || op.regIs simdClass)
  | .simdReg => .ok (op.regIs simdClass)
  | .segReg => .ok (op.segIs fun _ => true)
  | .crReg => .ok (op.regIs fun r => r / 16 == 10)
  | .drReg => .ok (op.regIs fun r => r / 16 == 11)
  | .trReg => .ok (op.regIs fun r => r / 16 == 12)
  | .st0 => .ok (op.regIs fun r => r == 0x60)
  | .areg => .ok (op.regIs (fixedReg 0 f.size))
  | .creg => .ok (op.regIs (fixedReg 1 f.size))
  | .dreg => .ok (op.regIs (fixedReg 2 f.size))
  | .cs => .ok (op.segIs fun r => r % 16 == 1)
  | .ds => .ok (op.segIs fun r => r % 16 == 3)
  | .es => .ok (op.segIs fun r => r % 16 == 0)
  | .fs => .ok (op.segIs fun r => r % 16 == 4)
  | .gs => .ok (op.segIs fun r => r % 16 == 5)
  | .ss => .ok (op.segIs fun r => r % 16 == 2)
  | .cr4 => .ok (op.regIs fun r => r == 0xA4)
  | .memOffs => .ok (op.memIs (memOffs x.defaultRel))
  | .imm1 => isOne c nequ op
  | .immNotSegOff => .ok (op.isImm && decide (op.tmod = .none) && op.seg.isNone)
  | .xmm0 => .ok (op.regIs fun r => r == 0x80)
  | .memrAX => .ok (op.memIs fun m => getReg m.addr == some 0x30 || getReg m.addr == some 0x40 || getReg m.addr == some 0x50)
  | .memEAX => .ok (op.memIs fun m => getReg m.addr == some 0x40)
  | .memXMMIndex => .ok (op.memIs fun m => hasSimd false m.addr.item)
  | .memYMMIndex => .ok (op.memIs fun m => hasSimd true m.addr.item)

/-- `op->type == YASM_INSN__OPERAND_REG && op->size == 0` of x86id.c:912 and 923, with the register. -/
def bareReg (op : Operand) : Option Nat :=
  match op.data with
  | .reg r => if op.size = 0 then some r else none
  | _ => none

/-- x86id.c:916-921: GAS has no sizes on immediates. -/
def gasImm (f : OpInfo) : Bool :=
  decide (f.type = .imm ∨ f.type = .immNotSegOff ∨ f.type = .imm1) && !f.relaxed && decide (f.action ≠ .jmpRel)

/-- x86id.c:906-944: the size; `i` is the place of the operand, `bypass` the test left out. -/
def sizeOk (bypass : Nat) (x : IdInsn) (i : Nat) (f : OpInfo) (op : Operand) : Except Stop Bool :=
  let size := sizeVal x.mode f.size
  match bareReg op with
  | some r =>
    if x.parser ≠ .gas ∧ (bypass = 4 ∧ i = 0 ∨ bypass = 5 ∧ i = 1 ∨ bypass = 6 ∧ i = 2) then .ok true
    else (regSize r).map fun s => decide (s = size)
  | none =>
    if x.parser = .gas then .ok (!gasImm f)
    else if bypass = 1 ∧ i = 0 ∨ bypass = 2 ∧ i = 1 ∨ bypass = 3 ∧ i = 2 then .ok true
    else if f.relaxed then .ok (decide (size = 0 ∨ op.size = size ∨ op.size = 0))
    else .ok (decide (op.size = size))

/-- x86id.c:949-957: 64-bit displacements only where the form has one. -/
def easOk (x : IdInsn) (f : OpInfo) (op : Operand) : Bool :=
  match op.data with
  | .mem m => decide (x.parser = .gas) || (decide (m.size = 64) == f.eas64)
  | _ => true

/-- x86id.c:962-986: NEAR, SHORT, FAR and TO. -/
def tmodOk (f : OpInfo) (op : Operand) : Bool := decide (op.tmod = f.tmod)

/-- x86id.c:693-986: one operand. -/
def operandOk (c : Ctx) (nequ bypass : Nat) (x : IdInsn) (i : Nat) (f : OpInfo) (op : Operand) : Except Stop Bool :=
  match typeOk c nequ x f op with
  | .error s => .error s
  | .ok false => .ok false
  | .ok true =>
    match sizeOk bypass x i f op with
    | .error s => .error s
    | .ok b => .ok (b && easOk x f op && tmodOk f op)

/-- x86id.c:691-987: all operands, from the first on.  (With five operands the program reads, but does not use,
    what follows the array.) -/
def operandsOk (c : Ctx) (nequ bypass : Nat) (x : IdInsn) : Nat → List OpInfo → List Operand → Except Stop Bool
  | i, f :: fs, op :: ops =>
    match operandOk c nequ bypass x i f op with
    | .error s => .error s
    | .ok false => .ok false
    | .ok true => operandsOk c nequ bypass x (i + 1) fs ops
  | _, _, _ => .ok true

/-- BitVector_bit_test for each of `cpu0`, `cpu1`, `cpu2`. -/
def cpuOk (x : IdInsn) (f : Form) : Bool := f.cpu.all x.cpu

/-- x86id.c:648-680: what does not depend on the operands. -/
def formOk (bypass : Nat) (x : IdInsn) (f : Form) : Bool :=
  !(decide (x.mode ≠ 64) && f.only64) && !(decide (x.mode = 64) && f.not64) &&
    (decide (bypass = 8) || cpuOk x f) && decide (x.ops.length = f.ops.length) &&
    !(!x.avx && f.onlyAvx) && !(x.avx && f.notAvx) &&
    !(f.gasOnly && decide (x.parser ≠ .gas)) && !(f.gasIllegal && decide (x.parser = .gas)) &&
    !(decide (x.parser = .gas) && decide (x.suffix &&& f.suffixes = 0#6))

/-- x86id.c:682-685, 1238-1241: GAS has the operands the other way round. -/
def useOps (x : IdInsn) (f : Form) : List Operand :=
  if x.parser = .gas ∧ f.gasNoRev = false then x.ops.reverse else x.ops

/-- x86id.c:637-992: does the form match? -/
def matches_ (c : Ctx) (nequ bypass : Nat) (x : IdInsn) (f : Form) : Except Stop Bool :=
  if formOk bypass x f then operandsOk c nequ bypass x 0 f.ops (useOps x f) else .ok false

/-- x86id.c:624-998 `x86_find_match`: the first form that matches. -/
def findIn (c : Ctx) (nequ bypass : Nat) (x : IdInsn) : List Form → Except Stop (Option Form)
  | [] => .ok none
  | f :: fs =>
    match matches_ c nequ bypass x f with
    | .error s => .error s
    | .ok true => .ok (some f)
    | .ok false => findIn c nequ bypass x fs

/-- x86_find_match on the instruction's own group. -/
def findMatch (c : Ctx) (nequ bypass : Nat) (x : IdInsn) : Except Stop (Option Form) := findIn c nequ bypass x x.group

/-- The errors of x86id.c:1000-1060. -/
inductive Report where
  | operandCount
  | operandSize (k : Nat)
  | mustMatch
  | requiresCpu (cpu : List Nat)
  | combination
deriving DecidableEq, Repr

/-- x86id.c:1028-1059: what is reported if leaving out this test gives a match. -/
def reportFor (bypass : Nat) (f : Form) : Report :=
  match bypass with
  | 1 | 4 => .operandSize 1
  | 2 | 5 => .operandSize 2
  | 3 | 6 => .operandSize 3
  | 7 => .mustMatch
  | _ => .requiresCpu f.cpu

/-- x86id.c:1022-1059: try one test after the other. -/
def tryBypass (c : Ctx) (nequ : Nat) (x : IdInsn) : List Nat → Except Stop Report
  | [] => .ok .combination
  | b :: bs =>
    match findMatch c nequ b x with
    | .error s => .error s
    | .ok (some f) => .ok (reportFor b f)
    | .ok none => tryBypass c nequ x bs

/-- x86id.c:1000-1060 `x86_match_error`. -/
def matchError (c : Ctx) (nequ : Nat) (x : IdInsn) : Except Stop Report :=
  if x.group.any fun f => decide (x.ops.length = f.ops.length) then tryBypass c nequ x [1, 2, 3, 4, 5, 6, 7, 8]
  else .ok .operandCount

/-! ### Placing the operands -/

/-- x86id.c:384-393 `x86_finalize_common`. -/
def startCommon (f : Form) (mode : Nat) : Common := ⟨0, f.opersize, 0, 0, mode⟩

/-- x86bc.c:109-138 `yasm_x86__set_rex_from_reg`: the new REX value (0xff: none is possible) and the low three bits. -/
def setRexFrom (rex : Byte) (r : Nat) (bits pos : Nat) : Except Stop (Byte × Byte) :=
  let low3 := BitVec.ofNat 8 (r % 8)
  if bits = 64 then
    if r / 16 = 2 ∨ r % 16 ≥ 8 then
      if rex = 0xff#8 then .error .reject
      else .ok (rex ||| 0x40 ||| (BitVec.ofNat 8 (r / 8 % 2) <<< pos), low3)
    else if r / 16 = 1 ∧ r % 8 ≥ 4 then
      if rex ≠ 0#8 ∧ rex ≠ 0xff#8 then .error .reject else .ok (0xff, low3)
    else .ok (rex, low3)
  else .ok (rex, low3)

/-- A yasm_value with nothing but an expression (value.c `yasm_value_initialize`). -/
def rawValue (e : Option Node) : Value := ⟨e, .init, false⟩

/-- x86bc.c:182-204 `ea_create`. -/
def eaCreate : Effaddr :=
  { disp := rawValue none, ipRel := false, size := 0, needNonzero := false, needDisp := false, nosplit := false, pcRel := false,
    vsib := 0, modrm := 0, validModrm := false, needModrm := false, sib := 0, validSib := false, needSib := 0 }

/-- x86bc.c:206-222 `yasm_x86__ea_create_reg`, with the new REX value. -/
def eaReg (ea : Option Effaddr) (r : Nat) (rex : Byte) (bits : Nat) : Except Stop (Effaddr × Byte) :=
  match setRexFrom rex r bits 0 with
  | .error s => .error s
  | .ok (rex', rm) => .ok ({ ea.getD eaCreate with modrm := 0xC0 ||| rm, validModrm := true, needModrm := true }, rex')

/-- x86bc.c:224-257 `yasm_x86__ea_create_expr`, with what the parser sets afterwards (nasm-parse.c:1083-1160,
    gas-parse.c:1228-1232).  (That GAS writes `foo+rip` as `foo wrt rip` is not modelled.) -/
def eaMem (m : MemArg) : Effaddr :=
  { eaCreate with
    disp := rawValue (some m.addr), size := m.size, needDisp := true, nosplit := m.nosplit, pcRel := m.pcRel,
    needModrm := true, needSib := 0xff }

/-- x86bc.c:259-271 `yasm_x86__ea_create_imm`. -/
def eaImm (ea : Option Effaddr) (e : Node) (len : Nat) : Effaddr :=
  { ea.getD eaCreate with disp := rawValue (some e), size := len, needDisp := true }

/-- x86bc.c:173-180 `yasm_x86__ea_set_disponly`. -/
def dispOnly (ea : Effaddr) : Effaddr := { ea with validModrm := false, needModrm := false, validSib := false, needSib := 0 }

/-- The local variables of x86_id_insn_finalize (x86id.c:1068-1085) and the instruction being built.  `late` is
    `do_postop`. -/
structure Build where
  common : Common
  opcode : Opcode
  def64 : Nat
  special : Byte
  rex : Byte
  spare : Byte
  vexdata : Byte
  vexreg : Byte
  ea : Option Effaddr
  seg : BitVec 16
  imm : Option Node
  imLen : Nat
  imSign : Bool
  postop : Postop
  late : Post

/-- x86id.c:1157-1181: what the form gives. -/
def start (x : IdInsn) (f : Form) : Build :=
  let vex : Bool := decide (f.special &&& 0xF0#8 = 0xC0#8 ∨ f.special &&& 0xF0#8 = 0x80#8)
  { common := startCommon f x.mode, opcode := f.opcode, def64 := f.def64, special := if vex then 0 else f.special, rex := 0,
    spare := f.spare, vexdata := if vex then f.special else 0, vexreg := 0, ea := none, seg := 0, imm := none, imLen := 0,
    imSign := false, postop := .none, late := .none }

/-- An integer as an expression. -/
def byteExpr (v : Byte) : Node := ⟨.IDENT, [.int (createUint (v.setWidth 64))]⟩

/-- x86id.c:1185-1222: one modifier with its parameter. -/
def modify (b : Build) (m : Modifier) (v : Byte) : Build :=
  match m with
  | .gap => b
  | .preAdd => { b with special := b.special + v }
  | .op0Add => { b with opcode := { b.opcode with b0 := b.opcode.b0 + v } }
  | .op1Add => { b with opcode := { b.opcode with b1 := b.opcode.b1 + v } }
  | .op2Add => { b with opcode := { b.opcode with b2 := b.opcode.b2 + v } }
  | .spAdd => { b with spare := b.spare + v }
  | .opSizeR => { b with common := { b.common with opersize := v.toNat } }
  | .imm8 => { b with imm := some (byteExpr v), imLen := 8 }
  | .adSizeR => b
  | .dOpS64R => { b with def64 := v.toNat }
  | .op1AddSp => { b with opcode := { b.opcode with b1 := b.opcode.b1 + (v <<< 3) } }
  | .setVEX => { b with vexdata := v }

/-- x86id.c:1183-1223: all modifiers; a missing parameter is 0. -/
def modifyAll (b : Build) : List Modifier → List Byte → Build
  | [], _ => b
  | m :: ms, vs => modifyAll (modify b m (vs.headD 0)) ms vs.tail

/-- x86id.c:1225-1230: REX.W. -/
def forceRex (b : Build) : Build :=
  if b.common.mode = 64 ∧ b.common.opersize = 64 ∧ b.def64 ≠ 64 then { b with rex := 0x48 } else b

/-- x86id.c:1270-1296: a memory operand in the effective address. -/
def placeMem (x : IdInsn) (f : OpInfo) (m : MemArg) : Effaddr :=
  let ea := eaMem m
  match f.type with
  | .memOffs => dispOnly ea
  | .memXMMIndex => { ea with vsib := 1, needSib := 1 }
  | .memYMMIndex => { ea with vsib := 2, needSib := 1 }
  | _ =>
    if x.defaultRel && !m.notPcRel && decide (m.seg ≠ 0x6404#16) && decide (m.seg ≠ 0x6505#16) && !hasReg m.addr.item then
      { ea with pcRel := true }
    else ea

/-- The register of an operand that must be one (x86id.c:1307, 1346, 1354, 1364, 1374, 1415, 1420). -/
def needReg (op : Operand) : Except Stop Nat :=
  match op.data with
  | .reg r => .ok r
  | _ => .error .internal

/-- x86id.c:1260-1305: OPA_EA. -/
def placeEa (x : IdInsn) (f : OpInfo) (op : Operand) (b : Build) : Except Stop Build :=
  match op.data with
  | .reg r =>
    match eaReg b.ea r b.rex x.mode with
    | .error s => .error s
    | .ok (ea, rex) => .ok { b with ea := some ea, rex := rex }
  | .segreg _ => .error .internal
  | .mem m =>
    if op.seg.isSome then .error .reject
    else .ok { b with ea := some (placeMem x f m), seg := m.seg }
  | .imm e => .ok { b with ea := some (eaImm b.ea e (sizeVal x.mode f.size)) }

/-- x86id.c:1306-1313: OPA_EAVEX. -/
def placeEaVex (x : IdInsn) (op : Operand) (b : Build) : Except Stop Build :=
  match needReg op with
  | .error s => .error s
  | .ok r =>
    match eaReg b.ea r b.rex x.mode with
    | .error s => .error s
    | .ok (ea, rex) => .ok { b with ea := some ea, rex := rex, vexreg := BitVec.ofNat 8 (r % 16) }

/-- x86id.c:1314-1334: OPA_Imm and OPA_SImm. -/
def placeImm (x : IdInsn) (f : OpInfo) (op : Operand) (sign : Bool) (b : Build) : Except Stop Build :=
  if op.seg.isSome then .error .reject
  else
    match op.data with
    | .imm e => .ok { b with imm := some e, imLen := sizeVal x.mode f.size, imSign := sign || b.imSign }
    | _ => .error .internal

/-- x86id.c:1335-1344: OPA_Spare. -/
def placeSpare (x : IdInsn) (op : Operand) (b : Build) : Except Stop Build :=
  match op.data with
  | .segreg r => .ok { b with spare := BitVec.ofNat 8 (r % 8) }
  | .reg r =>
    match setRexFrom b.rex r x.mode 2 with
    | .error s => .error s
    | .ok (rex, low) => .ok { b with spare := low, rex := rex }
  | _ => .error .internal

/-- x86id.c:1345-1352: OPA_SpareVEX. -/
def placeSpareVex (x : IdInsn) (op : Operand) (b : Build) : Except Stop Build :=
  match needReg op with
  | .error s => .error s
  | .ok r =>
    match setRexFrom b.rex r x.mode 2 with
    | .error s => .error s
    | .ok (rex, low) => .ok { b with spare := low, rex := rex, vexreg := BitVec.ofNat 8 (r % 16) }

/-- x86id.c:1353-1372: OPA_Op0Add, and OPA_Op1Add if `second`. -/
def placeOpAdd (x : IdInsn) (op : Operand) (second : Bool) (b : Build) : Except Stop Build :=
  match needReg op with
  | .error s => .error s
  | .ok r =>
    match setRexFrom b.rex r x.mode 0 with
    | .error s => .error s
    | .ok (rex, low) =>
      .ok { b with rex := rex, opcode := if second then { b.opcode with b1 := b.opcode.b1 + low } else { b.opcode with b0 := b.opcode.b0 + low } }

/-- x86id.c:1373-1389: OPA_SpareEA. -/
def placeSpareEa (x : IdInsn) (op : Operand) (b : Build) : Except Stop Build :=
  match needReg op with
  | .error s => .error s
  | .ok r =>
    match eaReg b.ea r b.rex x.mode with
    | .error s => .error s
    | .ok (ea, rex) =>
      match setRexFrom rex r x.mode 2 with
      | .error s => .error s
      | .ok (rex, low) => .ok { b with ea := some ea, spare := low, rex := rex }

/-- x86id.c:1390-1413: OPA_AdSizeEA. -/
def placeAdSize (x : IdInsn) (op : Operand) (b : Build) : Except Stop Build :=
  match op.data with
  | .mem m =>
    match getReg m.addr with
    | none => .error .internal
    | some r =>
      if x.mode = 64 ∧ r = 0x30 then .error .reject
      else if r = 0x30 then .ok { b with common := { b.common with addrsize := 16 } }
      else if r = 0x40 then .ok { b with common := { b.common with addrsize := 32 } }
      else if x.mode = 64 ∧ r = 0x50 then .ok { b with common := { b.common with addrsize := 64 } }
      else .error .reject
  | _ => .error .internal

/-- x86id.c:1414-1418: OPA_VEX. -/
def placeVex (op : Operand) (b : Build) : Except Stop Build :=
  match needReg op with
  | .error s => .error s
  | .ok r => .ok { b with vexreg := BitVec.ofNat 8 (r % 16) }

/-- The number of a register in the upper four bits. -/
def highNibble (r : Nat) : Item := .int (createUint (BitVec.ofNat 64 (r % 16 * 16)))

/-- x86id.c:1419-1443: OPA_VEXImmSrc. -/
def placeImmSrc (op : Operand) (b : Build) : Run Build :=
  match needReg op with
  | .error s => .of (.error s)
  | .ok r =>
    match b.imm with
    | none => .of (.ok { b with imm := some ⟨.IDENT, [highNibble r]⟩, imLen := 8 })
    | some e =>
      Run.bind (lift (create .AND e.item (some (.int (createUint 0x0F))))) fun a =>
      Run.bind (lift (create .OR a.item (some (highNibble r)))) fun e' =>
        .of (.ok { b with imm := some e', imLen := 8 })

/-- x86id.c:1444-1467: OPA_VEXImm. -/
def placeVexImm (op : Operand) (b : Build) : Run Build :=
  match op.data with
  | .imm v =>
    match b.imm with
    | none => .of (.ok { b with imm := some v, imLen := 8 })
    | some e =>
      Run.bind (lift (create .AND v.item (some (.int (createUint 0x0F))))) fun lo =>
      Run.bind (lift (create .AND e.item (some (.int (createUint 0xF0))))) fun hi =>
      Run.bind (lift (create .OR lo.item (some hi.item))) fun e' =>
        .of (.ok { b with imm := some e', imLen := 8 })
  | _ => .of (.error .internal)

/-- x86id.c:1245-1470: one operand.  (OPA_JmpRel, OPA_AdSizeR and OPA_JmpFar belong to jumps: "unknown operand action".) -/
def place (x : IdInsn) (f : OpInfo) (op : Operand) (b : Build) : Run Build :=
  match f.action with
  | .none => .of (.ok b)
  | .ea => .of (placeEa x f op b)
  | .eaVEX => .of (placeEaVex x op b)
  | .imm => .of (placeImm x f op false b)
  | .simm => .of (placeImm x f op true b)
  | .spare => .of (placeSpare x op b)
  | .spareVEX => .of (placeSpareVex x op b)
  | .op0Add => .of (placeOpAdd x op false b)
  | .op1Add => .of (placeOpAdd x op true b)
  | .spareEA => .of (placeSpareEa x op b)
  | .adSizeEA => .of (placeAdSize x op b)
  | .vex => .of (placeVex op b)
  | .vexImmSrc => placeImmSrc op b
  | .vexImm => placeVexImm op b
  | .jmpRel | .adSizeR | .jmpFar => .of (.error .internal)

/-- x86id.c:1477-1490: a sign-extended byte if possible; at once the word-sized opcode if the operand says so. -/
def postSimm8 (x : IdInsn) (op : Operand) (b : Build) : Except Stop Build :=
  if (!(x.forceStrict || op.strict)) = true ∨ op.size = 0 then .ok { b with postop := .signextImm8 }
  else if op.size ≠ 8 then
    match b.opcode.at b.opcode.len with
    | .error s => .error s
    | .ok v => .ok { b with opcode := { b.opcode with b0 := v, len := 1 } }
  else .ok b

/-- x86id.c:1471-1503: the size of the operand, and the postponed action. -/
def after (x : IdInsn) (f : OpInfo) (op : Operand) (b : Build) : Except Stop Build :=
  let b := if f.size = .bits then { b with common := { b.common with opersize := x.mode } } else b
  match f.post with
  | .none => .ok b
  | .simm8 => postSimm8 x op b
  | .shortMov => .ok { b with late := .shortMov }
  | .a16 => .ok { b with postop := .address16 }
  | .simm32Avail => .ok { b with late := .simm32Avail }

/-- x86id.c:1232-1505: all operands. -/
def placeAll (x : IdInsn) : List OpInfo → List Operand → Build → Run Build
  | f :: fs, op :: ops, b =>
    Run.bind (place x f op b) fun b => Run.bind (.of (after x f op b)) fun b => placeAll x fs ops b
  | _, _, b => .of (.ok b)

/-! ### Finishing -/

/-- value.c:459-556 `yasm_value_finalize`, with no expression too. -/
def finalizeOpt (y : Syms) (size : Nat) (v : Value) : Run Value :=
  match v.abs with
  | none => .of (.ok v)
  | some e => finalize y size e

/-- x86bc.c:158-171 `yasm_x86__ea_init`. -/
def eaInit (y : Syms) (spare : Byte) (ea : Effaddr) : Run Effaddr :=
  Run.bind (finalizeOpt y ea.size ea.disp) fun v =>
    .of (.ok { ea with disp := v, modrm := (ea.modrm &&& 0xC7#8) ||| ((spare <<< 3) &&& 0x38#8) })

/-- x86id.c:1507-1518: the effective address and the segment overrides; the last one counts (insn.c:41-51). -/
def finishEa (y : Syms) (x : IdInsn) (b : Build) : Run Build :=
  match b.ea with
  | some ea =>
    Run.bind (eaInit y b.spare ea) fun ea => .of (.ok { b with ea := some ea, seg := x.segregs.getLastD b.seg })
  | none =>
    match x.segregs.getLast? with
    | none => .of (.ok b)
    | some s => if b.special = 0#8 then .of (.ok { b with special := (s >>> 8).truncate 8 }) else .of (.error .internal)

/-- x86id.c:1520-1527: the immediate. -/
def finishImm (y : Syms) (b : Build) : Run (Option Field) :=
  match b.imm with
  | none => .of (.ok none)
  | some e => Run.bind (finalize y b.imLen e) fun v => .of (.ok (some ⟨v, b.imLen, b.imSign, false⟩))

/-- x86bc.c:273-352 `yasm_x86__bc_apply_prefixes`: one prefix; `rex` is absent for jumps. -/
def applyPrefix (def64 : Nat) (s : Common × Option Byte) (p : Prefix) : Common × Option Byte :=
  match p with
  | .acqrel v => ({ s.1 with acqrel := v }, s.2)
  | .lockrep v => ({ s.1 with lockrep := v }, s.2)
  | .addrsize n => ({ s.1 with addrsize := n }, s.2)
  | .opersize n =>
    ({ s.1 with opersize := n },
      if s.1.mode = 64 ∧ n = 64 ∧ def64 ≠ 64 then s.2.map fun r => if r = 0xff#8 then r else 0x48 else s.2)
  | .segreg v => ({ s.1 with lockrep := v }, s.2)
  | .rex v =>
    match s.2 with
    | none => s
    | some r => if r = 0xff#8 then s else ({ s.1 with mode := 64 }, some v)

/-- x86bc.c:273-352: all prefixes. -/
def applyPrefixes (def64 : Nat) (c : Common) (rex : Option Byte) (ps : List Prefix) : Common × Option Byte :=
  ps.foldl (applyPrefix def64) (c, rex)

/-- x86id.c:1541-1560: a MOV from or to the accumulator at a 32-bit address, in 64-bit mode. -/
def shortMov (x : IdInsn) (i : Insn) : Except Stop Insn :=
  match i.ea with
  | none => if !x.defaultRel && decide (i.common.mode = 64) && decide (i.common.addrsize = 32) then .error .internal
    else .ok { i with opcode := { i.opcode with b1 := 0 } }
  | some ea =>
    if !x.defaultRel && decide (i.common.mode = 64) && decide (i.common.addrsize = 32) &&
        !(match ea.disp.abs with | none => false | some e => hasReg e.item) then
      .ok { i with ea := some (dispOnly ea), opcode := { i.opcode with b0 := i.opcode.b1, b1 := 0 } }
    else .ok { i with opcode := { i.opcode with b1 := 0 } }

/-- x86id.c:1567-1570: is the immediate a symbol alone, or a number a signed 32-bit field holds? -/
def fits32 (c : Ctx) (nequ : Nat) (f : Field) : Run Bool :=
  match f.v.abs with
  | none => .of (.ok true)
  | some e =>
    Run.bind (lift (getIntnum c nequ false e)) fun n =>
      .of (.ok (match n with | none => false | some i => checkSize i 32 0 1))

/-- x86id.c:1561-1585: the 64-bit MOV of an immediate that a 32-bit field holds. -/
def simm32 (c : Ctx) (nequ : Nat) (i : Insn) : Run Insn :=
  match i.imm with
  | none => .of (.error .internal)
  | some f =>
    Run.bind (fits32 c nequ f) fun ok =>
      if ok then
        match eaReg i.ea (i.opcode.b0 - 0xB8#8).toNat 0 64 with
        | .error s => .of (.error s)
        | .ok (ea, _) =>
          .of (.ok { i with ea := some ea, opcode := { i.opcode with b0 := i.opcode.b1, b1 := 0 }, imm := some { f with size := 32 } })
      else .of (.ok { i with opcode := { i.opcode with b1 := 0 } })

/-- x86id.c:1539-1588: the postponed actions that can be taken now. -/
def finishLate (c : Ctx) (nequ : Nat) (x : IdInsn) (late : Post) (i : Insn) : Run Insn :=
  match late with
  | .shortMov => .of (shortMov x i)
  | .simm32Avail => simm32 c nequ i
  | _ => .of (.ok i)

/-- x86id.c:1590-1664: VEX and XOP. -/
def finishVex (vexdata vexreg : Byte) (i : Insn) : Except Stop Insn :=
  if vexdata = 0#8 then .ok i
  else
    match vexOpcode vexdata vexreg i.special i.opcode with
    | .error s => .error s
    | .ok (sp, op) => .ok { i with special := sp, opcode := op }

/-- x86id.c:1529-1537: the prefixes; a forced 16-bit address size ignores an override. -/
def prefixed (x : IdInsn) (b : Build) (imm : Option Field) : Insn :=
  let p := applyPrefixes b.def64 b.common (some b.rex) x.prefixes
  let c := if b.postop = .address16 then { p.1 with addrsize := 0 } else p.1
  ⟨c, b.opcode, b.ea, b.seg, imm, b.special, p.2.getD 0, b.postop⟩

/-- x86id.c:1507-1670: from the operands placed to the instruction. -/
def finishInsn (y : Syms) (x : IdInsn) (b : Build) : Run Insn :=
  Run.bind (finishEa y x b) fun b =>
  Run.bind (finishImm y b) fun imm =>
  Run.bind (finishLate y.ctx y.nequ x b.late (prefixed x b imm)) fun i =>
  .of (finishVex b.vexdata b.vexreg i)

/-- x86id.c:1157-1670: an instruction that is not a jump. -/
def makeInsn (y : Syms) (x : IdInsn) (f : Form) : Run Insn :=
  Run.bind (placeAll x f.ops (useOps x f) (forceRex (modifyAll (start x f) f.modifiers x.modData))) fun b => finishInsn y x b

/-! ### Jumps -/

/-- `op->data.val` of an operand that must be an immediate. -/
def needImm (op : Operand) : Except Stop Node :=
  match op.data with
  | .imm e => .ok e
  | _ => .error .internal

/-- The parameter of a modifier, for each place the modifier has. -/
def paramsOf (m : Modifier) : List Modifier → List Byte → List Byte
  | [], _ => []
  | k :: ks, vs => (if k = m then [vs.headD 0] else []) ++ paramsOf m ks vs.tail

/-- x86id.c:561-579: may the jump use this form? -/
def jmpUsable (x : IdInsn) (opersize : Nat) (f : Form) : Bool :=
  !(decide (x.mode ≠ 64) && f.only64) && !(decide (x.mode = 64) && f.not64) && cpuOk x f &&
    decide (f.firstAction = some .jmpRel) && decide (f.opersize = opersize)

/-- x86id.c:583-587: the short opcode. -/
def shortOpcode (x : IdInsn) (f : Form) : Opcode :=
  { f.opcode with b0 := (paramsOf .op0Add f.modifiers x.modData).foldl (· + ·) f.opcode.b0 }
/-- x86id.c:590-594: the near opcode. -/
def nearOpcode (x : IdInsn) (f : Form) : Opcode :=
  { f.opcode with b1 := (paramsOf .op1Add f.modifiers x.modData).foldl (· + ·) f.opcode.b1 }

/-- x86id.c:552-597: look for the short and the near opcode, until both are found. -/
def scanJmp (x : IdInsn) (opersize : Nat) : List Form → Opcode × Opcode → Opcode × Opcode
  | [], s => s
  | f :: fs, s =>
    if s.1.len ≠ 0 ∧ s.2.len ≠ 0 then s
    else if jmpUsable x opersize f then
      match f.firstTmod with
      | some .short => scanJmp x opersize fs (shortOpcode x f, s.2)
      | some .near => scanJmp x opersize fs (s.1, nearOpcode x f)
      | _ => scanJmp x opersize fs s
    else scanJmp x opersize fs s

/-- No opcode yet. -/
def noOpcode : Opcode := ⟨0, 0, 0, 0⟩

/-- x86id.c:509-510: sizes; those above 128 bits are not needed. -/
def jmpSize : OpSize → Nat
  | .s8 => 8
  | .s16 => 16
  | .s32 => 32
  | .s64 => 64
  | .s80 => 80
  | .s128 => 128
  | _ => 0

/-- x86id.c:539-550: the address size, from the second operand or a modifier. -/
def jmpAddrsize (x : IdInsn) (f : Form) : Nat :=
  let a := match f.ops with
    | _ :: g :: _ => if g.action = .adSizeR then jmpSize g.size else 0
    | _ => 0
  match (paramsOf .adSizeR f.modifiers x.modData).getLast? with
  | some v => v.toNat
  | none => a

/-- x86id.c:527-537 and 599-611: what the user asked for, or the only form there is. -/
def jmpSel (f : Form) (s : Opcode × Opcode) : Except Stop Sel :=
  match f.firstTmod with
  | some .short => if s.1.len = 0 then .error .reject else .ok .shortForced
  | some .near => if s.2.len = 0 then .error .reject else .ok .nearForced
  | _ => .ok (if s.1.len = 0 then .nearForced else if s.2.len = 0 then .shortForced else .none)

/-- x86id.c:499-622 `x86_finalize_jmp`. -/
def makeJmp (y : Syms) (absSym : Nat) (x : IdInsn) (f : Form) : Run Jmp :=
  match x.ops with
  | [] => .of (.error .internal)
  | op :: _ =>
    match needImm op with
    | .error s => .of (.error s)
    | .ok e =>
      Run.bind (jmpTarget y absSym e) fun t =>
        let s := scanJmp x f.opersize x.group (noOpcode, noOpcode)
        Run.bind (.of (jmpSel f s)) fun sel =>
          let c := { startCommon f x.mode with addrsize := jmpAddrsize x f }
          .of (.ok ⟨(applyPrefixes f.def64 c none x.prefixes).1, s.1, s.2, sel, t⟩)

/-- A value of the given size. -/
def field (v : Value) (size : Nat) : Field := ⟨v, size, false, false⟩

/-- x86id.c:430-464: segment and offset of a far jump, and the operand size. -/
def farTarget (y : Syms) (x : IdInsn) (opersize : Nat) : Run (Field × Field × Nat) :=
  match x.ops with
  | [] => .of (.error .internal)
  | op :: rest =>
    match op.data, op.seg with
    | .imm e, some s =>
      Run.bind (finalize y 16 s) fun sv => Run.bind (finalize y 0 e) fun ov => .of (.ok (field sv 16, field ov 0, opersize))
    | d, _ =>
      match needImm ⟨d, none, op.tmod, op.size, op.deref, op.strict⟩ with
      | .error s => .of (.error s)
      | .ok e =>
        if op.tmod = .far then
          Run.bind (lift (create .SEG e.item none)) fun s =>
          Run.bind (finalize y 0 e) fun ov => Run.bind (finalize y 16 s) fun sv => .of (.ok (field sv 16, field ov 0, opersize))
        else
          match rest with
          | [] => .of (.error .internal)
          | op2 :: _ =>
            match needImm op2 with
            | .error s => .of (.error s)
            | .ok e2 =>
              Run.bind (finalize y 16 e) fun sv => Run.bind (finalize y 0 e2) fun ov =>
                .of (.ok (field sv 16, field ov 0, if op2.size = 8 then x.mode else opersize))

/-- x86id.c:466-486: the modifiers of a far jump. -/
def farOpcode (o : Opcode) : List Modifier → List Byte → Opcode
  | [], _ => o
  | m :: ms, vs =>
    let v := vs.headD 0
    farOpcode (match m with
      | .op0Add => { o with b0 := o.b0 + v }
      | .op1Add => { o with b1 := o.b1 + v }
      | .op2Add => { o with b2 := o.b2 + v }
      | .op1AddSp => { o with b1 := o.b1 + (v <<< 3) }
      | _ => o) ms vs.tail

/-- x86id.c:415-497 `x86_finalize_jmpfar`. -/
def makeJmpfar (y : Syms) (x : IdInsn) (f : Form) : Run Jmpfar :=
  Run.bind (farTarget y x f.opersize) fun t =>
    let c := { startCommon f x.mode with opersize := t.2.2 }
    .of (.ok ⟨(applyPrefixes f.def64 c none x.prefixes).1, farOpcode f.opcode f.modifiers x.modData, t.1, t.2.1⟩)

/-! ### From the parser to the instruction -/

/-- insn.c:236-295 `yasm_insn_finalize`: the operand's expression is simplified; `reject` if there was an error. -/
def prepare (y : Syms) (op : Operand) : Run Operand :=
  match op.data with
  | .mem m =>
    let r := level y m.addr
    Run.bind (lift r.1) fun e => if r.2 then .of (.error .reject) else .of (.ok { op with data := .mem { m with addr := e } })
  | .imm e =>
    let m := simplify y.ctx y.nequ true false e
    Run.bind (lift m) fun e' =>
      if (expandEqu y.ctx (y.nequ + 1) e).2 || m.log.any (fun k => k.err.isSome) then .of (.error .reject)
      else .of (.ok { op with data := .imm e' })
  | _ => .of (.ok op)

/-- All operands. -/
def prepareAll (y : Syms) : List Operand → Run (List Operand)
  | [] => .of (.ok [])
  | op :: ops => Run.bind (prepare y op) fun op => Run.bind (prepareAll y ops) fun ops => .of (.ok (op :: ops))

/-- x86id.c:1119-1132: in a relative jump of GAS, memory without `*` is the target itself. -/
def undoMem (op : Operand) : Operand :=
  match op.data with
  | .mem m => if op.deref = false ∧ m.strong = false then { op with data := .imm m.addr } else op
  | _ => op

/-- x86id.c:1107-1134; with five operands the loop goes on to what follows the array. -/
def gasJump (x : IdInsn) : Except Stop IdInsn :=
  if x.parser = .gas ∧ x.group.head?.bind Form.firstAction = some .jmpRel then
    if x.ops.length = 5 then .error .internal else .ok { x with ops := x.ops.map undoMem }
  else .ok x

/-- What becomes of an instruction. -/
inductive Made where
  | insn (i : Insn)
  | jmp (j : Jmp)
  | jmpfar (j : Jmpfar)

/-- x86id.c:1144-1155: instruction, jump or far jump. -/
def make (y : Syms) (absSym : Nat) (x : IdInsn) (f : Form) : Run Made :=
  match f.firstAction with
  | some .jmpRel => Run.bind (makeJmp y absSym x f) fun j => .of (.ok (.jmp j))
  | some .jmpFar => Run.bind (makeJmpfar y x f) fun j => .of (.ok (.jmpfar j))
  | _ => Run.bind (makeInsn y x f) fun i => .of (.ok (.insn i))

/-- x86id.c:1082-1134: the instruction with its operands ready to be matched. -/
def ready (y : Syms) (x : IdInsn) : Run IdInsn :=
  Run.bind (prepareAll y x.ops) fun ops =>
    if ops.length > 5 then .of (.error .reject) else .of (gasJump { x with ops := ops })

/-- x86id.c:1062-1670 `x86_id_insn_finalize`; `reject` if no form matches (`matchError` tells what is reported). -/
def idFinalize (y : Syms) (absSym : Nat) (x : IdInsn) : Run Made :=
  Run.bind (ready y x) fun x =>
  Run.bind (.of (findMatch y.ctx y.nequ 0 x)) fun r =>
    match r with
    | none => .of (.error .reject)
    | some f => make y absSym x f

end Verif.Match
