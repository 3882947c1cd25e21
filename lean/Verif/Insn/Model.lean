/-
Model of modules/arch/x86/x86bc.c: lengths, widening and bytes of instructions, relative jumps and far jumps.
-/
import Verif.Ea.Model

namespace Verif.Insn

open Verif.Intnum
open Verif.Expr
open Verif.Value
open Verif.Ea

abbrev Byte := BitVec 8

/-! ### Values in instructions -/

/-- A yasm_value (coretype.h:121-183) as it is stored in an instruction: `v` holds the parts C35 is about. -/
structure Field where
  v : Value
  size : Nat
  sign : Bool
  ipRel : Bool

/-- What yasm_output_value_func gives: the bytes written, the warnings, and the value afterwards (it is
    changed in place). -/
structure Written where
  bytes : List Byte
  warns : List SizedWarn
  field : Field

/-- yasm_output_value_func (coretype.h:273): value, `destsize`, `offset`.  Whatever the function does, the caller
    then advances by `destsize`. -/
abbrev OutputValue := Field → Nat → Nat → Run Written

/-! ### Prefixes and opcodes -/

/-- x86arch.h:227-235 `x86_common`. -/
structure Common where
  addrsize : Nat
  opersize : Nat
  lockrep : Byte
  acqrel : Byte
  mode : Nat

/-- The condition of x86bc.c:530 and 813. -/
def Common.addrPrefix (c : Common) : Bool := decide (c.addrsize ≠ 0 ∧ c.addrsize ≠ c.mode)
/-- The condition of x86bc.c:532-534 and 815-817. -/
def Common.operPrefix (c : Common) : Bool :=
  decide (c.opersize ≠ 0 ∧ ((c.mode ≠ 64 ∧ c.opersize ≠ c.mode) ∨ (c.mode = 64 ∧ c.opersize = 16)))

/-- x86bc.c:525-543 `x86_common_calc_len`. -/
def commonLen (c : Common) : Nat :=
  (if c.addrPrefix then 1 else 0) + (if c.operPrefix then 1 else 0) + (if c.lockrep ≠ 0 then 1 else 0) +
    (if c.acqrel ≠ 0 then 1 else 0)

/-- x86bc.c:807-824 `x86_common_tobytes`; `seg` is the segment override, 0 if there is none. -/
def commonBytes (c : Common) (seg : Byte) : List Byte :=
  (if seg ≠ 0 then [seg] else []) ++ (if c.addrPrefix then [0x67] else []) ++ (if c.operPrefix then [0x66] else []) ++
    (if c.acqrel ≠ 0 then [c.acqrel] else []) ++ (if c.lockrep ≠ 0 then [c.lockrep] else [])

/-- x86arch.h:237-240 `x86_opcode`. -/
structure Opcode where
  b0 : Byte
  b1 : Byte
  b2 : Byte
  len : Nat

/-- `opcode->opcode[i]`; `internal` stands for a read past the array. -/
def Opcode.at (o : Opcode) (i : Nat) : Except Stop Byte :=
  match i with
  | 0 => .ok o.b0
  | 1 => .ok o.b1
  | 2 => .ok o.b2
  | _ => .error .internal

/-- x86bc.c:826-832 `x86_opcode_tobytes`; `internal` stands for a read past the array. -/
def opcodeBytes (o : Opcode) : Except Stop (List Byte) :=
  if o.len ≤ 3 then .ok ([o.b0, o.b1, o.b2].take o.len) else .error .internal

/-- What is added to the spans of the bytecode: the id, the value, and the range in which it need not be
    widened. -/
structure Span where
  id : Nat
  value : Field
  lo : Int
  hi : Int

/-! ### Instructions -/

/-- The post-operations of x86arch.h:257-273. -/
inductive Postop where
  | none
  | signextImm8
  | address16
deriving DecidableEq, Repr

/-- x86arch.h:242-274 `x86_insn`; the effective address comes with its `segreg` (insn.h), the segment
    override prefix in the high byte. -/
structure Insn where
  common : Common
  opcode : Opcode
  ea : Option Effaddr
  seg : BitVec 16
  imm : Option Field
  special : Byte
  rex : Byte
  postop : Postop

/-- The displacement of an effective address as a value; its `sign` is never set. -/
def dispField (ea : Effaddr) : Field := ⟨ea.disp, ea.size, false, ea.ipRel⟩
/-- Put it back. -/
def setDisp (ea : Effaddr) (f : Field) : Effaddr := { ea with disp := f.v, size := f.size, ipRel := f.ipRel }

/-- What one step of `x86_bc_insn_calc_len` gives: the instruction, the bytes counted, the spans. -/
structure Count (α : Type) where
  insn : α
  len : Nat
  spans : List Span

/-- x86bc.c:565-571: a displacement whose size is still unknown starts as a byte. -/
def dispSpan (ea : Effaddr) : Effaddr × List Span :=
  if ea.size = 0 ∧ ea.needNonzero = true then
    ({ ea with size := 8 }, [⟨1, dispField { ea with size := 8 }, -128, 127⟩])
  else (ea, [])

/-- The bytes counted for the effective address (x86bc.c:572-580). -/
def eaLen (ea : Effaddr) (seg : BitVec 16) : Nat :=
  ea.size / 8 + (if ea.needModrm then 1 else 0) + (if ea.needSib ≠ 0 then 1 else 0) + (if seg ≠ 0 then 1 else 0)

/-- x86bc.c:553-581: the effective address. -/
def countEa (c : Ctx) (nequ absSym : Nat) (i : Insn) : Run (Count Insn) :=
  match i.ea with
  | none => .of (.ok ⟨i, 0, []⟩)
  | some ea =>
    Run.bind (checkea c nequ absSym ea i.common.addrsize i.common.mode (decide (i.postop = .address16)) i.rex) fun r =>
      let d := dispSpan r.ea
      let a := if i.postop = .address16 then 0 else r.addrsize
      .of (.ok ⟨{ i with ea := some d.1, common := { i.common with addrsize := a }, rex := r.rex }, eaLen d.1 i.seg, d.2⟩)

/-- x86bc.c:609-614 and 679-682: take the word-sized opcode. -/
def wordOpcode (i : Insn) : Except Stop Insn :=
  match i.opcode.at i.opcode.len with
  | .error e => .error e
  | .ok b => .ok { i with opcode := { i.opcode with b0 := b, len := 1 }, postop := .none }

/-- x86bc.c:583-620: the immediate.  (That `yasm_value_get_intnum` simplifies the expression in place is not
    modelled; its value stays the same.) -/
def countImm (c : Ctx) (nequ : Nat) (i : Insn) : Run (Count Insn) :=
  match i.imm with
  | none => .of (.ok ⟨i, 0, []⟩)
  | some imm =>
    if i.postop = .signextImm8 then
      Run.bind (lift (valueIntnum c nequ false imm.v Option.none false)) fun num =>
        match num with
        | none => .of (.ok ⟨i, 1, [⟨2, imm, -128, 127⟩]⟩)
        | some n =>
          if inRange n (-128#64) 127#64 then
            .of (.ok ⟨{ i with imm := some { imm with size := 8, sign := true }, postop := .none }, 1, []⟩)
          else .of ((wordOpcode i).map fun i => ⟨i, imm.size / 8, []⟩)
    else .of (.ok ⟨i, imm.size / 8, []⟩)

/-- x86id.c:1602-1631: the opcode map (with the register bits set), and the opcode byte moved to the end. -/
def vexMap (vexdata : Byte) (op : Opcode) : Except Stop (Byte × Byte) :=
  if vexdata &&& 0xF0#8 = 0x80#8 then
    if op.b0 ≠ 0x08#8 ∧ op.b0 ≠ 0x09#8 ∧ op.b0 ≠ 0x0A#8 then .error .internal else .ok (0xE0#8 ||| op.b0, op.b1)
  else if op.b0 ≠ 0x0F#8 then .error .internal
  else if op.b1 = 0x38#8 then .ok (0xE2, op.b2)
  else if op.b1 = 0x3A#8 then .ok (0xE3, op.b2)
  else .ok (0xE1, op.b1)

/-- x86id.c:1633-1648: a legacy prefix given by a modifier is implied by VEX. -/
def vexPrefix (vexdata special : Byte) : Except Stop Byte :=
  if special = 0#8 then .ok vexdata
  else if special = 0x66#8 then .ok ((vexdata &&& 0xFC#8) ||| 1)
  else if special = 0xF3#8 then .ok ((vexdata &&& 0xFC#8) ||| 2)
  else if special = 0xF2#8 then .ok ((vexdata &&& 0xFC#8) ||| 3)
  else .error .internal

/-- x86id.c:1597-1664: the VEX or XOP prefix of an instruction, from what its table entry gives: the special prefix
    and the opcode. -/
def vexOpcode (vexdata vexreg special : Byte) (op : Opcode) : Except Stop (Byte × Opcode) :=
  match vexMap vexdata op, vexPrefix vexdata special with
  | .ok m, .ok d =>
    .ok (if vexdata &&& 0xF0#8 = 0x80#8 then 0x8F else 0xC4,
      ⟨m.1, ((d &&& 0x8#8) <<< 4) ||| ((15#8 - (vexreg &&& 0xF#8)) <<< 3) ||| (d &&& 0x7#8), m.2, 3⟩)
  | .error e, _ => .error e
  | _, .error e => .error e

/-- x86bc.c:632-634: can the VEX prefix have its two-byte form? -/
def shortVex (i : Insn) : Bool :=
  decide (i.opcode.b0 &&& 0x1F#8 = 1#8 ∧ i.opcode.b1 &&& 0x80#8 = 0#8 ∧ (i.rex = 0xff#8 ∨ i.rex &&& 0x0B#8 = 0#8))

/-- x86bc.c:622-643: the VEX or REX prefix, and the bytes counted. -/
def countVex (i : Insn) : Insn × Nat :=
  if i.special = 0xC4#8 then
    if shortVex i then ({ i with opcode := ⟨i.opcode.b1, i.opcode.b2, 0, 2⟩, special := 0xC5 }, 0) else (i, 0)
  else if i.rex ≠ 0xff#8 ∧ i.rex ≠ 0#8 ∧ i.special ≠ 0xC5#8 ∧ i.special ≠ 0x8F#8 then (i, 1)
  else (i, 0)

/-- x86bc.c:545-649 `x86_bc_insn_calc_len`: the instruction, the length, the spans. -/
def calcLen (c : Ctx) (nequ absSym : Nat) (i : Insn) : Run (Count Insn) :=
  Run.bind (countEa c nequ absSym i) fun a =>
  Run.bind (countImm c nequ a.insn) fun b =>
    let v := countVex b.insn
    .of (.ok ⟨v.1, a.len + b.len + v.2 + v.1.opcode.len + commonLen v.1.common + (if v.1.special ≠ 0 then 1 else 0),
      a.spans ++ b.spans⟩)

/-- x86bc.c:662-671: widen the displacement. -/
def expandDisp (i : Insn) (len : Nat) : Insn × Nat :=
  match i.ea with
  | none => (i, len)
  | some ea =>
    if ea.size = 8 then
      let size := if i.common.addrsize = 16 then 16 else 32
      ({ i with ea := some { ea with size := size, modrm := (ea.modrm &&& ~~~0xC0#8) ||| 0x80#8 } }, len - 1 + size / 8)
    else (i, len)

/-- x86bc.c:673-684: widen the immediate. -/
def expandImm (i : Insn) (len : Nat) : Except Stop (Insn × Nat) :=
  match i.imm with
  | none => .ok (i, len)
  | some imm =>
    if i.postop = .signextImm8 then
      (wordOpcode i).map fun i' => (i', len - i.opcode.len + imm.size / 8)
    else .ok (i, len)

/-- x86bc.c:651-687 `x86_bc_insn_expand`. -/
def expand (i : Insn) (len : Nat) (span : Nat) : Except Stop (Insn × Nat) :=
  if span = 1 then .ok (expandDisp i len)
  else if span = 2 then expandImm i len
  else .ok (i, len)

/-- x86bc.c:849-858: the first two opcode bytes of VEX and XOP instructions get the bits of REX. -/
def mergeVex (i : Insn) : Opcode :=
  let b0 := i.opcode.b0 &&& 0x1F#8
  let b0 := if i.rex ≠ 0xff#8 then b0 ||| ((~~~i.rex &&& 0x07#8) <<< 5) else b0
  let b1 := if i.rex ≠ 0xff#8 ∧ i.rex &&& 0x08#8 ≠ 0#8 then i.opcode.b1 ||| 0x80#8 else i.opcode.b1
  { i.opcode with b0 := b0, b1 := b1 }

/-- x86bc.c:859-863: the same for the two-byte VEX prefix. -/
def mergeVex2 (i : Insn) : Opcode :=
  let b0 := i.opcode.b0 &&& 0x7F#8
  { i.opcode with b0 := if i.rex ≠ 0xff#8 ∧ i.rex &&& 0x04#8 = 0#8 then b0 ||| 0x80#8 else b0 }

/-- x86bc.c:847-871: the special prefix and the REX prefix; the instruction with its opcode changed. -/
def prefixBytes (i : Insn) : Except Stop (List Byte × Insn) :=
  let sp := if i.special ≠ 0 then [i.special] else []
  if i.special = 0xC4#8 ∨ i.special = 0x8F#8 then .ok (sp, { i with opcode := mergeVex i })
  else if i.special = 0xC5#8 then
    if i.rex ≠ 0xff#8 ∧ i.rex &&& 0x0B#8 ≠ 0#8 then .error .internal
    else .ok (sp, { i with opcode := mergeVex2 i })
  else if i.rex ≠ 0xff#8 ∧ i.rex ≠ 0#8 then
    if i.common.mode ≠ 64 then .error .internal else .ok (sp ++ [i.rex], i)
  else .ok (sp, i)

/-- x86bc.c:895-907, 965-974 and 997-1006: count the displacement from the end of the instruction. -/
def fromEnd (v : Value) (len : Nat) : Value :=
  let delta : Intnum := .L (-(BitVec.ofNat 64 len))
  match v.abs with
  | none => { v with abs := some ⟨.IDENT, [.int delta]⟩ }
  | some e => { v with abs := some ⟨.ADD, [e.item, .int delta]⟩ }

/-- x86bc.c:880-890: the ModRM and SIB bytes. -/
def modrmBytes (ea : Effaddr) : Except Stop (List Byte) :=
  if ea.needModrm = true ∧ ea.validModrm = false then .error .internal
  else if ea.needSib ≠ 0 ∧ ea.validSib = false then .error .internal
  else .ok ((if ea.needModrm then [ea.modrm] else []) ++ (if ea.needSib ≠ 0 then [ea.sib] else []))

/-- The bytes a yasm_output_value_func writes: if it writes fewer or more than it should is its business. -/
structure Emitted (α : Type) where
  bytes : List Byte
  warns : List SizedWarn
  after : α

/-- x86bc.c:893-908: the displacement to write, counted from the end of the instruction if it is relative to
    the instruction pointer. -/
def endField (ea : Effaddr) (len : Nat) : Field :=
  if ea.ipRel then { dispField ea with v := fromEnd ea.disp len } else dispField ea

/-- x86bc.c:879-913: the effective address; `pos` is the offset of its first byte. -/
def eaBytes (out : OutputValue) (ea : Effaddr) (len pos : Nat) : Run (Emitted Effaddr) :=
  Run.bind (.of (modrmBytes ea)) fun m =>
    if ea.needDisp then
      Run.bind (out (endField ea len) (ea.size / 8) (pos + m.length)) fun w =>
        .of (.ok ⟨m ++ w.bytes, w.warns, setDisp ea w.field⟩)
    else .of (.ok ⟨m, [], ea⟩)

/-- x86bc.c:879-913, if there is an effective address. -/
def eaPart (out : OutputValue) (i : Insn) (len pos : Nat) : Run (Emitted Insn) :=
  match i.ea with
  | none => .of (.ok ⟨[], [], i⟩)
  | some ea => Run.bind (eaBytes out ea len pos) fun e => .of (.ok ⟨e.bytes, e.warns, { i with ea := some e.after }⟩)

/-- x86bc.c:916-931: the immediate. -/
def immPart (out : OutputValue) (i : Insn) (pos : Nat) : Run (Emitted Insn) :=
  match i.imm with
  | none => .of (.ok ⟨[], [], i⟩)
  | some imm =>
    let f := if i.postop = .signextImm8 then { imm with size := 8, sign := true } else imm
    Run.bind (out f (f.size / 8) pos) fun w => .of (.ok ⟨w.bytes, w.warns, { i with imm := some w.field }⟩)

/-- The segment override of the effective address (x86bc.c:846). -/
def segByte (i : Insn) : Byte := if i.ea.isSome then (i.seg >>> 8).truncate 8 else 0

/-- x86bc.c:834-934 `x86_bc_insn_tobytes` of an instruction of length `len`, to be written at `pos`. -/
def insnBytes (out : OutputValue) (i : Insn) (len pos : Nat) : Run (Emitted Insn) :=
  let pre := commonBytes i.common (segByte i)
  Run.bind (.of (prefixBytes i)) fun p =>
  Run.bind (.of (opcodeBytes p.2.opcode)) fun o =>
    let head := pre ++ p.1 ++ o
    Run.bind (eaPart out p.2 len (pos + head.length)) fun e =>
    Run.bind (immPart out e.after (pos + head.length + e.bytes.length)) fun m =>
      .of (.ok ⟨head ++ e.bytes ++ m.bytes, e.warns ++ m.warns, m.after⟩)

/-! ### Relative jumps -/

/-- x86arch.h:161-167 `x86_jmp_opcode_sel`. -/
inductive Sel where
  | none
  | short
  | near
  | shortForced
  | nearForced
deriving DecidableEq, Repr

/-- x86arch.h:276-285 `x86_jmp`. -/
structure Jmp where
  common : Common
  shortop : Opcode
  nearop : Opcode
  sel : Sel
  target : Field

/-- x86id.c:520-530: the target of a jump, counted from the jump. -/
def jmpTarget (y : Syms) (absSym : Nat) (e : Node) : Run Field :=
  Run.bind (finalize y 0 e) fun v =>
    if v.p.segOf || decide (v.p.rshift ≠ 0) || v.p.curposRel then .of (.error .reject)
    else .of (.ok ⟨setCurposRel absSym v, 0, false, false⟩)

/-- The operand size in effect (x86bc.c:697-699, 768-770, 950-952). -/
def Common.opsize (c : Common) : Nat := if c.opersize = 0 then c.mode else c.opersize

/-- The bytes of a near displacement (x86bc.c:713, 784, 995). -/
def nearBytes (c : Common) : Nat := if c.opsize = 16 then 2 else 4

/-- x86bc.c:728-730: can the distance not be known? -/
def farAway (c : Ctx) (bc : At) (f : Field) : Bool :=
  match f.v.p.rel with
  | none => false
  | some s => match c.label s with
    | none => true
    | some q => decide (c.sect q ≠ bc.sect)

/-- x86bc.c:689-756 `x86_bc_jmp_calc_len`. -/
def jmpLen (c : Ctx) (bc : At) (j : Jmp) : Except Stop (Count Jmp) :=
  let pre := commonLen j.common
  let near := pre + j.nearop.len + nearBytes j.common
  let short := pre + j.shortop.len + 1
  if j.sel = .nearForced ∨ j.shortop.len = 0 then
    if j.nearop.len = 0 then .error .reject
    else .ok ⟨if j.shortop.len = 0 then { j with sel := .near } else j, near, []⟩
  else if farAway c bc j.target then
    if j.sel = .shortForced ∨ j.nearop.len = 0 then
      .ok ⟨if j.sel = .none then { j with sel := .short } else j, short, []⟩
    else .ok ⟨{ j with sel := .near }, near, []⟩
  else
    .ok ⟨if j.sel = .none then { j with sel := .short } else j, short, [⟨1, j.target, -128 + short, 127 + short⟩]⟩

/-- x86bc.c:758-787 `x86_bc_jmp_expand`. -/
def jmpExpand (j : Jmp) (len : Nat) (span : Nat) : Except Stop (Jmp × Nat) :=
  if span ≠ 1 then .error .internal
  else if j.sel = .shortForced ∨ j.nearop.len = 0 then .error .reject
  else if j.sel = .near then .error .internal
  else .ok ({ j with sel := .near }, len - (j.shortop.len + 1) + j.nearop.len + nearBytes j.common)

/-- x86bc.c:936-1021 `x86_bc_jmp_tobytes`, of a jump of length `len`, to be written at `pos`: one of its two
    forms, with a displacement of `n` bytes. -/
def jmpForm (out : OutputValue) (j : Jmp) (op : Opcode) (n len pos : Nat) : Run (Emitted Jmp) :=
  let pre := commonBytes j.common 0
  Run.bind (.of (opcodeBytes op)) fun o =>
    let f : Field := { j.target with v := fromEnd j.target.v len, size := n * 8, sign := true }
    Run.bind (out f n (pos + (pre ++ o).length)) fun w =>
      .of (.ok ⟨pre ++ o ++ w.bytes, w.warns, { j with target := w.field }⟩)

/-- x86bc.c:936-1021 `x86_bc_jmp_tobytes`. -/
def jmpBytes (out : OutputValue) (j : Jmp) (len pos : Nat) : Run (Emitted Jmp) :=
  match j.sel with
  | .short | .shortForced =>
    if j.shortop.len = 0 then .of (.error .internal) else jmpForm out j j.shortop 1 len pos
  | .near | .nearForced =>
    if j.nearop.len = 0 then .of (.error .reject) else jmpForm out j j.nearop (nearBytes j.common) len pos
  | .none => .of (.error .internal)

/-! ### Far jumps -/

/-- x86arch.h:291-297 `x86_jmpfar`. -/
structure Jmpfar where
  common : Common
  opcode : Opcode
  segment : Field
  offset : Field

/-- x86bc.c:789-805 `x86_bc_jmpfar_calc_len`. -/
def jmpfarLen (j : Jmpfar) : Nat := j.opcode.len + 2 + nearBytes j.common + commonLen j.common

/-- x86bc.c:1023-1054 `x86_bc_jmpfar_tobytes`. -/
def jmpfarBytes (out : OutputValue) (j : Jmpfar) (pos : Nat) : Run (Emitted Jmpfar) :=
  let pre := commonBytes j.common 0
  Run.bind (.of (opcodeBytes j.opcode)) fun o =>
    let n := nearBytes j.common
    let head := pre ++ o
    Run.bind (out { j.offset with size := n * 8 } n (pos + head.length)) fun w =>
    Run.bind (out { j.segment with size := 16 } 2 (pos + head.length + n)) fun s =>
      .of (.ok ⟨head ++ w.bytes ++ s.bytes, w.warns ++ s.warns, { j with offset := w.field, segment := s.field }⟩)

/-! ### Copies -/

/-- bytecode.c:338-347: `n` copies of an instruction, one after the other, each checked against the length
    used for the layout. -/
def copies {α : Type} (emit : α → Nat → Run (Emitted α)) (len : Nat) : Nat → Nat → α → Run (Emitted α)
  | 0, _, a => .of (.ok ⟨[], [], a⟩)
  | n + 1, pos, a =>
    Run.bind (emit a pos) fun e =>
      if e.bytes.length ≠ len then .of (.error .internal)
      else
        Run.bind (copies emit len n (pos + len) e.after) fun r =>
          .of (.ok ⟨e.bytes ++ r.bytes, e.warns ++ r.warns, r.after⟩)

/-! ### Output without relocation -/

/-- How yasm_value_output_basic (value.c:676-677) sets `warn`. -/
def Field.warn (f : Field) : Int := if f.v.noWarn then 0 else if f.sign then -1 else 1

/-- The number as bytes: x86bc.c:1056-1064 `yasm_x86__intnum_tobytes`, into an empty buffer. -/
def numBytes (f : Field) (i : Intnum) (n : Nat) : Except Stop (List Byte × List SizedWarn) :=
  match getSized i (List.replicate n 0) f.size 0 false f.warn with
  | some r => .ok (r.buf, r.warns)
  | none => .error .internal

/-- yasm_value_output_basic (value.c:621-739) as a yasm_output_value_func: what it cannot do (`cannot`) is
    reported as an error, as for a value that would need a relocation; numbers only (a floating-point value
    is rejected).  The absolute part is replaced by the number it came to. -/
def basic (c : Ctx) (nequ : Nat) (bc : At) : OutputValue := fun f n _ =>
  Run.bind (lift (outAbs c nequ f.v.abs)) fun a =>
    match a with
    | none => .of (.error .reject)
    | some i =>
      let r := outRel c false f.ipRel f.v.p bc i
      match r.1 with
      | .int k =>
        Run.bind ⟨r.2, numBytes f k n⟩ fun b =>
          .of (.ok ⟨b.1, b.2, { f with v := { f.v with abs := i.map fun k => ⟨.IDENT, [.int k]⟩ } }⟩)
      | _ => .of (.error .reject)

/-! ### Flat binary output -/

/-- What the flat binary format knows when it outputs: the symbols, the address of the end of each bytecode
    (bin-objfmt.c:505-518, the start of the section plus the distance; the addition is not modelled here),
    the symbols standing for a section's start or length (bin-objfmt.c:469-488), which symbols are the
    absolute one, and the address of the bytecode being written. -/
structure BinCtx where
  ctx : Ctx
  vaddr : Nat → Intnum
  special : Nat → Option Intnum
  isAbs : Nat → Bool
  here : Intnum

/-- bin-objfmt.c:490-524 `bin_objfmt_expr_xform`, which puts the address in place of a label: modelled as an
    EQU to the address, which `yasm_expr__level_tree` puts in place at the same point. -/
def BinCtx.flat (b : BinCtx) : Ctx :=
  { b.ctx with equ := fun s =>
      match b.ctx.equ s with
      | some e => some e
      | none =>
        match b.ctx.label s with
        | some q => some ⟨.IDENT, [.int (b.vaddr q)]⟩
        | none => (b.special s).map fun i => ⟨.IDENT, [.int i]⟩ }

/-- bin-objfmt.c:911-923: what stands for the relative symbol; `none`: it is left alone. -/
def BinCtx.base (b : BinCtx) (s : Nat) : Option Item :=
  if b.isAbs s then some (.int (createUint 0))
  else if (b.ctx.label s).isSome then some (.sym s)
  else (b.special s).map .int

/-- bin-objfmt.c:925-949: the relative part as an expression, to be added to the absolute part. -/
def BinCtx.relItem (b : BinCtx) (p : Parts) (t : Item) : Item :=
  let u := if p.curposRel then .expr .SUB [t, .int b.here] else t
  if p.rshift ≠ 0 then .expr .SHR [u, .int (createUint (BitVec.ofNat 64 p.rshift))] else u

/-- bin-objfmt.c:943-948: the sum of the absolute part and this. -/
def plus (a : Option Node) (u : Item) : Node :=
  match a with
  | none => ⟨.IDENT, [u]⟩
  | some e => ⟨.ADD, [e.item, u]⟩

/-- bin-objfmt.c:906-950. -/
def BinCtx.fold (b : BinCtx) (f : Field) : Field :=
  match f.v.p.rel.bind b.base with
  | none => f
  | some t =>
    { f with v := { f.v with abs := some (plus f.v.abs (b.relItem f.v.p t)), p := { f.v.p with rel := none, rshift := 0, curposRel := false } },
             ipRel := if f.v.p.curposRel then false else f.ipRel }

/-- bin-objfmt.c:893-972 `bin_objfmt_output_value`. -/
def bin (b : BinCtx) (nequ : Nat) (bc : At) : OutputValue := fun f n pos => basic b.flat nequ bc (b.fold f) n pos

end Verif.Insn
