import Verif.Intnum.Model
/-
Model of the LC-3b architecture: modules/arch/lc3b/lc3bid.re, lc3bbc.c, with what libyasm/value.c and section.c do with its values.

Operands are registers, constants, or labels of the same section; other expressions and other sections are left out.
-/
namespace Verif.Lc3b
open Verif.Intnum

/-! ### The tables -/

/-- lc3barch.h:31-40 `lc3b_imm_type`. -/
inductive ImmT where
  | none | i4 | i5 | w6 | b6 | w8 | w9 | pc9
  deriving DecidableEq, Repr

/-- lc3bid.re:74-78 `OPA_*`. -/
inductive Act where
  | none | dr | sr | imm
  deriving DecidableEq, Repr

/-- An operand of a form: `OPT_Reg` or `OPT_Imm`, what is done with it, and the type of immediate. -/
structure OpT where
  reg : Bool
  act : Act
  imm : ImmT
  deriving DecidableEq, Repr

/-- lc3bid.re:90-107 `lc3b_insn_info`; `MOD_OpHAdd` and `MOD_OpLAdd`. -/
structure Info where
  hadd : Bool
  ladd : Bool
  opcode : Nat
  operands : List OpT
  deriving DecidableEq, Repr

def dr : OpT := ⟨true, .dr, .none⟩
def sr : OpT := ⟨true, .sr, .none⟩
def imm (t : ImmT) : OpT := ⟨false, .imm, t⟩

/-- lc3bid.re:145-150 -/
def addand : List Info := [⟨true, false, 0x1000, [dr, sr, ⟨true, .imm, .i5⟩]⟩, ⟨true, false, 0x1020, [dr, sr, imm .i5]⟩]
/-- lc3bid.re:152-154 -/
def brGroup : List Info := [⟨true, false, 0, [imm .pc9]⟩]
/-- lc3bid.re:156-158 -/
def jmpGroup : List Info := [⟨false, false, 0xC000, [dr, imm .w9]⟩]
/-- lc3bid.re:160-162 -/
def leaGroup : List Info := [⟨false, false, 0xE000, [dr, imm .pc9]⟩]
/-- lc3bid.re:164-167 -/
def ldst : List Info := [⟨true, false, 0, [dr, sr, imm .w6]⟩]
/-- lc3bid.re:169-172 -/
def ldstb : List Info := [⟨true, false, 0, [dr, sr, imm .b6]⟩]
/-- lc3bid.re:174-176 -/
def notGroup : List Info := [⟨false, false, 0x903F, [dr, sr]⟩]
/-- lc3bid.re:178-180 -/
def nooperand : List Info := [⟨true, false, 0, []⟩]
/-- lc3bid.re:182-185 -/
def shiftGroup : List Info := [⟨false, true, 0xD000, [dr, sr, imm .i4]⟩]
/-- lc3bid.re:187-189 -/
def trapGroup : List Info := [⟨false, false, 0xF000, [imm .w8]⟩]

/-- lc3bid.re:397-432, for names in lower case. -/
def names : List (List Char × List Info × Nat) :=
  [("add".toList, addand, 0x00), ("and".toList, addand, 0x40),
    ("br".toList, brGroup, 0x00), ("brn".toList, brGroup, 0x08), ("brz".toList, brGroup, 0x04), ("brp".toList, brGroup, 0x02),
    ("brnz".toList, brGroup, 0x0C), ("brnp".toList, brGroup, 0x0A), ("brzp".toList, brGroup, 0x06), ("brnzp".toList, brGroup, 0x0E),
    ("jsr".toList, brGroup, 0x40), ("jmp".toList, jmpGroup, 0), ("lea".toList, leaGroup, 0),
    ("ld".toList, ldst, 0x20), ("ldi".toList, ldst, 0xA0), ("st".toList, ldst, 0x30), ("sti".toList, ldst, 0xB0),
    ("ldb".toList, ldstb, 0x60), ("stb".toList, ldstb, 0x70), ("not".toList, notGroup, 0),
    ("ret".toList, nooperand, 0xCE), ("rti".toList, nooperand, 0x80), ("nop".toList, nooperand, 0),
    ("lshf".toList, shiftGroup, 0x00), ("rshfl".toList, shiftGroup, 0x10), ("rshfa".toList, shiftGroup, 0x30),
    ("trap".toList, trapGroup, 0)]

/-- lc3bid.re:379-452 `yasm_lc3b__parse_check_insnprefix`: the rules are in single quotes, so the case does not matter. -/
def lookup (name : List Char) : Option (List Info × Nat) := (names.find? fun e => e.1 = name.map Char.toLower).map (·.2)

/-! ### The instruction -/

/-- A label is given by its distance in bytes from the start of the instruction; `other` is a memory operand or the like. -/
inductive Operand where
  | reg (n : Nat)
  | num (x : Intnum)
  | label (d : Int)
  | other
  deriving DecidableEq, Repr

/-- `yasm_value`: `abs` as a number; `rel` with its distance and `rshift`. -/
structure Value where
  abs : Option Intnum
  rel : Option (Int × Nat)
  deriving DecidableEq, Repr

/-- lc3barch.h:44-49 `lc3b_insn`. -/
structure Enc where
  opcode : Nat
  immT : ImmT
  value : Value
  deriving DecidableEq, Repr

inductive Err where
  | noInsn | combination | outOfRange
  deriving DecidableEq, Repr

/-- lc3bid.re:204-245: the first form with operands of the right types. -/
def typeOk (t : OpT) : Operand → Bool
  | .reg _ => t.reg
  | .num _ => !t.reg
  | .label _ => !t.reg
  | .other => false

def formOk (ops : List Operand) (i : Info) : Bool := ops.length == i.operands.length && (i.operands.zip ops).all fun p => typeOk p.1 p.2

/-- yasm_intnum_calc; it always works out for the operators used here. -/
def calcI (x : Intnum) (op : Op) (y : Intnum) : Intnum := (intCalc 0#256 x op (some y)).acc

def wordMultiple : ImmT → Bool
  | .w6 => true
  | .w8 => true
  | .w9 => true
  | .pc9 => true
  | _ => false

/-- lc3bid.re:292-319: the value of an immediate, shifted right if it is a multiple of words; libyasm/value.c:331-362, 488-506.  A zero is
    stored as no value at all, which comes to the same. -/
def immediate (t : ImmT) : Operand → Value
  | .num x => ⟨some (if wordMultiple t then calcI x .SHR (.L 1#64) else x), none⟩
  | .label d => ⟨none, some (d, if wordMultiple t then 1 else 0)⟩
  | .reg n => ⟨some (createUint (BitVec.ofNat 64 (n % 8))), none⟩
  | .other => ⟨none, none⟩

/-- lc3bid.re:271-326: what is done with an operand. -/
def assign (e : Enc) (t : OpT) (o : Operand) : Enc :=
  match t.act, o with
  | .dr, .reg n => { e with opcode := e.opcode ||| (n % 8) <<< 9 }
  | .sr, .reg n => { e with opcode := e.opcode ||| (n % 8) <<< 6 }
  | .imm, o => { e with immT := t.imm, value := immediate t.imm o }
  | _, _ => e

/-- lc3bid.re:261-269 -/
def base (i : Info) (mod : Nat) : Nat :=
  let o := if i.hadd then i.opcode + (mod % 256) * 256 else i.opcode
  let m := if i.hadd then mod / 256 else mod
  if i.ladd then o + m % 256 else o

/-- lc3bid.re:191-339 `lc3b_id_insn_finalize`.  That jump targets must not be segments or relative already does not arise here. -/
def finalize (group : List Info) (mod : Nat) (ops : List Operand) : Option Enc :=
  (group.find? (formOk ops)).map fun i => (i.operands.zip ops).foldl (fun e p => assign e p.1 p.2) ⟨base i mod, .none, ⟨none, none⟩⟩

/-- lc3bbc.c:132-165 `lc3b_bc_insn_calc_len`, `lc3b_bc_insn_expand`, with the value of libyasm/section.c:1028-1075 `recalc_normal_span`: the
    distance is shifted, the limits are in bytes. -/
def inSpan (e : Enc) : Bool :=
  if e.immT = .pc9 then
    let a := match e.value.abs with | some x => (getInt x).toInt | none => 0
    let v := a + match e.value.rel with | some (d, s) => d / 2 ^ s | none => 0
    decide (-510 ≤ v) && decide (v ≤ 513)
  else true

/-- The size of the field, and whether it is signed (lc3bbc.c:181-233). -/
def fieldOf : ImmT → Option (Nat × Bool)
  | .none => none
  | .i4 => some (4, false)
  | .i5 => some (5, true)
  | .w6 => some (6, false)
  | .b6 => some (6, true)
  | .w8 => some (8, false)
  | .pc9 => some (9, true)
  | .w9 => some (9, false)

/-- The distance as a number (libyasm/value.c:686-694). -/
def distance (d : Int) : Intnum :=
  if d < 0 then (intCalc 0#256 (createUint (BitVec.ofInt 64 (-d))) .NEG none).acc else createUint (BitVec.ofInt 64 d)

/-- What comes out: two bytes with warnings; or it is left to the object format (a label that is not relative). -/
inductive Out where
  | bytes (bs : List (BitVec 8)) (warns : List SizedWarn)
  | deferred
  | internal
  deriving DecidableEq, Repr

/-- libyasm/value.c:686-712: the number for a relative value. -/
def relative (v : Value) (d : Int) (s : Nat) : Intnum :=
  let x := if s = 0 then distance d else calcI (distance d) .SHR (createUint (BitVec.ofNat 64 s))
  match v.abs with | some a => calcI x .ADD a | none => x

/-- lc3bbc.c:241-249 `yasm_lc3b__intnum_tobytes`. -/
def put (buf : List (BitVec 8)) (size : Nat) (sign : Bool) (x : Intnum) : Out :=
  match getSized x buf size 0 false (if sign then -1 else 1) with
  | some r => .bytes r.buf r.warns
  | none => .internal

/-- libyasm/value.c:634-745 `yasm_value_output_basic`. -/
def output (v : Value) (curpos : Bool) (buf : List (BitVec 8)) (size : Nat) (sign : Bool) : Out :=
  match v.rel with
  | some (d, s) => if curpos then put buf size sign (relative v d s) else .deferred
  | none => put buf size sign (v.abs.getD (.L 0#64))

/-- lc3bbc.c:211-222: the displacement is made relative to the end of the instruction. -/
def toEnd : Option Intnum → Intnum
  | some a => calcI a .ADD (.L (-1#64))
  | none => .L (-1#64)

/-- lc3bbc.c:167-239 `lc3b_bc_insn_tobytes`: the instruction afterwards, because the absolute part of a jump is changed, and what comes out. -/
def emit (e : Enc) : Enc × Out :=
  let buf := [BitVec.ofNat 8 e.opcode, BitVec.ofNat 8 (e.opcode / 256)]
  match fieldOf e.immT with
  | none => (e, .bytes buf [])
  | some (size, sign) =>
    let e := if e.immT = .pc9 then
        { e with value := { e.value with abs := some (toEnd e.value.abs) } }
      else e
    (e, output e.value (e.immT = .pc9) buf size sign)

/-- libyasm/bytecode.c:300-348 `yasm_bc_tobytes`: as many copies as `times` says. -/
def emits : Nat → Enc → Enc × List Out
  | 0, e => (e, [])
  | n + 1, e => let r := emit e; let s := emits n r.1; (s.1, r.2 :: s.2)

/-- An instruction with its operands, in `n` copies. -/
def assemble (name : List Char) (ops : List Operand) (n : Nat) : Except Err (Enc × List Out) :=
  match lookup name with
  | none => .error .noInsn
  | some (group, mod) =>
    match finalize group mod ops with
    | none => .error .combination
    | some e => if inSpan e then .ok (emits n e) else .error .outOfRange

end Verif.Lc3b
