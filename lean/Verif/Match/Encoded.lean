/-
Specification for C70: an operand is in the instruction.
-/
import Verif.Match.Spec
import Verif.Match.Keyword

namespace Verif.Match

open Verif.Intnum
open Verif.Expr
open Verif.Value
open Verif.Ea
open Verif.Insn

/-- An instruction that was started by a name with these settings, whatever operands and prefixes it got. -/
def StartedBy (k : Keyword) (a : Setting) (x : IdInsn) : Prop :=
  x = { k.insn a with ops := x.ops, prefixes := x.prefixes, segregs := x.segregs }

/-- Jumps and calls, which are made elsewhere. -/
def isJump (f : Form) : Bool := decide (f.firstAction = some .jmpRel) || decide (f.firstAction = some .jmpFar)

/-- The register of operand number `m` of a form can be read off the instruction: it is in one of the fields, or no other register
    could have been written. -/
def Encoded (c : Ctx) (nequ : Nat) (y : Syms) (x : IdInsn) (f : Form) (i : Insn) (m : Nat) (g : OpInfo) (r : Nat) : Prop :=
  match g.action with
  | .none => ∀ op r', HasType c nequ x.defaultRel g op → op.data = .reg r' → Exists x.mode r' → r' = r
  | .ea => InRm i r
  | .spare => i.ea.isSome = true ∧ InReg i r
  | .spareEA => InRm i r ∧ InReg i r
  | .eaVEX => InRm i r ∧ (vexByte x f ≠ 0#8 → LastVex f m → InVex i r)
  | .spareVEX => i.ea.isSome = true ∧ InReg i r ∧ (vexByte x f ≠ 0#8 → LastVex f m → InVex i r)
  | .vex => vexByte x f ≠ 0#8 ∧ InVex i r
  | .op0Add => InOpcode i.opcode.b0 i.rex r
  | .op1Add => InOpcode i.opcode.b1 i.rex r
  | .vexImmSrc => ∀ (ρ : Env) (w : Place) (base : Nat → Word), ρ.Agrees y.ctx base → (∀ a b, ρ.wrt a b = a - w.frame b) →
      ρ.sym y.here = w.cur → (∀ s d, y.ctx.equ s = some d → Allowed Plain (fun _ => True) d.item) →
      (∀ k ∈ (makeInsn y x f).log, k.Sound) → InImm ρ w i r
  | _ => False

/-- A memory operand is in the instruction: there is an effective address with the segment that was written (a prefix of the
    instruction counts more), the size and the flags that were written, and with an address that has the value of what was
    written. -/
def MemEncoded (y : Syms) (x : IdInsn) (f : Form) (i : Insn) (g : OpInfo) (m : MemArg) : Prop :=
  i.seg = x.segregs.getLastD m.seg ∧ ∃ ea, i.ea = some ea ∧
    ea.size = m.size ∧ ea.nosplit = m.nosplit ∧ ea.needDisp = true ∧ ea.validModrm = false ∧ ea.validSib = false ∧
    (ea.needModrm = true ↔ g.type ≠ .memOffs) ∧
    (ea.vsib = if g.type = .memXMMIndex then 1 else if g.type = .memYMMIndex then 2 else 0) ∧
    (ea.pcRel = true ↔ m.pcRel = true ∨ g.type ∉ [.memOffs, .memXMMIndex, .memYMMIndex] ∧ x.defaultRel = true ∧ m.notPcRel = false ∧
      m.seg ≠ 0x6404#16 ∧ m.seg ≠ 0x6505#16 ∧ ∀ r, ¬ Occurs r m.addr.item) ∧
    ∀ (ρ : Env) (w : Place) (base : Nat → Word), ρ.Agrees y.ctx base → (∀ a b, ρ.wrt a b = a - w.frame b) → m.size < 256 →
      Good ρ m.addr.item → OnlyOps Plain y.ctx m.addr → ρ.sym y.here = w.cur →
      (∀ s, Mentions y.ctx m.addr s → y.isCurpos s = true → ρ.sym s = w.cur) → (∀ k ∈ (makeInsn y x f).log, k.Sound) →
      (meaning ρ w ea.disp).setWidth m.size = (m.addr.eval ρ).setWidth m.size ∧
        (ea.disp.noWarn = false → meaning ρ w ea.disp = m.addr.eval ρ)

/-- An immediate operand is in the instruction: in the immediate, with the size the form gives and the value that was written. -/
def ImmEncoded (y : Syms) (x : IdInsn) (f : Form) (i : Insn) (g : OpInfo) (e : Node) : Prop :=
  ∃ fld, i.imm = some fld ∧ fld.size = sizeVal x.mode g.size ∧ (fld.sign = true ↔ g.action = .simm) ∧ fld.ipRel = false ∧
    ∀ (ρ : Env) (w : Place) (base : Nat → Word), ρ.Agrees y.ctx base → (∀ a b, ρ.wrt a b = a - w.frame b) → fld.size < 256 →
      Good ρ e.item → OnlyOps Plain y.ctx e → ρ.sym y.here = w.cur →
      (∀ s, Mentions y.ctx e s → y.isCurpos s = true → ρ.sym s = w.cur) → (∀ k ∈ (makeInsn y x f).log, k.Sound) →
      (meaning ρ w fld.v).setWidth fld.size = (e.eval ρ).setWidth fld.size ∧ (fld.v.noWarn = false → meaning ρ w fld.v = e.eval ρ)

end Verif.Match
