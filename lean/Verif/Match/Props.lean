/-
C68: the form of an instruction that is used, and the report when there is none.
-/
import Verif.Match.Report
import Verif.Match.Table
import Verif.Expr.Props

namespace Verif.Match

open Verif.Intnum
open Verif.Expr
open Verif.Value
open Verif.Ea
open Verif.Insn

/-! ### C68: the first form that fits is used -/

/-- C68: the form that is found is the first of the group that fits the operands, in every mode, syntax and processor setting. -/
theorem first_fitting_form {c : Ctx} {nequ : Nat} {x : IdInsn} {f : Form} (h : findMatch c nequ 0 x = .ok (some f)) :
    First .nothing c nequ x f :=
  (findIn_some (leave := .nothing) (.inl rfl) x.group (some f) h).1 f rfl

/-- C68: if none is found then none fits. -/
theorem none_only_if_none_fits {c : Ctx} {nequ : Nat} {x : IdInsn} (h : findMatch c nequ 0 x = .ok none) :
    ∀ f ∈ x.group, ¬ Fits .nothing c nequ x f :=
  (findIn_some (leave := .nothing) (.inl rfl) x.group none h).2 rfl

/-- C68: there is an answer whatever the operands are, if the registers are known and the immediates can be looked at; so an
    instruction is accepted by the search exactly if one of its forms fits. -/
theorem accepted_iff_fits {c : Ctx} {nequ : Nat} {x : IdInsn} (hr : KnownRegs x)
    (hi : ∀ op ∈ x.ops, ∀ e, op.data = .imm e → ∀ f, (getIntnum c nequ false e).out ≠ .error f) :
    (∃ f, findMatch c nequ 0 x = .ok (some f)) ↔ ∃ f ∈ x.group, Fits .nothing c nequ x f := by
  obtain ⟨r, h⟩ := findIn_total (bypass := 0) hr hi x.group
  constructor
  · rintro ⟨f, hf⟩
    obtain ⟨b1, b2, e, h1, _⟩ := first_fitting_form hf
    exact ⟨f, by rw [e]; simp, h1⟩
  · rintro ⟨f, hf, h1⟩
    rcases r with _ | g
    · exact absurd h1 (none_only_if_none_fits h f hf)
    · exact ⟨g, h⟩

/-- C68: what is reported when no form fits.  If none has as many operands, that.  Otherwise the size of the first operand
    whose size is all that is wrong with some form (sizes that were written or left out before those of registers), or else the
    processor that is needed, or else that the operands do not go together. -/
theorem report_exact {c : Ctx} {nequ : Nat} {x : IdInsn} (hr : KnownRegs x)
    (hi : ∀ op ∈ x.ops, ∀ e, op.data = .imm e → ∀ f, (getIntnum c nequ false e).out ≠ .error f)
    (h : findMatch c nequ 0 x = .ok none) :
    ∃ r, matchError c nequ x = .ok r ∧
      (r = .operandCount ↔ ∀ f ∈ x.group, f.ops.length ≠ x.ops.length) ∧
      (r ≠ .operandCount →
        (∃ done l rest f, suspects = done ++ l :: rest ∧ (∀ m ∈ done, ∀ g ∈ x.group, ¬ Fits m c nequ x g) ∧
          First l c nequ x f ∧ r = blame l f) ∨
        ((∀ m ∈ suspects, ∀ g ∈ x.group, ¬ Fits m c nequ x g) ∧ r = .combination)) := by
  unfold matchError
  by_cases hn : (x.group.any fun f => decide (x.ops.length = f.ops.length)) = true
  · rw [if_pos hn, tryBypass_skip h]
    rw [List.any_eq_true] at hn
    obtain ⟨f0, hf0, e0⟩ := hn
    rw [decide_eq_true_iff] at e0
    have not_all : ¬ ∀ f ∈ x.group, f.ops.length ≠ x.ops.length := fun h => h f0 hf0 e0.symm
    rcases tryBypass_spec hr hi suspects (fun _ h => h) with ⟨done, l, rest, f, h1, h2, h3, h4⟩ | ⟨h1, h2⟩
    · refine ⟨_, h4, ⟨?_, fun h => absurd h not_all⟩, fun _ => .inl ⟨done, l, rest, f, h1, h2, h3, rfl⟩⟩
      intro hb
      cases l <;> simp [blame] at hb
    · exact ⟨_, h2, ⟨fun hb => (by cases hb), fun h => absurd h not_all⟩, fun _ => .inr ⟨h1, rfl⟩⟩
  · rw [if_neg hn]
    refine ⟨.operandCount, rfl, ⟨fun _ f hf e => hn ?_, fun _ => rfl⟩, fun h => absurd rfl h⟩
    rw [List.any_eq_true]
    exact ⟨f, hf, by simpa using e.symm⟩

/-! ### Cases -/

/-- The forms of a group of the table. -/
def forms (g : List RawForm) : List Form := g.filterMap RawForm.form

/-- An instruction as the parser of NASM gives it. -/
def nasm (g : List RawForm) (mode : Nat) (modData : List Byte) (ops : List Operand) : IdInsn :=
  { group := forms g, cpu := fun _ => true, modData := modData, mode := mode, suffix := 1, avx := false, parser := .nasm,
    forceStrict := false, defaultRel := false, ops := ops, prefixes := [], segregs := [] }

/-- Operands as written: a register, a memory operand with its size, a number with its size. -/
def regOp (r : Nat) : Operand := ⟨.reg r, none, .none, 0, false, false⟩
def memOp (size : Nat) (e : Node) : Operand := ⟨.mem ⟨e, 0, false, false, false, false, 0⟩, none, .none, size, false, false⟩
def numOp (size : Nat) (v : Nat) : Operand := ⟨.imm ⟨.IDENT, [.int (.L (BitVec.ofNat 64 v))]⟩, none, .none, size, false, false⟩

/-- Nothing is known about symbols. -/
def noSyms : Ctx := ⟨fun _ => none, fun _ => none, fun _ => 0, fun _ => 0⟩

/-- Which form was chosen: its opcode and operation size. -/
def chosen (x : IdInsn) : Option (Byte × Nat) :=
  match findMatch noSyms 1 0 x with
  | .ok (some f) => some (f.opcode.b0, f.opersize)
  | _ => none

/-- `add eax, 1000` uses the short form for the accumulator (05, or 83 if the number allows it), `add ebx, 1000` the general one. -/
example : chosen (nasm arith_insn 32 [0, 0] [regOp 0x40, numOp 0 1000]) = some (0x83, 32) ∧
    chosen (nasm arith_insn 32 [0, 0] [regOp 0x43, regOp 0x41]) = some (0x01, 32) ∧
    chosen (nasm arith_insn 16 [0, 0] [regOp 0x31, memOp 0 ⟨.IDENT, [.reg 0x33]⟩]) = some (0x03, 16) := by decide +kernel

/-- What is reported. -/
def reported (x : IdInsn) : Option Report :=
  match findMatch noSyms 1 0 x, matchError noSyms 1 x with
  | .ok none, .ok r => some r
  | _, _ => none

/-- `add eax, bl`, `add [bx], 1`, `add eax`, `add eax, st0`, and `bswap eax` on a processor without it. -/
example : reported (nasm arith_insn 32 [0, 0] [regOp 0x40, regOp 0x13]) = some (.operandSize 1) ∧
    reported (nasm arith_insn 32 [0, 0] [memOp 0 ⟨.IDENT, [.reg 0x33]⟩, numOp 0 1]) = some (.operandSize 1) ∧
    reported (nasm arith_insn 32 [0, 0] [regOp 0x40]) = some .operandCount ∧
    reported (nasm arith_insn 32 [0, 0] [regOp 0x40, regOp 0x80]) = some .combination ∧
    reported { nasm bswap_insn 32 [] [regOp 0x40] with cpu := fun k => k == 0 || k == 3 } = some (.requiresCpu [4, 0, 0]) := by
  decide +kernel

/-- The hypotheses of `accepted_iff_fits` and `report_exact` for `add eax, 1000`. -/
example : KnownRegs (nasm arith_insn 32 [0, 0] [regOp 0x40, numOp 0 1000]) ∧
    ∀ op ∈ (nasm arith_insn 32 [0, 0] [regOp 0x40, numOp 0 1000]).ops, ∀ e, op.data = .imm e →
      ∀ f, (getIntnum noSyms 1 false e).out ≠ .error f := by
  refine ⟨?_, ?_⟩
  · intro op ho r hr
    simp only [nasm, List.mem_cons, List.not_mem_nil, or_false] at ho
    rcases ho with rfl | rfl
    · cases hr; rfl
    · cases hr
  · intro op ho e he f
    simp only [nasm, List.mem_cons, List.not_mem_nil, or_false] at ho
    rcases ho with rfl | rfl
    · cases he
    · cases he
      have : (getIntnum noSyms 1 false ⟨.IDENT, [.int (.L (BitVec.ofNat 64 1000))]⟩).out = .ok (some (.L 1000)) := by
        with_unfolding_all decide +kernel
      rw [this]
      simp

end Verif.Match
