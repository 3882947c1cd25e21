/-
Specification for C73: a line with an instruction, as the parsers give it.
-/
import Verif.Match.Encoded
import Verif.Match.Lookup

namespace Verif.Match

open Verif.Insn

/-- A prefix that can be written in a mode. -/
def Proper (mode : Nat) (p : Prefix) : Prop := ∃ w ∈ prefixWords, w.check mode = .pfx p

/-- The segment registers (x86regtmod.gperf): the prefix in the high byte, the number in the low one. -/
def segmentRegs : List (BitVec 16) := [0x2600, 0x2e01, 0x3602, 0x3e03, 0x6404, 0x6505]

/-- A line: a name of the table, prefixes that there are, and segment registers. -/
structure Line (n : RawInsn) (a : Setting) (x : IdInsn) : Prop where
  name : n ∈ names
  started : ∃ k ∈ keywords a.parser.dialect n (groups.getD n.group []), StartedBy k a x
  mode : a.mode = 16 ∨ a.mode = 32 ∨ a.mode = 64
  prefixes : ∀ p ∈ x.prefixes, Proper a.mode p
  overrides : ∀ s ∈ x.segregs, s ∈ segmentRegs
  memory : ∀ op ∈ x.ops, ∀ m, op.data = .mem m → m.seg = 0 ∨ m.seg ∈ segmentRegs

/-- MOV of one register to another in 64-bit mode, with a prefix for 32-bit addresses. -/
def OddMov (n : RawInsn) (a : Setting) (x : IdInsn) : Prop :=
  groups.getD n.group [] = mov_insn ∧ a.mode = 64 ∧ Prefix.addrsize 32 ∈ x.prefixes ∧ ∀ op ∈ x.ops, ∀ m, op.data ≠ .mem m

end Verif.Match
