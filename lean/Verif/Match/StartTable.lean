/-
Facts about every entry of the x86 table, for C73.
-/
import Verif.Match.TableProps

namespace Verif.Match

open Verif.Insn

/-- Is there an operand that may become a byte to be sign-extended? -/
def byteWord (f : Form) : Bool := f.ops.any fun g => decide (g.post = .simm8)

/-- The mandatory prefix, by the parameters of the name. -/
def specialOf (ps : List Byte) (f : Form) : Byte :=
  (paramsOf .preAdd f.modifiers ps).foldl (· + ·) (if f.special &&& 0xF0#8 = 0xC0#8 ∨ f.special &&& 0xF0#8 = 0x80#8 then 0 else f.special)

/-- At most one operand is in the effective address, or none of them is in memory. -/
def eaSound (f : Form) : Bool :=
  decide (f.ops.countP (fun g => g.action.writesEa) ≤ 1) || f.ops.all fun g => !memoryTypes.contains g.type

def startSound (ps : List Byte) (f : Form) : Bool :=
  decide (f.opcode.len ≤ 3) && (isJump f ||
    (!byteWord f || decide (f.opcode.len ≤ 2) && decide (vexOf ps f = 0#8)) && decide (specialOf ps f ≠ 0xC5#8) && eaSound f &&
    (!(f.ops.any fun g => decide (g.post = .simm32Avail)) || f.ops.all fun g => !g.action.writesEa) &&
    (f.ops.all fun g => decide (g.action = .ea → g.type ∈ memoryTypes ∨ g.type ∈ registerTypes ∨ g.type = .imm)))

/-- The accumulator and memory, or another register. -/
def movPair (f : Form) : Bool :=
  decide (f.ops.countP (fun g => g.action.writesEa) ≤ 1) &&
    f.ops.all fun g => decide (g.action = .ea ∧ g.type = .rm) || decide (g.action = .spare ∧ g.type = .areg)

/-- The forms of MOV that get another opcode at the end. -/
def movSound (n : RawInsn) (f : Form) : Bool :=
  !(f.ops.any fun g => decide (g.post = .shortMov)) || decide (n.group = 8) && movPair f

/-- Immediates have up to 64 bits. -/
def narrowSize : OpSize → Bool
  | .s80 | .s128 | .s256 => false
  | _ => true

def narrowSound (f : Form) : Bool :=
  f.ops.all fun g => !(decide (g.action = .imm) || decide (g.action = .simm) || decide (g.action = .ea) && decide (g.type = .imm)) || narrowSize g.size

def nameStartSound (n : RawInsn) : Bool :=
  (groups.getD n.group []).all fun r => (r.form.toList).all fun f => startSound (paramsOfName n) f && movSound n f && narrowSound f

set_option maxRecDepth 100000 in
theorem names0_start : names0.all nameStartSound = true := by decide +kernel
set_option maxRecDepth 100000 in
theorem names1_start : names1.all nameStartSound = true := by decide +kernel
set_option maxRecDepth 100000 in
theorem names2_start : names2.all nameStartSound = true := by decide +kernel
set_option maxRecDepth 100000 in
theorem names3_start : names3.all nameStartSound = true := by decide +kernel

theorem start_sound {n : RawInsn} (hn : n ∈ names) {f : Form} (hf : f ∈ (groups.getD n.group []).filterMap RawForm.form) :
    startSound (paramsOfName n) f = true ∧ movSound n f = true ∧ narrowSound f = true := by
  obtain ⟨r, hr, e⟩ := List.mem_filterMap.1 hf
  have h : nameStartSound n = true := by
    unfold names at hn
    simp only [List.mem_append] at hn
    rcases hn with ((h | h) | h) | h
    · exact List.all_eq_true.1 names0_start n h
    · exact List.all_eq_true.1 names1_start n h
    · exact List.all_eq_true.1 names2_start n h
    · exact List.all_eq_true.1 names3_start n h
  have h := List.all_eq_true.1 h r hr
  rw [e] at h
  have h := List.all_eq_true.1 h f (by simp)
  simp only [Bool.and_eq_true] at h
  exact ⟨h.1.1, h.1.2, h.2⟩

/-- The same for a form of an instruction that was started by a name. -/
theorem group_start {n : RawInsn} (hn : n ∈ names) {a : Setting} {k : Keyword} (hk : k ∈ keywords a.parser.dialect n (groups.getD n.group []))
    {x : IdInsn} (hx : StartedBy k a x) {f : Form} (hm : f ∈ x.group) :
    startSound x.modData f = true ∧ movSound n f = true ∧ narrowSound f = true := by
  obtain ⟨e1, e2, _⟩ := keyword_of hk
  have g1 : x.group = (groups.getD n.group []).filterMap RawForm.form := by rw [hx]; show k.group.filterMap _ = _; rw [e1]
  have g2 : x.modData = paramsOfName n := by rw [hx]; exact e2
  rw [g2]
  rw [g1] at hm
  exact start_sound hn hm

end Verif.Match
