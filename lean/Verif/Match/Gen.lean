/-
Model of modules/arch/x86/gen_x86_insn.py: how the tables of x86id.c are made from the calls of `add_group` and `add_insn`.
Sets of Python are lists here, of which only membership matters.
-/
import Verif.Match.Model

namespace Verif.Match

open Verif.Intnum
open Verif.Ea
open Verif.Insn

/-! ### Processors -/

/-- gen_x86_insn.py:33-35 `ordered_cpus`, by the numbers of x86arch.h:33-92. -/
def orderedCpus : List Nat := [0, 1, 2, 3, 4, 5, 6, 10, 11, 7, 8, 9, 12]

/-- gen_x86_insn.py:36-43 `ordered_cpu_features`.  (SSE5 is not defined in x86arch.h and not used.) -/
def orderedFeatures : List Nat :=
  [13, 19, 20, 14, 18, 21, 15, 16, 17, 26, 27, 29, 30, 31, 32, 99, 36, 34, 35, 37, 38, 39, 40, 41, 42, 43, 44, 45, 46, 47, 48, 49,
   50, 51, 52, 53, 54, 55, 56, 57, 58]

/-- gen_x86_insn.py:44 `unordered_cpu_features`. -/
def unorderedFeatures : List Nat := [25, 22, 23, 24]

/-- `set.add`. -/
def addTo (s : List Nat) (k : Nat) : List Nat := if s.contains k then s else s ++ [k]

/-- `min(table.index(x) for x in set)`; none for the empty set. -/
def lowest (table s : List Nat) : Option Nat := table.find? fun k => s.contains k

/-- gen_x86_insn.py:63-107 `cpu_lcd`, with its second minimum taken over the first set again. -/
def cpuLcd (a b : List Nat) : List Nat :=
  let low := (lowest orderedCpus a).getD 0
  let r := if low = 0 then [] else [low]
  let r := match lowest orderedFeatures a, lowest orderedFeatures b with
    | some i, some j => addTo r (if orderedFeatures.idxOf i ≤ orderedFeatures.idxOf j then i else j)
    | _, _ => r
  r ++ unorderedFeatures.filter fun k => a.contains k && b.contains k

/-! ### Forms -/

/-- The suffixes of x86id.c:65-71: Z, B, W, L, Q, S. -/
inductive Suffix where
  | z | b | w | l | q | s
deriving DecidableEq, Repr

/-- x86id.c:65-71: the bit of a suffix (the name without one is Z). -/
def Suffix.bit : Suffix → Nat
  | .z => 0
  | .b => 1
  | .w => 2
  | .l => 3
  | .q => 4
  | .s => 5

/-- The set of suffixes as bits. -/
def sufBits (s : List Suffix) : BitVec 6 := s.foldl (fun v k => v ||| (1#6 <<< k.bit)) 0#6

/-- gen_x86_insn.py:109-116: the arguments of `Operand`; `ea64` is the destination EA64. -/
structure RawOp where
  type : OpType
  size : OpSize := .any
  relaxed : Bool := false
  dest : Action := .none
  ea64 : Bool := false
  tmod : Tmod := .none
  opt : Post := .none
deriving DecidableEq, Repr

/-- gen_x86_insn.py:145-300: the arguments of `add_group`.  `opcode2` is there for `opcode1`/`opcode2`. -/
structure RawForm where
  opcode : List Nat
  opcode2 : List Nat := []
  operands : List RawOp := []
  modifiers : List Modifier := []
  cpu : List Nat := []
  opersize : Nat := 0
  def64 : Nat := 0
  suffixes : Option (List Suffix) := none
  reqSuffix : Bool := false
  genSuffix : Bool := true
  gas : Bool := true
  nasm : Bool := true
  only64 : Bool := false
  not64 : Bool := false
  onlyavx : Bool := false
  notavx : Bool := false
  pfx : Nat := 0
  vex : Option Nat := none
  vexw : Nat := 0
  xop : Option Nat := none
  xopw : Nat := 0
  spare : Nat := 0
  gasNoRev : Bool := false
deriving DecidableEq, Repr

/-- gen_x86_insn.py:118-127 `Operand.__str__`. -/
def RawOp.info (o : RawOp) : OpInfo := ⟨o.type, o.size, o.relaxed, o.ea64, o.tmod, if o.ea64 then .ea else o.dest, o.opt⟩

/-- gen_x86_insn.py:165-174: flags and processors after the operation size. -/
def RawForm.only64' (r : RawForm) : Bool := r.only64 || r.opersize == 64

def RawForm.cpu' (r : RawForm) : List Nat := if r.opersize = 32 ∧ r.only64' = false then addTo r.cpu 3 else r.cpu

/-- gen_x86_insn.py:271-288: one operand. -/
def flagOp (s : Bool × List Nat) (o : RawOp) : Bool × List Nat :=
  let s := if o.type ∈ [.reg, .rm, .areg, .creg, .dreg, .imm, .immNotSegOff] then
      if o.size = .s64 then (true, s.2) else if o.size = .s32 ∧ s.1 = false then (s.1, addTo s.2 3) else s
    else s
  let s := if o.type ∈ [.fs, .gs] ∧ s.1 = false then (s.1, addTo s.2 3) else s
  let s := if o.type = .cr4 ∧ s.1 = false then (s.1, addTo s.2 5) else s
  if o.ea64 then (true, s.2) else s

/-- gen_x86_insn.py:299-307: leave out the processors that are less than the greatest. -/
def dropLower (cpu : List Nat) : List Nat :=
  match orderedCpus.reverse.find? fun k => cpu.contains k with
  | none => cpu
  | some m => cpu.filter fun k => !((orderedCpus.takeWhile fun j => j != m).contains k)

/-- The flag ONLY_64 and the processors of a form. -/
def RawForm.flags (r : RawForm) : Bool × List Nat :=
  let s := r.operands.foldl flagOp (r.only64', r.cpu')
  (s.1, dropLower s.2)

/-- gen_x86_insn.py:180-193: the suffixes; none is the set that was not given. -/
def RawForm.sufs (r : RawForm) : Option (List Suffix) :=
  if r.reqSuffix then r.suffixes else some (r.suffixes.getD [] ++ [.z])

/-- gen_x86_insn.py:199-233, 235-255: the prefix, or VEX or XOP.  (Arguments that raise an exception give none.) -/
def RawForm.special (r : RawForm) : Option Nat :=
  let v : Option Nat := match r.vex with
    | none => some r.pfx
    | some len =>
      if r.vexw ≤ 1 ∧ (len = 0 ∨ len = 128 ∨ len = 256) then
        let pp : Option Nat := match r.pfx with
          | 0 => some 0
          | 0x66 => some 1
          | 0xF3 => some 2
          | 0xF2 => some 3
          | _ => none
        pp.map fun pp => 0xC0 + r.vexw * 8 + (if len = 256 then 4 else 0) + pp
      else none
  match r.xop with
  | none => v
  | some len =>
    if r.xopw ≤ 1 ∧ (len = 0 ∨ len = 128 ∨ len = 256) ∧ v = some 0 then some (0x80 + r.xopw * 8 + if len = 256 then 4 else 0)
    else none

/-- gen_x86_insn.py:309-363 `GroupForm.__str__`: the entry of the table, with lists of three for the processors and the
    modifiers; none where an exception is raised. -/
def RawForm.form (r : RawForm) : Option Form :=
  match r.special with
  | none => none
  | some special =>
    if r.modifiers.length > 3 ∨ r.flags.2.length > 3 then none
    else
      let bytes := r.opcode ++ r.opcode2 ++ [0, 0, 0]
      some
        { gasOnly := !r.nasm, gasIllegal := !r.gas, gasNoRev := r.gasNoRev, suffixes := sufBits (r.sufs.getD []),
          only64 := r.flags.1, not64 := r.not64, onlyAvx := r.onlyavx || r.vex.isSome, notAvx := r.notavx,
          cpu := (r.flags.2 ++ [0, 0, 0]).take 3, modifiers := r.modifiers,
          opersize := if r.opersize = 8 then 0 else r.opersize, def64 := r.def64, special := BitVec.ofNat 8 special,
          opcode := ⟨BitVec.ofNat 8 (bytes.getD 0 0), BitVec.ofNat 8 (bytes.getD 1 0), BitVec.ofNat 8 (bytes.getD 2 0), r.opcode.length⟩,
          spare := BitVec.ofNat 8 r.spare, ops := r.operands.map RawOp.info }

/-! ### Names -/

/-- gen_x86_insn.py:377-421: the arguments of `add_insn`; `group` is the number of the group. -/
structure RawInsn where
  name : String
  group : Nat
  suffix : Option Suffix := none
  gasOnly : Bool := false
  nasmOnly : Bool := false
  modifiers : List Nat := []
  cpu : Option (List Nat) := none
  only64 : Bool := false
  not64 : Bool := false
  avx : Bool := false
deriving DecidableEq, Repr

end Verif.Match
