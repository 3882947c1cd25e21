/-
Specification for C72: what the words of the CPU directive say.
-/
import Verif.Cpu.Model

namespace Verif.Cpu

open Verif.Bytecode (NopStyle)
open Verif.Match (lower)

/-- What came with which Intel processor, by the numbers of x86arch.h:33-92: 8086, 186, 286, 386, 486, 586, 686, P2, P3, P4, Prescott,
    Conroe, Penryn, Nehalem, Westmere, Sandy Bridge, Ivy Bridge, Haswell, Broadwell, Skylake. -/
def intelNews : List (List Nat) :=
  [[0, 25], [1], [2, 22], [3, 21], [4, 13], [5], [6], [14], [7, 15], [8, 16], [17, 28], [29], [30], [31, 33], [36, 37],
   [34, 44, 45, 46], [41, 42, 43], [35, 47, 48, 49, 50, 51, 53, 55], [56, 57, 58], [54]]

/-- And with which AMD processor: those before K6 (numbers 0 to 5), K6, K7, Hammer, Venice, K10, Bulldozer. -/
def amdNews : List (List Nat) :=
  [[0, 1, 2, 3, 4, 5, 6, 13, 18, 21, 22, 25], [], [], [], [], [], [10, 14], [11, 15], [12, 16], [17], [32], [39, 40]]

def ia64Has : List Nat := [0, 1, 2, 3, 4, 5, 6, 7, 8, 9, 13, 14, 15, 16, 21, 22, 25]

/-- Something that came with one of the processors up to number `n`. -/
def upTo (news : List (List Nat)) (n k : Nat) : Bool := (news.take (n + 1)).any fun l => l.contains k

/-- What a word says about feature `k`: that it is enabled, or not, or nothing. -/
def Act.says (k : Nat) : Act → Option Bool
  | .intel n => some (upTo intelNews n k)
  | .amd n => some (upTo amdNews n k)
  | .ia64 => some (ia64Has.contains k)
  | .set j => if k = j then some true else none
  | .clear j => if k = j then some false else none
  | .setSse4 => if k = 30 ∨ k = 31 then some true else none
  | .clearSse4 => if k = 30 ∨ k = 31 then some false else none
  | .nop _ => none

/-- What a word says about padding. -/
def Act.pads : Act → Option NopStyle
  | .intel n => some (if n < 6 then .basic else .intel)
  | .amd n => some (if n < 6 then .basic else .amd)
  | .nop v => some v
  | _ => none

/-- The last of a list of words to say something. -/
def lastWord {α : Type} (f : Act → Option α) (acts : List Act) : Option α := acts.reverse.findSome? f

/-- A word stands for an entry, in capital or small letters. -/
def Stands (w : List Char) (a : Act) : Prop := ∃ name, (name, a) ∈ cpuWords ∧ w.map lower = name.toList

/-- The words of a history, as far as they are known. -/
def known (ws : List (List Char)) : List Act := ws.filterMap fun w => (cpuWords.find? fun e => e.1.toList = w.map lower).map (·.2)

/-- The words of a parameter: itself, or the digits of a number. -/
def Param.said (p : Param) : Option (List Char) :=
  match p.value with
  | .word w _ => some w
  | .expr v => v.map fun v => decimal (Intnum.getUint v).toNat

/-- The words of the CPU directives among some steps. -/
def Step.said : Step → List (List Char)
  | .cpu ps => ps.filterMap Param.said
  | _ => []

end Verif.Cpu
