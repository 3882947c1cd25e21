import Verif.Stabs.Model
import Verif.Elf.Spec
/-
How a debugger reads stabs (after "The stabs debug format" of GDB's documentation), and what it should find.
-/
namespace Verif.Stabs
open Verif.Elf (Byte Name number)

/-! ### Reading -/

/-- The string at an offset in `.stabstr`. -/
def stringAt (strs : List Byte) (off : Nat) : Name := (strs.drop off).takeWhile (· ≠ 0)

/-- A stab as it is read: its string, its type, its number, and its value after linking. -/
structure Read where
  string : Name
  type : Nat
  desc : Nat
  value : Nat
  deriving DecidableEq, Repr

/-- The stabs in `.stab`, from a position on: 12 bytes each; the linker has put the address of the symbol in where there is a relocation. -/
def stabsAt (rels : List (Nat × Nat)) (strs : List Byte) : Nat → Nat → List Byte → Option (List Read)
  | 0, _, _ => some []
  | n + 1, pos, l =>
    if l.length < 12 then none
    else
      let value := match rels.lookup (pos + 8) with | some a => a | none => number ((l.drop 8).take 4)
      (stabsAt rels strs n (pos + 12) (l.drop 12)).map fun rest =>
        ⟨stringAt strs (number (l.take 4)), number ((l.drop 4).take 1), number ((l.drop 6).take 2), value⟩ :: rest

/-- All the stabs: their number is that of the size of the section. -/
def readStabs (addr : Ref → Nat) (r : Result) : Option (List Read) :=
  stabsAt (r.relocs.map fun p => (p.1, addr p.2)) r.stabstr (r.stab.length / 12) 0 r.stab

/-- What a debugger makes of it: source files, functions with their addresses, and lines with their addresses, in the order of the stabs.  A line is at
    an offset from the function before it. -/
structure Info' where
  files : List (Name × Nat)
  funs : List (Name × Nat)
  lines : List (Nat × Nat)
  deriving DecidableEq, Repr

def walk : Option Nat → List Read → Info'
  | _, [] => ⟨[], [], []⟩
  | cur, s :: ss =>
    if s.type = 0x64 then let r := walk cur ss; { r with files := (s.string, s.value) :: r.files }
    else if s.type = 0x24 then
      let r := walk (some s.value) ss
      { r with funs := (s.string.takeWhile (· ≠ 58#8), s.value) :: r.funs }
    else if s.type = 0x44 then
      let r := walk cur ss
      { r with lines := (s.desc, cur.getD 0 + s.value) :: r.lines }
    else walk cur ss

/-- The line of an address: that of the last entry that is not above it. -/
def lineOf (lines : List (Nat × Nat)) (a : Nat) : Option Nat := ((lines.filter (·.2 ≤ a)).getLast?).map (·.1)

/-! ### The program -/

/-- A label that is taken for a function: one without a dot and without a dollar sign. -/
def funLabel (n : Name) : Bool := decide (46#8 ∉ n ∧ 36#8 ∉ n)

/-- The functions the labels of a section stand for: at each place the first label without a dot or a dollar sign, with its offset. -/
def functionsFrom : Nat → List Bc → List (Name × Nat)
  | _, [] => []
  | off, b :: bs => ((b.labels.find? funLabel).map fun n => (n, off + b.len)).toList ++ functionsFrom (off + b.len) bs

def Sect.functions (s : Sect) : List (Name × Nat) := ((s.first.find? funLabel).map fun n => (n, 0)).toList ++ functionsFrom 0 s.bcs

def lengthOf (bs : List Bc) : Nat := (bs.map (·.len)).sum

/-- Where a bytecode is: behind those before it. -/
def Sect.HasAt (s : Sect) (off : Nat) (b : Bc) : Prop := ∃ pre post, s.bcs = pre ++ b :: post ∧ lengthOf pre = off

/-- The addresses symbols get: the section is at `base`, and every function is where its label is. -/
structure Addrs (s : Sect) (base : Nat) (addr : Ref → Nat) : Prop where
  text : addr .text = base
  label : ∀ n off, (n, off) ∈ s.functions → addr (.label n) = base + off
  last : addr .last = base + lengthOf s.bcs

/-- Programs whose numbers have room: C strings, and sizes below 4 GB. -/
structure Fits (o : Obj) (s : Sect) (r : Result) : Prop where
  src : ∀ b ∈ o.src, b ≠ 0
  names : ∀ n ∈ s.first, ∀ b ∈ n, b ≠ 0 ∧ b ≠ 58#8
  labels : ∀ b ∈ s.bcs, ∀ n ∈ b.labels, ∀ c ∈ n, c ≠ 0 ∧ c ≠ 58#8
  size : r.stabstr.length < 2 ^ 32
  length : lengthOf s.bcs < 2 ^ 32

end Verif.Stabs
