import Verif.Xdf.Model
import Verif.Elf.Spec
/-
Specification for XDF files: how a reader finds the sections, symbols and relocations in a file, and what a linker puts into a field.  Nothing
here mentions how the file was made, except for the last part, which says what is to be found for a given object.  Numbers, slices and strings
are read as in `Verif.Elf.Spec`.  The format is described nowhere but by the comments in xdf-objfmt.c.
-/
namespace Verif.Xdf
open Verif.Elf (Byte Name Num slice field string)

/-! ### Files -/

/-- The header: the numbers of sections and of symbols, and the size of all tables after it. -/
structure FileHdr where
  nsects : Nat
  nsyms : Nat
  size : Nat
  deriving DecidableEq, Repr

def fileHdr (f : List Byte) : Option FileHdr := do
  let magic ← field f 0 4
  let nsects ← field f 4 4
  let nsyms ← field f 8 4
  let size ← field f 12 4
  guard (magic = 0x87654322)
  some ⟨nsects, nsyms, size⟩

/-- A symbol; the section is a number, or -1, -2 or -3 for one that is elsewhere, absolute, or neither. -/
structure Symbol where
  sect : Nat
  value : Nat
  name : Name
  flags : Nat
  deriving DecidableEq, Repr

/-- The symbols come after the headers of the sections; names are found by their place in the file. -/
def symbolAt (f : List Byte) (i : Nat) : Option Symbol := do
  let h ← fileHdr f
  guard (i < h.nsyms)
  let p := 16 + 40 * h.nsects + 16 * i
  let sect ← field f p 4
  let value ← field f (p + 4) 4
  let str ← field f (p + 8) 4
  let flags ← field f (p + 12) 4
  let name ← string f str
  some ⟨sect, value, name, flags⟩

structure Rel where
  addr : Nat
  sym : Nat
  base : Nat
  type : Nat
  size : Nat
  shift : Nat
  deriving DecidableEq, Repr

def relAt (f : List Byte) (p : Nat) : Option Rel := do
  let addr ← field f p 4
  let sym ← field f (p + 4) 4
  let base ← field f (p + 8) 4
  let type ← field f (p + 12) 1
  let size ← field f (p + 13) 1
  let shift ← field f (p + 14) 1
  some ⟨addr, sym, base, type, size, shift⟩

def relsAt (f : List Byte) (p : Nat) : Nat → Option (List Rel)
  | 0 => some []
  | n + 1 => do
    let r ← relAt f p
    let rs ← relsAt f (p + 16) n
    some (r :: rs)

structure Section where
  name : Name
  addr : Nat
  vaddr : Nat
  align : Nat
  flags : Nat
  size : Nat
  bytes : List Byte
  rels : List Rel
  deriving DecidableEq, Repr

/-- A section; it is named by its symbol, and if it is for uninitialized data (flag 4) it has no contents in the file. -/
def sectionAt (f : List Byte) (i : Nat) : Option Section := do
  let h ← fileHdr f
  guard (i < h.nsects)
  let p := 16 + 40 * i
  let sym ← field f p 4
  let addr ← field f (p + 4) 8
  let vaddr ← field f (p + 12) 8
  let align ← field f (p + 20) 2
  let flags ← field f (p + 22) 2
  let ptr ← field f (p + 24) 4
  let size ← field f (p + 28) 4
  let relptr ← field f (p + 32) 4
  let nreloc ← field f (p + 36) 4
  let y ← symbolAt f sym
  let bytes ← slice f ptr (if flags / 4 % 2 = 1 then 0 else size)
  let rels ← relsAt f relptr nreloc
  some ⟨y.name, addr, vaddr, align, flags, size, bytes, rels⟩

/-! ### What is to be found for an object -/

/-- The symbols in the table, in their order; all of them. -/
def Obj.listed (o : Obj) : List Sym := o.syms.filter (·.tabled)

/-- The index of a symbol: the number of those before it. -/
def Obj.index (o : Obj) (n : Nat) : Nat := ((o.syms.take n).filter (·.tabled)).length

def Sym.wantSymbol (o : Obj) (s : Sym) : Symbol :=
  ⟨match s.kind with
    | .label k _ => k
    | .equ _ => 2 ^ 32 - 2
    | .other => if s.ext then 2 ^ 32 - 1 else 2 ^ 32 - 3,
   match s.kind with
    | .label _ off => off
    | .equ (.int v) => v.toNat
    | _ => 0,
   if s.glob || s.ext then o.pre ++ s.name ++ o.suf else s.name,
   match s.kind with
    | .label _ _ => if s.glob then 2 else 0
    | .equ _ => if s.glob then 6 else 4
    | .other => if s.ext then 1 else if s.glob then 2 else 0⟩

def Obj.wantRel (o : Obj) (r : Reloc) : Rel :=
  ⟨r.addr, o.index r.sym, match r.base with | some b => o.index b | none => 0, r.type, r.size, r.shift⟩

/-- Sections for uninitialized data have no contents; the virtual address is the other one if there is none. -/
def Obj.wantSection (o : Obj) (s : Sect) : Section :=
  ⟨s.name, (s.addr.getD 0).toNat, (s.vaddr.getD (s.addr.getD 0)).toNat, s.align, s.flags, s.length,
    if s.flags / 4 % 2 = 1 then [] else s.chunks.flatMap Elf.Chunk.write, if s.flags / 4 % 2 = 1 then [] else s.relocs.map o.wantRel⟩

/-! ### What is asked of an object -/

/-- A symbol that may be in a relocation. -/
def Obj.Has (o : Obj) (n : Nat) : Prop := ∃ x, o.syms[n]? = some x ∧ x.tabled = true

structure SectOk (o : Obj) (s : Sect) : Prop where
  sym : ∃ x, o.syms[s.sym]? = some x ∧ x.tabled = true ∧ x.name = s.name ∧ x.glob = false ∧ x.ext = false
  addr : ∀ a, s.addr = some a → 0 ≤ a ∧ a < 2 ^ 64
  vaddr : ∀ a, s.vaddr = some a → 0 ≤ a ∧ a < 2 ^ 64
  flags : s.flags < 2 ^ 16
  align : s.align < 2 ^ 16
  size : s.length < 2 ^ 32
  length : s.flags / 4 % 2 = 0 → (s.chunks.flatMap Elf.Chunk.write).length = s.length
  relocs : s.relocs ≠ [] → s.length ≠ 0
  reloc : ∀ r ∈ s.relocs, r.addr < 2 ^ 32 ∧ r.type < 256 ∧ r.size < 256 ∧ r.shift < 256 ∧ o.Has r.sym ∧
    (∀ b, r.base = some b → o.Has b) ∧ (r.base = none → r.type ≠ 2)

structure SymOk (o : Obj) (s : Sym) : Prop where
  name : ∀ b ∈ o.pre ++ s.name ++ o.suf, b ≠ 0
  common : s.common = false
  label : ∀ k off, s.kind = .label k off → k < o.sects.length ∧ off < 2 ^ 32
  equ : ∀ v, s.kind = .equ v → ∃ i : Int, v = .int i ∧ 0 ≤ i ∧ i < 2 ^ 32

/-- What the front ends make of an object, and the numbers the format has room for.  Excluded, each with a witness in `Verif.Xdf.Props`: EQUs that
    do not fit, alignments that do not, relocations for `$`. -/
structure ObjOk (o : Obj) : Prop where
  sects : ∀ s ∈ o.sects, SectOk o s
  syms : ∀ s ∈ o.syms, s.tabled = true → SymOk o s

/-! ### Links -/

/-- What a linker has decided: the addresses of sections and of symbols elsewhere, and the segments that places are in. -/
structure Linker where
  addr : Nat → Int
  ext : Name → Int
  segOf : Nat → Int
  segExt : Name → Int

/-- The address of a symbol of a file. -/
def Linker.value (k : Linker) (y : Symbol) : Int :=
  if y.sect = 2 ^ 32 - 1 then k.ext y.name else if y.sect = 2 ^ 32 - 2 then y.value else k.addr y.sect + y.value

/-- Its segment. -/
def Linker.segment (k : Linker) (y : Symbol) : Int := if y.sect = 2 ^ 32 - 1 then k.segExt y.name else k.segOf y.sect

/-- What is put into a field that has `field` in it, in section `j`: relocations for the address of a symbol, the distance from another one, the
    distance from the start of the section that the field is in, and the segment. -/
def Linker.result (k : Linker) (q : Rel) (y : Symbol) (base : Option Symbol) (field : Int) (j : Nat) : Option Int :=
  match q.type with
  | 1 => some (k.value y / 2 ^ q.shift + field)
  | 2 => base.map fun b => (k.value y - k.value b) / 2 ^ q.shift + field
  | 4 => some ((k.value y - k.addr j) / 2 ^ q.shift + field)
  | 8 => some (k.segment y / 2 ^ q.shift + field)
  | _ => none

/-- The address of a symbol of the object, and its segment. -/
def Obj.address (o : Obj) (k : Linker) (x : Sym) : Int :=
  match x.kind with
  | .label i off => k.addr i + off
  | .equ (.int v) => v
  | .equ .other => 0
  | .other => k.ext (o.pre ++ x.name ++ o.suf)

def Obj.segment (o : Obj) (k : Linker) (x : Sym) : Int :=
  match x.kind with
  | .label i _ => k.segOf i
  | .equ _ => k.segOf (2 ^ 32 - 2)
  | .other => k.segExt (o.pre ++ x.name ++ o.suf)

/-- The number in a value. -/
def Val.plus (v : Val) : Int := match v.abs with | some (.int a) => a | _ => 0

/-- What a reference with respect to `w` takes off. -/
def Obj.base (o : Obj) (k : Linker) (w : Option Sym) : Int := match w with | some w => o.address k w | none => 0

/-- What a value asks for that refers to `x`, with respect to `w` if there is one, in the bytecode at `bc` of section `j`. -/
def Obj.asked (o : Obj) (k : Linker) (v : Val) (x : Sym) (w : Option Sym) (j bc : Nat) : Int :=
  (if v.segOf then o.segment k x else o.address k x - o.base k w) / 2 ^ v.rshift + v.plus - if v.curposRel then k.addr j + bc else 0

end Verif.Xdf
