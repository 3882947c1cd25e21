import Verif.Coff.Spec
/-
Specification for relocations: what a linker that follows the PE/COFF specification puts into a field, and what the program
asks for.  The formulas are those of the tables of relocation types in that specification.  For plain COFF they are those of
System V and DJGPP: a relative field has the distance from the start of its section in it, and the field of a reference to a
common variable has the size of the variable added.
-/
namespace Verif.Coff
open Verif.Elf (Byte Name Num)

/-- Where a symbol is: in a section of the file (by number), at a fixed address, or elsewhere. -/
inductive Place where
  | sect (i : Nat)
  | abs
  | ext (name : Name)
  deriving DecidableEq, Repr

/-- What a linker has decided: the addresses of the sections of the file (by number) and of the symbols it does not define, the
    address of the image, and for each place the index and the start of the section of the image that it is in. -/
structure Linker where
  addr : Nat → Int
  ext : Name → Int
  base : Int
  index : Place → Int
  start : Place → Int

/-- Where a symbol of the file is. -/
def Symbol.place (y : Symbol) : Place :=
  if y.sect = 0 then .ext y.name else if y.sect = 0xffff ∨ y.sect = 0xfffe then .abs else .sect y.sect

/-- The address of a symbol of the file. -/
def Linker.value (k : Linker) (pe : Bool) (y : Symbol) : Int :=
  match y.place with
  | .ext name => if pe then k.ext name else k.ext name - y.value
  | .abs => y.value
  | .sect i => k.addr i + y.value

/-- What a relocation is about: the address, the address from the start of the image, the index of the section, or the offset in
    the section. -/
inductive Quantity where
  | addr
  | rva
  | index
  | offset
  deriving DecidableEq, Repr

/-- A type of relocation: what it is about; for relative ones, how far after the start of the field what it is relative to is; and
    the bits of the field. -/
structure Formula where
  quantity : Quantity
  rel : Option Nat
  bits : Nat
  deriving DecidableEq, Repr

/-- The types for I386: IMAGE_REL_I386_DIR32, DIR32NB, SECTION, SECREL, REL32. -/
def formula386 : Nat → Option Formula
  | 0x6 => some ⟨.addr, none, 32⟩
  | 0x7 => some ⟨.rva, none, 32⟩
  | 0xa => some ⟨.index, none, 16⟩
  | 0xb => some ⟨.offset, none, 32⟩
  | 0x14 => some ⟨.addr, some 4, 32⟩
  | _ => none

/-- The types for AMD64: IMAGE_REL_AMD64_ADDR64, ADDR32, ADDR32NB, REL32, REL32_1 to REL32_5, SECTION, SECREL. -/
def formula64 : Nat → Option Formula
  | 0x1 => some ⟨.addr, none, 64⟩
  | 0x2 => some ⟨.addr, none, 32⟩
  | 0x3 => some ⟨.rva, none, 32⟩
  | 0x4 => some ⟨.addr, some 4, 32⟩
  | 0x5 => some ⟨.addr, some 5, 32⟩
  | 0x6 => some ⟨.addr, some 6, 32⟩
  | 0x7 => some ⟨.addr, some 7, 32⟩
  | 0x8 => some ⟨.addr, some 8, 32⟩
  | 0x9 => some ⟨.addr, some 9, 32⟩
  | 0xa => some ⟨.index, none, 16⟩
  | 0xb => some ⟨.offset, none, 32⟩
  | _ => none

/-- The types of relocations of a format. -/
def Format.formula (f : Format) : Nat → Option Formula := if f.amd64 then formula64 else formula386

/-- The quantity for a symbol at an address and a place. -/
def Linker.quantity (k : Linker) (address : Int) (place : Place) : Quantity → Int
  | .addr => address
  | .rva => address - k.base
  | .index => k.index place
  | .offset => address - k.start place

/-- The number a linker computes for a relocation: for the symbol `y`, the number `a` in the field, and the offset of the field in
    section `i`. -/
def Linker.result (k : Linker) (pe : Bool) (f : Formula) (y : Symbol) (a : Int) (i offset : Nat) : Int :=
  k.quantity (k.value pe y) y.place f.quantity + a -
    match f.rel with
    | none => 0
    | some d => if pe then k.addr i + offset + d else k.addr i

/-- Numbers that are the same in a field of some bits. -/
def SameField (bits : Nat) (a b : Int) : Prop := (2 ^ bits : Int) ∣ a - b

/-! ### What the program asks for -/

/-- Where a symbol of the object is. -/
def Obj.place (o : Obj) (x : Sym) : Place :=
  match x.kind with
  | .label i _ => .sect (i + 1)
  | .equ _ _ => .abs
  | .other => .ext (o.wantName x)

/-- Its address. -/
def Obj.address (o : Obj) (k : Linker) (x : Sym) : Int :=
  match x.kind with
  | .label i off => k.addr (i + 1) + off
  | .equ (.int v) _ => v
  | .equ .other _ => 0
  | .other => k.ext (o.wantName x)

/-- The number that is added. -/
def Val.added (v : Val) : Int := match v.abs with | some (.int a) => a | _ => 0

/-- What a value asks for, in a section whose references are to be from the start of the image or not. -/
def Val.asks (v : Val) (nobase : Bool) : Quantity :=
  if v.segOf then .index
  else if v.sectionRel then .offset
  else if v.curposRel then .addr
  else if nobase || decide (v.wrt = some .imagebase) then .rva
  else .addr

/-- The number asked for: for a value at `l` in section `j` of the object that refers to the symbol `x`.  A value that is relative to
    the current position is relative to the start of the instruction or datum that it is in. -/
def Obj.asked (o : Obj) (k : Linker) (nobase : Bool) (v : Val) (x : Sym) (j : Nat) (l : Loc) : Int :=
  k.quantity (o.address k x) (o.place x) (v.asks nobase) + v.added - if v.curposRel then k.addr (j + 1) + l.bc else 0

/-- The bits a value has to have: those of an index of a section, or of an offset in one; 32 for addresses from the start of the image, and
    for all addresses in 32-bit objects. -/
def Val.Wide (v : Val) (f : Format) (nobase : Bool) : Prop :=
  match v.asks nobase with
  | .index => v.size = 16
  | .offset => v.size = 32
  | .rva => v.size = 32
  | .addr => v.size = 32 ∨ f.amd64 = true

/-- Each section has its symbol; values of EQUs and the sizes of common variables fit in the table. -/
structure RefOk (o : Obj) : Prop where
  sects : ∀ k, k < o.sects.length → ∃ n x, o.sectionSym k = some n ∧ o.syms[n]? = some x ∧ x.glob = true
  equ : ∀ s ∈ o.syms, ∀ v b, s.kind = .equ v b → ∃ i : Int, v = .int i ∧ 0 ≤ i ∧ i < 2 ^ 32
  common : ∀ s ∈ o.syms, s.common = true → s.kind = .other ∧ ∀ v, s.csize = .int v → v < 2 ^ 32
  ext : ∀ s ∈ o.syms, s.ext = true → s.kind = .other

end Verif.Coff
