import Verif.Coff.Model
import Verif.Elf.Spec
/-
Specification for the COFF files: how a reader that follows the PE/COFF specification (or, for plain COFF, the older format
it comes from) finds the sections, symbols and relocations in a file.  Nothing here mentions how the file was made, except
for the last part, which says what is to be found for a given object.  Numbers, slices and strings are read as in
`Verif.Elf.Spec`.
-/
namespace Verif.Coff
open Verif.Elf (Byte Name Num number slice field string)

/-! ### The file header and the string table -/

/-- The header of a file. -/
structure FileHdr where
  machine : Nat
  nsects : Nat
  symptr : Nat
  nsyms : Nat
  optional : Nat
  flags : Nat
  deriving DecidableEq, Repr

def fileHdr (f : List Byte) : Option FileHdr := do
  let machine ← field f 0 2
  let nsects ← field f 2 2
  let symptr ← field f 8 4
  let nsyms ← field f 12 4
  let optional ← field f 16 2
  let flags ← field f 18 2
  some ⟨machine, nsects, symptr, nsyms, optional, flags⟩

/-- The string table comes after the symbols; it begins with its own length. -/
def strings (f : List Byte) (h : FileHdr) : Option (List Byte) := do
  let len ← field f (h.symptr + 18 * h.nsyms) 4
  slice f (h.symptr + 18 * h.nsyms) len

/-- A name that is shorter than its field is filled up with zeros. -/
def shortName (l : List Byte) : Name := l.takeWhile (· ≠ 0)

/-- A number written in decimal. -/
def numeral (l : List Byte) : Option Nat :=
  if l ≠ [] ∧ l.all (fun b => decide (48 ≤ b.toNat ∧ b.toNat ≤ 57)) = true then
    some (l.foldl (fun a b => a * 10 + (b.toNat - 48)) 0)
  else none

/-! ### Sections -/

structure Rel where
  addr : Nat
  sym : Nat
  type : Nat
  deriving DecidableEq, Repr

def relAt (f : List Byte) (pos : Nat) : Option Rel := do
  let addr ← field f pos 4
  let sym ← field f (pos + 4) 4
  let type ← field f (pos + 8) 2
  some ⟨addr, sym, type⟩

def relsAt (f : List Byte) (pos : Nat) : Nat → Option (List Rel)
  | 0 => some []
  | n + 1 => do
    let r ← relAt f pos
    let rs ← relsAt f (pos + 10) n
    some (r :: rs)

/-- A section as a reader sees it.  The flags are without those for the alignment and for the number of relocations. -/
structure Section where
  name : Name
  flags : Nat
  align : Nat
  size : Nat
  bytes : List Byte
  rels : List Rel
  deriving DecidableEq, Repr

/-- The name of a section: in its eight bytes or, for PE, in the string table if there is a slash and a number. -/
def sectionName (pe : Bool) (strs l : List Byte) : Option Name :=
  if pe = true ∧ l.head? = some 0x2f#8 then (numeral (shortName l.tail)).bind (string strs) else some (shortName l)

/-- The alignment in the flags of a section: 1 for bytes, 2 for words and so on; 0 if there is none. -/
def alignment (flags : Nat) : Nat := if flags / 2 ^ 20 % 16 = 0 then 0 else 2 ^ (flags / 2 ^ 20 % 16 - 1)

/-- The relocations of a section.  In PE, if there are too many for their number to be in the header, the first one has it in
    place of an address, and it counts itself. -/
def relsOf (pe : Bool) (f : List Byte) (flags ptr n : Nat) : Option (List Rel) :=
  if pe = true ∧ flags / 2 ^ 24 % 2 = 1 ∧ n = 0xffff then do
    let c ← field f ptr 4
    relsAt f (ptr + 10) (c - 1)
  else relsAt f ptr n

/-- The contents of a section; there are none if it has no place in the file. -/
def contents (f : List Byte) (ptr size : Nat) : Option (List Byte) := if ptr = 0 then some [] else slice f ptr size

/-- The section with number `i + 1`. -/
def sectionAt (pe : Bool) (f : List Byte) (i : Nat) : Option Section := do
  let h ← fileHdr f
  let strs ← strings f h
  guard (i < h.nsects)
  let p := 20 + h.optional + 40 * i
  let l ← slice f p 8
  let name ← sectionName pe strs l
  let size ← field f (p + 16) 4
  let scnptr ← field f (p + 20) 4
  let relptr ← field f (p + 24) 4
  let nreloc ← field f (p + 32) 2
  let flags ← field f (p + 36) 4
  let bytes ← contents f scnptr size
  let rels ← relsOf pe f flags relptr nreloc
  some ⟨name, flags % 2 ^ 20 + flags / 2 ^ 25 * 2 ^ 25, alignment flags, size, bytes, rels⟩

/-! ### Symbols -/

/-- What the auxiliary entries of a symbol say: the name of the source file, or the size of a section and the low bits of the
    number of its relocations. -/
inductive Extra where
  | none
  | file (name : Name)
  | sect (size nreloc : Nat)
  | other
  deriving DecidableEq, Repr

structure Symbol where
  name : Name
  value : Nat
  sect : Nat
  type : Nat
  sclass : Nat
  naux : Nat
  extra : Extra
  deriving DecidableEq, Repr

/-- A name in `l`, or in the string table if `l` begins with four zeros. -/
def nameIn (strs l : List Byte) : Option Name :=
  if l.take 4 = [0, 0, 0, 0] then (field l 4 4).bind (string strs) else some (shortName l)

/-- The auxiliary entry at a position: of a symbol for a file (103) or for a section (3). -/
def extraAt (strs f : List Byte) (pos naux sclass : Nat) : Option Extra :=
  if naux = 0 then some .none
  else if sclass = 103 then do
    let l ← slice f pos 18
    let name ← nameIn strs l
    some (.file name)
  else if sclass = 3 then do
    let size ← field f pos 4
    let nreloc ← field f (pos + 4) 2
    some (.sect size nreloc)
  else some .other

/-- The symbol with a given index. -/
def symbolAt (f : List Byte) (i : Nat) : Option Symbol := do
  let h ← fileHdr f
  let strs ← strings f h
  guard (i < h.nsyms)
  let p := h.symptr + 18 * i
  let l ← slice f p 8
  let name ← nameIn strs l
  let value ← field f (p + 8) 4
  let sect ← field f (p + 12) 2
  let type ← field f (p + 14) 2
  let sclass ← field f (p + 16) 1
  let naux ← field f (p + 17) 1
  let extra ← extraAt strs f (p + 18) naux sclass
  some ⟨name, value, sect, type, sclass, naux, extra⟩

/-- The symbols from an index on, at most `n` of them: after each, its auxiliary entries are skipped. -/
def symbolsFrom (f : List Byte) (count : Nat) : Nat → Nat → Option (List Symbol)
  | _, 0 => some []
  | i, n + 1 =>
    if count ≤ i then some []
    else do
      let s ← symbolAt f i
      let ss ← symbolsFrom f count (i + (1 + s.naux)) n
      some (s :: ss)

/-- All the symbols. -/
def symbolsOf (f : List Byte) : Option (List Symbol) := do
  let h ← fileHdr f
  symbolsFrom f h.nsyms 0 h.nsyms

/-! ### What is to be found for an object -/

/-- Sections for uninitialized data have no contents in the file. -/
def Sect.content (s : Sect) : List Byte := if s.bss then [] else s.chunks.flatMap Elf.Chunk.write
def Sect.rels (s : Sect) : List Reloc := if s.bss then [] else s.relocs

/-- A symbol is in the table if all are asked for, as always for win64; if it was declared; if it is the absolute symbol; or if it
    was asked for (SAFESEH). -/
def Obj.listed (o : Obj) (s : Sym) : Bool :=
  o.allSyms || decide (o.format = .win64) || (s.ext || s.common || s.glob || s.dlocal) || s.isAbs || s.forced

/-- The auxiliary entries of a symbol. -/
def Sym.aux (s : Sym) : Aux := match s.data with | some d => d.aux | none => .none

/-- The index of a symbol: the entries of those before it. -/
def Obj.index (o : Obj) (n : Nat) : Nat := (((o.syms.take n).filter o.listed).map fun s => 1 + s.aux.count).sum

/-- The number of entries. -/
def Obj.entries (o : Obj) : Nat := ((o.syms.filter o.listed).map fun s => 1 + s.aux.count).sum

def Obj.wantRel (o : Obj) (r : Reloc) : Rel := ⟨r.addr, o.index r.sym, r.type⟩

def Obj.wantSection (o : Obj) (s : Sect) : Section :=
  ⟨s.name, s.flags, s.align, s.length, s.content, s.rels.map o.wantRel⟩

/-- The name: global ones have the prefix and the suffix given on the command line. -/
def Obj.wantName (o : Obj) (s : Sym) : Name :=
  if s.isAbs then nAbsolut else if s.ext || s.common || s.glob then o.pre ++ s.name ++ o.suf else s.name

/-- The value: the offset of a label, the value of an EQU, the size of a common variable, else 0. -/
def Sym.wantValue (s : Sym) : Int :=
  match s.kind with
  | .label _ off => off
  | .equ (.int v) _ => v
  | .equ .other _ => 0
  | .other => if s.common then (match s.csize with | .int v => v | .other => 0) else 0

/-- The section: its number, -1 for absolute, 0 for what is not in this file, -2 for the rest. -/
def Sym.wantSect (s : Sym) : Nat :=
  match s.kind with
  | .label k _ => k + 1
  | .equ _ _ => 0xffff
  | .other => if s.common || s.ext then 0 else 0xfffe

/-- The type: as given by `.type`, else that of a function if declared so. -/
def Sym.wantType (s : Sym) : Nat :=
  match s.data with
  | some d => if d.type ≠ 0 then d.type else if s.glob && s.func then 0x20 else 0
  | none => if s.glob && s.func then 0x20 else 0

/-- The storage class: as given by `.scl`, else external or static. -/
def Sym.wantClass (s : Sym) : Nat :=
  match s.data with
  | some d => if d.sclass ≠ 0 then d.sclass else if s.ext || s.common || s.glob then 2 else 3
  | none => if s.ext || s.common || s.glob then 2 else 3

def Obj.wantExtra (o : Obj) (s : Sym) : Extra :=
  match s.aux with
  | .none => .none
  | .file => .file o.src
  | .sect =>
    match s.kind with
    | .label k _ => match o.sects[k]? with
      | some x => .sect x.length (x.rels.length % 65536)
      | none => .other
    | _ => .other

def Obj.wantSymbol (o : Obj) (s : Sym) : Symbol :=
  ⟨o.wantName s, (s.wantValue % 2 ^ 32).toNat, s.wantSect, s.wantType, s.wantClass, s.aux.count, o.wantExtra s⟩

/-! ### What is asked of an object -/

/-- What the front ends make of a section, and the numbers the format has room for.  Excluded, with a witness in
    `Verif.Coff.Props`: names that are too long for plain COFF, alignments of more than 8192. -/
structure SectOk (o : Obj) (s : Sect) : Prop where
  name : ∀ b ∈ s.name, b ≠ 0
  nonempty : s.name ≠ []
  short : o.format.win = false → s.name.length ≤ 8
  slash : o.format.win = true → s.name.length ≤ 8 → s.name.head? ≠ some 0x2f#8
  flags : s.flags < 2 ^ 32 ∧ s.flags / 2 ^ 20 % 32 = 0
  align : s.align = 0 ∨ ∃ k ≤ 13, s.align = 2 ^ k
  length : s.bss = false → (s.chunks.flatMap Elf.Chunk.write).length = s.length
  size : s.length < 2 ^ 32
  relocs : s.bss = false → s.relocs ≠ [] → s.length ≠ 0
  count : o.format.win = false → s.relocs.length < 65536
  reloc : ∀ r ∈ s.relocs, r.addr < 2 ^ 32 ∧ r.type < 2 ^ 16 ∧ ∃ x, o.syms[r.sym]? = some x ∧ o.listed x = true

/-- The sections of an object.  The last: the names in the string table are found with at most seven digits. -/
structure SectsOk (o : Obj) : Prop where
  sects : ∀ s ∈ o.sects, SectOk o s
  number : o.sects.length < 0xfffe
  names : ((o.sects.filter fun s => decide (8 < s.name.length)).map fun s => s.name.length + 1).sum + 4 < 10 ^ 7

/-- What is asked of a symbol that is put into the table.  Excluded, with a witness: EQUs with a negative value. -/
structure SymOk (o : Obj) (s : Sym) : Prop where
  name : ∀ b ∈ o.wantName s, b ≠ 0
  nonempty : o.wantName s ≠ []
  abs : s.isAbs = true → (o.globalName s).length ≤ 8 ∧ s.aux = .none
  label : ∀ k off, s.kind = .label k off → k < o.sects.length ∧ off < 2 ^ 32
  equ : ∀ v b, s.kind = .equ (.int v) b → 0 ≤ v ∧ v < 2 ^ 63
  common : ∀ v, s.kind = .other → s.common = true → s.csize = .int v → 0 ≤ v ∧ v < 2 ^ 63
  type : s.wantType < 2 ^ 16
  sclass : s.wantClass < 256
  file : s.aux = .file → s.wantClass = 103
  sect : s.aux = .sect → s.wantClass = 3 ∧ ∃ k off, s.kind = .label k off

structure ObjOk (o : Obj) : Prop where
  sects : SectsOk o
  syms : ∀ s ∈ o.syms, o.listed s = true → SymOk o s
  src : o.src ≠ [] ∧ ∀ b ∈ o.src, b ≠ 0

end Verif.Coff
