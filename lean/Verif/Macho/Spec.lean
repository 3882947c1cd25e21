import Verif.Macho.Model
import Verif.Elf.Spec
import Verif.Coff.Spec
/-
Specification for the Mach-O files: how a reader that follows the Mach-O file format finds the sections, symbols and
relocations in a file.  Nothing here mentions how the file was made, except for the last part, which says what is to be found for a
given object.  Numbers, slices and strings are read as in `Verif.Elf.Spec`, names in a field as in `Verif.Coff.Spec`.
-/
namespace Verif.Macho
open Verif.Elf (Byte Name Num number slice field string)
open Verif.Coff (shortName)

/-! ### The header and the load commands -/

/-- The header: whether it is a 64-bit file, the processor, the type of file, and the number and the size of the load commands. -/
structure Hdr where
  wide : Bool
  cpu : Nat
  type : Nat
  ncmds : Nat
  cmdsize : Nat
  deriving DecidableEq, Repr

def hdr (f : List Byte) : Option Hdr := do
  let magic ← field f 0 4
  guard (magic = 0xfeedface ∨ magic = 0xfeedfacf)
  let cpu ← field f 4 4
  let type ← field f 12 4
  let ncmds ← field f 16 4
  let cmdsize ← field f 20 4
  some ⟨decide (magic = 0xfeedfacf), cpu, type, ncmds, cmdsize⟩

/-- The load commands follow the header. -/
def Hdr.size (h : Hdr) : Nat := if h.wide then 32 else 28

/-- The load commands: the number and the position of each. -/
def commandsAt (f : List Byte) (pos : Nat) : Nat → Option (List (Nat × Nat))
  | 0 => some []
  | n + 1 => do
    let cmd ← field f pos 4
    let size ← field f (pos + 4) 4
    let cs ← commandsAt f (pos + size) n
    some ((cmd, pos) :: cs)

/-- Where they end. -/
def commandsEnd (f : List Byte) (pos : Nat) : Nat → Option Nat
  | 0 => some pos
  | n + 1 => do
    let size ← field f (pos + 4) 4
    commandsEnd f (pos + size) n

/-- The position of the first load command with a number. -/
def command (f : List Byte) (h : Hdr) (cmd : Nat) : Option Nat := do
  let cs ← commandsAt f h.size h.ncmds
  let c ← cs.find? fun c => c.1 = cmd
  some c.2

/-! ### Sections -/

/-- The segment: its size in memory, its place and size in the file, and the number of sections. -/
structure Segment where
  pos : Nat
  vmsize : Nat
  fileoff : Nat
  filesize : Nat
  nsects : Nat
  deriving DecidableEq, Repr

/-- An address or a size. -/
def long (h : Hdr) (f : List Byte) (pos : Nat) : Option Nat := field f pos (if h.wide then 8 else 4)

def segment (f : List Byte) (h : Hdr) : Option Segment := do
  let p ← command f h (if h.wide then 0x19 else 1)
  let vmsize ← long h f (if h.wide then p + 32 else p + 28)
  let fileoff ← long h f (if h.wide then p + 40 else p + 32)
  let filesize ← long h f (if h.wide then p + 48 else p + 36)
  let nsects ← field f (if h.wide then p + 64 else p + 48) 4
  some ⟨p, vmsize, fileoff, filesize, nsects⟩

/-- A relocation: the offset in the section, the number of the symbol or section, whether it is relative, the size of the field (0 for
    a byte, 1, 2 and 3 for two, four and eight), whether the number is that of a symbol, and the type. -/
structure Rel where
  addr : Nat
  num : Nat
  pcrel : Bool
  length : Nat
  ext : Bool
  type : Nat
  deriving DecidableEq, Repr

def relAt (f : List Byte) (pos : Nat) : Option Rel := do
  let addr ← field f pos 4
  let w ← field f (pos + 4) 4
  some ⟨addr, w % 2 ^ 24, decide (w / 2 ^ 24 % 2 = 1), w / 2 ^ 25 % 4, decide (w / 2 ^ 27 % 2 = 1), w / 2 ^ 28⟩

def relsAt (f : List Byte) (pos : Nat) : Nat → Option (List Rel)
  | 0 => some []
  | n + 1 => do
    let r ← relAt f pos
    let rs ← relsAt f (pos + 8) n
    some (r :: rs)

/-- A section as a reader sees it.  The flags are without the two that say that there are relocations, and that there are
    some to symbols of other files. -/
structure Section where
  name : Name
  seg : Name
  addr : Nat
  size : Nat
  align : Nat
  flags : Nat
  some : Bool
  others : Bool
  bytes : List Byte
  rels : List Rel
  deriving DecidableEq, Repr

/-- The contents of a section; those filled with zeros (types 1 and 12) have none in the file. -/
def contents (f : List Byte) (flags off size : Nat) : Option (List Byte) :=
  if flags % 256 = 1 ∨ flags % 256 = 12 then some [] else slice f off size

/-- The section with number `i + 1`. -/
def sectionAt (f : List Byte) (i : Nat) : Option Section := do
  let h ← hdr f
  let g ← segment f h
  guard (i < g.nsects)
  let p := if h.wide then g.pos + 72 + 80 * i else g.pos + 56 + 68 * i
  let name ← slice f p 16
  let seg ← slice f (p + 16) 16
  let addr ← long h f (p + 32)
  let size ← long h f (if h.wide then p + 40 else p + 36)
  let q := if h.wide then p + 48 else p + 40
  let off ← field f q 4
  let align ← field f (q + 4) 4
  let reloff ← field f (q + 8) 4
  let nreloc ← field f (q + 12) 4
  let flags ← field f (q + 16) 4
  let bytes ← contents f flags off size
  let rels ← relsAt f reloff nreloc
  some ⟨shortName name, shortName seg, addr, size, 2 ^ align, flags % 256 + flags / 1024 * 1024, decide (flags / 256 % 2 = 1), decide (flags / 512 % 2 = 1),
    bytes, rels⟩

/-! ### Symbols -/

structure Symbol where
  name : Name
  type : Nat
  sect : Nat
  desc : Nat
  value : Nat
  deriving DecidableEq, Repr

/-- Where the symbols and the names are: the position and the number of the symbols, the position and the size of the names. -/
structure Symtab where
  symoff : Nat
  nsyms : Nat
  stroff : Nat
  strsize : Nat
  deriving DecidableEq, Repr

def symtab (f : List Byte) (h : Hdr) : Option Symtab := do
  let p ← command f h 2
  let symoff ← field f (p + 8) 4
  let nsyms ← field f (p + 12) 4
  let stroff ← field f (p + 16) 4
  let strsize ← field f (p + 20) 4
  some ⟨symoff, nsyms, stroff, strsize⟩

/-- The symbol with a given number. -/
def symbolAt (f : List Byte) (i : Nat) : Option Symbol := do
  let h ← hdr f
  let t ← symtab f h
  let strs ← slice f t.stroff t.strsize
  guard (i < t.nsyms)
  let p := if h.wide then t.symoff + 16 * i else t.symoff + 12 * i
  let strx ← field f p 4
  let name ← string strs strx
  let type ← field f (p + 4) 1
  let sect ← field f (p + 5) 1
  let desc ← field f (p + 6) 2
  let value ← long h f (p + 8)
  some ⟨name, type, sect, desc, value⟩

/-! ### What is to be found for an object -/

/-- A symbol is in the table if all are asked for, as always for 64-bit files, or if it was declared; it has to have a name in the program,
    and those of sections are left out. -/
def Obj.listed (o : Obj) (s : Sym) : Bool :=
  s.tabled && (o.allSyms || o.wide || s.glob || s.common || s.ext) && !s.ofSect

/-- The number of a symbol: how many are before it. -/
def Obj.index (o : Obj) (n : Nat) : Nat := ((o.syms.take n).filter o.listed).length

/-- Sections filled with zeros have no contents and no relocations in the file. -/
def Sect.content (s : Sect) : List Byte := if s.flags % 256 = 1 then [] else s.chunks.flatMap Elf.Chunk.write
def Sect.rels (s : Sect) : List Reloc := if s.flags % 256 = 1 then [] else s.relocs

/-- A relocation is to the symbol, or to the section its symbol is in, or to no section. -/
def Obj.wantNum (o : Obj) (r : Reloc) : Nat :=
  if r.ext then o.index r.sym
  else match o.syms[r.sym]? with
    | some x => match x.kind with | .label k _ => k + 1 | _ => 0
    | none => 0

def Obj.wantRel (o : Obj) (r : Reloc) : Rel := ⟨r.addr, o.wantNum r, r.pcrel, r.length, r.ext, r.type⟩

/-- The alignment: none is the same as that of bytes. -/
def Sect.wantAlign (s : Sect) : Nat := if s.align = 0 then 1 else s.align

/-- Is the relocation to a symbol of another file? -/
def Obj.other (o : Obj) (r : Reloc) : Bool := match o.syms[r.sym]? with | some x => x.ext || x.common | none => false

def Obj.wantSection (o : Obj) (addr : Nat) (s : Sect) : Section :=
  ⟨s.name, s.seg, addr, s.length, s.wantAlign, s.flags, !s.rels.isEmpty, s.rels.any o.other, s.content, s.rels.map o.wantRel⟩

/-- The addresses given to the sections: each is aligned and they are in order, without overlap. -/
structure Laid (o : Obj) (addr : Nat → Nat) : Prop where
  aligned : ∀ k s, o.sects[k]? = some s → s.wantAlign ∣ addr k
  apart : ∀ j k s, o.sects[j]? = some s → j < k → k < o.sects.length → addr j + s.length ≤ addr k

/-- The name: global ones have the prefix and the suffix given on the command line. -/
def Obj.wantName (o : Obj) (s : Sym) : Name := if s.ext || s.common || s.glob then o.pre ++ s.name ++ o.suf else s.name

/-- The value: the address of a label, the value of an EQU, the size of a common variable, else 0. -/
def Obj.wantValue (addr : Nat → Nat) (s : Sym) : Int :=
  match s.kind with
  | .label k off => addr k + off
  | .equ (.int v) => v
  | .equ .other => 0
  | .other => if s.common then (match s.csize with | some (.int v) => v | _ => 0) else 0

/-- The type: in a section (14), absolute (2) or elsewhere (0); external ones have 1 added, and 16 if private. -/
def Sym.wantType (s : Sym) : Nat :=
  (match s.kind with | .label _ _ => 14 | .equ _ => 2 | .other => 0) + (if s.ext || s.common || s.glob then 1 else 0) +
    if s.glob && s.priv && !s.ext && !s.common then 16 else 0

def Sym.wantSect (s : Sym) : Nat := match s.kind with | .label k _ => k + 1 | _ => 0

def Obj.wantSymbol (o : Obj) (addr : Nat → Nat) (s : Sym) : Symbol :=
  ⟨o.wantName s, s.wantType, s.wantSect, 0, (Obj.wantValue addr s % (if o.wide then 2 ^ 64 else 2 ^ 32)).toNat⟩

/-! ### What is asked of an object -/

/-- What the front ends make of a section, and the numbers the format has room for.  Excluded, with a witness in
    `Verif.Macho.Props`: types with the lowest bit set other than that of sections filled with zeros; alignment of these. -/
structure SectOk (o : Obj) (s : Sect) : Prop where
  name : (∀ b ∈ s.name, b ≠ 0) ∧ s.name.length ≤ 16
  seg : (∀ b ∈ s.seg, b ≠ 0) ∧ s.seg.length ≤ 16
  flags : s.flags < 2 ^ 32 ∧ s.flags / 256 % 4 = 0 ∧ s.flags % 256 ≠ 12
  type : s.flags % 2 = 1 → s.flags % 256 = 1
  align : s.align = 0 ∨ ∃ k ≤ 14, s.align = 2 ^ k
  zeros : s.flags % 256 = 1 → s.align ≤ 1
  length : s.flags % 256 ≠ 1 → (s.chunks.flatMap Elf.Chunk.write).length = s.length
  reloc : ∀ r ∈ s.rels, r.addr < 2 ^ 32 ∧ r.type < 16 ∧ r.length < 4

/-- What is asked of a symbol that is put into the table.  Excluded, with a witness: EQUs with a negative value. -/
structure SymOk (o : Obj) (s : Sym) : Prop where
  name : ∀ b ∈ o.wantName s, b ≠ 0
  equ : ∀ v, s.kind = .equ (.int v) → 0 ≤ v ∧ v < 2 ^ 63
  elsewhere : s.ext = true ∨ s.common = true → s.kind = .other
  size : ∀ v, s.kind = .other → s.ext = false → s.common = true → s.csize = some (.int v) → 0 ≤ v ∧ v < 2 ^ 63
  ext : s.ext = true → s.common = false

structure ObjOk (o : Obj) : Prop where
  sects : ∀ s ∈ o.sects, SectOk o s
  number : o.sects ≠ [] ∧ o.sects.length ≤ 255
  syms : ∀ s ∈ o.syms, o.listed s = true → SymOk o s
  labels : ∀ s ∈ o.syms, ∀ k off, s.kind = .label k off → k < o.sects.length
  indexes : o.syms.length < 2 ^ 24
  size : (o.sects.map fun s => s.length + s.align).sum < 2 ^ 32

end Verif.Macho
