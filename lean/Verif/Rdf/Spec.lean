import Verif.Rdf.Model
import Verif.Elf.Spec
/-
How RDOFF2 files are read, and what a linker does with them, after the description of the format in the documentation of NASM.
-/
namespace Verif.Rdf
open Verif.Elf (Byte Name number Num)

/-! ### Reading -/

/-- The first `n` bytes, and the rest. -/
def bytes (n : Nat) (l : List Byte) : Option (List Byte × List Byte) := if n ≤ l.length then some (l.take n, l.drop n) else none

/-- The number in the first `n` bytes, and the rest. -/
def num (n : Nat) (l : List Byte) : Option (Nat × List Byte) := (bytes n l).map fun p => (number p.1, p.2)

/-- A string that fills all of it. -/
def string (l : List Byte) : Option Name := if l.getLast? = some 0 ∧ 0 ∉ l.dropLast then some l.dropLast else none

/-- The records of a header.  A relocation, of an address or of a segment: the number of the segment that has the field, whether it is relative to the
    start of it, the offset of the field, its size and the number of the segment or symbol it is for. -/
inductive Record where
  | reloc (segment : Bool) (sect : Nat) (relative : Bool) (addr size ref : Nat)
  | imported (far : Bool) (flags seg : Nat) (name : Name)
  | exported (flags sect offset : Nat) (name : Name)
  | library (name : Name)
  | bss (size : Nat)
  | module_ (name : Name)
  | common (seg size align : Nat) (name : Name)
  deriving DecidableEq, Repr

/-- A record of a type, with its contents. -/
def record (type : Nat) (l : List Byte) : Option Record :=
  if type = 1 ∨ type = 6 then do
    let (s, l) ← num 1 l
    let (addr, l) ← num 4 l
    let (size, l) ← num 1 l
    let (ref, l) ← num 2 l
    guard (l = [])
    some (.reloc (decide (type = 6)) (s % 64) (decide (s / 64 % 2 = 1)) addr size ref)
  else if type = 2 ∨ type = 7 then do
    let (flags, l) ← num 1 l
    let (seg, l) ← num 2 l
    let name ← string l
    some (.imported (decide (type = 7)) flags seg name)
  else if type = 3 then do
    let (flags, l) ← num 1 l
    let (sect, l) ← num 1 l
    let (off, l) ← num 4 l
    let name ← string l
    some (.exported flags sect off name)
  else if type = 4 then (string l).map .library
  else if type = 5 then do
    let (size, l) ← num 4 l
    guard (l = [])
    some (.bss size)
  else if type = 8 then (string l).map .module_
  else if type = 10 then do
    let (seg, l) ← num 2 l
    let (size, l) ← num 4 l
    let (align, l) ← num 2 l
    let name ← string l
    some (.common seg size align name)
  else none

/-- All records of a header, at most as many as the first argument says. -/
def records : Nat → List Byte → Option (List Record)
  | _, [] => some []
  | 0, _ :: _ => none
  | fuel + 1, l => do
    let (type, l) ← num 1 l
    let (len, l) ← num 1 l
    let (body, l) ← bytes len l
    let r ← record type body
    let rs ← records fuel l
    some (r :: rs)

/-- A segment. -/
structure Segment where
  type : Nat
  number : Nat
  reserved : Nat
  contents : List Byte
  deriving DecidableEq, Repr

/-- The segments, up to one of type 0. -/
def segments : Nat → List Byte → Option (List Segment)
  | 0, _ => none
  | fuel + 1, l => do
    let (type, l) ← num 2 l
    let (n, l) ← num 2 l
    let (reserved, l) ← num 2 l
    let (len, l) ← num 4 l
    if type = 0 then
      guard (n = 0 ∧ reserved = 0 ∧ len = 0 ∧ l = [])
      some []
    else
      let (contents, l) ← bytes len l
      let ss ← segments fuel l
      some (⟨type, n, reserved, contents⟩ :: ss)

/-- A file: `RDOFF2`, the length of what follows, the length of the header, the header and the segments. -/
def read (f : List Byte) : Option (List Record × List Segment) := do
  let (m, l) ← bytes 6 f
  guard (m = [0x52, 0x44, 0x4f, 0x46, 0x46, 0x32])
  let (size, l) ← num 4 l
  guard (size = l.length)
  let (hlen, l) ← num 4 l
  let (header, l) ← bytes hlen l
  let rs ← records header.length header
  let ss ← segments l.length l
  some (rs, ss)

/-! ### What is to be found -/

/-- A symbol of another file, or a common variable: it gets a number of its own. -/
def Sym.imported (s : Sym) : Bool := s.tabled && !s.glob && (s.common || s.ext) && decide (s.kind ≠ .equ)

/-- The numbers are those after the sections, in order. -/
def Obj.index (o : Obj) (n : Nat) : Nat := o.sects.length + ((o.syms.take n).filter Sym.imported).length

/-- Whether, of `far` and `near`, the last is `far`. -/
def lastFar : List Word → Bool
  | [] => false
  | w :: ws => if .far ∈ ws ∨ .near ∈ ws then lastFar ws else decide (w = .far)

/-- The flags of an exported symbol: 1 for data, 2 for a function, 4 for `export`. -/
def Sym.exportFlags (s : Sym) : Nat :=
  (if .data ∈ s.words then 1 else 0) + (if .proc ∈ s.words then 2 else 0) + (if .exp ∈ s.words then 4 else 0)

/-- The flags of an imported symbol: 1 for data, 2 for a function, 8 for `import`. -/
def Sym.importFlags (s : Sym) : Nat :=
  (if .data ∈ s.words then 1 else 0) + (if .proc ∈ s.words then 2 else 0) + (if .imp ∈ s.words then 8 else 0)

/-- The name outside. -/
def Obj.outer (o : Obj) (s : Sym) : Name := o.pre ++ s.name ++ o.suf

/-- The record for a symbol with a number. -/
def Obj.wantSym (o : Obj) (n : Nat) (s : Sym) : Option Record :=
  if s.tabled = false then none
  else if s.glob then
    match s.kind with
    | .label k off => some (.exported s.exportFlags k off (o.outer s))
    | _ => none
  else if s.imported then
    if s.common then
      match s.csize with
      | .int v => some (.common (o.index n) v.toNat s.calign (o.outer s))
      | .other => none
    else some (.imported (lastFar s.words) s.importFlags (o.index n) (o.outer s))
  else none

/-- The record for a relocation of section `j`. -/
def wantReloc (j : Nat) (r : Reloc) : Record := .reloc (decide (r.type = .seg)) j (decide (r.type = .rel)) r.addr r.size r.refseg

/-- Whether a section is to be in the file. -/
def Sect.kept (s : Sect) : Bool := decide (s.type ≠ 0 ∧ s.length ≠ 0)

def Obj.wantSyms (o : Obj) : List Record := o.syms.zipIdx.filterMap fun p => o.wantSym p.2 p.1

def Obj.wantRelocs (o : Obj) : List Record := o.sects.zipIdx.flatMap fun p => if p.1.kept then p.1.relocs.map (wantReloc p.2) else []

def Obj.wantRecords (o : Obj) : List Record :=
  o.modules.map .module_ ++ (o.libraries.map .library ++ (o.wantSyms ++ (o.wantRelocs ++
    if ((o.sects.filter fun s => s.type = 0).map (·.length)).sum = 0 then [] else [.bss ((o.sects.filter fun s => s.type = 0).map (·.length)).sum])))

def Obj.wantSegments (o : Obj) : List Segment :=
  o.sects.zipIdx.filterMap fun p => if p.1.kept then some ⟨p.1.type, p.2, p.1.reserved, p.1.chunks.flatMap Elf.Chunk.write⟩ else none

/-! ### What is asked of an object -/

structure SectOk (s : Sect) : Prop where
  type : s.type < 8
  reserved : s.reserved < 2 ^ 16
  length : s.kept = true → (s.chunks.flatMap Elf.Chunk.write).length = s.length
  reloc : ∀ r ∈ s.relocs, r.addr < 2 ^ 32 ∧ r.size < 256 ∧ r.refseg < 2 ^ 16

/-- Symbols are not declared twice in different ways, and exported ones are labels. -/
structure SymOk (o : Obj) (s : Sym) : Prop where
  name : ∀ b ∈ o.outer s, b ≠ 0
  length : (o.outer s).length ≤ 63
  glob : s.glob = true → s.ext = false ∧ s.common = false ∧ ∃ k off, s.kind = .label k off
  ext : s.ext = true → s.common = false
  other : s.ext = true ∨ s.common = true → s.kind = .other
  label : ∀ k off, s.kind = .label k off → k < o.sects.length ∧ off < 2 ^ 32
  common : s.common = true → ∃ v : Int, s.csize = .int v ∧ 0 ≤ v ∧ v < 2 ^ 32 ∧ s.calign < 2 ^ 16 ∧ ∃ e, s.calign = 2 ^ e ∨ s.calign = 0

/-- What the front ends make of an object, and the numbers the format has room for. -/
structure ObjOk (o : Obj) : Prop where
  names : ∀ n ∈ o.modules ++ o.libraries, n.length ≤ 127 ∧ ∀ b ∈ n, b ≠ 0
  sects : ∀ s ∈ o.sects, SectOk s
  number : o.sects.length ≤ 64
  bss : ((o.sects.filter fun s => s.type = 0).map (·.length)).sum < 2 ^ 32
  syms : ∀ s ∈ o.syms, s.tabled = true → SymOk o s
  indexes : o.index o.syms.length ≤ 2 ^ 16

/-! ### Links -/

/-- What a linker has decided: the addresses of the segments of this file and of symbols elsewhere, and their selectors. -/
structure Linker where
  addr : Nat → Int
  ext : Name → Int
  selector : Nat → Int
  selExt : Name → Int

/-- The symbol with a number, if a record is for it. -/
def Record.named (ref : Nat) : Record → Option Name
  | .imported _ _ seg name => if seg = ref then some name else none
  | .common seg _ _ name => if seg = ref then some name else none
  | _ => none

/-- What is put into a field that has `field` in it. -/
def Linker.result (k : Linker) (rs : List Record) (q : Record) (field : Int) : Option Int :=
  match q with
  | .reloc segment sect relative _ _ ref =>
    let a := match rs.findSome? (Record.named ref) with
      | some name => if segment then k.selExt name else k.ext name
      | none => if segment then k.selector ref else k.addr ref
    some (a + field - if relative then k.addr sect else 0)
  | _ => none

/-- The address of a symbol of the object, and its segment. -/
def Obj.address (o : Obj) (k : Linker) (x : Sym) : Int := match x.kind with | .label i off => k.addr i + off | _ => k.ext (o.outer x)
def Obj.selector (o : Obj) (k : Linker) (x : Sym) : Int := match x.kind with | .label i _ => k.selector i | _ => k.selExt (o.outer x)

/-- The number in a value. -/
def Val.plus (v : Val) : Int := match v.abs with | some (.int a) => a | _ => 0

/-- What a value asks for that refers to `x`, in the bytecode at `bc` of section `j`. -/
def Obj.asked (o : Obj) (k : Linker) (v : Val) (x : Sym) (j bc : Nat) : Int :=
  (if v.segOf then o.selector k x else o.address k x) / 2 ^ v.rshift + v.plus - if v.curposRel then k.addr j + bc else 0

end Verif.Rdf
