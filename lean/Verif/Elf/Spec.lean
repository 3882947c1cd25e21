import Verif.Elf.Model
/-
Specification for the ELF files: how a reader that follows the System V ABI finds the sections, symbols and
relocations in a file.  Nothing here mentions how the file was made, except for the last part, which says what is to
be found for a given object.
-/
namespace Verif.Elf

/-! ### Reading bytes -/

/-- A number stored with its lowest byte first. -/
def number : List Byte → Nat
  | [] => 0
  | b :: bs => b.toNat + 256 * number bs

/-- `n` bytes at a position, if the file has them. -/
def slice (f : List Byte) (pos n : Nat) : Option (List Byte) :=
  if pos + n ≤ f.length then some ((f.drop pos).take n) else none

/-- The number in `n` bytes at a position. -/
def field (f : List Byte) (pos n : Nat) : Option Nat := (slice f pos n).map number

/-- The string that starts at a position and ends before a zero byte. -/
def string (f : List Byte) (pos : Nat) : Option Name :=
  if (0 : Byte) ∈ f.drop pos then some ((f.drop pos).takeWhile (· ≠ 0)) else none

/-! ### Headers -/

/-- The header of a file, as far as a reader of relocatable files needs it. -/
structure Ehdr where
  wide : Bool
  machine : Nat
  shoff : Nat
  shentsize : Nat
  shnum : Nat
  shstrndx : Nat
  deriving DecidableEq, Repr

/-- Bytes in an address. -/
def width (wide : Bool) : Nat := if wide then 8 else 4

/-- A little-endian relocatable file for the current version: its header. -/
def ehdr (f : List Byte) : Option Ehdr := do
  guard (f.take 4 = [0x7f#8, 0x45#8, 0x4c#8, 0x46#8])
  let cls ← field f 4 1
  guard (cls = 1 ∨ cls = 2)
  let data ← field f 5 1
  guard (data = 1)
  let version ← field f 6 1
  guard (version = 1)
  let w := width (cls = 2)
  let type ← field f 16 2
  guard (type = 1)
  let machine ← field f 18 2
  let shoff ← field f (24 + 2 * w) w
  let shentsize ← field f (34 + 3 * w) 2
  let shnum ← field f (36 + 3 * w) 2
  let shstrndx ← field f (38 + 3 * w) 2
  some ⟨cls = 2, machine, shoff, shentsize, shnum, shstrndx⟩

/-- The header of a section. -/
structure Shdr where
  name : Nat
  type : Nat
  flags : Nat
  addr : Nat
  offset : Nat
  size : Nat
  link : Nat
  info : Nat
  align : Nat
  entsize : Nat
  deriving DecidableEq, Repr

/-- The header of a section, at a position. -/
def shdr (wide : Bool) (f : List Byte) (pos : Nat) : Option Shdr := do
  let w := width wide
  let name ← field f pos 4
  let type ← field f (pos + 4) 4
  let flags ← field f (pos + 8) w
  let addr ← field f (pos + 8 + w) w
  let offset ← field f (pos + 8 + 2 * w) w
  let size ← field f (pos + 8 + 3 * w) w
  let link ← field f (pos + 8 + 4 * w) 4
  let info ← field f (pos + 12 + 4 * w) 4
  let align ← field f (pos + 16 + 4 * w) w
  let entsize ← field f (pos + 16 + 5 * w) w
  some ⟨name, type, flags, addr, offset, size, link, info, align, entsize⟩

/-! ### Sections -/

/-- A section as a reader sees it.  `bytes` is empty for a section without contents in the file. -/
structure Section where
  name : Name
  type : Nat
  flags : Nat
  size : Nat
  link : Nat
  info : Nat
  align : Nat
  entsize : Nat
  bytes : List Byte
  deriving DecidableEq, Repr

/-- The bytes of a section in the file; SHT_NULL and SHT_NOBITS have none. -/
def bytesOf (f : List Byte) (h : Shdr) : Option (List Byte) :=
  if h.type = 0 ∨ h.type = 8 then some [] else slice f h.offset h.size

/-- The header of the section with a given index. -/
def headerAt (f : List Byte) (i : Nat) : Option Shdr := do
  let h ← ehdr f
  guard (i < h.shnum)
  shdr h.wide f (h.shoff + i * h.shentsize)

/-- The section with a given index; its name is in the section e_shstrndx. -/
def sectionAt (f : List Byte) (i : Nat) : Option Section := do
  let h ← ehdr f
  let s ← headerAt f i
  let t ← headerAt f h.shstrndx
  let names ← bytesOf f t
  let name ← string names s.name
  let bytes ← bytesOf f s
  some ⟨name, s.type, s.flags, s.size, s.link, s.info, s.align, s.entsize, bytes⟩

/-! ### Symbols and relocations -/

/-- A symbol as a reader sees it. -/
structure Symbol where
  name : Name
  value : Nat
  size : Nat
  bind : Nat
  type : Nat
  vis : Nat
  shndx : Nat
  deriving DecidableEq, Repr

/-- The symbol with a given index in the bytes of a symbol table and of its string table. -/
def symbolAt (wide : Bool) (tab strs : List Byte) (i : Nat) : Option Symbol := do
  let p := i * (if wide then 24 else 16)
  let name ← field tab p 4
  let name ← string strs name
  let info ← field tab (p + if wide then 4 else 12) 1
  let other ← field tab (p + if wide then 5 else 13) 1
  let shndx ← field tab (p + if wide then 6 else 14) 2
  let value ← field tab (p + if wide then 8 else 4) (width wide)
  let size ← field tab (p + if wide then 16 else 8) (width wide)
  some ⟨name, value, size, info / 16, info % 16, other % 4, shndx⟩

/-- A relocation as a reader sees it; those of SHT_REL have no addend. -/
structure Rel where
  offset : Nat
  sym : Nat
  type : Nat
  addend : Option Nat
  deriving DecidableEq, Repr

/-- The relocation with a given index in the bytes of a section of relocations. -/
def relAt (wide rela : Bool) (tab : List Byte) (i : Nat) : Option Rel := do
  let w := width wide
  let p := i * (2 * w + if rela then w else 0)
  let offset ← field tab p w
  let info ← field tab (p + w) w
  let addend ← if rela then (field tab (p + 2 * w) w).map some else some none
  some ⟨offset, if wide then info / 2 ^ 32 else info / 256, if wide then info % 2 ^ 32 else info % 256, addend⟩

/-! ### What is to be found for an object -/

/-- A section without contents in the file (SHT_NOBITS). -/
def Sect.nobits (s : Sect) : Bool := s.type &&& 8 == 8
/-- The contents of a section: its bytes, with zeros for space that is only reserved. -/
def Sect.content (s : Sect) : List Byte :=
  s.chunks.flatMap fun c => match c with | .bytes l => l | .gap n => List.replicate n 0
/-- The relocations of a section: a section without contents has none. -/
def Sect.rels (s : Sect) : List Reloc := if s.nobits then [] else s.relocs

/-- The number of headers for the sections before a place: one for each, and one for the relocations, if any. -/
def before (ss : List Sect) (k : Nat) : Nat := k + ((ss.take k).filter fun s => decide (s.rels ≠ [])).length

/-- The index of a section of the object: after the first four. -/
def Obj.sectIndex (o : Obj) (k : Nat) : Nat := 4 + before o.sects k

/-- The section to be read. -/
def Sect.want (s : Sect) : Section :=
  ⟨s.name, s.type, s.flags, if s.nobits then s.length else s.content.length, s.link, 0, s.align, s.entsize,
    if s.nobits then [] else s.content⟩

/-- The symbol a directive is about. -/
def Dir.sym : Dir → Nat
  | .type n _ => n
  | .size n _ => n
  | .weak n => n

/-- Is the symbol declared weak? -/
def Obj.weak (o : Obj) (n : Nat) : Bool := o.dirs.any fun d => decide (d = .weak n)
/-- Has the symbol a directive? -/
def Obj.touched (o : Obj) (n : Nat) : Bool := o.dirs.any fun d => decide (d.sym = n)
/-- The type a directive gives to a symbol. -/
def Dir.typeFor (n : Nat) : Dir → Option Nat
  | .type m t => if m = n then t else none
  | _ => none
/-- The size a directive gives to a symbol. -/
def Dir.sizeFor (n : Nat) : Dir → Option Num
  | .size m x => if m = n then x else none
  | _ => none
/-- The type given by the last `type` directive for the symbol. -/
def Obj.typeOf (o : Obj) (n : Nat) : Nat :=
  ((o.dirs.filterMap (Dir.typeFor n)).getLast?).getD 0
/-- The size given by the last `size` directive for the symbol. -/
def Obj.sizeOf (o : Obj) (n : Nat) : Option Num :=
  (o.dirs.filterMap (Dir.sizeFor n)).getLast?

/-- Is the symbol visible outside of the file? -/
def Sym.declared (s : Sym) : Bool := s.ext || s.common || s.glob

/-- Has the section this name? -/
def Obj.named (o : Obj) (k : Nat) (name : Name) : Bool :=
  match o.sects[k]? with
  | some x => x.name == name
  | none => false

/-- Does the symbol stand for its section?  Such a symbol has the section's name. -/
def Obj.isSection (o : Obj) (s : Sym) : Bool :=
  !s.declared && match s.kind with
    | .label k _ => o.named k s.name
    | _ => false

/-- Is the symbol in the table?  Undefined ones are if they are declared EXTERN, COMMON or weak; EQUs only if they
    are GLOBAL. -/
def Obj.listed (o : Obj) (n : Nat) (s : Sym) : Bool :=
  s.ext || s.common || o.weak n || match s.kind with
    | .label _ _ => true
    | .equ _ a => s.glob || a
    | .other => false

/-- Is the symbol a label in a section with thread-local data (SHF_TLS)? -/
def Obj.inThreads (o : Obj) (s : Sym) : Bool :=
  match s.kind with
  | .label k _ => match o.sects[k]? with | some x => x.flags &&& 0x400 != 0 | none => false
  | _ => false

/-- Is the symbol thread-local: a label in such a section, or used as such by a relocation? -/
def Obj.tls (o : Obj) (n : Nat) (s : Sym) : Bool :=
  o.inThreads s ||
  o.sects.any fun x => x.rels.any fun r => o.machine.tlsReloc r && decide (r.sym = n)

/-- A number as a field as wide as an address has it. -/
def Machine.stored (m : Machine) (v : Int) : Nat := (v % 2 ^ (8 * width m.wide)).toNat

/-- The integer of an expression. -/
def Num.get : Option Num → Int
  | some (.int v) => v
  | _ => 0

/-- The name: with prefix and suffix if it is visible outside; local symbols have one only if all are to be kept or
    if there is a directive for them. -/
def Obj.wantName (o : Obj) (n : Nat) (s : Sym) : Name :=
  if s.declared then o.pre ++ s.name ++ o.suf
  else if o.touched n || (o.allSyms && !o.isSection s) then s.name else []

/-- The value: of an EQU, the offset of a label in its section, or the alignment of a COMMON symbol. -/
def Obj.wantValue (o : Obj) (s : Sym) : Int :=
  match s.kind with
  | .equ v _ => Num.get (some v)
  | .label _ off => if o.isSection s then 0 else off
  | .other => if s.common then s.calign.getD 0 else 0

/-- The size: from the declaration, else from a directive. -/
def Obj.wantSize (o : Obj) (n : Nat) (s : Sym) : Int :=
  Num.get ((if s.common then s.csize else if s.glob then s.gsize else none).or (o.sizeOf n))

/-- STB_WEAK, STB_GLOBAL or STB_LOCAL. -/
def Obj.wantBind (o : Obj) (n : Nat) (s : Sym) : Nat := if o.weak n then 2 else if s.declared then 1 else 0

/-- STT_TLS, STT_SECTION, or the type from the declaration, else from a directive. -/
def Obj.wantType (o : Obj) (n : Nat) (s : Sym) : Nat :=
  if o.tls n s then 6 else if o.isSection s then 3
  else (if s.glob && !s.common && s.gtype != 0 then s.gtype else o.typeOf n) % 16

/-- The visibility of a GLOBAL symbol. -/
def Obj.wantVis (s : Sym) : Nat := if s.glob && !s.common then s.gvis % 4 else 0

/-- The index of the section: SHN_ABS, that of the label's section, SHN_COMMON or SHN_UNDEF. -/
def Obj.wantShndx (o : Obj) (s : Sym) : Nat :=
  match s.kind with
  | .equ _ _ => 0xfff1
  | .label k _ => o.sectIndex k
  | .other => if s.common then 0xfff2 else 0

/-- The symbol to be read. -/
def Obj.wantSym (o : Obj) (n : Nat) (s : Sym) : Symbol :=
  ⟨o.wantName n s, o.machine.stored (o.wantValue s), o.machine.stored (o.wantSize n s), o.wantBind n s, o.wantType n s,
    Obj.wantVis s, o.wantShndx s⟩

/-- The symbol table of a file, with its strings. -/
structure Table where
  strs : List Byte
  tab : List Byte
  count : Nat
  locals : Nat

/-- The file has a symbol table with the symbols of the object, symbol `n` with index `pos n`. -/
structure Obj.Table (o : Obj) (f : List Byte) (t : Elf.Table) (pos : Nat → Nat) : Prop where
  /-- section 2 has the strings -/
  strs : sectionAt f 2 = some ⟨nStrtab, 3, 0, t.strs.length, 0, 0, 0, 0, t.strs⟩
  /-- section 3 has the symbols; it says where the strings are and how many symbols are local -/
  tab : sectionAt f 3 = some ⟨nSymtab, 2, 0, t.count * o.machine.symSize, 2, t.locals, o.machine.symAlign,
    o.machine.symSize, t.tab⟩
  /-- symbol 0 is empty -/
  null : symbolAt o.machine.wide t.tab t.strs 0 = some ⟨[], 0, 0, 0, 0, 0, 0⟩
  /-- symbol 1 has the name of the source file (STT_FILE, SHN_ABS) -/
  file : symbolAt o.machine.wide t.tab t.strs 1 = some ⟨o.src, 0, 0, 0, 4, 0, 0xfff1⟩
  /-- the symbols of the object follow, as they should be -/
  sym : ∀ n s, o.syms[n]? = some s → o.listed n s = true →
    symbolAt o.machine.wide t.tab t.strs (pos n) = some (o.wantSym n s)
  range : ∀ n s, o.syms[n]? = some s → o.listed n s = true → 2 ≤ pos n ∧ pos n < t.count
  /-- each has an index of its own -/
  inj : ∀ n m s u, o.syms[n]? = some s → o.listed n s = true → o.syms[m]? = some u → o.listed m u = true →
    pos n = pos m → n = m
  /-- there are no others -/
  onto : ∀ i, 2 ≤ i → i < t.count → ∃ n s, o.syms[n]? = some s ∧ o.listed n s = true ∧ pos n = i
  /-- the local ones are first -/
  locals : ∀ n s, o.syms[n]? = some s → o.listed n s = true → (pos n < t.locals ↔ o.wantBind n s = 0)
  both : 2 ≤ t.locals ∧ t.locals ≤ t.count

end Verif.Elf
