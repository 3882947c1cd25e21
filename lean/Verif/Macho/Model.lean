import Verif.Coff.Model
/-
Model of the Mach-O object formats `macho32` and `macho64`: modules/objfmts/macho/macho-objfmt.c, lines 416-1267.

As in `Verif.Coff.Model`: names are C strings, lists of bytes without a zero byte; `unsigned long` and file positions are
natural numbers, and where a field of the file is smaller, the bytes written are those of the code; integers of
yasm_intnum are integers; reading and writing files does not fail.  `none` is undefined behaviour: a symbol without data is
dereferenced.  The contents of a section are given as they are after its bytecodes have been written (libyasm/bytecode.c,
see `Verif.Bytecode`), with the relocations `outputValue` has made.
-/
namespace Verif.Macho
open Verif.Elf (Byte Name le Num Chunk)
open Verif.Coff (strncpy getUint alignBits)

/-- What a symbol stands for: a label in a section, at an offset from its start (yasm_bc_next_offset of the bytecode
    before it); an EQU; or anything else. -/
inductive Kind where
  | label (sect : Nat) (offset : Nat)
  | equ (v : Num)
  | other
  deriving DecidableEq, Repr

/-- A symbol: libyasm/symrec.c `yasm_symrec`, the visibility as three flags; `tabled` if it is in the symbol table (`$` and `$$`
    are not, modules/parsers/nasm/nasm-parse.c:1470-1489); `ofSect` if it is the one made for a section
    (macho-objfmt.c:1296-1298); `priv` if it is declared with `private_extern` (macho-objfmt.c:929-953); the size of a common
    variable. -/
structure Sym where
  name : Name
  ext : Bool
  common : Bool
  glob : Bool
  tabled : Bool
  ofSect : Bool
  kind : Kind
  priv : Bool
  csize : Option Num
  deriving DecidableEq, Repr

/-- macho-objfmt.c:240-264 `macho_reloc`; the symbol by its number. -/
structure Reloc where
  sym : Nat
  addr : Nat
  pcrel : Bool
  length : Nat
  ext : Bool
  type : Nat
  deriving DecidableEq, Repr

/-- A section with its `macho_section_data` (macho-objfmt.c:266-277) before the output; `length` is the offset of its end. -/
structure Sect where
  seg : Name
  name : Name
  flags : Nat
  align : Nat
  length : Nat
  chunks : List Chunk
  relocs : List Reloc
  deriving DecidableEq, Repr

/-- The object; `wide` for `macho64`; the versions are those of macho-objfmt.c:366-376 or of a directive. -/
structure Obj where
  wide : Bool
  minos : Nat
  sdk : Nat
  pre : Name
  suf : Name
  allSyms : Bool
  syms : List Sym
  sects : List Sect
  deriving DecidableEq, Repr

/-! ### Counting the symbols -/

/-- `info.all_syms` (macho-objfmt.c:1098). -/
def Obj.all (o : Obj) : Bool := o.allSyms || o.wide

/-- macho-objfmt.c:812-814: is the symbol put into the table?  `yasm_symtab_traverse` meets only those in the symbol table;
    `macho_objfmt_is_section_label` (macho-objfmt.c:712-738) those of sections. -/
def Obj.puts (o : Obj) (s : Sym) : Bool := s.tabled && (o.all || s.glob || s.common || s.ext) && !s.ofSect

/-- yasm_symrec_get_global_name, libyasm/symrec.c:495-507. -/
def Obj.globalName (o : Obj) (s : Sym) : Name :=
  if s.glob || s.common || s.ext then o.pre ++ s.name ++ o.suf else s.name

/-- macho-objfmt.c:804-835 `macho_objfmt_count_sym`, over the table: the indexes from `i` on, and the number of symbols.
    `none` is a symbol without data. -/
def countSyms (o : Obj) : Nat → List Sym → List (Option Nat) × Nat
  | i, [] => ([], i)
  | i, s :: ss =>
    if o.puts s then
      let r := countSyms o (i + 1) ss
      (some i :: r.1, r.2)
    else
      let r := countSyms o i ss
      (none :: r.1, r.2)

/-- `symtab_count`. -/
def Obj.nsyms (o : Obj) : Nat := (countSyms o 0 o.syms).2

/-- `info.strlength` (macho-objfmt.c:1097, 829). -/
def Obj.strLength (o : Obj) : Nat := 1 + ((o.syms.filter o.puts).map fun s => (o.globalName s).length + 1).sum

/-! ### Places of the sections -/

/-- `!(msd->flags & S_ZEROFILL)` is the condition for a section to be written (macho-objfmt.c:646, 1012): it looks at the lowest
    bit of the type. -/
def Sect.written (s : Sect) : Bool := decide (s.flags % 2 = 0)

/-- `(msd->flags & SECTION_TYPE) == S_ZEROFILL` (macho-objfmt.c:768). -/
def Sect.zerofill (s : Sect) : Bool := decide (s.flags % 256 = 1)

/-- `headsize` (macho-objfmt.c:1071-1086). -/
def Obj.headSize (o : Obj) : Nat := (if o.wide then 104 + 80 * o.sects.length else 84 + 68 * o.sects.length) + 48

/-- `msd->vmoff` and `msd->offset`. -/
structure Head where
  vmoff : Nat
  offset : Nat
  deriving DecidableEq, Repr

/-- `align - delta` (macho-objfmt.c:1023-1030). -/
def padding (align vmoff : Nat) : Nat := if align ≠ 0 ∧ vmoff % align > 0 then align - vmoff % align else 0

/-- macho-objfmt.c:999-1033 `macho_objfmt_calc_sectsize`, over the sections, from `info.vmsize` and `info.offset` on. -/
def calcSects : List Sect → Nat → Nat → List Head × Nat × Nat
  | [], vm, off => ([], vm, off)
  | s :: ss, vm, off =>
    let r := calcSects ss (vm + s.length + padding s.align vm) (if s.written then off + s.length else off)
    (⟨vm + padding s.align vm, if s.written then off else 0⟩ :: r.1, r.2)

/-- All the sections (macho-objfmt.c:1113-1116). -/
def Obj.heads (o : Obj) : List Head := (calcSects o.sects 0 o.headSize).1

/-- `msd->vmoff` of a section. -/
def Obj.addr (o : Obj) (k : Nat) : Nat := match o.heads[k]? with | some h => h.vmoff | none => 0

/-- macho-objfmt.c:635-654 `macho_objfmt_output_section`: what is written for a section. -/
def Sect.data (s : Sect) : List Byte := if s.written then s.chunks.flatMap Chunk.write else []

/-- The relocations of a section: values are output only if it is written. -/
def Sect.outRelocs (s : Sect) : List Reloc := if s.written then s.relocs else []

/-- All the contents (macho-objfmt.c:1119). -/
def Obj.data (o : Obj) : List Byte := o.sects.flatMap Sect.data

/-- `align32` (macho-objfmt.c:216-220). -/
def align4 (x : Nat) : Nat := (x + 3) / 4 * 4

/-- `info.rel_base` (macho-objfmt.c:1121, 1221). -/
def Obj.relBase (o : Obj) : Nat := align4 (o.headSize + o.data.length)

/-! ### Headers -/

/-- `|=` of one bit. -/
def orBit (b f : Nat) : Nat := if f / 2 ^ b % 2 = 1 then f else f + 2 ^ b

/-- `msd->extreloc` (macho-objfmt.c:542-544). -/
def Obj.extReloc (o : Obj) (s : Sect) : Bool :=
  s.outRelocs.any fun r => match o.syms[r.sym]? with | some x => x.ext || x.common | none => false

/-- The flags of a section (macho-objfmt.c:771-774). -/
def Obj.headFlags (o : Obj) (s : Sect) : Nat :=
  if s.zerofill = false ∧ s.outRelocs.length ≠ 0 then
    if o.extReloc s then orBit 9 (orBit 8 s.flags) else orBit 8 s.flags
  else s.flags

/-- Four bytes, and in 64-bit files four zeros. -/
def Obj.word (o : Obj) (v : Nat) : List Byte := le 4 v ++ if o.wide then le 4 0 else []

/-- macho-objfmt.c:740-801 `macho_objfmt_output_secthead`; `exp2_to_bits` (macho-objfmt.c:698-710) is one less than the number of
    halvings.  In 64-bit files the last four bytes are what the buffer has from the segment command, which is zero there. -/
def headBytes (o : Obj) (s : Sect) (h : Head) (reloff : Nat) : List Byte :=
  strncpy 16 s.name ++ strncpy 16 s.seg ++ o.word h.vmoff ++ o.word s.length ++
    (if s.zerofill then le 4 0 ++ le 4 0 ++ le 4 0 ++ le 4 0
      else le 4 h.offset ++ le 4 (alignBits 64 s.align - 1) ++
        (if s.outRelocs.length ≠ 0 then le 4 (align4 (o.relBase + reloff)) ++ le 4 s.outRelocs.length else le 4 0 ++ le 4 0)) ++
    le 4 (o.headFlags s) ++ le 4 0 ++ le 4 0 ++ (if o.wide then le 4 0 else [])

/-- All the headers, from `info.s_reloff` on (macho-objfmt.c:1219-1223). -/
def headsBytes (o : Obj) : List Sect → List Head → Nat → List Byte
  | s :: ss, h :: hs, reloff => headBytes o s h reloff ++ headsBytes o ss hs (reloff + s.outRelocs.length * 8)
  | _, _, _ => []

/-- `info.s_reloff` after all sections. -/
def Obj.relSize (o : Obj) : Nat := (o.sects.map fun s => s.outRelocs.length * 8).sum

/-- `head_ncmds` and `head_sizeofcmds` (macho-objfmt.c:1146-1156). -/
def Obj.ncmds (o : Obj) : Nat := 1 + (if o.sects.length > 0 then 1 else 0) + (if o.nsyms > 0 then 1 else 0)
def Obj.sizeCmds (o : Obj) : Nat :=
  24 + (if o.sects.length > 0 then (if o.wide then 72 + 80 * o.sects.length else 56 + 68 * o.sects.length) else 0) +
    (if o.nsyms > 0 then 24 else 0)

/-- A number as wide as an address (`long_int_bytes`). -/
def Obj.long (o : Obj) (v : Nat) : List Byte := le (if o.wide then 8 else 4) v

/-- macho-objfmt.c:1130-1167: the file header. -/
def fileHeader (o : Obj) : List Byte :=
  le 4 (if o.wide then 0xfeedfacf else 0xfeedface) ++ le 4 (if o.wide then 0x1000007 else 7) ++ le 4 3 ++ le 4 1 ++
    le 4 o.ncmds ++ le 4 o.sizeCmds ++ le 4 0 ++ (if o.wide then le 4 0 else [])

/-- macho-objfmt.c:1170-1175: the version command. -/
def versionCmd (o : Obj) : List Byte :=
  le 4 0x32 ++ le 4 24 ++ le 4 1 ++ le 4 o.minos ++ le 4 o.sdk ++ le 4 0

/-- macho-objfmt.c:1178-1213: the segment command. -/
def segmentCmd (o : Obj) : List Byte :=
  let c := calcSects o.sects 0 o.headSize
  le 4 (if o.wide then 0x19 else 1) ++
    le 4 (if o.wide then 72 + 80 * o.sects.length else 56 + 68 * o.sects.length) ++ le 4 0 ++ le 4 0 ++ le 4 0 ++ le 4 0 ++
    o.long 0 ++ o.long c.2.1 ++ o.long ((if o.wide then 32 else 28) + o.sizeCmds) ++ o.long (c.2.2 - o.headSize) ++
    le 4 7 ++ le 4 7 ++ le 4 o.sects.length ++ le 4 0

/-- macho-objfmt.c:1225-1237: the symbol table command. -/
def symtabCmd (o : Obj) : List Byte :=
  le 4 2 ++ le 4 24 ++ le 4 (o.relBase + o.relSize) ++ le 4 o.nsyms ++
    le 4 ((if o.wide then 16 else 12) * o.nsyms + o.relBase + o.relSize) ++ le 4 o.strLength

/-! ### Relocations -/

/-- `symnum` (macho-objfmt.c:673-684). -/
def relocSym (o : Obj) (ix : List (Option Nat)) (r : Reloc) : Option Nat :=
  if r.ext then
    match ix[r.sym]? with
    | some (some i) => some i
    | _ => none
  else
    match o.syms[r.sym]? with
    | some x => match x.kind with | .label k _ => some (k + 1) | _ => some 0
    | none => some 0

/-- macho-objfmt.c:664-692: one relocation. -/
def relocBytes (o : Obj) (ix : List (Option Nat)) (r : Reloc) : Option (List Byte) :=
  match relocSym o ix r with
  | some n =>
    some (le 4 r.addr ++ le 4 (n % 2 ^ 24 + (if r.pcrel then 2 ^ 24 else 0) + r.length % 4 * 2 ^ 25 + (if r.ext then 2 ^ 27 else 0) +
      r.type % 16 * 2 ^ 28))
  | none => none

/-- macho-objfmt.c:656-696 `macho_objfmt_output_relocs`, for relocations in order. -/
def relocsBytes (o : Obj) (ix : List (Option Nat)) : List Reloc → Option (List Byte)
  | [] => some []
  | r :: rs =>
    match relocBytes o ix r, relocsBytes o ix rs with
    | some b, some bs => some (b ++ bs)
    | _, _ => none

/-! ### Symbols -/

/-- macho-objfmt.c:865-953: the value, the type, the section (0 for none) and the errors. -/
def valueOf (o : Obj) (s : Sym) : Nat × Nat × Nat × Nat :=
  let d : Nat × Nat × Nat × Nat := match s.kind with
    | .label k off => (off + o.addr k, 0xe, k + 1, 0)
    | .equ (.int v) => (getUint v, 2, 0, 0)
    | .equ .other => (0, 2, 0, if s.glob then 1 else 0)
    | .other => (0, 0, 0, 0)
  if s.ext then (d.1, 1, 0, d.2.2.2)
  else if s.common then
    match s.csize with
    | some (.int v) => (getUint v, 1, d.2.2.1, d.2.2.2)
    | some .other => (d.1, 1, d.2.2.1, d.2.2.2 + 1)
    | none => (d.1, 1, d.2.2.1, d.2.2.2)
  else if s.glob then (d.1, d.2.1 + 1 + (if s.priv then 16 else 0), d.2.2.1, d.2.2.2)
  else d

/-- macho-objfmt.c:838-974 `macho_objfmt_output_symtable`, for a symbol that is put into the table; `str` is the offset of its
    name. -/
def symBytes (o : Obj) (s : Sym) (str : Nat) : List Byte :=
  le 4 str ++ le 1 (valueOf o s).2.1 ++ le 1 (valueOf o s).2.2.1 ++ le 2 0 ++ o.long (valueOf o s).1

/-- All of them (macho-objfmt.c:1257-1259). -/
def symsBytes (o : Obj) : List Sym → Nat → List Byte
  | [], _ => []
  | s :: ss, str => if o.puts s then symBytes o s str ++ symsBytes o ss (str + ((o.globalName s).length + 1)) else symsBytes o ss str

/-- macho-objfmt.c:977-997 `macho_objfmt_output_str`. -/
def symStrs (o : Obj) : List Sym → List Byte
  | [] => []
  | s :: ss => (if o.puts s then o.globalName s ++ [0] else []) ++ symStrs o ss

/-- The number of errors recorded. -/
def Obj.errors (o : Obj) : Nat := ((o.syms.filter o.puts).map fun s => (valueOf o s).2.2.2).sum

/-! ### The file -/

/-- What is at the start of the file (macho-objfmt.c:1123-1237). -/
def Obj.front (o : Obj) : List Byte :=
  fileHeader o ++ versionCmd o ++ segmentCmd o ++ headsBytes o o.sects o.heads 0 ++ symtabCmd o

/-- The file and the number of errors recorded. -/
structure Result where
  file : List Byte
  errors : Nat
  deriving DecidableEq, Repr

/-- macho-objfmt.c:1036-1267 `macho_objfmt_output`: the contents are written at `headsize`, then the start of the file, then the
    rest. -/
def output (o : Obj) : Option Result :=
  match relocsBytes o (countSyms o 0 o.syms).1 (o.sects.flatMap Sect.outRelocs) with
  | none => none
  | some rs =>
    let body := List.replicate o.headSize 0 ++ o.data
    let front := o.front ++ body.drop o.front.length
    some ⟨front ++ List.replicate (o.relBase - body.length) 0 ++ rs ++ symsBytes o o.syms 1 ++ [0] ++ symStrs o o.syms, o.errors⟩

/-! ### Values -/

/-- libyasm/coretype.h `yasm_value` as far as macho-objfmt.c:416-587 looks at it, after yasm_value_output_basic has declined it.
    What is after WRT: `..gotpcrel` of `macho64`, or something else. -/
structure Val where
  rel : Option Nat
  wrt : Option Bool
  segOf : Bool
  sectionRel : Bool
  rshift : Nat
  curposRel : Bool
  jumpTarget : Bool
  size : Nat
  abs : Option Num
  deriving DecidableEq, Repr

/-- Where a value is: the offset of its bytecode in the section, of the value in the bytecode, the bytes it has; `load` if there are
    two bytes before it in the bytecode and the first of these is 8Bh. -/
structure Loc where
  bc : Nat
  offset : Nat
  bytes : Nat
  load : Bool
  deriving DecidableEq, Repr

/-- What `macho_objfmt_output_value` does: an error, or a number written into the field, and a relocation. -/
inductive Out where
  | error
  | ok (stored : Int) (reloc : Option Reloc)
  deriving DecidableEq, Repr

/-- macho-objfmt.c:461-478: `reloc->length`. -/
def sizeCode : Nat → Option Nat
  | 64 => some 3
  | 32 => some 2
  | 16 => some 1
  | 8 => some 0
  | _ => none

/-- macho-objfmt.c:498-537: the type. -/
def relocType (o : Obj) (v : Val) (l : Loc) : Option Nat :=
  if v.curposRel ∧ v.wrt = some true ∧ o.wide then some (if l.load then 3 else 4)
  else if v.wrt.isSome then none
  else if v.curposRel then some (if o.wide then (if v.jumpTarget then 2 else 1) else 0)
  else if o.wide ∧ v.size = 32 then none
  else some 0

/-- macho-objfmt.c:510-520, 545-557, 563-568: `intn_plus - intn_minus`. -/
def offsetOf (o : Obj) (v : Val) (l : Loc) (x : Sym) : Int :=
  (if v.curposRel then if o.wide then (l.offset : Int) + l.bytes else -(l.bc : Int) else 0) +
    if x.ext || x.common || o.wide then 0
    else match x.kind with
      | .label k off => (o.addr k : Int) + off
      | _ => 0

/-- macho-objfmt.c:570-580: adding the absolute part. -/
def addAbs (i : Int) : Option Num → Option Int
  | none => some i
  | some (.int a) => some (i + a)
  | some .other => none

/-- macho-objfmt.c:416-587 `macho_objfmt_output_value`, after yasm_value_output_basic has declined.  A relocation made before an
    error in the absolute part stays in the section, but then no file is kept. -/
def outputValue (o : Obj) (v : Val) (l : Loc) : Out :=
  if v.sectionRel then .error
  else
    match v.rel with
    | none =>
      match addAbs 0 v.abs with
      | none => .error
      | some i => .ok i none
    | some n =>
      match o.syms[n]?, sizeCode v.size with
      | some x, some len =>
        if v.rshift > 0 ∨ v.segOf then .error
        else
          match relocType o v l with
          | none => .error
          | some t =>
            match addAbs (offsetOf o v l x) v.abs with
            | none => .error
            | some i => .ok i (some ⟨n, l.bc + l.offset, v.curposRel, len, o.wide || x.ext || x.common, t⟩)
      | _, _ => .error

end Verif.Macho
