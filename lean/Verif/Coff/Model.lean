import Verif.Elf.Model
/-
Model of the COFF object formats `coff`, `win32` and `win64`: modules/objfmts/coff/coff-objfmt.c, lines 236-1238.

As in `Verif.Elf.Model`: names are C strings, lists of bytes without a zero byte; `unsigned long` and file positions are
natural numbers, and where a field of the file is smaller, the bytes written are those of the code; integers of
yasm_intnum are integers; `none` is the end of the program, yasm_internal_error; reading and writing files does not fail.
The contents of a section are given as they are after its bytecodes have been written (libyasm/bytecode.c, see
`Verif.Bytecode`), with the relocations `outputValue` has made.  Line numbers, SAFESEH and the time are not modelled.
-/
namespace Verif.Coff
open Verif.Elf (Byte Name le Num Chunk seek)

/-- coff-objfmt.c:268-381: the object formats.  `coff` is made for both machines, `win32` for I386; `win32` for AMD64 is
    `win64`. -/
inductive Format where
  | coff (amd64 : Bool)
  | win32
  | win64
  deriving DecidableEq, Repr

/-- objfmt_coff->win32 (coff-objfmt.c:315, 347, 377). -/
def Format.win : Format → Bool
  | .coff _ => false
  | _ => true

/-- objfmt_coff->machine == COFF_MACHINE_AMD64. -/
def Format.amd64 : Format → Bool
  | .coff b => b
  | .win32 => false
  | .win64 => true

/-- What a symbol stands for: a label in a section, at an offset from its start (yasm_bc_next_offset of the bytecode
    before it); an EQU, and whether it is the absolute symbol (yasm_symrec_is_abs); or anything else. -/
inductive Kind where
  | label (sect : Nat) (offset : Nat)
  | equ (v : Num) (isAbs : Bool)
  | other
  deriving DecidableEq, Repr

/-- coff-objfmt.c:148-152 `coff_symtab_auxtype`.  Symbols have one auxiliary entry or none (coff-objfmt.c:284, 354, 420,
    928, 1692, 1885). -/
inductive Aux where
  | none
  | sect
  | file
  deriving DecidableEq, Repr

/-- coff-objfmt.c:154-163 `coff_symrec_data`, without the index. -/
structure Data where
  forcevis : Bool
  type : Nat
  sclass : Nat
  aux : Aux
  deriving DecidableEq, Repr

/-- A symbol of the symbol table: libyasm/symrec.c `yasm_symrec`, the visibility as four flags; `func` if the first
    qualifier of its declaration is `function`; the size of a common variable. -/
structure Sym where
  name : Name
  ext : Bool
  common : Bool
  glob : Bool
  dlocal : Bool
  kind : Kind
  func : Bool
  csize : Num
  data : Option Data
  deriving DecidableEq, Repr

/-- coff-objfmt.c:46-85 `coff_reloc`; the symbol by its number. -/
structure Reloc where
  sym : Nat
  addr : Nat
  type : Nat
  deriving DecidableEq, Repr

/-- A section with its `coff_section_data` (coff-objfmt.c:108-120) before the output; `length` is the offset of its end. -/
structure Sect where
  name : Name
  flags : Nat
  nobase : Bool
  align : Nat
  length : Nat
  chunks : List Chunk
  relocs : List Reloc
  deriving DecidableEq, Repr

/-- The object; `nullDbg` if no debug format is given; the time is that of YASM_TEST_SUITE. -/
structure Obj where
  format : Format
  src : Name
  pre : Name
  suf : Name
  allSyms : Bool
  nullDbg : Bool
  syms : List Sym
  sects : List Sect
  deriving DecidableEq, Repr

/-- coff-objfmt.c:1161 `all_syms |= objfmt_coff->win64`. -/
def Obj.all (o : Obj) : Bool := o.allSyms || decide (o.format = .win64)

/-- yasm_symrec_get_global_name, libyasm/symrec.c:495-507. -/
def Obj.globalName (o : Obj) (s : Sym) : Name :=
  if s.glob || s.common || s.ext then o.pre ++ s.name ++ o.suf else s.name

/-- yasm_symrec_is_abs, libyasm/symrec.c:585-589. -/
def Sym.isAbs (s : Sym) : Bool := match s.kind with | .equ _ b => b | _ => false

/-- vis != YASM_SYM_LOCAL -/
def Sym.declared (s : Sym) : Bool := s.ext || s.common || s.glob || s.dlocal

/-- sym_data && sym_data->forcevis -/
def Sym.forced (s : Sym) : Bool := match s.data with | some d => d.forcevis | none => false

/-- coff-objfmt.c:924-925 and 968-969: is the symbol put into the table? -/
def Obj.puts (o : Obj) (s : Sym) : Bool := o.all || s.declared || s.isAbs || s.forced

/-- coff-objfmt.c:1105-1106: is its name put into the string table?  (Without the test for the absolute symbol.) -/
def Obj.putsStr (o : Obj) (s : Sym) : Bool := o.all || s.declared || s.forced

/-- coff-objfmt.c:926-936: the data of a symbol that is put into the table. -/
def Sym.dataOf (s : Sym) : Data :=
  let d := match s.data with | some d => d | none => ⟨false, 0, 0, .none⟩
  if d.sclass = 0 then { d with sclass := if s.ext || s.glob || s.common then 2 else 3 } else d

/-- The number of auxiliary entries. -/
def Aux.count : Aux → Nat
  | .none => 0
  | _ => 1

/-- coff-objfmt.c:913-943 `coff_objfmt_count_sym`, over the table: the indexes from `i` on, and the number of entries.
    `none` is a symbol without data; data that was made before, but for a symbol that is not put into the table, has the
    index 0 (coff-objfmt.c:255). -/
def countSyms (o : Obj) : Nat → List Sym → List (Option Nat) × Nat
  | i, [] => ([], i)
  | i, s :: ss =>
    if o.puts s then
      let r := countSyms o (i + (s.dataOf.aux.count + 1)) ss
      (some i :: r.1, r.2)
    else
      let r := countSyms o i ss
      ((if s.data.isSome then some 0 else none) :: r.1, r.2)

/-! ### Sections -/

/-- `coff_section_data` after the section has been written. -/
structure Head where
  strName : Nat
  size : Nat
  scnptr : Nat
  relptr : Nat
  nreloc : Nat
  deriving DecidableEq, Repr

/-- The state of the output: the bytes before the current position, `info.strtab_offset`, and the sections so far. -/
structure W where
  file : List Byte
  str : Nat
  heads : List Head
  deriving DecidableEq, Repr

/-- coff-objfmt.c:814-830: one relocation. -/
def relocBytes (ix : List (Option Nat)) (r : Reloc) : Option (List Byte) :=
  match ix[r.sym]? with
  | some (some i) => some (le 4 r.addr ++ le 4 i ++ le 2 r.type)
  | _ => none

/-- coff-objfmt.c:813-830: the loop over the relocations. -/
def relocsBytes (ix : List (Option Nat)) : List Reloc → Option (List Byte)
  | [] => some []
  | r :: rs =>
    match relocBytes ix r, relocsBytes ix rs with
    | some b, some bs => some (b ++ bs)
    | _, _ => none

/-- coff-objfmt.c:803-810: with 64K relocations or more, a first one has their number (for Win32 and Win64). -/
def overflow (o : Obj) (n : Nat) : List Byte :=
  if 65536 ≤ n ∧ o.format.win = true then le 4 (n + 1) ++ le 4 0 ++ le 2 0 else []

/-- coff-objfmt.c:744-751: the name goes into the string table. -/
def longName (o : Obj) (name : Name) : Bool := o.format.win && decide (8 < name.length)

/-- coff-objfmt.c:87-91, 756: COFF_STYP_STD_MASK and COFF_STYP_BSS. -/
def Sect.bss (s : Sect) : Bool := decide (s.flags % 1024 = 128)

/-- coff-objfmt.c:731-833 `coff_objfmt_output_section`.  In a section that is not written no value is output, so that it has
    no relocations. -/
def outSection (o : Obj) (ix : List (Option Nat)) (s : Sect) (w : W) : Option W :=
  let strName := if longName o s.name then w.str else 0
  let str := if longName o s.name then w.str + (s.name.length + 1) else w.str
  if s.bss then some ⟨w.file, str, w.heads ++ [⟨strName, s.length, 0, 0, 0⟩]⟩
  else
    let bs := s.chunks.flatMap Chunk.write
    if bs.length ≠ s.length then none
    else if bs.length = 0 then some ⟨w.file, str, w.heads ++ [⟨strName, 0, 0, 0, s.relocs.length⟩]⟩
    else if s.relocs.length = 0 then
      some ⟨w.file ++ bs, str, w.heads ++ [⟨strName, bs.length, w.file.length, 0, 0⟩]⟩
    else
      match relocsBytes ix s.relocs with
      | none => none
      | some rs =>
        some ⟨w.file ++ bs ++ overflow o s.relocs.length ++ rs, str,
          w.heads ++ [⟨strName, bs.length, w.file.length, w.file.length + bs.length, s.relocs.length⟩]⟩

/-- yasm_object_sections_traverse (coff-objfmt.c:1186-1188). -/
def outSections (o : Obj) (ix : List (Option Nat)) : List Sect → W → Option W
  | [], w => some w
  | s :: ss, w => match outSection o ix s w with | some w => outSections o ix ss w | none => none

/-- strncpy: the bytes of a string, filled up with zeros. -/
def strncpy (n : Nat) (s : Name) : List Byte := (s ++ List.replicate n 0).take n

/-- `sprintf("%ld")`: the digits, the highest first; 20 are enough. -/
def digits : Nat → Nat → List Byte
  | 0, _ => []
  | fuel + 1, n =>
    if n < 10 then [BitVec.ofNat 8 (48 + n)] else digits fuel (n / 10) ++ [BitVec.ofNat 8 (48 + n % 10)]

/-- coff-objfmt.c:878-884: the name of a section in its header. -/
def sectName (name : Name) (strName : Nat) : List Byte :=
  if 8 < name.length then strncpy 8 (0x2f#8 :: digits 20 strName) else strncpy 8 name

/-- coff-objfmt.c:866-875: the loop that counts the halvings of the alignment. -/
def alignBits : Nat → Nat → Nat
  | 0, _ => 0
  | fuel + 1, a => if a = 0 then 0 else 1 + alignBits fuel (a / 2)

/-- coff-objfmt.c:866-875, 892-895: the flags.  `flags & ~COFF_STYP_ALIGN_MASK` is the sum of the bits below and above; the
    halvings of at most 8192 are at most 14; `flags |= COFF_STYP_NRELOC_OVFL` adds bit 24 if it is not there. -/
def headFlags (o : Obj) (s : Sect) (nreloc : Nat) : Nat :=
  let f := s.flags % 2 ^ 20 + s.flags / 2 ^ 24 * 2 ^ 24 + alignBits 14 (min s.align 8192) * 2 ^ 20
  if 65536 ≤ nreloc ∧ o.format.win = true then (if f / 2 ^ 24 % 2 = 1 then f else f + 2 ^ 24) else f

/-- coff-objfmt.c:853-911 `coff_objfmt_output_secthead`. -/
def headBytes (o : Obj) (s : Sect) (h : Head) : List Byte :=
  sectName s.name h.strName ++ le 4 0 ++ le 4 0 ++ le 4 h.size ++ le 4 h.scnptr ++ le 4 h.relptr ++ le 4 0 ++
    le 2 (if 65536 ≤ h.nreloc then 0xffff else h.nreloc) ++ le 2 0 ++ le 4 (headFlags o s h.nreloc)

/-- The headers of all sections (coff-objfmt.c:1235). -/
def headsBytes (o : Obj) : List Sect → List Head → List Byte
  | s :: ss, h :: hs => headBytes o s h ++ headsBytes o ss hs
  | _, _ => []

/-! ### Symbols -/

/-- yasm_intnum_get_uint (libyasm/intnum.c:724-742): 0 for a negative number; ULONG_MAX for one that is no `long`. -/
def getUint (v : Int) : Nat := if v < 0 then 0 else if v < 2 ^ 63 then v.toNat else 2 ^ 64 - 1

/-- `.absolut` -/
def nAbsolut : Name := [0x2e#8, 0x61#8, 0x62#8, 0x73#8, 0x6f#8, 0x6c#8, 0x75#8, 0x74#8]

/-- coff-objfmt.c:983-986: the name of a symbol. -/
def Obj.symName (o : Obj) (s : Sym) : Name := if s.isAbs then nAbsolut else o.globalName s

/-- coff-objfmt.c:993-1046: the value, the section number, and the errors. -/
def valueOf (s : Sym) : Nat × Nat × Nat :=
  match s.kind with
  | .label k off => (off, k + 1, 0)
  | .equ (.int v) _ => (getUint v, 0xffff, 0)
  | .equ .other _ => (0, 0xffff, if s.glob then 1 else 0)
  | .other =>
    if s.common then
      match s.csize with
      | .int v => (getUint v, 0, 0)
      | .other => (0, 0, 1)
    else if s.ext then (0, 0, 0)
    else (0, 0xfffe, 0)

/-- coff-objfmt.c:957-965: the type, with that of a global function. -/
def typeOf (s : Sym) : Nat := if s.dataOf.type = 0 && s.glob && s.func then 0x20 else s.dataOf.type

/-- coff-objfmt.c:1002-1009: the size and the number of relocations of the section of a label. -/
def sectInfo (heads : List Head) (s : Sym) : Nat × Nat :=
  match s.kind with
  | .label k _ => match heads[k]? with | some h => (h.size, h.nreloc) | none => (0, 0)
  | _ => (0, 0)

/-- coff-objfmt.c:1048-1057: the name of a symbol in its entry. -/
def nameBytes (name : Name) (str : Nat) : List Byte :=
  if 8 < name.length then le 4 0 ++ le 4 str else strncpy 8 name

/-- The offset in the string table after a name. -/
def afterName (limit : Nat) (name : Name) (str : Nat) : Nat := if limit < name.length then str + (name.length + 1) else str

/-- coff-objfmt.c:1064-1084: the auxiliary entry; `fname` is that of the source file (coff-objfmt.c:1153-1154). -/
def auxBytes (o : Obj) (heads : List Head) (s : Sym) (str : Nat) : List Byte :=
  match s.dataOf.aux with
  | .none => []
  | .sect => le 4 (sectInfo heads s).1 ++ le 2 (sectInfo heads s).2 ++ le 2 0 ++ List.replicate 10 0
  | .file => if 14 < o.src.length then le 4 0 ++ le 4 str ++ List.replicate 10 0 else strncpy 14 o.src ++ List.replicate 4 0

/-- The offset in the string table after an auxiliary entry. -/
def afterAux (o : Obj) (s : Sym) (str : Nat) : Nat :=
  match s.dataOf.aux with
  | .file => afterName 14 o.src str
  | _ => str

/-- coff-objfmt.c:945-1091 `coff_objfmt_output_sym`, for a symbol that is put into the table. -/
def symBytes (o : Obj) (heads : List Head) (s : Sym) (str : Nat) : List Byte :=
  nameBytes (o.symName s) str ++ le 4 (valueOf s).1 ++ le 2 (valueOf s).2.1 ++ le 2 (typeOf s) ++ le 1 s.dataOf.sclass ++
    le 1 s.dataOf.aux.count ++ auxBytes o heads s (afterName 8 (o.symName s) str)

/-- coff-objfmt.c:1199: the bytes, `info.strtab_offset` afterwards and the number of errors. -/
def symsBytes (o : Obj) (heads : List Head) : List Sym → Nat → List Byte × Nat × Nat
  | [], str => ([], str, 0)
  | s :: ss, str =>
    if o.puts s then
      let r := symsBytes o heads ss (afterAux o s (afterName 8 (o.symName s) str))
      (symBytes o heads s str ++ r.1, r.2.1, (valueOf s).2.2 + r.2.2)
    else symsBytes o heads ss str

/-- fwrite(name, len+1): a string with its zero, if it is longer than a limit. -/
def longStr (limit : Nat) (name : Name) : List Byte := if limit < name.length then name ++ [0] else []

/-- coff-objfmt.c:835-851 `coff_objfmt_output_sectstr`. -/
def sectStrs (o : Obj) : List Sect → List Byte
  | [] => []
  | s :: ss => (if o.format.win then longStr 8 s.name else []) ++ sectStrs o ss

/-- coff-objfmt.c:1094-1129 `coff_objfmt_output_str`. -/
def symStrs (o : Obj) : List Sym → List Byte
  | [] => []
  | s :: ss =>
    (if o.putsStr s then longStr 8 (o.globalName s) ++ (if s.dataOf.aux = .file then longStr 14 o.src else []) else []) ++
      symStrs o ss

/-! ### The file -/

/-- coff-objfmt.c:1213-1233: the file header. -/
def fileHeader (o : Obj) (symptr nsyms : Nat) : List Byte :=
  le 2 (if o.format.amd64 then 0x8664 else 0x14c) ++ le 2 o.sects.length ++ le 4 0 ++ le 4 symptr ++ le 4 nsyms ++ le 2 0 ++
    le 2 ((if o.nullDbg then 4 else 0) + (if o.all then 0 else 8) + (if o.format.amd64 then 0 else 0x100))

/-- The file and the number of errors recorded. -/
structure Result where
  file : List Byte
  errors : Nat
  deriving DecidableEq, Repr

/-- coff-objfmt.c:1190-1238: the rest of the output, after the sections. -/
def finish (o : Obj) (nsyms : Nat) (w : W) : Result :=
  let r := symsBytes o w.heads o.syms w.str
  let body := w.file ++ r.1 ++ le 4 r.2.1 ++ sectStrs o o.sects ++ symStrs o o.syms
  let front := fileHeader o w.file.length nsyms ++ headsBytes o o.sects w.heads
  ⟨front ++ body.drop front.length, r.2.2⟩

/-- coff-objfmt.c:1132-1238 `coff_objfmt_output`, outside of a procedure frame. -/
def output (o : Obj) : Option Result :=
  let c := countSyms o 0 o.syms
  match outSections o c.1 o.sects ⟨List.replicate (20 + 40 * o.sects.length) 0, 4, []⟩ with
  | none => none
  | some w => some (finish o c.2 w)

/-! ### Values -/

/-- What is after WRT: `..imagebase` of win64 (coff-objfmt.c:378-379), or a symbol. -/
inductive Wrt where
  | imagebase
  | sym (n : Nat)
  deriving DecidableEq, Repr

/-- libyasm/coretype.h `yasm_value` as far as coff-objfmt.c:424-682 looks at it, after yasm_value_output_basic has declined
    it. -/
structure Val where
  rel : Option Nat
  wrt : Option Wrt
  segOf : Bool
  sectionRel : Bool
  rshift : Nat
  curposRel : Bool
  ipRel : Bool
  size : Nat
  abs : Option Num
  deriving DecidableEq, Repr

/-- Where a value is: the offset of its bytecode in the section, of the value in the bytecode, the bytes it has, and the length
    of the bytecode (`bc->len*bc->mult_int`). -/
structure Loc where
  bc : Nat
  offset : Nat
  bytes : Nat
  len : Nat
  deriving DecidableEq, Repr

/-- What `coff_objfmt_output_value` does: an error, the end of the program, or a number written into the field, and a
    relocation. -/
inductive Out where
  | error
  | internal
  | ok (stored : Int) (reloc : Option Reloc)
  deriving DecidableEq, Repr

/-- The symbol of a section: coff-objfmt.c:417-421 defines one with its name at its start. -/
def Obj.sectionSym (o : Obj) (k : Nat) : Option Nat :=
  match o.sects[k]? with
  | some x => o.syms.findIdx? fun s => decide (s.kind = .label k 0) && decide (s.name = x.name)
  | none => none

/-- yasm_symrec_get_label: the section and the offset of a label. -/
def Obj.label (o : Obj) (n : Nat) : Option (Nat × Nat) :=
  match o.syms[n]? with
  | some s => match s.kind with | .label k off => some (k, off) | _ => none
  | none => none

/-- coff-objfmt.c:476-495: the symbol of the relocation after WRT, and the distance from it (yasm_calc_bc_dist). -/
def wrtTarget (o : Obj) (n : Nat) : Option Wrt → Option (Nat × Int)
  | none => some (n, 0)
  | some .imagebase => some (n, 0)
  | some (.sym m) =>
    match o.label n, o.label m with
    | some (k, off), some (k', off') => if k = k' then some (m, (off : Int) - off') else none
    | _, _ => none

/-- coff-objfmt.c:497-537: the symbol of the relocation, and `intn_val`; `common` and `extern` are those of the symbol in the
    value. -/
def target (o : Obj) (x : Sym) (sym : Nat) : Option (Nat × Int) :=
  if x.common then
    if o.format.win then some (sym, 0)
    else
      match x.csize with
      | .int c => if c < 0 then none else some (sym, getUint c)
      | .other => none
  else if !x.ext && !decide (o.format = .win64) then
    match o.label sym with
    | some (k, off) => (o.sectionSym k).map (·, (off : Int))
    | none => some (sym, 0)
  else some (sym, 0)

/-- coff-objfmt.c:539-552: what a value that is relative to the current position adds. -/
def curpos (f : Format) (v : Val) (l : Loc) : Int :=
  if v.curposRel then
    if f = .win64 ∧ v.ipRel = true then l.len
    else if f.win then l.offset + l.bytes
    else -(l.bc : Int)
  else 0

/-- coff-objfmt.c:566-643: the type of the relocation.  `len - (offset+destsize)` is of type `unsigned long`. -/
def relocType (f : Format) (v : Val) (l : Loc) (nobase : Bool) : Option Nat :=
  if v.curposRel then
    if v.size ≠ 32 then none
    else if f.amd64 then
      if !v.ipRel then some 4
      else if l.offset + l.bytes ≤ l.len ∧ l.len ≤ l.offset + l.bytes + 5 then some (4 + (l.len - (l.offset + l.bytes)))
      else none
    else some 0x14
  else if v.segOf then some 0xa
  else if v.sectionRel then some 0xb
  else if f.amd64 then
    if v.size = 32 then some (if nobase then 3 else 2)
    else if v.size = 64 then some 1
    else none
  else some (if nobase then 7 else 6)

/-- coff-objfmt.c:652-675: adding the absolute part. -/
def addAbs (i : Int) : Option Num → Option Int
  | none => some i
  | some (.int a) => some (i + a)
  | some .other => none

/-- coff-objfmt.c:424-682 `coff_objfmt_output_value`, after yasm_value_output_basic has declined; `nobase` is that of the
    section.  A relocation made before an error in the absolute part stays in the section, but then no file is kept. -/
def outputValue (o : Obj) (nobase : Bool) (v : Val) (l : Loc) : Out :=
  if decide (v.rshift > 0) || (v.segOf && (v.wrt.isSome || v.curposRel)) || (v.sectionRel && (v.wrt.isSome || v.curposRel)) then
    .error
  else
    match v.rel with
    | none =>
      match addAbs 0 v.abs with
      | none => .error
      | some i => .ok i none
    | some n =>
      match o.syms[n]? with
      | none => .internal
      | some x =>
        match wrtTarget o n v.wrt with
        | none => .error
        | some (sym, dist) =>
          match target o x sym with
          | none => .error
          | some (sym, val) =>
            match relocType o.format v l (nobase || decide (v.wrt = some .imagebase)) with
            | none => .error
            | some t =>
              match addAbs (if v.segOf then 0 else val + curpos o.format v l) v.abs with
              | none => .error
              | some i => .ok (i + dist) (some ⟨sym, l.bc + l.offset, t⟩)

end Verif.Coff
