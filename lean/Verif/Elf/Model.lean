/-
Model of the ELF object format: modules/objfmts/elf/elf-objfmt.c, elf.c, elf-x86-x86.c, elf-x86-amd64.c,
elf-x86-x32.c and elf-machine.h.

Names are C strings: lists of bytes without a zero byte.  Pointers to string table entries are positions in the
table, which only grows at its end.  The entry of a symbol (the associated data `elf_symrec_data`) is found through
the symbol's number.  `unsigned long` and file positions are natural numbers; where a field of the file is smaller,
the bytes written are those of the code.  Integers of yasm_intnum are integers.  `none` is the end of the program:
yasm_internal_error, a failed assertion, or the use of an index that was never set.  Reading and writing files does
not fail.  The file is the list of the bytes before the current position: fseek only goes forward, so it appends
zeros, except for the last one, back to the header.
-/
namespace Verif.Elf

abbrev Byte := BitVec 8
abbrev Name := List Byte

/-- elf.c:57-68: the three machines. -/
inductive Machine where
  | x86 | amd64 | x32
  deriving DecidableEq, Repr

/-- ELFCLASS64 or ELFCLASS32 (elf-x86-amd64.c:216, elf-x86-x86.c:205, elf-x86-x32.c:211). -/
def Machine.wide : Machine → Bool
  | .amd64 => true
  | _ => false

/-- elf.h:228-229, 249, 253-254: SYMTAB32_SIZE, SYMTAB64_SIZE. -/
def Machine.symSize (m : Machine) : Nat := if m.wide then 24 else 16
/-- elf.h SYMTAB32_ALIGN, SYMTAB64_ALIGN. -/
def Machine.symAlign (m : Machine) : Nat := if m.wide then 8 else 4
/-- elf.h RELOC32_SIZE, RELOC64A_SIZE, RELOC32A_SIZE as used in elf-x86-x86.c:230, elf-x86-amd64.c:244,
    elf-x86-x32.c:239. -/
def Machine.relSize : Machine → Nat
  | .x86 => 8
  | .amd64 => 24
  | .x32 => 12
/-- elf.h RELOC32_ALIGN, RELOC64_ALIGN. -/
def Machine.relAlign (m : Machine) : Nat := if m.wide then 8 else 4
/-- elf.h SHDR32_SIZE, SHDR64_SIZE. -/
def Machine.shdrSize (m : Machine) : Nat := if m.wide then 64 else 40
/-- elf.h EHDR32_SIZE, EHDR64_SIZE. -/
def Machine.ehdrSize (m : Machine) : Nat := if m.wide then 64 else 52
/-- SHT_REL (elf-x86-x86.c:124) or SHT_RELA (elf-x86-amd64.c:120, elf-x86-x32.c:118). -/
def Machine.relType : Machine → Nat
  | .x86 => 9
  | _ => 4
/-- reloc_section_prefix (elf-x86-x86.c:229, elf-x86-amd64.c:243, elf-x86-x32.c:238): ".rel" or ".rela". -/
def Machine.relPrefix : Machine → Name
  | .x86 => [0x2e#8, 0x72#8, 0x65#8, 0x6c#8]
  | _ => [0x2e#8, 0x72#8, 0x65#8, 0x6c#8, 0x61#8]

/-- libyasm/file.h:249-276 YASM_WRITE_8, YASM_WRITE_16_L, YASM_WRITE_32_L: the low bytes of a number, the lowest
    first. -/
def le : Nat → Nat → List Byte
  | 0, _ => []
  | n + 1, v => BitVec.ofNat 8 v :: le n (v / 256)

/-- elf-machine.h:44-45 YASM_WRITE_64Z_L: the low 32 bits, and a high half of 0. -/
def le64z (v : Nat) : List Byte := le 4 v ++ le 4 0

/-- elf-machine.h:30-38 YASM_WRITE_32I_L and YASM_WRITE_64I_L: an assertion that the number fits as a signed or an
    unsigned one, then its low bytes (yasm_intnum_get_sized, see `Verif.Intnum`). -/
def leInt (n : Nat) (v : Int) : Option (List Byte) :=
  if -(2 ^ (8 * n - 1)) ≤ v ∧ v < 2 ^ (8 * n) then some (le n (v % 2 ^ (8 * n)).toNat) else none

/-- A field as wide as an address, written with YASM_WRITE_64Z_L or YASM_WRITE_32_L. -/
def Machine.word (m : Machine) (v : Nat) : List Byte := if m.wide then le64z v else le 4 v
/-- A field as wide as an address, written with YASM_WRITE_64I_L or YASM_WRITE_32I_L. -/
def Machine.wordI (m : Machine) (v : Int) : Option (List Byte) := if m.wide then leInt 8 v else leInt 4 v

/-! ### String tables -/

/-- elf.h `elf_strtab_entry`. -/
structure Str where
  index : Nat
  str : Name
  deriving DecidableEq, Repr

/-- elf.c:224-236 `elf_strtab_create`. -/
def strCreate : List Str := [⟨0, []⟩]

/-- elf.c:216, 250: where the entry after this one is. -/
def Str.next (s : Str) : Nat := s.index + s.str.length + 1

/-- elf.c:238-255 `elf_strtab_append_str`: the table and the place of the new entry. -/
def strAppend (t : List Str) (s : Name) : Option (List Str × Nat) :=
  match t.getLast? with
  | none => none
  | some last => some (t ++ [⟨last.next, s⟩], t.length)

/-- elf.c:213-220: the loop that renumbers the entries after `last`. -/
def renumber (last : Str) : List Str → List Str
  | [] => []
  | e :: es => let e' : Str := ⟨last.next, e.str⟩; e' :: renumber e' es

/-- elf.c:206-221 `elf_strtab_entry_set_str` on the entry at a place. -/
def strSet : List Str → Nat → Name → List Str
  | [], _, _ => []
  | e :: es, 0, s => ⟨e.index, s⟩ :: renumber ⟨e.index, s⟩ es
  | e :: es, k + 1, s => e :: strSet es k s

/-- elf.c:277-293 `elf_strtab_output_to_file`. -/
def strBytes (t : List Str) : List Byte := t.flatMap fun e => e.str ++ [0]

/-! ### The object, as the output function sees it -/

/-- What yasm_expr_get_intnum finds in an expression: an integer, or something else. -/
inductive Num where
  | int (v : Int)
  | other
  deriving DecidableEq, Repr

/-- What a symbol stands for: a label in a section, at an offset from its start (yasm_bc_next_offset of the
    bytecode before it); an EQU, and whether it is the absolute symbol (yasm_symrec_is_abs); or anything else. -/
inductive Kind where
  | label (sect : Nat) (offset : Nat)
  | equ (v : Num) (isAbs : Bool)
  | other
  deriving DecidableEq, Repr

/-- A symbol of the symbol table: libyasm/symrec.c `yasm_symrec`, and the qualifiers of its declaration after they
    have been parsed by `build_global` (elf-objfmt.c:171-208; libyasm/valparam.c, see `Verif.Directive`) and
    `build_common` (elf-objfmt.c:211-250); an alignment of none is one that is refused (elf-objfmt.c:226-243). -/
structure Sym where
  name : Name
  ext : Bool
  common : Bool
  glob : Bool
  defined : Bool
  kind : Kind
  gtype : Nat
  gvis : Nat
  gsize : Option Num
  csize : Option Num
  calign : Option Nat
  deriving DecidableEq, Repr

/-- elf.h `elf_reloc_entry`; `wrt` is the place of the special symbol in the machine's table. -/
structure Reloc where
  sym : Nat
  addr : Nat
  rel : Bool
  valsize : Nat
  addend : Option Int
  wrt : Option Nat
  isGot : Bool
  deriving DecidableEq, Repr

/-- What yasm_bc_tobytes gives for a bytecode: bytes, or a gap. -/
inductive Chunk where
  | bytes (l : List Byte)
  | gap (n : Nat)
  deriving DecidableEq, Repr

/-- A section with its header data; `link` is 0, but for `.stab` (elf-objfmt.c:821-838), and `length` is
    yasm_bc_next_offset of its last bytecode. -/
structure Sect where
  name : Name
  type : Nat
  flags : Nat
  align : Nat
  entsize : Nat
  link : Nat
  length : Nat
  chunks : List Chunk
  relocs : List Reloc
  deriving DecidableEq, Repr

/-- The directives that make entries before the output (elf-objfmt.c:1154-1229): `type` with a type if it is a
    known one, `size` with an expression if there is one, and `weak`. -/
inductive Dir where
  | type (n : Nat) (t : Option Nat)
  | size (n : Nat) (e : Option Num)
  | weak (n : Nat)
  deriving DecidableEq, Repr

/-- The object: symbols in the order of the traversal, sections, and what was given on the command line. -/
structure Obj where
  machine : Machine
  /-- the name of the source file when the format was set up, and when the file is written -/
  src0 : Name
  src : Name
  pre : Name
  suf : Name
  allSyms : Bool
  syms : List Sym
  sects : List Sect
  dirs : List Dir

/-! ### The symbol table -/

/-- The entries: the null entry, the one of the source file, and those of symbols. -/
inductive Ref where
  | null
  | file
  | sym (n : Nat)
  deriving DecidableEq, Repr

/-- elf.h `elf_symtab_entry`, without `size`, which is always 0, and `symindex`, which is the place in the table. -/
structure Entry where
  inTable : Bool
  sect : Option Nat
  name : Option Nat
  value : Nat
  xsize : Option Num
  index : Nat
  bind : Nat
  type : Nat
  vis : Nat
  deriving DecidableEq, Repr

def shnUndef : Nat := 0
def shnAbs : Nat := 0xfff1
def shnCommon : Nat := 0xfff2
def stbLocal : Nat := 0
def stbGlobal : Nat := 1
def stbWeak : Nat := 2
def sttSection : Nat := 3
def sttFile : Nat := 4
def sttTls : Nat := 6
def shfTls : Nat := 0x400
def shtNobits : Nat := 8

/-- elf.c:298-317 `elf_symtab_entry_create`. -/
def newEntry (name : Option Nat) : Entry := ⟨false, none, name, 0, none, 0, 0, 0, 0⟩

/-- `objfmt_elf` as far as symbols go: the string table, the order of the entries, and the entries.  `errors`
    counts the errors recorded. -/
structure St where
  strtab : List Str
  table : List Ref
  entry : Ref → Option Entry
  errors : Nat

/-- Changing an entry through its pointer. -/
def St.set (st : St) (r : Ref) (e : Entry) : St := { st with entry := fun q => if q = r then some e else st.entry q }

/-- elf-objfmt.c:367-382 and elf.c:375-397: the tables as they are made. -/
def create (src : Name) : Option St :=
  match strAppend strCreate src with
  | none => none
  | some (t, k) =>
    some ⟨t, [.null, .file], fun
      | .null => some { newEntry none with inTable := true }
      | .file => some { newEntry (some k) with inTable := true, index := shnAbs, type := sttFile }
      | .sym _ => none, 0⟩

/-- elf.c:544-560 `elf_symtab_set_nonzero`. -/
def setNonzero (e : Entry) (sect : Option Nat) (index bind type : Nat) (xsize : Option Num) (value : Option Nat) :
    Entry :=
  { e with
    sect := if sect.isSome then sect else e.sect
    index := if index ≠ 0 then index else e.index
    bind := if bind ≠ 0 then bind else e.bind
    type := if type ≠ 0 then type else e.type
    xsize := if xsize.isSome then xsize else e.xsize
    value := value.getD e.value }

/-- libyasm/symrec.c:494-507 `yasm_symrec_get_global_name`. -/
def globalName (o : Obj) (s : Sym) : Name :=
  if s.glob || s.common || s.ext then o.pre ++ s.name ++ o.suf else s.name

/-- The entry of a symbol, made with a name if there is none (elf-objfmt.c:94-104, 1166-1171, 1203-1208). -/
def getOrNew (st : St) (n : Nat) (name : Name) : Option (St × Entry) :=
  match st.entry (.sym n) with
  | some e => some (st, e)
  | none =>
    match strAppend st.strtab name with
    | none => none
    | some (t, k) => some (({ st with strtab := t }).set (.sym n) (newEntry (some k)), newEntry (some k))

/-- elf.c:398-410 `elf_symtab_append_entry`, if not in the table yet (elf-objfmt.c:106-108). -/
def appendEntry (st : St) (n : Nat) (e : Entry) : St × Entry :=
  if e.inTable then (st, e) else ({ st with table := st.table ++ [.sym n] }, { e with inTable := true })

/-- elf-objfmt.c:86-114 `elf_objfmt_symtab_append`; the name is only used for a new entry. -/
def symtabAppend (st : St) (n : Nat) (name : Name) (index bind type vis : Nat) (xsize : Option Num)
    (value : Option Nat) : Option St :=
  match getOrNew st n name with
  | none => none
  | some (st, e) =>
    let (st, e) := appendEntry st n e
    some (st.set (.sym n) { setNonzero e none index bind type xsize value with vis := vis % 4 })

/-- elf-objfmt.c:1154-1189 `dir_type`: the name is the symbol's own. -/
def dirType (st : St) (n : Nat) (name : Name) (t : Option Nat) : Option St :=
  match getOrNew st n name with
  | none => none
  | some (st, e) => some (match t with | some t => st.set (.sym n) { e with type := t } | none => st)

/-- elf-objfmt.c:1191-1217 `dir_size`. -/
def dirSize (st : St) (n : Nat) (name : Name) (x : Option Num) : Option St :=
  match getOrNew st n name with
  | none => none
  | some (st, e) => some (match x with | some x => st.set (.sym n) { e with xsize := some x } | none => st)

/-- elf-objfmt.c:1154-1229: one directive.  `weak` declares the symbol GLOBAL (elf-objfmt.c:1225-1226), so that its
    name has prefix and suffix. -/
def dir (o : Obj) (st : St) : Dir → Option St
  | .type n t => match o.syms[n]? with | some s => dirType st n s.name t | none => some st
  | .size n x => match o.syms[n]? with | some s => dirSize st n s.name x | none => some st
  | .weak n =>
    match o.syms[n]? with
    | some s => symtabAppend st n (o.pre ++ s.name ++ o.suf) shnUndef stbWeak 0 0 none none
    | none => some st

/-- The directives of the source, one after the other. -/
def dirs (o : Obj) : St → List Dir → Option St
  | st, [] => some st
  | st, d :: ds => match dir o st d with | some st => dirs o st ds | none => none

/-- elf.c:412-425 `elf_symtab_insert_local_sym`: after the last of the leading local entries, or after the entry of
    the file if it is among them.  The first entry is the null entry, which is local. -/
def insertLocal (loc file : Ref → Bool) (r : Ref) : List Ref → List Ref
  | [] => [r]
  | x :: xs => if !loc x then r :: x :: xs else if file x then x :: r :: xs else x :: insertLocal loc file r xs

/-- `entry->bind == STB_LOCAL`. -/
def St.isLocal (st : St) (r : Ref) : Bool := match st.entry r with | some e => e.bind == stbLocal | none => false
/-- `before->type == STT_FILE`. -/
def St.isFile (st : St) (r : Ref) : Bool := match st.entry r with | some e => e.type == sttFile | none => false

/-- elf-objfmt.c:114-133 `build_extern`. -/
def buildExtern (o : Obj) (n : Nat) (s : Sym) (st : St) : Option St :=
  symtabAppend st n (globalName o s) shnUndef stbGlobal 0 0 none none
/-- elf-objfmt.c:171-208 `build_global`. -/
def buildGlobal (o : Obj) (n : Nat) (s : Sym) (st : St) : Option St :=
  symtabAppend st n (globalName o s) shnUndef stbGlobal s.gtype s.gvis s.gsize none
/-- elf-objfmt.c:211-250 `build_common`. -/
def buildCommon (o : Obj) (n : Nat) (s : Sym) (st : St) : Option St :=
  match s.calign with
  | none => some { st with errors := st.errors + 1 }
  | some a => symtabAppend st n (globalName o s) shnCommon stbGlobal 0 0 s.csize (some a)

/-- elf-objfmt.c:340-342: the section and the value of the entry. -/
def setValue (n : Nat) (at_ : Option (Nat × Nat)) (st : St) : Option St :=
  match st.entry (.sym n) with
  | none => none
  | some e => some (st.set (.sym n) (setNonzero e (at_.map (·.1)) 0 0 0 none (some ((at_.map (·.2)).getD 0))))

/-- elf-objfmt.c:305-307: does the symbol stand for its section? -/
def isSect (o : Obj) (s : Sym) (at_ : Option (Nat × Nat)) : Bool :=
  match at_ with
  | none => false
  | some (k, _) => match o.sects[k]? with | some x => x.name == s.name | none => false

/-- elf-objfmt.c:318-328: the entry of a local symbol, made if there is none; it has a name only if all symbols are
    to be kept, and if it does not stand for a section. -/
def localEntry (o : Obj) (n : Nat) (s : Sym) (sec : Bool) (st : St) : Option (St × Entry) :=
  match st.entry (.sym n) with
  | some e => some (st, e)
  | none =>
    if !o.allSyms || sec then some (st.set (.sym n) (newEntry none), newEntry none)
    else getOrNew st n (globalName o s)

/-- elf-objfmt.c:330-331. -/
def insertEntry (st : St) (n : Nat) (e : Entry) : St × Entry :=
  if e.inTable then (st, e)
  else ({ st with table := insertLocal st.isLocal st.isFile (.sym n) st.table }, { e with inTable := true })

/-- elf-objfmt.c:299-338: a symbol that is not declared. -/
def buildLocal (o : Obj) (n : Nat) (s : Sym) (at_ : Option (Nat × Nat)) (st : St) : Option St :=
  match localEntry o n s (isSect o s at_) st with
  | none => none
  | some (st, e) =>
    let (st, e) := insertEntry st n e
    let st := st.set (.sym n) (setNonzero e (at_.map (·.1)) 0 0 (if isSect o s at_ then sttSection else 0) none none)
    if isSect o s at_ then some st else setValue n at_ st

/-- elf-objfmt.c:286-342: a symbol with a label (`at_`: section and offset) or an EQU; `cur` is the entry it had. -/
def buildDefined (o : Obj) (n : Nat) (s : Sym) (cur : Option Entry) (at_ : Option (Nat × Nat)) (st : St) :
    Option St :=
  if (cur.map (·.inTable)).getD false then setValue n at_ st
  else if s.glob then (buildGlobal o n s st).bind (setValue n at_)
  else
    match s.kind with
    | .equ _ false => some st
    | _ => buildLocal o n s at_ st

/-- elf-objfmt.c:277-285: what the symbol stands for. -/
def buildKind (o : Obj) (n : Nat) (s : Sym) (cur : Option Entry) (st : St) : Option St :=
  if !s.defined then some st
  else
    match s.kind with
    | .other => some st
    | .label k off => buildDefined o n s cur (some (k, off)) st
    | .equ _ _ => buildDefined o n s cur none st

/-- elf-objfmt.c:254-345 `elf_objfmt_build_symtab`. -/
def build (o : Obj) (n : Nat) (s : Sym) (st : St) : Option St :=
  if s.ext then buildExtern o n s st
  else if s.common then
    match buildCommon o n s st with
    | none => none
    | some st => buildKind o n s (if s.calign.isSome then st.entry (.sym n) else none) st
  else buildKind o n s (st.entry (.sym n)) st

/-- yasm_symtab_traverse (elf-objfmt.c:773-774). -/
def buildAll (o : Obj) : Nat → List Sym → St → Option St
  | _, [], st => some st
  | n, s :: ss, st => match build o n s st with | some st => buildAll o (n + 1) ss st | none => none

/-- elf.c:457-464: the loop of `elf_symtab_assign_indices`; entries are numbered from 0. -/
def lastLocal (loc : Ref → Bool) : Nat → Nat → List Ref → Nat
  | last, _, [] => last
  | last, i, r :: rs => lastLocal loc (if loc r then i else last) (i + 1) rs

/-- elf.c:446-465 `elf_symtab_assign_indices`: its result. -/
def St.nlocal (st : St) : Nat := lastLocal st.isLocal 0 0 st.table + 1

/-! ### Relocations -/

/-- elf-machine.h `elf_machine_ssym`. -/
structure Ssym where
  name : String
  symRel : Bool
  curpos : Bool
  tls : Bool
  reloc : Nat
  size : Nat
  deriving DecidableEq, Repr

/-- elf-x86-x86.c:35-61, elf-x86-amd64.c:35-56, elf-x86-x32.c:35-53: the special symbols. -/
def Machine.ssyms : Machine → List Ssym
  | .x86 =>
    [ ⟨"plt", true, false, false, 4, 32⟩,
      ⟨"gotoff", false, false, false, 9, 32⟩,
      ⟨"gotpc", false, true, false, 10, 32⟩,
      ⟨"tlsgd", true, false, true, 18, 32⟩,
      ⟨"tlsldm", true, false, true, 19, 32⟩,
      ⟨"gottpoff", true, false, true, 33, 32⟩,
      ⟨"tpoff", true, false, true, 34, 32⟩,
      ⟨"ntpoff", true, false, true, 17, 32⟩,
      ⟨"dtpoff", true, false, true, 32, 32⟩,
      ⟨"gotntpoff", true, false, true, 16, 32⟩,
      ⟨"indntpoff", true, false, true, 15, 32⟩,
      ⟨"got", true, false, false, 3, 32⟩,
      ⟨"tlsdesc", true, false, true, 39, 32⟩,
      ⟨"tlscall", true, false, true, 40, 32⟩ ]
  | .amd64 =>
    [ ⟨"pltoff", true, false, false, 31, 64⟩,
      ⟨"plt", true, false, false, 4, 32⟩,
      ⟨"gotplt", true, false, false, 30, 64⟩,
      ⟨"gotoff", true, false, false, 25, 64⟩,
      ⟨"gotpcrel", true, false, false, 9, 32⟩,
      ⟨"tlsgd", true, false, true, 19, 32⟩,
      ⟨"tlsld", true, false, true, 20, 32⟩,
      ⟨"gottpoff", true, false, true, 22, 32⟩,
      ⟨"tpoff", true, false, true, 23, 32⟩,
      ⟨"dtpoff", true, false, true, 21, 32⟩,
      ⟨"got", true, false, false, 3, 32⟩,
      ⟨"tlsdesc", true, false, true, 34, 32⟩,
      ⟨"tlscall", true, false, true, 35, 32⟩ ]
  | .x32 =>
    [ ⟨"plt", true, false, false, 4, 32⟩,
      ⟨"gotpcrel", true, false, false, 9, 32⟩,
      ⟨"tlsgd", true, false, true, 19, 32⟩,
      ⟨"tlsld", true, false, true, 20, 32⟩,
      ⟨"gottpoff", true, false, true, 22, 32⟩,
      ⟨"tpoff", true, false, true, 23, 32⟩,
      ⟨"dtpoff", true, false, true, 21, 32⟩,
      ⟨"got", true, false, false, 3, 32⟩,
      ⟨"tlsdesc", true, false, true, 34, 32⟩,
      ⟨"tlscall", true, false, true, 35, 32⟩ ]

/-- elf-x86-x86.c:63-74, elf-x86-amd64.c:58-69, elf-x86-x32.c:55-66 `accepts_reloc`; a WRT symbol that is not special
    has no data.  `wrt`: none for no WRT, some none for a symbol that is not special. -/
def Machine.accepts (m : Machine) (val : Nat) (wrt : Option (Option Nat)) : Bool :=
  match wrt with
  | some k => match k.bind (m.ssyms[·]?) with | none => false | some s => val == s.size
  | none =>
    if val &&& (val - 1) ≠ 0 then false
    else (val &&& (if m.wide then 8 ||| 16 ||| 32 ||| 64 else 8 ||| 16 ||| 32)) != 0

/-- The sizes of `switch (reloc->valsize)` (elf-x86-x86.c:173-186, elf-x86-amd64.c:173-189,
    elf-x86-x32.c:171-186). -/
def Machine.plainType (m : Machine) (rel : Bool) (valsize : Nat) : Option Nat :=
  match m, rel, valsize with
  | .x86, true, 8 => some 23
  | .x86, true, 16 => some 21
  | .x86, true, 32 => some 2
  | .x86, false, 8 => some 22
  | .x86, false, 16 => some 20
  | .x86, false, 32 => some 1
  | .amd64, true, 64 => some 24
  | .amd64, false, 64 => some 1
  | .amd64, true, 8 => some 15
  | .amd64, true, 16 => some 13
  | .amd64, true, 32 => some 2
  | .amd64, false, 8 => some 14
  | .amd64, false, 16 => some 12
  | .amd64, false, 32 => some 10
  | .x32, true, 8 => some 15
  | .x32, true, 16 => some 13
  | .x32, true, 32 => some 2
  | .x32, false, 8 => some 14
  | .x32, false, 16 => some 12
  | .x32, false, 32 => some 10
  | _, _, _ => none

/-- elf-x86-x86.c:167-170, elf-x86-amd64.c:168-171, elf-x86-x32.c:166-170: the type for
    `_GLOBAL_OFFSET_TABLE_`; outer none: not this case. -/
def Machine.gotType (m : Machine) (valsize : Nat) : Option (Option Nat) :=
  match m, valsize with
  | .x86, 32 => some (some 10)
  | .amd64, 32 => some (some 26)
  | .amd64, 64 => some (some 29)
  | .x32, 32 => some (some 26)
  | .x32, 64 => some none
  | _, _ => none

/-- elf-x86-x86.c:151-187, elf-x86-amd64.c:148-191, elf-x86-x32.c:146-188 `map_reloc_info_to_type`; none is an
    internal error. -/
def Machine.relocType (m : Machine) (r : Reloc) : Option Nat :=
  match r.wrt with
  | some k =>
    match m.ssyms[k]? with
    | none => none
    | some s =>
      if r.valsize ≠ s.size then none
      else if m ≠ .x86 ∧ r.rel = true ∧ s.reloc = 3 then some 9
      else some s.reloc
  | none =>
    match if r.isGot then m.gotType r.valsize else none with
    | some t => t
    | none => m.plainType r.rel r.valsize

/-- elf-x86-x86.c:159-166 and the like: is the symbol's type set to STT_TLS? -/
def Machine.tlsReloc (m : Machine) (r : Reloc) : Bool :=
  match r.wrt.bind (m.ssyms[·]?) with
  | some s => s.tls
  | none => false

/-- The same, done to the entry. -/
def forceTls (m : Machine) (r : Reloc) (st : St) : St :=
  if m.tlsReloc r then
    match st.entry (.sym r.sym) with
    | some e => st.set (.sym r.sym) { e with type := sttTls }
    | none => st
  else st

/-- elf.c:791-795: the index of the symbol, 0 if it has no entry; that of an entry outside the table is not set. -/
def St.symIndex (st : St) (n : Nat) : Option Nat :=
  match st.entry (.sym n) with
  | none => some 0
  | some e => if e.inTable then some (st.table.idxOf (.sym n)) else none

/-- elf-x86-amd64.c:200-205, elf-x86-x32.c:196-200: the addend, 0 if there is none. -/
def addendBytes (m : Machine) (a : Option Int) : Option (List Byte) :=
  match a with
  | some a => m.wordI a
  | none => some (m.word 0)

/-- elf-x86-x86.c:189-195, elf-x86-amd64.c:193-206, elf-x86-x32.c:190-201 `write_reloc`. -/
def Machine.writeReloc (m : Machine) (r : Reloc) (type sym : Nat) : Option (List Byte) :=
  match m.wordI r.addr with
  | none => none
  | some a =>
    match m with
    | .x86 => some (a ++ le 4 (sym * 256 + type % 256))
    | .amd64 => (addendBytes m r.addend).map fun b => a ++ le 4 type ++ le 4 sym ++ b
    | .x32 => (addendBytes m r.addend).map fun b => a ++ le 4 (sym * 256 + type % 256) ++ b

/-- elf.c:787-810: the loop of `elf_secthead_write_relocs_to_file`. -/
def writeRelocs (m : Machine) : St → List Reloc → Option (St × List Byte)
  | st, [] => some (st, [])
  | st, r :: rs =>
    match st.symIndex r.sym, m.relocType r with
    | some i, some t =>
      match m.writeReloc r (t % 256) i with
      | none => none
      | some b =>
        match writeRelocs m (forceTls m r st) rs with
        | none => none
        | some (st, bs) => some (st, b ++ bs)
    | _, _ => none

/-! ### Values -/

/-- The WRT part of a value: `..sym` (`dotdotsym`), a special symbol, or any other symbol. -/
inductive Wrt where
  | dotdotsym
  | special (k : Nat)
  | other
  deriving DecidableEq, Repr

/-- libyasm/coretype.h `yasm_value` as far as elf-objfmt.c:482-589 looks at it, after yasm_value_output_basic has
    declined it: the symbol, whether it is relative to the current position, and the absolute part. -/
structure Val where
  rel : Option Nat
  wrt : Option Wrt
  segOf : Bool
  sectionRel : Bool
  rshift : Nat
  curposRel : Bool
  size : Nat
  abs : Option Num
  deriving DecidableEq, Repr

/-- Where a value is: the offset of its bytecode in the section, and of the value in the bytecode. -/
structure Loc where
  bc : Nat
  offset : Nat
  deriving DecidableEq, Repr

/-- elf-objfmt.c:482-589: what a symbol is in a value.  `vis == YASM_SYM_LOCAL` with a label gives the number of
    the section's symbol and the offset of the label. -/
structure Scope where
  sectSym : Nat → Option (Nat × Nat)
  isGot : Nat → Bool

/-- `_GLOBAL_OFFSET_TABLE_` -/
def nGot : Name :=
  [0x5f#8, 0x47#8, 0x4c#8, 0x4f#8, 0x42#8, 0x41#8, 0x4c#8, 0x5f#8, 0x4f#8, 0x46#8, 0x46#8,
   0x53#8, 0x45#8, 0x54#8, 0x5f#8, 0x54#8, 0x41#8, 0x42#8, 0x4c#8, 0x45#8, 0x5f#8]

/-- Has the section this name? -/
def Obj.sectNamed (o : Obj) (k : Nat) (name : Name) : Bool :=
  match o.sects[k]? with
  | some x => x.name == name
  | none => false

/-- The symbol of a section: elf-objfmt.c:915-918 defines one with its name at its start (elf_secthead_get_sym). -/
def Obj.sectionSym (o : Obj) (k : Nat) : Option Nat :=
  o.syms.findIdx? fun s => decide (s.kind = .label k 0) && o.sectNamed k s.name

/-- elf-objfmt.c:522, 533-551, 561, 754: what `elf_objfmt_output_value` finds out about a symbol. -/
def Obj.scope (o : Obj) : Scope :=
  { sectSym := fun n =>
      match o.syms[n]? with
      | some s =>
        if s.ext || s.common || s.glob then none
        else match s.kind with
          | .label k off => (o.sectionSym k).map (·, off)
          | _ => none
      | none => none
    isGot := fun n => match o.syms[n]? with | some s => s.name == nGot | none => false }

/-- What `elf_objfmt_output_value` does: an error, or a number written into the field, and a relocation. -/
inductive Out where
  | error
  | ok (stored : Int) (reloc : Option Reloc)
  deriving DecidableEq, Repr

/-- elf-objfmt.c:525-528: WRT ..sym is no WRT. -/
def wrtOf : Option Wrt → Option (Option Nat)
  | none => none
  | some .dotdotsym => none
  | some (.special k) => some (some k)
  | some .other => some none

/-- elf-objfmt.c:522-552: the symbol the relocation names, and what is added so far. -/
def target (m : Machine) (sc : Scope) (v : Val) (s : Nat) (l : Loc) : Nat × Int :=
  match v.wrt with
  | some .dotdotsym => (s, 0)
  | some (.special k) =>
    match m.ssyms[k]? with
    | some x =>
      if x.symRel then (s, 0)
      else if x.curpos then (s, l.offset + l.bc)
      else match sc.sectSym s with | some (q, off) => (q, off) | none => (s, 0)
    | none => match sc.sectSym s with | some (q, off) => (q, off) | none => (s, 0)
  | _ => match sc.sectSym s with | some (q, off) => (q, off) | none => (s, 0)

/-- elf-x86-x86.c:137-149, elf-x86-amd64.c:138-146, elf-x86-x32.c:136-144 `handle_reloc_addend`: the number left in
    the field, and the relocation. -/
def Machine.handleAddend (m : Machine) (i : Int) (r : Reloc) (offset : Nat) : Int × Reloc :=
  match m with
  | .x86 =>
    (if r.wrt.isNone && r.isGot && r.valsize == 32 && offset != 0 then i + offset else i, r)
  | _ => (0, { r with addend := some i })

/-- elf-objfmt.c:567-581: adding the absolute part. -/
def addAbs (i : Int) : Option Num → Option Int
  | none => some i
  | some (.int a) => some (i + a)
  | some .other => none

/-- elf-objfmt.c:482-589 `elf_objfmt_output_value`, after yasm_value_output_basic has declined. -/
def outputValue (m : Machine) (sc : Scope) (v : Val) (l : Loc) : Out :=
  if v.segOf || v.sectionRel || decide (v.rshift > 0) then .error
  else
    match v.rel with
    | none =>
      match addAbs 0 v.abs with
      | none => .error
      | some i => .ok i none
    | some s =>
      let t := target m sc v s l
      let i := if v.curposRel then t.2 + l.offset else t.2
      if !m.accepts v.size (wrtOf v.wrt) then .error
      else
        match addAbs i v.abs with
        | none => .error
        | some i =>
          let r : Reloc := ⟨t.1, l.bc + l.offset, v.curposRel, v.size, none, (wrtOf v.wrt).bind id, sc.isGot t.1⟩
          let h := m.handleAddend i r l.offset
          .ok h.1 (some h.2)

/-! ### Sections and the file -/

/-- elf.h `elf_secthead` after elf-objfmt.c:644-708; `name` and `relName` are places in the table of section
    names. -/
structure Head where
  name : Nat
  type : Nat
  flags : Nat
  offset : Nat
  size : Nat
  link : Nat
  align : Nat
  entsize : Nat
  index : Nat
  relName : Option Nat
  relOffset : Nat
  nreloc : Nat
  deriving DecidableEq, Repr

/-- The state of the output: the bytes before the current position, `info.sindex`, the names of sections, the
    symbols, and the headers so far. -/
structure W where
  file : List Byte
  sindex : Nat
  shstr : List Str
  st : St
  heads : List Head

/-- fseek forward, then write. -/
def seek (f : List Byte) (pos : Nat) : List Byte := f ++ List.replicate (pos - f.length) 0

/-- elf.c:909-925 `elf_secthead_set_file_offset`; `x & ~(align - 1)` for a power of two `align`. -/
def fileOffset (align pos : Nat) : Option Nat :=
  if align = 0 ∨ align = 1 then some pos
  else if align &&& (align - 1) ≠ 0 then none
  else some ((pos + align - 1) - (pos + align - 1) % align)

/-- elf-objfmt.c:592-641 `elf_objfmt_output_bytecode`: gaps are written as zeros. -/
def Chunk.write : Chunk → List Byte
  | .bytes l => l
  | .gap n => List.replicate n 0

/-- elf-objfmt.c:656-657, 671: the header of a section before it has contents. -/
def head0 (k : Nat) (s : Sect) : Head :=
  ⟨k + 1, s.type, s.flags, 0, 0, s.link, s.align, s.entsize, 0, none, 0, s.relocs.length⟩

/-- elf.c:757-812 `elf_secthead_write_relocs_to_file` and elf-objfmt.c:692-705: the relocations, at a multiple of
    4, and the name of their section. -/
def outRelocs (m : Machine) (s : Sect) (w : W) (h : Head) : Option W :=
  if s.relocs.isEmpty then some { w with heads := w.heads ++ [h] }
  else
    let pos := (w.file.length + 3) - (w.file.length + 3) % 4
    match writeRelocs m w.st s.relocs with
    | none => none
    | some (st, bs) =>
      match strAppend w.shstr (m.relPrefix ++ s.name) with
      | none => none
      | some (t, k) =>
        some ⟨seek w.file pos ++ bs, w.sindex + 1, t, st, w.heads ++ [{ h with relName := some k, relOffset := pos }]⟩

/-- elf-objfmt.c:644-708 `elf_objfmt_output_section`.  In a section without contents no value is output, so that
    it has no relocations. -/
def outSection (m : Machine) (k : Nat) (s : Sect) (w : W) : Option W :=
  if s.type &&& shtNobits = shtNobits then
    some { w with sindex := w.sindex + 1,
                  heads := w.heads ++ [{ head0 k s with size := s.length, index := w.sindex + 1, nreloc := 0 }] }
  else
    match fileOffset s.align w.file.length with
    | none => none
    | some pos =>
      let bs := s.chunks.flatMap Chunk.write
      outRelocs m s { w with file := seek w.file pos ++ bs, sindex := w.sindex + 1 }
        { head0 k s with offset := pos, size := bs.length, index := w.sindex + 1 }

/-- yasm_object_sections_traverse (elf-objfmt.c:780-782). -/
def outSections (m : Machine) : Nat → List Sect → W → Option W
  | _, [], w => some w
  | k, s :: ss, w => match outSection m k s w with | some w => outSections m (k + 1) ss w | none => none

/-- elf-objfmt.c:892-919 `elf_objfmt_init_new_section`: the names of the sections, in order. -/
def sectNames : List Str → List Sect → Option (List Str)
  | t, [] => some t
  | t, s :: ss => match strAppend t s.name with | some (t, _) => sectNames t ss | none => none

/-- elf-objfmt.c:429-452 `elf_objfmt_output_align`. -/
def alignUp (f : List Byte) (align : Nat) : List Byte :=
  seek f (f.length + (align - f.length % align) % align)

/-- What the symbol of an entry stands for; the null entry and that of the file have no label (elf.c:385,
    elf-objfmt.c:372). -/
def Obj.kindOf (o : Obj) : Ref → Option Kind
  | .sym n => match o.syms[n]? with | some s => some s.kind | none => none
  | _ => none

/-- elf.c:482-494: the size of a symbol, and whether it is an error. -/
def sizeOf (e : Entry) : Int × Nat :=
  match e.xsize with
  | none => (0, 0)
  | some (.int v) => (v, 0)
  | some .other => (0, 1)

/-- elf.c:496-517: the value and the section index of an entry, and whether there is an error. -/
def valueOf (o : Obj) (r : Ref) (e : Entry) : Int × Nat × Nat :=
  match o.kindOf r with
  | some (.equ (.int v) _) => (v, shnAbs, 0)
  | some (.equ .other _) => (e.value, shnAbs, 1)
  | _ => (e.value, e.index, 0)

/-- elf.c:519-530: is the symbol a label in a section for thread-local data? -/
def inTls (o : Obj) (r : Ref) : Bool :=
  match o.kindOf r with
  | some (.label k _) => match o.sects[k]? with | some s => s.flags &&& shfTls != 0 | none => false
  | _ => false

/-- `entry->name ? entry->name->index : 0`. -/
def nameIndex (t : List Str) (k : Option Nat) : Option Nat :=
  match k with
  | none => some 0
  | some k => (t[k]?).map (·.index)

/-- elf-x86-x86.c:88-96 and the like: the section index written. -/
def sectIndex (heads : List Head) (e : Entry) (index : Nat) : Option Nat :=
  match e.sect with
  | some k => (heads[k]?).map (·.index)
  | none => some index

/-- elf-x86-x86.c:76-97, elf-x86-amd64.c:71-91, elf-x86-x32.c:68-89 `write_symtab_entry`. -/
def Machine.writeSym (m : Machine) (name : Nat) (value size : Int) (bind type vis shndx : Nat) : Option (List Byte) :=
  match m.wordI value, m.wordI size with
  | some v, some z =>
    let info := le 1 (bind * 16 + type % 16) ++ le 1 (vis % 4) ++ le 2 shndx
    some (if m.wide then le 4 name ++ info ++ v ++ z else le 4 name ++ v ++ z ++ info)
  | _, _ => none

/-- elf.c:476-538: one iteration of the loop of `elf_symtab_write_to_file`: the bytes and the number of errors. -/
def symBytes (o : Obj) (st : St) (heads : List Head) (r : Ref) : Option (List Byte × Nat) :=
  match st.entry r with
  | none => none
  | some e =>
    let z := sizeOf e
    let v := valueOf o r e
    match nameIndex st.strtab e.name, sectIndex heads e v.2.1 with
    | some k, some i =>
      (o.machine.writeSym k v.1 z.1 e.bind (if inTls o r then sttTls else e.type) e.vis i).map fun b =>
        (b, z.2 + v.2.2)
    | _, _ => none

/-- elf.c:467-542 `elf_symtab_write_to_file`. -/
def symsBytes (o : Obj) (st : St) (heads : List Head) : List Ref → Option (List Byte × Nat)
  | [] => some ([], 0)
  | r :: rs =>
    match symBytes o st heads r, symsBytes o st heads rs with
    | some (b, k), some (bs, ks) => some (b ++ bs, k + ks)
    | _, _ => none

/-- elf-x86-x86.c:99-115, elf-x86-amd64.c:93-108, elf-x86-x32.c:91-106 `write_secthead`. -/
def Machine.writeShdr (m : Machine) (name type flags offset : Nat) (size : Int) (link info align entsize : Nat) :
    Option (List Byte) :=
  (m.wordI size).map fun z =>
    le 4 name ++ le 4 type ++ m.word flags ++ m.word 0 ++ m.word offset ++ z ++ le 4 link ++ le 4 info ++
      m.word align ++ m.word entsize

/-- elf-x86-x86.c:117-135 (the size is not checked), elf-x86-amd64.c:110-136, elf-x86-x32.c:108-134
    `write_secthead_rel`; the symbol table is section 3 (elf-objfmt.c:728). -/
def Machine.writeRelShdr (m : Machine) (name offset nreloc info : Nat) : Option (List Byte) :=
  match m with
  | .x86 =>
    some (le 4 name ++ le 4 m.relType ++ m.word 0 ++ m.word 0 ++ m.word offset ++ le 4 (m.relSize * nreloc) ++
      le 4 3 ++ le 4 info ++ m.word m.relAlign ++ m.word m.relSize)
  | _ => m.writeShdr name m.relType 0 offset (m.relSize * nreloc : Nat) 3 info m.relAlign m.relSize

/-- elf-objfmt.c:710-733 `elf_objfmt_output_secthead`: the header of a section and, if it has relocations, that of
    theirs. -/
def headBytes (m : Machine) (shstr : List Str) (i : Nat) (h : Head) : Option (List Byte) :=
  match nameIndex shstr (some h.name), nameIndex shstr h.relName with
  | some n, some r =>
    match m.writeShdr n h.type h.flags h.offset h.size h.link 0 h.align h.entsize with
    | none => none
    | some b =>
      if h.nreloc = 0 then some b
      else (m.writeRelShdr r h.relOffset h.nreloc (i + 1)).map (b ++ ·)
  | _, _ => none

/-- elf-objfmt.c:868-870: the loop over the sections; `i` is `info.sindex`. -/
def headsBytes (m : Machine) (shstr : List Str) : Nat → List Head → Option (List Byte × Nat)
  | i, [] => some ([], i)
  | i, h :: hs =>
    match headBytes m shstr i h with
    | none => none
    | some b =>
      match headsBytes m shstr (if h.nreloc = 0 then i + 1 else i + 2) hs with
      | none => none
      | some (bs, j) => some (b ++ bs, j)

/-- elf.c:934-958 `elf_proghead_write_to_file` with elf-x86-x86.c:197-225, elf-x86-amd64.c:208-239,
    elf-x86-x32.c:203-234 `write_proghead`. -/
def Machine.writeEhdr (m : Machine) (shoff shnum shstrndx : Nat) : List Byte :=
  [0x7f#8, 0x45#8, 0x4c#8, 0x46#8, if m.wide then 2#8 else 1#8, 1#8, 1#8] ++ List.replicate 9 0 ++
    le 2 1 ++ le 2 (if m = .x86 then 3 else 62) ++ le 4 1 ++ m.word 0 ++ m.word 0 ++ m.word shoff ++
    le 4 0 ++ le 2 m.ehdrSize ++ le 2 0 ++ le 2 0 ++ le 2 m.shdrSize ++ le 2 shnum ++ le 2 shstrndx

/-- The names of the last sections (elf-objfmt.c:785-788). -/
def nStrtab : Name := [0x2e#8, 0x73#8, 0x74#8, 0x72#8, 0x74#8, 0x61#8, 0x62#8]
def nSymtab : Name := [0x2e#8, 0x73#8, 0x79#8, 0x6d#8, 0x74#8, 0x61#8, 0x62#8]
def nShstrtab : Name := [0x2e#8, 0x73#8, 0x68#8, 0x73#8, 0x74#8, 0x72#8, 0x74#8, 0x61#8, 0x62#8]

/-- elf-objfmt.c:785-788: the table with the three names, and their places. -/
def addNames (t : List Str) : Option (List Str × Nat × Nat × Nat) :=
  match strAppend t nStrtab with
  | none => none
  | some (t, a) =>
    match strAppend t nSymtab with
    | none => none
    | some (t, b) =>
      match strAppend t nShstrtab with
      | none => none
      | some (t, c) => some (t, a, b, c)

/-- elf-objfmt.c:840-866: the first four headers: none, `.shstrtab`, `.strtab`, `.symtab`. -/
def firstHeads (m : Machine) (shstr : List Str) (names : Nat × Nat × Nat) (shstrOff shstrSize strOff strSize symOff symSize
    nlocal : Nat) : Option (List Byte) :=
  match nameIndex shstr (some names.1), nameIndex shstr (some names.2.1), nameIndex shstr (some names.2.2) with
  | some a, some b, some c =>
    match m.writeShdr 0 0 0 0 0 0 0 0 0, m.writeShdr c 3 0 shstrOff shstrSize 0 0 0 0,
      m.writeShdr a 3 0 strOff strSize 0 0 0 0,
      m.writeShdr b 2 0 symOff symSize 2 nlocal m.symAlign m.symSize with
    | some h0, some h1, some h2, some h3 => some (h0 ++ h1 ++ h2 ++ h3)
    | _, _, _, _ => none
  | _, _, _ => none

/-- The file and the number of errors recorded. -/
structure Result where
  file : List Byte
  errors : Nat

/-- elf-objfmt.c:784-880: the rest of the output, after the sections. -/
def finish (o : Obj) (w : W) : Option Result :=
  match addNames w.shstr with
  | none => none
  | some (shstr, names) =>
    let f1 := alignUp w.file 4
    let f2 := alignUp (f1 ++ strBytes shstr) 4
    let f3 := alignUp (f2 ++ strBytes w.st.strtab) 4
    match symsBytes o w.st w.heads w.st.table with
    | none => none
    | some (syms, errs) =>
      let f4 := alignUp (f3 ++ syms) 16
      match firstHeads o.machine shstr names f1.length (strBytes shstr).length f2.length (strBytes w.st.strtab).length
          f3.length syms.length w.st.nlocal, headsBytes o.machine shstr 3 w.heads with
      | some h, some (hs, n) =>
        let f5 := f4 ++ h ++ hs
        some ⟨o.machine.writeEhdr f4.length (n + 1) 1 ++ f5.drop o.machine.ehdrSize, w.st.errors + errs⟩
      | _, _ => none

/-- The symbols: elf-objfmt.c:348-387 `elf_objfmt_create_common`, the directives, elf-objfmt.c:753-754 and
    elf-objfmt.c:766-775. -/
def symbols (o : Obj) : Option St :=
  match create o.src0 with
  | none => none
  | some st =>
    match dirs o st o.dirs with
    | none => none
    | some st => buildAll o 0 o.syms { st with strtab := strSet st.strtab 1 o.src }

/-- elf-objfmt.c:735-880 `elf_objfmt_output`. -/
def output (o : Obj) : Option Result :=
  match symbols o, sectNames strCreate o.sects with
  | some st, some shstr =>
    match outSections o.machine 0 o.sects ⟨List.replicate o.machine.ehdrSize 0, 3, shstr, st, []⟩ with
    | none => none
    | some w => finish o w
  | _, _ => none

end Verif.Elf
