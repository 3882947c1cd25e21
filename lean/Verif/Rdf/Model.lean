import Verif.Coff.Model
/-
Model of the object format `rdf` (RDOFF2): modules/objfmts/rdf/rdf-objfmt.c, lines 181-731 and 1005-1026.

As in `Verif.Coff.Model`: names are C strings, lists of bytes without a zero byte; `unsigned long` and file positions are natural numbers, and
where a field of the file is smaller, the bytes written are those of the code; integers of yasm_intnum are integers; reading and writing files
does not fail.  `none` is the end of the program with an internal error.  The contents of a section are given as they are after its bytecodes
have been written (libyasm/bytecode.c, see `Verif.Bytecode`), with the relocations `outputValue` has made.
-/
namespace Verif.Rdf
open Verif.Elf (Byte Name le Num Chunk)
open Verif.Coff (getUint)

/-- What a symbol stands for: a label in a section, at an offset from its start (yasm_bc_next_offset of the bytecode before it); an EQU; or
    anything else. -/
inductive Kind where
  | label (sect : Nat) (offset : Nat)
  | equ
  | other
  deriving DecidableEq, Repr

/-- The words after a declaration that `rdf_parse_flags` knows (rdf-objfmt.c:493-507); `object` is the same as `data`, `function` as `proc`. -/
inductive Word where
  | data | proc | imp | exp | far | near
  deriving DecidableEq, Repr

/-- A symbol: libyasm/symrec.c `yasm_symrec`, the visibility as three flags (GLOBAL, COMMON, EXTERN); `tabled` if it is in the symbol table (`$` and
    `$$` are not, libyasm/symrec.c:344-353); `csize` and `calign` are the size and the alignment of a common variable, 0 if none was given. -/
structure Sym where
  name : Name
  ext : Bool
  common : Bool
  glob : Bool
  tabled : Bool
  kind : Kind
  words : List Word
  csize : Num
  calign : Nat
  deriving DecidableEq, Repr

inductive Rt where
  | norm | rel | seg
  deriving DecidableEq, Repr

/-- rdf-objfmt.c:69-78 `rdf_reloc`. -/
structure Reloc where
  addr : Nat
  type : Rt
  size : Nat
  refseg : Nat
  deriving DecidableEq, Repr

/-- A section with its `rdf_section_data` (rdf-objfmt.c:80-97); `type` is 0 for BSS, `length` the offset of its end; sections are numbered in their
    order (rdf-objfmt.c:816). -/
structure Sect where
  type : Nat
  reserved : Nat
  length : Nat
  chunks : List Chunk
  relocs : List Reloc
  deriving DecidableEq, Repr

/-- The object; `modules` and `libraries` are the arguments of the directives. -/
structure Obj where
  pre : Name
  suf : Name
  modules : List Name
  libraries : List Name
  syms : List Sym
  sects : List Sect
  deriving DecidableEq, Repr

/-! ### Symbols -/

/-- yasm_symrec_get_global_name, libyasm/symrec.c:495-507. -/
def Obj.globalName (o : Obj) (s : Sym) : Name := if s.glob || s.common || s.ext then o.pre ++ s.name ++ o.suf else s.name

/-- rdf-objfmt.c:465-482 `rdf_helper_flag` with its table (rdf-objfmt.c:493-507). -/
def applyWord (s : Sym) (flags : Nat) : Word → Nat
  | .data => if s.glob || s.ext then flags ||| 1 else flags
  | .proc => if s.glob || s.ext then flags ||| 2 else flags
  | .imp => if s.ext then flags ||| 8 else flags
  | .exp => if s.glob then flags ||| 4 else flags
  | .far => if s.ext then flags ||| 16 else flags
  | .near => if s.ext then flags &&& 15 else flags

/-- rdf-objfmt.c:484-516 `rdf_parse_flags`. -/
def parseFlags (s : Sym) : Nat := s.words.foldl (applyWord s) 0

/-- rdf-objfmt.c:533-534: a local symbol. -/
def Sym.isLocal (s : Sym) : Bool := !(s.glob || s.common || s.ext)

/-- rdf-objfmt.c:537-561: symbols that are passed over. -/
def Sym.passed (s : Sym) : Bool := !s.tabled || s.isLocal || decide (s.kind = .equ)

/-- rdf-objfmt.c:553-554 and 529: the value and the section. -/
def valueOf (s : Sym) : Nat × Nat := match s.kind with | .label k off => (off, k) | _ => (0, 0)

/-- rdf-objfmt.c:563-571: the name, cut if it is too long. -/
def Obj.cutName (o : Obj) (s : Sym) : Name := (o.globalName s).take 63

/-- rdf-objfmt.c:604-611: the size of a common variable. -/
def sizeOf (s : Sym) : Nat := match s.csize with | .int v => getUint v | .other => (valueOf s).1

/-- rdf-objfmt.c:573-670 `rdf_objfmt_output_sym` for a symbol that is not passed over; `i` is `info->indx`. -/
def symBytes (o : Obj) (i : Nat) (s : Sym) : List Byte :=
  let name := o.cutName s
  (if s.glob then
    le 1 3 ++ (le 1 (6 + name.length + 1) ++ (le 1 (parseFlags s) ++ (le 1 (valueOf s).2 ++ le 4 (valueOf s).1)))
  else if s.common then
    le 1 10 ++ (le 1 (8 + name.length + 1) ++ (le 2 i ++ (le 4 (sizeOf s) ++ le 2 s.calign)))
  else
    (if parseFlags s / 16 % 2 = 1 then le 1 7 else le 1 2) ++ (le 1 (3 + name.length + 1) ++
      (le 1 (if parseFlags s / 16 % 2 = 1 then parseFlags s - 16 else parseFlags s) ++ le 2 i))) ++ (name ++ [0])

/-- All symbols (rdf-objfmt.c:716-717), with `info->indx` from `i` on. -/
def symsBytes (o : Obj) : Nat → List Sym → List Byte
  | _, [] => []
  | i, s :: ss => if s.passed then symsBytes o i ss else symBytes o i s ++ symsBytes o (if s.glob then i else i + 1) ss

/-- The segment numbers given to them (rdf-objfmt.c:582-583), `none` for a symbol without data. -/
def numbers : Nat → List Sym → List (Option Nat)
  | _, [] => []
  | i, s :: ss => if s.passed || s.glob then none :: numbers i ss else some i :: numbers (i + 1) ss

/-- `rsymd` of a symbol. -/
def Obj.data (o : Obj) (n : Nat) : Option Nat := (numbers o.sects.length o.syms)[n]?.join

/-- is_exp2 (rdf-objfmt.c:635, util.h:148). -/
def isExp2 (n : Nat) : Bool := decide (n &&& (n - 1) = 0)

/-- rdf-objfmt.c:607-610 and 634-639: an error for the symbol. -/
def Sym.bad (s : Sym) : Bool := !s.passed && !s.glob && s.common && (decide (s.csize = .other) || !isExp2 s.calign)

/-- rdf-objfmt.c:555-560 and 566-571: a warning for it. -/
def Obj.warned (o : Obj) (s : Sym) : Bool :=
  s.tabled && !s.isLocal && (decide (s.kind = .equ) || decide (63 < (o.globalName s).length))

/-! ### Names of modules and libraries -/

/-- rdf-objfmt.c:1005-1026 `rdf_objfmt_add_libmodule`. -/
def storedName (n : Name) : Name := n.take 127

/-- rdf-objfmt.c:691-713: a record for a name. -/
def nameBytes (type : Nat) (n : Name) : List Byte := le 1 type ++ (le 1 ((storedName n).length + 1) ++ (storedName n ++ [0]))

/-! ### Sections -/

/-- What the bytecodes of a section have given (rdf-objfmt.c:299-341). -/
def Sect.written (s : Sect) : List Byte := s.chunks.flatMap Chunk.write

/-- rdf-objfmt.c:343-382 `rdf_objfmt_output_section_mem`: whether the size is what it should be. -/
def Sect.sized (s : Sect) : Bool := decide (s.type = 0) || decide (s.length = 0) || decide (s.written.length = s.length)

/-- `rsd->size` for sections that are not BSS, with `type == RDF_SECT_BSS || size == 0` of rdf-objfmt.c:395-402 and 433-440. -/
def Sect.skipped (s : Sect) : Bool := decide (s.type = 0) || decide (s.length = 0)

/-- rdf-objfmt.c:404-417: a relocation of section `j`. -/
def relocBytes (j : Nat) (r : Reloc) : List Byte :=
  (if r.type = .seg then le 1 6 else le 1 1) ++ (le 1 8 ++ (le 1 (j + if r.type = .rel then 0x40 else 0) ++ (le 4 r.addr ++ (le 1 r.size ++ le 2 r.refseg))))

/-- rdf-objfmt.c:384-420 `rdf_objfmt_output_section_reloc` over the sections from number `j` on. -/
def relocsBytes : Nat → List Sect → List Byte
  | _, [] => []
  | j, s :: ss => (if s.skipped then [] else s.relocs.flatMap (relocBytes j)) ++ relocsBytes (j + 1) ss

/-- rdf-objfmt.c:422-457 `rdf_objfmt_output_section_file` over the sections from number `j` on. -/
def segsBytes : Nat → List Sect → List Byte
  | _, [] => []
  | j, s :: ss => (if s.skipped then [] else le 2 s.type ++ (le 2 j ++ (le 2 s.reserved ++ (le 4 s.length ++ s.written)))) ++ segsBytes (j + 1) ss

/-- rdf-objfmt.c:357-363: the size of all BSS sections. -/
def Obj.bssSize (o : Obj) : Nat := ((o.sects.filter fun s => s.type = 0).map (·.length)).sum

structure Result where
  file : List Byte
  errors : Nat
  warnings : Nat
  deriving DecidableEq, Repr

/-- The header (rdf-objfmt.c:691-747). -/
def Obj.header (o : Obj) : List Byte :=
  o.modules.flatMap (nameBytes 8) ++ (o.libraries.flatMap (nameBytes 4) ++ (symsBytes o o.sects.length o.syms ++ (relocsBytes 0 o.sects ++
    if o.bssSize > 0 then le 1 5 ++ (le 1 4 ++ le 4 o.bssSize) else [])))

def magic : List Byte := [0x52, 0x44, 0x4f, 0x46, 0x46, 0x32]

/-- rdf-objfmt.c:673-796 `rdf_objfmt_output`; `filelen` is 14 and the lengths of the header and of the segments. -/
def output (o : Obj) : Option Result :=
  if o.sects.all Sect.sized then
    let body := segsBytes 0 o.sects ++ List.replicate 10 0
    some ⟨magic ++ (le 4 (14 + o.header.length + body.length - 10) ++ (le 4 (14 + o.header.length - 14) ++ (o.header ++ body))),
      (o.syms.filter Sym.bad).length, (o.syms.filter o.warned).length + ((o.modules ++ o.libraries).filter fun n => 127 < n.length).length⟩
  else none

/-! ### Values -/

/-- A `yasm_value` as it comes to `rdf_objfmt_output_value`; symbols by their number. -/
structure Val where
  abs : Option Num
  rel : Option Nat
  wrt : Option Nat
  segOf : Bool
  sectionRel : Bool
  curposRel : Bool
  rshift : Nat
  size : Nat
  deriving DecidableEq, Repr

inductive Out where
  | error
  | crash
  | ok (stored : Int) (reloc : Option Reloc)
  deriving DecidableEq, Repr

/-- rdf-objfmt.c:269-296: what is stored, from `intn_minus` and `intn_plus`. -/
def store (v : Val) (minus plus : Nat) (r : Option Reloc) : Out :=
  let intn : Int := if minus > 0 then -minus else plus
  match v.abs with
  | none => .ok intn r
  | some (.int a) => .ok (intn + a) r
  | some .other => .error

/-- rdf-objfmt.c:181-297 `rdf_objfmt_output_value`, after yasm_value_output_basic has declined: for a value at an offset in a bytecode at `bc`.  The
    shift of the value is not looked at. -/
def outputValue (o : Obj) (v : Val) (bc offset : Nat) : Out :=
  if v.sectionRel then .error
  else if v.rel.isSome && v.wrt.isSome then .error
  else
    match v.rel with
    | none => store v 0 0 none
    | some n =>
      let type : Rt := if v.segOf then .seg else if v.curposRel then .rel else .norm
      let minus := if !v.segOf && v.curposRel then bc else 0
      match o.syms[n]? with
      | none => .crash
      | some x =>
        match x.kind with
        | .label k off => store v minus off (some ⟨bc + offset, type, v.size / 8, k⟩)
        | _ =>
          match o.data n with
          | none => .crash
          | some seg => store v minus 0 (some ⟨bc + offset, type, v.size / 8, seg⟩)

end Verif.Rdf
