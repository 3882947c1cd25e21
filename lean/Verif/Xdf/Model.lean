import Verif.Coff.Model
/-
Model of the object format `xdf`: modules/objfmts/xdf/xdf-objfmt.c, lines 147-596.

As in `Verif.Coff.Model`: names are C strings, lists of bytes without a zero byte; `unsigned long` and file positions are natural numbers, and
where a field of the file is smaller, the bytes written are those of the code; integers of yasm_intnum are integers; reading and writing files
does not fail.  `none` is the end of the program with an internal error or a failed assertion.  The contents of a section are given as they are
after its bytecodes have been written (libyasm/bytecode.c, see `Verif.Bytecode`), with the relocations `outputValue` has made.
-/
namespace Verif.Xdf
open Verif.Elf (Byte Name le Num Chunk)
open Verif.Coff (getUint)

/-- What a symbol stands for: a label in a section, at an offset from its start (yasm_bc_next_offset of the bytecode before it); an EQU; or
    anything else. -/
inductive Kind where
  | label (sect : Nat) (offset : Nat)
  | equ (v : Num)
  | other
  deriving DecidableEq, Repr

/-- A symbol: libyasm/symrec.c `yasm_symrec`, the visibility as three flags; `tabled` if it is in the symbol table (`$` and `$$` are not,
    libyasm/symrec.c:344-353). -/
structure Sym where
  name : Name
  ext : Bool
  common : Bool
  glob : Bool
  tabled : Bool
  kind : Kind
  deriving DecidableEq, Repr

/-- xdf-objfmt.c:40-57 `xdf_reloc`; symbols by their number. -/
structure Reloc where
  addr : Nat
  sym : Nat
  base : Option Nat
  type : Nat
  size : Nat
  shift : Nat
  deriving DecidableEq, Repr

/-- A section with its `xdf_section_data` (xdf-objfmt.c:59-78) before the output; `sym` is the number of its symbol, `length` the offset of its
    end; sections are numbered in their order. -/
structure Sect where
  name : Name
  sym : Nat
  addr : Option Int
  vaddr : Option Int
  flags : Nat
  align : Nat
  length : Nat
  chunks : List Chunk
  relocs : List Reloc
  deriving DecidableEq, Repr

structure Obj where
  pre : Name
  suf : Name
  syms : List Sym
  sects : List Sect
  deriving DecidableEq, Repr

/-! ### Symbols -/

/-- What yasm_symtab_traverse goes through. -/
def Obj.table (o : Obj) : List Sym := o.syms.filter (·.tabled)

/-- yasm_symrec_get_global_name, libyasm/symrec.c:495-507. -/
def Obj.globalName (o : Obj) (s : Sym) : Name := if s.glob || s.common || s.ext then o.pre ++ s.name ++ o.suf else s.name

/-- xdf-objfmt.c:418-443 `xdf_objfmt_count_sym`; `info->all_syms` is 1 (xdf-objfmt.c:564).  The indexes from `i` on, and the number of symbols; `none`
    is a symbol without data. -/
def countSyms : Nat → List Sym → List (Option Nat) × Nat
  | i, [] => ([], i)
  | i, s :: ss =>
    if s.tabled && !s.common then
      let r := countSyms (i + 1) ss
      (some i :: r.1, r.2)
    else
      let r := countSyms i ss
      (none :: r.1, r.2)

/-- `symtab_count` (xdf-objfmt.c:566). -/
def Obj.count (o : Obj) : Nat := (countSyms 0 o.syms).2

/-- `xsymd` of a symbol. -/
def Obj.data (o : Obj) (n : Nat) : Option Nat := (countSyms 0 o.syms).1[n]?.join

/-- Errors for common variables (xdf-objfmt.c:424-429). -/
def Obj.commons (o : Obj) : Nat := (o.table.filter (·.common)).length

/-- The value, the section number and the flags of a symbol (xdf-objfmt.c:459-503).  Labels without a section are not modelled. -/
def valueOf (s : Sym) : Nat × Nat × Nat :=
  match s.kind with
  | .label k off => (off, k, if s.glob then 2 else 0)
  | .equ (.int v) => (getUint v, 0xfffffffe, (if s.glob then 2 else 0) ||| 4)
  | .equ .other => (0, 0xfffffffe, (if s.glob then 2 else 0) ||| 4)
  | .other => if s.ext then (0, 0xffffffff, 1) else (0, 0xfffffffd, if s.glob then 2 else 0)

/-- xdf-objfmt.c:488-492: an error for a global EQU that is no integer. -/
def Sym.bad (s : Sym) : Bool := s.glob && decide (s.kind = .equ .other)

/-- xdf-objfmt.c:505-511: an entry with its place in the string table. -/
def symBytes (s : Sym) (str : Nat) : List Byte := le 4 (valueOf s).2.1 ++ (le 4 (valueOf s).1 ++ (le 4 str ++ le 4 (valueOf s).2.2))

/-- xdf-objfmt.c:445-515 `xdf_objfmt_output_sym`, over the table, from `info->strtab_offset` on. -/
def symsBytes (o : Obj) : Nat → List Sym → List Byte
  | _, [] => []
  | str, s :: ss => symBytes s str ++ symsBytes o (str + ((o.globalName s).length + 1)) ss

/-- xdf-objfmt.c:517-532 `xdf_objfmt_output_str`, over the table. -/
def strsBytes (o : Obj) (ss : List Sym) : List Byte := ss.flatMap fun s => o.globalName s ++ [0]

/-- xdf-objfmt.c:569 -/
def Obj.strStart (o : Obj) : Nat := 16 + 40 * o.sects.length + 16 * o.count

/-! ### Sections -/

/-- `xsd->flags & XDF_SECT_BSS` -/
def Sect.bss (s : Sect) : Bool := decide (s.flags / 4 % 2 = 1)

/-- `scnptr`, `size`, `relptr` and `nreloc` of `xdf_section_data`. -/
structure Head where
  ptr : Nat
  size : Nat
  relptr : Nat
  nreloc : Nat
  deriving DecidableEq, Repr

/-- xdf-objfmt.c:348-361: the index of the base symbol. -/
def baseOf (o : Obj) (r : Reloc) : Nat := match r.base with | some b => (o.data b).getD 0 | none => 0

/-- xdf-objfmt.c:336-367: a relocation. -/
def relocBytes (o : Obj) (r : Reloc) : List Byte :=
  le 4 r.addr ++ (le 4 ((o.data r.sym).getD 0) ++ (le 4 (baseOf o r) ++
    (le 1 r.type ++ (le 1 r.size ++ (le 1 r.shift ++ le 1 0)))))

/-- xdf-objfmt.c:341-361: the symbols of a relocation have data, and one relative to a symbol has a symbol. -/
def relocOk (o : Obj) (r : Reloc) : Bool :=
  (o.data r.sym).isSome && (match r.base with | some b => (o.data b).isSome | none => !decide (r.type = 2))

/-- What the bytecodes of a section have given (xdf-objfmt.c:241-287). -/
def Sect.written (s : Sect) : List Byte := s.chunks.flatMap Chunk.write

/-- xdf-objfmt.c:289-372 `xdf_objfmt_output_section` at a position of the file: the header data and what is written. -/
def outSect (o : Obj) (pos : Nat) (s : Sect) : Option (Head × List Byte) :=
  if s.bss then some (⟨0, s.length, 0, 0⟩, [])
  else if s.written.length ≠ s.length then none
  else if s.length = 0 then some (⟨0, 0, 0, s.relocs.length⟩, [])
  else if s.relocs = [] then some (⟨pos, s.length, 0, 0⟩, s.written)
  else if s.relocs.all (relocOk o) then
    some (⟨pos, s.length, pos + s.length, s.relocs.length⟩, s.written ++ s.relocs.flatMap (relocBytes o))
  else none

def outSects (o : Obj) : Nat → List Sect → Option (List Head × List Byte)
  | _, [] => some ([], [])
  | pos, s :: ss =>
    match outSect o pos s with
    | none => none
    | some (h, bs) =>
      match outSects o (pos + bs.length) ss with
      | none => none
      | some (hs, rest) => some (h :: hs, bs ++ rest)

/-- yasm_intnum_get_sized for 64 bits. -/
def le8 (v : Int) : List Byte := le 8 (v % 2 ^ 64).toNat

/-- xdf-objfmt.c:390-396: the physical address. -/
def physical (s : Sect) : List Byte := match s.addr with | some a => le8 a | none => le 8 0

/-- xdf-objfmt.c:397-406: the virtual address. -/
def virtual (s : Sect) : List Byte := match s.vaddr, s.addr with | some a, _ => le8 a | none, some a => le8 a | none, none => le 8 0

/-- xdf-objfmt.c:374-416 `xdf_objfmt_output_secthead`. -/
def headBytes (o : Obj) (p : Sect × Head) : List Byte :=
  le 4 ((o.data p.1.sym).getD 0) ++
    (physical p.1 ++ (virtual p.1 ++
    (le 2 p.1.align ++ (le 2 p.1.flags ++ (le 4 p.2.ptr ++ (le 4 p.2.size ++ (le 4 p.2.relptr ++ le 4 p.2.nreloc)))))))

structure Result where
  file : List Byte
  errors : Nat
  deriving DecidableEq, Repr

/-- xdf-objfmt.c:534-596 `xdf_objfmt_output`; the headers are written last, into space left for them at the start. -/
def output (o : Obj) : Option Result :=
  let strs := strsBytes o o.table
  match outSects o (o.strStart + strs.length) o.sects with
  | none => none
  | some (hs, rest) =>
    if o.sects.all fun s => (o.data s.sym).isSome then
      some ⟨(le 4 0x87654322 ++ (le 4 o.sects.length ++ (le 4 o.count ++ le 4 (o.strStart + strs.length - 16)))) ++
          ((o.sects.zip hs).flatMap (headBytes o) ++ (symsBytes o o.strStart o.table ++ (strs ++ rest))),
        o.commons + (o.table.filter Sym.bad).length⟩
    else none

/-! ### Values -/

/-- A `yasm_value` as it comes to `xdf_objfmt_output_value`; symbols by their number. -/
structure Val where
  abs : Option Num
  rel : Option Nat
  wrt : Option Nat
  segOf : Bool
  sectionRel : Bool
  curposRel : Bool
  rshift : Nat
  size : Nat
  deriving DecidableEq, Repr

inductive Out where
  | error
  | ok (stored : Int) (reloc : Option Reloc)
  deriving DecidableEq, Repr

/-- xdf-objfmt.c:147-239 `xdf_objfmt_output_value`, after yasm_value_output_basic has declined: for a value at an offset in a bytecode at `bc`. -/
def outputValue (v : Val) (bc offset : Nat) : Out :=
  if v.sectionRel then .error
  else
    let reloc := v.rel.map fun n =>
      (⟨bc + offset, n, if v.segOf then none else v.wrt,
        if v.segOf then 8 else if v.wrt.isSome then 2 else if v.curposRel then 4 else 1, v.size / 8, v.rshift⟩ : Reloc)
    let minus : Int := if v.rel.isSome && !v.segOf && v.wrt.isNone && v.curposRel then bc else 0
    match v.abs with
    | none => .ok (-minus) reloc
    | some (.int a) => .ok (-minus + a) reloc
    | some .other => .error

end Verif.Xdf
