import Verif.Elf.Model
/-
Model of the debugging format `stabs`: modules/dbgfmts/stabs/stabs-dbgfmt.c, lines 188-448.

Names are C strings, lists of bytes without a zero byte.  The architecture is x86 (otherwise nothing is generated, stabs-dbgfmt.c:322-327), and the
program has no sections `.stab` and `.stabstr` of its own.  Bytecodes come with the file and the line yasm_linemap_lookup gives for them (see
`Verif.Linemap`), with their final lengths (see `Verif.Optimize`), and with the labels whose `precbc` they are (libyasm/symrec.c:339-340): the labels
*behind* them.  `none` is a crash of the program.
-/
namespace Verif.Stabs
open Verif.Elf (Byte Name le)

/-- A bytecode: libyasm/bytecode.h `yasm_bytecode`. -/
structure Bc where
  file : Name
  line : Nat
  len : Nat
  labels : List Name
  deriving DecidableEq, Repr

/-- A section: the labels at its start belong to an empty first bytecode (libyasm/section.c:494-497). -/
structure Sect where
  name : Name
  first : List Name
  bcs : List Bc
  deriving DecidableEq, Repr

structure Obj where
  src : Name
  sects : List Sect
  deriving DecidableEq, Repr

/-- The symbols values of stabs refer to: the section `.text`, a label, and the label `.n_so` (stabs-dbgfmt.c:305-307). -/
inductive Ref where
  | text
  | label (n : Name)
  | last
  deriving DecidableEq, Repr

/-- stabs-dbgfmt.c:104-112 `stabs_stab`: `str` is the offset of the string (`bcstr->offset`, or 0), the value a symbol or a number; `other` is 0. -/
structure Stab where
  str : Nat
  type : Nat
  desc : Nat
  value : Ref ⊕ Nat
  deriving DecidableEq, Repr

/-- stabs-dbgfmt.c:83-102 `stabs_info`: the stabs and the strings appended so far, the offset of `basebc`, and the last line and file.
    `lastfile` is not initialized by the code; where it is first read, `lastline` is 0 whatever it is. -/
structure Info where
  stabs : List Stab
  strs : List Name
  base : Option Nat
  lastline : Nat
  lastfile : Option Name
  deriving DecidableEq, Repr

/-- The size of what has been appended to `.stabstr`. -/
def size (strs : List Name) : Nat := (strs.map fun s => s.length + 1).sum

/-- stabs-dbgfmt.c:188-203 `stabs_dbgfmt_append_bcstr`. -/
def Info.str (i : Info) (s : Name) : Info × Nat := ({ i with strs := i.strs ++ [s] }, size i.strs)

/-- stabs-dbgfmt.c:205-235 `stabs_dbgfmt_append_stab`; `desc` becomes an unsigned short. -/
def Info.stab (i : Info) (str type desc : Nat) (value : Ref ⊕ Nat) : Info := { i with stabs := i.stabs ++ [⟨str, type, desc % 65536, value⟩] }

/-- stabs-dbgfmt.c:247-249: a label that is not ignored. -/
def isFun (n : Name) : Bool := !n.contains 46#8 && !n.contains 36#8

/-- `":F1"` -/
def funTail : Name := [58#8, 70#8, 49#8]

/-- stabs-dbgfmt.c:237-264 `stabs_dbgfmt_generate_n_fun` for a bytecode at an offset, with labels. -/
def Info.genFun (i : Info) (off : Nat) (labels : List Name) : Info :=
  match labels.find? isFun with
  | none => i
  | some n =>
    let r := { i with base := some off }.str (n ++ funTail)
    r.1.stab r.2 0x24 0 (.inl (.label n))

/-- stabs-dbgfmt.c:276-294: the line of a bytecode. -/
def Info.genLine (i : Info) (off : Nat) (b : Bc) : Info :=
  let i := if i.lastfile ≠ some b.file then { i with lastline := 0 } else i
  let i :=
    match i.base with
    | none => i
    | some o => if b.line ≠ i.lastline then i.stab 0 0x44 b.line (.inr (off - o)) else i
  { i with lastline := b.line, lastfile := some b.file }

/-- stabs-dbgfmt.c:266-295 `stabs_dbgfmt_generate_bcs`. -/
def Info.genBc (i : Info) (off : Nat) (b : Bc) : Info := (i.genFun off b.labels).genLine off b

/-- yasm_section_bcs_traverse, libyasm/section.c:646-667. -/
def Info.genBcs (i : Info) (off : Nat) : List Bc → Info
  | [] => i
  | b :: bs => (i.genBc off b).genBcs (off + b.len) bs

/-- `".text"` -/
def dotText : Name := [46#8, 116#8, 101#8, 120#8, 116#8]

/-- yasm__strcasecmp on one byte. -/
def lower (b : Byte) : Byte := if 65 ≤ b.toNat ∧ b.toNat ≤ 90 then b + 32#8 else b

/-- stabs-dbgfmt.c:297-313 `stabs_dbgfmt_generate_sections`. -/
def Info.genSect (i : Info) (s : Sect) : Info :=
  let i := ({ i with base := none }.genFun 0 s.first).genBcs 0 s.bcs
  if s.name.map lower = dotText then i.stab 0 0x64 0 (.inl .last) else i

/-- yasm_object_sections_traverse (libyasm/section.c:554-567) stops when the function it calls does not return 0, and
    `stabs_dbgfmt_generate_sections` returns 1. -/
def Info.genSects (i : Info) : List Sect → Info
  | [] => i
  | s :: _ => i.genSect s

structure Result where
  /-- the first stab and the others -/
  stabs : List Stab
  strs : List Name
  warnings : Nat
  deriving DecidableEq, Repr

/-- stabs-dbgfmt.c:315-409 `stabs_dbgfmt_generate`.  Without a section `.text` the function yasm_section_bcs_first is called with a null pointer
    (stabs-dbgfmt.c:378-380). -/
def generate (o : Obj) : Option Result :=
  if o.sects.all fun s => s.name ≠ dotText then none
  else
    let i : Info := ⟨[], [], none, 0, none⟩
    let i := (i.str []).1
    let r := i.str o.src
    let i := (r.1.stab r.2 0x64 0 (.inl .text)).genSects o.sects
    let n := i.stabs.length
    some ⟨⟨r.2, 0, if n > 0xffff then 0xffff else n, .inr (size i.strs)⟩ :: i.stabs, i.strs, if n > 0xffff then 1 else 0⟩

/-- stabs-dbgfmt.c:427-439: what is written for a value. -/
def Stab.low (s : Stab) : Nat := match s.value with | .inl _ => 0 | .inr v => v

/-- stabs-dbgfmt.c:411-443 `stabs_bc_stab_tobytes`; where the value is a symbol, the object format leaves a relocation (and 0, as far as the relocation
    has the symbol itself). -/
def stabBytes (s : Stab) : List Byte :=
  le 4 s.str ++ (le 1 s.type ++ (le 1 0 ++ (le 2 s.desc ++ le 4 s.low)))

/-- The contents of `.stab`. -/
def Result.stab (r : Result) : List Byte := r.stabs.flatMap stabBytes

/-- stabs-dbgfmt.c:445-460 `stabs_bc_str_tobytes`: the contents of `.stabstr`. -/
def Result.stabstr (r : Result) : List Byte := r.strs.flatMap fun s => s ++ [0]

/-- The relocations of `.stab` from a stab at `pos` on (stabs-dbgfmt.c:427-432: the value is 8 bytes into the stab). -/
def relocs : Nat → List Stab → List (Nat × Ref)
  | _, [] => []
  | pos, s :: ss => (match s.value with | .inl r => [(pos + 8, r)] | .inr _ => []) ++ relocs (pos + 12) ss

def Result.relocs (r : Result) : List (Nat × Ref) := Verif.Stabs.relocs 0 r.stabs

end Verif.Stabs
