/-
Model of the object/section half of libyasm/section.c: the section list of an object, the bytecode and
relocation lists of a section.  (The optimizer, section.c:745-1530, is modelled in Verif.Optimize and
the directive table, section.c:180-231 and 378-398, in Verif.Directive.)

Simplifications: a section pointer is the position of the section in the object's list (sections are
never removed or reordered before the object is destroyed); names are byte strings without NUL, so
`strcmp(a,b)==0` is equality; a bytecode is an identity, whether it has a callback, its line, its
section and its offset.  The object format's `init_new_section` hook is an arbitrary list of
operations on the new section (the hooks in modules/objfmts allocate their data, attach it, and define
symbols; none adds or removes a section).  Source/object file names, prefix and suffix are left out.
-/
import Verif.Assoc.Model

namespace Verif.Section

abbrev Name := List (BitVec 8)

/-- bytecode.h:112-160: the fields of a bytecode touched here. `offset` starts as `~0UL`
    (bytecode.c:99-124 `yasm_bc_create_common`). -/
structure Bc where
  id : Nat
  callback : Bool
  line : Nat
  sect : Option Nat
  offset : Nat
deriving Repr, DecidableEq

/-- bytecode.c:99-124: a fresh bytecode. -/
def Bc.fresh (id : Nat) (callback : Bool) (line : Nat) : Bc := ⟨id, callback, line, none, 2 ^ 64 - 1⟩

/-- section.c:60-92 `struct yasm_section`. -/
structure Sect where
  name : Name
  align : Nat
  code : Int
  resOnly : Int
  dflt : Int
  optFlags : Nat
  bcs : List Bc
  relocs : List Nat
  destroyReloc : Option Nat
  data : Option Assoc.Assoc
deriving Repr, DecidableEq

/-- section.h: an object, reduced to its sections in list order. -/
structure Object where
  sections : List Sect
deriving Repr, DecidableEq

/-- section.c:252-253: no sections yet. -/
def Object.empty : Object := ⟨[]⟩

/-- Operations on one section (by pointer). -/
inductive SectOp
  | append (bc : Option Bc)
  | addReloc (reloc : Nat) (destroy : Option Nat)
  | setAlign (align : Nat)
  | setDefault (d : Int)
  | setOptFlags (f : Nat)
  | addData (cb data : Nat)

/-- Outcome of a section operation: done, with the bytecode appended (if any); `yasm_internal_error`;
    or an out-of-bounds write in the associated data. -/
inductive Res (α : Type)
  | done (s : α) (ret : Option Nat)
  | internalError
  | ub
deriving Repr, DecidableEq

/-- section.c:566-577, 628-643, 431-473, 676-690: the section operations. `me` is the pointer of the
    section itself.  A bytecode without a callback is freed and not appended.  An abort in `add_reloc`
    comes after the relocation was queued; nothing can be observed after an abort. -/
def SectOp.apply (me : Nat) (s : Sect) : SectOp → Res Sect
  | .append none => .done s none
  | .append (some bc) =>
    if bc.callback then .done { s with bcs := s.bcs ++ [{ bc with sect := some me }] } (some bc.id)
    else .done s none
  | .addReloc r destroy =>
    match destroy with
    | none => .internalError
    | some d =>
      match s.destroyReloc with
      | some d' =>
        if d ≠ d' then .internalError
        else .done { s with relocs := s.relocs ++ [r], destroyReloc := some d } none
      | none => .done { s with relocs := s.relocs ++ [r], destroyReloc := some d } none
  | .setAlign a => .done { s with align := a } none
  | .setDefault d => .done { s with dflt := d } none
  | .setOptFlags f => .done { s with optFlags := f } none
  | .addData cb d =>
    match Assoc.add s.data cb d with
    | none => .ub
    | some (a, _) => .done { s with data := some a } none

/-- A list of operations on one section. -/
def applyAll (me : Nat) (s : Sect) : List SectOp → Res Sect
  | [] => .done s none
  | op :: ops =>
    match op.apply me s with
    | .done s' _ => applyAll me s' ops
    | .internalError => .internalError
    | .ub => .ub

/-- section.c:338-368: a freshly allocated section before the object format's hook runs: one empty
    bytecode, offset 0, belonging to the section. -/
def Sect.fresh (me : Nat) (name : Name) (align : Nat) (code resOnly : Int) : Sect :=
  { name, align, code, resOnly, dflt := 0, optFlags := 0,
    bcs := [{ Bc.fresh 0 false 0 with sect := some me, offset := 0 }],
    relocs := [], destroyReloc := none, data := none }

/-- section.c:330-335, 555-560: the linear search by name. -/
def findGeneral (o : Object) (name : Name) : Option Nat :=
  o.sections.findIdx? (fun s => s.name == name)

/-- The object format hook: operations it performs on the new section, given its position, name and
    line. -/
abbrev Hook := Nat → Name → Nat → List SectOp

/-- section.c:321-375 `yasm_object_get_general`: the section and `*isnew`. -/
def getGeneral (hook : Hook) (o : Object) (name : Name) (align : Nat) (code resOnly : Int)
    (line : Nat) : Res (Object × Nat × Bool) :=
  match findGeneral o name with
  | some i => .done (o, i, false) none
  | none =>
    let i := o.sections.length
    match applyAll i (Sect.fresh i name align code resOnly) (hook i name line) with
    | .done s _ => .done (⟨o.sections ++ [s]⟩, i, true) none
    | .internalError => .internalError
    | .ub => .ub

/-- Calls made by the rest of the assembler. -/
inductive Op
  | get (name : Name) (align : Nat) (code resOnly : Int) (line : Nat)
  | sect (i : Nat) (op : SectOp)

/-- One call. A section pointer that was never handed out is outside the interface: `ub`. -/
def Op.apply (hook : Hook) (o : Object) : Op → Res Object
  | .get name align code resOnly line =>
    match getGeneral hook o name align code resOnly line with
    | .done (o', _, _) _ => .done o' none
    | .internalError => .internalError
    | .ub => .ub
  | .sect i op =>
    match o.sections[i]? with
    | none => .ub
    | some s =>
      match op.apply i s with
      | .done s' r => .done ⟨o.sections.set i s'⟩ r
      | .internalError => .internalError
      | .ub => .ub

/-- A history of calls. -/
def run (hook : Hook) (o : Object) : List Op → Res Object
  | [] => .done o none
  | op :: ops =>
    match op.apply hook o with
    | .done o' _ => run hook o' ops
    | .internalError => .internalError
    | .ub => .ub

/-- section.c:646-668 `yasm_section_bcs_traverse`, after the skipped first bytecode: the callback
    threads its own state; `propagated` are the lines handed to `yasm_errwarn_propagate` (nothing if
    `errwarns` is NULL). Returns (calls, lines, state, return value). -/
def traverseGo {σ : Type} (errwarns : Bool) (f : σ → Bc → Int × σ) :
    List Bc → σ → List Bc × List Nat × σ × Int
  | [], st => ([], [], st, 0)
  | b :: bs, st =>
    let r := f st b
    let prop := if errwarns then [b.line] else []
    if r.1 ≠ 0 then ([b], prop, r.2, r.1)
    else
      let rest := traverseGo errwarns f bs r.2
      (b :: rest.1, prop ++ rest.2.1, rest.2.2)

def bcsTraverse {σ : Type} (errwarns : Bool) (f : σ → Bc → Int × σ) (s : Sect) (st : σ) :
    List Bc × List Nat × σ × Int :=
  traverseGo errwarns f s.bcs.tail st

/-- section.c:538-551 `yasm_object_sections_traverse`. -/
def sectionsTraverse {σ : Type} (f : σ → Sect → Int × σ) : List Sect → σ → List Sect × σ × Int
  | [], st => ([], st, 0)
  | s :: ss, st =>
    let r := f st s
    if r.1 ≠ 0 then ([s], r.2, r.1)
    else
      let rest := sectionsTraverse f ss r.2
      (s :: rest.1, rest.2)

/-- section.c:692-723 `yasm_section_destroy`: bytecodes destroyed, then relocations through the
    section's one destroy function. -/
def destroyCalls (s : Sect) : List Nat × List (Option Nat × Nat) :=
  (s.bcs.map (·.id), s.relocs.map (fun r => (s.destroyReloc, r)))

end Verif.Section
