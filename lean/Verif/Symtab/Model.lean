import Verif.Hamt.Model
import Verif.Errwarn.Model
/-
Model of libyasm/symrec.c: the symbol table, on top of the models of the hash table (`Verif.Hamt`) and of the
error indicator (`Verif.Errwarn`).

Records are numbered in the order they are made and kept in a list; a record is updated in place.  A record
made for a name that turns out to be in the table already is freed at once (symrec.c:201-202) and gets no
number.  Expressions and bytecodes are numbers.  Line numbers and `unsigned` sizes are natural numbers.
`assoc_data` is modelled in `Verif.Assoc`.  Allocation succeeds.
-/
namespace Verif.Symtab
open Verif.Hamt (Key Hamt Out)
open Verif.Errwarn (Global errorSet errorSetXref warnSet eGeneral eNone)

/-- symrec.c:50-59 `sym_type`. -/
inductive SymType where
  | unknown | equ | label | curpos | special
  deriving DecidableEq, Repr

/-- symrec.h:53-59 `yasm_sym_vis`, a set of flags. -/
abbrev Vis := BitVec 4
def visLocal : Vis := 0
def visGlobal : Vis := 1
def visCommon : Vis := 2
def visExtern : Vis := 4
def visDlocal : Vis := 8

/-- symrec.c:69-74 the union `value`: not written yet, an expression, or a bytecode (none: NULL). -/
inductive Value where
  | unset
  | expn (e : Nat)
  | precbc (bc : Option Nat)
  deriving DecidableEq, Repr

/-- symrec.c:61-80 `yasm_symrec`; the four flags of `status` (symrec.h:41-47). -/
structure Rec where
  name : Key
  type : SymType
  used : Bool
  defined : Bool
  valued : Bool
  notInTable : Bool
  vis : Vis
  defLine : Nat
  declLine : Nat
  useLine : Nat
  value : Value
  size : Nat
  segment : Option Nat
  deriving DecidableEq, Repr

/-- symrec.c:88-95 `yasm_symtab`, with the records, and the list `symrecs` of every bytecode
    (bytecode.c:121-139) as pairs (bytecode, record). -/
structure Tab where
  table : Hamt Nat
  recs : List Rec
  nonTable : List Nat
  caseSensitive : Bool
  attached : List (Nat × Nat)

/-- symrec.c:133-141 `yasm_symtab_create`. -/
def Tab.create : Tab := ⟨Hamt.create Nat, [], [], true, []⟩

/-- symrec.c:143-147. -/
def Tab.setCaseSensitive (t : Tab) (sensitive : Bool) : Tab := { t with caseSensitive := sensitive }

/-- symrec.c:165-169, 190-194, 280-284: names are made lower case unless the table is case sensitive. -/
def Tab.norm (t : Tab) (name : Key) : Key := if t.caseSensitive then name else name.map Hamt.toLower

/-- The table is created with nocase 0 (symrec.c:137). -/
abbrev cfg : Hamt.Cfg := Hamt.Cfg.ofNocase false

/-- symrec.c:160-181 `symrec_new_common`, with the status set by the callers. -/
def newRec (name : Key) (notInTable : Bool) : Rec :=
  ⟨name, .unknown, false, false, false, notInTable, visLocal, 0, 0, 0, .unset, 0, none⟩

/-- symrec.c:183-203 `symtab_get_or_new_in_table`: the record of that name, made if need be. -/
def Tab.getOrNewIn (t : Tab) (fuel : Nat) (name : Key) : Out (Tab × Nat) :=
  let n := t.norm name
  let new := t.recs.length
  match Hamt.insert cfg fuel t.table n new false with
  | .ok (h, res) =>
    if res.returned = new then .ok ({ t with table := h, recs := t.recs ++ [newRec n false] }, new)
    else .ok ({ t with table := h }, res.returned)
  | .diverged => .diverged
  | .ub => .ub

/-- symrec.c:205-216 `symtab_get_or_new_not_in_table`. -/
def Tab.getOrNewOut (t : Tab) (name : Key) : Tab × Nat :=
  let new := t.recs.length
  ({ t with recs := t.recs ++ [newRec (t.norm name) true], nonTable := new :: t.nonTable }, new)

/-- symrec.c:218-230 `symtab_get_or_new`. -/
def Tab.getOrNew (t : Tab) (fuel : Nat) (name : Key) (inTable : Bool) : Out (Tab × Nat) :=
  if inTable then t.getOrNewIn fuel name else .ok (t.getOrNewOut name)

/-- Update a record in place. -/
def Tab.update (t : Tab) (i : Nat) (f : Rec → Rec) : Tab := { t with recs := t.recs.modify i f }

/-- The text of a name in a message. -/
def text (k : Key) : String := String.ofList (k.map fun c => Char.ofNat c.toNat)

/-- symrec.c:269-271, on the record. -/
def Rec.use (line : Nat) (r : Rec) : Rec :=
  { r with useLine := if r.useLine = 0 then line else r.useLine, used := true }

/-- symrec.c:265-273 `yasm_symtab_use`. -/
def Tab.use (t : Tab) (fuel : Nat) (name : Key) (line : Nat) : Out (Tab × Nat) :=
  match t.getOrNew fuel name true with
  | .ok (t, i) => .ok (t.update i (Rec.use line), i)
  | .diverged => .diverged
  | .ub => .ub

/-- symrec.c:275-291 `yasm_symtab_get`. -/
def Tab.get (t : Tab) (name : Key) : Out (Option Nat) := Hamt.search cfg t.table (t.norm name)

/-- symrec.c:308-313, on the record. -/
def Rec.define (type : SymType) (line : Nat) (r : Rec) : Rec :=
  { r with defLine := line, type := type, defined := true, size := 0, segment := none }

/-- symrec.c:301-307: what the definition of a symbol does to the error indicator. -/
def Rec.defineDiag (name : Key) (r : Rec) (g : Global) : Global :=
  if r.defined then
    errorSet (errorSetXref g (if r.defLine ≠ 0 then r.defLine else r.declLine) s!"`{text name}' previously defined here")
      eGeneral s!"redefinition of `{text name}'"
  else if r.vis &&& visExtern ≠ 0 then warnSet g 1 s!"`{text name}' both defined and declared extern"
  else g

/-- symrec.c:293-316 `symtab_define`. -/
def Tab.define (t : Tab) (g : Global) (fuel : Nat) (name : Key) (type : SymType) (inTable : Bool) (line : Nat) :
    Out (Tab × Global × Nat) :=
  match t.getOrNew fuel name inTable with
  | .ok (t, i) =>
    match t.recs[i]? with
    | none => .ub
    | some r => .ok (if r.defined then t else t.update i (Rec.define type line), r.defineDiag name g, i)
  | .diverged => .diverged
  | .ub => .ub

/-- errwarn.c:240-244 `yasm_error_occurred`. -/
def errorOccurred (g : Global) : Bool := g.err.eclass != eNone

/-- symrec.c:318-328 `yasm_symtab_define_equ`. -/
def Tab.defineEqu (t : Tab) (g : Global) (fuel : Nat) (name : Key) (e : Nat) (line : Nat) : Out (Tab × Global × Nat) :=
  match t.define g fuel name .equ true line with
  | .ok (t, g, i) =>
    if errorOccurred g then .ok (t, g, i)
    else .ok (t.update i (fun r => { r with value := .expn e, valued := true }), g, i)
  | .diverged => .diverged
  | .ub => .ub

/-- symrec.c:330-342 `yasm_symtab_define_label`. -/
def Tab.defineLabel (t : Tab) (g : Global) (fuel : Nat) (name : Key) (bc : Option Nat) (inTable : Bool) (line : Nat) :
    Out (Tab × Global × Nat) :=
  match t.define g fuel name .label inTable line with
  | .ok (t, g, i) =>
    if errorOccurred g then .ok (t, g, i)
    else
      let t := t.update i (fun r => { r with value := .precbc bc })
      .ok (match inTable, bc with | true, some b => { t with attached := t.attached ++ [(b, i)] } | _, _ => t, g, i)
  | .diverged => .diverged
  | .ub => .ub

/-- symrec.c:344-353 `yasm_symtab_define_curpos`. -/
def Tab.defineCurpos (t : Tab) (g : Global) (fuel : Nat) (name : Key) (bc : Option Nat) (line : Nat) :
    Out (Tab × Global × Nat) :=
  match t.define g fuel name .curpos false line with
  | .ok (t, g, i) =>
    if errorOccurred g then .ok (t, g, i) else .ok (t.update i (fun r => { r with value := .precbc bc }), g, i)
  | .diverged => .diverged
  | .ub => .ub

/-- symrec.c:355-365 `yasm_symtab_define_special`. -/
def Tab.defineSpecial (t : Tab) (g : Global) (fuel : Nat) (name : Key) (vis : Vis) : Out (Tab × Global × Nat) :=
  match t.define g fuel name .special true 0 with
  | .ok (t, g, i) =>
    if errorOccurred g then .ok (t, g, i) else .ok (t.update i (fun r => { r with valued := true, vis := vis }), g, i)
  | .diverged => .diverged
  | .ub => .ub

/-- symrec.c:388-393: the declaration is accepted. -/
def Rec.accepts (r : Rec) (vis : Vis) : Bool :=
  vis == visGlobal ||
  (!r.defined &&
    (r.vis &&& (visCommon ||| visExtern) == 0 ||
     (r.vis &&& visCommon != 0 && vis == visCommon) ||
     (r.vis &&& visExtern != 0 && vis == visExtern)))

/-- symrec.c:376-401 `yasm_symrec_declare`: the record and the error indicator. -/
def Rec.declare (r : Rec) (vis : Vis) (line : Nat) (g : Global) : Rec × Global :=
  if r.accepts vis then ({ r with declLine := line, vis := r.vis ||| vis }, g)
  else
    let first := if r.defLine ≠ 0 then r.defLine else r.declLine
    (r, errorSet g eGeneral s!"duplicate definition of `{text r.name}'; first defined on line {first}")

/-- symrec.c:367-374 `yasm_symtab_declare`. -/
def Tab.declare (t : Tab) (g : Global) (fuel : Nat) (name : Key) (vis : Vis) (line : Nat) : Out (Tab × Global × Nat) :=
  match t.getOrNew fuel name true with
  | .ok (t, i) =>
    match t.recs[i]? with
    | none => .ub
    | some r => .ok (t.update i (fun _ => (r.declare vis line g).1), (r.declare vis line g).2, i)
  | .diverged => .diverged
  | .ub => .ub

/-- symrec.c:253-263 `yasm_symtab_abs_sym`; e is the expression made for it. -/
def Tab.absSym (t : Tab) (fuel : Nat) (e : Nat) : Out (Tab × Nat) :=
  match t.getOrNew fuel [] true with
  | .ok (t, i) => .ok (t.update i (fun r =>
      { r with
        defLine := 0, declLine := 0, useLine := 0, type := .equ, value := .expn e
        defined := true, valued := true, used := true }), i)
  | .diverged => .diverged
  | .ub => .ub

/-- symrec.c:539-545 `yasm_symrec_get_equ`; none: the union was read before it was written. -/
def Rec.getEqu (r : Rec) : Option (Option Nat) :=
  if r.type = .equ ∧ r.valued = true then
    match r.value with
    | .expn e => some (some e)
    | _ => none
  else some none

/-- symrec.c:547-558 `yasm_symrec_get_label`; none: the union was read before it was written. -/
def Rec.getLabel (r : Rec) : Option (Option Nat) :=
  if r.type = .label ∨ r.type = .curpos then
    match r.value with
    | .precbc bc => some bc
    | _ => none
  else some none

/-- symrec.c:584-601. -/
def Rec.isAbs (r : Rec) : Bool := r.defLine == 0 && r.type == .equ && r.name.isEmpty
def Rec.isSpecial (r : Rec) : Bool := r.type == .special
def Rec.isCurpos (r : Rec) : Bool := r.type == .curpos

/-- symrec.c:494-507 `yasm_symrec_get_global_name`. -/
def Rec.globalName (pre suf : Key) (r : Rec) : Key :=
  if r.vis &&& (visGlobal ||| visCommon ||| visExtern) ≠ 0 then pre ++ r.name ++ suf else r.name

/-- limits.h. -/
def ULONG_MAX : Nat := 2 ^ 64 - 1

/-- symrec.c:415-416. -/
def Rec.undefined (r : Rec) : Bool := r.used && !r.defined && (r.vis &&& (visExtern ||| visCommon) == 0)

/-- symrec.c:409-432 `symtab_parser_finalize_checksym` for each symbol of the traversal (HAMT order): the
    records, the diagnostics and `firstundef_line`. -/
def finalizeLoop (undefExtern : Bool) : List Nat → List Rec → Errwarn.State → Nat → Option (List Rec × Errwarn.State × Nat)
  | [], recs, s, first => some (recs, s, first)
  | i :: is, recs, s, first =>
    match recs[i]? with
    | none => none
    | some r =>
      if r.undefined then
        if undefExtern then
          finalizeLoop undefExtern is (recs.modify i fun r => { r with vis := r.vis ||| visExtern }) s first
        else
          match Errwarn.propagate (errorSet s.g eGeneral s!"undefined symbol `{text r.name}' (first use)") s.ew r.useLine with
          | none => none
          | some (g, ew) => finalizeLoop undefExtern is recs ⟨g, ew⟩ (if r.useLine < first then r.useLine else first)
      else finalizeLoop undefExtern is recs s first

/-- symrec.c:434-448 `yasm_symtab_parser_finalize`. -/
def Tab.finalize (t : Tab) (s : Errwarn.State) (undefExtern : Bool) : Option (Tab × Errwarn.State) :=
  match finalizeLoop undefExtern (t.table.entries.map (·.2)) t.recs s ULONG_MAX with
  | none => none
  | some (recs, s, first) =>
    let t := { t with recs := recs }
    if first < ULONG_MAX then
      match Errwarn.propagate (errorSet s.g eGeneral " (Each undefined symbol is reported only once.)") s.ew first with
      | none => none
      | some (g, ew) => some (t, ⟨g, ew⟩)
    else some (t, s)

/-- symrec.c:450-463 `yasm_symtab_destroy`: the records freed, in order. -/
def Tab.destroyed (t : Tab) : List Nat := Hamt.destroyed t.table ++ t.nonTable

end Verif.Symtab
