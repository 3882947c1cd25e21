/-
Model of libyasm/errwarn.c: the global error indicator, the warning queue and the collected,
line-ordered list of diagnostics.

Simplifications: messages are the already formatted strings (no printf, no truncation at
MSG_MAXSIZE, no gettext); memory ownership is not modelled; `unsigned` counters are `Nat`.
-/
namespace Verif.Errwarn

/-- errwarn.h:50-70 `yasm_error_class` values (bit masks). -/
abbrev EClass := Nat
def eNone : EClass := 0x0000
def eGeneral : EClass := 0xFFFF
def eArithmetic : EClass := 0x0001
def eOverflow : EClass := 0x8001
def eFloatingPoint : EClass := 0x4001
def eZeroDivision : EClass := 0x2001
def eAssertion : EClass := 0x0002
def eValue : EClass := 0x0004
def eNotAbsolute : EClass := 0x8004
def eTooComplex : EClass := 0x4004
def eNotConstant : EClass := 0x2004
def eIO : EClass := 0x0008
def eNotImplemented : EClass := 0x0010
def eType : EClass := 0x0020
def eSyntax : EClass := 0x0040
def eParse : EClass := 0x8040

/-- errwarn.h:38-48 `yasm_warn_class` (position in the enumeration; 0 is YASM_WARN_NONE). -/
abbrev WClass := Nat

/-- errwarn.c:56-61 error indicator: class, message, cross reference line and message. -/
structure Err where
  eclass : EClass
  estr : Option String
  xrefline : Nat
  xrefstr : Option String
deriving Repr, DecidableEq

def Err.clear : Err := ⟨eNone, none, 0, none⟩

/-- errwarn.c:56-73: all global state. `enabled` is the 64-bit mask `warn_class_enabled`. -/
structure Global where
  err : Err
  warns : List (WClass × String)
  enabled : BitVec 64
deriving Repr, DecidableEq

/-- `1UL << c` (errwarn.c:360 and others); counts of 64 and more are undefined in C and give 0 here. -/
def bit (c : WClass) : BitVec 64 := 1#64 <<< c

/-- errwarn.c:106-124 `yasm_errwarn_initialize`: GENERAL, UNREC_CHAR, PREPROC, UNINIT_CONTENTS and
    IMPLICIT_SIZE_OVERRIDE (1,2,3,5,7) enabled; ORPHAN_LABEL, SIZE_OVERRIDE, SEGREG_IN_64BIT not. -/
def Global.init : Global :=
  { err := .clear, warns := [],
    enabled := bit 1 ||| bit 2 ||| bit 3 ||| bit 5 ||| bit 7 }

/-- errwarn.c:259-267 `yasm_error_matches`. -/
def errorMatches (g : Global) (c : EClass) : Bool :=
  if g.err.eclass = eNone then c == eNone
  else if g.err.eclass = eGeneral then c == eGeneral
  else (g.err.eclass &&& c) == c

/-- errwarn.c:270-283 `yasm_error_set_va`. -/
def errorSet (g : Global) (c : EClass) (msg : String) : Global :=
  if g.err.eclass ≠ eNone then g
  else { g with err := { g.err with eclass := c, estr := some msg } }

/-- errwarn.c:295-309 `yasm_error_set_xref_va`. -/
def errorSetXref (g : Global) (line : Nat) (msg : String) : Global :=
  if g.err.eclass ≠ eNone then g
  else { g with err := { g.err with xrefline := line, xrefstr := some msg } }

/-- errwarn.c:246-257 `yasm_error_clear`. -/
def errorClear (g : Global) : Global := { g with err := .clear }

/-- errwarn.c:320-332 `yasm_error_fetch`. -/
def errorFetch (g : Global) : Err × Global := (g.err, { g with err := .clear })

/-- errwarn.c:334-346 `yasm_warn_clear`. -/
def warnClear (g : Global) : Global := { g with warns := [] }

/-- errwarn.c:356-374 `yasm_warn_set_va`. -/
def warnSet (g : Global) (c : WClass) (msg : String) : Global :=
  if (g.enabled &&& bit c) = 0 then g
  else { g with warns := g.warns ++ [(c, msg)] }

/-- errwarn.c:385-401 `yasm_warn_fetch`; `none` = class NONE, NULL string. -/
def warnFetch (g : Global) : Option (WClass × String) × Global :=
  match g.warns with
  | [] => (none, g)
  | w :: ws => (some w, { g with warns := ws })

/-- errwarn.c:403-407 `yasm_warn_enable`. -/
def warnEnable (g : Global) (c : WClass) : Global := { g with enabled := g.enabled ||| bit c }
/-- errwarn.c:409-413 `yasm_warn_disable`. -/
def warnDisable (g : Global) (c : WClass) : Global :=
  { g with enabled := g.enabled &&& ~~~bit c }
/-- errwarn.c:415-419 `yasm_warn_disable_all`. -/
def warnDisableAll (g : Global) : Global := { g with enabled := 0 }

/-- errwarn.c:78 entry types. -/
inductive Kind | error | warning | parserError
deriving Repr, DecidableEq

/-- errwarn.c:75-84 `errwarn_data`. -/
structure Entry where
  kind : Kind
  line : Nat
  msg : Option String
  xrefline : Nat
  xrefmsg : Option String
deriving Repr, DecidableEq

/-- errwarn.c:86-98 `struct yasm_errwarns`; `prev` is the position of `previous_we`. -/
structure Errwarns where
  entries : List Entry
  ecount : Nat
  wcount : Nat
  prev : Option Nat
deriving Repr, DecidableEq

/-- errwarn.c:421-430 `yasm_errwarns_create`. -/
def Errwarns.create : Errwarns := ⟨[], 0, 0, none⟩

/-- errwarn.c:195 insertion actions. -/
inductive Action
  | head
  | after (i : Nat)
deriving Repr, DecidableEq

/-- errwarn.c:204-217: the search loop.  `i` is the position of `ins_we`; the fuel bounds the
    iterations (running out of fuel, or a dangling position, is `none`). -/
def locate (es : List Entry) (line : Nat) : Nat → Nat → Option Action
  | 0, _ => none
  | fuel + 1, i =>
    match es[i]? with
    | none => none
    | some e =>
      if line < e.line then
        if i = 0 then some .head else locate es line fuel 0
      else
        match es[i + 1]? with
        | none => some (.after i)
        | some n => if line < n.line then some (.after i) else locate es line fuel (i + 1)

/-- errwarn.c:201-217: the action chosen and the position of `ins_we` when the loop ends. -/
def chooseAction (ew : Errwarns) (line : Nat) : Option (Action × Option Nat) :=
  match ew.prev, ew.entries with
  | none, _ => some (.head, none)
  | some p, [] => some (.head, some p)
  | some p, _ :: _ =>
    match locate ew.entries line (2 * ew.entries.length + 2) p with
    | none => none
    | some .head => some (.head, some 0)
    | some (.after i) => some (.after i, some i)

/-- util.h / compat-queue.h `SLIST_INSERT_AFTER` at position `i`. -/
def insertAfter (es : List Entry) (i : Nat) (e : Entry) : List Entry :=
  es.take (i + 1) ++ e :: es.drop (i + 1)

/-- errwarn.c:190-244 `errwarn_data_new` together with the filling of the returned entry by the
    caller (errwarn.c:452-473): `fill line` builds the entry; on replacement the old entry keeps its
    own line.  `none` is a non-terminating or dangling search. -/
def addEntry (ew : Errwarns) (line : Nat) (replaceParserError : Bool) (fill : Nat → Entry) :
    Option Errwarns :=
  match chooseAction ew line with
  | none => none
  | some (act, ins) =>
    let old := ins.bind (fun i => ew.entries[i]?)
    match replaceParserError, ins, old with
    | true, some i, some e =>
      if e.kind = .parserError then
        some { ew with entries := ew.entries.set i (fill e.line), prev := some i }
      else
        match act with
        | .head => some { ew with entries := fill line :: ew.entries, prev := some 0 }
        | .after i => some { ew with entries := insertAfter ew.entries i (fill line),
                                     prev := some (i + 1) }
    | _, _, _ =>
        match act with
        | .head => some { ew with entries := fill line :: ew.entries, prev := some 0 }
        | .after i => some { ew with entries := insertAfter ew.entries i (fill line),
                                     prev := some (i + 1) }

/-- errwarn.c:456-461: which kind of entry an error of class `c` becomes. -/
def kindOf (c : EClass) : Kind :=
  if c ≠ eGeneral ∧ (c &&& eParse) = eParse then .parserError else .error

/-- errwarn.c:464-473: move all queued warnings into the list (structural on the queue). -/
def propagateWarns (ew : Errwarns) (line : Nat) : List (WClass × String) → Option Errwarns
  | [] => some ew
  | (_, msg) :: ws =>
    match addEntry ew line false (fun l => ⟨.warning, l, some msg, 0, none⟩) with
    | none => none
    | some ew' => propagateWarns { ew' with wcount := ew'.wcount + 1 } line ws

/-- errwarn.c:452-463: move the pending error, if any, into the list. -/
def propagateError (g : Global) (ew : Errwarns) (line : Nat) : Option (Global × Errwarns) :=
  if g.err.eclass ≠ eNone then
    match addEntry ew line true
        (fun l => ⟨kindOf g.err.eclass, l, g.err.estr, g.err.xrefline, g.err.xrefstr⟩) with
    | none => none
    | some ew' => some ((errorFetch g).2, { ew' with ecount := ew'.ecount + 1 })
  else some (g, ew)

/-- errwarn.c:449-474 `yasm_errwarn_propagate`. -/
def propagate (g : Global) (ew : Errwarns) (line : Nat) : Option (Global × Errwarns) :=
  match propagateError g ew line with
  | none => none
  | some (g, ew) =>
    match propagateWarns ew line g.warns with
    | none => none
    | some ew' => some ({ g with warns := [] }, ew')

/-- errwarn.c:476-483 `yasm_errwarns_num_errors`. -/
def numErrors (ew : Errwarns) (warningAsError : Bool) : Nat :=
  if warningAsError then ew.ecount + ew.wcount else ew.ecount

/-- What `yasm_errwarns_output_all` prints (virtual lines, before the line-map lookup). -/
inductive Printed
  | error (line : Nat) (msg : Option String) (xrefline : Nat) (xrefmsg : Option String)
  | warning (line : Nat) (msg : Option String)
  | warningsAsErrors (line : Nat)
deriving Repr, DecidableEq

/-- errwarn.c:485-521 `yasm_errwarns_output_all`; `w` is the `warning_as_error` argument, which the
    loop sets to 2 after the first warning. -/
def outputAll : List Entry → Nat → List Printed
  | [], _ => []
  | e :: es, w =>
    match e.kind with
    | .warning =>
      if w ≠ 0 ∧ w ≠ 2 then
        .warning e.line e.msg :: .warningsAsErrors e.line :: outputAll es 2
      else .warning e.line e.msg :: outputAll es w
    | _ => .error e.line e.msg e.xrefline e.xrefmsg :: outputAll es w

/-- Calls of the public interface. -/
inductive Op
  | errorSet (c : EClass) (msg : String)
  | errorSetXref (line : Nat) (msg : String)
  | errorClear
  | warnSet (c : WClass) (msg : String)
  | warnClear
  | enable (c : WClass)
  | disable (c : WClass)
  | disableAll
  | propagate (line : Nat)
deriving Repr, DecidableEq

structure State where
  g : Global
  ew : Errwarns
deriving Repr, DecidableEq

def State.init : State := ⟨.init, .create⟩

def step (s : State) : Op → Option State
  | .errorSet c m => some { s with g := Errwarn.errorSet s.g c m }
  | .errorSetXref l m => some { s with g := Errwarn.errorSetXref s.g l m }
  | .errorClear => some { s with g := Errwarn.errorClear s.g }
  | .warnSet c m => some { s with g := Errwarn.warnSet s.g c m }
  | .warnClear => some { s with g := Errwarn.warnClear s.g }
  | .enable c => some { s with g := warnEnable s.g c }
  | .disable c => some { s with g := warnDisable s.g c }
  | .disableAll => some { s with g := warnDisableAll s.g }
  | .propagate l => (Errwarn.propagate s.g s.ew l).map (fun r => ⟨r.1, r.2⟩)

def run (s : State) : List Op → Option State
  | [] => some s
  | op :: ops => (step s op).bind (fun s' => run s' ops)

end Verif.Errwarn
