/-
The block structure of the NASM preprocessor: conditionals, `%rep` blocks and multi-line macros.
modules/preprocs/nasm/nasm-pp.c
-/
namespace Verif.Pp

/-- The text of a token, as character codes. -/
abbrev Name := List Nat

/-! ## The directive table -/

/-- `tolower` (C locale), as used by `yasm__strcasecmp` (libyasm/strcasecmp.c:36-67). -/
def lower (c : Nat) : Nat := if 65 ≤ c ∧ c ≤ 90 then c + 32 else c

/-- `nasm_stricmp` = `yasm__strcasecmp` (nasmlib.h:28, libyasm/strcasecmp.c:36-67): only the sign
    of the result is used.  The terminating NUL is the end of the list. -/
def stricmp : Name → Name → Ordering
  | [], [] => .eq
  | [], _ :: _ => .lt
  | _ :: _, [] => .gt
  | a :: as, b :: bs =>
    if lower a = lower b then stricmp as bs else if lower a < lower b then .lt else .gt

/-- `directives[]` (nasm-pp.c:274-289). -/
def directives : List Name :=
  [
    [37, 97, 114, 103], [37, 97, 115, 115, 105, 103, 110],   -- %arg %assign
    [37, 99, 108, 101, 97, 114], [37, 100, 101, 102, 105, 110, 101],   -- %clear %define
    [37, 101, 108, 105, 102], [37, 101, 108, 105, 102, 99, 116, 120],   -- %elif %elifctx
    [37, 101, 108, 105, 102, 100, 101, 102], [37, 101, 108, 105, 102, 105, 100],   -- %elifdef %elifid
    [37, 101, 108, 105, 102, 105, 100, 110], [37, 101, 108, 105, 102, 105, 100, 110, 105],   -- %elifidn %elifidni
    [37, 101, 108, 105, 102, 109, 97, 99, 114, 111], [37, 101, 108, 105, 102, 110, 99, 116, 120],   -- %elifmacro %elifnctx
    [37, 101, 108, 105, 102, 110, 100, 101, 102], [37, 101, 108, 105, 102, 110, 105, 100],   -- %elifndef %elifnid
    [37, 101, 108, 105, 102, 110, 105, 100, 110], [37, 101, 108, 105, 102, 110, 105, 100, 110, 105],   -- %elifnidn %elifnidni
    [37, 101, 108, 105, 102, 110, 109, 97, 99, 114, 111], [37, 101, 108, 105, 102, 110, 110, 117, 109],   -- %elifnmacro %elifnnum
    [37, 101, 108, 105, 102, 110, 115, 116, 114], [37, 101, 108, 105, 102, 110, 117, 109],   -- %elifnstr %elifnum
    [37, 101, 108, 105, 102, 115, 116, 114], [37, 101, 108, 115, 101],   -- %elifstr %else
    [37, 101, 110, 100, 105, 102], [37, 101, 110, 100, 109],   -- %endif %endm
    [37, 101, 110, 100, 109, 97, 99, 114, 111], [37, 101, 110, 100, 114, 101, 112],   -- %endmacro %endrep
    [37, 101, 110, 100, 115, 99, 111, 112, 101], [37, 101, 114, 114, 111, 114],   -- %endscope %error
    [37, 101, 120, 105, 116, 114, 101, 112], [37, 105, 97, 115, 115, 105, 103, 110],   -- %exitrep %iassign
    [37, 105, 100, 101, 102, 105, 110, 101], [37, 105, 102],   -- %idefine %if
    [37, 105, 102, 99, 116, 120], [37, 105, 102, 100, 101, 102],   -- %ifctx %ifdef
    [37, 105, 102, 105, 100], [37, 105, 102, 105, 100, 110],   -- %ifid %ifidn
    [37, 105, 102, 105, 100, 110, 105], [37, 105, 102, 109, 97, 99, 114, 111],   -- %ifidni %ifmacro
    [37, 105, 102, 110, 99, 116, 120], [37, 105, 102, 110, 100, 101, 102],   -- %ifnctx %ifndef
    [37, 105, 102, 110, 105, 100], [37, 105, 102, 110, 105, 100, 110],   -- %ifnid %ifnidn
    [37, 105, 102, 110, 105, 100, 110, 105], [37, 105, 102, 110, 109, 97, 99, 114, 111],   -- %ifnidni %ifnmacro
    [37, 105, 102, 110, 110, 117, 109], [37, 105, 102, 110, 115, 116, 114],   -- %ifnnum %ifnstr
    [37, 105, 102, 110, 117, 109], [37, 105, 102, 115, 116, 114],   -- %ifnum %ifstr
    [37, 105, 109, 97, 99, 114, 111], [37, 105, 110, 99, 108, 117, 100, 101],   -- %imacro %include
    [37, 105, 120, 100, 101, 102, 105, 110, 101], [37, 108, 105, 110, 101],   -- %ixdefine %line
    [37, 108, 111, 99, 97, 108], [37, 109, 97, 99, 114, 111],   -- %local %macro
    [37, 112, 111, 112], [37, 112, 117, 115, 104],   -- %pop %push
    [37, 114, 101, 112], [37, 114, 101, 112, 108],   -- %rep %repl
    [37, 114, 111, 116, 97, 116, 101], [37, 115, 99, 111, 112, 101],   -- %rotate %scope
    [37, 115, 116, 97, 99, 107, 115, 105, 122, 101], [37, 115, 116, 114, 108, 101, 110],   -- %stacksize %strlen
    [37, 115, 117, 98, 115, 116, 114], [37, 117, 110, 100, 101, 102],   -- %substr %undef
    [37, 119, 97, 114, 110, 105, 110, 103], [37, 120, 100, 101, 102, 105, 110, 101]   -- %warning %xdefine
  ]

/-! `enum { PP_ARG, ... }` (nasm-pp.c:290-307): the positions in the table that the code names. -/
def ppArg := 0
def ppClear := 2
def ppElif := 4
def ppElifstr := 20
def ppElse := 21
def ppEndif := 22
def ppEndm := 23
def ppEndmacro := 24
def ppEndrep := 25
def ppExitrep := 28
def ppIf := 31
def ppIfstr := 47
def ppImacro := 48
def ppInclude := 49
def ppLocal := 52
def ppMacro := 53
def ppRep := 56
def ppRotate := 58
def ppStacksize := 60

/-- The result of the binary search: the C variable `i` (`none` is −1) and whether the word was
    found (`j == -2`).  When the word is not found `i` is left at some position of the table, and
    the tests that follow use it all the same. -/
structure Look where
  idx : Option Nat
  found : Bool
  deriving DecidableEq, Repr

/-- `i` as a `Look` index: `lo` is `i + 1`. -/
def idxOf (lo : Nat) : Option Nat := if lo = 0 then none else some (lo - 1)

/-- The binary search of `do_directive` (nasm-pp.c:2358-2379), with `lo = i + 1` and `hi = j`;
    `tasm_compatible_mode` is off.  The loop runs while `j - i > 1`, i.e. `lo < hi`; the fuel is
    more than the size of the interval. -/
def search (w : Name) : Nat → Nat → Nat → Look
  | 0, lo, _ => ⟨idxOf lo, false⟩
  | n + 1, lo, hi =>
    if lo < hi then
      let k := (hi + lo - 1) / 2
      match stricmp w (directives[k]?.getD []) with
      | .eq => if k ≠ ppArg ∧ k ≠ ppLocal ∧ k ≠ ppStacksize then ⟨some k, true⟩
               else ⟨idxOf lo, false⟩
      | .lt => search w n lo k
      | .gt => search w n (k + 1) hi
    else ⟨idxOf lo, false⟩

/-- The whole search (nasm-pp.c:2358-2379). -/
def look (w : Name) : Look := search w 67 0 66

/-- `is_condition` (nasm-pp.c:310-314). -/
def isCond : Option Nat → Bool
  | none => false
  | some i => (decide (ppElif ≤ i) && decide (i ≤ ppEndif)) || (decide (ppIf ≤ i) && decide (i ≤ ppIfstr))

/-! ## What the machine is given -/

/-- The fields of `MMacro` filled in by `%macro` (nasm-pp.c:2992-3093): the name, whether it is
    case sensitive, the parameter counts (`*` is `INT_MAX`), `plus` and the default parameters. -/
structure Head (P : Type) where
  name : Name
  casesense : Bool
  min : Int
  max : Int
  plus : Bool
  defaults : List P

/-- The fields of `MMacro` local to one call (nasm-pp.c:4739-4746): `params`, `rotate`, `unique`. -/
structure Frame (P : Type) where
  params : List P
  rotate : Int
  unique : Nat

/-- A place in a line where `expand_mmacro` (nasm-pp.c:4643-4691) looks for a macro name: the
    name and the parameters `count_mmac_params` finds after it; the lines that are put before the
    body (the label, nasm-pp.c:4779-4797), which depend on the body; and what is done to every line
    of it (`%00` is replaced by the label, nasm-pp.c:4758-4771). -/
structure Call (L P : Type) where
  name : Name
  params : List P
  pre : List L → List L
  fill : L → L

/-- The parts of the preprocessor the block structure is independent of.  All are arbitrary
    functions; the errors and warnings they print are not modelled.  `Line` is a tokenised line
    and `User` all state other than what is modelled here: the single-line macros and the context
    stack. -/
structure Sig where
  Line : Type
  User : Type
  Param : Type
  /-- the text of the first token that is not white space, if it is a `TOK_PREPROC_ID` whose second
      character is none of `%`, `$`, `!` (nasm-pp.c:2352-2356) -/
  word : Line → Option Name
  /-- `expand_mmac_params` (nasm-pp.c:3851-4060), given the innermost active macro call -/
  subst : Option (Frame Param) → Line → Line
  /-- `if_condition` (nasm-pp.c:1990-2330): `none` is a negative result, i.e. an error.  It may
      look at the defined multi-line macros (`%ifmacro`). -/
  cond : User → List (Head Param) → Line → Option Bool
  /-- every directive that only changes the single-line macros or the context stack, such as
      `%define` -/
  act : User → Line → User
  /-- the count of a `%rep` line: `none` if it does not evaluate to a constant
      (nasm-pp.c:3180-3198), −1 if there is none (nasm-pp.c:3202-3206) -/
  count : User → Line → Option Int
  /-- the count of a `%rotate` line (nasm-pp.c:3112-3138) -/
  turn : User → Line → Option Int
  /-- what a `%macro` line says (nasm-pp.c:2990-3093): `none` if there is no name -/
  header : User → Line → Option (Head Param)
  /-- `expand_smacro` (nasm-pp.c:4130-4430) -/
  smac : User → Line → Line
  /-- the places where a call is looked for: the first token, then the token after a label
      (nasm-pp.c:4654-4684) -/
  calls : Line → List (Call Line Param)
  /-- one parameter of a call, stripped (nasm-pp.c:4700-4718); the flag is `comma` -/
  cut : Bool → Param → Param

variable (S : Sig)

/-! ## The state -/

/-- The states of a conditional (nasm-pp.c:206-238). -/
inductive Cond where
  | ifTrue | ifFalse | elseTrue | elseFalse | never
  deriving DecidableEq, Repr

/-- `emitting` (nasm-pp.c:240). -/
def Cond.emits : Cond → Bool
  | .ifTrue | .elseTrue => true
  | _ => false

/-- A defined multi-line macro (`MMacro` with a name, nasm-pp.c:90-115).  As in the program the
    lines of the body are kept last line first.  The address of the structure is the number `id`. -/
structure Def where
  id : Nat
  head : Head S.Param
  body : List S.Line

/-- An element of what is still to be read: a line, or the marker at the end of the expansion of
    a macro or of a `%rep` block (`Line` with `finishes` set, nasm-pp.c:160-186). -/
inductive Item where
  | line (l : S.Line)
  | callEnd (id : Nat)
  | repEnd (id : Nat) (body : List S.Line)

/-- An entry of `istk->mstk`, the chain of active macros and `%rep` blocks. -/
inductive Active where
  | rep (id : Nat)
  | call (id : Nat) (frame : Frame S.Param)

/-- `defining` (nasm-pp.c:374): the macro or, without a head, the `%rep` block being read; for the
    block its number and `next_active`. -/
structure Defining where
  head : Option (Head S.Param)
  id : Nat
  under : List (Active S)
  body : List S.Line

/-- The state of the preprocessor within one file.  `items` is `istk->expansion` followed by the
    lines of the file: a line is taken from the first as long as there is one
    (nasm-pp.c:4989-5012).  `prog` is the `in_progress` field of `%rep` blocks and `busy` that of
    macros.  `nestMac` and `nestRep` are `nested_mac_count` and `nested_rep_count`. -/
structure M where
  user : S.User
  defs : List (Def S)
  nextDef : Nat
  busy : Nat → Bool
  prog : Nat → Int
  nextRep : Nat
  unique : Nat
  conds : List Cond
  items : List (Item S)
  stack : List (Active S)
  defining : Option (Defining S)
  nestMac : Nat
  nestRep : Nat

/-- The messages of the block structure. -/
inductive Report where
  | unknown | condition | notDefining | badMacro | badRep | badRotate | noRotate | noRep | noExit
  | eofMacro
  deriving DecidableEq, Repr

/-- What comes out: a line for the assembler, detokenised in the given state
    (nasm-pp.c:5131-5138), or a message. -/
inductive Event where
  | text (u : S.User) (l : S.Line)
  | report (r : Report)

/-- How the run ends. -/
inductive End where
  | done | fatal | panic | crash
  deriving DecidableEq, Repr

variable {S}

/-- `!(istk->conds && !emitting(istk->conds->state))`. -/
def M.live (m : M S) : Bool :=
  match m.conds with
  | [] => true
  | c :: _ => c.emits

/-- `!(istk->mstk && !istk->mstk->in_progress)`. -/
def M.running (m : M S) : Bool :=
  match m.stack with
  | [] => true
  | .rep id :: _ => decide (m.prog id ≠ 0)
  | .call id _ :: _ => m.busy id

/-- `error(ERR_NONFATAL, …)` (nasm-pp.c:4813-4836): nothing is printed in a dead branch. -/
def M.report (m : M S) (r : Report) : List (Event S) := if m.live then [.report r] else []

/-- `f` changed at one place. -/
def upd {α : Type} (f : Nat → α) (i : Nat) (v : α) : Nat → α := fun j => if j = i then v else f j

/-- The innermost active macro call (nasm-pp.c:3140-3142, 3874-3876). -/
def frameOf : List (Active S) → Option (Frame S.Param)
  | [] => none
  | .rep _ :: st => frameOf st
  | .call _ f :: _ => some f

/-- Its call changed. -/
def setFrame (g : Frame S.Param) : List (Active S) → List (Active S)
  | [] => []
  | .rep id :: st => .rep id :: setFrame g st
  | .call id _ :: st => .call id g :: st

/-- Lines kept last first are pushed one by one (nasm-pp.c:4955-4977, 4750-4777). -/
def push (body : List S.Line) (items : List (Item S)) : List (Item S) :=
  body.foldl (fun acc l => .line l :: acc) items

/-- Conversion of a `long` to `int` (32 bits, wrapping). -/
def toInt32 (n : Int) : Int := (n + 2147483648) % 4294967296 - 2147483648

/-- `%rotate` (nasm-pp.c:3155-3160); `%` of C truncates.  No overflow of `long` is modelled. -/
def turned (nparam rotate n : Int) : Int :=
  let r := rotate + n
  let r := if r < 0 then nparam - (-r).tmod nparam else r
  r.tmod nparam

/-- The state of a conditional for the result of `if_condition` (nasm-pp.c:2910, 2954-2955). -/
def Cond.of : Option Bool → Cond
  | none => .never
  | some true => .ifTrue
  | some false => .ifFalse

/-- The first marker of a `%rep` block (nasm-pp.c:3264-3266). -/
def firstRep : List (Item S) → Option Nat
  | [] => none
  | .repEnd id _ :: _ => some id
  | _ :: is => firstRep is

/-! ## Directives -/

/-- The result of `do_directive`: not found or found, and the two ways the program ends in it. -/
inductive Dir (S : Sig) where
  | no (es : List (Event S)) (m : M S)
  | found (es : List (Event S)) (m : M S)
  | fatal
  | crash

/-- `%if` and its variants (nasm-pp.c:2887-2917). -/
def doIf (m : M S) (l : S.Line) : Dir S :=
  if m.live then
    let c := S.cond m.user (m.defs.map (·.head)) l
    .found (if c.isNone then m.report .condition else []) { m with conds := Cond.of c :: m.conds }
  else .found [] { m with conds := .never :: m.conds }

/-- `%elif` and its variants (nasm-pp.c:2919-2958).  The parameters of the line are substituted
    here, because they were not before. -/
def doElif (m : M S) (l : S.Line) : Dir S :=
  match m.conds with
  | [] => .fatal
  | c :: cs =>
    if c.emits ∨ c = .never then .found [] { m with conds := .never :: cs }
    else
      let r := S.cond m.user (m.defs.map (·.head)) (S.subst (frameOf m.stack) l)
      .found (if r.isNone then m.report .condition else []) { m with conds := Cond.of r :: cs }

/-- `%else` (nasm-pp.c:2960-2971). -/
def doElse (m : M S) : Dir S :=
  match m.conds with
  | [] => .fatal
  | c :: cs =>
    if c.emits ∨ c = .never then .found [] { m with conds := .elseFalse :: cs }
    else .found [] { m with conds := .elseTrue :: cs }

/-- `%endif` (nasm-pp.c:2973-2982). -/
def doEndif (m : M S) : Dir S :=
  match m.conds with
  | [] => .fatal
  | _ :: cs => .found [] { m with conds := cs }

/-- `%macro` and `%imacro` (nasm-pp.c:2984-3094). -/
def doMacro (m : M S) (l : S.Line) : Dir S :=
  if m.defining.isSome then .fatal
  else match S.header m.user l with
    | none => .found (m.report .badMacro) m
    | some h => .found [] { m with defining := some ⟨some h, 0, [], []⟩ }

/-- `%endm` and `%endmacro` (nasm-pp.c:3096-3109).  For a `%rep` block the name is NULL and
    `hash` (nasm-pp.c:1100-1125) reads through it. -/
def doEndm (m : M S) : Dir S :=
  match m.defining with
  | none => .found (m.report .notDefining) m
  | some d =>
    match d.head with
    | none => .crash
    | some h => .found [] { m with
        defs := ⟨m.nextDef, h, d.body⟩ :: m.defs
        busy := upd m.busy m.nextDef false
        nextDef := m.nextDef + 1
        defining := none }

/-- `%rotate` (nasm-pp.c:3111-3163). -/
def doRotate (m : M S) (l : S.Line) : Dir S :=
  match S.turn m.user l with
  | none => .found (m.report .badRotate) m
  | some n =>
    match frameOf m.stack with
    | none => .found (m.report .noRotate) m
    | some f =>
      if f.params.length = 0 then .found (m.report .noRotate) m
      else .found [] { m with
        stack := setFrame { f with rotate := turned f.params.length f.rotate n } m.stack }

/-- `%rep` (nasm-pp.c:3165-3224).  `rep_nest` is always NULL, because `%rep` is not carried out
    while something is being defined (nasm-pp.c:2401-2436).  Signed overflow of the `+ 1` is taken
    to wrap. -/
def doRep (m : M S) (l : S.Line) : Dir S :=
  match S.count m.user l with
  | none => .found (m.report .badRep) m
  | some n => .found [] { m with
      prog := upd m.prog m.nextRep (toInt32 (toInt32 n + 1))
      nextRep := m.nextRep + 1
      defining := some ⟨none, m.nextRep, m.stack, []⟩ }

/-- `%endrep` (nasm-pp.c:3226-3256). -/
def doEndrep (m : M S) : Dir S :=
  match m.defining with
  | none => .found (m.report .noRep) m
  | some d =>
    if d.head.isSome then .found (m.report .noRep) m
    else .found [] { m with
      items := .repEnd d.id d.body :: m.items
      stack := .rep d.id :: d.under
      defining := none }

/-- `%exitrep` (nasm-pp.c:3258-3273). -/
def doExitrep (m : M S) : Dir S :=
  match firstRep m.items with
  | none => .found (m.report .noExit) m
  | some id => .found [] { m with prog := upd m.prog id 0 }

/-- `%clear` (nasm-pp.c:2689-2711): every macro is freed.  If one of them is being expanded the
    freed structure is still used. -/
def doClear (m : M S) (l : S.Line) : Dir S :=
  if m.stack.any (fun a => match a with | .call _ _ => true | .rep _ => false) then .crash
  else .found [] { m with defs := [], user := S.act m.user l }

/-- The `switch` of `do_directive` (nasm-pp.c:2438-3840).  `%include` is not modelled: it is
    treated as a directive that only changes the user state. -/
def doSwitch (m : M S) (i : Nat) (l : S.Line) : Dir S :=
  if ppIf ≤ i ∧ i ≤ ppIfstr then doIf m l
  else if ppElif ≤ i ∧ i ≤ ppElifstr then doElif m l
  else if i = ppElse then doElse m
  else if i = ppEndif then doEndif m
  else if i = ppMacro ∨ i = ppImacro then doMacro m l
  else if i = ppEndm ∨ i = ppEndmacro then doEndm m
  else if i = ppRotate then doRotate m l
  else if i = ppRep then doRep m l
  else if i = ppEndrep then doEndrep m
  else if i = ppExitrep then doExitrep m
  else if i = ppClear then doClear m l
  else .found [] { m with user := S.act m.user l }

/-- `do_directive` (nasm-pp.c:2333-2438): the tests before the `switch`. -/
def directive (m : M S) (l : S.Line) : Dir S :=
  match S.word l with
  | none => .no [] m
  | some w =>
    let k := look w
    if (!m.live || !m.running) && !isCond k.idx then .no [] m
    else
      let go : Dir S :=
        match k.idx, k.found with
        | some i, true => doSwitch m i l
        | _, _ => .no (m.report .unknown) m
      match m.defining with
      | none => go
      | some d =>
        if k.idx ≠ some ppMacro ∧ k.idx ≠ some ppImacro ∧ k.idx ≠ some ppEndmacro ∧
            k.idx ≠ some ppEndm ∧
            (d.head.isSome ∨ (k.idx ≠ some ppEndrep ∧ k.idx ≠ some ppRep)) then .no [] m
        else if k.idx = some ppMacro ∨ k.idx = some ppImacro then
          .no [] { m with nestMac := m.nestMac + 1 }
        else if m.nestMac > 0 ∧ k.idx = some ppEndmacro then
          .no [] { m with nestMac := m.nestMac - 1 }
        else if d.head.isNone ∧ k.idx = some ppRep then
          .no [] { m with nestRep := m.nestRep + 1 }
        else if d.head.isNone ∧ m.nestRep > 0 ∧ k.idx = some ppEndrep then
          .no [] { m with nestRep := m.nestRep - 1 }
        else go

/-! ## Macro calls -/

/-- Characters compared without case (`mstrcmp`, nasm-pp.c:1716-1720). -/
def sameName (casesense : Bool) (a b : Name) : Bool :=
  if casesense then decide (a = b) else decide (stricmp a b = .eq)

/-- The test of `is_mmacro` (nasm-pp.c:4569): the number of parameters fits. -/
def Head.takes {P : Type} (h : Head P) (n : Nat) : Bool :=
  decide (h.min ≤ n) && (h.plus || decide ((n : Int) ≤ h.max))

/-- `is_mmacro` (nasm-pp.c:4536-4636): the newest macro of that name that takes that many
    parameters, unless it is being expanded.  The hash table keeps the order of macros of one
    name. -/
def isMmacro (defs : List (Def S)) (busy : Nat → Bool) (name : Name) (n : Nat) : Option (Def S) :=
  match defs.find? (fun d => sameName d.head.casesense d.head.name name && d.head.takes n) with
  | none => none
  | some d => if busy d.id then none else some d

/-- The parameter list `is_mmacro` leaves (nasm-pp.c:4590-4618): the default parameters are added
    and, with `plus`, those beyond the maximum dropped. -/
def fullParams {P : Type} (h : Head P) (ps : List P) : List P :=
  let ps := ps ++ h.defaults.drop ((ps.length : Int) - h.min).toNat
  if h.plus ∧ h.max < ps.length then ps.take h.max.toNat else ps

/-- The parameters of a call (nasm-pp.c:4692-4718). -/
def cutParams (S : Sig) (h : Head S.Param) (ps : List S.Param) : List S.Param :=
  let ps := fullParams h ps
  ps.mapIdx (fun i p => S.cut (!h.plus || decide (i + 1 < ps.length)) p)

/-- The macro to be called, at the first of the two places where there is one
    (nasm-pp.c:4654-4684). -/
def findCall (defs : List (Def S)) (busy : Nat → Bool) :
    List (Call S.Line S.Param) → Option (Call S.Line S.Param × Def S)
  | [] => none
  | c :: cs =>
    match isMmacro defs busy c.name c.params.length with
    | some d => some (c, d)
    | none => findCall defs busy cs

/-- The rest of `expand_mmacro` (nasm-pp.c:4692-4803). -/
def expand (m : M S) (c : Call S.Line S.Param) (d : Def S) : M S :=
  { m with
    items := (c.pre d.body.reverse).map .line ++ push (d.body.map c.fill) (.callEnd d.id :: m.items)
    busy := upd m.busy d.id true
    unique := m.unique + 1
    stack := .call d.id ⟨cutParams S d.head c.params, 0, m.unique⟩ :: m.stack }

/-! ## One step of `pp_getline` -/

/-- The result of a step. -/
inductive Res (S : Sig) where
  | next (es : List (Event S)) (m : M S)
  | stop (es : List (Event S)) (e : End)

/-- The parameters of the line are substituted, unless something is being defined or the branch is
    dead (nasm-pp.c:5047-5048). -/
def cur (m : M S) (l : S.Line) : S.Line :=
  if m.defining.isNone && m.live then S.subst (frameOf m.stack) l else l

/-- What is done with a line (nasm-pp.c:5050-5146), given what `do_directive` did. -/
def afterDir (l : S.Line) : Dir S → Res S
  | .fatal => .stop [] .fatal
  | .crash => .stop [] .crash
  | .found es m => .next es m
  | .no es m =>
    match m.defining with
    | some d => .next es { m with defining := some { d with body := l :: d.body } }
    | none =>
      if !m.live then .next es m
      else if !m.running then .next es m
      else
        let l := S.smac m.user l
        match findCall m.defs m.busy (S.calls l) with
        | none => .next (es ++ [.text m.user l]) m
        | some (c, d) => .next es (expand m c d)

/-- A line is taken (nasm-pp.c:5047-5146). -/
def doLine (m : M S) (l : S.Line) : Res S := afterDir (cur m l) (directive m (cur m l))

/-- An end marker is removed (nasm-pp.c:4980-5023).  `mark` is the effect on `in_progress` of the
    structure the marker is for. -/
def pop (m : M S) (mark : M S → M S) : Res S :=
  match m.stack with
  | [] => .stop [] .crash
  | a :: st =>
    let go : Res S :=
      match a with
      | .call _ _ => .next [] (mark { m with stack := st })
      | .rep _ => .next [] { m with stack := st }
    match m.defining with
    | none => go
    | some d =>
      if d.head.isSome then .stop [] .panic
      else match a with
        | .call _ _ => if m.live then .stop [] .fatal else go
        | .rep _ => go

/-- One turn of the loop of `pp_getline` (nasm-pp.c:4904-5149) for one file; at the end of it the
    checks of nasm-pp.c:5020-5024 and `pp_cleanup(1)` (nasm-pp.c:5156-5164). -/
def step (m : M S) : Res S :=
  match m.items with
  | [] =>
    if m.conds ≠ [] ∧ m.live then .stop [] .fatal
    else .stop (if m.defining.isSome then [.report .eofMacro] else []) .done
  | .line l :: rest => doLine { m with items := rest } l
  | .repEnd id body :: rest =>
    if m.prog id > 1 then
      .next [] { m with prog := upd m.prog id (m.prog id - 1), items := push body m.items }
    else pop { m with items := rest } (fun m => { m with prog := upd m.prog id 0 })
  | .callEnd id :: rest =>
    pop { m with items := rest } (fun m => { m with busy := upd m.busy id false })

/-- `n` steps: what came out, and where the machine is (`inl`) or how it ended. -/
def run : Nat → M S → List (Event S) × (M S ⊕ End)
  | 0, m => ([], .inl m)
  | n + 1, m =>
    match step m with
    | .stop es e => (es, .inr e)
    | .next es m' => let r := run n m'; (es ++ r.1, r.2)

/-- The state at the beginning of a file. -/
def start (u : S.User) (lines : List S.Line) : M S :=
  { user := u, defs := [], nextDef := 0, busy := fun _ => false, prog := fun _ => 0, nextRep := 0,
    unique := 0, conds := [], items := lines.map .line, stack := [], defining := none,
    nestMac := 0, nestRep := 0 }

end Verif.Pp
