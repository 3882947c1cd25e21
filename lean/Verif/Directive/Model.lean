/-
Model of directive dispatch: the two-level directive table of an object (libyasm/section.c) and the
parameter handling of directives (libyasm/valparam.c).

Strings are byte strings without NUL.  Handlers, expressions and parameter helpers are identities or
functions supplied by the caller.  The two tables are the case-insensitive hash tables of Verif.Hamt,
whose insertion may not return (`Out.diverged`); level-2 tables are numbered in order of creation, the
number standing for the pointer stored in the level-1 table.
-/
import Verif.Hamt.Model

namespace Verif.Directive

open Verif.Hamt

/-- valparam.h:78-93 `yasm_directive`; `handler` is the identity of the handler function. -/
structure Directive where
  name : Key
  parser : Key
  handler : Nat
  flags : Nat
deriving Repr, DecidableEq

/-- valparam.h:89-91. -/
def ARG_REQUIRED : Nat := 1
def ID_REQUIRED : Nat := 2

/-- valparam.h:41-71 `yasm_valparam`: the parameter of a `val=param` pair. -/
inductive Param
  | id (s : Key) (pfx : BitVec 8)
  | str (s : Key)
  | expr (e : Nat)
deriving Repr, DecidableEq

structure Valparam where
  val : Option Key
  param : Param
deriving Repr, DecidableEq

/-- section.c:255-256 (`object->directives`): the level-1 table from parser keyword to level-2 table
    number, and the level-2 tables from directive name to directive. -/
structure Dirs where
  level1 : Hamt Nat
  level2 : List (Hamt Directive)

def cfg : Cfg := Cfg.ofNocase true

/-- section.c:256 `HAMT_create(1, ..)`. -/
def Dirs.empty : Dirs := ⟨create Nat, []⟩

/-- section.c:213-221: the level-2 table of a parser keyword, created if missing. -/
def level2Of (fuel : Nat) (d : Dirs) (parser : Key) : Out (Dirs × Nat) :=
  match search cfg d.level1 parser with
  | .ok (some i) => .ok (d, i)
  | .ok none =>
    match insert cfg fuel d.level1 parser d.level2.length false with
    | .ok (l1, res) => .ok (⟨l1, d.level2 ++ [create Directive]⟩, res.returned)
    | .diverged => .diverged
    | .ub => .ub
  | .diverged => .diverged
  | .ub => .ub

/-- section.c:212-229: add one directive; `replace` is 0, so the first one of a name stays. -/
def addOne (fuel : Nat) (d : Dirs) (dir : Directive) : Out Dirs :=
  match level2Of fuel d dir.parser with
  | .ok (d, i) =>
    match d.level2[i]? with
    | none => .ub
    | some l2 =>
      match insert cfg fuel l2 dir.name dir false with
      | .ok (l2', _) => .ok { d with level2 := d.level2.set i l2' }
      | .diverged => .diverged
      | .ub => .ub
  | .diverged => .diverged
  | .ub => .ub

/-- section.c:206-231 `directives_add` (a NULL table is the empty list). -/
def directivesAdd (fuel : Nat) (d : Dirs) : List Directive → Out Dirs
  | [] => .ok d
  | dir :: dirs =>
    match addOne fuel d dir with
    | .ok d' => directivesAdd fuel d' dirs
    | .diverged => .diverged
    | .ub => .ub

/-- section.c:302-308: the four tables, in order of priority. -/
def loadTables (fuel : Nat) (objfmt dbgfmt arch builtin : List Directive) : Out Dirs :=
  match directivesAdd fuel .empty objfmt with
  | .ok d =>
    match directivesAdd fuel d dbgfmt with
    | .ok d =>
      match directivesAdd fuel d arch with
      | .ok d => directivesAdd fuel d builtin
      | .diverged => .diverged
      | .ub => .ub
    | .diverged => .diverged
    | .ub => .ub
  | .diverged => .diverged
  | .ub => .ub

/-- What calling a directive comes to. -/
inductive Call
  | needsArgument (name : Key)
  | needsIdentifier (name : Key)
  | handled (handler : Nat) (params : Option (List Valparam))
  | nullDeref
deriving Repr, DecidableEq

/-- `vp->type != YASM_PARAM_ID`. -/
def Valparam.isId (v : Valparam) : Bool :=
  match v.param with
  | .id _ _ => true
  | _ => false

/-- valparam.c:39-64 `yasm_call_directive`; no parameter list at all is `none`. -/
def callDirective (d : Directive) (vps : Option (List Valparam)) : Call :=
  if d.flags &&& (ARG_REQUIRED ||| ID_REQUIRED) ≠ 0 ∧ (vps = none ∨ vps = some []) then
    .needsArgument d.name
  else
    match vps with
    | none => .handled d.handler none
    | some l =>
      if d.flags &&& ID_REQUIRED ≠ 0 then
        match l.head? with
        | none => .nullDeref
        | some v => if v.isId = false then .needsIdentifier d.name else .handled d.handler (some l)
      else .handled d.handler (some l)

/-- section.c:378-398 `yasm_object_directive`: 1 if the directive is not known to the parser, else 0
    and the call. -/
def objectDirective (d : Dirs) (name parser : Key) (vps : Option (List Valparam)) :
    Out (Int × Option Call) :=
  match search cfg d.level1 parser with
  | .ok none => .ok (1, none)
  | .ok (some i) =>
    match d.level2[i]? with
    | none => .ub
    | some l2 =>
      match search cfg l2 name with
      | .ok none => .ok (1, none)
      | .ok (some dir) => .ok (0, some (callDirective dir vps))
      | .diverged => .diverged
      | .ub => .ub
  | .diverged => .diverged
  | .ub => .ub

/-! ### Parameters -/

/-- Reading a string at an address: a value, or a read past the terminating NUL. -/
inductive Read (α : Type)
  | val (a : α)
  | overrun
deriving Repr, DecidableEq

/-- valparam.c:130-143 `yasm_vp_id`: the identifier without its prefix character.  The comparison of
    `id[0]` with the prefix is also true for an empty identifier without prefix (both NUL), and the
    address returned is then past the end of the string. -/
def vpId (v : Valparam) : Read (Option Key) :=
  match v.param with
  | .id [] pfx => if pfx = 0 then .overrun else .val (some [])
  | .id (c :: cs) pfx => if c = pfx then .val (some cs) else .val (some (c :: cs))
  | _ => .val none

/-- valparam.c:113-127 `yasm_vp_string`. -/
def vpString (v : Valparam) : Option Key :=
  match v.param with
  | .id s _ => some s
  | .str s => some s
  | .expr _ => none

/-- valparam.h:306-345 `yasm_dir_help`: a recognised qualifier; the helper returns its code and the new
    state of the data. -/
structure Help (σ : Type) where
  name : Key
  needsparam : Bool
  helper : σ → Valparam → Int × σ

/-- `yasm__strcasecmp(a, b) == 0`. -/
def sameName (a b : Key) : Bool := a.map toLower == b.map toLower

/-- valparam.c:238-248, 251-261: the first entry of the right kind whose name matches. -/
def findHelp {σ : Type} (help : List (Help σ)) (needs : Bool) (s : Key) : Option (Help σ) :=
  help.find? (fun h => h.needsparam == needs && sameName s h.name)

/-- valparam.c:236-262: which entry handles a parameter. -/
def helpFor {σ : Type} (help : List (Help σ)) (v : Valparam) : Read (Option (Help σ)) :=
  match v.val with
  | none =>
    match vpId v with
    | .overrun => .overrun
    | .val none => .val none
    | .val (some s) => .val (findHelp help false s)
  | some s => .val (findHelp help true s)

/-- valparam.c:220-274 `yasm_dir_helper`: returned value and final data. `any` is `anymatched`. -/
def dirHelperGo {σ : Type} (help : List (Help σ)) (fallback : σ → Valparam → Int × σ) (any : Int) :
    List Valparam → σ → Read (Int × σ)
  | [], st => .val (any, st)
  | v :: vs, st =>
    match helpFor help v with
    | .overrun => .overrun
    | .val (some h) =>
      let r := h.helper st v
      if r.1 ≠ 0 then .val (-1, r.2) else dirHelperGo help fallback 1 vs r.2
    | .val none =>
      let r := fallback st v
      if r.1 < 0 then .val (-1, r.2)
      else dirHelperGo help fallback (if r.1 > 0 then 1 else any) vs r.2

def dirHelper {σ : Type} (help : List (Help σ)) (fallback : σ → Valparam → Int × σ)
    (vps : List Valparam) (st : σ) : Read (Int × σ) :=
  dirHelperGo help fallback 0 vps st

/-! valparam.c:276-301 `yasm_dir_helper_flag_or/and/set` on a 64-bit flag word. -/

def flagOr (flag : BitVec 64) (f : BitVec 64) : Int × BitVec 64 := (0, f ||| flag)
def flagAnd (flag : BitVec 64) (f : BitVec 64) : Int × BitVec 64 := (0, f &&& ~~~flag)
def flagSet (flag : BitVec 64) (_f : BitVec 64) : Int × BitVec 64 := (0, flag)

end Verif.Directive
