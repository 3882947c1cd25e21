import Mathlib.Data.List.Basic
/-
Model of the GAS preprocessor: conditional assembly, `.rept` and `.macro` of modules/preprocs/gas/gas-preproc.c.

Lines are what `process_line` takes them for, after comments have been removed (gas-preproc.c:1078-1111): text, a directive with its argument, or a line
whose first word may be the name of a macro.  What conditions, counts and `.set` mean, and the substitution of values in a line, is a parameter (`Lang`);
values are read from a state.  Not modelled: parameters of macros, `.include`, line numbers, `.set` without two arguments, expressions that cannot be
evaluated, and text that starts with `.rept`, `.endr`, `.macro` or `.endm` without being that directive.  Buffered lines come before those of the file
(gas-preproc.c:237-271 `read_line`), so they are one list here.
-/
namespace Verif.Gas

/-- What a conditional directive gives: a value; an error that ends the file (the function returns 0: `.if` without an expression, gas-preproc.c:536-540,
    wrong arguments of `.ifc`, :594-596); an error after which the file goes on (wrong arguments of `.ifeqs`, :611-613). -/
inductive Test where
  | is (b : Bool)
  | fatal
  | dropped
  deriving DecidableEq, Repr

/-- The meaning of arguments. -/
structure Lang where
  State : Type
  Cond : Type
  Count : Type
  Set : Type
  Text : Type
  Out : Type
  test : State → Cond → Test
  count : State → Count → Int
  set : State → Set → State
  subst : State → Text → Out

inductive Line (L : Lang) where
  | text (t : L.Text)
  | set (a : L.Set)
  | cond (c : L.Cond)
  | els
  | elseif (c : L.Cond)
  | endif
  | rept (e : L.Count)
  | endr
  | macro_ (m : Nat)
  | endm
  | call (m : Nat) (t : L.Text)

inductive Error where
  | elseWithoutIf
  | elseifWithoutIf
  | endifWithoutIf
  | condition
  | reptWithoutEndr
  | endrWithoutRept
  | macroEof
  | endmWithoutMacro
  deriving DecidableEq, Repr

/-- gas-preproc.c:71-102 `yasm_preproc_gas`, with the errors that have been reported and the lines that have been given to the parser. -/
structure St (L : Lang) where
  env : L.State
  depth : Nat
  skip : Nat
  macros : List (Nat × List (Line L))
  fatal : Bool
  errors : List Error
  out : List L.Out

variable {L : Lang}

/-- gas-preproc.c:981-1030: the lines of a `.rept` up to its `.endr`, and the rest. -/
def collectRept : Nat → List (Line L) → Option (List (Line L) × List (Line L))
  | _, [] => none
  | k, .rept e :: ls => (collectRept (k + 1) ls).map fun r => (.rept e :: r.1, r.2)
  | k, .endr :: ls => if k = 1 then some ([], ls) else (collectRept (k - 1) ls).map fun r => (.endr :: r.1, r.2)
  | k, l :: ls => (collectRept k ls).map fun r => (l :: r.1, r.2)

/-- gas-preproc.c:826-841: the lines of a `.macro` up to its `.endm`, and the rest. -/
def collectMacro : Nat → List (Line L) → Option (List (Line L) × List (Line L))
  | _, [] => none
  | k, .macro_ m :: ls => (collectMacro (k + 1) ls).map fun r => (.macro_ m :: r.1, r.2)
  | k, .endm :: ls => if k = 1 then some ([], ls) else (collectMacro (k - 1) ls).map fun r => (.endm :: r.1, r.2)
  | k, l :: ls => (collectMacro k ls).map fun r => (l :: r.1, r.2)

/-- A directive that has failed: `pp->fatal_error = !fn(...)` (gas-preproc.c:1231, :1236). -/
def St.fail (s : St L) (e : Error) : St L := { s with fatal := true, errors := s.errors ++ [e] }

/-- gas-preproc.c:1253-1258: text. -/
def St.text (s : St L) (t : L.Text) : St L := if s.skip = 0 then { s with out := s.out ++ [L.subst s.env t] } else s

/-- gas-preproc.c:1217-1228: a directive in lines that are skipped. -/
def St.skipped (s : St L) : Line L → St L
  | .cond _ => { s with skip := s.skip + 1 }
  | .endif => { s with skip := s.skip - 1 }
  | .els => if s.skip = 1 then { s with skip := 0, depth := s.depth + 1 } else s
  | _ => s

/-- gas-preproc.c:495-505 `handle_if`, for skip_depth 0. -/
def St.handleIf (s : St L) (b : Bool) : St L := if b then { s with depth := s.depth + 1 } else { s with skip := 1 }

/-- A directive in lines that are not skipped, with the lines behind it; `none` is a failed assertion.
    `.else`: gas-preproc.c:519-529, 546-549; `.elseif`: :556-567, where `handle_else` sets skip_depth and `handle_if` asserts that it is zero; `.endif`:
    :507-517; `.if` and the like: :533-544, 569-635; `.set`: :771-789; `.rept`: :968-1035; `.macro`: :791-846; `.endr`: :1037-1042; `.endm`: :848-853. -/
def St.directive (s : St L) (rest : List (Line L)) : Line L → Option (St L × List (Line L))
  | .cond c =>
    match L.test s.env c with
    | .is b => some (s.handleIf b, rest)
    | .fatal => some (s.fail .condition, rest)
    | .dropped => some ({ s with errors := s.errors ++ [.condition] }, rest)
  | .els => some (if s.depth = 0 then s.fail .elseWithoutIf else { s with skip := 1 }, rest)
  | .elseif c =>
    if L.test s.env c = .fatal then some (s.fail .condition, rest)
    else if s.depth = 0 then some (s.fail .elseifWithoutIf, rest)
    else none
  | .endif => some (if s.depth = 0 then s.fail .endifWithoutIf else { s with depth := s.depth - 1 }, rest)
  | .set a => some ({ s with env := L.set s.env a }, rest)
  | .rept e =>
    match collectRept 1 rest with
    | none => some (s.fail .reptWithoutEndr, [])
    | some r => some (s, (List.replicate (L.count s.env e).toNat r.1).flatten ++ r.2)
  | .macro_ m =>
    match collectMacro 1 rest with
    | none => some (({ s with macros := s.macros ++ [(m, rest)] } : St L).fail .macroEof, [])
    | some r => some ({ s with macros := s.macros ++ [(m, r.1)] }, r.2)
  | .endr => some (s.fail .endrWithoutRept, rest)
  | .endm => some (s.fail .endmWithoutMacro, rest)
  | .text _ => some (s, rest)
  | .call _ _ => some (s, rest)

/-- gas-preproc.c:1202-1210: the first macro with the name. -/
def St.find (s : St L) (m : Nat) : Option (List (Line L)) := (s.macros.find? fun p => p.1 = m).map (·.2)

/-- gas-preproc.c:1156-1259 `process_line`, with the lines behind it.  A call is looked for first, in lines that are skipped too. -/
def St.line (s : St L) (rest : List (Line L)) : Line L → Option (St L × List (Line L))
  | .call m t =>
    match s.find m with
    | some body => some (s, body ++ rest)
    | none => some (s.text t, rest)
  | .text t => some (s.text t, rest)
  | l => if s.skip = 0 then s.directive rest l else some (s.skipped l, rest)

inductive Result (L : Lang) where
  | crash
  | done (s : St L)

/-- gas-preproc.c:1343-1375 `gas_preproc_get_line`, called until it gives no line; `none` is a run that has not ended yet. -/
def run : Nat → St L → List (Line L) → Option (Result L)
  | 0, _, _ => none
  | fuel + 1, s, ls =>
    if s.fatal then some (.done s)
    else
      match ls with
      | [] => some (.done s)
      | l :: rest =>
        match s.line rest l with
        | none => some .crash
        | some r => run fuel r.1 r.2

/-- gas-preproc.c:1263-1300: the state at the start. -/
def start (e : L.State) : St L := ⟨e, 0, 0, [], false, [], []⟩

end Verif.Gas
