import Verif.Errwarn.Model
/-
Model of the options for warnings: frontends/yasm/yasm.c:1188-1228 `opt_warning_handler`.  An option is its text without the first dash, as the command line
hands it over; `-w` is the option with extra 1 in the table (yasm.c:189-192).
-/
namespace Verif.Warnopt
open Verif.Errwarn (Global WClass warnEnable warnDisable warnDisableAll)

abbrev Str := List Char

/-- What the options change: the classes of warnings and `warning_error`. -/
structure State where
  g : Global
  werror : Bool
  deriving DecidableEq, Repr

/-- yasm.c:732, 1192: the start. -/
def State.init : State := ⟨.init, false⟩

/-- The variable `action`. -/
def action (on : Bool) (g : Global) (c : WClass) : Global := if on then warnEnable g c else warnDisable g c

/-- yasm.c:1203-1207: the prefix `no-`. -/
def prefixNo : Str → Bool × Str
  | 'n' :: 'o' :: '-' :: r => (false, r)
  | r => (true, r)

/-- yasm.c:1209-1227: the name; `none` is a return of 1, for an option that is not recognized. -/
def byName (st : State) (on : Bool) (name : Str) : Option State :=
  if name = [] then none
  else if name = "error".toList then some { st with werror := on }
  else if name = "unrecognized-char".toList then some { st with g := action on st.g 2 }
  else if name = "orphan-labels".toList then some { st with g := action on st.g 4 }
  else if name = "uninit-contents".toList then some { st with g := action on st.g 5 }
  else if name = "size-override".toList then some { st with g := action on st.g 6 }
  else if name = "segreg-in-64bit".toList then some { st with g := action on st.g 8 }
  else none

/-- yasm.c:1188-1228 `opt_warning_handler`. -/
def handler (st : State) (cmd : Str) (extra : Nat) : Option State :=
  if extra = 1 then some { st with g := warnDisableAll st.g }
  else byName st (prefixNo (cmd.drop 1)).1 (prefixNo (cmd.drop 1)).2

/-- The two entries of the table of options, yasm.c:189-192; an option that is not recognized changes nothing. -/
def step (st : State) (opt : Str) : State :=
  match opt with
  | 'w' :: _ => (handler st opt 1).getD st
  | 'W' :: _ => (handler st opt 0).getD st
  | _ => st

def run (opts : List Str) : State := opts.foldl step .init

end Verif.Warnopt
