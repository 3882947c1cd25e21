/-
Independent specification of the line map: a function from virtual lines to physical positions,
updated pointwise from the line of the new mapping onwards; and a partial function from virtual
lines to source text.
-/
import Verif.Linemap.Model

namespace Verif.Linemap.Spec

/-- Where a virtual line comes from: file name and physical line. -/
abbrev Pos := String × Int

structure State where
  current : Nat
  /-- position of each virtual line, `none` before any mapping -/
  pos : Nat → Option Pos
  /-- last source text recorded for each virtual line -/
  src : Nat → Option (Option Nat × String)

def init : State := { current := 1, pos := fun _ => none, src := fun _ => none }

/-- The line a `set` starts at: 0 stands for the current line. -/
def startOf (s : State) (v : Nat) : Nat := if v = 0 then s.current else v

/-- File name used by a `set` without a name: the one in force on the preceding line; on the very
    first line, the one already in force there; "unknown" if there is none. -/
def inheritedName (s : State) (start : Nat) : String :=
  match s.pos (start - 1) with
  | some p => p.1
  | none =>
    match s.pos start with
    | some p => p.1
    | none => "unknown"

/-- From line `start` on, line `start + k` is physical line `fileLine + k*inc` of the file;
    earlier lines are unaffected. -/
def set (s : State) (filename : Option String) (v : Nat) (fileLine inc : Int) : State :=
  let start := startOf s v
  let name := filename.getD (inheritedName s start)
  { s with pos := fun l => if l < start then s.pos l
                           else some (name, fileLine + inc * ((l : Int) - start)) }

def step (s : State) : Op → State
  | .set f v fl inc => set s f v fl inc
  | .next => { s with current := s.current + 1 }
  | .source bc t => { s with src := fun l => if l = s.current then some (bc, t) else s.src l }

def run (s : State) (ops : List Op) : State := ops.foldl step s

end Verif.Linemap.Spec
