/-
Specification of diagnostics: which reports a history of calls makes, independently of how they are
stored.
-/
import Verif.Errwarn.Model

namespace Verif.Errwarn.Spec

/-- A pending error: class, message, and cross reference (if one was announced before it). -/
structure Pending where
  eclass : EClass
  msg : String
  xref : Option (Nat × String)
deriving Repr, DecidableEq

/-- Specification state: the first error since the last fetch or clear, a cross reference waiting
    for its error, the warnings not yet reported, the enabled classes, and all reports so far (in the
    order they were made). -/
structure State where
  error : Option Pending
  xref : Option (Nat × String)
  warns : List (WClass × String)
  enabled : WClass → Bool
  reports : List Entry

def init : State :=
  { error := none, xref := none, warns := [],
    enabled := fun c => c = 1 ∨ c = 2 ∨ c = 3 ∨ c = 5 ∨ c = 7, reports := [] }

/-- The report an error becomes when propagated at a line. -/
def Pending.report (p : Pending) (line : Nat) : Entry :=
  ⟨.error, line, some p.msg, (p.xref.map (·.1)).getD 0, p.xref.map (·.2)⟩

def warnReport (line : Nat) (w : WClass × String) : Entry := ⟨.warning, line, some w.2, 0, none⟩

def step (s : State) : Op → State
  | .errorSet c m =>
    match s.error with
    | some _ => s                      -- the first error wins
    | none => { s with error := some ⟨c, m, s.xref⟩, xref := none }
  | .errorSetXref l m => if s.error.isSome then s else { s with xref := some (l, m) }
  | .errorClear => { s with error := none, xref := none }
  | .warnSet c m => if s.enabled c then { s with warns := s.warns ++ [(c, m)] } else s
  | .warnClear => { s with warns := [] }
  | .enable c => { s with enabled := fun d => d = c || s.enabled d }
  | .disable c => { s with enabled := fun d => !(d = c) && s.enabled d }
  | .disableAll => { s with enabled := fun _ => false }
  | .propagate l =>
    { s with error := none, warns := [],
             reports := s.reports ++ (s.error.map (·.report l)).toList ++ s.warns.map (warnReport l) }

/-- Classes outside the YASM_ERROR_PARSE family: the non-specific class, or no "parse" bits.
    (errwarn.h documents that PARSE errors are not reported when another error follows.) -/
def NotParse (c : EClass) : Prop := c = eGeneral ∨ c &&& eParse ≠ eParse

/-- Histories the specification covers: real error classes (not YASM_ERROR_NONE) outside the PARSE
    family, and warning classes that fit the 64-bit mask. -/
def OpOk : Op → Prop
  | .errorSet c _ => c ≠ eNone ∧ NotParse c
  | .warnSet c _ | .enable c | .disable c => c < 64
  | _ => True

def run (s : State) (ops : List Op) : State := ops.foldl step s

end Verif.Errwarn.Spec
