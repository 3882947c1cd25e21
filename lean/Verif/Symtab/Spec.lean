import Verif.Symtab.Model
/-
Histories of symbol table calls, and what they say about each name.
-/
namespace Verif.Symtab
open Verif.Hamt (Key Hamt Out)
open Verif.Errwarn (Global)

/-- A call of the library.  `diag`: the rest of the program leaves the error indicator in some state. -/
inductive Op where
  | setCase (sensitive : Bool)
  | use (name : Key) (line : Nat)
  | equ (name : Key) (e : Nat) (line : Nat)
  | label (name : Key) (bc : Option Nat) (inTable : Bool) (line : Nat)
  | curpos (name : Key) (bc : Option Nat) (line : Nat)
  | special (name : Key) (vis : Vis)
  | declare (name : Key) (vis : Vis) (line : Nat)
  | abs (e : Nat)
  | diag (g : Global)

/-- The table, the error indicator and the record the last call returned. -/
structure State where
  tab : Tab
  g : Global
  last : Option Nat

def State.init : State := ⟨.create, .init, none⟩

def lift (g : Global) : Out (Tab × Nat) → Out State
  | .ok (t, i) => .ok ⟨t, g, some i⟩
  | .diverged => .diverged
  | .ub => .ub

def lift3 : Out (Tab × Global × Nat) → Out State
  | .ok (t, g, i) => .ok ⟨t, g, some i⟩
  | .diverged => .diverged
  | .ub => .ub

def step (fuel : Nat) (s : State) : Op → Out State
  | .setCase b => .ok { s with tab := s.tab.setCaseSensitive b }
  | .use n l => lift s.g (s.tab.use fuel n l)
  | .equ n e l => lift3 (s.tab.defineEqu s.g fuel n e l)
  | .label n bc b l => lift3 (s.tab.defineLabel s.g fuel n bc b l)
  | .curpos n bc l => lift3 (s.tab.defineCurpos s.g fuel n bc l)
  | .special n v => lift3 (s.tab.defineSpecial s.g fuel n v)
  | .declare n v l => lift3 (s.tab.declare s.g fuel n v l)
  | .abs e => lift s.g (s.tab.absSym fuel e)
  | .diag g => .ok { s with g := g }

def run (fuel : Nat) (s : State) : List Op → Out State
  | [] => .ok s
  | op :: ops => match step fuel s op with
    | .ok s => run fuel s ops
    | .diverged => .diverged
    | .ub => .ub

/-- The record a name is looked up to, if any. -/
def State.lookup (s : State) (name : Key) : Option Rec :=
  match s.tab.get name with
  | .ok (some i) => s.tab.recs[i]?
  | _ => none

/-- What a call says about a name of the table. -/
inductive Ev where
  | used (line : Nat)
  | defined (type : SymType) (line : Nat)
  | declared (vis : Vis) (line : Nat)
  | absolute
  deriving DecidableEq, Repr

/-- The name in the given case mode. -/
def normal (sensitive : Bool) (name : Key) : Key := if sensitive then name else name.map Hamt.toLower

/-- What the calls of a history say about a name (a spelling as it is stored). -/
def events (sensitive : Bool) (n : Key) : List Op → List Ev
  | [] => []
  | op :: ops =>
    match op with
    | .setCase b => events b n ops
    | .use m l => (if normal sensitive m = n then [.used l] else []) ++ events sensitive n ops
    | .equ m _ l => (if normal sensitive m = n then [.defined .equ l] else []) ++ events sensitive n ops
    | .label m _ b l => (if b ∧ normal sensitive m = n then [.defined .label l] else []) ++ events sensitive n ops
    | .curpos _ _ _ => events sensitive n ops
    | .special m _ => (if normal sensitive m = n then [.defined .special 0] else []) ++ events sensitive n ops
    | .declare m v l => (if normal sensitive m = n then [.declared v l] else []) ++ events sensitive n ops
    | .abs _ => (if n = [] then [.absolute] else []) ++ events sensitive n ops
    | .diag _ => events sensitive n ops

/-- The case mode after a history. -/
def mode (sensitive : Bool) : List Op → Bool
  | [] => sensitive
  | .setCase b :: ops => mode b ops
  | _ :: ops => mode sensitive ops

/-- The definitions among the events: kind and line. -/
def defs : List Ev → List (SymType × Nat)
  | [] => []
  | .defined t l :: es => (t, l) :: defs es
  | _ :: es => defs es

/-- The lines of the uses. -/
def uses : List Ev → List Nat
  | [] => []
  | .used l :: es => l :: uses es
  | _ :: es => uses es

/-- Whether there is an extern or common declaration among the events. -/
def declaredOutside : List Ev → Bool
  | [] => false
  | .declared v _ :: es => v &&& (visCommon ||| visExtern) != 0 || declaredOutside es
  | _ :: es => declaredOutside es

/-- Used, but neither defined nor declared extern or common. -/
def Undefined (evs : List Ev) : Prop :=
  uses evs ≠ [] ∧ defs evs = [] ∧ Ev.absolute ∉ evs ∧ declaredOutside evs = false

/-- The line of the first use (0: no line). -/
def firstUse (evs : List Ev) : Nat := ((uses evs).find? (· ≠ 0)).getD 0

/-- The calls that report the names at the lines, and the notice at the first of the lines. -/
def reportCalls (us : List (Key × Nat)) : List Errwarn.Op :=
  us.flatMap (fun u => [.errorSet Errwarn.eGeneral s!"undefined symbol `{text u.1}' (first use)", .propagate u.2]) ++
    (let first := us.foldl (fun m u => min m u.2) ULONG_MAX
     if first < ULONG_MAX then
       [.errorSet Errwarn.eGeneral " (Each undefined symbol is reported only once.)", .propagate first] else [])

end Verif.Symtab
