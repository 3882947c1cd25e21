/-
Specification of directive dispatch.
-/
import Verif.Directive.Model

namespace Verif.Directive.Spec

open Verif.Hamt

/-- Equal up to the case of ASCII letters. -/
def same (a b : Key) : Prop := a.map toLower = b.map toLower

instance (a b : Key) : Decidable (same a b) := inferInstanceAs (Decidable (_ = _))

/-- The directive in force: the first one, in order of registration, for that parser and name. -/
def inForce (l : List Directive) (parser name : Key) : Option Directive :=
  l.find? (fun d => decide (same d.parser parser) && decide (same d.name name))

/-- What the flags demand of the parameters. -/
def wantsArgument (d : Directive) : Bool := d.flags.testBit 0 || d.flags.testBit 1
def wantsIdentifier (d : Directive) : Bool := d.flags.testBit 1

/-- The parameters given. -/
def given (vps : Option (List Valparam)) : List Valparam := vps.getD []

/-- The identifier with its prefix character removed once. -/
def bareId (s : Key) (pfx : BitVec 8) : Key :=
  match s with
  | [] => []
  | c :: cs => if c = pfx then cs else s

/-- Whether a qualifier `h` recognises a parameter: `name=value` by name, if `h` takes a value; a lone
    identifier, less its prefix character, if `h` takes none; strings and expressions without a name
    never. -/
def recognises {σ : Type} (h : Help σ) (v : Valparam) : Bool :=
  match v.val, v.param with
  | some n, _ => h.needsparam && decide (same n h.name)
  | none, .id s pfx => !h.needsparam && decide (same (bareId s pfx) h.name)
  | none, _ => false

/-- What handling one parameter amounts to: code and new data; the helper of the first recognising
    qualifier fails with any nonzero code, the fallback with a negative one. -/
inductive Step (σ : Type)
  | failed (st : σ)
  | used (st : σ)
  | ignored (st : σ)

def step {σ : Type} (help : List (Help σ)) (fallback : σ → Valparam → Int × σ) (v : Valparam) (st : σ) :
    Step σ :=
  match help.find? (fun h => recognises h v) with
  | some h =>
    let r := h.helper st v
    if r.1 = 0 then .used r.2 else .failed r.2
  | none =>
    let r := fallback st v
    if r.1 < 0 then .failed r.2 else if r.1 = 0 then .ignored r.2 else .used r.2

/-- Handling parameters `vps` from data `st` ends with data `st'`; `res` is `none` if one failed,
    otherwise whether any was used. -/
inductive Handles {σ : Type} (help : List (Help σ)) (fallback : σ → Valparam → Int × σ) :
    List Valparam → σ → Option Bool → σ → Prop
  | done (st) : Handles help fallback [] st (some false) st
  | fail (v vs st st') : step help fallback v st = .failed st' →
      Handles help fallback (v :: vs) st none st'
  | use (v vs st st1 st' b) : step help fallback v st = .used st1 →
      Handles help fallback vs st1 b st' → Handles help fallback (v :: vs) st (b.map (fun _ => true)) st'
  | ignore (v vs st st1 st' b) : step help fallback v st = .ignored st1 →
      Handles help fallback vs st1 b st' → Handles help fallback (v :: vs) st b st'

/-- Returned code. -/
def code : Option Bool → Int
  | none => -1
  | some true => 1
  | some false => 0

end Verif.Directive.Spec
