import Verif.Value.Model
import Verif.Expr.Spec
/-
Specification for C35: what the parts of a value mean together.
-/
namespace Verif.Value
open Verif.Intnum Verif.Expr

/-- Where the value is and what the segment operator WRT does: `cur` is the address of the bytecode that
    contains the value, `frame` gives the address a WRT operand stands for. -/
structure Place where
  cur : Word
  frame : Word → Word

/-- What the relocatable part contributes: the segment of the symbol, or the symbol, less the current
    address if relative to it, shifted right. -/
def relVal (ρ : Env) (w : Place) (p : Parts) : Word :=
  match p.rel with
  | none => 0
  | some s =>
    if p.segOf then ρ.seg (ρ.sym s)
    else (if p.curposRel then ρ.sym s - w.cur else ρ.sym s).sshiftRight p.rshift

/-- What WRT contributes: the address the relocatable part is counted from. -/
def wrtVal (ρ : Env) (w : Place) (p : Parts) : Word :=
  match p.wrt with
  | none => 0
  | some s => w.frame (ρ.sym s)

/-- What the absolute part contributes. -/
def absVal (ρ : Env) (a : Option Node) : Word :=
  match a with
  | none => 0
  | some e => e.eval ρ

/-- The meaning of a split value: absolute part plus relocatable part, counted from the WRT address. -/
def meaning (ρ : Env) (w : Place) (v : Value) : Word := absVal ρ v.abs + relVal ρ w v.p - wrtVal ρ w v.p

/-- The environment fits the place: WRT subtracts the address of its right operand, and the symbols that
    stand for the current position, among those mentioned, have the current address. -/
structure Fitting (ρ : Env) (w : Place) (y : Syms) (mentioned : List Nat) : Prop where
  wrt : ∀ a b, ρ.wrt a b = a - w.frame b
  here : ρ.sym y.here = w.cur
  curpos : ∀ s ∈ mentioned, y.isCurpos s = true → ρ.sym s = w.cur

mutual
/-- Does no WRT occur? -/
def NoWrt : Item → Prop
  | .expr op ts => op ≠ .WRT ∧ NoWrtL ts
  | _ => True
/-- No term has a WRT. -/
def NoWrtL : List Item → Prop
  | [] => True
  | t :: ts => NoWrt t ∧ NoWrtL ts
end

mutual
/-- WRT occurs only in sums (and inside WRT), and symbols are shifted right by 0 to 2^32-1 only. -/
def Sane : Item → Prop
  | .expr op ts =>
    (op ≠ .ADD → op ≠ .IDENT → op ≠ .WRT → NoWrtL ts) ∧
    (op = .SHR → ∀ s i, ts = [.sym s, .int i] → 0 ≤ val i ∧ val i < 2 ^ 32) ∧ SaneL ts
  | _ => True
/-- All terms are `Sane`. -/
def SaneL : List Item → Prop
  | [] => True
  | t :: ts => Sane t ∧ SaneL ts
end

mutual
/-- Is every operator one of those allowed by `P`, and every symbol one of those allowed by `Q`? -/
def Allowed (P : Op → Prop) (Q : Nat → Prop) : Item → Prop
  | .expr op ts => P op ∧ AllowedL P Q ts
  | .sym s => Q s
  | _ => True
/-- The same for every term. -/
def AllowedL (P : Op → Prop) (Q : Nat → Prop) : List Item → Prop
  | [] => True
  | t :: ts => Allowed P Q t ∧ AllowedL P Q ts
end

/-- Neither WRT nor a right shift. -/
def Plain (op : Op) : Prop := op ≠ .WRT ∧ op ≠ .SHR

/-- No SEG:OFF. -/
def NoSegoff (op : Op) : Prop := op ≠ .SEGOFF

/-- The address of a bytecode. -/
def At.addr (base : Nat → Word) (bc : At) : Word := base bc.sect + BitVec.ofNat 256 bc.offset.toNat

/-- The symbols of an expression and those its EQU definitions lead to. -/
def Mentions (c : Ctx) (e : Node) (s : Nat) : Prop := s ∈ syms e.item ∨ ∃ r ∈ syms e.item, Reaches c r s

/-- Every operator of the expression and of all EQU definitions is one of those allowed by `P`. -/
def OnlyOps (P : Op → Prop) (c : Ctx) (e : Node) : Prop :=
  Allowed P (fun _ => True) e.item ∧ ∀ s d, c.equ s = some d → Allowed P (fun _ => True) d.item

end Verif.Value
