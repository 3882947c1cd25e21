/-
Specification of the section list, in terms of the calls made.
-/
import Verif.Section.Model

namespace Verif.Section.Spec

/-- Names asked for, oldest first. -/
def asked : List Op → List Name
  | [] => []
  | .get n _ _ _ _ :: ops => n :: asked ops
  | .sect _ _ :: ops => asked ops

/-- Distinct elements in order of first appearance. -/
def firsts {α : Type} [DecidableEq α] (l : List α) : List α :=
  l.foldl (fun acc x => if x ∈ acc then acc else acc ++ [x]) []

/-- Operations addressed to section `i`, oldest first. -/
def toSection (i : Nat) : List Op → List SectOp
  | [] => []
  | .get _ _ _ _ _ :: ops => toSection i ops
  | .sect j op :: ops => if j = i then op :: toSection i ops else toSection i ops

/-- The first request for a name decides alignment, code flag and reserve-only flag. -/
def firstRequest (n : Name) : List Op → Option (Nat × Int × Int × Nat)
  | [] => none
  | .get m a c r l :: ops => if m = n then some (a, c, r, l) else firstRequest n ops
  | .sect _ _ :: ops => firstRequest n ops

/-- Bytecodes (with a callback) among the operations, in order. -/
def appended : List SectOp → List Bc
  | [] => []
  | .append (some bc) :: ops => if bc.callback then bc :: appended ops else appended ops
  | _ :: ops => appended ops

/-- Relocations, in order. -/
def relocs : List SectOp → List Nat
  | [] => []
  | .addReloc r _ :: ops => r :: relocs ops
  | _ :: ops => relocs ops

/-- Destroy functions given with the relocations, in order. -/
def destroyers : List SectOp → List (Option Nat)
  | [] => []
  | .addReloc _ d :: ops => d :: destroyers ops
  | _ :: ops => destroyers ops

/-- The alignment last set, if any. -/
def lastAlign (a : Nat) : List SectOp → Nat
  | [] => a
  | .setAlign b :: ops => lastAlign b ops
  | _ :: ops => lastAlign a ops

/-- Additions of associated data, in order. -/
def dataOps : List SectOp → List (Nat × Nat)
  | [] => []
  | .addData cb d :: ops => (cb, d) :: dataOps ops
  | _ :: ops => dataOps ops

end Verif.Section.Spec
