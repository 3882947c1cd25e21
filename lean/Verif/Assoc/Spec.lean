/-
Specification of associated data: what was added last under a callback, and how many times a piece of
data has been given up by its callback.
-/
namespace Verif.Assoc.Spec

/-- The data added under `cb`, oldest first. -/
def under (cb : Nat) (ops : List (Nat × Nat)) : List Nat :=
  (ops.filter (fun o => o.1 == cb)).map (·.2)

/-- What is associated with `cb` after the additions: the last data added, NULL if none. -/
def current (cb : Nat) (ops : List (Nat × Nat)) : Nat := (under cb ops).getLast?.getD 0

/-- How many times `p` stops being the associated data, in a sequence of additions under one callback
    that is finally torn down: at every addition of something else just after `p`, and at the end. -/
def givenUp (p : Nat) : List Nat → Nat
  | [] => 0
  | [x] => if x = p then 1 else 0
  | x :: y :: t => (if x = p ∧ y ≠ p then 1 else 0) + givenUp p (y :: t)

end Verif.Assoc.Spec
