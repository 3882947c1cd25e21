/-
Specification of sorting with a three-way comparison.
-/
namespace Verif.Sort

variable {α : Type}

/-- The comparison function is a total preorder: its sign turns around when the arguments are swapped, and
    "not greater" is transitive. -/
structure Lawful (cmp : α → α → Int) : Prop where
  swap : ∀ a b, cmp a b ≤ 0 ↔ 0 ≤ cmp b a
  trans : ∀ a b c, cmp a b ≤ 0 → cmp b c ≤ 0 → cmp a c ≤ 0

/-- In ascending order. -/
def Ascending (cmp : α → α → Int) (l : List α) : Prop := l.Pairwise fun a b => cmp a b ≤ 0

/-- The elements of `l` that compare equal to `x`, in order. -/
def equals (cmp : α → α → Int) (x : α) (l : List α) : List α := l.filter fun y => decide (cmp x y = 0)

/-- `r` is the stable sort of `l`: the same elements, in ascending order, those that compare equal in their
    original order. -/
structure StableSortOf (cmp : α → α → Int) (l r : List α) : Prop where
  perm : r.Perm l
  ascending : Ascending cmp r
  stable : ∀ x, equals cmp x r = equals cmp x l

end Verif.Sort
