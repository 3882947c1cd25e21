import Verif.Inttree.Model
/-
What an interval tree is supposed to be.
-/
namespace Verif.Inttree

/-- The intervals of a tree from left to right. -/
def Tree.inorder : Tree → List Iv
  | .nil => []
  | .node _ l iv _ r => l.inorder ++ iv :: r.inorder

/-- Ordered by low endpoint. -/
def Sorted (l : List Iv) : Prop := l.Pairwise fun a b => a.low ≤ b.low

/-- No red node has a red child. -/
def NoRedRed : Tree → Prop
  | .nil => True
  | .node red l _ _ r => (red = true → l.red = false ∧ r.red = false) ∧ NoRedRed l ∧ NoRedRed r

/-- Every path from the root down to an empty place has n black nodes. -/
def BlackHeight : Tree → Nat → Prop
  | .nil, n => n = 0
  | .node red l _ _ r, n =>
    ∃ k, n = (if red then k else k + 1) ∧ BlackHeight l k ∧ BlackHeight r k

/-- Each node caches the largest high endpoint below it. -/
def Cached : Tree → Prop
  | .nil => True
  | .node red l iv m r =>
    (∀ i ∈ (Tree.node red l iv m r).inorder, i.high ≤ m) ∧ (∃ i ∈ (Tree.node red l iv m r).inorder, i.high = m) ∧
    Cached l ∧ Cached r

/-- Length of the longest path. -/
def Tree.depth : Tree → Nat
  | .nil => 0
  | .node _ l _ _ r => max l.depth r.depth + 1

/-- A red-black interval tree. -/
structure Valid (t : Tree) : Prop where
  sorted : Sorted t.inorder
  root : t.red = false
  noRedRed : NoRedRed t
  balanced : ∃ n, BlackHeight t n
  cached : Cached t

/-- The closed intervals [low, high] and i have a point in common. -/
def Meets (low high : Int) (i : Iv) : Prop := ∃ x, low ≤ x ∧ x ≤ high ∧ i.low ≤ x ∧ x ≤ i.high

/-- The values of the type long. -/
def IsLong (v : Int) : Prop := -2 ^ 63 ≤ v ∧ v < 2 ^ 63
/-- The values of the type int. -/
def IsInt (v : Int) : Prop := -2 ^ 31 ≤ v ∧ v < 2 ^ 31

/-- Insert intervals one after the other into an empty tree. -/
def insertAll : List Iv → Option Tree
  | l => l.foldl (fun t i => t.bind fun t => insert t i.low i.high i.data) (some .nil)

end Verif.Inttree
