import Verif.Expr.Model
/- Decidable equality of expressions, for evaluating concrete cases. -/
namespace Verif.Expr
open Verif.Intnum

mutual
/-- Equality test of terms. -/
def Item.beq : Item → Item → Bool
  | .none, .none => true
  | .reg a, .reg b => a == b
  | .int a, .int b => decide (a = b)
  | .subst a, .subst b => a == b
  | .flt a b, .flt c d => a == c && b == d
  | .sym a, .sym b => a == b
  | .precbc a, .precbc b => a == b
  | .expr o us, .expr p vs => decide (o = p) && Item.beqL us vs
  | _, _ => false
/-- Equality test of term lists. -/
def Item.beqL : List Item → List Item → Bool
  | [], [] => true
  | a :: as, b :: bs => Item.beq a b && Item.beqL as bs
  | _, _ => false
end

mutual
theorem Item.beq_eq : ∀ a b : Item, Item.beq a b = true → a = b := by
  intro a b h
  match a with
  | .none => cases b <;> simp_all [Item.beq]
  | .reg _ => cases b <;> simp_all [Item.beq]
  | .int _ => cases b <;> simp_all [Item.beq]
  | .subst _ => cases b <;> simp_all [Item.beq]
  | .flt _ _ => cases b <;> simp_all [Item.beq]
  | .sym _ => cases b <;> simp_all [Item.beq]
  | .precbc _ => cases b <;> simp_all [Item.beq]
  | .expr o us =>
    match b, h with
    | .expr p vs, h =>
      simp only [Item.beq, Bool.and_eq_true, decide_eq_true_eq] at h
      rw [h.1, Item.beqL_eq us vs h.2]
theorem Item.beqL_eq : ∀ a b : List Item, Item.beqL a b = true → a = b := by
  intro a b h
  match a, b, h with
  | [], [], _ => rfl
  | x :: xs, y :: ys, h =>
    simp only [Item.beqL, Bool.and_eq_true] at h
    rw [Item.beq_eq x y h.1, Item.beqL_eq xs ys h.2]
end

mutual
theorem Item.beq_refl : ∀ a : Item, Item.beq a a = true := by
  intro a
  match a with
  | .none => rfl
  | .reg _ => simp [Item.beq]
  | .int _ => simp [Item.beq]
  | .subst _ => simp [Item.beq]
  | .flt _ _ => simp [Item.beq]
  | .sym _ => simp [Item.beq]
  | .precbc _ => simp [Item.beq]
  | .expr o us => simp [Item.beq, Item.beqL_refl us]
theorem Item.beqL_refl : ∀ a : List Item, Item.beqL a a = true := by
  intro a
  match a with
  | [] => rfl
  | x :: xs => simp [Item.beqL, Item.beq_refl x, Item.beqL_refl xs]
end

instance : DecidableEq Item := fun a b =>
  if h : Item.beq a b = true then isTrue (Item.beq_eq a b h)
  else isFalse fun e => h (e ▸ Item.beq_refl a)

deriving instance DecidableEq for Node
deriving instance DecidableEq for Except

end Verif.Expr
