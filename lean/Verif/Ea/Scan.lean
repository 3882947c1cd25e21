/-
Taking the registers out of an address: what they are worth and what remains.
-/
import Verif.Ea.Keep
import Verif.Sort.Props

set_option linter.unusedSimpArgs false

namespace Verif.Ea

open Verif.Intnum
open Verif.Expr
open Verif.Value

/-- What the registers taken out are worth together. -/
def usesVal (ρ : Env) : List (Nat × Intnum) → Word
  | [] => 0
  | (r, i) :: us => ρ.reg r * BitVec.ofInt 256 (val i) + usesVal ρ us

theorem usesVal_append (ρ : Env) (a b : List (Nat × Intnum)) : usesVal ρ (a ++ b) = usesVal ρ a + usesVal ρ b := by
  induction a with
  | nil => simp [usesVal]
  | cons x a ih => obtain ⟨r, i⟩ := x; simp only [List.cons_append, usesVal, ih, BitVec.add_assoc]

/-- The sum of the values of the terms. -/
def sumL (ρ : Env) (ts : List Item) : Word := (evalL ρ ts).foldr (· + ·) 0

theorem eval_zero (ρ : Env) : eval ρ zero = 0 := by simp [zero, eval, val, createUint, setUint]

theorem good_zero (ρ : Env) : Good ρ zero := (createUint_fits 0 (by decide)).1

/-- Products with a register in front are products of that register and one integer. -/
def Two (t : Item) : Prop := ∀ o r vs, t = .expr o (.reg r :: vs) → o = .MUL ∧ ∀ i ws, vs = .int i :: ws → ws = []

/-- One step of counting. -/
def stepMult (u u' : Usage) (n : Nat) (v : BitVec 32) : Prop := u'.mult = setMult u.mult n (u.mult n + v)

theorem useReg_mult (want : Bool) (u : Usage) (r n : Nat) :
    (useReg want u r n).mult = setMult u.mult n (u.mult n + 1) ∧ (useReg want u r n).uses = u.uses ++ [(r, .L 1)] := by
  unfold useReg
  dsimp only
  split <;> exact ⟨rfl, rfl⟩

theorem useMul_mult (want : Bool) (u : Usage) (r n : Nat) (i : Intnum) :
    (useMul want u r n i).mult = setMult u.mult n (u.mult n + (getInt i).setWidth 32) ∧
    (useMul want u r n i).uses = u.uses ++ [(r, i)] := by
  unfold useMul
  dsimp only
  split
  · exact ⟨rfl, rfl⟩
  · split <;> exact ⟨rfl, rfl⟩

/-- The multipliers that taking out the given registers gives. -/
def addUses (getReg : Nat → Option Nat) (m : Nat → BitVec 32) : List (Nat × Intnum) → (Nat → BitVec 32)
  | [] => m
  | (r, i) :: us => addUses getReg (match getReg r with | some n => setMult m n (m n + (getInt i).setWidth 32) | none => m) us

theorem addUses_append (getReg : Nat → Option Nat) (m : Nat → BitVec 32) (a b : List (Nat × Intnum)) :
    addUses getReg m (a ++ b) = addUses getReg (addUses getReg m a) b := by
  induction a generalizing m with
  | nil => rfl
  | cons x a ih => obtain ⟨r, i⟩ := x; simp only [List.cons_append, addUses, ih]

/-- The registers taken out: they are added to the list, all of them have a slot, and the multipliers change
    accordingly. -/
def Took (getReg : Nat → Option Nat) (u u' : Usage) (new : List (Nat × Intnum)) : Prop :=
  u'.uses = u.uses ++ new ∧ (∀ x ∈ new, (getReg x.1).isSome = true) ∧ u'.mult = addUses getReg u.mult new

theorem Took.trans {getReg : Nat → Option Nat} {u u' u'' : Usage} {a b : List (Nat × Intnum)}
    (h1 : Took getReg u u' a) (h2 : Took getReg u' u'' b) : Took getReg u u'' (a ++ b) := by
  refine ⟨by rw [h2.1, h1.1, List.append_assoc], ?_, by rw [h2.2.2, h1.2.2, addUses_append]⟩
  intro x hx
  rcases List.mem_append.1 hx with hx | hx
  · exact h1.2.1 x hx
  · exact h2.2.1 x hx

theorem took_reg {getReg : Nat → Option Nat} (want : Bool) (u : Usage) (r n : Nat) (h : getReg r = some n) :
    Took getReg u (useReg want u r n) [(r, .L 1)] := by
  obtain ⟨a, b⟩ := useReg_mult want u r n
  refine ⟨b, by simp [h], ?_⟩
  rw [a]; simp [addUses, h, getInt]

theorem took_mul {getReg : Nat → Option Nat} (want : Bool) (u : Usage) (r n : Nat) (i : Intnum) (h : getReg r = some n) :
    Took getReg u (useMul want u r n i) [(r, i)] := by
  obtain ⟨a, b⟩ := useMul_mult want u r n i
  refine ⟨b, by simp [h], ?_⟩
  rw [a]; simp [addUses, h]

theorem scanTerms_ok (ρ : Env) (getReg : Nat → Option Nat) (want : Bool) (ts : List Item) :
    ∀ (u u' : Usage) (ts' : List Item), scanTerms getReg want u ts = .ok (u', ts') → (∀ t ∈ ts, Two t) → GoodL ρ ts →
      ∃ new, Took getReg u u' new ∧ sumL ρ ts = usesVal ρ new + sumL ρ ts' ∧ GoodL ρ ts' ∧ ts'.length = ts.length := by
  induction ts with
  | nil =>
    intro u u' ts' h _ _
    simp only [scanTerms, Except.ok.injEq, Prod.mk.injEq] at h
    obtain ⟨rfl, rfl⟩ := h
    exact ⟨[], ⟨by simp, by simp, rfl⟩, by simp [usesVal], trivial, rfl⟩
  | cons t ts ih =>
    intro u u' ts' h htwo g
    have hts : ∀ t ∈ ts, Two t := fun t ht => htwo t (List.mem_cons_of_mem _ ht)
    have keep : scanTerms getReg want u (t :: ts) = (scanTerms getReg want u ts).map (fun x => (x.1, t :: x.2)) →
        ∃ new, Took getReg u u' new ∧ sumL ρ (t :: ts) = usesVal ρ new + sumL ρ ts' ∧ GoodL ρ ts' ∧ ts'.length = (t :: ts).length := by
      intro he
      rw [he] at h
      obtain ⟨⟨v, vs⟩, h1, h2⟩ := map_ok h
      simp only [Prod.mk.injEq] at h2
      obtain ⟨rfl, rfl⟩ := h2
      obtain ⟨new, k1, k2, k3, k4⟩ := ih u _ _ h1 hts g.2
      refine ⟨new, k1, ?_, ⟨g.1, k3⟩, by simp [k4]⟩
      simp only [sumL, evalL, List.foldr_cons] at k2 ⊢
      rw [k2]; grind
    cases t
    case reg r =>
      simp only [scanTerms] at h
      cases hr : getReg r with
      | none => rw [hr] at h; cases h
      | some n =>
        rw [hr] at h
        obtain ⟨⟨v, vs⟩, h1, h2⟩ := map_ok h
        simp only [Prod.mk.injEq] at h2
        obtain ⟨rfl, rfl⟩ := h2
        obtain ⟨new, k1, k2, k3, k4⟩ := ih _ _ _ h1 hts g.2
        refine ⟨[(r, .L 1)] ++ new, (took_reg want u r n hr).trans k1, ?_, ⟨good_zero ρ, k3⟩, by simp [k4]⟩
        have e1 : (BitVec.ofInt 256 (val (.L 1)) : Word) = 1 := by decide
        rw [usesVal_append]
        simp only [usesVal, e1, sumL, evalL, List.foldr_cons, eval_zero] at k2 ⊢
        rw [k2]
        simp only [eval]
        grind
    case expr o us =>
      by_cases hx : ∃ r vs, us = .reg r :: vs
      · obtain ⟨r, vs, rfl⟩ := hx
        obtain ⟨ho, hvs⟩ := htwo _ (by simp) o r vs rfl
        subst ho
        cases vs with
        | nil => simp only [scanTerms] at h; cases h
        | cons v ws =>
          cases v
          case int i =>
            have := hvs i ws rfl
            subst this
            simp only [scanTerms] at h
            cases hr : getReg r with
            | none => rw [hr] at h; cases h
            | some n =>
              rw [hr] at h
              obtain ⟨⟨v, vs⟩, h1, h2⟩ := map_ok h
              simp only [Prod.mk.injEq] at h2
              obtain ⟨rfl, rfl⟩ := h2
              obtain ⟨new, k1, k2, k3, k4⟩ := ih _ _ _ h1 hts g.2
              have gi : Fits i := by simpa [Good] using g.1.2.2.2.1
              refine ⟨[(r, i)] ++ new, (took_mul want u r n i hr).trans k1, ?_, ⟨⟨by simp [Arity], by simp, good_zero ρ, gi, trivial⟩, k3⟩, by simp [k4]⟩
              rw [usesVal_append]
              simp only [usesVal, sumL, evalL, List.foldr_cons, eval, eval_zero, opVal] at k2 ⊢
              rw [k2]
              grind
          all_goals
            simp only [scanTerms] at h
            cases h
      · refine keep ?_
        cases us with
        | nil => rfl
        | cons x xs =>
          cases x
          case reg r => exact absurd ⟨r, xs, rfl⟩ hx
          all_goals rfl
    all_goals exact keep rfl

theorem orderTerms_op (e : Node) : (Verif.Sort.orderTerms e).op = e.op ∧ (Verif.Sort.orderTerms e).terms.Perm e.terms := by
  cases hm : multi e.op with
  | false => rw [Verif.Sort.orderTerms_other e hm]; exact ⟨rfl, .refl _⟩
  | true =>
    obtain ⟨h1, h2, _⟩ := Verif.Sort.orderTerms_sorts e hm
    exact ⟨h1, h2⟩

theorem orderTerms_good (ρ : Env) (e : Node) (h : Good ρ e.item) : Good ρ (Verif.Sort.orderTerms e).item := by
  obtain ⟨h1, h2⟩ := orderTerms_op e
  refine ⟨?_, ?_, ?_⟩
  · rw [h1, h2.length_eq]; exact h.1
  · intro ho w hw
    rw [h1] at ho
    have hp : (evalL ρ (Verif.Sort.orderTerms e).terms).Perm (evalL ρ e.terms) := by
      rw [evalL_eq, evalL_eq]; exact h2.map _
    exact h.2.1 ho w (hp.mem_iff.1 hw)
  · rw [goodL_iff]
    intro t ht
    exact (goodL_iff ρ e.terms).1 h.2.2 t (h2.mem_iff.1 ht)

/-- After the prescan products with a register in front have two factors. -/
theorem prescan_ok (ρ : Env) (ts : List Item) : ∀ ts', prescan ts = .ok ts' → GoodL ρ ts →
    (∀ o us r, Item.expr o us ∈ ts → Item.reg r ∈ us → o = .MUL) →
    evalL ρ ts' = evalL ρ ts ∧ GoodL ρ ts' ∧ (∀ t ∈ ts', Two t) ∧ ts'.length = ts.length := by
  induction ts with
  | nil =>
    intro ts' h _ _
    simp only [prescan, Except.ok.injEq] at h
    subst h; exact ⟨rfl, trivial, by simp, rfl⟩
  | cons t ts ih =>
    intro ts' h g hm
    have hts : ∀ o us r, Item.expr o us ∈ ts → Item.reg r ∈ us → o = .MUL :=
      fun o us r h1 h2 => hm o us r (List.mem_cons_of_mem _ h1) h2
    have leaf : (prescan ts).map (fun ts' => t :: ts') = .ok ts' → Two t →
        evalL ρ ts' = evalL ρ (t :: ts) ∧ GoodL ρ ts' ∧ (∀ t ∈ ts', Two t) ∧ ts'.length = (t :: ts).length := by
      intro h ht
      obtain ⟨l, h1, rfl⟩ := map_ok h
      obtain ⟨k1, k2, k3, k4⟩ := ih l h1 g.2 hts
      refine ⟨by simp only [evalL, k1], ⟨g.1, k2⟩, ?_, by simp [k4]⟩
      intro t ht'
      rcases List.mem_cons.1 ht' with rfl | ht'
      · exact ht
      · exact k3 t ht'
    cases t
    case expr o us =>
      simp only [prescan] at h
      obtain ⟨p1, p2⟩ := orderTerms_op ⟨o, us⟩
      have gn := orderTerms_good ρ ⟨o, us⟩ g.1
      have vn := Verif.Sort.orderTerms_value ρ ⟨o, us⟩
      generalize hn : Verif.Sort.orderTerms ⟨o, us⟩ = n at *
      obtain ⟨op, vs⟩ := n
      dsimp only at p1 p2 h
      subst p1
      have fin : Two (.expr op vs) → (prescan ts).map (fun ts' => Node.item ⟨op, vs⟩ :: ts') = .ok ts' →
          evalL ρ ts' = evalL ρ (.expr op us :: ts) ∧ GoodL ρ ts' ∧ (∀ t ∈ ts', Two t) ∧ ts'.length = (Item.expr op us :: ts).length := by
        intro htwo h
        obtain ⟨l, h1, rfl⟩ := map_ok h
        obtain ⟨k1, k2, k3, k4⟩ := ih l h1 g.2 hts
        refine ⟨?_, ⟨gn, k2⟩, ?_, by simp [k4]⟩
        · simp only [evalL, k1]
          congr 1
        · intro t ht'
          rcases List.mem_cons.1 ht' with rfl | ht'
          · exact htwo
          · exact k3 t ht'
      split at h
      · rename_i r ws
        split at h
        · cases h
        · rename_i hlen
          split at h
          · rename_i i xs
            refine fin ?_ h
            intro o' r' vs' he
            simp only [Item.expr.injEq, List.cons.injEq] at he
            obtain ⟨rfl, _, rfl⟩ := he
            refine ⟨hm op us r (by simp) (p2.mem_iff.1 (by simp)), ?_⟩
            intro j ys he
            simp only [List.cons.injEq] at he
            rw [← he.2]
            simp only [List.length_cons] at hlen
            exact List.length_eq_zero_iff.1 (by omega)
          · cases h
          · cases h
      · rename_i hne
        refine fin ?_ h
        intro o' r' vs' he
        simp only [Item.expr.injEq] at he
        exact absurd he.2 (hne r' vs')
    all_goals
      exact leaf h (by intro o r vs he; cases he)

/-- Taking the registers out keeps the value. -/
theorem scanExpr_ok (ρ : Env) (getReg : Nat → Option Nat) (want : Bool) (u u' : Usage) (e e' : Node)
    (h : scanExpr getReg want u e = .ok (u', e')) (g : Good ρ e.item)
    (hadd : e.op = .ADD → ∀ o us r, Item.expr o us ∈ e.terms → Item.reg r ∈ us → o = .MUL)
    (hid : e.op = .IDENT → ∀ t ∈ e.terms, Two t) :
    ∃ new, Took getReg u u' new ∧ e.eval ρ = usesVal ρ new + e'.eval ρ ∧ Good ρ e'.item := by
  obtain ⟨op, ts⟩ := e
  have none_ : Took getReg u u [] := ⟨by simp, by simp, rfl⟩
  unfold scanExpr at h
  dsimp only at h hadd hid
  split at h
  · cases hp : prescan ts with
    | error s => rw [hp] at h; cases h
    | ok ts1 =>
      rw [hp] at h
      obtain ⟨⟨v, vs⟩, h1, h2⟩ := map_ok h
      simp only [Prod.mk.injEq] at h2
      obtain ⟨rfl, rfl⟩ := h2
      obtain ⟨p1, p2, p3, p4⟩ := prescan_ok ρ ts ts1 hp g.2.2 (hadd rfl)
      obtain ⟨new, k1, k2, k3, k4⟩ := scanTerms_ok ρ getReg want ts1 u _ _ h1 p3 p2
      refine ⟨new, k1, ?_, ⟨?_, by simp, k3⟩⟩
      · simp only [Node.eval, Node.item, eval, opVal]
        rw [← p1]
        exact k2
      · have := g.1
        dsimp only at k4 this ⊢
        rw [k4, p4]; exact this
  · obtain ⟨⟨v, vs⟩, h1, h2⟩ := map_ok h
    simp only [Prod.mk.injEq] at h2
    obtain ⟨rfl, rfl⟩ := h2
    obtain ⟨new, k1, k2, k3, k4⟩ := scanTerms_ok ρ getReg want ts u _ _ h1 (hid rfl) g.2.2
    have hl : ts.length = 1 := g.1
    obtain ⟨a, rfl⟩ := List.length_eq_one_iff.1 hl
    rw [hl] at k4
    obtain ⟨b, rfl⟩ := List.length_eq_one_iff.1 k4
    refine ⟨new, k1, ?_, ⟨rfl, by simp, k3⟩⟩
    simp only [sumL, evalL, List.foldr_cons, List.foldr_nil] at k2
    simp only [Node.eval, Node.item, eval, evalL, opVal]
    grind
  · unfold scanMul at h
    obtain ⟨p1, p2⟩ := orderTerms_op ⟨.MUL, ts⟩
    have gn := orderTerms_good ρ ⟨.MUL, ts⟩ g
    have vn := Verif.Sort.orderTerms_value ρ ⟨.MUL, ts⟩
    generalize hn : Verif.Sort.orderTerms ⟨.MUL, ts⟩ = n at *
    obtain ⟨op, vs⟩ := n
    dsimp only at p1 p2 h
    subst p1
    split at h
    · rename_i r ws
      split at h
      · cases h
      · rename_i hlen
        split at h
        · rename_i i xs
          simp only [List.length_cons] at hlen
          have := List.length_eq_zero_iff.1 (show xs.length = 0 by omega)
          subst this
          cases hr : getReg r with
          | none => rw [hr] at h; cases h
          | some n =>
            rw [hr] at h
            simp only [Except.ok.injEq, Prod.mk.injEq] at h
            obtain ⟨hu, rfl⟩ := h
            have gi : Fits i := by simpa [Good] using gn.2.2.2.1
            refine ⟨[(r, i)], ?_, ?_, ⟨by simp [Arity], by simp, good_zero ρ, gi, trivial⟩⟩
            · have hmult : u'.mult = setMult u.mult n (u.mult n + (getInt i).setWidth 32) ∧ u'.uses = u.uses ++ [(r, i)] := by
                rw [← hu]
                split
                · split <;> exact ⟨rfl, rfl⟩
                · exact ⟨rfl, rfl⟩
              exact ⟨hmult.2, by simp [hr], by rw [hmult.1]; simp [addUses, hr]⟩
            · rw [← vn]
              simp only [Node.eval, Node.item, usesVal, evalL, List.foldr_cons, eval, eval_zero, opVal]
              grind
        · cases h
    · simp only [Except.ok.injEq, Prod.mk.injEq] at h
      obtain ⟨rfl, rfl⟩ := h
      refine ⟨[], none_, ?_, gn⟩
      rw [vn]; simp [usesVal]
  · split at h
    · cases h
    · simp only [Except.ok.injEq, Prod.mk.injEq] at h
      obtain ⟨rfl, rfl⟩ := h
      exact ⟨[], none_, by simp [usesVal], g⟩
  · cases h

end Verif.Ea
