import Verif.Sort.Lemmas
import Verif.Expr.Props
/-
Properties of the merge sort and of term ordering (C23).
-/
namespace Verif.Sort

open Verif.Expr Verif.Intnum

variable {α : Type}

/-- C23: for every comparison that is a total preorder and every array the merge sort gives the stable sort. -/
theorem mergesort_stable (cmp : α → α → Int) (h : Lawful cmp) (l : List α) :
    StableSortOf cmp l (mergesort cmp l) := mergesort_ok h l

/-- A comparison of pairs by the first component only. -/
def byFst (a b : Int × Nat) : Int := a.1 - b.1
theorem byFst_lawful : Lawful byFst :=
  ⟨fun a b => by simp only [byFst]; omega, fun a b c => by simp only [byFst]; omega⟩
example : mergesort byFst [(3, 0), (1, 1), (2, 2), (1, 3), (3, 4), (2, 5), (1, 6)] =
    [(1, 1), (1, 3), (1, 6), (2, 2), (2, 5), (3, 0), (3, 4)] := by decide +kernel
/-- A long descending start and a long ascending one: the natural runs are used. -/
example : mergesort byFst ((List.range 24).map fun (i : Nat) => ((24 - i : Int), i)) =
    (List.range 24).map fun (i : Nat) => ((i : Int) + 1, 23 - i) := by
  decide +kernel
example : mergesort byFst ((List.range 30).map fun (i : Nat) => ((i : Int), i)) =
    (List.range 30).map fun (i : Nat) => ((i : Int), i) := by
  decide +kernel

/-- There is only one stable sort. -/
theorem stableSort_unique (cmp : α → α → Int) (h : Lawful cmp) (l : List α) : ∀ (r s : List α),
    StableSortOf cmp l r → StableSortOf cmp l s → r = s := by
  have key : ∀ (r s : List α), Ascending cmp r → Ascending cmp s → r.Perm s →
      (∀ x, equals cmp x r = equals cmp x s) → r = s := by
    intro r
    induction r with
    | nil => intro s _ _ hp _; exact (List.nil_perm.1 hp).symm
    | cons a r ih =>
      intro s hr hs hp he
      cases s with
      | nil => exact absurd hp.length_eq (by simp)
      | cons b s =>
        obtain ⟨r1, r2⟩ := List.pairwise_cons.1 hr
        obtain ⟨s1, s2⟩ := List.pairwise_cons.1 hs
        have refl : ∀ x, cmp x x = 0 := by intro x; have := h.swap x x; omega
        have hab : cmp a b ≤ 0 := by
          rcases List.mem_cons.1 (hp.mem_iff.2 (by simp : b ∈ b :: s)) with rfl | hm
          · rw [refl]
          · exact r1 b hm
        have hba : cmp b a ≤ 0 := by
          rcases List.mem_cons.1 (hp.mem_iff.1 (by simp : a ∈ a :: r)) with rfl | hm
          · rw [refl]
          · exact s1 a hm
        have hab0 : cmp a b = 0 := by have := (h.swap b a).1 hba; omega
        have e := he a
        have e1 : equals cmp a (a :: r) = a :: equals cmp a r := by simp [equals, refl]
        have e2 : equals cmp a (b :: s) = b :: equals cmp a s := by simp [equals, hab0]
        rw [e1, e2] at e
        obtain ⟨rfl, _⟩ := List.cons.inj e
        congr 1
        refine ih s r2 s2 ((List.perm_cons a).1 hp) ?_
        intro x
        have := he x
        by_cases hx : cmp x a = 0
        · simpa [equals, hx] using this
        · simpa [equals, hx] using this
  intro r s hr hs
  exact key r s hr.ascending hs.ascending (hr.perm.trans hs.perm.symm)
    (fun x => (hr.stable x).trans (hs.stable x).symm)

/-- C23: the result does not depend on how the code finds its runs: an array already in order is left alone,
    and sorting twice is sorting once. -/
theorem mergesort_of_ascending (cmp : α → α → Int) (h : Lawful cmp) (l : List α) (ha : Ascending cmp l) :
    mergesort cmp l = l :=
  stableSort_unique cmp h l _ _ (mergesort_ok h l) ⟨.refl _, ha, fun _ => rfl⟩
theorem mergesort_idempotent (cmp : α → α → Int) (h : Lawful cmp) (l : List α) :
    mergesort cmp (mergesort cmp l) = mergesort cmp l :=
  mergesort_of_ascending cmp h _ (mergesort_ok h l).ascending
example : Ascending byFst [(1, 5), (1, 2), (4, 0)] := by simp [Ascending, byFst]

/-- Every stable sorting function gives the same result as this one. -/
theorem mergesort_is_the_stable_sort (cmp : α → α → Int) (h : Lawful cmp) (f : List α → List α)
    (hf : ∀ l, StableSortOf cmp l (f l)) : mergesort cmp = f :=
  funext fun l => stableSort_unique cmp h l _ _ (mergesort_ok h l) (hf l)

theorem termCompare_lawful : Lawful termCompare :=
  ⟨fun a b => by simp only [termCompare]; omega, fun a b c => by simp only [termCompare]; omega⟩

/-- C23: ordering the terms of a sum, product or other reorderable expression gives a permutation of the
    terms, by kind, with the terms of each kind in their original order. -/
theorem orderTerms_sorts (e : Node) (hm : multi e.op = true) :
    (orderTerms e).op = e.op ∧ (orderTerms e).terms.Perm e.terms ∧
    (orderTerms e).terms.Pairwise (fun a b => kind a ≤ kind b) ∧
    ∀ k, (orderTerms e).terms.filter (fun t => decide (kind t = k)) = e.terms.filter (fun t => decide (kind t = k)) := by
  unfold orderTerms
  split
  · rename_i h1
    refine ⟨rfl, .refl _, ?_, fun _ => rfl⟩
    obtain ⟨x, hx⟩ := List.length_eq_one_iff.1 h1
    rw [hx]; simp
  · have s := mergesort_ok termCompare_lawful e.terms
    simp only [hm, if_true]
    refine ⟨trivial, s.perm, ?_, ?_⟩
    · exact s.ascending.imp (fun h => by simp only [termCompare] at h; omega)
    · intro k
      by_cases hx : ∃ x ∈ e.terms, kind x = k
      · obtain ⟨x, _, hk⟩ := hx
        have := s.stable x
        simp only [equals] at this
        have e1 : (fun y => decide (termCompare x y = 0)) = fun t => decide (kind t = k) := by
          funext y; rw [decide_eq_decide]; simp only [termCompare]; omega
        rw [e1] at this
        exact this
      · have hnone : ∀ x ∈ e.terms, kind x ≠ k := fun x hx' hk => hx ⟨x, hx', hk⟩
        rw [List.filter_eq_nil_iff.2 (by intro a ha; simpa using hnone a (s.perm.mem_iff.1 ha)),
          List.filter_eq_nil_iff.2 (by intro a ha; simpa using hnone a ha)]
example : (orderTerms ⟨.ADD, [.sym 1, .int (.L 2), .expr .NEG [.sym 0], .reg 4, .int (.L 1), .sym 0, .reg 3]⟩).terms
    = [.reg 4, .reg 3, .int (.L 2), .int (.L 1), .sym 1, .sym 0, .expr .NEG [.sym 0]] := by decide +kernel

/-- The terms of a list that are registers, integers, and so on. -/
def regs (l : List Item) : List Item := l.filter fun | .reg _ => true | _ => false
def integers (l : List Item) : List Item := l.filter fun | .int _ => true | _ => false
def substitutions (l : List Item) : List Item := l.filter fun | .subst _ => true | _ => false
def floats (l : List Item) : List Item := l.filter fun | .flt _ _ => true | _ => false
def symbols (l : List Item) : List Item := l.filter fun | .sym _ => true | _ => false
def positions (l : List Item) : List Item := l.filter fun | .precbc _ => true | _ => false
def subexprs (l : List Item) : List Item := l.filter fun | .expr _ _ => true | _ => false
def empties (l : List Item) : List Item := l.filter fun | .none => true | _ => false

theorem split_lowest (l : List Item) (k : Int) (hs : l.Pairwise fun a b => kind a ≤ kind b) (hk : ∀ t ∈ l, k ≤ kind t) :
    l = l.filter (fun t => decide (kind t = k)) ++ l.filter (fun t => decide (k + 1 ≤ kind t)) := by
  induction l with
  | nil => rfl
  | cons a l ih =>
    obtain ⟨h1, h2⟩ := List.pairwise_cons.1 hs
    have ih := ih h2 (fun t ht => hk t (by simp [ht]))
    by_cases ha : kind a = k
    · have : ¬ k + 1 ≤ kind a := by omega
      simp only [List.filter_cons, ha, decide_true, if_true, List.cons_append]
      have hk' : ¬ k + 1 ≤ k := by omega
      simp only [hk', decide_false, Bool.false_eq_true, if_false]
      rw [← ih]
    · have hlt : k + 1 ≤ kind a := by have := hk a (by simp); omega
      have e1 : (a :: l).filter (fun t => decide (kind t = k)) = [] := by
        rw [List.filter_eq_nil_iff]
        intro t ht
        rcases List.mem_cons.1 ht with rfl | ht
        · simpa using ha
        · have := h1 t ht; simp only [decide_eq_true_eq]; omega
      have e2 : (a :: l).filter (fun t => decide (k + 1 ≤ kind t)) = a :: l := by
        rw [List.filter_eq_self]
        intro t ht
        rcases List.mem_cons.1 ht with rfl | ht
        · simpa using hlt
        · have := h1 t ht; simp only [decide_eq_true_eq]; omega
      rw [e1, e2]; rfl

/-- C23, the canonical order: registers, integers, substitution markers, floats, symbols, positions and
    subexpressions, each group as it stood in the original (deleted terms, which do not occur, would come
    first). -/
theorem orderTerms_canonical (e : Node) (hm : multi e.op = true) :
    (orderTerms e).terms = empties e.terms ++ regs e.terms ++ integers e.terms ++ substitutions e.terms ++
      floats e.terms ++ symbols e.terms ++ positions e.terms ++ subexprs e.terms := by
  obtain ⟨_, _, hs, hst⟩ := orderTerms_sorts e hm
  generalize (orderTerms e).terms = l at *
  have g : ∀ (p : Item → Bool) (k : Int), (∀ t, p t = decide (kind t = k)) →
      e.terms.filter p = l.filter (fun t => decide (kind t = k)) := by
    intro p k hp
    rw [hst k, funext hp]
  have f0 : empties e.terms = _ := g _ 0 (by intro t; cases t <;> simp [kind])
  have f1 : regs e.terms = _ := g _ 1 (by intro t; cases t <;> simp [kind])
  have f2 : integers e.terms = _ := g _ 2 (by intro t; cases t <;> simp [kind])
  have f3 : substitutions e.terms = _ := g _ 4 (by intro t; cases t <;> simp [kind])
  have f4 : floats e.terms = _ := g _ 8 (by intro t; cases t <;> simp [kind])
  have f5 : symbols e.terms = _ := g _ 16 (by intro t; cases t <;> simp [kind])
  have f6 : positions e.terms = _ := g _ 32 (by intro t; cases t <;> simp [kind])
  have f7 : subexprs e.terms = _ := g _ 64 (by intro t; cases t <;> simp [kind])
  rw [f0, f1, f2, f3, f4, f5, f6, f7]
  -- peel off the kinds one by one
  have peel : ∀ (k k' : Int), (∀ t, k + 1 ≤ kind t ↔ k' ≤ kind t) →
      l.filter (fun t => decide (k ≤ kind t)) =
        l.filter (fun t => decide (kind t = k)) ++ l.filter (fun t => decide (k' ≤ kind t)) := by
    intro k k' hkk
    have h := split_lowest (l.filter (fun t => decide (k ≤ kind t))) k (hs.sublist List.filter_sublist)
      (by intro t ht; simpa using (List.mem_filter.1 ht).2)
    rw [List.filter_filter, List.filter_filter] at h
    rw [h]
    congr 1
    · apply List.filter_congr
      intro t _
      by_cases ht : kind t = k <;> simp [ht]
    · apply List.filter_congr
      intro t _
      have := hkk t
      by_cases ht : k + 1 ≤ kind t
      · have h2 : k ≤ kind t := by omega
        simp [ht, h2, this.1 ht]
      · have h2 : ¬ k' ≤ kind t := fun h => ht (this.2 h)
        simp [ht, h2]
  have all : l = l.filter (fun t => decide (0 ≤ kind t)) := by
    rw [List.filter_eq_self.2]
    intro t _; cases t <;> simp [kind]
  have none : l.filter (fun t => decide (65 ≤ kind t)) = [] := by
    rw [List.filter_eq_nil_iff]
    intro t _; cases t <;> simp [kind]
  conv => lhs; rw [all, peel 0 1 (by intro t; omega), peel 1 2 (by intro t; omega),
    peel 2 4 (by intro t; cases t <;> simp [kind]), peel 4 8 (by intro t; cases t <;> simp [kind]),
    peel 8 16 (by intro t; cases t <;> simp [kind]), peel 16 32 (by intro t; cases t <;> simp [kind]),
    peel 32 64 (by intro t; cases t <;> simp [kind]), peel 64 65 (by intro t; cases t <;> simp [kind]), none]
  simp only [List.append_assoc, List.append_nil]

/-- C23: expressions whose operator depends on the order are untouched. -/
theorem orderTerms_other (e : Node) (hm : multi e.op = false) : orderTerms e = e := by
  unfold orderTerms
  simp [hm]
example : multi Op.SUB = false := rfl

/-- C23: the value of the expression stays the same. -/
theorem orderTerms_value (ρ : Env) (e : Node) : (orderTerms e).eval ρ = e.eval ρ := by
  cases hm : multi e.op with
  | false => rw [orderTerms_other e hm]
  | true =>
    obtain ⟨h1, h2, _⟩ := orderTerms_sorts e hm
    cases ho : orderTerms e with
    | mk op terms =>
      rw [ho] at h1 h2
      simp only at h1 h2
      subst h1
      simp only [Node.eval, Node.item, Verif.Expr.eval, evalL_eq]
      exact opVal_perm ρ _ hm (h2.map _)

/-- Ordering is done once: a second time changes nothing. -/
theorem orderTerms_idempotent (e : Node) : orderTerms (orderTerms e) = orderTerms e := by
  cases hm : multi e.op with
  | false => rw [orderTerms_other e hm]; exact orderTerms_other e hm
  | true =>
    by_cases h1 : e.terms.length = 1
    · have : orderTerms e = e := by simp [orderTerms, h1]
      rw [this, this]
    · have e1 : orderTerms e = ⟨e.op, mergesort termCompare e.terms⟩ := by simp [orderTerms, h1, hm]
      rw [e1]
      unfold orderTerms
      simp only [hm, if_true, mergesort_idempotent termCompare termCompare_lawful]
      simp

end Verif.Sort
