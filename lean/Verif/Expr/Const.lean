import Verif.Expr.Shape
/- Constant expressions fold to one number. -/
set_option linter.unusedSimpArgs false
namespace Verif.Expr
open Verif.Intnum

theorem constantL_iff (ts : List Item) : ConstantL ts ↔ ∀ t ∈ ts, Constant t := by
  induction ts with
  | nil => simp [ConstantL]
  | cons t ts ih => simp [ConstantL, ih]

mutual
theorem const_noFlt (t : Item) (h : Constant t) : hasFlt t = false := by
  match t with
  | .none => rfl
  | .reg _ => rfl
  | .int _ => rfl
  | .subst _ => rfl
  | .flt _ _ => exact absurd h (by simp [Constant])
  | .sym _ => rfl
  | .precbc _ => rfl
  | .expr op ts => simpa only [hasFlt] using const_noFltL ts h.2.2
theorem const_noFltL (ts : List Item) (h : ConstantL ts) : hasFltL ts = false := by
  match ts, h with
  | [], _ => rfl
  | t :: ts, h => simp only [hasFltL, const_noFlt t h.1, const_noFltL ts h.2, Bool.or_self]
end

theorem minusOne_const : Constant minusOne := by
  show Fits (createInt (-1#64))
  simp only [createInt, Fits]; decide

theorem numMUL : Numeric .MUL := by simp [Numeric]

theorem cnegLeaf (ρ : Env) (t : Item) (h : Constant t) :
    Constant (.expr .MUL [minusOne, t]) ∧ eval ρ (.expr .MUL [minusOne, t]) = -eval ρ t := by
  refine ⟨⟨numMUL, by simp [Arity], minusOne_const, h, trivial⟩, ?_⟩
  simp only [eval, evalL, opVal, List.foldr, minusOne_eval]
  rw [neg_one_mul']; congr 1; simp

theorem cnegLeaf' (ρ : Env) (t : Item) (h : Constant t) :
    Constant (.expr .MUL [t, minusOne]) ∧ eval ρ (.expr .MUL [t, minusOne]) = -eval ρ t := by
  refine ⟨⟨numMUL, by simp [Arity], h, minusOne_const, trivial⟩, ?_⟩
  simp only [eval, evalL, opVal, List.foldr, minusOne_eval]
  rw [show (-1 : Word) * 1 = -1 by decide, mul_neg_one]

theorem cnegIdent (ρ : Env) (t : Item) (h : Constant t) :
    Constant (negIdent [t]) ∧ eval ρ (negIdent [t]) = -eval ρ t := by
  cases t
  case int i =>
    have hi : Fits i := h
    obtain ⟨c1, c2⟩ := calcUnary_ok ρ .NEG i hi (Or.inl rfl)
    simp only [negIdent]
    refine ⟨⟨by simp [Numeric], rfl, c2, trivial⟩, ?_⟩
    simp only [eval, evalL, opVal] at *
    exact c1
  case expr op us =>
    have := const_noFltL us h.2.2
    simp only [negIdent, this, Bool.false_eq_true, if_false]
    exact cnegLeaf' ρ _ h
  all_goals exact absurd h (by simp [Constant])

mutual
theorem cneg (ρ : Env) (t : Item) (h : Constant t) : Constant (neg t) ∧ eval ρ (neg t) = -eval ρ t := by
  match t with
  | .none => exact absurd h (by simp [Constant])
  | .reg _ => exact absurd h (by simp [Constant])
  | .int _ => exact cnegLeaf ρ _ h
  | .subst _ => exact absurd h (by simp [Constant])
  | .flt _ _ => exact absurd h (by simp [Constant])
  | .sym _ => exact absurd h (by simp [Constant])
  | .precbc _ => exact absurd h (by simp [Constant])
  | .expr op ts =>
    by_cases h1 : op = .ADD
    · subst h1
      obtain ⟨a, b, c⟩ := cnegL ρ ts h.2.2
      simp only [neg]
      refine ⟨⟨h.1, ?_, a⟩, ?_⟩
      · rw [c]; exact h.2.1
      · simp only [eval, opVal, b, sum_neg]
    · by_cases h2 : op = .SUB
      · subst h2
        simp only [neg]
        have hl : ts.length = 2 := h.2.1
        match ts, h, hl with
        | [x, y], h, _ =>
          have := cneg ρ x h.2.2.1
          refine ⟨⟨by simp [Numeric], by simp [Arity, negHead], this.1, h.2.2.2.1, trivial⟩, ?_⟩
          simp only [negHead, eval, evalL, opVal, List.foldr, this.2]
          rw [BitVec.neg_sub, BitVec.add_comm]
          simp [BitVec.sub_eq_add_neg]
          rw [BitVec.add_comm]
      · by_cases h3 : op = .NEG
        · subst h3
          have hl : ts.length = 1 := h.2.1
          match ts, h, hl with
          | [x], h, _ =>
            simp only [neg]
            refine ⟨⟨by simp [Numeric], rfl, h.2.2⟩, ?_⟩
            simp only [eval, evalL, opVal]; simp
        · by_cases h4 : op = .IDENT
          · subst h4
            have hl : ts.length = 1 := h.2.1
            match ts, h, hl with
            | [x], h, _ =>
              simp only [neg]
              exact cnegIdent ρ x h.2.2.1
          · have : neg (.expr op ts) = .expr .MUL [minusOne, .expr op ts] := by
              cases op <;> first | contradiction | rfl
            rw [this]
            exact cnegLeaf ρ _ h
theorem cnegL (ρ : Env) (ts : List Item) (h : ConstantL ts) :
    ConstantL (negL ts) ∧ evalL ρ (negL ts) = (evalL ρ ts).map (fun x => -x) ∧ (negL ts).length = ts.length := by
  match ts, h with
  | [], _ => exact ⟨trivial, rfl, rfl⟩
  | t :: ts, h =>
    obtain ⟨a, b⟩ := cneg ρ t h.1
    obtain ⟨c, d, e⟩ := cnegL ρ ts h.2
    exact ⟨⟨a, c⟩, by simp only [negL, evalL, b, d, List.map_cons], by simp only [negL, List.length_cons, e]⟩
end

theorem cxformNeg (ρ : Env) (op : Op) (ts : List Item) (h : Constant (.expr op ts)) :
    ∃ op' ts', xformNeg op ts = .expr op' ts' ∧ Constant (.expr op' ts') ∧
      eval ρ (.expr op' ts') = eval ρ (.expr op ts) ∧ heightL ts' < height (.expr op ts) := by
  obtain ⟨op', ts', e, hh⟩ := xformNeg_height op ts
  refine ⟨op', ts', e, ?_⟩
  by_cases h1 : op = .NEG
  · subst h1
    have hl : ts.length = 1 := h.2.1
    match ts, h, hl with
    | [x], h, _ =>
      have := cnegIdent ρ x h.2.2.1
      have e' : negIdent [x] = .expr op' ts' := e
      rw [e'] at this
      exact ⟨this.1, this.2.trans rfl, hh⟩
  · by_cases h2 : op = .SUB
    · subst h2
      have hl : ts.length = 2 := h.2.1
      match ts, h, hl with
      | [x, y], h, _ =>
        have := cneg ρ y h.2.2.2.1
        have e' : Item.expr .ADD [x, neg y] = .expr op' ts' := e
        rw [← e']
        refine ⟨⟨by simp [Numeric], by simp [Arity], h.2.2.1, this.1, trivial⟩, ?_, hh⟩
        simp only [eval, evalL, opVal, List.foldr, this.2]
        simp [BitVec.sub_eq_add_neg]
    · have : xformNeg op ts = .expr op ts := by cases op <;> first | contradiction | rfl
      rw [this] at e
      rw [← e]
      exact ⟨h, rfl, hh⟩

/-- A term that is a number once IDENTs are brought up. -/
def Num (t : Item) (i : Intnum) : Prop := t = .int i ∨ t = .expr .IDENT [.int i]

theorem num_bringUp {t : Item} {i : Intnum} (h : Num t i) : bringUp t = .int i := by
  rcases h with rfl | rfl <;> rfl

/-- Terms that are the numbers is. -/
inductive Nums : List Item → List Intnum → Prop
  | nil : Nums [] []
  | cons {t ts i is} : Num t i → Nums ts is → Nums (t :: ts) (i :: is)

theorem nums_map {ts : List Item} {is : List Intnum} (h : Nums ts is) : ts.map bringUp = is.map .int := by
  induction h with
  | nil => rfl
  | cons h _ ih => simp [num_bringUp h, ih]

theorem nums_length {ts : List Item} {is : List Intnum} (h : Nums ts is) : ts.length = is.length := by
  induction h with
  | nil => rfl
  | cons _ _ ih => simp [ih]

theorem ints_map (is : List Intnum) : ints (is.map .int) = is := by
  induction is with
  | nil => rfl
  | cons i is ih => simp only [ints, List.map_cons, List.filterMap_cons, Item.int?] at *; rw [ih]

theorem nonInts_map (is : List Intnum) : nonInts (is.map .int) = [] := by
  induction is with
  | nil => rfl
  | cons i is ih => simpa [nonInts, Item.isInt] using ih

/-- The value of an operator on numbers the way the library computes it. -/
theorem fold_value (ρ : Env) (op : Op) (hn : Numeric op) (i : Intnum) (is : List Intnum)
    (ha : Arity op (i :: is).length) (hf : ∀ x ∈ i :: is, Fits x) (hs : ∀ c ∈ (foldInts op i is).2, c.Sound) :
    let r := (foldInts op i is).1
    Fits (if unary op then calcUnary op r else r) ∧
    bv (if unary op then calcUnary op r else r) = opVal ρ op ((i :: is).map bv) := by
  by_cases hm : multi op = true
  · have hu : unary op = false := by cases op <;> simp_all [multi, unary]
    have h2 : is ≠ [] := by
      rintro rfl
      cases op <;> simp_all [multi, Arity]
    obtain ⟨a, _, c⟩ := foldInts_ok ρ op hm is i (hf i (by simp)) (fun b hb => hf b (by simp [hb])) hs
    simp only [hu, Bool.false_eq_true, if_false]
    exact ⟨a, c h2⟩
  · by_cases hb : binary op
    · have h2 : is.length = 1 := by cases op <;> simp_all [multi, Arity, binary, Numeric]
      obtain ⟨b, rfl⟩ := List.length_eq_one_iff.1 h2
      have hu : unary op = false := by cases op <;> simp_all [unary, binary]
      simp only [hu, Bool.false_eq_true, if_false, foldInts] at *
      have := call_ok ρ ⟨op, i, b⟩ (hs _ (by simp)) (hf i (by simp)) (hf b (by simp)) hn hb
      exact ⟨this.2, this.1⟩
    · have h2 : is.length = 0 := by cases op <;> simp_all [multi, Arity, binary, Numeric]
      have : is = [] := List.length_eq_zero_iff.1 h2
      subst this
      simp only [foldInts]
      by_cases hu : unary op = true
      · simp only [hu, if_true]
        have := calcUnary_ok ρ op i (hf i (by simp)) (by cases op <;> simp_all [unary])
        exact ⟨this.2, this.1⟩
      · simp only [hu, Bool.false_eq_true, if_false]
        have : op = .IDENT := by cases op <;> simp_all [unary, binary]
        subst this
        exact ⟨hf i (by simp), rfl⟩

theorem levelNode_const (regmul : Bool) (op : Op) (hn : Numeric op) (ts : List Item) (i : Intnum) (is : List Intnum)
    (h : Nums ts (i :: is)) :
    levelNode regmul op ts =
      ⟨(foldInts op i is).2, .ok ⟨.IDENT, [.int (if unary op then calcUnary op (foldInts op i is).1
        else (foldInts op i is).1)]⟩⟩ := by
  have hnn : nonnum op = false := by cases op <;> simp_all [nonnum, Numeric]
  have e : splitInt (Item.int i :: is.map .int) = some ([], i, is.map .int) := rfl
  simp only [levelNode, nums_map h, hnn, Bool.not_false, if_true, List.map_cons, e, ints_map, nonInts_map]
  have hs : ∀ del, simpId regmul op [] (foldInts op i is).1 [] del =
      .ok (.IDENT, .withInt [] (if unary op then calcUnary op (foldInts op i is).1 else (foldInts op i is).1) []) := by
    intro del
    simp [simpId]
  rw [hs]
  simp [levelTail, multi, M.pure, Terms.list]

theorem levelOp_const (regmul : Bool) (op : Op) (hn : Numeric op) (ts : List Item) (i : Intnum) (is : List Intnum)
    (h : Nums ts (i :: is)) (ha : Arity op (i :: is).length) :
    levelOp regmul ⟨op, ts⟩ =
      ⟨(foldInts op i is).2, .ok ⟨.IDENT, [.int (if unary op then calcUnary op (foldInts op i is).1
        else (foldInts op i is).1)]⟩⟩ := by
  by_cases hi : op = .IDENT
  · subst hi
    have hl : is.length = 0 := by simpa [Arity] using ha
    have : is = [] := List.length_eq_zero_iff.1 hl
    subst this
    cases h with
    | cons h1 h2 =>
      cases h2
      rcases h1 with rfl | rfl
      · exact levelNode_const regmul .IDENT hn _ i [] (.cons (Or.inl rfl) .nil)
      · exact levelNode_const regmul .IDENT hn [.int i] i [] (.cons (Or.inl rfl) .nil)
  · have : stripTop (Item.expr op ts) = .expr op ts := by cases op <;> first | contradiction | rfl
    simp only [levelOp, Node.item, this]
    exact levelNode_const regmul op hn ts i is h

/-- The computation yields one number, with value w if the constant computations were sound. -/
def Folds (w : Word) (m : M Node) : Prop :=
  ∃ i, m.out = .ok ⟨.IDENT, [.int i]⟩ ∧ ((∀ c ∈ m.log, c.Sound) → Fits i ∧ bv i = w)

theorem levelKids_const (ρ : Env) (f : Node → M Node) (ts : List Item) (hc : ConstantL ts)
    (hf : ∀ op us, Item.expr op us ∈ ts → Folds (eval ρ (.expr op us)) (f ⟨op, us⟩)) :
    ∃ us is, (levelKids f ts).out = .ok us ∧ Nums us is ∧ us.length = ts.length ∧
      ((∀ c ∈ (levelKids f ts).log, c.Sound) → (∀ i ∈ is, Fits i) ∧ is.map bv = evalL ρ ts) := by
  induction ts with
  | nil => exact ⟨[], [], rfl, .nil, rfl, fun _ => ⟨by simp, rfl⟩⟩
  | cons t ts ih =>
    obtain ⟨us, is, h1, h2, h3, h4⟩ := ih hc.2 (fun op us h => hf op us (by simp [h]))
    cases t
    case int i =>
      refine ⟨.int i :: us, i :: is, ?_, .cons (Or.inl rfl) h2, by simp [h3], ?_⟩
      · simp only [levelKids, M.bind, h1, M.pure]
      · intro hs
        simp only [levelKids, M.bind, h1, M.pure, List.append_nil] at hs
        obtain ⟨g1, g2⟩ := h4 hs
        refine ⟨?_, by simp [evalL, g2, eval]⟩
        intro x hx
        rcases List.mem_cons.1 hx with rfl | hx
        · exact hc.1
        · exact g1 x hx
    case expr op vs =>
      obtain ⟨i, k1, k2⟩ := hf op vs (by simp)
      refine ⟨.expr .IDENT [.int i] :: us, i :: is, ?_, .cons (Or.inr rfl) h2, by simp [h3], ?_⟩
      · simp only [levelKids, M.bind, h1, k1, M.pure, Node.item]
      · intro hs
        simp only [levelKids, M.bind, h1, k1, M.pure, List.append_nil] at hs
        obtain ⟨g1, g2⟩ := h4 (fun c hc => hs c (List.mem_append_right _ hc))
        obtain ⟨g3, g4⟩ := k2 (fun c hc => hs c (List.mem_append_left _ hc))
        refine ⟨?_, by simp only [evalL, List.map_cons, g2, g4]⟩
        intro x hx
        rcases List.mem_cons.1 hx with rfl | hx
        · exact g3
        · exact g1 x hx
    all_goals exact absurd hc.1 (by simp [Constant])

theorem levelTree_const (ρ : Env) (regmul : Bool) (post : Node → M Node)
    (hp : ∀ i, post ⟨.IDENT, [.int i]⟩ = M.pure ⟨.IDENT, [.int i]⟩) (k : Nat) :
    ∀ e : Node, height e.item ≤ k → Constant e.item → Folds (e.eval ρ) (levelTree regmul post k e) := by
  induction k with
  | zero =>
    intro e h _
    simp only [Node.item, height] at h
    split at h <;> omega
  | succ k ih =>
    intro e h hc
    obtain ⟨op, ts, h1, h2, h3, h4⟩ := cxformNeg ρ e.op e.terms hc
    simp only [levelTree, h1]
    obtain ⟨us, is, k1, k2, k3, k4⟩ := levelKids_const ρ (levelTree regmul post k) ts h2.2.2 (by
      intro o vs hm
      have hcc := (constantL_iff ts).1 h2.2.2 _ hm
      have hh := height_le_heightL hm
      simp only [Node.item] at h
      exact ih ⟨o, vs⟩ (by simp only [Node.item]; omega) hcc)
    have hseg : segSimp op us = ⟨op, us⟩ := by
      have := h2.1.2.1
      unfold segSimp
      split
      · exact absurd rfl this
      · rfl
    have har := h2.2.1
    rw [← k3, nums_length k2] at har
    obtain ⟨i, is', rfl⟩ : ∃ i is', is = i :: is' := by
      cases is with
      | nil => have := h2.1; cases op <;> simp_all [Arity, Numeric]
      | cons i is' => exact ⟨i, is', rfl⟩
    have hl := levelOp_const regmul op h2.1 us i is' k2 har
    refine ⟨if unary op then calcUnary op (foldInts op i is').1 else (foldInts op i is').1, ?_, ?_⟩
    · simp only [M.bind, k1, hseg, hl, hp, M.pure]
    · intro hs
      simp only [M.bind, k1, hseg, hl, hp, M.pure, List.append_nil] at hs
      obtain ⟨g1, g2⟩ := k4 (fun c hc => hs c (List.mem_append_left _ hc))
      have := fold_value ρ op h2.1 i is' har g1 (fun c hc => hs c (List.mem_append_right _ hc))
      refine ⟨this.1, this.2.trans ?_⟩
      rw [g2]
      exact h3

theorem distPost_const (c : Ctx) (regmul : Bool) (i : Intnum) :
    distPost c regmul ⟨.IDENT, [.int i]⟩ = M.pure ⟨.IDENT, [.int i]⟩ := by
  have h := levelOp_const regmul .IDENT (by simp [Numeric]) [.int i] i [] (.cons (Or.inl rfl) .nil) rfl
  have e : xformDist c (distInt c) ⟨.IDENT, [.int i]⟩ = ⟨.IDENT, [.int i]⟩ := rfl
  have hh : height (Item.expr .IDENT [.int i]) = 0 + 1 := rfl
  simp only [distPost, e, levelPlain, Node.item, hh, levelTree, xformNeg, levelKids, M.bind, M.pure, segSimp, h,
    foldInts, unary]
  rfl

/-- Expanding EQUs leaves constants alone. -/
theorem expandItems_const (f : Nat → Option (Item × Bool × Bool)) :
    (∀ t, Constant t → expandItem f t = (t, false, false)) ∧
    (∀ ts, ConstantL ts → expandItems f ts = (ts, false)) := by
  have main : ∀ n, (∀ t, height t ≤ n → Constant t → expandItem f t = (t, false, false)) ∧
      (∀ ts, heightL ts ≤ n → ConstantL ts → expandItems f ts = (ts, false)) := by
    intro n
    induction n with
    | zero =>
      have a : ∀ t, height t ≤ 0 → Constant t → expandItem f t = (t, false, false) := by
        intro t ht hc
        cases t <;> simp only [Constant] at hc <;> first | rfl | skip
        simp only [height] at ht; split at ht <;> omega
      refine ⟨a, ?_⟩
      intro ts
      induction ts with
      | nil => intros; rfl
      | cons t ts ih =>
        intro ht hc
        simp only [heightL] at ht
        simp only [expandItems, a t (by omega) hc.1, ih (by omega) hc.2]; rfl
    | succ n ih =>
      have a : ∀ t, height t ≤ n + 1 → Constant t → expandItem f t = (t, false, false) := by
        intro t ht hc
        cases t <;> simp only [Constant] at hc <;> first | rfl | skip
        rename_i op us
        simp only [expandItem]
        rw [ih.2 us (by simp only [height] at ht; split at ht <;> omega) hc.2.2]
      refine ⟨a, ?_⟩
      intro ts
      induction ts with
      | nil => intros; rfl
      | cons t ts ih =>
        intro ht hc
        simp only [heightL] at ht
        simp only [expandItems, a t (by omega) hc.1, ih (by omega) hc.2]; rfl
  exact ⟨fun t h => (main (height t)).1 t (Nat.le_refl _) h, fun ts h => (main (heightL ts)).2 ts (Nat.le_refl _) h⟩

theorem simplify_const (ρ : Env) (c : Ctx) (nequ : Nat) (regmul dist : Bool) (e : Node)
    (h : Constant (expandEqu c (nequ + 1) e).1.item) :
    Folds ((expandEqu c (nequ + 1) e).1.eval ρ) (simplify c nequ regmul dist e) := by
  unfold simplify
  refine levelTree_const ρ regmul _ ?_ _ _ (Nat.le_refl _) h
  intro i
  cases dist
  · rfl
  · exact distPost_const c regmul i

end Verif.Expr
