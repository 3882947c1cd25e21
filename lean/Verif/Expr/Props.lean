import Verif.Expr.Safe
import Verif.Expr.Eq
import Verif.Intnum.Props
/-
Properties C19-C22 of expressions.
-/
namespace Verif.Expr.Props
open Verif.Intnum Verif.Expr

/-! A running example: symbol 1 is `equ 4 + s2`, symbols 4 and 5 are labels 0x10 apart in one section. -/

/-- The definitions. -/
def ctx : Ctx where
  equ s := if s = 1 then some ⟨.ADD, [.int (.L 4), .sym 2]⟩ else none
  label s := if s = 4 then some 0 else if s = 5 then some 1 else none
  sect _ := 0
  next b := if b = 0 then 0x20 else if b = 1 then 0x30 else 0

/-- An assignment that agrees with them: s2 is `x`, the section starts at 0x1000. -/
def env (x y : Word) : Env where
  reg _ := 7
  subst _ := 0
  flt _ := 0
  sym s := if s = 1 then 4 + (x + 0) else if s = 2 then x else if s = 4 then 0x1020 else if s = 5 then 0x1030 else y
  precbc b := if b = 0 then 0x1020 else if b = 1 then 0x1030 else 0x1000
  seg a := a
  wrt a _ := a
  segoff a _ := a

theorem env_agrees (x y : Word) : (env x y).Agrees ctx (fun _ => 0x1000) where
  equ := by
    intro s d h
    simp only [ctx] at h
    split at h
    · rename_i hs
      simp only [Option.some.injEq] at h
      subst hs; subst h
      refine ⟨rfl, ?_⟩
      refine ⟨by simp [Arity], by simp, ?_⟩
      simp only [GoodL, Good, Fits, and_true]
      decide
    · simp at h
  label := by
    intro s b h
    simp only [ctx] at h
    split at h
    · rename_i hs; simp only [Option.some.injEq] at h; subst hs; subst h; simp [env]
    · split at h
      · rename_i hs; simp only [Option.some.injEq] at h; subst hs; subst h; simp [env]
      · simp at h
  precbc := by
    intro b
    simp only [env, ctx]
    split
    · decide
    · split <;> decide
  small := by
    intro b
    simp only [ctx]
    split
    · decide
    · split <;> decide
  seg := by intro a b; rfl

/-- `(s3 - 3) + 2*s1 + (s5 - s4)` -/
def sample : Node :=
  ⟨.ADD, [.expr .SUB [.sym 3, .int (.L 3)], .expr .MUL [.int (.L 2), .sym 1], .expr .SUB [.sym 5, .sym 4]]⟩

theorem sample_good (x y : Word) : Good (env x y) sample.item := by
  simp only [sample, Node.item, Good, GoodL, Arity, Fits, reduceCtorEq, or_self, false_implies, and_true, true_and,
    List.length_cons, List.length_nil]
  decide

/-! ## C19 -/

/-- C19: simplification (EQU expansion, distribution of negation, leveling, constant folding, removal of
    identities, and distances between labels) keeps the value of the expression, for every assignment
    that agrees with the definitions.  Partial: the operands of && and || must be truth values, there are
    no floating-point numbers (both necessary: `land_not_normalised`, `float_negation_lost`), and no
    constant computation may be one the library gets wrong (see C10, C11). -/
theorem simplify_value_partial (ρ : Env) (c : Ctx) (base : Nat → Word) (ag : ρ.Agrees c base) (nequ : Nat)
    (regmul dist : Bool) (e n : Node) (good : Good ρ e.item)
    (sound : ∀ k ∈ (simplify c nequ regmul dist e).log, k.Sound)
    (h : (simplify c nequ regmul dist e).out = .ok n) : n.eval ρ = e.eval ρ :=
  (simplify_ok ρ c base ag nequ regmul dist e good sound n h).2

example : (simplify ctx 1 true true sample).out =
    .ok ⟨.ADD, [.sym 3, .expr .MUL [.int (.L 2), .expr .ADD [.int (.L 4), .sym 2]], .int (.L 13)]⟩ := by decide +kernel
example (x y : Word) : (env x y).Agrees ctx (fun _ => 0x1000) ∧ Good (env x y) sample.item ∧
    ∀ k ∈ (simplify ctx 1 true true sample).log, k.Sound := by
  refine ⟨env_agrees x y, sample_good x y, ?_⟩
  have : (simplify ctx 1 true true sample).log =
      [⟨.MUL, .L (-1), .L 3⟩, ⟨.ADD, .L 16, .L (-3)⟩] := by decide +kernel
  rw [this]
  intro k hk
  simp only [List.mem_cons, List.not_mem_nil, or_false] at hk
  rcases hk with rfl | rfl
  · simp only [Call.Sound, IsDiv, reduceCtorEq, or_self, false_implies, and_true, true_implies]; decide
  · simp [Call.Sound, IsDiv]

/-- C19: building an expression keeps the value too. -/
theorem create_value_partial (ρ : Env) (op : Op) (l : Item) (r : Option Item) (n : Node)
    (good : Good ρ (.expr op (l :: r.toList))) (sound : ∀ k ∈ (create op l r).log, k.Sound)
    (h : (create op l r).out = .ok n) : n.eval ρ = eval ρ (.expr op (l :: r.toList)) := by
  have hv : ∀ t, Good ρ t → Good ρ (bringUp t) ∧ eval ρ (bringUp t) = eval ρ t := bringUp_ok ρ
  have key : evalL ρ (bringUp l :: (r.map bringUp).toList) = evalL ρ (l :: r.toList) ∧
      GoodL ρ (bringUp l :: (r.map bringUp).toList) := by
    have hl := hv l good.2.2.1
    cases r with
    | none => exact ⟨by simp only [Option.map_none, Option.toList_none, evalL, hl.2], hl.1, trivial⟩
    | some t =>
      have ht := hv t good.2.2.2.1
      exact ⟨by simp only [Option.map_some, Option.toList_some, evalL, hl.2, ht.2], hl.1, ht.1, trivial⟩
  have hlen : (bringUp l :: (r.map bringUp).toList).length = (l :: r.toList).length := by cases r <;> rfl
  have g : Good ρ (Node.mk op (bringUp l :: (r.map bringUp).toList)).item :=
    ⟨by rw [hlen]; exact good.1, by rw [key.1]; exact good.2.1, key.2⟩
  have := (levelOp_ok ρ false _ g sound n h).2
  rw [this]
  simp only [Node.eval, Node.item, eval, key.1]

example : (create .ADD (.expr .ADD [.sym 0, .int (.L 5)]) (some (.int (.L 3)))).out =
    .ok ⟨.ADD, [.sym 0, .int (.L 8)]⟩ := by decide +kernel
example (ρ : Env) : Good ρ (.expr .ADD [.expr .ADD [.sym 0, .int (.L 5)], .int (.L 3)]) := by
  simp only [Good, GoodL, Arity, Fits, reduceCtorEq, or_self, false_implies, and_true, true_and, List.length_cons,
    List.length_nil]
  decide

/-- C19: when an expression is asked for its number, the number is its value. -/
theorem get_intnum_value_partial (ρ : Env) (c : Ctx) (base : Nat → Word) (ag : ρ.Agrees c base) (nequ : Nat)
    (dist : Bool) (e : Node) (i : Intnum) (good : Good ρ e.item)
    (sound : ∀ k ∈ (getIntnum c nequ dist e).log, k.Sound)
    (h : (getIntnum c nequ dist e).out = .ok (some i)) : BitVec.ofInt 256 (val i) = e.eval ρ := by
  obtain ⟨n, h1, h2, h3⟩ := bind_out h
  have e0 : (getIntnum c nequ dist e).log = (simplify c nequ true dist e).log := by
    show (M.bind _ _).log = _
    rw [h3]; simp [M.pure]
  rw [e0] at sound
  obtain ⟨g, hv⟩ := simplify_ok ρ c base ag nequ true dist e good sound n h1
  rw [← hv]
  simp only [M.pure, Except.ok.injEq] at h2
  obtain ⟨op, ts⟩ := n
  simp only at h2
  split at h2
  · rename_i j rest
    simp only [Option.some.injEq] at h2
    subst h2
    have hr : rest.length = 0 := by have := g.1; simpa [Arity, Node.item] using this
    have : rest = [] := List.length_eq_zero_iff.1 hr
    subst this
    rfl
  · simp at h2

example : (getIntnum ctx 1 true ⟨.SUB, [.sym 5, .sym 4]⟩).out = .ok (some (.L 16)) := by decide +kernel

/-- The full property fails: `1 && x` becomes `x`, whatever the value of x. -/
theorem land_not_normalised : ∃ (e n : Node) (ρ : Env), (simplify ctx 1 true false e).out = .ok n ∧
    (simplify ctx 1 true false e).log = [] ∧ n.eval ρ ≠ e.eval ρ :=
  ⟨⟨.LAND, [.int (.L 1), .sym 0]⟩, ⟨.IDENT, [.sym 0]⟩, env 0 2, by decide +kernel, by decide +kernel, by decide⟩

/-- ... and `0 || x` becomes `x`. -/
theorem lor_not_normalised : ∃ (e n : Node) (ρ : Env), (simplify ctx 1 true false e).out = .ok n ∧
    (simplify ctx 1 true false e).log = [] ∧ n.eval ρ ≠ e.eval ρ :=
  ⟨⟨.LOR, [.int (.L 0), .sym 0]⟩, ⟨.IDENT, [.sym 0]⟩, env 0 2, by decide +kernel, by decide +kernel, by decide⟩

/-- ... and the negation of a product with a floating-point number is lost: `-(x * f)` becomes `x * f`. -/
theorem float_negation_lost : (simplify ctx 1 true false ⟨.NEG, [.expr .MUL [.sym 0, .flt false 0]]⟩).out =
    .ok ⟨.MUL, [.sym 0, .flt false 0]⟩ := by decide +kernel

/-! ## C20 -/

/-- C20: an expression made of numbers and EQU symbols defined by such expressions, without circular
    definitions, simplifies to a single number, without any fault; and the number is the value of the
    expression unless one of the constant computations was one the library gets wrong (overflow,
    division by zero). -/
theorem constant_folds_partial (ρ : Env) (c : Ctx) (nequ : Nat) (regmul dist : Bool) (e : Node) (count : AtMost c nequ)
    (he : ConstantOrSym e.item) (hd : ∀ s d, c.equ s = some d → ConstantOrSym d.item)
    (hr : ∀ s ∈ syms e.item, ∀ u, (u = s ∨ Reaches c s u) → c.equ u ≠ Option.none)
    (hc : ¬ Circular c e) (hρ : ∀ s d, c.equ s = some d → ρ.sym s = d.eval ρ) :
    ∃ i, (simplify c nequ regmul dist e).out = .ok ⟨.IDENT, [.int i]⟩ ∧
      ((∀ k ∈ (simplify c nequ regmul dist e).log, k.Sound) → BitVec.ofInt 256 (val i) = e.eval ρ) := by
  obtain ⟨a, b⟩ := expandEqu_const ρ c nequ count e he hd hr hc hρ
  obtain ⟨i, h1, h2⟩ := simplify_const ρ c nequ regmul dist e a
  exact ⟨i, h1, fun hs => ((h2 hs).2).trans b⟩

/-- Definitions: s1 = 4, s2 = s1 * 3. -/
def kctx : Ctx where
  equ s := if s = 1 then some ⟨.IDENT, [.int (.L 4)]⟩ else if s = 2 then some ⟨.MUL, [.sym 1, .int (.L 3)]⟩ else none
  label _ := none
  sect _ := 0
  next _ := 0

/-- `-(s2 - 100) / 7 + (s1 && 6)` -/
def ksample : Node :=
  ⟨.ADD, [.expr .DIV [.expr .NEG [.expr .SUB [.sym 2, .int (.L 100)]], .int (.L 7)], .expr .LAND [.sym 1, .int (.L 6)]]⟩

example : (simplify kctx 2 true false ksample).out = .ok ⟨.IDENT, [.int (.L 13)]⟩ := by decide +kernel
theorem kctx_uses {s t : Nat} (h : Uses kctx s t) : s = 2 ∧ t = 1 := by
  obtain ⟨d, h1, h2⟩ := h
  simp only [kctx] at h1
  split at h1
  · simp only [Option.some.injEq] at h1; subst h1; simp [Node.item, syms, symsL] at h2
  · split at h1
    · rename_i hs
      simp only [Option.some.injEq] at h1; subst h1
      simp only [Node.item, syms, symsL, List.append_nil, List.singleton_append, List.mem_singleton] at h2
      exact ⟨hs, h2⟩
    · simp at h1
theorem kctx_reaches {s t : Nat} (h : Reaches kctx s t) : s = 2 ∧ t = 1 := by
  induction h with
  | one h => exact kctx_uses h
  | step _ h ih => have := kctx_uses h; omega
example : AtMost kctx 2 ∧ ConstantOrSym ksample.item ∧ (∀ s d, kctx.equ s = some d → ConstantOrSym d.item) ∧
    (∀ s ∈ syms ksample.item, ∀ u, (u = s ∨ Reaches kctx s u) → kctx.equ u ≠ Option.none) ∧
    ¬ Circular kctx ksample := by
  refine ⟨⟨[1, 2], by simp, ?_⟩, ?_, ?_, ?_, ?_⟩
  · intro s h
    simp only [kctx] at h
    split at h
    · simp [*]
    · split at h
      · simp [*]
      · simp at h
  · simp only [ksample, Node.item, ConstantOrSym, ConstantOrSymL, Numeric, Arity, Fits, List.length_cons, List.length_nil]
    decide
  · intro s d h
    simp only [kctx] at h
    split at h
    · simp only [Option.some.injEq] at h; subst h
      simp only [Node.item, ConstantOrSym, ConstantOrSymL, Numeric, Arity, Fits, List.length_cons, List.length_nil]
      decide
    · split at h
      · simp only [Option.some.injEq] at h; subst h
        simp only [Node.item, ConstantOrSym, ConstantOrSymL, Numeric, Arity, Fits, List.length_cons, List.length_nil]
        decide
      · simp at h
  · intro s hs u hu
    simp only [ksample, Node.item, syms, symsL, List.append_nil, List.nil_append, List.cons_append, List.mem_cons,
      List.not_mem_nil, or_false] at hs
    rcases hu with rfl | hu
    · rcases hs with rfl | rfl <;> simp [kctx]
    · have := kctx_reaches hu; rw [this.2]; simp [kctx]
  · rintro ⟨s, hs, t, _, ht⟩
    have := kctx_reaches ht; omega

/-- C20: a division by zero met while folding is reported, and leaves the dividend. -/
theorem fold_div_by_zero (k : Call) (hop : IsDiv k.op) (hz : val k.operand = 0) :
    k.err = some .zeroDivision ∧ k.result = k.acc := by
  simp only [Call.err, Call.result, div_by_zero 0#256 k.op k.acc k.operand hop hz, and_self]

example : (create .DIV (.int (.L 5)) (some (.int (.L 0)))).log = [⟨.DIV, .L 5, .L 0⟩] ∧
    (create .DIV (.int (.L 5)) (some (.int (.L 0)))).out = .ok ⟨.IDENT, [.int (.L 5)]⟩ := by decide +kernel

/-! ## C21 -/

/-- C21: expansion of EQU symbols reports a circular reference exactly when the expression depends on a
    symbol that depends on itself; otherwise the result mentions no EQU symbol, only symbols the
    expression depends on.  (Expansion terminates: `expandEqu` is a total function, whose depth is bounded
    by the number of EQU symbols plus one.) -/
theorem circular_iff (c : Ctx) (n : Nat) (count : AtMost c n) (e : Node) :
    ((expandEqu c (n + 1) e).2 = true ↔ Circular c e) ∧
    (¬ Circular c e → ∀ u ∈ syms (expandEqu c (n + 1) e).1.item,
      c.equ u = none ∧ ∃ s ∈ syms e.item, u = s ∨ Reaches c s u) := by
  obtain ⟨h1, h2⟩ := expandEqu_flag c n count e
  refine ⟨h1, fun hc => h2 ?_⟩
  cases h : (expandEqu c (n + 1) e).2 with
  | false => rfl
  | true => exact absurd (h1.1 h) hc

/-- C21: the depth bound does not matter: any number at least that of the EQU symbols gives the same
    report. -/
theorem circular_bound (c : Ctx) (n m : Nat) (hn : AtMost c n) (hm : AtMost c m) (e : Node) :
    (expandEqu c (n + 1) e).2 = (expandEqu c (m + 1) e).2 := by
  have a := (circular_iff c n hn e).1
  have b := (circular_iff c m hm e).1
  cases h1 : (expandEqu c (n + 1) e).2 <;> cases h2 : (expandEqu c (m + 1) e).2 <;> simp_all

/-- Definitions: s1 = s2 + 1, s2 = s1 - 1, s3 = s1, s4 = s5. -/
def cctx : Ctx where
  equ s := if s = 1 then some ⟨.ADD, [.sym 2, .int (.L 1)]⟩ else if s = 2 then some ⟨.SUB, [.sym 1, .int (.L 1)]⟩
    else if s = 3 then some ⟨.IDENT, [.sym 1]⟩ else if s = 4 then some ⟨.IDENT, [.sym 5]⟩ else none
  label _ := none
  sect _ := 0
  next _ := 0

example : Circular cctx ⟨.IDENT, [.sym 3]⟩ := by
  refine ⟨3, by simp [Node.item, syms, symsL], 1, Or.inr (.one ?_), .step (.one (t := 2) ?_) ?_⟩
  · exact ⟨_, rfl, by simp [Node.item, syms, symsL]⟩
  · exact ⟨_, rfl, by simp [Node.item, syms, symsL]⟩
  · exact ⟨_, rfl, by simp [Node.item, syms, symsL]⟩
example : (expandEqu cctx 5 ⟨.IDENT, [.sym 3]⟩).2 = true ∧
    expandEqu cctx 5 ⟨.ADD, [.sym 4, .sym 6]⟩ = (⟨.ADD, [.expr .IDENT [.sym 5], .sym 6]⟩, false) := by decide +kernel
example : AtMost cctx 4 := by
  refine ⟨[1, 2, 3, 4], by simp, ?_⟩
  intro s h
  simp only [cctx] at h
  repeat' split at h
  all_goals simp_all

/-! ## C22 -/

/-- C22: building expressions never releases a term twice or touches a released one: for all operands
    that were themselves built, building succeeds. -/
theorem create_no_fault (op : Op) (l : Item) (r : Option Item) (hl : Built l) (hr : ∀ t, r = some t → Built t)
    (ha : Arity op (1 + r.toList.length)) : ∃ n, (create op l r).out = .ok n ∧ Built n.item := by
  obtain ⟨n, h1, _⟩ := create_fine op l r (built_neat hl) (fun t ht => built_neat (hr t ht)) ha
  exact ⟨n, h1, .node hl hr ha h1⟩

example : Built (.expr .MUL [.sym 0, .sym 1]) :=
  .node (op := .MUL) (l := .sym 0) (r := some (.sym 1)) (n := ⟨.MUL, [.sym 0, .sym 1]⟩) (.leaf trivial)
    (by rintro t ⟨rfl⟩; exact .leaf trivial) (by simp [Arity]) (by decide +kernel)

/-- C22: simplification (without distances) of an expression without EQU symbols releases every term once,
    if the chains of three or more operands of `*`, `&`, `|`, `&&` in it contain no subexpression and at
    most one integer.  Partial: without that condition there are faults (below). -/
theorem simplify_no_fault_partial (c : Ctx) (nequ : Nat) (regmul : Bool) (e : Node)
    (noEqu : ∀ s ∈ syms e.item, c.equ s = none) (calm : Calm e.item) :
    ∃ n, (simplify c nequ regmul false e).out = .ok n := by
  obtain ⟨n, h, _⟩ := simplify_fine c nequ regmul e noEqu calm
  exact ⟨n, h⟩

example : Calm (.expr .ADD [.expr .MUL [.sym 3, .int (.L 0), .sym 6], .expr .SUB [.int (.L 0), .sym 3],
    .expr .AND [.expr .NEG [.sym 3], .int (.L 0)]]) ∧
    (simplify ctx 1 true false ⟨.ADD, [.expr .MUL [.sym 3, .int (.L 0), .sym 6], .expr .SUB [.int (.L 0), .sym 3],
    .expr .AND [.expr .NEG [.sym 3], .int (.L 0)]]⟩).out = .ok ⟨.IDENT, [.expr .MUL [.int (.L (-1)), .sym 3]]⟩ := by
  refine ⟨?_, by decide +kernel⟩
  simp [Calm, CalmL, Arity, Absorbing, Leaf]
  decide

/-- C22: the model's recursion bounds are sufficient: no computation ends because of them. -/
theorem simplify_total (c : Ctx) (nequ : Nat) (regmul dist : Bool) (e : Node) :
    (simplify c nequ regmul dist e).out ≠ .error .fuel := simplify_noFuel c nequ regmul dist e

/-- The full property fails.  With `a equ 0` and `b equ 5`, simplifying `a * x * b` destroys an integer
    that was destroyed and set to NULL before. -/
theorem null_destroyed : ∃ c : Ctx, c.equ 1 = some ⟨.IDENT, [.int (.L 0)]⟩ ∧ c.equ 2 = some ⟨.IDENT, [.int (.L 5)]⟩ ∧
    (simplify c 2 true false ⟨.MUL, [.sym 1, .sym 0, .sym 2]⟩).out = .error .nullDeref :=
  ⟨⟨fun s => if s = 1 then some ⟨.IDENT, [.int (.L 0)]⟩ else if s = 2 then some ⟨.IDENT, [.int (.L 5)]⟩ else none,
    fun _ => none, fun _ => 0, fun _ => 0⟩, rfl, rfl, by decide +kernel⟩

/-- ... `a * b * (x + y)` destroys the sum twice. -/
theorem destroyed_twice : ∃ c : Ctx, c.equ 1 = some ⟨.IDENT, [.int (.L 0)]⟩ ∧ c.equ 2 = some ⟨.IDENT, [.int (.L 5)]⟩ ∧
    (simplify c 2 true false ⟨.MUL, [.sym 1, .sym 2, .expr .ADD [.sym 0, .sym 3]]⟩).out = .error .doubleFree :=
  ⟨⟨fun s => if s = 1 then some ⟨.IDENT, [.int (.L 0)]⟩ else if s = 2 then some ⟨.IDENT, [.int (.L 5)]⟩ else none,
    fun _ => none, fun _ => 0, fun _ => 0⟩, rfl, rfl, by decide +kernel⟩

/-- ... and the deletion loop can run past the end of the term array. -/
theorem past_the_end : (simplify ctx 1 true false ⟨.AND, [.int (.L 1), .int (.L 1), .expr .AND [.sym 0, .int (.L 2)]]⟩).out =
    .error .outOfBounds := by decide +kernel

end Verif.Expr.Props
