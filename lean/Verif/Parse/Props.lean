import Verif.Parse.Lemmas
import Verif.Expr.Props
/-
Property theorems about the expression parsers (C61, C62).
-/
namespace Verif.Parse
open Verif.Intnum (Intnum Op createUint createInt)
open Verif.Expr (Item Node M create Env Word)

/-! ## Samples -/

/-- Symbols are numbered by the length of their name; `..gotpc` is special. -/
def ctx : Ctx where
  use n := n.length
  special n := if n = [0x67#8] then some 100 else none
  abspos := none
  absstart := some ⟨.IDENT, [.int (.L 256)]⟩
  here := 50
  base := 51
  charconst _ := .L 65

/-- `2 - 3 + - ( x | 1 ) * 4 << 1` -/
def sampleToks : List Tok :=
  [.int (.L 2), .chr '-', .int (.L 3), .chr '+', .chr '-', .chr '(', .ident .id [0x78#8], .chr '|', .int (.L 1),
   .chr ')', .chr '*', .int (.L 4), .kw .shl, .int (.L 1)]

/-- What NASM makes of it: `((2 - 3) + ((-(x | 1)) * 4)) << 1`. -/
def sampleNasm : Tree :=
  .bin .SHL (.bin .ADD (.bin .SUB (number (.L 2)) (number (.L 3)))
    (.bin .MUL (.un .NEG (.bin .OR (.leaf (.sym 1)) (number (.L 1)))) (number (.L 4)))) (number (.L 1))

/-- What the GNU assembler makes of it: `(2 - 3) + (((-(x | 1)) * 4) << 1)`. -/
def sampleGas : Tree :=
  .bin .ADD (.bin .SUB (number (.L 2)) (number (.L 3)))
    (.bin .SHL (.bin .MUL (.un .NEG (.bin .OR (.leaf (.sym 1)) (number (.L 1)))) (number (.L 4))) (number (.L 1)))

/-! ## C61: structure -/

/-- C61: the NASM parser takes a line of tokens as an expression exactly if the grammar does, and gives
    it the structure of the grammar: in an operand or data, and in a directive. -/
theorem nasm_expression (c : Ctx) (ty : Kind) (toks : List Tok) (e : Tree) :
    nasmExpr c ty toks = .ok e [] ↔ (nasm c ty).Derives (nasm c ty).start toks e := by
  have h := nasm_expr c ty (Nat.le_refl _) (nasm_expr6 c ty (toks.length + 1))
  constructor
  · intro hp
    obtain ⟨u, hu, _, hd⟩ := h.sound _ _ _ hp
    rw [List.append_nil] at hu
    rw [hu]; exact hd
  · intro hd
    have := h.complete toks [] e (by simp) hd (by simp)
    rw [List.append_nil] at this
    exact this

example : nasmExpr ctx .norm sampleToks = .ok sampleNasm [] := rfl
example : (nasm ctx .norm).Derives 0 sampleToks sampleNasm := (nasm_expression ctx .norm _ _).1 rfl

/-- C61: what follows an expression does not matter, as long as it is not a binary operator: the parser
    stops there.  (After an operator that is not allowed there, such as `+` after WRT, it stops too.) -/
theorem nasm_prefix (c : Ctx) (ty : Kind) (used rest : List Tok) (e : Tree)
    (hd : (nasm c ty).Derives (nasm c ty).start used e)
    (hr : ∀ t ∈ rest.head?, ¬ (nasm c ty).Operator (nasm c ty).start t) :
    nasmExpr c ty (used ++ rest) = .ok e rest :=
  (nasm_expr c ty (Nat.le_refl _) (nasm_expr6 c ty ((used ++ rest).length + 1))).complete used rest e (by omega) hd (by
    intro t ht hc
    rcases hc with hc | hc
    · exact hr t ht hc
    · exact hc)

/-- C61: whatever the NASM parser returns is an expression at the beginning of the line. -/
theorem nasm_sound (c : Ctx) (ty : Kind) (toks rest : List Tok) (e : Tree) (h : nasmExpr c ty toks = .ok e rest) :
    ∃ used, toks = used ++ rest ∧ used ≠ [] ∧ (nasm c ty).Derives (nasm c ty).start used e :=
  (nasm_expr c ty (Nat.le_refl _) (nasm_expr6 c ty (toks.length + 1))).sound toks e rest h

/-- A comma ends the expression. -/
example : ∀ t ∈ [Tok.chr ',', .int (.L 1)].head?, ¬ (nasm ctx .norm).Operator 0 t := by
  intro t ht
  simp only [List.head?_cons, Option.mem_some_iff] at ht
  subst ht
  rintro ⟨j, op, _, _, h⟩
  simp [nasm, nasmOps] at h

/-- C61: the same for instruction operands and memory addresses, where `:` separates the segment. -/
theorem nasm_operand (c : Ctx) (used rest : List Tok) (e : Tree) :
    ((nasm c .norm).Derives 1 used e → (∀ t ∈ rest.head?, ¬ (nasm c .norm).Operator 1 t) →
      nasmBexpr c (used ++ rest) = .ok e rest) ∧
    (∀ toks, nasmBexpr c toks = .ok e rest → ∃ used, toks = used ++ rest ∧ used ≠ [] ∧ (nasm c .norm).Derives 1 used e) := by
  constructor
  · intro hd hr
    exact (nasm_bexpr c .norm (Nat.le_refl _) (nasm_expr6 c .norm ((used ++ rest).length + 1))).complete used rest e
      (by omega) hd (by
        intro t ht hc
        rcases hc with hc | hc
        · exact hr t ht hc
        · exact hc)
  · intro toks h
    exact (nasm_bexpr c .norm (Nat.le_refl _) (nasm_expr6 c .norm (toks.length + 1))).sound toks e rest h

example : nasmBexpr ctx [.reg 3, .chr '*', .int (.L 2), .chr ':', .reg 1] =
    .ok (.bin .MUL (.leaf (.reg 3)) (number (.L 2))) [.chr ':', .reg 1] := rfl

/-- C61: the preprocessor takes a line of tokens as an expression exactly if its grammar does. -/
theorem pp_expression (find : Option (Name → Option Nat)) (crit : Bool) (toks : List Tok) (e : Tree) :
    ppExpr find crit toks = .ok e [] ↔ (pp find crit).Derives (pp find crit).start toks e := by
  have h := pp_bexpr find crit (Nat.le_refl _) (pp_expr6 find crit (toks.length + 1))
  constructor
  · intro hp
    obtain ⟨u, hu, _, hd⟩ := h.sound _ _ _ hp
    rw [List.append_nil] at hu
    rw [hu]; exact hd
  · intro hd
    have := h.complete toks [] e (by simp) hd (by simp)
    rw [List.append_nil] at this
    exact this

/-- `1 < 2 && 3 + 1 == 4 || 0` -/
example : ppExpr none true [.int (.L 1), .kw .lt, .int (.L 2), .kw .dblAnd, .int (.L 3), .chr '+', .int (.L 1),
      .kw .eq, .int (.L 4), .kw .dblOr, .int (.L 0)] =
    .ok (.bin .LOR (.bin .LAND (.bin .LT (number (.L 1)) (number (.L 2)))
      (.bin .EQ (.bin .ADD (number (.L 3)) (number (.L 1))) (number (.L 4)))) (number (.L 0))) [] := rfl

/-- C61: the GNU parser takes a line of tokens as an expression exactly if its grammar does. -/
theorem gas_expression (c : Ctx) (toks : List Tok) (e : Tree) :
    gasExpr c toks = .ok e [] ↔ (gas c).Derives 0 toks e := by
  have h := gas_parse c (Nat.le_refl _) (gas_expr2 c (toks.length + 1))
  constructor
  · intro hp
    obtain ⟨u, hu, _, hd⟩ := h.sound _ _ _ hp
    rw [List.append_nil] at hu
    rw [hu]; exact hd
  · intro hd
    have := h.complete toks [] e (by simp) hd (by simp)
    rw [List.append_nil] at this
    exact this

example : gasExpr ctx sampleToks = .ok sampleGas [] := rfl
example : gasExpr ctx [.ident .id [0x66#8], .chr '@', .ident .id [0x67#8], .chr '-', .ident .id [0x2e#8]] =
    .ok (.bin .SUB (.bin .WRT (.leaf (.sym 1)) (.leaf (.sym 100))) (.leaf (.sym 50))) [] := rfl

/-- C61: what follows a GNU expression does not matter, as long as it is neither a binary operator nor
    `@`. -/
theorem gas_prefix (c : Ctx) (used rest : List Tok) (e : Tree) (hd : (gas c).Derives 0 used e)
    (hr : ∀ t ∈ rest.head?, ¬ (gas c).Operator 0 t ∧ t ≠ .chr '@') : gasExpr c (used ++ rest) = .ok e rest :=
  (gas_parse c (Nat.le_refl _) (gas_expr2 c ((used ++ rest).length + 1))).complete used rest e (by omega) hd (by
    intro t ht hc
    rcases hc with hc | hc
    · exact (hr t ht).1 hc
    · exact (hr t ht).2 hc)

/-- C61: the grammars give every line at most one structure. -/
theorem unambiguous (c : Ctx) (ty : Kind) (find : Option (Name → Option Nat)) (crit : Bool) (toks : List Tok)
    (e e' : Tree) :
    ((nasm c ty).Derives (nasm c ty).start toks e → (nasm c ty).Derives (nasm c ty).start toks e' → e = e') ∧
    ((pp find crit).Derives (pp find crit).start toks e → (pp find crit).Derives (pp find crit).start toks e' → e = e') ∧
    ((gas c).Derives 0 toks e → (gas c).Derives 0 toks e' → e = e') := by
  refine ⟨fun h h' => ?_, fun h h' => ?_, fun h h' => ?_⟩
  · rw [← nasm_expression] at h h'
    rw [h] at h'
    exact (R.ok.inj h').1
  · rw [← pp_expression] at h h'
    rw [h] at h'
    exact (R.ok.inj h').1
  · rw [← gas_expression] at h h'
    rw [h] at h'
    exact (R.ok.inj h').1

/-- The parsers always come to an end. -/
theorem never_stuck (c : Ctx) (ty : Kind) (find : Option (Name → Option Nat)) (crit : Bool) (toks : List Tok) :
    nasmExpr c ty toks ≠ .stuck ∧ nasmBexpr c toks ≠ .stuck ∧ ppExpr find crit toks ≠ .stuck ∧
    gasExpr c toks ≠ .stuck :=
  ⟨(nasm_expr c ty (Nat.le_refl _) (nasm_expr6 c ty (toks.length + 1))).total toks (by omega),
   (nasm_bexpr c .norm (Nat.le_refl _) (nasm_expr6 c .norm (toks.length + 1))).total toks (by omega),
   (pp_bexpr find crit (Nat.le_refl _) (pp_expr6 find crit (toks.length + 1))).total toks (by omega),
   (gas_parse c (Nat.le_refl _) (gas_expr2 c (toks.length + 1))).total toks (by omega)⟩

/-- C61: no registers in data, and neither `:`, WRT, strings nor floating-point numbers in
    directives. -/
theorem kinds (c : Ctx) (toks : List Tok) (e : Tree) :
    (nasmExpr c .dv toks = .ok e [] → ∀ r, Tok.reg r ∉ toks) ∧
    (nasmExpr c .dir toks = .ok e [] → ∀ t ∈ toks, t ≠ .chr ':' ∧ t ≠ .kw .wrt ∧ (∀ s, t ≠ .str s) ∧ ∀ f, t ≠ .flt f) := by
  constructor
  · intro h
    have hd := (nasm_expression c .dv toks e).1 h
    clear h
    generalize (nasm c Kind.dv).start = k at hd
    induction hd with
    | up _ _ ih => exact ih
    | bin _ ho _ _ ih1 ih2 =>
      intro r hr
      rcases List.mem_append.1 hr with h | h
      · exact ih1 r h
      · rcases List.mem_cons.1 h with h | h
        · subst h; simp [nasm, nasmOps] at ho
        · exact ih2 r h
    | pre hp _ ih =>
      intro r hr
      rcases List.mem_cons.1 hr with h | h
      · subst h; simp [nasm, nasmPre] at hp
      · exact ih r h
    | paren _ ih =>
      intro r hr
      simp only [List.cons_append, List.mem_cons, reduceCtorEq, List.mem_append, List.not_mem_nil, or_false,
        false_or] at hr
      exact ih r hr
    | atom ha =>
      intro r hr
      obtain ⟨t, rfl, hp⟩ := nasm_atom_one ha
      simp only [List.mem_cons, List.not_mem_nil, or_false] at hr
      subst hr
      simp [primary] at hp
  · intro h
    have hd := (nasm_expression c .dir toks e).1 h
    clear h
    have hk : 2 ≤ (nasm c Kind.dir).start := by simp [nasm]
    generalize (nasm c Kind.dir).start = k at hd hk
    induction hd with
    | up _ _ ih => exact ih (by omega)
    | @bin k l r t op a b hlt ho _ _ ih1 ih2 =>
      intro t ht
      rcases List.mem_append.1 ht with h | h
      · exact ih1 hk t h
      · rcases List.mem_cons.1 h with h | h
        · subst h
          simp only [nasm] at ho
          refine ⟨?_, ?_, ?_, ?_⟩
          · rintro rfl
            have := nasm_levels ho (show nasmOps 0 (.chr ':') = some .SEGOFF from rfl)
            omega
          · rintro rfl
            have := nasm_levels ho (show nasmOps 1 (.kw .wrt) = some .WRT from rfl)
            omega
          · rintro s rfl; simp [nasmOps] at ho
          · rintro s rfl; simp [nasmOps] at ho
        · refine ih2 ?_ t h
          have := ((nasm_clear c Kind.dir).right k hlt).1
          omega
    | pre hp _ ih =>
      intro t ht
      rcases List.mem_cons.1 ht with h | h
      · subst h
        refine ⟨?_, ?_, ?_, ?_⟩
        · rintro rfl; simp [nasm, nasmPre] at hp
        · rintro rfl; simp [nasm, nasmPre] at hp
        · rintro s rfl; simp [nasm, nasmPre] at hp
        · rintro s rfl; simp [nasm, nasmPre] at hp
      · exact ih (by simp [nasm]) t h
    | paren _ ih =>
      intro t ht
      simp only [List.cons_append, List.mem_cons, List.mem_append, List.not_mem_nil, or_false] at ht
      rcases ht with rfl | h | rfl
      · simp
      · exact ih (by simp [nasm]) t h
      · simp
    | atom ha =>
      intro t ht
      obtain ⟨t', rfl, hp⟩ := nasm_atom_one ha
      simp only [List.mem_cons, List.not_mem_nil, or_false] at ht
      subst ht
      refine ⟨?_, ?_, ?_, ?_⟩
      · rintro rfl; simp [primary] at hp
      · rintro rfl; simp [primary] at hp
      · rintro s rfl; simp [primary] at hp
      · rintro s rfl; simp [primary] at hp

example : nasmExpr ctx .dv [.reg 1] = .null ∧ nasmExpr ctx .dir [.int (.L 1), .chr ':', .int (.L 2)] =
    .ok (number (.L 1)) [.chr ':', .int (.L 2)] := ⟨rfl, rfl⟩

/-- C61: the preprocessor reports an error exactly when the expression uses SEG, `$`, `$$` or a symbol
    it does not know. -/
theorem pp_reports (find : Option (Name → Option Nat)) (crit : Bool) (toks : List Tok) (e : Tree)
    (h : ppExpr find crit toks = .ok e []) :
    e.flagged = true ↔ Tok.kw .seg ∈ toks ∨ Tok.here ∈ toks ∨ Tok.base ∈ toks ∨
      ∃ n, Tok.ident .id n ∈ toks ∧ find.bind (· n) = none := by
  have hd := (pp_expression find crit toks e).1 h
  clear h
  generalize (pp find crit).start = k at hd
  induction hd with
  | up _ _ ih => exact ih
  | @bin k l r t op a b _ ho _ _ ih1 ih2 =>
    have n1 : Tok.kw .seg ≠ t ∧ Tok.here ≠ t ∧ Tok.base ≠ t ∧ ∀ n, Tok.ident .id n ≠ t := by
      refine ⟨?_, ?_, ?_, ?_⟩
      · rintro rfl
        simp only [pp] at ho
        unfold ppOps at ho; split at ho <;> simp_all [nasmOps]
      · rintro rfl
        simp only [pp] at ho
        unfold ppOps at ho; split at ho <;> simp_all [nasmOps]
      · rintro rfl
        simp only [pp] at ho
        unfold ppOps at ho; split at ho <;> simp_all [nasmOps]
      · rintro n rfl
        simp only [pp] at ho
        unfold ppOps at ho; split at ho <;> simp_all [nasmOps]
    simp only [Tree.flagged, Bool.or_eq_true, ih1, ih2, List.mem_append, List.mem_cons, n1, false_or]
    constructor
    · rintro ((h | h | h | ⟨n, h, h'⟩) | (h | h | h | ⟨n, h, h'⟩))
      · exact Or.inl (Or.inl h)
      · exact Or.inr (Or.inl (Or.inl h))
      · exact Or.inr (Or.inr (Or.inl (Or.inl h)))
      · exact Or.inr (Or.inr (Or.inr ⟨n, Or.inl h, h'⟩))
      · exact Or.inl (Or.inr h)
      · exact Or.inr (Or.inl (Or.inr h))
      · exact Or.inr (Or.inr (Or.inl (Or.inr h)))
      · exact Or.inr (Or.inr (Or.inr ⟨n, Or.inr h, h'⟩))
    · rintro ((h | h) | (h | h) | (h | h) | ⟨n, h | h, h'⟩)
      · exact Or.inl (Or.inl h)
      · exact Or.inr (Or.inl h)
      · exact Or.inl (Or.inr (Or.inl h))
      · exact Or.inr (Or.inr (Or.inl h))
      · exact Or.inl (Or.inr (Or.inr (Or.inl h)))
      · exact Or.inr (Or.inr (Or.inr (Or.inl h)))
      · exact Or.inl (Or.inr (Or.inr (Or.inr ⟨n, h, h'⟩)))
      · exact Or.inr (Or.inr (Or.inr (Or.inr ⟨n, h, h'⟩)))
  | @pre t f r e hp _ ih =>
    simp only [pp] at hp
    unfold ppPre at hp
    split at hp <;> simp only [Option.some.injEq, reduceCtorEq] at hp <;> subst hp <;>
      simp only [id_eq, Tree.flagged, ih, List.mem_cons, reduceCtorEq, false_or, true_or]
  | paren _ ih =>
    simp only [ih, List.cons_append, List.mem_cons, reduceCtorEq, false_or, List.mem_append, List.not_mem_nil, or_false]
  | atom ha =>
    simp only [pp] at ha
    unfold ppAtom at ha
    split at ha
    · simp only [Option.some.injEq] at ha; subst ha
      simp [Tree.flagged, number]
    · rename_i n
      split at ha
      · rename_i s hs
        simp only [Option.some.injEq] at ha; subst ha
        simp only [Tree.flagged, List.mem_cons, reduceCtorEq, List.not_mem_nil, or_self, false_or, or_false,
          Tok.ident.injEq, true_and, Bool.false_eq_true, false_iff, not_exists, not_and]
        rintro _ rfl
        rw [hs]; simp
      · rename_i hs
        simp only [Option.some.injEq] at ha; subst ha
        simp only [Tree.flagged, ppOne, true_iff]
        exact Or.inr (Or.inr (Or.inr ⟨n, by simp, hs⟩))
    · simp only [Option.some.injEq] at ha; subst ha
      simp [Tree.flagged, ppOne]
    · simp only [Option.some.injEq] at ha; subst ha
      simp [Tree.flagged, ppOne]
    · cases ha

/-! ## C62: value -/

/-- C62 (partial): the expression object made for a tree has the value of the tree, for every value of
    symbols and registers, whatever is folded or regrouped on the way.  Missing: floating-point numbers,
    `&&` and `||` of numbers other than 0 and 1, and the constant computations the library gets wrong
    (see C10, C19). -/
theorem built_value_partial (ρ : Env) (t : Tree) (n : Node) (good : t.Good ρ)
    (sound : ∀ k ∈ t.built.log, k.Sound) (h : t.built.out = .ok n) :
    n.eval ρ = t.value ρ ∧ Verif.Expr.Good ρ n.item := by
  have made : ∀ (op : Op) (l : Item) (r : Option Item) (n : Node), Verif.Expr.Good ρ (.expr op (l :: r.toList)) →
      (∀ k ∈ (create op l r).log, k.Sound) → (create op l r).out = .ok n →
      n.eval ρ = Verif.Expr.eval ρ (.expr op (l :: r.toList)) ∧ Verif.Expr.Good ρ n.item := by
    intro op l r n hg hs ho
    refine ⟨Verif.Expr.Props.create_value_partial ρ op l r n hg hs ho, ?_⟩
    have hv := Verif.Expr.bringUp_ok ρ
    have key : Verif.Expr.evalL ρ (Verif.Expr.bringUp l :: (r.map Verif.Expr.bringUp).toList) =
        Verif.Expr.evalL ρ (l :: r.toList) ∧
        Verif.Expr.GoodL ρ (Verif.Expr.bringUp l :: (r.map Verif.Expr.bringUp).toList) := by
      have hl := hv l hg.2.2.1
      cases r with
      | none => exact ⟨by simp only [Option.map_none, Option.toList_none, Verif.Expr.evalL, hl.2], hl.1, trivial⟩
      | some t =>
        have ht := hv t hg.2.2.2.1
        exact ⟨by simp only [Option.map_some, Option.toList_some, Verif.Expr.evalL, hl.2, ht.2], hl.1, ht.1, trivial⟩
    have hlen : (Verif.Expr.bringUp l :: (r.map Verif.Expr.bringUp).toList).length = (l :: r.toList).length := by
      cases r <;> rfl
    have g : Verif.Expr.Good ρ (Node.mk op (Verif.Expr.bringUp l :: (r.map Verif.Expr.bringUp).toList)).item :=
      ⟨by rw [hlen]; exact hg.1, by rw [key.1]; exact hg.2.1, key.2⟩
    exact (Verif.Expr.levelOp_ok ρ false _ g hs n ho).1
  induction t generalizing n with
  | leaf i =>
    obtain ⟨h1, h2⟩ := made .IDENT i none n ⟨by simp [Verif.Expr.Arity], by simp, good.2, trivial⟩ sound h
    exact ⟨h1, h2⟩
  | copy m =>
    simp only [Tree.built, M.pure, Except.ok.injEq] at h
    subst h
    exact ⟨rfl, good⟩
  | un op t ih =>
    obtain ⟨a, h1, h2, h3⟩ := Verif.Expr.bind_out h
    have hlog : t.built.log ++ (create op a.item none).log = (Tree.un op t).built.log := h3.symm
    obtain ⟨i1, i2⟩ := ih a good.2 (fun k hk => sound k (by rw [← hlog]; exact List.mem_append_left _ hk)) h1
    obtain ⟨h4, h5⟩ := made op a.item none n ⟨good.1, by
        rintro (rfl | rfl)
        · exact absurd good.1 (by simp [Verif.Expr.Arity])
        · exact absurd good.1 (by simp [Verif.Expr.Arity]), i2, trivial⟩
      (fun k hk => sound k (by rw [← hlog]; exact List.mem_append_right _ hk)) h2
    refine ⟨?_, h5⟩
    rw [h4]
    show Verif.Expr.opVal ρ op [Verif.Expr.eval ρ a.item] = Verif.Expr.opVal ρ op [t.value ρ]
    rw [← i1]; rfl
  | bin op l r ihl ihr =>
    obtain ⟨a, h1, h2, h3⟩ := Verif.Expr.bind_out h
    obtain ⟨b, h4, h5, h6⟩ := Verif.Expr.bind_out h2
    have hlog : l.built.log ++ (r.built.log ++ (create op a.item (some b.item)).log) = (Tree.bin op l r).built.log := by
      rw [← h6]; exact h3.symm
    obtain ⟨i1, i2⟩ := ihl a good.2.2.1 (fun k hk => sound k (by rw [← hlog]; simp [hk])) h1
    obtain ⟨j1, j2⟩ := ihr b good.2.2.2 (fun k hk => sound k (by rw [← hlog]; simp [hk])) h4
    have ea : Verif.Expr.eval ρ a.item = l.value ρ := i1
    have eb : Verif.Expr.eval ρ b.item = r.value ρ := j1
    obtain ⟨h7, h8⟩ := made op a.item (some b.item) n ⟨good.1, by
        intro ho w hw
        have := good.2.1 ho
        simp only [Option.toList_some, Verif.Expr.evalL, ea, eb, List.mem_cons, List.not_mem_nil, or_false] at hw
        rcases hw with rfl | rfl
        · exact this.1
        · exact this.2, i2, j2, trivial⟩
      (fun k hk => sound k (by rw [← hlog]; simp [hk])) h5
    refine ⟨?_, h8⟩
    rw [h7]
    show Verif.Expr.opVal ρ op [Verif.Expr.eval ρ a.item, Verif.Expr.eval ρ b.item] = _
    rw [ea, eb]; rfl
  | noted t ih => exact ih n good sound h

/-- C62: making the expression object for a tree never corrupts memory. -/
theorem built_no_fault (t : Tree) (h : t.Proper) : ∃ n, t.built.out = .ok n ∧ Verif.Expr.Built n.item := by
  induction t with
  | leaf i => exact Verif.Expr.Props.create_no_fault .IDENT i none (.leaf h) (by simp) (by simp [Verif.Expr.Arity])
  | copy n => exact ⟨n, rfl, h⟩
  | un op t ih =>
    obtain ⟨a, h1, h2⟩ := ih h.2
    obtain ⟨n, h3, h4⟩ := Verif.Expr.Props.create_no_fault op a.item none h2 (by simp) h.1
    exact ⟨n, by simp only [Tree.built, M.bind, h1, h3], h4⟩
  | bin op l r ihl ihr =>
    obtain ⟨a, h1, h2⟩ := ihl h.2.1
    obtain ⟨b, h3, h4⟩ := ihr h.2.2
    obtain ⟨n, h5, h6⟩ := Verif.Expr.Props.create_no_fault op a.item (some b.item) h2 (by
      intro t ht
      simp only [Option.some.injEq] at ht
      subst ht; exact h4) h.1
    exact ⟨n, by simp only [Tree.built, M.bind, h1, h3, h5], h6⟩
  | noted t ih => exact ih h

/-- C62: the trees of the three parsers are proper: every operator has its operands. -/
theorem parsed_proper (c : Ctx) (ty : Kind) (find : Option (Name → Option Nat)) (crit : Bool) (toks rest : List Tok)
    (e : Tree) (ha : ∀ n, c.abspos = some n ∨ c.absstart = some n → Verif.Expr.Built n.item)
    (h : nasmExpr c ty toks = .ok e rest ∨ ppExpr find crit toks = .ok e rest ∨ gasExpr c toks = .ok e rest) :
    e.Proper := by
  rcases h with h | h | h
  · obtain ⟨u, hu, hne, hd⟩ := nasm_sound c ty toks rest e h
    clear h hu hne
    generalize (nasm c ty).start = k at hd
    induction hd with
    | up _ _ ih => exact ih
    | bin _ ho _ _ ih1 ih2 =>
      refine ⟨?_, ih1, ih2⟩
      simp only [nasm] at ho
      unfold nasmOps at ho
      split at ho <;> simp only [Option.some.injEq, reduceCtorEq] at ho <;> subst ho <;> simp [Verif.Expr.Arity]
    | pre hp _ ih =>
      simp only [nasm] at hp
      unfold nasmPre at hp
      split at hp <;> simp only [Option.some.injEq, reduceCtorEq] at hp <;> subst hp <;>
        simp [Tree.Proper, Verif.Expr.Arity, ih, number, Verif.Expr.Leaf]
    | paren _ ih => exact ih
    | atom hat =>
      obtain ⟨t, rfl, hp⟩ := nasm_atom_one hat
      unfold primary at hp
      split at hp
      case h_8 =>
        split at hp
        · cases hp
        · simp only [Option.some.injEq] at hp
          subst hp
          split
          · rename_i n hn; exact ha n (Or.inl hn)
          · trivial
      case h_9 =>
        split at hp
        · cases hp
        · simp only [Option.some.injEq] at hp
          subst hp
          split
          · rename_i n hn; exact ha n (Or.inr hn)
          · trivial
      all_goals first
        | (simp only [Option.some.injEq] at hp; subst hp; trivial)
        | (split at hp
           · cases hp
           · simp only [Option.some.injEq] at hp; subst hp; trivial)
        | cases hp
  · obtain ⟨u, hu, hne, hd⟩ := (pp_bexpr find crit (Nat.le_refl _) (pp_expr6 find crit (toks.length + 1))).sound toks e rest h
    clear h hu hne
    generalize (pp find crit).start = k at hd
    induction hd with
    | up _ _ ih => exact ih
    | bin _ ho _ _ ih1 ih2 =>
      refine ⟨?_, ih1, ih2⟩
      simp only [pp] at ho
      unfold ppOps at ho
      split at ho
      case h_10 =>
        unfold nasmOps at ho
        split at ho <;> simp only [Option.some.injEq, reduceCtorEq] at ho <;> subst ho <;> simp [Verif.Expr.Arity]
      all_goals simp only [Option.some.injEq, reduceCtorEq] at ho <;> subst ho <;> simp [Verif.Expr.Arity]
    | pre hp _ ih =>
      simp only [pp] at hp
      unfold ppPre at hp
      split at hp <;> simp only [Option.some.injEq, reduceCtorEq] at hp <;> subst hp <;>
        simp [Tree.Proper, Verif.Expr.Arity, ih]
    | paren _ ih => exact ih
    | atom hat =>
      obtain ⟨t, rfl, hp⟩ := pp_atom_one hat
      unfold ppPrimary at hp
      split at hp
      · simp only [Option.some.injEq] at hp; subst hp; trivial
      · split at hp
        · simp only [Option.some.injEq] at hp; subst hp; trivial
        · split at hp <;> simp only [Option.some.injEq] at hp <;> subst hp <;> trivial
      · simp only [Option.some.injEq] at hp; subst hp; trivial
      · simp only [Option.some.injEq] at hp; subst hp; trivial
      · cases hp
  · obtain ⟨u, hu, hne, hd⟩ := (gas_parse c (Nat.le_refl _) (gas_expr2 c (toks.length + 1))).sound toks e rest h
    clear h hu hne
    generalize 0 = k at hd
    induction hd with
    | up _ _ ih => exact ih
    | bin _ ho _ _ ih1 ih2 =>
      refine ⟨?_, ih1, ih2⟩
      simp only [gas] at ho
      unfold gasOps at ho
      split at ho <;> simp only [Option.some.injEq, reduceCtorEq] at ho <;> subst ho <;> simp [Verif.Expr.Arity]
    | pre hp _ ih =>
      simp only [gas] at hp
      unfold gasPre at hp
      split at hp <;> simp only [Option.some.injEq, reduceCtorEq] at hp <;> subst hp <;>
        simp [Tree.Proper, Verif.Expr.Arity, ih]
    | paren _ ih => exact ih
    | atom hat =>
      simp only [gas] at hat
      unfold gasAtom at hat
      split at hat
      · simp only [Option.some.injEq] at hat; subst hat; trivial
      · simp only [Option.some.injEq] at hat; subst hat; trivial
      · simp only [Option.some.injEq] at hat; subst hat; trivial
      · split at hat <;> simp only [Option.some.injEq] at hat <;> subst hat <;>
          simp [Tree.Proper, Verif.Expr.Arity, Verif.Expr.Leaf]
      · cases hat

/-- The sample: `((2 - 3) + ((-(x | 1)) * 4)) << 1` with x = 6 is -58. -/
example : sampleNasm.Proper ∧ sampleNasm.Good (Verif.Expr.Props.env 6 6) ∧
    sampleNasm.value { Verif.Expr.Props.env 6 6 with sym := fun _ => 6 } = -58 := by
  refine ⟨?_, ?_, by decide +kernel⟩
  · simp [sampleNasm, Tree.Proper, Verif.Expr.Arity, number, Verif.Expr.Leaf]
  · simp only [sampleNasm, Tree.Good, Verif.Expr.Arity, number, Verif.Expr.Leaf, Verif.Expr.Good, Verif.Intnum.Fits,
      reduceCtorEq, or_self, false_implies, and_true, true_and]
    decide

end Verif.Parse
