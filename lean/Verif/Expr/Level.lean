import Verif.Expr.Lemmas
/- Leveling one node preserves the value. -/
set_option linter.unusedSimpArgs false
namespace Verif.Expr
open Verif.Intnum

/-- The node is proper and has value V. -/
def Has (ρ : Env) (V : Word) (n : Node) : Prop := Good ρ n.item ∧ n.eval ρ = V

/-- If all constant computations were sound and the computation succeeded, its result is proper and has
    value V. -/
def Ok (ρ : Env) (V : Word) (m : M Node) : Prop :=
  (∀ c ∈ m.log, c.Sound) → ∀ n, m.out = .ok n → Has ρ V n

theorem isZero_bv {i : Intnum} (h : Fits i) (hz : isZero i = true) : bv i = 0 := by
  have : val i = 0 := by
    cases i with
    | L l => simp only [isZero, beq_iff_eq] at hz; subst hz; rfl
    | BV v => simp [isZero] at hz
  rw [bv, this]; rfl
theorem isPos1_bv {i : Intnum} (hz : isPos1 i = true) : bv i = 1 := by
  have : val i = 1 := by
    cases i with
    | L l => simp only [isPos1, beq_iff_eq] at hz; subst hz; rfl
    | BV v => simp [isPos1] at hz
  rw [bv, this]; rfl
theorem isNeg1_bv {i : Intnum} (hz : isNeg1 i = true) : bv i = -1 := by
  have : val i = -1 := by
    cases i with
    | L l => simp only [isNeg1, beq_iff_eq] at hz; subst hz; rfl
    | BV v => simp [isNeg1] at hz
  rw [bv, this]; rfl
theorem isZero_ne {i : Intnum} (h : Fits i) (hz : isZero i = false) : bv i ≠ 0 := by
  intro hb
  have hv : val i = 0 := by rw [← bv_toInt i, hb]; rfl
  cases i with
  | L l =>
    have : l = 0#64 := BitVec.toInt_inj.1 (by simpa [val] using hv)
    subst this; simp [isZero] at hz
  | BV v => simp [Fits] at h; simp [val] at hv; omega

/-- Dropping a neutral integer from a multi-operand operator. -/
theorem destroyLeft_ok (ρ : Env) (op : Op) (i : Intnum) (hf : Fits i) (h : destroyLeft op i = true) :
    multi op = true ∧ (∀ m, opVal ρ op (bv i :: m) = opVal ρ op m) ∧
    (∀ x, (op = .LAND ∨ op = .LOR → IsBool x) → opVal ρ op [x] = x) := by
  have hb1 : ∀ x : Word, x * 1 = x := by intro x; simp
  have hb2 : ∀ x : Word, x + 0 = x := by intro x; simp
  have hb3 : ∀ x : Word, x ||| 0 = x := by intro x; simp
  have hb4 : ∀ x : Word, (-1) &&& x = x := by
    intro x; rw [show (-1 : Word) = BitVec.allOnes 256 by decide, BitVec.allOnes_and]
  have hb5 : ∀ x : Word, x &&& (-1) = x := by
    intro x; rw [show (-1 : Word) = BitVec.allOnes 256 by decide, BitVec.and_allOnes]
  cases op <;> simp only [destroyLeft, reduceCtorEq, beq_self_eq_true, Bool.and_true, Bool.and_false, Bool.or_false,
    Bool.false_or, Bool.false_eq_true, beq_iff_eq, show ∀ a b : Op, (a == b) = decide (a = b) from fun _ _ => rfl, decide_true, decide_false] at h
  · refine ⟨rfl, ?_, ?_⟩
    · intro m; simp only [opVal, List.foldr_cons, isZero_bv hf h]; simp
    · intro x _; simp only [opVal, List.foldr, hb2]
  · refine ⟨rfl, ?_, ?_⟩
    · intro m; simp only [opVal, List.foldr_cons, isPos1_bv h]; simp
    · intro x _; simp only [opVal, List.foldr, hb1]
  · refine ⟨rfl, ?_, ?_⟩
    · intro m; simp only [opVal, List.foldr_cons, isZero_bv hf h]; simp
    · intro x _; simp only [opVal, List.foldr, hb3]
  · refine ⟨rfl, ?_, ?_⟩
    · intro m; simp only [opVal, List.foldr_cons, isNeg1_bv h, hb4]
    · intro x _; simp only [opVal, List.foldr, hb5]
  · refine ⟨rfl, ?_, ?_⟩
    · intro m; simp only [opVal, List.any_cons, isZero_bv hf h]; simp
    · intro x hx; simp only [opVal, List.any_cons, List.any_nil, Bool.or_false]; exact word_of_isBool (hx (Or.inr rfl))
  · refine ⟨rfl, ?_, ?_⟩
    · intro m
      have := isZero_ne hf (by simpa using h)
      simp only [opVal, List.all_cons, bne_iff_ne.2 this, Bool.true_and]
    · intro x hx; simp only [opVal, List.all_cons, List.all_nil, Bool.and_true]; exact word_of_isBool (hx (Or.inl rfl))

theorem destroyRight_ok (ρ : Env) (op : Op) (i : Intnum) (hf : Fits i) (h : destroyRight op i = true) :
    destroyLeft op i = true ∨
    (multi op = false ∧ (∀ n, Arity op n → n = 2) ∧ ∀ x, opVal ρ op [x, bv i] = x) := by
  cases op <;> simp only [destroyRight, destroyLeft, reduceCtorEq, beq_self_eq_true, Bool.and_true, Bool.and_false, Bool.or_false,
    Bool.false_or, Bool.false_eq_true, beq_iff_eq, show ∀ a b : Op, (a == b) = decide (a = b) from fun _ _ => rfl, decide_true, decide_false] at h ⊢
  all_goals first
    | exact Or.inl h
    | (refine Or.inr ⟨rfl, fun n hn => hn, fun x => ?_⟩)
  · simp only [opVal, isZero_bv hf h]; simp
  · simp only [opVal, isPos1_bv h]; exact BitVec.sdiv_one
  · simp only [opVal, isZero_bv hf h]; simp
  · simp only [opVal, isZero_bv hf h]; simp

theorem isConstant_ok (ρ : Env) (op : Op) (i : Intnum) (hf : Fits i) (h : isConstant op i = true) :
    multi op = true ∧ ∀ m, opVal ρ op (bv i :: m) = bv i := by
  cases op <;> simp only [isConstant, reduceCtorEq, beq_self_eq_true, Bool.and_true, Bool.and_false, Bool.or_false,
    Bool.false_or, Bool.false_eq_true, beq_iff_eq, show ∀ a b : Op, (a == b) = decide (a = b) from fun _ _ => rfl, decide_true, decide_false] at h ⊢
  · refine ⟨rfl, fun m => ?_⟩
    simp only [opVal, List.foldr_cons, isZero_bv hf h]; simp
  · refine ⟨rfl, fun m => ?_⟩
    simp only [opVal, List.foldr_cons, isNeg1_bv h]
    rw [show (-1 : Word) = BitVec.allOnes 256 by decide, BitVec.allOnes_or]
  · refine ⟨rfl, fun m => ?_⟩
    simp only [opVal, List.foldr_cons, isZero_bv hf h]; simp
  · refine ⟨rfl, fun m => ?_⟩
    simp only [opVal, List.all_cons, isZero_bv hf h]; simp; rfl

theorem perm_mid (ρ : Env) (pre post : List Item) (i : Intnum) :
    (evalL ρ (pre ++ .int i :: post)).Perm (bv i :: evalL ρ (pre ++ post)) := by
  rw [evalL_append, evalL_append]
  exact List.perm_middle

/-- Simplifying identities preserves the value. -/
theorem simpId_ok (ρ : Env) (regmul : Bool) (op : Op) (pre post : List Item) (i : Intnum)
    (del : Option Fault) (V : Word) (hnn : nonnum op = false) (hpre : GoodL ρ pre) (hi : Fits i) (hpost : GoodL ρ post)
    (H : (pre = [] ∧ post = [] ∧ unary op = false ∧ V = bv i) ∨
      (Arity op (pre.length + 1 + post.length) ∧ V = opVal ρ op (evalL ρ (pre ++ .int i :: post)) ∧
        (op = .LAND ∨ op = .LOR → ∀ w ∈ evalL ρ (pre ++ .int i :: post), IsBool w)))
    (r : Op × Terms) (hr : simpId regmul op pre i post del = .ok r) :
    Has ρ V ⟨r.1, r.2.list⟩ := by
  have one : ∀ j, Fits j → Has ρ (bv j) ⟨.IDENT, [.int j]⟩ := by
    intro j hj
    refine ⟨⟨rfl, by simp, ?_⟩, rfl⟩
    simpa [GoodL, Good] using hj
  simp only [simpId] at hr
  rcases H with ⟨rfl, rfl, hu, rfl⟩ | ⟨har, hV, hbool⟩
  · simp [hu] at hr
    subst hr; exact one i hi
  · split at hr
    · -- the integer is dropped
      rename_i hc
      cases hr
      simp only [Bool.and_eq_true, Bool.or_eq_true, List.isEmpty_iff, decide_eq_true_eq, Bool.not_eq_true'] at hc
      have hgood : GoodL ρ (pre ++ post) := (goodL_append ρ pre post).2 ⟨hpre, hpost⟩
      have multiCase : destroyLeft op i = true → pre.length + post.length ≥ 1 →
          Has ρ V ⟨if pre.length + 1 + post.length - 1 = 1 then .IDENT else op, pre ++ post⟩ := by
        intro hd hlen
        obtain ⟨hm, h1, h2⟩ := destroyLeft_ok ρ op i hi hd
        have hv : V = opVal ρ op (evalL ρ (pre ++ post)) := by
          rw [hV, opVal_perm ρ op hm (perm_mid ρ pre post i), h1]
        have hb : op = .LAND ∨ op = .LOR → ∀ w ∈ evalL ρ (pre ++ post), IsBool w := by
          intro ho w hw
          exact hbool ho w ((perm_mid ρ pre post i).mem_iff.2 (List.mem_cons_of_mem _ hw))
        by_cases hl : pre.length + 1 + post.length - 1 = 1
        · rw [if_pos hl]
          have : ∃ x, pre ++ post = [x] := List.length_eq_one_iff.1 (by simp; omega)
          obtain ⟨x, hx⟩ := this
          rw [hx] at hv hb hgood ⊢
          refine ⟨⟨rfl, by simp, hgood⟩, ?_⟩
          simp only [evalL] at hv hb
          rw [hv, h2 (eval ρ x) (fun ho => hb ho _ (by simp))]
          rfl
        · rw [if_neg hl]
          refine ⟨⟨?_, hb, hgood⟩, hv.symm⟩
          have : 2 ≤ (pre ++ post).length := by simp; omega
          simp only
          cases op <;> simp_all [multi, Arity]
      rcases hc.2 with ⟨⟨h1, h2⟩, h3⟩ | ⟨h1, h2⟩
      · exact multiCase h3 (by omega)
      · have hpl : 0 < pre.length := by
          cases pre with
          | nil => simp at h1
          | cons a l => simp
        rcases destroyRight_ok ρ op i hi h2 with hd | ⟨-, ha, hx⟩
        · exact multiCase hd (by omega)
        · have hn := ha _ har
          have hp1 : post = [] := List.length_eq_zero_iff.1 (by omega)
          obtain ⟨x, hx'⟩ := List.length_eq_one_iff.1 (show pre.length = 1 by omega)
          subst hp1 hx'
          have hv := hx (eval ρ x)
          refine ⟨⟨rfl, by simp, hgood⟩, ?_⟩
          rw [hV]
          exact hv.symm
    · split at hr
      · rename_i hc
        cases del with
        | some f => cases hr
        | none =>
          cases hr
          obtain ⟨hm, h1⟩ := isConstant_ok ρ op i hi hc.2
          rw [hV, opVal_perm ρ op hm (perm_mid ρ pre post i), h1]
          exact one i hi
      · split at hr
        · rename_i hn
          cases hr
          have hp1 : post = [] := List.length_eq_zero_iff.1 (by omega)
          have hp0 : pre = [] := List.length_eq_zero_iff.1 (by omega)
          subst hp1 hp0
          simp only [Terms.list, List.nil_append]
          by_cases hu : unary op = true
          · rw [if_pos hu]
            obtain ⟨u1, u2⟩ := calcUnary_ok ρ op i hi (by cases op <;> simp_all [unary])
            rw [hV]
            have := one _ u2
            rw [u1] at this
            exact this
          · rw [if_neg hu]
            have : V = bv i := by
              rw [hV]
              cases op <;> simp [unary, Arity, nonnum] at hu har hnn
              rfl
            rw [this]; exact one i hi
        · cases hr
          refine ⟨⟨?_, hbool, ?_⟩, hV.symm⟩
          · have : (Terms.withInt pre i post).list.length = pre.length + 1 + post.length := by
              simp [Terms.list]; omega
            simp only [this]; exact har
          rw [Terms.list, goodL_append]
          exact ⟨hpre, by simpa [GoodL, Good] using hi, hpost⟩

mutual
theorem bringUp_ok (ρ : Env) (t : Item) (h : Good ρ t) : Good ρ (bringUp t) ∧ eval ρ (bringUp t) = eval ρ t := by
  match t with
  | .none => exact ⟨h, rfl⟩
  | .reg _ => exact ⟨h, rfl⟩
  | .int _ => exact ⟨h, rfl⟩
  | .subst _ => exact ⟨h, rfl⟩
  | .flt _ _ => exact ⟨h, rfl⟩
  | .sym _ => exact ⟨h, rfl⟩
  | .precbc _ => exact ⟨h, rfl⟩
  | .expr op ts =>
    by_cases hop : op = .IDENT
    · subst hop
      have h' : ts.length = 1 := h.1
      have := bringUpHead_ok ρ ts h.2.2 h'
      simpa only [bringUp, eval] using this
    · have : bringUp (.expr op ts) = .expr op ts := by cases op <;> first | exact absurd rfl hop | rfl
      rw [this]; exact ⟨h, rfl⟩
theorem bringUpHead_ok (ρ : Env) (ts : List Item) (h : GoodL ρ ts) (hl : ts.length = 1) :
    Good ρ (bringUpHead ts) ∧ eval ρ (bringUpHead ts) = opVal ρ .IDENT (evalL ρ ts) := by
  match ts, h, hl with
  | [t], h, _ => simpa only [bringUpHead, evalL, opVal] using bringUp_ok ρ t h.1
end

theorem bringUpL_ok (ρ : Env) (ts : List Item) (h : GoodL ρ ts) :
    GoodL ρ (ts.map bringUp) ∧ evalL ρ (ts.map bringUp) = evalL ρ ts := by
  induction ts with
  | nil => exact ⟨trivial, rfl⟩
  | cons t ts ih =>
    obtain ⟨a, b⟩ := bringUp_ok ρ t h.1
    obtain ⟨c, d⟩ := ih h.2
    exact ⟨⟨a, c⟩, by simp only [List.map_cons, evalL, b, d]⟩

mutual
theorem stripTop_ok (ρ : Env) (t : Item) (h : Good ρ t) :
    Good ρ (stripTop t) ∧ eval ρ (stripTop t) = eval ρ t ∧
      (∀ op ts, t = .expr op ts → ∃ op' ts', stripTop t = .expr op' ts') := by
  match t with
  | .none => exact ⟨h, rfl, by simp⟩
  | .reg _ => exact ⟨h, rfl, by simp⟩
  | .int _ => exact ⟨h, rfl, by simp⟩
  | .subst _ => exact ⟨h, rfl, by simp⟩
  | .flt _ _ => exact ⟨h, rfl, by simp⟩
  | .sym _ => exact ⟨h, rfl, by simp⟩
  | .precbc _ => exact ⟨h, rfl, by simp⟩
  | .expr op ts =>
    by_cases hop : op = .IDENT
    · subst hop
      have h' : ts.length = 1 := h.1
      have := stripHead_ok ρ ts h.2.2 h'
      simp only [stripTop, eval]
      exact ⟨this.1, this.2.1, fun _ _ _ => this.2.2⟩
    · have : stripTop (.expr op ts) = .expr op ts := by cases op <;> first | exact absurd rfl hop | rfl
      rw [this]; exact ⟨h, rfl, fun _ _ _ => ⟨op, ts, rfl⟩⟩
theorem stripHead_ok (ρ : Env) (ts : List Item) (h : GoodL ρ ts) (hl : ts.length = 1) :
    Good ρ (stripHead ts) ∧ eval ρ (stripHead ts) = opVal ρ .IDENT (evalL ρ ts) ∧
      ∃ op' ts', stripHead ts = .expr op' ts' := by
  match ts, h, hl with
  | [t], h, _ =>
    have base : Good ρ (.expr .IDENT [t]) := ⟨rfl, by simp, h⟩
    match t, h, base with
    | .none, _, base => exact ⟨base, rfl, _, _, rfl⟩
    | .reg _, _, base => exact ⟨base, rfl, _, _, rfl⟩
    | .int _, _, base => exact ⟨base, rfl, _, _, rfl⟩
    | .subst _, _, base => exact ⟨base, rfl, _, _, rfl⟩
    | .flt _ _, _, base => exact ⟨base, rfl, _, _, rfl⟩
    | .sym _, _, base => exact ⟨base, rfl, _, _, rfl⟩
    | .precbc _, _, base => exact ⟨base, rfl, _, _, rfl⟩
    | .expr op us, h, _ =>
      have := stripTop_ok ρ (.expr op us) h.1
      simp only [stripHead, evalL, opVal]
      exact ⟨this.1, this.2.1, this.2.2 op us rfl⟩
end

theorem flat_ok (ρ : Env) (op : Op) (hm : multi op = true) (ts : List Item) (h : GoodL ρ ts)
    (hb : op = .LAND ∨ op = .LOR → ∀ w ∈ evalL ρ ts, IsBool w) :
    GoodL ρ (flat op ts) ∧ (∀ m, opVal ρ op (evalL ρ (flat op ts) ++ m) = opVal ρ op (evalL ρ ts ++ m)) ∧
    (op = .LAND ∨ op = .LOR → ∀ w ∈ evalL ρ (flat op ts), IsBool w) ∧ ts.length ≤ (flat op ts).length := by
  induction ts with
  | nil => exact ⟨trivial, fun _ => rfl, hb, Nat.le_refl _⟩
  | cons t ts ih =>
    obtain ⟨i1, i2, i3, i4⟩ := ih h.2 (fun ho w hw => hb ho w (by simp [evalL, hw]))
    have key : ∀ us, GoodL ρ us → (∀ m, opVal ρ op (evalL ρ us ++ m) = opVal ρ op (eval ρ t :: m)) →
        (op = .LAND ∨ op = .LOR → ∀ w ∈ evalL ρ us, IsBool w) → 1 ≤ us.length →
        GoodL ρ (us ++ flat op ts) ∧
        (∀ m, opVal ρ op (evalL ρ (us ++ flat op ts) ++ m) = opVal ρ op (evalL ρ (t :: ts) ++ m)) ∧
        (op = .LAND ∨ op = .LOR → ∀ w ∈ evalL ρ (us ++ flat op ts), IsBool w) ∧
        (t :: ts).length ≤ (us ++ flat op ts).length := by
      intro us g1 g2 g3 g4
      refine ⟨(goodL_append _ _ _).2 ⟨g1, i1⟩, ?_, ?_, ?_⟩
      · intro m
        rw [evalL_append, List.append_assoc, g2, evalL, List.cons_append]
        have e : ∀ l, opVal ρ op (eval ρ t :: l) = opVal ρ op (l ++ [eval ρ t]) := fun l =>
          opVal_perm ρ op hm (List.perm_append_singleton _ _).symm
        rw [e, e, List.append_assoc, i2, List.append_assoc]
      · intro ho w hw
        rw [evalL_append, List.mem_append] at hw
        rcases hw with hw | hw
        · exact g3 ho w hw
        · exact i3 ho w hw
      · simp; omega
    have leaf : sameOp op t = Option.none → GoodL ρ (flat op (t :: ts)) ∧
        (∀ m, opVal ρ op (evalL ρ (flat op (t :: ts)) ++ m) = opVal ρ op (evalL ρ (t :: ts) ++ m)) ∧
        (op = .LAND ∨ op = .LOR → ∀ w ∈ evalL ρ (flat op (t :: ts)), IsBool w) ∧
        (t :: ts).length ≤ (flat op (t :: ts)).length := by
      intro hs
      simp only [flat, hs]
      exact key [t] ⟨h.1, trivial⟩ (fun m => rfl) (fun ho w hw => hb ho w (by
        simp only [evalL, List.mem_singleton, List.mem_cons] at hw ⊢
        rcases hw with hw | hw
        · exact Or.inl hw
        · cases hw)) (by simp)
    cases t
    case expr o us =>
      by_cases hso : o = op
      · subst hso
        have hg := h.1
        simp only [flat, sameOp, if_true]
        refine key us hg.2.2 (fun m => ?_) hg.2.1 ?_
        · rw [eval, opVal_group ρ o hm]
        · have := hg.1
          cases o <;> simp_all [multi, Arity] <;> omega
      · exact leaf (by simp [sameOp, hso])
    all_goals exact leaf rfl

theorem arity_multi {op : Op} (hm : multi op = true) {n : Nat} : Arity op n ↔ 2 ≤ n := by
  cases op <;> simp_all [multi, Arity]

theorem bool_opVal (ρ : Env) {op : Op} (ho : op = .LAND ∨ op = .LOR) (l : List Word) : IsBool (opVal ρ op l) := by
  rcases ho with rfl | rfl <;> exact word_isBool _

theorem levelGo_ok (ρ : Env) (regmul : Bool) (op : Op) (old : Nat) (pre post : List Item) (i : Intnum)
    (folded : List Intnum) (hm : multi op = true) (hpre : GoodL ρ pre) (hpost : GoodL ρ post) (hi : Fits i)
    (hf : ∀ j ∈ folded, Fits j) (V : Word)
    (hV : V = opVal ρ op (bv i :: folded.map bv ++ evalL ρ (pre ++ post)))
    (hb : op = .LAND ∨ op = .LOR → ∀ w ∈ bv i :: evalL ρ (pre ++ post), IsBool w)
    (hl : 1 ≤ folded.length + pre.length + post.length) :
    Ok ρ V (levelGo regmul op old pre i post folded) := by
  intro hs n hn
  simp only [levelGo] at hs hn
  obtain ⟨f1, f2, f3⟩ := foldInts_ok ρ op hm folded i hi hf hs
  have f0 : folded = [] → (foldInts op i folded).1 = i := by intro h; subst h; rfl
  generalize foldInts op i folded = r at *
  cases hsi : simpId regmul op pre r.1 post (if pre.length + 1 + post.length < old then some .outOfBounds else Option.none) with
  | error e => rw [hsi] at hn; simp [Except.map] at hn
  | ok res =>
    rw [hsi] at hn
    simp only [Except.map, Except.ok.injEq] at hn
    subst hn
    refine simpId_ok ρ regmul op pre post r.1 _ V (multi_nonnum hm) hpre f1 hpost ?_ res hsi
    by_cases h1 : pre.length + post.length = 0
    · left
      have hp1 : post = [] := List.length_eq_zero_iff.1 (by omega)
      have hp0 : pre = [] := List.length_eq_zero_iff.1 (by omega)
      refine ⟨hp0, hp1, by cases op <;> simp_all [multi, unary], ?_⟩
      subst hp1 hp0
      have hfn : folded ≠ [] := by intro h; subst h; simp at hl
      rw [hV, f3 hfn]
      simp [evalL]
    · right
      have hp := perm_mid ρ pre post r.1
      refine ⟨(arity_multi hm).2 (by omega), ?_, ?_⟩
      · rw [opVal_perm ρ op hm hp, f2, hV]
      · intro ho w hw
        rcases List.mem_cons.1 (hp.mem_iff.1 hw) with rfl | hw
        · by_cases hfn : folded = []
          · rw [f0 hfn]; exact hb ho _ (by simp)
          · rw [f3 hfn]; exact bool_opVal ρ ho _
        · exact hb ho w (List.mem_cons_of_mem _ hw)

theorem splitLastInt_some {ts pre post : List Item} {i : Intnum} (h : splitLastInt ts = some (pre, i, post)) :
    ts = pre ++ .int i :: post := by
  simp only [splitLastInt, Option.map_eq_some_iff] at h
  obtain ⟨⟨p, j, q⟩, h1, h2⟩ := h
  simp only [Prod.mk.injEq] at h2
  obtain ⟨rfl, rfl, rfl⟩ := h2
  have := (splitInt_some h1).1
  have := congrArg List.reverse this
  simpa using this

theorem pure_ok (ρ : Env) (V : Word) (n : Node) (h : Has ρ V n) : Ok ρ V (M.pure n) := by
  intro _ m hm; simp only [M.pure, Except.ok.injEq] at hm; subst hm; exact h

theorem levelUp_ok (ρ : Env) (regmul : Bool) (op : Op) (old : Nat) (ts : Terms) (hm : multi op = true)
    (V : Word) (h : Has ρ V ⟨op, ts.list⟩) : Ok ρ V (levelUp regmul op true old ts) := by
  obtain ⟨⟨har, hb, hg⟩, hV⟩ := h
  have hV' : opVal ρ op (evalL ρ ts.list) = V := hV
  have har' : 2 ≤ ts.list.length := (arity_multi hm).1 har
  simp only at har hb hg
  simp only [levelUp, if_true]
  split
  · intro _ n hn; cases hn
  · cases ts with
    | withInt pre i post =>
      simp only [Terms.list] at *
      obtain ⟨g1, g2, g3⟩ : GoodL ρ pre ∧ Fits i ∧ GoodL ρ post := by
        rw [goodL_append] at hg; exact ⟨hg.1, by simpa [Good] using hg.2.1, hg.2.2⟩
      have hp := perm_mid ρ pre post i
      have hbp : op = .LAND ∨ op = .LOR → ∀ w ∈ evalL ρ pre, IsBool w := fun ho w hw =>
        hb ho w (hp.mem_iff.2 (by rw [evalL_append]; simp [hw]))
      have hbq : op = .LAND ∨ op = .LOR → ∀ w ∈ evalL ρ post, IsBool w := fun ho w hw =>
        hb ho w (hp.mem_iff.2 (by rw [evalL_append]; simp [hw]))
      obtain ⟨p1, p2, p3, p4⟩ := flat_ok ρ op hm pre g1 hbp
      obtain ⟨q1, q2, q3, q4⟩ := flat_ok ρ op hm post g3 hbq
      have pp := ints_perm ρ (flat op pre)
      have pq := ints_perm ρ (flat op post)
      refine levelGo_ok ρ regmul op old _ _ i _ hm (nonInts_good _ _ p1) (nonInts_good _ _ q1) g2 ?_ V ?_ ?_ ?_
      · intro j hj
        simp only [List.mem_reverse, List.mem_append] at hj
        rcases hj with hj | hj
        · exact ints_good ρ _ p1 j hj
        · exact ints_good ρ _ q1 j hj
      · rw [← hV', opVal_perm ρ op hm hp, evalL_append]
        have e1 : opVal ρ op (bv i :: (evalL ρ pre ++ evalL ρ post)) =
            opVal ρ op (bv i :: (evalL ρ (flat op pre) ++ evalL ρ (flat op post))) := by
          have s1 : (bv i :: (evalL ρ pre ++ evalL ρ post)).Perm (evalL ρ pre ++ (evalL ρ post ++ [bv i])) := by
            rw [← List.append_assoc]; exact (List.perm_append_singleton _ _).symm
          have s2 : (evalL ρ (flat op pre) ++ (evalL ρ post ++ [bv i])).Perm
              (evalL ρ post ++ (bv i :: evalL ρ (flat op pre))) := by
            refine List.perm_append_comm.trans ?_
            rw [List.append_assoc]; exact List.Perm.refl _
          rw [opVal_perm ρ op hm s1, ← p2, opVal_perm ρ op hm s2, ← q2]
          refine opVal_perm ρ op hm ?_
          refine List.perm_append_comm.trans ?_
          exact List.Perm.refl _
        rw [e1]
        refine opVal_perm ρ op hm (List.Perm.cons _ ?_)
        rw [evalL_append]
        refine (List.Perm.append pp pq).trans ?_
        rw [List.map_reverse, List.map_append]
        refine List.Perm.trans ?_ (List.Perm.append_right _ (List.reverse_perm _).symm)
        simp only [List.append_assoc]
        refine List.Perm.append_left _ ?_
        rw [← List.append_assoc, ← List.append_assoc]
        exact List.Perm.append_right _ List.perm_append_comm
      · intro ho w hw
        rcases List.mem_cons.1 hw with rfl | hw
        · exact hb ho _ (hp.mem_iff.2 (by simp))
        · rw [evalL_append, List.mem_append] at hw
          rcases hw with hw | hw
          · exact p3 ho w (pp.mem_iff.2 (List.mem_append_right _ hw))
          · exact q3 ho w (pq.mem_iff.2 (List.mem_append_right _ hw))
      · have l1 := pp.length_eq
        have l2 := pq.length_eq
        simp only [evalL_length, List.length_append, List.length_map, List.length_reverse, List.length_cons] at *
        omega
    | plain ts =>
      simp only [Terms.list] at *
      obtain ⟨p1, p2, p3, p4⟩ := flat_ok ρ op hm ts hg hb
      have p2' : opVal ρ op (evalL ρ (flat op ts)) = V := by
        have := p2 []; simp only [List.append_nil] at this; rw [this, hV']
      cases hs : splitLastInt (flat op ts) with
      | none =>
        simp only
        exact pure_ok ρ V _ ⟨⟨(arity_multi hm).2 (by simp only; omega), p3, p1⟩, p2'⟩
      | some r =>
        obtain ⟨pre, i, post⟩ := r
        have hsp := splitLastInt_some hs
        rw [hsp] at p1 p2' p3 p4
        obtain ⟨g1, g2, g3⟩ : GoodL ρ pre ∧ Fits i ∧ GoodL ρ post := by
          rw [goodL_append] at p1; exact ⟨p1.1, by simpa [Good] using p1.2.1, p1.2.2⟩
        have hp := perm_mid ρ pre post i
        have pp := ints_perm ρ pre
        refine levelGo_ok ρ regmul op old _ _ i _ hm (nonInts_good _ _ g1) g3 g2 ?_ V ?_ ?_ ?_
        · intro j hj
          exact ints_good ρ _ g1 j (List.mem_reverse.1 hj)
        · rw [← p2', opVal_perm ρ op hm hp]
          refine opVal_perm ρ op hm (List.Perm.cons _ ?_)
          rw [evalL_append, evalL_append]
          refine (List.Perm.append_right _ pp).trans ?_
          rw [List.map_reverse, List.append_assoc]
          exact List.Perm.append_right _ (List.reverse_perm _).symm
        · intro ho w hw
          rcases List.mem_cons.1 hw with rfl | hw
          · exact p3 ho _ (hp.mem_iff.2 (by simp))
          · rw [evalL_append, List.mem_append] at hw
            refine p3 ho w (hp.mem_iff.2 ?_)
            rw [evalL_append]
            rcases hw with hw | hw
            · exact List.mem_cons_of_mem _ (List.mem_append_left _ (pp.mem_iff.2 (List.mem_append_right _ hw)))
            · exact List.mem_cons_of_mem _ (List.mem_append_right _ hw)
        · have l1 := pp.length_eq
          simp only [evalL_length, List.length_append, List.length_map, List.length_reverse, List.length_cons] at *
          omega

theorem levelTail_ok (ρ : Env) (regmul : Bool) (op : Op) (fold : Bool) (old : Nat) (extra : Int) (ts : Terms)
    (V : Word) (h : Has ρ V ⟨op, ts.list⟩) (hf : multi op = true → fold = true) :
    Ok ρ V (levelTail regmul op fold old extra ts) := by
  simp only [levelTail]
  split
  · rename_i hc
    rw [hf hc.1]
    exact levelUp_ok ρ regmul op old ts hc.1 V h
  · exact pure_ok ρ V _ h

theorem arity_cases {op : Op} {n : Nat} (h : Arity op n) (hnn : nonnum op = false) :
    (multi op = true ∧ 2 ≤ n) ∨ (unary op = true ∧ n = 1) ∨ (op = .IDENT ∧ n = 1) ∨
    (multi op = false ∧ binary op ∧ Numeric op ∧ n = 2) := by
  cases op <;> simp_all [Arity, multi, unary, binary, Numeric, nonnum]

theorem binary_not_logical {op : Op} (h : multi op = false) : ¬ (op = .LAND ∨ op = .LOR) := by
  rintro (rfl | rfl) <;> simp [multi] at h

/-- Leveling a node preserves its value. -/
theorem levelNode_ok (ρ : Env) (regmul : Bool) (op : Op) (ts0 : List Item) (h : Good ρ (.expr op ts0)) :
    Ok ρ (eval ρ (.expr op ts0)) (levelNode regmul op ts0) := by
  obtain ⟨har, hb, hg⟩ := h
  obtain ⟨u1, u2⟩ := bringUpL_ok ρ ts0 hg
  have ul : (ts0.map bringUp).length = ts0.length := by simp
  simp only [levelNode]
  have hV : eval ρ (.expr op ts0) = opVal ρ op (evalL ρ (ts0.map bringUp)) := by rw [u2]; rfl
  rw [← u2] at hb
  rw [← ul] at har
  rw [hV]
  generalize ts0.map bringUp = ts at *
  by_cases hnn : nonnum op = true
  · rw [hnn]
    simp only [Bool.not_true, Bool.false_eq_true, if_false]
    refine levelTail_ok ρ regmul op false _ _ (.plain ts) _ ⟨⟨har, hb, u1⟩, rfl⟩ ?_
    intro hm; rw [multi_nonnum hm] at hnn; cases hnn
  · have hnn' : nonnum op = false := by simpa using hnn
    rw [hnn']
    simp only [Bool.not_false, if_true]
    cases hs : splitInt ts with
    | none =>
      exact levelTail_ok ρ regmul op true _ _ (.plain ts) _ ⟨⟨har, hb, u1⟩, rfl⟩ (fun _ => rfl)
    | some r =>
      obtain ⟨pre, i, post⟩ := r
      simp only
      obtain ⟨e, -⟩ := splitInt_some hs
      subst e
      obtain ⟨g1, g2, g3⟩ : GoodL ρ pre ∧ Fits i ∧ GoodL ρ post := by
        rw [goodL_append] at u1; exact ⟨u1.1, by simpa [Good] using u1.2.1, u1.2.2⟩
      intro hsnd n hn
      -- the conditions for simplifying identities
      have H : (∀ c ∈ (foldInts op i (ints post)).2, c.Sound) →
          Fits (foldInts op i (ints post)).1 ∧
          ((pre = [] ∧ nonInts post = [] ∧ unary op = false ∧
              opVal ρ op (evalL ρ (pre ++ .int i :: post)) = bv (foldInts op i (ints post)).1) ∨
            (Arity op (pre.length + 1 + (nonInts post).length) ∧
              opVal ρ op (evalL ρ (pre ++ .int i :: post)) =
                opVal ρ op (evalL ρ (pre ++ .int (foldInts op i (ints post)).1 :: nonInts post)) ∧
              (op = .LAND ∨ op = .LOR →
                ∀ w ∈ evalL ρ (pre ++ .int (foldInts op i (ints post)).1 :: nonInts post), IsBool w))) := by
        intro hc
        rcases arity_cases har hnn' with ⟨hm, hl⟩ | ⟨hu, hl⟩ | ⟨rfl, hl⟩ | ⟨hm, hbin, hnum, hl⟩
        · obtain ⟨f1, f2, f3⟩ := foldInts_ok ρ op hm (ints post) i g2 (ints_good ρ _ g3) hc
          have f0 : ints post = [] → (foldInts op i (ints post)).1 = i := by intro h; rw [h]; rfl
          refine ⟨f1, ?_⟩
          have hp := perm_mid ρ pre post i
          have hpp := ints_perm ρ post
          have hval : opVal ρ op (evalL ρ (pre ++ .int i :: post)) =
              opVal ρ op (bv i :: (ints post).map bv ++ evalL ρ (pre ++ nonInts post)) := by
            refine opVal_perm ρ op hm (hp.trans (List.Perm.cons _ ?_))
            rw [evalL_append, evalL_append]
            refine (List.Perm.append_left _ hpp).trans ?_
            change (evalL ρ pre ++ (List.map bv (ints post) ++ evalL ρ (nonInts post))).Perm
              (List.map bv (ints post) ++ (evalL ρ pre ++ evalL ρ (nonInts post)))
            rw [← List.append_assoc, ← List.append_assoc]
            exact List.Perm.append_right _ List.perm_append_comm
          by_cases h1 : pre.length + (nonInts post).length = 0
          · left
            have hp1 : nonInts post = [] := List.length_eq_zero_iff.1 (by omega)
            have hp0 : pre = [] := List.length_eq_zero_iff.1 (by omega)
            refine ⟨hp0, hp1, by cases op <;> simp_all [multi, unary], ?_⟩
            have hfn : ints post ≠ [] := by
              intro h
              have := hpp.length_eq
              simp [evalL_length, h, hp1] at this
              subst hp0; simp [this] at hl
            rw [hval, f3 hfn, hp1, hp0]
            simp [evalL]
          · right
            have hp2 := perm_mid ρ pre (nonInts post) (foldInts op i (ints post)).1
            refine ⟨(arity_multi hm).2 (by omega), ?_, ?_⟩
            · rw [opVal_perm ρ op hm hp2, f2, hval]
            · intro ho w hw
              rcases List.mem_cons.1 (hp2.mem_iff.1 hw) with rfl | hw
              · by_cases hfn : ints post = []
                · rw [f0 hfn]; exact hb ho _ (hp.mem_iff.2 (by simp))
                · rw [f3 hfn]; exact bool_opVal ρ ho _
              · rw [evalL_append, List.mem_append] at hw
                refine hb ho w (hp.mem_iff.2 (List.mem_cons_of_mem _ ?_))
                rw [evalL_append]
                rcases hw with hw | hw
                · exact List.mem_append_left _ hw
                · exact List.mem_append_right _ (hpp.mem_iff.2 (List.mem_append_right _ hw))
        · simp only [List.length_append, List.length_cons] at hl
          have hp1 : post = [] := List.length_eq_zero_iff.1 (by omega)
          have hp0 : pre = [] := List.length_eq_zero_iff.1 (by omega)
          subst hp1 hp0
          exact ⟨g2, Or.inr ⟨har, rfl, hb⟩⟩
        · simp only [List.length_append, List.length_cons] at hl
          have hp1 : post = [] := List.length_eq_zero_iff.1 (by omega)
          have hp0 : pre = [] := List.length_eq_zero_iff.1 (by omega)
          subst hp1 hp0
          exact ⟨g2, Or.inr ⟨har, rfl, hb⟩⟩
        · simp only [List.length_append, List.length_cons] at hl
          have hcs : (post = []) ∨ (pre = [] ∧ ∃ x, post = [x]) := by
            by_cases hp : post = []
            · exact Or.inl hp
            · have : post.length ≠ 0 := fun h => hp (List.length_eq_zero_iff.1 h)
              exact Or.inr ⟨List.length_eq_zero_iff.1 (by omega), List.length_eq_one_iff.1 (by omega)⟩
          rcases hcs with rfl | ⟨rfl, x, rfl⟩
          · exact ⟨g2, Or.inr ⟨by simpa [nonInts] using har, rfl, hb⟩⟩
          · by_cases hx : x.isInt = true
            · obtain ⟨j, rfl⟩ : ∃ j, x = .int j := by cases x <;> simp_all [Item.isInt]
              have hj : Fits j := by simpa [GoodL, Good] using g3
              obtain ⟨c1, c2⟩ := call_ok ρ ⟨op, i, j⟩ (hc _ (by simp [ints, Item.int?, foldInts])) g2 hj hnum hbin
              refine ⟨c2, Or.inl ⟨rfl, rfl, ?_, c1.symm⟩⟩
              have := hbin; cases op <;> simp_all [unary, binary]
            · have hxi : ints [x] = [] := by cases x <;> simp_all [ints, Item.int?, Item.isInt]
              have hxn : nonInts [x] = [x] := by simp [nonInts, hx]
              rw [hxi, hxn]
              exact ⟨g2, Or.inr ⟨har, rfl, hb⟩⟩
      cases hsi : simpId regmul op pre (foldInts op i (ints post)).1 (nonInts post)
          (tailFault (List.drop (pre.length + 1 + (nonInts post).length) (pre ++ .int i :: post))) with
      | error e => rw [hsi] at hn; cases hn
      | ok res =>
        rw [hsi] at hn hsnd
        simp only at hn hsnd
        obtain ⟨H1, H2⟩ := H (fun c hc => hsnd c (List.mem_append_left _ hc))
        have hres := simpId_ok ρ regmul op pre (nonInts post) _ _ _ hnn' g1 H1 (nonInts_good _ _ g3) H2 res hsi
        exact levelTail_ok ρ regmul res.1 true _ _ res.2 _ hres (fun _ => rfl)
          (fun c hc => hsnd c (List.mem_append_right _ hc)) n hn

theorem levelOp_ok (ρ : Env) (regmul : Bool) (e : Node) (h : Good ρ e.item) :
    Ok ρ (e.eval ρ) (levelOp regmul e) := by
  obtain ⟨h1, h2, h3⟩ := stripTop_ok ρ e.item h
  obtain ⟨op, ts, h4⟩ := h3 e.op e.terms rfl
  simp only [levelOp, h4]
  rw [h4] at h1 h2
  rw [show e.eval ρ = eval ρ (.expr op ts) from h2.symm]
  exact levelNode_ok ρ regmul op ts h1

end Verif.Expr
