import Verif.Expr.Spec
import Verif.Intnum.Calc
/- Lemmas about operators, evaluation and constant folding. -/
set_option linter.unusedSimpArgs false
namespace Verif.Expr
open Verif.Intnum

theorem evalL_eq (ρ : Env) (ts : List Item) : evalL ρ ts = ts.map (eval ρ) := by
  induction ts with
  | nil => rfl
  | cons t ts ih => simp [evalL, ih]

theorem goodL_iff (ρ : Env) (ts : List Item) : GoodL ρ ts ↔ ∀ t ∈ ts, Good ρ t := by
  induction ts with
  | nil => simp [GoodL]
  | cons t ts ih => simp [GoodL, ih]

theorem goodL_append (ρ : Env) (a b : List Item) : GoodL ρ (a ++ b) ↔ GoodL ρ a ∧ GoodL ρ b := by
  simp only [goodL_iff, List.mem_append]
  constructor
  · intro h; exact ⟨fun t ht => h t (Or.inl ht), fun t ht => h t (Or.inr ht)⟩
  · rintro ⟨h1, h2⟩ t (ht | ht)
    · exact h1 t ht
    · exact h2 t ht

theorem word_ne (b : Bool) : (word b != 0) = b := by cases b <;> decide
theorem word_isBool (b : Bool) : IsBool (word b) := by cases b <;> simp [IsBool, word]
theorem word_of_isBool {w : Word} (h : IsBool w) : word (w != 0) = w := by
  rcases h with rfl | rfl <;> decide

/-- Multi-operand operators may be evaluated in groups. -/
theorem opVal_group (ρ : Env) (op : Op) (h : multi op = true) (l m : List Word) :
    opVal ρ op (opVal ρ op l :: m) = opVal ρ op (l ++ m) := by
  cases op <;> simp only [multi, Bool.false_eq_true] at h <;> simp only [opVal]
  · -- ADD
    induction l with
    | nil => simp
    | cons a l ih => simp only [List.foldr_cons, List.cons_append] at *; rw [← ih, BitVec.add_assoc]
  · induction l with
    | nil => simp
    | cons a l ih => simp only [List.foldr_cons, List.cons_append] at *; rw [← ih, BitVec.mul_assoc]
  · induction l with
    | nil => simp
    | cons a l ih => simp only [List.foldr_cons, List.cons_append] at *; rw [← ih, BitVec.or_assoc]
  · induction l with
    | nil =>
      simp only [List.foldr_cons, List.foldr_nil, List.nil_append]
      rw [show (-1 : Word) = BitVec.allOnes 256 by decide, BitVec.allOnes_and]
    | cons a l ih => simp only [List.foldr_cons, List.cons_append] at *; rw [← ih, BitVec.and_assoc]
  · induction l with
    | nil => simp
    | cons a l ih => simp only [List.foldr_cons, List.cons_append] at *; rw [← ih, BitVec.xor_assoc]
  · simp only [List.any_cons, List.any_append, word_ne]
  · simp only [List.all_cons, List.all_append, word_ne]
  · congr 1
    simp only [List.foldr_cons, word_ne]
    induction l with
    | nil => simp
    | cons a l ih => simp only [List.foldr_cons, List.cons_append] at *; rw [← ih, Bool.xor_assoc]

/-- The order of the operands does not matter for multi-operand operators. -/
theorem opVal_perm (ρ : Env) (op : Op) (h : multi op = true) {l m : List Word} (p : l.Perm m) :
    opVal ρ op l = opVal ρ op m := by
  cases op <;> simp only [multi, Bool.false_eq_true] at h <;> simp only [opVal]
  · induction p with
    | nil => rfl
    | cons x _ ih => simp only [List.foldr_cons, ih]
    | swap x y l => simp only [List.foldr_cons]; rw [← BitVec.add_assoc, BitVec.add_comm y x, BitVec.add_assoc]
    | trans _ _ h1 h2 => exact h1.trans h2
  · induction p with
    | nil => rfl
    | cons x _ ih => simp only [List.foldr_cons, ih]
    | swap x y l => simp only [List.foldr_cons]; rw [← BitVec.mul_assoc, BitVec.mul_comm y x, BitVec.mul_assoc]
    | trans _ _ h1 h2 => exact h1.trans h2
  · induction p with
    | nil => rfl
    | cons x _ ih => simp only [List.foldr_cons, ih]
    | swap x y l => simp only [List.foldr_cons]; rw [← BitVec.or_assoc, BitVec.or_comm y x, BitVec.or_assoc]
    | trans _ _ h1 h2 => exact h1.trans h2
  · induction p with
    | nil => rfl
    | cons x _ ih => simp only [List.foldr_cons, ih]
    | swap x y l => simp only [List.foldr_cons]; rw [← BitVec.and_assoc, BitVec.and_comm y x, BitVec.and_assoc]
    | trans _ _ h1 h2 => exact h1.trans h2
  · induction p with
    | nil => rfl
    | cons x _ ih => simp only [List.foldr_cons, ih]
    | swap x y l => simp only [List.foldr_cons]; rw [← BitVec.xor_assoc, BitVec.xor_comm y x, BitVec.xor_assoc]
    | trans _ _ h1 h2 => exact h1.trans h2
  · rw [p.any_eq]
  · rw [p.all_eq]
  · congr 1
    induction p with
    | nil => rfl
    | cons x _ ih => simp only [List.foldr_cons, ih]
    | swap x y l => simp only [List.foldr_cons]; rw [← Bool.xor_assoc, Bool.xor_comm (y != 0), Bool.xor_assoc]
    | trans _ _ h1 h2 => exact h1.trans h2

/-- The 256-bit word of a number. -/
abbrev bv (i : Intnum) : Word := BitVec.ofInt 256 (val i)

theorem bv_eq (i : Intnum) (h : Fits i) : bv i = tobv i := by
  rw [bv, ← tobv_toInt i h, BitVec.ofInt_toInt]

theorem bv_toInt (i : Intnum) : (bv i).toInt = val i := by
  rw [bv, Verif.Intnum.ofInt_toInt]
  exact wrap_of_range _ (val_range i).1 (val_range i).2

theorem bv_frombv (v : Word) : bv (frombv v) = v := by
  rw [bv, (frombv_spec v).1, BitVec.ofInt_toInt]

theorem bv_inj {w : Word} {z : Int} (h1 : -(2 ^ 255) ≤ z) (h2 : z < 2 ^ 255) (h : w.toInt = z) :
    BitVec.ofInt 256 z = w := by rw [← h, BitVec.ofInt_toInt]

/-- Binary operators: OpRel determines the word. -/
theorem opRel_word (ρ : Env) (op : Op) (a b : Word) (r : Intnum) (hop : Numeric op)
    (h : OpRel op a.toInt b.toInt (val r))
    (hu : op ≠ .IDENT ∧ op ≠ .NEG ∧ op ≠ .NOT ∧ op ≠ .LNOT) : bv r = opVal ρ op [a, b] := by
  have key : val r = (opVal ρ op [a, b]).toInt → bv r = opVal ρ op [a, b] := by
    intro h; rw [bv, h, BitVec.ofInt_toInt]
  have kbit : ∀ w : Word, (∀ i, i < 256 → Verif.Bitvect.ibit (val r) i = w.getLsbD i) → bv r = w := by
    intro w hw
    apply BitVec.eq_of_getLsbD_eq
    intro i hi
    rw [Verif.Bitvect.getLsbD_eq_ibit _ _ hi, bv_toInt, hw i hi]
  have kb : ∀ c : Bool, val r = ofBool c → bv r = word c := by
    intro c hc; rw [bv, hc]; cases c <;> decide
  have z0 : ∀ x : Word, (x != 0) = decide (x.toInt ≠ 0) := by
    intro x
    by_cases hx : x = 0
    · subst hx; decide
    · have : x.toInt ≠ 0 := fun hh => hx (BitVec.toInt_inj.1 (by simpa using hh))
      rw [decide_eq_true this, bne_iff_ne]; exact hx
  have z1 : ∀ x : Word, (x == 0) = decide (x.toInt = 0) := by
    intro x
    have := z0 x
    simp only [bne] at this
    by_cases hx : x.toInt = 0 <;> simp [hx] at this ⊢ <;> exact this
  cases op <;> simp only [OpRel] at h
  case IDENT => exact absurd rfl hu.1
  case ADD => apply key; rw [h]; simp only [opVal, List.foldr]; rw [show b + 0 = b by simp, BitVec.toInt_add]; rfl
  case SUB => apply key; rw [h]; simp only [opVal]; rw [BitVec.toInt_sub]; rfl
  case MUL => apply key; rw [h]; simp only [opVal, List.foldr]; rw [show b * 1 = b by simp, BitVec.toInt_mul]; rfl
  case DIV => apply key; rw [h]; simp only [opVal]; rw [BitVec.toInt_sdiv]; rfl
  case SIGNDIV => apply key; rw [h]; simp only [opVal]; rw [BitVec.toInt_sdiv]; rfl
  case MOD => apply key; rw [h]; simp only [opVal]; rw [BitVec.toInt_srem]
  case SIGNMOD => apply key; rw [h]; simp only [opVal]; rw [BitVec.toInt_srem]
  case NEG => exact absurd rfl hu.2.1
  case NOT => exact absurd rfl hu.2.2.1
  case OR =>
    apply kbit; intro i hi; rw [h]; simp only [opVal, List.foldr]
    rw [show b ||| 0 = b by simp, BitVec.getLsbD_or, Verif.Bitvect.getLsbD_eq_ibit a i hi, Verif.Bitvect.getLsbD_eq_ibit b i hi]
  case AND =>
    apply kbit; intro i hi; rw [h]; simp only [opVal, List.foldr]
    rw [show (-1 : Word) = BitVec.allOnes 256 by decide, BitVec.and_allOnes, BitVec.getLsbD_and, Verif.Bitvect.getLsbD_eq_ibit a i hi, Verif.Bitvect.getLsbD_eq_ibit b i hi]
  case XOR =>
    apply kbit; intro i hi; rw [h]; simp only [opVal, List.foldr]
    rw [show b ^^^ 0 = b by simp, BitVec.getLsbD_xor, Verif.Bitvect.getLsbD_eq_ibit a i hi, Verif.Bitvect.getLsbD_eq_ibit b i hi]
  case XNOR =>
    apply kbit; intro i hi; rw [h]; simp only [opVal]
    rw [BitVec.getLsbD_not, BitVec.getLsbD_xor, Verif.Bitvect.getLsbD_eq_ibit a i hi, Verif.Bitvect.getLsbD_eq_ibit b i hi]
    simp [hi]
  case NOR =>
    apply kbit; intro i hi; rw [h]; simp only [opVal]
    rw [BitVec.getLsbD_not, BitVec.getLsbD_or, Verif.Bitvect.getLsbD_eq_ibit a i hi, Verif.Bitvect.getLsbD_eq_ibit b i hi]
    simp [hi]
  case SHL =>
    rw [bv, h]; simp only [opVal]
    by_cases hb : b.toInt < 0
    · rw [if_pos hb, if_pos hb]; rfl
    · rw [if_neg hb, if_neg hb]
      have hbn : b.toInt.toNat = b.toNat := by
        have := Verif.Bitvect.toInt_eq_toNat_sub b
        cases hm : b.msb
        · rw [hm] at this; simp at this; omega
        · exact absurd ((Verif.Bitvect.toInt_neg_iff b).1 hm) hb
      rw [hbn, wrap, show (2 ^ 256 : Nat) = 2 ^ 256 from rfl, ← BitVec.toInt_ofInt, BitVec.ofInt_toInt,
        ← Verif.Bitvect.moveLeft_eq]
      apply BitVec.eq_of_toNat_eq
      rw [BitVec.toNat_shiftLeft, Verif.Bitvect.moveLeft_toNat, Nat.shiftLeft_eq]
  case SHR =>
    apply key; rw [h]; simp only [opVal]
    by_cases hb : b.toInt < 0
    · rw [if_pos hb, if_pos hb]; rfl
    · rw [if_neg hb, if_neg hb]
      have hbn : b.toInt.toNat = b.toNat := by
        have := Verif.Bitvect.toInt_eq_toNat_sub b
        cases hm : b.msb
        · rw [hm] at this; simp at this; omega
        · exact absurd ((Verif.Bitvect.toInt_neg_iff b).1 hm) hb
      rw [hbn, BitVec.toInt_sshiftRight, Int.shiftRight_eq_div_pow, Int.natCast_pow]; rfl
  case LOR =>
    rw [kb _ h]; simp only [opVal, List.any_cons, List.any_nil, z0, Bool.or_false]
  case LAND =>
    rw [kb _ h]; simp only [opVal, List.all_cons, List.all_nil, z0, Bool.and_true]
  case LNOT => exact absurd rfl hu.2.2.2
  case LXOR =>
    rw [kb _ h]; simp only [opVal, List.foldr, z0]
    generalize decide (BitVec.toInt a ≠ 0) = x
    generalize decide (BitVec.toInt b ≠ 0) = y
    revert x y; decide
  case LXNOR => rw [kb _ h]; simp only [opVal, z0]
  case LNOR => rw [kb _ h]; simp only [opVal, z1]
  case LT => exact kb _ h
  case GT => exact kb _ h
  case EQ => exact kb _ h
  case LE => exact kb _ h
  case GE => exact kb _ h
  case NE => have := kb _ h; simpa [opVal] using this

/-- Operators with exactly two or with at least two operands. -/
def binary (op : Op) : Prop := op ≠ .IDENT ∧ op ≠ .NEG ∧ op ≠ .NOT ∧ op ≠ .LNOT

theorem call_ok (ρ : Env) (c : Call) (h : c.Sound) (ha : Fits c.acc) (hb : Fits c.operand)
    (hn : Numeric c.op) (hu : binary c.op) :
    bv c.result = opVal ρ c.op [bv c.acc, bv c.operand] ∧ Fits c.result := by
  obtain ⟨r, h1, h2, h3⟩ := intCalc_value 0#256 c.op c.acc c.operand ha hb hn h.2.1 h.1 h.2.2
  have e : c.result = r := by simp [Call.result, h1]
  rw [e]
  refine ⟨opRel_word ρ c.op _ _ r hn ?_ hu, h3.fits⟩
  rw [bv_toInt, bv_toInt]; exact h2

theorem calcUnary_ok (ρ : Env) (op : Op) (i : Intnum) (hi : Fits i) (hu : op = .NEG ∨ op = .NOT ∨ op = .LNOT) :
    bv (calcUnary op i) = opVal ρ op [bv i] ∧ Fits (calcUnary op i) := by
  obtain ⟨r, h1, h2, h3⟩ := intCalc_unary 0#256 op i hi hu
  have e : calcUnary op i = r := by simp [calcUnary, h1]
  rw [e]
  refine ⟨?_, h3.fits⟩
  have hr := h2 0
  rcases hu with rfl | rfl | rfl <;> simp only [OpRel] at hr <;> simp only [opVal]
  · rw [bv, hr, wrap, show (2 ^ 256 : Nat) = 2 ^ 256 from rfl, ← BitVec.toInt_ofInt, BitVec.ofInt_toInt, BitVec.ofInt_neg]
  · have : val r = (~~~(bv i)).toInt := by rw [Verif.Intnum.toInt_not', bv_toInt, hr]
    rw [bv, this, BitVec.ofInt_toInt]
  · rw [bv, hr]
    by_cases h0 : val i = 0
    · rw [show bv i = 0 by rw [bv, h0]; rfl, h0]; decide
    · have : bv i ≠ 0 := by
        intro hh
        have := congrArg BitVec.toInt hh
        rw [bv_toInt] at this
        exact h0 (by simpa using this)
      have e2 : (bv i == (0 : Word)) = false := by
        cases hb : (bv i == (0 : Word))
        · rfl
        · exact absurd (beq_iff_eq.1 hb) this
      rw [e2, show decide (val i = 0) = false by simp [h0]]; decide

theorem multi_numeric {op : Op} (h : multi op = true) : Numeric op ∧ binary op := by
  cases op <;> simp_all [multi, Numeric, binary]

theorem multi_nonnum {op : Op} (h : multi op = true) : nonnum op = false := by
  cases op <;> simp_all [multi, nonnum]

/-- Folding integers one after another is the same as keeping them all. -/
theorem foldInts_ok (ρ : Env) (op : Op) (hm : multi op = true) (bs : List Intnum) :
    ∀ a, Fits a → (∀ b ∈ bs, Fits b) → (∀ c ∈ (foldInts op a bs).2, c.Sound) →
      Fits (foldInts op a bs).1 ∧
      (∀ m, opVal ρ op (bv (foldInts op a bs).1 :: m) = opVal ρ op (bv a :: bs.map bv ++ m)) ∧
      (bs ≠ [] → bv (foldInts op a bs).1 = opVal ρ op (bv a :: bs.map bv)) := by
  induction bs with
  | nil => intro a ha _ _; exact ⟨ha, fun m => rfl, fun h => absurd rfl h⟩
  | cons b bs ih =>
    intro a ha hb hs
    simp only [foldInts] at *
    obtain ⟨c1, c2⟩ := call_ok ρ ⟨op, a, b⟩ (hs _ (by simp)) ha (hb b (by simp)) (multi_numeric hm).1 (multi_numeric hm).2
    obtain ⟨i1, i2, i3⟩ := ih (Call.result ⟨op, a, b⟩) c2 (fun x hx => hb x (by simp [hx]))
      (fun c hc => hs c (by simp [hc]))
    have g : ∀ m, opVal ρ op (bv (foldInts op (Call.result ⟨op, a, b⟩) bs).1 :: m) =
        opVal ρ op (bv a :: (b :: bs).map bv ++ m) := by
      intro m
      rw [i2 m, c1, List.cons_append, opVal_group ρ op hm]
      rfl
    refine ⟨i1, g, fun _ => ?_⟩
    by_cases hbs : bs = []
    · subst hbs; exact c1
    · rw [i3 hbs, c1, opVal_group ρ op hm]; rfl

theorem splitInt_some {ts pre post : List Item} {i : Intnum} (h : splitInt ts = some (pre, i, post)) :
    ts = pre ++ .int i :: post ∧ ∀ t ∈ pre, t.isInt = false := by
  induction ts generalizing pre with
  | nil => simp [splitInt] at h
  | cons t ts ih =>
    cases t
    case int j =>
      simp only [splitInt, Option.some.injEq, Prod.mk.injEq] at h
      obtain ⟨rfl, rfl, rfl⟩ := h
      simp
    all_goals
      simp only [splitInt, Option.map_eq_some_iff] at h
      obtain ⟨⟨p, j, q⟩, h1, h2⟩ := h
      simp only [Prod.mk.injEq] at h2
      obtain ⟨rfl, rfl, rfl⟩ := h2
      obtain ⟨e1, e2⟩ := ih h1
      refine ⟨by rw [e1]; rfl, ?_⟩
      intro t ht
      rcases List.mem_cons.1 ht with rfl | ht
      · rfl
      · exact e2 t ht

theorem splitInt_none {ts : List Item} (h : splitInt ts = Option.none) : ∀ t ∈ ts, t.isInt = false := by
  induction ts with
  | nil => simp
  | cons t ts ih =>
    cases t
    case int j => simp [splitInt] at h
    all_goals
      simp only [splitInt, Option.map_eq_none_iff] at h
      intro t ht
      rcases List.mem_cons.1 ht with rfl | ht
      · rfl
      · exact ih h t ht

/-- Separating the integers from the other terms is a permutation. -/
theorem ints_perm (ρ : Env) (ts : List Item) :
    (evalL ρ ts).Perm ((ints ts).map bv ++ evalL ρ (nonInts ts)) := by
  induction ts with
  | nil => exact List.Perm.refl _
  | cons t ts ih =>
    cases t
    case int i => simpa [ints, nonInts, Item.int?, Item.isInt, evalL, eval] using ih
    all_goals
      simp only [ints, nonInts, Item.int?, Item.isInt, List.filterMap_cons, List.filter_cons, evalL, Bool.not_false, if_true] at *
      exact (List.Perm.cons _ ih).trans List.perm_middle.symm

theorem ints_good (ρ : Env) (ts : List Item) (h : GoodL ρ ts) : ∀ i ∈ ints ts, Fits i := by
  intro i hi
  obtain ⟨t, ht, he⟩ := List.mem_filterMap.1 hi
  have := (goodL_iff ρ ts).1 h t ht
  cases t <;> simp [Item.int?] at he
  subst he; simpa [Good] using this

theorem nonInts_good (ρ : Env) (ts : List Item) (h : GoodL ρ ts) : GoodL ρ (nonInts ts) := by
  rw [goodL_iff] at *
  intro t ht
  exact h t (List.mem_filter.1 ht).1

theorem evalL_append (ρ : Env) (a b : List Item) : evalL ρ (a ++ b) = evalL ρ a ++ evalL ρ b := by
  simp [evalL_eq]

theorem evalL_length (ρ : Env) (a : List Item) : (evalL ρ a).length = a.length := by simp [evalL_eq]

end Verif.Expr
