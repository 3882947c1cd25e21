import Verif.Expr.Level
/- Simplifying a whole tree preserves the value. -/
set_option linter.unusedSimpArgs false
namespace Verif.Expr
open Verif.Intnum

theorem minusOne_good (ρ : Env) : Good ρ minusOne := by
  show Fits (createInt (-1#64))
  simp only [createInt, Fits]; decide
theorem minusOne_eval (ρ : Env) : eval ρ minusOne = -1 := rfl

theorem mul_neg_one (x : Word) : x * (-1) = -x := by
  rw [show (-1 : Word) = -(1 : Word) by decide, BitVec.mul_neg]; simp
theorem neg_one_mul' (x : Word) : (-1) * x = -x := by
  rw [BitVec.mul_comm, mul_neg_one]

mutual
theorem good_noFlt (ρ : Env) (t : Item) (h : Good ρ t) : hasFlt t = false := by
  match t with
  | .none => rfl
  | .reg _ => rfl
  | .int _ => rfl
  | .subst _ => rfl
  | .flt _ _ => exact absurd h (by simp [Good])
  | .sym _ => rfl
  | .precbc _ => rfl
  | .expr op ts => simpa only [hasFlt] using good_noFltL ρ ts h.2.2
theorem good_noFltL (ρ : Env) (ts : List Item) (h : GoodL ρ ts) : hasFltL ts = false := by
  match ts, h with
  | [], _ => rfl
  | t :: ts, h => simp only [hasFltL, good_noFlt ρ t h.1, good_noFltL ρ ts h.2, Bool.or_self]
end

/-- -1 * t. -/
theorem negLeaf_ok (ρ : Env) (t : Item) (h : Good ρ t) :
    Good ρ (.expr .MUL [minusOne, t]) ∧ eval ρ (.expr .MUL [minusOne, t]) = -eval ρ t := by
  refine ⟨⟨by simp [Arity], by simp, minusOne_good ρ, h, trivial⟩, ?_⟩
  simp only [eval, evalL, opVal, List.foldr, minusOne_eval]
  rw [neg_one_mul']; congr 1; simp

theorem negLeaf_ok' (ρ : Env) (t : Item) (h : Good ρ t) :
    Good ρ (.expr .MUL [t, minusOne]) ∧ eval ρ (.expr .MUL [t, minusOne]) = -eval ρ t := by
  refine ⟨⟨by simp [Arity], by simp, h, minusOne_good ρ, trivial⟩, ?_⟩
  simp only [eval, evalL, opVal, List.foldr, minusOne_eval]
  rw [show (-1 : Word) * 1 = -1 by decide, mul_neg_one]

/-- Negating the term of an IDENT. -/
theorem negIdent_ok (ρ : Env) (t : Item) (h : Good ρ t) :
    Good ρ (negIdent [t]) ∧ eval ρ (negIdent [t]) = -eval ρ t := by
  cases t
  case flt => exact absurd h (by simp [Good])
  case none => exact absurd h (by simp [Good])
  case int i =>
    have hi : Fits i := by simpa [Good] using h
    obtain ⟨c1, c2⟩ := calcUnary_ok ρ .NEG i hi (Or.inl rfl)
    simp only [negIdent]
    refine ⟨⟨rfl, by simp, by simpa [Good] using c2, trivial⟩, ?_⟩
    simp only [eval, evalL, opVal] at *
    exact c1
  case expr op us =>
    have := good_noFltL ρ us h.2.2
    simp only [negIdent, this, Bool.false_eq_true, if_false]
    exact negLeaf_ok' ρ _ h
  all_goals
    simp only [negIdent]
    exact negLeaf_ok' ρ _ h

theorem sum_neg (l : List Word) : (l.map (fun x => -x)).foldr (· + ·) 0 = -(l.foldr (· + ·) (0 : Word)) := by
  induction l with
  | nil => simp
  | cons a l ih =>
    simp only [List.map_cons, List.foldr_cons, ih]
    rw [BitVec.neg_add, BitVec.sub_eq_add_neg]

mutual
theorem neg_ok (ρ : Env) (t : Item) (h : Good ρ t) : Good ρ (neg t) ∧ eval ρ (neg t) = -eval ρ t := by
  match t with
  | .none => exact absurd h (by simp [Good])
  | .reg _ => exact negLeaf_ok ρ _ h
  | .int _ => exact negLeaf_ok ρ _ h
  | .subst _ => exact negLeaf_ok ρ _ h
  | .flt _ _ => exact absurd h (by simp [Good])
  | .sym _ => exact negLeaf_ok ρ _ h
  | .precbc _ => exact negLeaf_ok ρ _ h
  | .expr op ts =>
    by_cases h1 : op = .ADD
    · subst h1
      obtain ⟨a, b, c⟩ := negL_ok ρ ts h.2.2
      simp only [neg]
      refine ⟨⟨?_, by simp, a⟩, ?_⟩
      · rw [c]; exact h.1
      · simp only [eval, opVal, b, sum_neg]
    · by_cases h2 : op = .SUB
      · subst h2
        simp only [neg]
        have hl : ts.length = 2 := h.1
        match ts, h, hl with
        | [x, y], h, _ =>
          have := neg_ok ρ x h.2.2.1
          refine ⟨⟨by simp [Arity, negHead], by simp, this.1, h.2.2.2.1, trivial⟩, ?_⟩
          simp only [negHead, eval, evalL, opVal, List.foldr, this.2]
          rw [BitVec.neg_sub, BitVec.add_comm]
          simp [BitVec.sub_eq_add_neg]
          rw [BitVec.add_comm]
      · by_cases h3 : op = .NEG
        · subst h3
          have hl : ts.length = 1 := h.1
          match ts, h, hl with
          | [x], h, _ =>
            simp only [neg]
            refine ⟨⟨rfl, by simp, h.2.2⟩, ?_⟩
            simp only [eval, evalL, opVal]; simp
        · by_cases h4 : op = .IDENT
          · subst h4
            have hl : ts.length = 1 := h.1
            match ts, h, hl with
            | [x], h, _ =>
              simp only [neg]
              exact negIdent_ok ρ x h.2.2.1
          · have : neg (.expr op ts) = .expr .MUL [minusOne, .expr op ts] := by
              cases op <;> first | contradiction | rfl
            rw [this]
            exact negLeaf_ok ρ _ h
theorem negL_ok (ρ : Env) (ts : List Item) (h : GoodL ρ ts) :
    GoodL ρ (negL ts) ∧ evalL ρ (negL ts) = (evalL ρ ts).map (fun x => -x) ∧ (negL ts).length = ts.length := by
  match ts, h with
  | [], _ => exact ⟨trivial, rfl, rfl⟩
  | t :: ts, h =>
    obtain ⟨a, b⟩ := neg_ok ρ t h.1
    obtain ⟨c, d, e⟩ := negL_ok ρ ts h.2
    exact ⟨⟨a, c⟩, by simp only [negL, evalL, b, d, List.map_cons], by simp only [negL, List.length_cons, e]⟩
end

theorem xformNeg_ok (ρ : Env) (op : Op) (ts : List Item) (h : Good ρ (.expr op ts)) :
    ∃ op' ts', xformNeg op ts = .expr op' ts' ∧ Good ρ (.expr op' ts') ∧
      eval ρ (.expr op' ts') = eval ρ (.expr op ts) := by
  by_cases h1 : op = .NEG
  · subst h1
    have hl : ts.length = 1 := h.1
    match ts, h, hl with
    | [x], h, _ =>
      have := negIdent_ok ρ x h.2.2.1
      have hex : ∃ op' ts', negIdent [x] = .expr op' ts' := by
        cases x <;> simp only [negIdent] <;> first | exact ⟨_, _, rfl⟩ | skip
        split
        · split <;> exact ⟨_, _, rfl⟩
        · exact ⟨_, _, rfl⟩
      obtain ⟨op', ts', e⟩ := hex
      refine ⟨op', ts', e, e ▸ this.1, ?_⟩
      rw [← e, this.2]; rfl
  · by_cases h2 : op = .SUB
    · subst h2
      have hl : ts.length = 2 := h.1
      match ts, h, hl with
      | [x, y], h, _ =>
        have := neg_ok ρ y h.2.2.2.1
        refine ⟨_, _, rfl, ⟨by simp [Arity], by simp, h.2.2.1, this.1, trivial⟩, ?_⟩
        simp only [eval, evalL, opVal, List.foldr, this.2]
        simp [BitVec.sub_eq_add_neg]
    · refine ⟨op, ts, ?_, h, rfl⟩
      cases op <;> first | contradiction | rfl

theorem segSimp_ok (ρ : Env) (hseg : ∀ a b, ρ.seg (ρ.segoff a b) = a) (op : Op) (ts : List Item)
    (h : Good ρ (.expr op ts)) :
    Good ρ (segSimp op ts).item ∧ (segSimp op ts).eval ρ = eval ρ (.expr op ts) := by
  unfold segSimp
  split
  · rename_i a us ts
    have hl : ts.length = 0 := by have := h.1; simpa [Arity] using this
    have : ts = [] := List.length_eq_zero_iff.1 hl
    subst this
    have hg : Good ρ (.expr .SEGOFF (a :: us)) := h.2.2.1
    have hl2 : us.length = 1 := by have := hg.1; simpa [Arity] using this
    obtain ⟨b, rfl⟩ := List.length_eq_one_iff.1 hl2
    refine ⟨⟨rfl, by simp, ⟨rfl, by simp, hg.2.2.1, trivial⟩, trivial⟩, ?_⟩
    simp only [Node.eval, Node.item, eval, evalL, opVal, hseg]
  · exact ⟨h, rfl⟩

/-- A computation on term lists that preserves the values. -/
def OkL (ρ : Env) (vs : List Word) (m : M (List Item)) : Prop :=
  (∀ c ∈ m.log, c.Sound) → ∀ ts, m.out = .ok ts → GoodL ρ ts ∧ evalL ρ ts = vs

theorem bind_out {α β : Type} {x : M α} {f : α → M β} {b : β} (h : (x.bind f).out = .ok b) :
    ∃ a, x.out = .ok a ∧ (f a).out = .ok b ∧ (x.bind f).log = x.log ++ (f a).log := by
  unfold M.bind at h ⊢
  cases hx : x.out with
  | error e => rw [hx] at h; simp at h
  | ok a => rw [hx] at h; exact ⟨a, rfl, h, rfl⟩

theorem levelKids_ok (ρ : Env) (f : Node → M Node) (hf : ∀ n : Node, Good ρ n.item → Ok ρ (n.eval ρ) (f n))
    (ts : List Item) (h : GoodL ρ ts) : OkL ρ (evalL ρ ts) (levelKids f ts) := by
  induction ts with
  | nil => intro _ ts hts; simp only [levelKids, M.pure, Except.ok.injEq] at hts; subst hts; exact ⟨h, rfl⟩
  | cons t ts ih =>
    have leaf : levelKids f (t :: ts) = (levelKids f ts).bind (fun r => M.pure (t :: r)) →
        OkL ρ (evalL ρ (t :: ts)) (levelKids f (t :: ts)) := by
      intro he
      rw [he]
      intro hs rs hrs
      obtain ⟨a, h1, h2, h3⟩ := bind_out hrs
      rw [h3] at hs
      obtain ⟨g1, g2⟩ := ih h.2 (fun c hc => hs c (List.mem_append_left _ hc)) a h1
      simp only [M.pure, Except.ok.injEq] at h2
      subst h2
      exact ⟨⟨h.1, g1⟩, by simp only [evalL, g2]⟩
    cases t
    case expr op us =>
      simp only [levelKids]
      intro hs rs hrs
      obtain ⟨a, h1, h2, h3⟩ := bind_out hrs
      obtain ⟨b, h4, h5, h6⟩ := bind_out h2
      rw [h3, h6] at hs
      obtain ⟨g1, g2⟩ := hf ⟨op, us⟩ h.1 (fun c hc => hs c (List.mem_append_left _ hc)) a h1
      obtain ⟨g3, g4⟩ := ih h.2 (fun c hc => hs c (List.mem_append_right _ (List.mem_append_left _ hc))) b h4
      simp only [M.pure, Except.ok.injEq] at h5
      subst h5
      refine ⟨⟨g1, g3⟩, ?_⟩
      simp only [evalL, g4]
      congr 1
    all_goals exact leaf rfl

theorem levelTree_ok (ρ : Env) (regmul : Bool) (post : Node → M Node)
    (hseg : ∀ a b, ρ.seg (ρ.segoff a b) = a)
    (hp : ∀ n : Node, Good ρ n.item → Ok ρ (n.eval ρ) (post n)) (k : Nat) :
    ∀ e : Node, Good ρ e.item → Ok ρ (e.eval ρ) (levelTree regmul post k e) := by
  induction k with
  | zero => intro e _ _ n hn; simp [levelTree] at hn
  | succ k ih =>
    intro e he
    obtain ⟨op, ts, h1, h2, h3⟩ := xformNeg_ok ρ e.op e.terms he
    simp only [levelTree, h1]
    intro hs n hn
    obtain ⟨us, k1, k2, k3⟩ := bind_out hn
    obtain ⟨m, k4, k5, k6⟩ := bind_out k2
    rw [k3, k6] at hs
    obtain ⟨g1, g2⟩ := levelKids_ok ρ _ ih ts h2.2.2 (fun c hc => hs c (List.mem_append_left _ hc)) us k1
    have hgood : Good ρ (.expr op us) := by
      refine ⟨?_, ?_, g1⟩
      · have : us.length = ts.length := by rw [← evalL_length ρ, g2, evalL_length]
        rw [this]; exact h2.1
      · rw [g2]; exact h2.2.1
    have hval : eval ρ (.expr op us) = e.eval ρ := by
      rw [show e.eval ρ = eval ρ (.expr op ts) from h3.symm]; simp only [eval, g2]
    obtain ⟨s1, s2⟩ := segSimp_ok ρ hseg op us hgood
    obtain ⟨l1, l2⟩ := levelOp_ok ρ regmul _ s1
      (fun c hc => hs c (List.mem_append_right _ (List.mem_append_left _ hc))) m k4
    obtain ⟨p1, p2⟩ := hp m l1
      (fun c hc => hs c (List.mem_append_right _ (List.mem_append_right _ hc))) n k5
    exact ⟨p1, by rw [p2, l2, s2, hval]⟩

theorem levelPlain_ok (ρ : Env) (regmul : Bool) (hseg : ∀ a b, ρ.seg (ρ.segoff a b) = a) (e : Node)
    (h : Good ρ e.item) : Ok ρ (e.eval ρ) (levelPlain regmul e) :=
  levelTree_ok ρ regmul M.pure hseg (fun n hn => pure_ok ρ _ n ⟨hn, rfl⟩) _ e h

/-! Distances -/

theorem createUint_fits (x : BitVec 64) (h : x.toNat < 2 ^ 32) :
    Fits (createUint x) ∧ bv (createUint x) = BitVec.ofNat 256 x.toNat := by
  have h1 : ¬ x.toNat > 2 ^ 63 - 1 := by omega
  have h2 : x.toInt = x.toNat := Verif.Intnum.toInt_small x (by omega)
  simp only [createUint, if_neg h1]
  refine ⟨?_, ?_⟩
  · simp only [Fits, h2]; omega
  · simp only [bv, val, h2]
    exact BitVec.ofInt_natCast 256 x.toNat

theorem calcBcDist_ok (ρ : Env) (c : Ctx) (base : Nat → Word) (ag : ρ.Agrees c base) (p q : Nat) (i : Intnum)
    (h : calcBcDist c p q = some i) : Fits i ∧ bv i = ρ.precbc q - ρ.precbc p := by
  simp only [calcBcDist] at h
  split at h
  · cases h
  · rename_i hs
    have hs' : c.sect p = c.sect q := Classical.not_not.1 hs
    rw [ag.precbc, ag.precbc, hs']
    have sp := ag.small p
    have sq := ag.small q
    have e : ∀ x y z : Word, (x + y) - (x + z) = y - z := by
      intro x y z; grind
    rw [e]
    split at h
    · rename_i hlt
      cases h
      have hlt' : (c.next q).toNat < (c.next p).toNat := by simpa [BitVec.ult] using hlt
      have hn : (c.next p - c.next q).toNat = (c.next p).toNat - (c.next q).toNat := by
        rw [BitVec.toNat_sub]; omega
      obtain ⟨f1, f2⟩ := createUint_fits (c.next p - c.next q) (by omega)
      obtain ⟨u1, u2⟩ := calcUnary_ok ρ .NEG _ f1 (Or.inl rfl)
      refine ⟨u2, ?_⟩
      rw [u1]
      simp only [opVal, f2, hn]
      have e2 : BitVec.ofNat 256 (c.next p).toNat =
          BitVec.ofNat 256 ((c.next p).toNat - (c.next q).toNat) + BitVec.ofNat 256 (c.next q).toNat := by
        rw [← BitVec.ofNat_add]; congr 1; omega
      rw [e2]; grind
    · rename_i hlt
      cases h
      have hlt' : (c.next p).toNat ≤ (c.next q).toNat := by simpa [BitVec.ult] using hlt
      have hn : (c.next q - c.next p).toNat = (c.next q).toNat - (c.next p).toNat := by
        rw [BitVec.toNat_sub]; omega
      obtain ⟨f1, f2⟩ := createUint_fits (c.next q - c.next p) (by omega)
      refine ⟨f1, ?_⟩
      rw [f2, hn]
      have e2 : BitVec.ofNat 256 (c.next q).toNat =
          BitVec.ofNat 256 ((c.next q).toNat - (c.next p).toNat) + BitVec.ofNat 256 (c.next p).toNat := by
        rw [← BitVec.ofNat_add]; congr 1; omega
      rw [e2]; grind

/-- What a callback of `expr_xform_bc_dist_base` must produce. -/
def CbOk (ρ : Env) (cb : Nat → Nat → Option Item) : Prop :=
  ∀ p q t, cb p q = some t → Good ρ t ∧ eval ρ t = ρ.precbc q - ρ.precbc p

theorem distInt_ok (ρ : Env) (c : Ctx) (base : Nat → Word) (ag : ρ.Agrees c base) : CbOk ρ (distInt c) := by
  intro p q t h
  simp only [distInt, Option.map_eq_some_iff] at h
  obtain ⟨i, h1, rfl⟩ := h
  obtain ⟨a, b⟩ := calcBcDist_ok ρ c base ag p q i h1
  exact ⟨by simpa [Good] using a, b⟩

theorem plusLabel_ok (ρ : Env) (c : Ctx) (base : Nat → Word) (ag : ρ.Agrees c base) (t : Item) (q : Nat)
    (h : plusLabel c t = some q) : eval ρ t = ρ.precbc q := by
  cases t <;> simp [plusLabel] at h
  · exact ag.label _ _ h
  · subst h; rfl

theorem minusLabel_ok (ρ : Env) (c : Ctx) (base : Nat → Word) (ag : ρ.Agrees c base) (t : Item) (p : Nat)
    (h : minusLabel c t = some p) : eval ρ t = -ρ.precbc p ∧ plusLabel c t = Option.none ∧ t.isNone = false := by
  have e1 : ∀ x : Word, (-1) * (x * 1) = -x := by intro x; grind
  have e2 : ∀ x : Word, x * (-1 * 1) = -x := by intro x; grind
  unfold minusLabel at h
  split at h
  · split at h
    · rename_i hn
      refine ⟨?_, rfl, rfl⟩
      simp only [eval, evalL, opVal, List.foldr, ag.label _ _ h]
      rw [show BitVec.ofInt 256 (val _) = (-1 : Word) from isNeg1_bv hn, e1]
    · cases h
  · split at h
    · rename_i hn
      cases h
      refine ⟨?_, rfl, rfl⟩
      simp only [eval, evalL, opVal, List.foldr]
      rw [show BitVec.ofInt 256 (val _) = (-1 : Word) from isNeg1_bv hn, e1]
    · cases h
  · split at h
    · rename_i hn
      refine ⟨?_, rfl, rfl⟩
      simp only [eval, evalL, opVal, List.foldr, ag.label _ _ h]
      rw [show BitVec.ofInt 256 (val _) = (-1 : Word) from isNeg1_bv hn, e2]
    · cases h
  · split at h
    · rename_i hn
      cases h
      refine ⟨?_, rfl, rfl⟩
      simp only [eval, evalL, opVal, List.foldr]
      rw [show BitVec.ofInt 256 (val _) = (-1 : Word) from isNeg1_bv hn, e2]
    · cases h
  · cases h

theorem replaceFirst_some (c : Ctx) (cb : Nat → Nat → Option Item) (p : Nat) (ts ts' : List Item)
    (h : replaceFirst c cb p ts = some ts') :
    ∃ j u t q, ts[j]? = some u ∧ plusLabel c u = some q ∧ cb p q = some t ∧ ts' = ts.set j t ∧
      c.sect q = c.sect p := by
  induction ts generalizing ts' with
  | nil => simp [replaceFirst] at h
  | cons u ts ih =>
    simp only [replaceFirst] at h
    split at h
    · rename_i t ht
      cases h
      rw [Option.bind_eq_some_iff] at ht
      obtain ⟨q, h1, h2⟩ := ht
      split at h2
      · rename_i hse
        exact ⟨0, u, t, q, rfl, h1, h2, rfl, hse⟩
      · cases h2
    · rw [Option.map_eq_some_iff] at h
      obtain ⟨r, h1, rfl⟩ := h
      obtain ⟨j, v, t, q, a, b, d, e, f⟩ := ih r h1
      exact ⟨j + 1, v, t, q, by simpa using a, b, d, by rw [e]; rfl, f⟩

/-- Sum of the values. -/
def sumE (ρ : Env) (ts : List Item) : Word := (evalL ρ ts).foldr (· + ·) 0

theorem sumE_set (ρ : Env) (ts : List Item) (j : Nat) (u t : Item) (h : ts[j]? = some u) :
    sumE ρ (ts.set j t) = sumE ρ ts - eval ρ u + eval ρ t := by
  induction ts generalizing j with
  | nil => simp at h
  | cons a ts ih =>
    cases j with
    | zero =>
      simp only [List.getElem?_cons_zero, Option.some.injEq] at h
      subst h
      simp only [List.set_cons_zero, sumE, evalL, List.foldr_cons]; grind
    | succ j =>
      have := ih j (by simpa using h)
      simp only [List.set_cons_succ, sumE, evalL, List.foldr_cons] at *
      rw [this]; grind

/-- Invariant of the loop of `expr_xform_bc_dist_base`. -/
def DistInv (ρ : Env) (V : Word) (n : Nat) (ts : List Item) : Prop :=
  (∀ t ∈ ts, t.isNone = true ∨ Good ρ t) ∧ (∃ t ∈ ts, t.isNone = false) ∧ sumE ρ ts = V ∧ ts.length = n

theorem distStep_ok (ρ : Env) (c : Ctx) (base : Nat → Word) (ag : ρ.Agrees c base)
    (cb : Nat → Nat → Option Item) (hcb : CbOk ρ cb) (V : Word) (n : Nat) (ts : List Item) (i : Nat)
    (h : DistInv ρ V n ts) : DistInv ρ V n (distStep c cb ts i) := by
  obtain ⟨h1, h2, h3, h4⟩ := h
  unfold distStep
  split
  · exact ⟨h1, h2, h3, h4⟩
  · rename_i p hp
    rw [Option.bind_eq_some_iff] at hp
    obtain ⟨ti, hti, hm⟩ := hp
    split
    · exact ⟨h1, h2, h3, h4⟩
    · rename_i ts' hr
      obtain ⟨j, u, t, q, k1, k2, k3, k4, k5⟩ := replaceFirst_some c cb p ts ts' hr
      obtain ⟨m1, m2, m3⟩ := minusLabel_ok ρ c base ag ti p hm
      obtain ⟨c1, c2⟩ := hcb p q t k3
      have hu := plusLabel_ok ρ c base ag u q k2
      have hij : j ≠ i := by
        intro e; subst e
        rw [hti] at k1; cases k1
        rw [m2] at k2; cases k2
      have tnone : t.isNone = false := by
        cases t <;> first | rfl | exact absurd c1 (by simp [Good])
      have hjl : j < ts.length := by
        rcases Nat.lt_or_ge j ts.length with hc | hc
        · exact hc
        · rw [List.getElem?_eq_none hc] at k1; cases k1
      subst k4
      refine ⟨?_, ?_, ?_, by simp [h4]⟩
      · intro x hx
        rcases List.mem_or_eq_of_mem_set hx with hx | rfl
        · rcases List.mem_or_eq_of_mem_set hx with hx | rfl
          · exact h1 x hx
          · exact Or.inr c1
        · exact Or.inl rfl
      · refine ⟨t, ?_, tnone⟩
        refine List.mem_iff_getElem?.2 ⟨j, ?_⟩
        rw [List.getElem?_set_ne hij.symm, List.getElem?_set_self hjl]
      · have e1 : (ts.set j t)[i]? = some ti := by rw [List.getElem?_set_ne hij]; exact hti
        rw [sumE_set ρ _ i ti _ e1, sumE_set ρ _ j u _ k1, h3, m1, c2, hu]
        simp only [eval]
        grind

theorem sumE_filter (ρ : Env) (ts : List Item) : sumE ρ (ts.filter fun t => !t.isNone) = sumE ρ ts := by
  induction ts with
  | nil => rfl
  | cons t ts ih =>
    cases t <;> simp only [List.filter_cons, Item.isNone, Bool.not_false, Bool.not_true, if_true, sumE, evalL, List.foldr_cons] at * <;>
      simp only [ih, eval, Bool.false_eq_true, if_false]
    simp

theorem xformDist_ok (ρ : Env) (c : Ctx) (base : Nat → Word) (ag : ρ.Agrees c base)
    (cb : Nat → Nat → Option Item) (hcb : CbOk ρ cb) (e : Node) (h : Good ρ e.item) :
    Has ρ (e.eval ρ) (xformDist c cb e) := by
  unfold xformDist
  split
  · exact ⟨h, rfl⟩
  · rename_i hop
    have hop' : e.op = .ADD := Classical.not_not.1 hop
    have har : 2 ≤ e.terms.length := by have := h.1; rw [hop'] at this; exact this
    have hg : GoodL ρ e.terms := h.2.2
    have hV : e.eval ρ = sumE ρ e.terms := by
      simp only [Node.eval, Node.item, hop', eval, opVal, sumE]
    have inv0 : DistInv ρ (sumE ρ e.terms) e.terms.length e.terms := by
      refine ⟨fun t ht => Or.inr ((goodL_iff ρ _).1 hg t ht), ?_, rfl, rfl⟩
      cases het : e.terms with
      | nil => rw [het] at har; simp at har
      | cons t ts =>
        refine ⟨t, by simp, ?_⟩
        have := (goodL_iff ρ _).1 hg t (by rw [het]; simp)
        cases t <;> first | rfl | exact absurd this (by simp [Good])
    have inv : ∀ (l : List Nat) ts, DistInv ρ (sumE ρ e.terms) e.terms.length ts →
        DistInv ρ (sumE ρ e.terms) e.terms.length (l.foldl (distStep c cb) ts) := by
      intro l
      induction l with
      | nil => intro ts h; exact h
      | cons i l ih => intro ts h; exact ih _ (distStep_ok ρ c base ag cb hcb _ _ ts i h)
    obtain ⟨i1, ⟨x, hx1, hx2⟩, i3, i4⟩ := inv (List.range e.terms.length) e.terms inv0
    simp only
    generalize (List.range e.terms.length).foldl (distStep c cb) e.terms = ts at *
    have gl : GoodL ρ (ts.filter fun t => !t.isNone) := by
      rw [goodL_iff]
      intro t ht
      obtain ⟨m1, m2⟩ := List.mem_filter.1 ht
      rcases i1 t m1 with hh | hh
      · rw [hh] at m2; cases m2
      · exact hh
    have sm := sumE_filter ρ ts
    have hmem : x ∈ ts.filter fun t => !t.isNone := List.mem_filter.2 ⟨hx1, by simp [hx2]⟩
    have hle : (ts.filter fun t => !t.isNone).length ≥ 1 := List.length_pos_of_mem hmem
    generalize (ts.filter fun t => !t.isNone) = fs at *
    rw [i3] at sm
    by_cases h1 : fs.length = 1
    · have hc : fs.length ≠ e.terms.length ∧ fs.length = 1 := ⟨by omega, h1⟩
      rw [if_pos hc]
      obtain ⟨y, rfl⟩ := List.length_eq_one_iff.1 h1
      refine ⟨⟨rfl, by simp, gl⟩, ?_⟩
      rw [hV, ← sm]
      simp only [Node.eval, Node.item, eval, evalL, opVal, sumE, List.foldr]
      simp
    · have hc : ¬ (fs.length ≠ e.terms.length ∧ fs.length = 1) := fun hh => h1 hh.2
      rw [if_neg hc]
      refine ⟨⟨by simp only [Arity]; omega, by simp, gl⟩, ?_⟩
      rw [hV, ← sm]
      rfl

theorem distPost_ok (ρ : Env) (c : Ctx) (base : Nat → Word) (ag : ρ.Agrees c base) (regmul : Bool) (n : Node)
    (h : Good ρ n.item) : Ok ρ (n.eval ρ) (distPost c regmul n) := by
  obtain ⟨a, b⟩ := xformDist_ok ρ c base ag _ (distInt_ok ρ c base ag) n h
  have := levelPlain_ok ρ regmul ag.seg _ a
  rw [b] at this
  exact this

/-! EQU expansion -/

/-- An expansion of EQU symbols that preserves values. -/
def EquOk (ρ : Env) (f : Nat → Option (Item × Bool × Bool)) : Prop :=
  ∀ s r, f s = some r → Good ρ r.1 ∧ eval ρ r.1 = ρ.sym s

mutual
theorem expandItem_ok (ρ : Env) (f : Nat → Option (Item × Bool × Bool)) (hf : EquOk ρ f) (t : Item)
    (h : Good ρ t) : Good ρ (expandItem f t).1 ∧ eval ρ (expandItem f t).1 = eval ρ t := by
  match t with
  | .none => exact ⟨h, rfl⟩
  | .reg _ => exact ⟨h, rfl⟩
  | .int _ => exact ⟨h, rfl⟩
  | .subst _ => exact ⟨h, rfl⟩
  | .flt _ _ => exact ⟨h, rfl⟩
  | .precbc _ => exact ⟨h, rfl⟩
  | .sym s =>
    simp only [expandItem]
    cases hs : f s with
    | none => exact ⟨h, rfl⟩
    | some r => exact hf s r hs
  | .expr op ts =>
    have := expandItems_ok ρ f hf ts h.2.2
    simp only [expandItem]
    refine ⟨⟨?_, ?_, this.1⟩, by simp only [eval, this.2]⟩
    · have hl : (expandItems f ts).1.length = ts.length := by
        rw [← evalL_length ρ, this.2, evalL_length]
      rw [hl]; exact h.1
    · rw [this.2]; exact h.2.1
theorem expandItems_ok (ρ : Env) (f : Nat → Option (Item × Bool × Bool)) (hf : EquOk ρ f) (ts : List Item)
    (h : GoodL ρ ts) : GoodL ρ (expandItems f ts).1 ∧ evalL ρ (expandItems f ts).1 = evalL ρ ts := by
  match ts, h with
  | [], _ => exact ⟨trivial, rfl⟩
  | t :: ts, h =>
    have a := expandItem_ok ρ f hf t h.1
    have b := expandItems_ok ρ f hf ts h.2
    simp only [expandItems]
    split
    · exact ⟨⟨a.1, h.2⟩, by simp only [evalL, a.2]⟩
    · exact ⟨⟨a.1, b.1⟩, by simp only [evalL, a.2, b.2]⟩
end

theorem onEqu_ok (ρ : Env) (c : Ctx) (base : Nat → Word) (ag : ρ.Agrees c base) (k : Nat) :
    ∀ seen, EquOk ρ (onEqu c k seen) := by
  induction k with
  | zero => intro seen s r h; simp [onEqu] at h
  | succ k ih =>
    intro seen s r h
    simp only [onEqu] at h
    split at h
    · cases h
    · rename_i d hd
      obtain ⟨e1, e2⟩ := ag.equ s d hd
      split at h
      · cases h; exact ⟨trivial, rfl⟩
      · cases h
        have := expandItem_ok ρ _ (ih (s :: seen)) d.item e2
        simp only [Node.item, expandItem] at this
        exact ⟨this.1, by rw [this.2, e1]; rfl⟩

theorem expandEqu_ok (ρ : Env) (c : Ctx) (base : Nat → Word) (ag : ρ.Agrees c base) (k : Nat) (e : Node)
    (h : Good ρ e.item) : Has ρ (e.eval ρ) (expandEqu c k e).1 := by
  have := expandItem_ok ρ _ (onEqu_ok ρ c base ag k []) e.item h
  exact ⟨this.1, this.2⟩

theorem simplify_ok (ρ : Env) (c : Ctx) (base : Nat → Word) (ag : ρ.Agrees c base) (nequ : Nat)
    (regmul dist : Bool) (e : Node) (h : Good ρ e.item) :
    Ok ρ (e.eval ρ) (simplify c nequ regmul dist e) := by
  obtain ⟨a, b⟩ := expandEqu_ok ρ c base ag (nequ + 1) e h
  simp only [simplify]
  rw [← b]
  refine levelTree_ok ρ regmul _ ag.seg ?_ _ _ a
  intro n hn
  cases dist
  · exact pure_ok ρ _ n ⟨hn, rfl⟩
  · exact distPost_ok ρ c base ag regmul n hn

end Verif.Expr
