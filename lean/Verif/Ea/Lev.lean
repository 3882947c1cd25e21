/-
The shape of a simplified expression: no sum is a term of a sum, and no subexpression is a bare wrapper.
-/
import Verif.Ea.Spec
import Verif.Value.Keep

namespace Verif.Ea

open Verif.Intnum
open Verif.Expr

mutual
/-- A levelled term: no IDENT subexpression, no sum directly in a sum. -/
def Lev : Item → Prop
  | .expr op ts => op ≠ .IDENT ∧ (op = .ADD → ∀ us, Item.expr .ADD us ∉ ts) ∧ LevL ts
  | _ => True
/-- Every term is levelled. -/
def LevL : List Item → Prop
  | [] => True
  | t :: ts => Lev t ∧ LevL ts
end

theorem levL_iff (ts : List Item) : LevL ts ↔ ∀ t ∈ ts, Lev t := by
  induction ts with
  | nil => simp [LevL]
  | cons t ts ih => simp [LevL, ih]

/-- A levelled expression: like a levelled term, but it may be an IDENT. -/
def Top (n : Node) : Prop := (n.op = .ADD → ∀ us, Item.expr .ADD us ∉ n.terms) ∧ LevL n.terms

/-- A term that is a levelled expression. -/
def Pre : Item → Prop
  | .expr op ts => Top ⟨op, ts⟩
  | _ => True

theorem Lev.pre {t : Item} (h : Lev t) : Pre t := by
  cases t
  case expr op ts => exact ⟨h.2.1, h.2.2⟩
  all_goals trivial

theorem pre_bringUp (ρ : Env) (t : Item) (h : Pre t) (g : Good ρ t) : Lev (bringUp t) := by
  cases t
  case expr op ts =>
    by_cases hop : op = .IDENT
    · subst hop
      obtain ⟨x, rfl⟩ : ∃ x, ts = [x] := by
        have := g.1
        simp only [Arity] at this
        exact List.length_eq_one_iff.1 this
      have hx : Lev x := h.2.1
      have : bringUp x = x := by
        cases x
        case expr o us =>
          have := hx.1
          rw [bringUp]
          simpa using this
        all_goals rfl
      simp only [bringUp, bringUpHead, this]
      exact hx
    · have : bringUp (.expr op ts) = .expr op ts := by
        rw [bringUp]; simpa using hop
      rw [this]
      exact ⟨hop, h.1, h.2⟩
  all_goals trivial

/-- What holds of every term of a levelled expression with the given operator. -/
def Fit (op : Op) (t : Item) : Prop := Lev t ∧ (op = .ADD → ∀ us, t ≠ .expr .ADD us)

theorem top_of_fit {n : Node} (h : ∀ t ∈ n.terms, Fit n.op t) : Top n :=
  ⟨fun ho us hu => (h _ hu).2 ho us rfl, (levL_iff _).2 fun t ht => (h t ht).1⟩

theorem fit_ident {op : Op} {t : Item} (h : Fit op t) : Fit .IDENT t := ⟨h.1, fun h => by cases h⟩

theorem fit_int (op : Op) (i : Intnum) : Fit op (.int i) := ⟨trivial, fun _ _ h => by cases h⟩

theorem flat_fit (op : Op) (ts : List Item) (h : ∀ t ∈ ts, Lev t) : ∀ t ∈ flat op ts, Fit op t := by
  induction ts with
  | nil => simp [flat]
  | cons t ts ih =>
    intro u hu
    simp only [flat, List.mem_append] at hu
    rcases hu with hu | hu
    · cases hs : sameOp op t with
      | none =>
        rw [hs] at hu; simp only [List.mem_singleton] at hu; subst hu
        refine ⟨h _ (by simp), fun ho us he => ?_⟩
        subst he ho
        simp [sameOp] at hs
      | some us =>
        rw [hs] at hu
        have := sameOp_some hs
        subst this
        have hl := h (.expr op us) (by simp)
        refine ⟨(levL_iff us).1 hl.2.2 u hu, fun ho vs hv => ?_⟩
        subst hv
        exact hl.2.1 ho vs hu
    · exact ih (fun t ht => h t (List.mem_cons_of_mem _ ht)) u hu

theorem simpId_fit (regmul : Bool) (op : Op) (pre : List Item) (i : Intnum) (post : List Item) (del : Option Fault)
    (P : Item → Prop) (h1 : ∀ t ∈ pre, P t) (h2 : ∀ t ∈ post, P t) (hi : ∀ j, P (.int j)) (r : Op × Terms)
    (h : simpId regmul op pre i post del = .ok r) : (r.1 = op ∨ r.1 = .IDENT) ∧ ∀ t ∈ r.2.list, P t := by
  have hap : ∀ t ∈ pre ++ post, P t := by
    intro t ht; rcases List.mem_append.1 ht with ht | ht
    · exact h1 t ht
    · exact h2 t ht
  rcases simpId_cases regmul op pre i post del with ⟨hc, _⟩ | ⟨f, _, hc, _⟩ | ⟨j, hc⟩ | ⟨hc, _⟩ <;> rw [hc] at h
  · cases h; exact ⟨by dsimp only; split <;> simp, hap⟩
  · cases h
  · cases h; refine ⟨Or.inr rfl, fun t ht => ?_⟩
    simp only [Terms.list, List.nil_append, List.mem_singleton] at ht
    subst ht; exact hi j
  · cases h; refine ⟨Or.inl rfl, fun t ht => ?_⟩
    simp only [Terms.list, List.mem_append, List.mem_cons] at ht
    rcases ht with ht | rfl | ht
    · exact h1 t ht
    · exact hi i
    · exact h2 t ht

theorem levelGo_fit (regmul : Bool) (op : Op) (old : Nat) (pre : List Item) (i : Intnum)
    (post : List Item) (folded : List Intnum) (h1 : ∀ t ∈ pre, Fit op t) (h2 : ∀ t ∈ post, Fit op t) (n : Node)
    (h : (levelGo regmul op old pre i post folded).out = .ok n) : Top n := by
  simp only [levelGo] at h
  cases hs : simpId regmul op pre (foldInts op i folded).1 post
      (if pre.length + 1 + post.length < old then some Fault.outOfBounds else Option.none) with
  | error e => rw [hs] at h; cases h
  | ok r =>
    rw [hs] at h
    simp only [Except.map, Except.ok.injEq] at h
    subst h
    obtain ⟨a, b⟩ := simpId_fit _ _ _ _ _ _ (Fit op) h1 h2 (fit_int op) _ hs
    refine top_of_fit fun t ht => ?_
    dsimp only at ht ⊢
    rcases a with a | a <;> rw [a]
    · exact b t ht
    · exact fit_ident (b t ht)

theorem levelTail_top (regmul : Bool) (op : Op) (fold : Bool) (old : Nat) (extra : Int) (ts : Terms)
    (hl : ∀ t ∈ ts.list, Lev t) (hx : op = .ADD → ¬ extra > 0 → ∀ us, Item.expr .ADD us ∉ ts.list) (n : Node)
    (hn : (levelTail regmul op fold old extra ts).out = .ok n) : Top n := by
  simp only [levelTail] at hn
  split at hn
  · cases fold
    · simp only [levelUp, Bool.false_eq_true, if_false, M.pure, Except.ok.injEq] at hn
      subst hn; exact top_of_fit (flat_fit _ _ hl)
    · simp only [levelUp, if_true] at hn
      split at hn
      · cases hn
      · cases ts with
        | withInt pre i post =>
          have h1 : ∀ t ∈ pre, Lev t := fun t ht => hl t (by simp [Terms.list, ht])
          have h2 : ∀ t ∈ post, Lev t := fun t ht => hl t (by simp [Terms.list, ht])
          exact levelGo_fit _ _ _ _ _ _ _ (fun t ht => flat_fit _ _ h1 t (nonInts_mem ht).1)
            (fun t ht => flat_fit _ _ h2 t (nonInts_mem ht).1) n hn
        | plain ts =>
          dsimp only at hn
          have hf := flat_fit op ts hl
          split at hn
          · rename_i pre i post he
            have e := splitLastInt_some he
            rw [e] at hf
            exact levelGo_fit _ _ _ _ _ _ _ (fun t ht => hf t (by simp [(nonInts_mem ht).1]))
              (fun t ht => hf t (by simp [ht])) n hn
          · simp only [M.pure, Except.ok.injEq] at hn
            subst hn; exact top_of_fit hf
  · rename_i hc
    simp only [M.pure, Except.ok.injEq] at hn
    subst hn
    refine ⟨fun ho => hx ho ?_, (levL_iff _).2 hl⟩
    dsimp only at ho
    subst ho
    exact fun he => hc ⟨rfl, he⟩

theorem levelExtra_nonneg (ρ : Env) (ts : List Item) (g : GoodL ρ ts) : 0 ≤ levelExtra .ADD ts ∧
    ((∃ us, Item.expr .ADD us ∈ ts) → 0 < levelExtra .ADD ts) := by
  induction ts with
  | nil => simp [levelExtra]
  | cons t ts ih =>
    obtain ⟨a, b⟩ := ih g.2
    cases hs : sameOp .ADD t with
    | none =>
      have e : levelExtra .ADD (t :: ts) = levelExtra .ADD ts := by simp [levelExtra, hs]
      rw [e]
      refine ⟨a, ?_⟩
      rintro ⟨us, hu⟩
      rcases List.mem_cons.1 hu with rfl | hu
      · simp [sameOp] at hs
      · exact b ⟨us, hu⟩
    | some us =>
      have e : levelExtra .ADD (t :: ts) = (us.length : Int) - 1 + levelExtra .ADD ts := by simp [levelExtra, hs]
      rw [e]
      have := sameOp_some hs
      subst this
      have h2 : 2 ≤ us.length := g.1.1
      exact ⟨by omega, fun _ => by omega⟩

theorem levelNode_top (ρ : Env) (regmul : Bool) (op : Op) (ts : List Item) (h : ∀ t ∈ ts, Pre t) (g : GoodL ρ ts)
    (n : Node) (hn : (levelNode regmul op ts).out = .ok n) : Top n := by
  have hl : ∀ t ∈ ts.map bringUp, Lev t := by
    intro t ht
    obtain ⟨u, hu, rfl⟩ := List.mem_map.1 ht
    exact pre_bringUp ρ u (h u hu) ((goodL_iff ρ ts).1 g u hu)
  have hg : GoodL ρ (ts.map bringUp) := by
    rw [goodL_iff] at g ⊢
    intro t ht
    obtain ⟨u, hu, rfl⟩ := List.mem_map.1 ht
    exact (bringUp_ok ρ u (g u hu)).1
  have hx : op = .ADD → ¬ levelExtra op (ts.map bringUp) > 0 → ∀ us, Item.expr .ADD us ∉ ts.map bringUp := by
    intro ho he us hu
    subst ho
    exact he ((levelExtra_nonneg ρ _ hg).2 ⟨us, hu⟩)
  simp only [levelNode] at hn
  cases hsp : (if (!nonnum op) = true then splitInt (ts.map bringUp) else Option.none) with
  | none =>
    rw [hsp] at hn
    exact levelTail_top _ _ _ _ _ (.plain _) hl hx n hn
  | some r =>
    obtain ⟨pre, i, post⟩ := r
    rw [hsp] at hn
    dsimp only at hn
    have he : splitInt (ts.map bringUp) = some (pre, i, post) := by
      split at hsp
      · exact hsp
      · cases hsp
    have hm := (splitInt_some he).1
    have hpre : ∀ t ∈ pre, t ∈ ts.map bringUp := fun t ht => by rw [hm]; simp [ht]
    have hpost : ∀ t ∈ nonInts post, t ∈ ts.map bringUp := fun t ht => by rw [hm]; simp [(nonInts_mem ht).1]
    generalize hgs : simpId regmul op pre (foldInts op i (ints post)).1 (nonInts post)
      (tailFault (List.drop (pre.length + 1 + (nonInts post).length) (ts.map bringUp))) = gs at hn
    cases gs with
    | error f => cases hn
    | ok r =>
      obtain ⟨op', ts'⟩ := r
      obtain ⟨a, b⟩ := simpId_fit _ _ _ _ _ _ (fun t => t ∈ ts.map bringUp ∨ ∃ j, t = .int j)
        (fun t ht => Or.inl (hpre t ht)) (fun t ht => Or.inl (hpost t ht)) (fun j => Or.inr ⟨j, rfl⟩) _ hgs
      dsimp only at a b hn
      refine levelTail_top _ _ _ _ _ ts' ?_ ?_ n hn
      · intro t ht
        rcases b t ht with b | ⟨j, rfl⟩
        · exact hl t b
        · trivial
      · intro ho hex us hu
        rcases b _ hu with b | ⟨j, hj⟩
        · rcases a with a | a
          · exact hx (a ▸ ho) hex us b
          · rw [a] at ho; cases ho
        · cases hj

/-- Taking the wrapper off an expression whose terms are levelled expressions leaves such an expression. -/
theorem stripTop_pre (op : Op) (ts : List Item) (h : ∀ t ∈ ts, Pre t) (o : Op) (us : List Item)
    (he : stripTop (.expr op ts) = .expr o us) : ∀ t ∈ us, Pre t := by
  -- below a levelled expression
  have one : ∀ (op : Op) (ts : List Item), (∀ t ∈ ts, Lev t) → ∀ o us, stripTop (.expr op ts) = .expr o us →
      ∀ t ∈ us, Pre t := by
    intro op ts h o us he
    by_cases hop : op = .IDENT
    · subst hop
      cases ts with
      | nil => simp only [stripTop, stripHead, Item.expr.injEq] at he; rw [← he.2]; simp
      | cons x xs =>
        have hx := h x (by simp)
        cases x
        case expr o' us' =>
          have hne : o' ≠ .IDENT := hx.1
          have hst : stripTop (.expr o' us') = .expr o' us' := by rw [stripTop]; simpa using hne
          rw [show stripTop (.expr .IDENT (.expr o' us' :: xs)) = stripTop (.expr o' us') from rfl, hst] at he
          · simp only [Item.expr.injEq] at he
            obtain ⟨rfl, rfl⟩ := he
            exact fun t ht => ((levL_iff _).1 hx.2.2 t ht).pre
        all_goals
          simp only [stripTop, stripHead, Item.expr.injEq] at he
          rw [← he.2]
          exact fun t ht => (h t ht).pre
    · rw [stripTop] at he
      · simp only [Item.expr.injEq] at he
        rw [← he.2]
        exact fun t ht => (h t ht).pre
      · simpa using hop
  by_cases hop : op = .IDENT
  · subst hop
    cases ts with
    | nil => simp only [stripTop, stripHead, Item.expr.injEq] at he; rw [← he.2]; simp
    | cons x xs =>
      have hx := h x (by simp)
      cases x
      case expr o' us' =>
        simp only [stripTop, stripHead] at he
        exact one o' us' ((levL_iff _).1 hx.2) o us he
      all_goals
        simp only [stripTop, stripHead, Item.expr.injEq] at he
        rw [← he.2]
        exact h
  · rw [stripTop] at he
    · simp only [Item.expr.injEq] at he
      rw [← he.2]
      exact h
    · simpa using hop

theorem segSimp_pre (op : Op) (ts : List Item) (h : ∀ t ∈ ts, Pre t) : ∀ t ∈ (segSimp op ts).terms, Pre t := by
  unfold segSimp
  split
  · rename_i a as ts
    have ha : Lev a := (h (.expr .SEGOFF (a :: as)) (by simp)).2.1
    intro t ht
    rcases List.mem_cons.1 ht with rfl | ht
    · exact ⟨fun h => (by cases h), ha, trivial⟩
    · exact h t (List.mem_cons_of_mem _ ht)
  · exact h

/-- Simplification levels. -/
theorem levelTree_top (ρ : Env) (regmul : Bool) (hseg : ∀ a b, ρ.seg (ρ.segoff a b) = a) (k : Nat) :
    ∀ e n, Good ρ e.item → (∀ c ∈ (levelTree regmul M.pure k e).log, c.Sound) →
      (levelTree regmul M.pure k e).out = .ok n → Top n := by
  induction k with
  | zero => intro e n _ _ h; cases h
  | succ k ih =>
    intro e n he hs hn
    obtain ⟨op, ts, h1, h2, h3⟩ := xformNeg_ok ρ e.op e.terms he
    simp only [levelTree, h1] at hn hs
    obtain ⟨us, k1, k2, k3⟩ := bind_out hn
    obtain ⟨m, k4, k5, k6⟩ := bind_out k2
    rw [k3, k6] at hs
    simp only [M.pure, Except.ok.injEq] at k5
    subst k5
    have hk : ∀ n : Node, Good ρ n.item → Ok ρ (n.eval ρ) (levelTree regmul M.pure k n) :=
      levelTree_ok ρ regmul M.pure hseg (fun n hn => pure_ok ρ _ n ⟨hn, rfl⟩) k
    have hs1 : ∀ c ∈ (levelKids (levelTree regmul M.pure k) ts).log, c.Sound :=
      fun c hc => hs c (List.mem_append_left _ hc)
    obtain ⟨g1, g2⟩ := levelKids_ok ρ _ hk ts h2.2.2 hs1 us k1
    have hgood : Good ρ (.expr op us) := by
      refine ⟨?_, ?_, g1⟩
      · have : us.length = ts.length := by rw [← evalL_length ρ, g2, evalL_length]
        rw [this]; exact h2.1
      · rw [g2]; exact h2.2.1
    have hp := levelKids_top ρ regmul k ih ts h2.2.2 hs1 us k1
    obtain ⟨s1, s2⟩ := segSimp_ok ρ hseg op us hgood
    have hp' := segSimp_pre op us hp
    simp only [levelOp] at k4
    split at k4
    · rename_i o vs he'
      have g' := stripTop_ok ρ _ s1
      rw [he'] at g'
      exact levelNode_top ρ _ _ _ (stripTop_pre _ _ hp' o vs he') g'.1.2.2 m k4
    · rename_i hno
      obtain ⟨o, vs, hov⟩ := (stripTop_ok ρ _ s1).2.2 _ _ rfl
      exact absurd hov (hno o vs)
where
  levelKids_top (ρ : Env) (regmul : Bool) (k : Nat)
      (ih : ∀ e n, Good ρ e.item → (∀ c ∈ (levelTree regmul M.pure k e).log, c.Sound) →
        (levelTree regmul M.pure k e).out = .ok n → Top n) (ts : List Item) (g : GoodL ρ ts)
      (hs : ∀ c ∈ (levelKids (levelTree regmul M.pure k) ts).log, c.Sound) (r : List Item)
      (hr : (levelKids (levelTree regmul M.pure k) ts).out = .ok r) : ∀ t ∈ r, Pre t := by
    induction ts generalizing r with
    | nil => simp only [levelKids, M.pure, Except.ok.injEq] at hr; subst hr; simp
    | cons t ts iht =>
      have step : ∀ t, Pre t → ((levelKids (levelTree regmul M.pure k) ts).bind fun r => M.pure (t :: r)).out = .ok r →
          (∀ c ∈ (levelKids (levelTree regmul M.pure k) ts).log, c.Sound) → ∀ u ∈ r, Pre u := by
        intro t ht hr hs
        obtain ⟨l, h1, h2, _⟩ := bind_out hr
        simp only [M.pure, Except.ok.injEq] at h2
        subst h2
        intro u hu
        rcases List.mem_cons.1 hu with rfl | hu
        · exact ht
        · exact iht g.2 hs l h1 u hu
      have log_sub : ∀ t, ∀ c ∈ (levelKids (levelTree regmul M.pure k) ts).log,
          c ∈ ((levelKids (levelTree regmul M.pure k) ts).bind fun r => M.pure (t :: r)).log := by
        intro t c hc
        unfold M.bind
        split
        · exact List.mem_append_left _ hc
        · exact hc
      cases t
      case expr op us =>
        simp only [levelKids] at hr hs
        obtain ⟨n, h1, h2, h3⟩ := bind_out hr
        rw [h3] at hs
        refine step n.item (ih ⟨op, us⟩ n g.1 (fun c hc => hs c (List.mem_append_left _ hc)) h1) h2 ?_
        exact fun c hc => hs c (List.mem_append_right _ (log_sub _ c hc))
      all_goals refine step _ ?_ hr (fun c hc => hs c (log_sub _ c hc)); trivial

theorem simplify_top (ρ : Env) (c : Ctx) (base : Nat → Word) (ag : ρ.Agrees c base) (nequ : Nat)
    (regmul : Bool) (e : Node) (h : Good ρ e.item) (hs : ∀ k ∈ (simplify c nequ regmul false e).log, k.Sound) (n : Node)
    (hn : (simplify c nequ regmul false e).out = .ok n) : Top n := by
  obtain ⟨a, _⟩ := expandEqu_ok ρ c base ag (nequ + 1) e h
  simp only [simplify] at hs hn
  exact levelTree_top ρ regmul ag.seg _ _ n a hs hn

end Verif.Ea
