/-
Simplification keeps registers in products, if factors of one are not removed from products with registers.
-/
import Verif.Ea.Dist

set_option linter.unusedSimpArgs false

namespace Verif.Ea

open Verif.Intnum
open Verif.Expr
open Verif.Value

/-- A node in which registers stand directly in products only, below the top. -/
theorem under_int (j : Intnum) : Under (.int j) := trivial

theorem bringUp_reg (r : Nat) :
    (∀ t, Under t → bringUp t = .reg r → t = .reg r) ∧
    (∀ ts, Under (.expr .IDENT ts) → bringUpHead ts ≠ .reg r) := by
  apply item_ind
  · intro t hl _ h
    cases t
    case expr => exact absurd hl id
    all_goals exact h
  · intro op ts ih hu h
    by_cases hop : op = .IDENT
    · subst hop
      exact absurd h (ih hu)
    · rw [bringUp] at h
      · cases h
      · simpa using hop
  · intro _ h; cases h
  · intro t ts iht _ hu h
    have := iht hu.2.1 h
    subst this
    exact absurd (hu.1 r (by simp)) (by decide)

theorem flat_under (op : Op) (ts : List Item) (h : ∀ t ∈ ts, Under t) : (∀ t ∈ flat op ts, Under t) ∧
    ((∀ r, Item.reg r ∈ ts → op = .MUL) → ∀ r, Item.reg r ∈ flat op ts → op = .MUL) := by
  induction ts with
  | nil => simp [flat]
  | cons t ts ih =>
    obtain ⟨i1, i2⟩ := ih (fun t ht => h t (List.mem_cons_of_mem _ ht))
    have ht := h t (by simp)
    refine ⟨fun u hu => ?_, fun hr r hu => ?_⟩ <;> simp only [flat, List.mem_append] at hu <;> rcases hu with hu | hu
    · cases hs : sameOp op t with
      | none => rw [hs] at hu; simp only [List.mem_singleton] at hu; subst hu; exact ht
      | some us =>
        rw [hs] at hu
        have := sameOp_some hs
        subst this
        exact under_sub _ _ ht u hu
    · exact i1 u hu
    · cases hs : sameOp op t with
      | none =>
        rw [hs] at hu; simp only [List.mem_singleton] at hu; subst hu
        exact hr r (by simp)
      | some us =>
        rw [hs] at hu
        have := sameOp_some hs
        subst this
        exact ht.1 r hu
    · exact i2 (fun r hm => hr r (List.mem_cons_of_mem _ hm)) r hu

theorem simpId_mul (pre : List Item) (i : Intnum) (post : List Item) (del : Option Fault) (r : Op × Terms)
    (h : simpId false .MUL pre i post del = .ok r) (q : Nat) (hq : Item.reg q ∈ r.2.list) : r.1 = .MUL := by
  simp only [simpId] at h
  split at h
  · rename_i hc
    simp only [Except.ok.injEq] at h
    subst h
    simp only [Terms.list, List.mem_append] at hq
    have hreg : (hasRegL pre || hasRegL post) = true := by
      rcases hq with hq | hq <;> simp [hasRegL_mem hq]
    rw [hreg] at hc
    simp only [destroyLeft, destroyRight] at hc
    cases hp : isPos1 i <;> simp [hp] at hc
  · split at h
    · split at h
      · cases h
      · simp only [Except.ok.injEq] at h
        subst h
        simp [Terms.list] at hq
    · split at h
      · simp only [Except.ok.injEq] at h
        subst h
        simp [Terms.list] at hq
      · simp only [Except.ok.injEq] at h
        subst h
        rfl

/-- The terms of a result keep registers in products. -/
def Kept (n : Node) : Prop := (∀ t ∈ n.terms, Under t)

/-- And so does the result itself. -/
def KeptAll (n : Node) : Prop := ∀ q, Item.reg q ∈ n.terms → n.op = .MUL

theorem simpId_under (op : Op) (pre : List Item) (i : Intnum) (post : List Item) (del : Option Fault)
    (h1 : ∀ t ∈ pre, Under t) (h2 : ∀ t ∈ post, Under t) (r : Op × Terms)
    (h : simpId false op pre i post del = .ok r) : (∀ t ∈ r.2.list, Under t) ∧
      ((∀ q, Item.reg q ∈ pre ∨ Item.reg q ∈ post → op = .MUL) → ∀ q, Item.reg q ∈ r.2.list → r.1 = .MUL) := by
  refine ⟨(simpId_fit false op pre i post del Under h1 h2 under_int r h).2, fun hr q hq => ?_⟩
  have hsub := (simpId_fit false op pre i post del (fun t => (t ∈ pre ∨ t ∈ post) ∨ ∃ j, t = .int j)
    (fun t ht => Or.inl (Or.inl ht)) (fun t ht => Or.inl (Or.inr ht)) (fun j => Or.inr ⟨j, rfl⟩) r h).2 _ hq
  rcases hsub with hsub | ⟨j, hj⟩
  · have := hr q hsub
    subst this
    exact simpId_mul _ _ _ _ r h q hq
  · cases hj

theorem levelGo_under (op : Op) (old : Nat) (pre : List Item) (i : Intnum)
    (post : List Item) (folded : List Intnum) (h1 : ∀ t ∈ pre, Under t) (h2 : ∀ t ∈ post, Under t) (n : Node)
    (h : (levelGo false op old pre i post folded).out = .ok n) : Kept n ∧
      ((∀ q, Item.reg q ∈ pre ∨ Item.reg q ∈ post → op = .MUL) → KeptAll n) := by
  simp only [levelGo] at h
  cases hs : simpId false op pre (foldInts op i folded).1 post
      (if pre.length + 1 + post.length < old then some Fault.outOfBounds else Option.none) with
  | error e => rw [hs] at h; cases h
  | ok r =>
    rw [hs] at h
    simp only [Except.map, Except.ok.injEq] at h
    subst h
    exact simpId_under _ _ _ _ _ h1 h2 _ hs

theorem levelTail_under (op : Op) (fold : Bool) (old : Nat) (extra : Int) (ts : Terms)
    (hl : ∀ t ∈ ts.list, Under t) (n : Node)
    (hn : (levelTail false op fold old extra ts).out = .ok n) : Kept n ∧
      ((∀ q, Item.reg q ∈ ts.list → op = .MUL) → KeptAll n) := by
  simp only [levelTail] at hn
  split at hn
  · cases fold
    · simp only [levelUp, Bool.false_eq_true, if_false, M.pure, Except.ok.injEq] at hn
      subst hn; exact flat_under _ _ hl
    · simp only [levelUp, if_true] at hn
      split at hn
      · cases hn
      · cases ts with
        | withInt pre i post =>
          have h1 := flat_under op pre fun t ht => hl t (by simp [Terms.list, ht])
          have h2 := flat_under op post fun t ht => hl t (by simp [Terms.list, ht])
          obtain ⟨a, b⟩ := levelGo_under _ _ _ _ _ _ (fun t ht => h1.1 t (nonInts_mem ht).1)
            (fun t ht => h2.1 t (nonInts_mem ht).1) n hn
          refine ⟨a, fun hr => b ?_⟩
          rintro q (hq | hq)
          · exact h1.2 (fun r hm => hr r (by simp [Terms.list, hm])) q (nonInts_mem hq).1
          · exact h2.2 (fun r hm => hr r (by simp [Terms.list, hm])) q (nonInts_mem hq).1
        | plain ts =>
          dsimp only at hn
          have hf := flat_under op ts hl
          split at hn
          · rename_i pre i post he
            have e := splitLastInt_some he
            rw [e] at hf
            obtain ⟨a, b⟩ := levelGo_under _ _ _ _ _ _ (fun t ht => hf.1 t (by simp [(nonInts_mem ht).1]))
              (fun t ht => hf.1 t (by simp [ht])) n hn
            refine ⟨a, fun hr => b ?_⟩
            rintro q (hq | hq)
            · exact hf.2 hr q (by simp [(nonInts_mem hq).1])
            · exact hf.2 hr q (by simp [hq])
          · simp only [M.pure, Except.ok.injEq] at hn
            subst hn; exact hf
  · simp only [M.pure, Except.ok.injEq] at hn
    subst hn
    exact ⟨hl, fun hr => hr⟩

theorem levelNode_under (op : Op) (ts : List Item) (h : ∀ t ∈ ts, Under t) (n : Node)
    (hn : (levelNode false op ts).out = .ok n) : Kept n ∧ ((∀ q, Item.reg q ∈ ts → op = .MUL) → KeptAll n) := by
  have hl : ∀ t ∈ ts.map bringUp, Under t := by
    intro t ht
    obtain ⟨u, hu, rfl⟩ := List.mem_map.1 ht
    exact (bringUp_keep Under under_sub).1 u (h u hu)
  have hreg : (∀ q, Item.reg q ∈ ts → op = .MUL) → ∀ q, Item.reg q ∈ ts.map bringUp → op = .MUL := by
    intro hr q hq
    obtain ⟨u, hu, he⟩ := List.mem_map.1 hq
    have := (bringUp_reg q).1 u (h u hu) he
    subst this
    exact hr q hu
  simp only [levelNode] at hn
  cases hsp : (if (!nonnum op) = true then splitInt (ts.map bringUp) else Option.none) with
  | none =>
    rw [hsp] at hn
    obtain ⟨a, b⟩ := levelTail_under _ _ _ _ (.plain _) hl n hn
    exact ⟨a, fun hr => b (hreg hr)⟩
  | some r =>
    obtain ⟨pre, i, post⟩ := r
    rw [hsp] at hn
    dsimp only at hn
    have he : splitInt (ts.map bringUp) = some (pre, i, post) := by
      split at hsp
      · exact hsp
      · cases hsp
    have hm := (splitInt_some he).1
    have hpre : ∀ t ∈ pre, t ∈ ts.map bringUp := fun t ht => by rw [hm]; simp [ht]
    have hpost : ∀ t ∈ nonInts post, t ∈ ts.map bringUp := fun t ht => by rw [hm]; simp [(nonInts_mem ht).1]
    generalize hgs : simpId false op pre (foldInts op i (ints post)).1 (nonInts post)
      (tailFault (List.drop (pre.length + 1 + (nonInts post).length) (ts.map bringUp))) = gs at hn
    cases gs with
    | error f => cases hn
    | ok r =>
      obtain ⟨op', ts'⟩ := r
      obtain ⟨a, b⟩ := simpId_under _ _ _ _ _ (fun t ht => hl t (hpre t ht)) (fun t ht => hl t (hpost t ht)) _ hgs
      dsimp only at a b hn
      obtain ⟨c, d⟩ := levelTail_under _ _ _ _ ts' a n hn
      refine ⟨c, fun hr => d (b ?_)⟩
      rintro q (hq | hq)
      · exact hreg hr q (hpre _ hq)
      · exact hreg hr q (hpost _ hq)

theorem neg_under :
    (∀ t, Under t → Under (neg t)) ∧
    (∀ ts, UnderL ts → UnderL (negL ts) ∧ (∀ q, Item.reg q ∉ negL ts) ∧ UnderL (negHead ts) ∧
      ((∀ q, Item.reg q ∉ ts) → ∀ q, Item.reg q ∉ negHead ts) ∧ ((∀ q, Item.reg q ∉ ts) → Under (negIdent ts))) := by
  have hm : Under minusOne := trivial
  have notReg : ∀ t q, neg t ≠ .reg q := by
    intro t q h
    cases t
    case expr op ts =>
      cases op
      case IDENT =>
        simp only [neg] at h
        cases ts with
        | nil => cases h
        | cons a as =>
          cases a
          case expr o us => simp only [negIdent] at h; split at h; split at h <;> cases h; cases h
          all_goals cases h
      all_goals cases h
    all_goals cases h
  apply item_ind
  · intro t hl h
    cases t <;> first | exact ⟨fun _ _ => rfl, hm, h, trivial⟩ | exact absurd hl (by simp [Leaf])
  · intro op ts ih h
    obtain ⟨i1, i2, i3, i4, i5⟩ := ih h.2
    cases op
    case ADD => exact ⟨fun r hr => absurd hr (i2 r), i1⟩
    case SUB =>
      refine ⟨fun r hr => absurd hr (i4 (fun q hq => ?_) r), i3⟩
      exact absurd (h.1 q hq) (by decide)
    case NEG =>
      refine ⟨fun r hr => ?_, h.2⟩
      exact absurd (h.1 r hr) (by decide)
    case IDENT =>
      refine i5 fun q hq => ?_
      exact absurd (h.1 q hq) (by decide)
    all_goals exact ⟨fun _ _ => rfl, hm, h, trivial⟩
  · intro _; exact ⟨trivial, by simp [negL], trivial, by simp [negHead], fun _ => ⟨fun _ _ => rfl, trivial⟩⟩
  · intro t ts iht ihs h
    have ht := iht h.1
    obtain ⟨j1, j2, _, _, _⟩ := ihs h.2
    refine ⟨⟨ht, j1⟩, ?_, ⟨ht, h.2⟩, ?_, ?_⟩
    · intro q hq
      simp only [negL, List.mem_cons] at hq
      rcases hq with hq | hq
      · exact notReg _ _ hq.symm
      · exact j2 q hq
    · intro hn q hq
      simp only [negHead, List.mem_cons] at hq
      rcases hq with hq | hq
      · exact notReg _ _ hq.symm
      · exact hn q (List.mem_cons_of_mem _ hq)
    intro hn
    have hts : ∀ q, Item.reg q ∉ ts := fun q hq => hn q (List.mem_cons_of_mem _ hq)
    have hx : Under (.expr .MUL [t, minusOne]) := ⟨fun _ _ => rfl, h.1, hm, trivial⟩
    have wrap : ∀ u, Under u → (∀ q, u ≠ .reg q) → Under (.expr .IDENT (u :: ts)) := by
      intro u hu hne
      refine ⟨fun r hr => ?_, hu, h.2⟩
      rcases List.mem_cons.1 hr with hr | hr
      · exact absurd hr.symm (hne r)
      · exact absurd hr (hts r)
    cases t
    case flt s f => exact wrap (.flt (!s) f) trivial (fun q h => by cases h)
    case int i => exact wrap (.int (calcUnary .NEG i)) trivial (fun q h => by cases h)
    case expr op us =>
      simp only [negIdent]
      split
      · split <;> first
          | exact wrap _ ht (notReg _)
          | exact wrap (.expr op us) h.1 (fun q h => by cases h)
      · exact hx
    all_goals exact hx

theorem xformNeg_under (op : Op) (ts : List Item) (h : Under (.expr op ts)) : Under (xformNeg op ts) := by
  unfold xformNeg
  split
  · refine (neg_under.2 _ h.2).2.2.2.2 fun q hq => ?_
    exact absurd (h.1 q hq) (by decide)
  · rename_i a b
    have hb := neg_under.2 [b] ⟨h.2.2.1, trivial⟩
    refine ⟨fun r hr => ?_, h.2.1, hb.1⟩
    simp only [List.mem_cons, List.not_mem_nil, or_false] at hr
    rcases hr with hr | hr
    · exact absurd (h.1 r (by simp [hr])) (by decide)
    · exact absurd (show Item.reg r ∈ negL [b] from by simp [negL, hr]) (hb.2.1 r)
  · exact h

theorem segSimp_under (op : Op) (ts : List Item) (h : Under (.expr op ts)) : Under (segSimp op ts).item := by
  unfold segSimp
  split
  · rename_i a as ts
    refine ⟨fun r hr => ?_, ⟨fun r hr => ?_, h.2.1.2.1, trivial⟩, h.2.2⟩
    · rcases List.mem_cons.1 hr with hr | hr
      · cases hr
      · exact absurd (h.1 r (List.mem_cons_of_mem _ hr)) (by decide)
    · simp only [List.mem_cons, List.not_mem_nil, or_false] at hr
      exact absurd (h.2.1.1 r (by simp [hr])) (by decide)
  · exact h

theorem levelKids_under (f : Node → M Node)
    (hf : ∀ n m, Under n.item → (f n).out = .ok m → Under m.item) (ts : List Item) (h : UnderL ts) (r : List Item)
    (hr : (levelKids f ts).out = .ok r) : UnderL r ∧ ∀ q, Item.reg q ∈ r → Item.reg q ∈ ts := by
  induction ts generalizing r with
  | nil => simp only [levelKids, M.pure, Except.ok.injEq] at hr; subst hr; exact ⟨trivial, fun _ h => h⟩
  | cons t ts ih =>
    have step : ∀ t', Under t' → (∀ q, t' = .reg q → t = .reg q) →
        ((levelKids f ts).bind fun r => M.pure (t' :: r)).out = .ok r →
        UnderL r ∧ ∀ q, Item.reg q ∈ r → Item.reg q ∈ t :: ts := by
      intro t' ht hq hr
      obtain ⟨l, h1, h2, _⟩ := bind_out hr
      simp only [M.pure, Except.ok.injEq] at h2
      subst h2
      obtain ⟨a, b⟩ := ih h.2 l h1
      refine ⟨⟨ht, a⟩, fun q hm => ?_⟩
      rcases List.mem_cons.1 hm with hm | hm
      · rw [hq q hm.symm]; simp
      · exact List.mem_cons_of_mem _ (b q hm)
    cases t
    case expr op us =>
      simp only [levelKids] at hr
      obtain ⟨n, h1, h2, _⟩ := bind_out hr
      exact step n.item (hf ⟨op, us⟩ n h.1 h1) (fun q hq => by cases hq) h2
    all_goals exact step _ h.1 (fun q hq => hq) hr

theorem levelOp_under (e : Node) (h : Under e.item) (n : Node) (hn : (levelOp false e).out = .ok n) : Under n.item := by
  simp only [levelOp] at hn
  split at hn
  · rename_i op ts he
    have hu := ((stripTop_keep Under under_sub).1 _).1 h
    rw [he] at hu
    obtain ⟨a, b⟩ := levelNode_under _ _ (under_sub _ _ hu) n hn
    exact ⟨b hu.1, (underL_iff _).2 a⟩
  · simp only [M.pure, Except.ok.injEq] at hn
    subst hn; exact h

theorem levelTree_under (k : Nat) :
    ∀ e n, Under e.item → (levelTree false M.pure k e).out = .ok n → Under n.item := by
  induction k with
  | zero => intro e n _ h; cases h
  | succ k ih =>
    intro e n h hn
    simp only [levelTree] at hn
    have hx := xformNeg_under e.op e.terms h
    split at hn
    · rename_i op ts he
      rw [he] at hx
      obtain ⟨ts', h1, h2, _⟩ := bind_out hn
      obtain ⟨m, h3, h4, _⟩ := bind_out h2
      simp only [M.pure, Except.ok.injEq] at h4
      subst h4
      obtain ⟨a, b⟩ := levelKids_under _ (fun a b => ih a b) ts hx.2 ts' h1
      exact levelOp_under _ (segSimp_under _ _ ⟨fun r hr => hx.1 r (b r hr), a⟩) _ h3
    · cases hn

/-- At the top a sum, a product or a wrapper may have registers of its own; below that they stay in products. -/
theorem levelTree_kept (k : Nat) (e n : Node) (hop : e.op = .ADD ∨ e.op = .MUL ∨ e.op = .IDENT) (h : UnderL e.terms)
    (hn : (levelTree false M.pure k e).out = .ok n) : UnderL n.terms := by
  cases k with
  | zero => cases hn
  | succ k =>
    simp only [levelTree] at hn
    have e1 : xformNeg e.op e.terms = .expr e.op e.terms := by
      rcases hop with hop | hop | hop <;> rw [hop] <;> rfl
    rw [e1] at hn
    obtain ⟨ts', h1, h2, _⟩ := bind_out hn
    obtain ⟨m, h3, h4, _⟩ := bind_out h2
    simp only [M.pure, Except.ok.injEq] at h4
    subst h4
    obtain ⟨a, b⟩ := levelKids_under _ (levelTree_under k) e.terms h ts' h1
    have e2 : segSimp e.op ts' = ⟨e.op, ts'⟩ := by
      rcases hop with hop | hop | hop <;> rw [hop] <;> rfl
    rw [e2] at h3
    simp only [levelOp] at h3
    split at h3
    · rename_i op us he
      have hus : ∀ t ∈ us, Under t := by
        have key := stripTop_terms ⟨e.op, ts'⟩ ((underL_iff _).1 a) op us he
        exact key
      exact (underL_iff _).2 (levelNode_under _ _ hus m h3).1
    · simp only [M.pure, Except.ok.injEq] at h3
      subst h3; exact a
where
  stripTop_terms (e : Node) (h : ∀ t ∈ e.terms, Under t) (op : Op) (us : List Item)
      (he : stripTop e.item = .expr op us) : ∀ t ∈ us, Under t := by
    by_cases hI : e.op = .IDENT
    · obtain ⟨o, ts⟩ := e
      dsimp only at hI h
      subst hI
      cases ts with
      | nil => simp only [Node.item, stripTop, stripHead, Item.expr.injEq] at he; rw [← he.2]; simp
      | cons x xs =>
        cases x
        case expr o' us' =>
          have hs := ((stripTop_keep Under under_sub).1 (.expr o' us')).1 (h _ (by simp))
          rw [show stripTop (Node.item ⟨.IDENT, .expr o' us' :: xs⟩) = stripTop (.expr o' us') from rfl] at he
          rw [he] at hs
          exact under_sub _ _ hs
        all_goals
          simp only [Node.item, stripTop, stripHead, Item.expr.injEq] at he
          rw [← he.2]; exact h
    · rw [Node.item, stripTop] at he
      · simp only [Item.expr.injEq] at he
        rw [← he.2]; exact h
      · simpa using hI

/-! ### EQU symbols -/

theorem expand_free (f : Nat → Option (Item × Bool × Bool)) (hf : ∀ s r, f s = some r → hasReg r.1 = false) :
    (∀ t, (hasReg t = false → hasReg (expandItem f t).1 = false) ∧ (Under t → Under (expandItem f t).1) ∧
      ∀ q, (expandItem f t).1 = .reg q → t = .reg q) ∧
    (∀ ts, (hasRegL ts = false → hasRegL (expandItems f ts).1 = false) ∧ (UnderL ts → UnderL (expandItems f ts).1) ∧
      ∀ q, Item.reg q ∈ (expandItems f ts).1 → Item.reg q ∈ ts) := by
  apply item_ind
  · intro t hl
    cases t
    case expr => exact absurd hl id
    case sym s =>
      simp only [expandItem]
      cases hs : f s with
      | none => exact ⟨id, id, fun _ h => h⟩
      | some r =>
        have := hf s r hs
        refine ⟨fun _ => this, fun _ => under_free.1 _ this, fun q hq => ?_⟩
        dsimp only at hq
        rw [hq] at this
        simp [hasReg] at this
    all_goals exact ⟨id, id, fun _ h => h⟩
  · intro op ts ih
    simp only [expandItem, hasReg]
    refine ⟨ih.1, fun h => ⟨fun r hr => h.1 r (ih.2.2 r hr), ih.2.1 h.2⟩, fun q hq => by cases hq⟩
  · exact ⟨id, id, fun _ h => h⟩
  · intro t ts iht ihs
    simp only [expandItems]
    split
    · refine ⟨fun h => ?_, fun h => ⟨iht.2.1 h.1, h.2⟩, fun q hq => ?_⟩
      · simp only [hasRegL, Bool.or_eq_false_iff] at h ⊢
        exact ⟨iht.1 h.1, h.2⟩
      · rcases List.mem_cons.1 hq with hq | hq
        · rw [iht.2.2 q hq.symm]; simp
        · exact List.mem_cons_of_mem _ hq
    · refine ⟨fun h => ?_, fun h => ⟨iht.2.1 h.1, ihs.2.1 h.2⟩, fun q hq => ?_⟩
      · simp only [hasRegL, Bool.or_eq_false_iff] at h ⊢
        exact ⟨iht.1 h.1, ihs.1 h.2⟩
      · rcases List.mem_cons.1 hq with hq | hq
        · rw [iht.2.2 q hq.symm]; simp
        · exact List.mem_cons_of_mem _ (ihs.2.2 q hq)

theorem onEqu_free (c : Ctx) (h : ∀ s d, c.equ s = some d → hasReg d.item = false) (k : Nat) :
    ∀ seen s r, onEqu c k seen s = some r → hasReg r.1 = false := by
  induction k with
  | zero => intro _ _ _ h; cases h
  | succ k ih =>
    intro seen s r hr
    simp only [onEqu] at hr
    cases he : c.equ s with
    | none => rw [he] at hr; cases hr
    | some d =>
      rw [he] at hr
      dsimp only at hr
      split at hr
      · simp only [Option.some.injEq] at hr; subst hr; rfl
      · simp only [Option.some.injEq] at hr
        subst hr
        simp only [hasReg]
        exact ((expand_free _ (ih (s :: seen))).2 d.terms).1 (by simpa [hasReg, Node.item] using h s d he)

theorem simplify_kept (c : Ctx) (h : ∀ s d, c.equ s = some d → hasReg d.item = false) (nequ : Nat) (e n : Node)
    (hop : e.op = .ADD ∨ e.op = .MUL ∨ e.op = .IDENT) (hu : UnderL e.terms)
    (hn : (simplify c nequ false false e).out = .ok n) : UnderL n.terms := by
  simp only [simplify] at hn
  have hx := (expand_free _ (onEqu_free c h (nequ + 1) [])).2 e.terms
  exact levelTree_kept _ (expandEqu c (nequ + 1) e).1 n hop (hx.2.1 hu) hn

end Verif.Ea
