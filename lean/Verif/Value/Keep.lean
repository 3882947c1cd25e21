import Verif.Value.Spec
import Verif.Expr.Safe
/-
What simplification keeps of the shape of an expression: it brings in no operators but IDENT, + and *, no
symbols but those of EQU definitions, and leaves at most one integer among the terms of an operator.
-/
set_option linter.unusedSimpArgs false
namespace Verif.Value
open Verif.Intnum Verif.Expr

/-- A property that terms inherit is kept by taking the term of an IDENT. -/
theorem stripTop_keep (K : Item → Prop) (hK : ∀ op ts, K (.expr op ts) → ∀ t ∈ ts, K t) :
    (∀ t, (K t → K (stripTop t)) ∧ ((∃ op ts, t = .expr op ts) → ∃ op ts, stripTop t = .expr op ts)) ∧
    (∀ ts, (K (.expr .IDENT ts) → K (stripHead ts)) ∧ ∃ op us, stripHead ts = .expr op us) := by
  apply item_ind
  · intro t hl
    cases t <;> simp [stripTop, Leaf] at *
  · intro op ts ih
    by_cases h : op = .IDENT
    · subst h; exact ⟨ih.1, fun _ => ih.2⟩
    · have : stripTop (.expr op ts) = .expr op ts := by cases op <;> first | contradiction | rfl
      rw [this]; exact ⟨id, id⟩
  · exact ⟨id, _, _, rfl⟩
  · intro t ts iht _
    cases t
    case expr o us => exact ⟨fun h => iht.1 (hK _ _ h _ (by simp)), iht.2 ⟨_, _, rfl⟩⟩
    all_goals exact ⟨id, _, _, rfl⟩

theorem bringUp_keep (K : Item → Prop) (hK : ∀ op ts, K (.expr op ts) → ∀ t ∈ ts, K t) :
    (∀ t, K t → K (bringUp t)) ∧ (∀ ts, K (.expr .IDENT ts) → K (bringUpHead ts)) := by
  apply item_ind
  · intro t hl
    cases t <;> simp [bringUp, Leaf] at *
  · intro op ts ih
    by_cases h : op = .IDENT
    · subst h; exact ih
    · have : bringUp (.expr op ts) = .expr op ts := by cases op <;> first | contradiction | rfl
      rw [this]; exact id
  · exact id
  · intro t ts iht _ h
    exact iht (hK _ _ h _ (by simp))

/-! ### At most one integer -/

/-- At most one integer among the terms of a numeric operator. -/
def OneInt (n : Node) : Prop := nonnum n.op = false → (ints n.terms).length ≤ 1

theorem oneInt_mid (op : Op) (pre post : List Item) (i : Intnum) (h1 : ints pre = []) (h2 : ints post = []) :
    OneInt ⟨op, pre ++ .int i :: post⟩ := by
  intro _
  have e : ints (.int i :: post) = i :: ints post := rfl
  simp only [ints_append, h1, e, h2]; simp

theorem oneInt_none (op : Op) (ts : List Item) (h : ints ts = []) : OneInt ⟨op, ts⟩ := by
  intro _; simp [h]

theorem levelGo_one (regmul : Bool) (op : Op) (old : Nat) (pre : List Item) (i : Intnum) (post : List Item)
    (folded : List Intnum) (h1 : ints pre = []) (h2 : ints post = []) (n : Node)
    (h : (levelGo regmul op old pre i post folded).out = .ok n) : OneInt n := by
  simp only [levelGo] at h
  rcases simpId_cases regmul op pre (foldInts op i folded).1 post
      (if pre.length + 1 + post.length < old then some Fault.outOfBounds else Option.none) with
    ⟨hc, _⟩ | ⟨f, _, hc, _⟩ | ⟨j, hc⟩ | ⟨hc, _⟩ <;> rw [hc] at h <;> simp only [Except.map, Except.ok.injEq] at h
  · subst h; exact oneInt_none _ _ (by simp [Terms.list, ints_append, h1, h2])
  · cases h
  · subst h; exact oneInt_mid _ [] [] _ rfl rfl
  · subst h; exact oneInt_mid _ _ _ _ h1 h2

/-- The terms given to the leveling step: no integers but the one singled out. -/
def TermsOne : Terms → Prop
  | .plain ts => ints ts = []
  | .withInt pre _ post => ints pre = [] ∧ ints post = []

theorem levelTail_one (regmul : Bool) (op : Op) (old : Nat) (extra : Int) (ts : Terms)
    (h : TermsOne ts) (n : Node) (hn : (levelTail regmul op true old extra ts).out = .ok n) : OneInt n := by
  simp only [levelTail] at hn
  split at hn
  · simp only [levelUp, if_true] at hn
    split at hn
    · cases hn
    · cases ts with
      | withInt pre i post => exact levelGo_one _ _ _ _ _ _ _ (ints_nonInts _) (ints_nonInts _) n hn
      | plain ts =>
        dsimp only at hn
        split at hn
        · rename_i pre i post he
          obtain ⟨_, h3⟩ := splitLast_some he
          exact levelGo_one _ _ _ _ _ _ _ (ints_nonInts _) (ints_of_nonInt h3) n hn
        · rename_i he
          simp only [M.pure, Except.ok.injEq] at hn
          subst hn
          exact oneInt_none _ _ (ints_of_nonInt (splitLast_none he))
  · simp only [M.pure, Except.ok.injEq] at hn
    subst hn
    cases ts with
    | withInt pre i post => exact oneInt_mid _ _ _ _ h.1 h.2
    | plain ts => exact oneInt_none _ _ h

theorem multi_not_nonnum {op : Op} (h : nonnum op = true) : multi op = false := by
  cases op <;> simp [nonnum, multi] at *

theorem levelNode_one (regmul : Bool) (op : Op) (ts : List Item) (n : Node)
    (h : (levelNode regmul op ts).out = .ok n) : OneInt n := by
  by_cases hnn : nonnum op = true
  · simp only [levelNode, hnn, Bool.not_true, Bool.false_eq_true, if_false, levelTail, multi_not_nonnum hnn, false_and, M.pure,
      Except.ok.injEq] at h
    subst h
    intro h'; simp only [hnn] at h'; cases h'
  · have hnn' : nonnum op = false := by simpa using hnn
    simp only [levelNode, hnn', Bool.not_false, if_true] at h
    split at h
    · rename_i he
      exact levelTail_one _ _ _ _ (.plain _) (ints_of_nonInt (splitInt_none he)) n h
    · rename_i pre i post he
      obtain ⟨_, h3⟩ := splitInt_some he
      have hp := ints_of_nonInt h3
      rcases simpId_cases regmul op pre (foldInts op i (ints post)).1 (nonInts post)
          (tailFault ((ts.map bringUp).drop (pre.length + 1 + (nonInts post).length))) with
        ⟨hc, _⟩ | ⟨f, _, hc, _⟩ | ⟨j, hc⟩ | ⟨hc, _⟩ <;> rw [hc] at h <;> dsimp only at h
      · exact levelTail_one _ _ _ _ (.plain _) (by simp only [TermsOne, ints_append, hp, ints_nonInts, List.append_nil]) n h
      · cases h
      · exact levelTail_one _ _ _ _ (.withInt [] j []) ⟨rfl, rfl⟩ n h
      · exact levelTail_one _ _ _ _ (.withInt pre _ (nonInts post)) ⟨hp, ints_nonInts _⟩ n h

theorem simplify_one (c : Ctx) (nequ : Nat) (regmul : Bool) (e n : Node)
    (h : (simplify c nequ regmul false e).out = .ok n) (hop : n.op ≠ .IDENT) : OneInt n := by
  simp only [simplify, Bool.false_eq_true, if_false] at h
  generalize (expandEqu c (nequ + 1) e).1 = e' at h
  cases hk : height e'.item with
  | zero => rw [hk] at h; simp [levelTree] at h
  | succ k =>
    rw [hk] at h
    simp only [levelTree] at h
    split at h
    · obtain ⟨ts', _, h2, _⟩ := bind_out h
      obtain ⟨m, h3, h4, _⟩ := bind_out h2
      simp only [M.pure, Except.ok.injEq] at h4
      subst h4
      simp only [levelOp] at h3
      split at h3
      · exact levelNode_one _ _ _ _ h3
      · rename_i hx
        obtain ⟨o, us, hs⟩ : ∃ o us, stripTop (segSimp _ ts').item = .expr o us :=
          ((stripTop_keep (fun _ => True) (fun _ _ _ _ _ => trivial)).1 _).2 ⟨_, _, rfl⟩
        exact absurd hs (hx _ _)
    · cases h

/-! ### Operators and symbols -/

theorem allowedL_iff (P : Op → Prop) (Q : Nat → Prop) (ts : List Item) : AllowedL P Q ts ↔ ∀ t ∈ ts, Allowed P Q t := by
  induction ts with
  | nil => simp [AllowedL]
  | cons a l ih => simp [AllowedL, ih]

/-- The operators simplification brings in are allowed. -/
structure Base (P : Op → Prop) : Prop where
  ident : P .IDENT
  add : P .ADD
  mul : P .MUL

theorem allowed_sub {P : Op → Prop} {Q : Nat → Prop} (op : Op) (ts : List Item) (h : Allowed P Q (.expr op ts)) :
    ∀ t ∈ ts, Allowed P Q t := (allowedL_iff P Q ts).1 h.2

theorem neg_allowed {P : Op → Prop} {Q : Nat → Prop} (hP : Base P) :
    (∀ t, Allowed P Q t → Allowed P Q (neg t)) ∧
    (∀ ts, AllowedL P Q ts → AllowedL P Q (negL ts) ∧ AllowedL P Q (negHead ts) ∧ Allowed P Q (negIdent ts)) := by
  have hm : Allowed P Q minusOne := trivial
  apply item_ind
  · intro t hl h
    cases t <;> first | exact ⟨hP.mul, hm, h, trivial⟩ | exact absurd hl (by simp [Leaf])
  · intro op ts ih h
    obtain ⟨i1, i2, i3⟩ := ih h.2
    cases op
    case ADD => exact ⟨hP.add, i1⟩
    case SUB => exact ⟨hP.add, i2⟩
    case NEG => exact ⟨hP.ident, h.2⟩
    case IDENT => exact i3
    all_goals exact ⟨hP.mul, hm, h, trivial⟩
  · intro _; exact ⟨trivial, trivial, hP.mul, trivial⟩
  · intro t ts iht ihs h
    have ht := iht h.1
    obtain ⟨j1, _, _⟩ := ihs h.2
    refine ⟨⟨ht, j1⟩, ⟨ht, h.2⟩, ?_⟩
    have hx : Allowed P Q (.expr .MUL [t, minusOne]) := ⟨hP.mul, h.1, hm, trivial⟩
    cases t
    case flt => exact ⟨hP.ident, trivial, h.2⟩
    case int => exact ⟨hP.ident, trivial, h.2⟩
    case expr op us =>
      simp only [negIdent]
      split
      · split <;> first | exact ⟨hP.ident, ht, h.2⟩ | exact ⟨hP.ident, h.1, h.2⟩
      · exact hx
    all_goals exact hx

theorem xformNeg_allowed {P : Op → Prop} {Q : Nat → Prop} (hP : Base P) (op : Op) (ts : List Item)
    (h : AllowedL P Q ts) (hop : P op) : Allowed P Q (xformNeg op ts) := by
  unfold xformNeg
  split
  · exact ((neg_allowed hP).2 _ h).2.2
  · exact ⟨hP.add, h.1, (neg_allowed hP).1 _ h.2.1, trivial⟩
  · exact ⟨hop, h⟩

theorem flat_allowed {P : Op → Prop} {Q : Nat → Prop} (op : Op) (ts : List Item) (h : AllowedL P Q ts) :
    AllowedL P Q (flat op ts) := by
  rw [allowedL_iff] at h ⊢
  induction ts with
  | nil => simp [flat]
  | cons t ts ih =>
    intro u hu
    simp only [flat, List.mem_append] at hu
    rcases hu with hu | hu
    · cases hs : sameOp op t with
      | none => rw [hs] at hu; simp only [List.mem_singleton] at hu; subst hu; exact h _ (by simp)
      | some us =>
        rw [hs] at hu
        have := sameOp_some hs
        subst this
        exact allowed_sub op us (h (.expr op us) (by simp)) u hu
    · exact ih (fun t ht => h t (List.mem_cons_of_mem _ ht)) u hu

theorem nonInts_allowed {P : Op → Prop} {Q : Nat → Prop} (ts : List Item) (h : AllowedL P Q ts) : AllowedL P Q (nonInts ts) := by
  rw [allowedL_iff] at h ⊢
  exact fun t ht => h t (nonInts_mem ht).1

theorem allowedL_append {P : Op → Prop} {Q : Nat → Prop} (a b : List Item) :
    AllowedL P Q (a ++ b) ↔ AllowedL P Q a ∧ AllowedL P Q b := by
  simp only [allowedL_iff, List.mem_append]
  constructor
  · intro h; exact ⟨fun t ht => h t (Or.inl ht), fun t ht => h t (Or.inr ht)⟩
  · rintro ⟨h1, h2⟩ t (ht | ht)
    · exact h1 t ht
    · exact h2 t ht

/-- Every term of the given terms is allowed. -/
def TermsAllowed (P : Op → Prop) (Q : Nat → Prop) : Terms → Prop
  | .plain ts => AllowedL P Q ts
  | .withInt pre _ post => AllowedL P Q pre ∧ AllowedL P Q post

theorem terms_list {P : Op → Prop} {Q : Nat → Prop} {ts : Terms} (h : TermsAllowed P Q ts) : AllowedL P Q ts.list := by
  cases ts with
  | plain ts => exact h
  | withInt pre i post => exact (allowedL_append _ _).2 ⟨h.1, trivial, h.2⟩

theorem simpId_allowed {P : Op → Prop} {Q : Nat → Prop} (hP : Base P) (regmul : Bool) (op : Op) (pre : List Item) (i : Intnum)
    (post : List Item) (del : Option Fault) (hop : P op) (h1 : AllowedL P Q pre) (h2 : AllowedL P Q post) (r : Op × Terms)
    (h : simpId regmul op pre i post del = .ok r) : P r.1 ∧ TermsAllowed P Q r.2 := by
  rcases simpId_cases regmul op pre i post del with ⟨hc, _⟩ | ⟨f, _, hc, _⟩ | ⟨j, hc⟩ | ⟨hc, _⟩ <;> rw [hc] at h
  · cases h; exact ⟨by dsimp only; split <;> first | exact hP.ident | exact hop, (allowedL_append _ _).2 ⟨h1, h2⟩⟩
  · cases h
  · cases h; exact ⟨hP.ident, trivial, trivial⟩
  · cases h; exact ⟨hop, h1, h2⟩

theorem levelGo_allowed {P : Op → Prop} {Q : Nat → Prop} (hP : Base P) (regmul : Bool) (op : Op) (old : Nat) (pre : List Item) (i : Intnum)
    (post : List Item) (folded : List Intnum) (hop : P op) (h1 : AllowedL P Q pre) (h2 : AllowedL P Q post) (n : Node)
    (h : (levelGo regmul op old pre i post folded).out = .ok n) : Allowed P Q n.item := by
  simp only [levelGo] at h
  cases hs : simpId regmul op pre (foldInts op i folded).1 post
      (if pre.length + 1 + post.length < old then some Fault.outOfBounds else Option.none) with
  | error e => rw [hs] at h; cases h
  | ok r =>
    rw [hs] at h
    simp only [Except.map, Except.ok.injEq] at h
    subst h
    obtain ⟨a, b⟩ := simpId_allowed hP _ _ _ _ _ _ hop h1 h2 _ hs
    exact ⟨a, terms_list b⟩

theorem levelTail_allowed {P : Op → Prop} {Q : Nat → Prop} (hP : Base P) (regmul : Bool) (op : Op) (fold : Bool) (old : Nat) (extra : Int)
    (ts : Terms) (hop : P op) (h : TermsAllowed P Q ts) (n : Node)
    (hn : (levelTail regmul op fold old extra ts).out = .ok n) : Allowed P Q n.item := by
  simp only [levelTail] at hn
  split at hn
  · cases fold
    · simp only [levelUp, Bool.false_eq_true, if_false, M.pure, Except.ok.injEq] at hn
      subst hn; exact ⟨hop, flat_allowed _ _ (terms_list h)⟩
    · simp only [levelUp, if_true] at hn
      split at hn
      · cases hn
      · cases ts with
        | withInt pre i post =>
          exact levelGo_allowed hP _ _ _ _ _ _ _ hop (nonInts_allowed _ (flat_allowed _ _ h.1)) (nonInts_allowed _ (flat_allowed _ _ h.2)) n hn
        | plain ts =>
          dsimp only at hn
          have hf := flat_allowed op ts h
          split at hn
          · rename_i pre i post he
            rw [splitLastInt_some he, allowedL_append] at hf
            exact levelGo_allowed hP _ _ _ _ _ _ _ hop (nonInts_allowed _ hf.1) hf.2.2 n hn
          · simp only [M.pure, Except.ok.injEq] at hn
            subst hn; exact ⟨hop, hf⟩
  · simp only [M.pure, Except.ok.injEq] at hn
    subst hn; exact ⟨hop, terms_list h⟩

theorem levelNode_allowed {P : Op → Prop} {Q : Nat → Prop} (hP : Base P) (regmul : Bool) (op : Op) (ts : List Item)
    (h : Allowed P Q (.expr op ts)) (n : Node) (hn : (levelNode regmul op ts).out = .ok n) : Allowed P Q n.item := by
  have hts : AllowedL P Q (ts.map bringUp) := by
    rw [allowedL_iff]
    intro t ht
    obtain ⟨u, hu, rfl⟩ := List.mem_map.1 ht
    exact (bringUp_keep (Allowed P Q) allowed_sub).1 u (allowed_sub _ _ h u hu)
  simp only [levelNode] at hn
  cases hsp : (if (!nonnum op) = true then splitInt (ts.map bringUp) else Option.none) with
  | none =>
    rw [hsp] at hn
    exact levelTail_allowed hP _ _ _ _ _ (.plain _) h.1 hts n hn
  | some r =>
    obtain ⟨pre, i, post⟩ := r
    rw [hsp] at hn
    dsimp only at hn
    have he : splitInt (ts.map bringUp) = some (pre, i, post) := by
      split at hsp
      · exact hsp
      · cases hsp
    rw [(splitInt_some he).1, allowedL_append] at hts
    generalize hg : simpId regmul op pre (foldInts op i (ints post)).1 (nonInts post)
      (tailFault (List.drop (pre.length + 1 + (nonInts post).length) (ts.map bringUp))) = g at hn
    cases g with
    | error f => cases hn
    | ok r =>
      obtain ⟨op', ts'⟩ := r
      obtain ⟨a, b⟩ := simpId_allowed hP _ _ _ _ _ _ h.1 hts.1 (nonInts_allowed _ hts.2.2) _ hg
      exact levelTail_allowed hP _ _ _ _ _ _ a b n hn

theorem levelOp_allowed {P : Op → Prop} {Q : Nat → Prop} (hP : Base P) (regmul : Bool) (e : Node) (h : Allowed P Q e.item) (n : Node)
    (hn : (levelOp regmul e).out = .ok n) : Allowed P Q n.item := by
  simp only [levelOp] at hn
  split at hn
  · rename_i op ts he
    refine levelNode_allowed hP _ _ _ ?_ n hn
    rw [← he]
    exact ((stripTop_keep (Allowed P Q) allowed_sub).1 _).1 h
  · simp only [M.pure, Except.ok.injEq] at hn
    subst hn; exact h

theorem segSimp_allowed {P : Op → Prop} {Q : Nat → Prop} (hP : Base P) (op : Op) (ts : List Item) (h : Allowed P Q (.expr op ts)) :
    Allowed P Q (segSimp op ts).item := by
  unfold segSimp
  split
  · exact ⟨hP.ident, ⟨hP.ident, h.2.1.2.1, trivial⟩, h.2.2⟩
  · exact h

theorem levelKids_allowed {P : Op → Prop} {Q : Nat → Prop} (f : Node → M Node)
    (hf : ∀ n m, Allowed P Q n.item → (f n).out = .ok m → Allowed P Q m.item) (ts : List Item) (h : AllowedL P Q ts) (r : List Item)
    (hr : (levelKids f ts).out = .ok r) : AllowedL P Q r := by
  induction ts generalizing r with
  | nil => simp only [levelKids, M.pure, Except.ok.injEq] at hr; subst hr; trivial
  | cons t ts ih =>
    have step : ∀ t, Allowed P Q t → ((levelKids f ts).bind fun r => M.pure (t :: r)).out = .ok r → AllowedL P Q r := by
      intro t ht hr
      obtain ⟨l, h1, h2, _⟩ := bind_out hr
      simp only [M.pure, Except.ok.injEq] at h2
      subst h2
      exact ⟨ht, ih h.2 l h1⟩
    cases t
    case expr op us =>
      simp only [levelKids] at hr
      obtain ⟨n, h1, h2, _⟩ := bind_out hr
      exact step n.item (hf ⟨op, us⟩ n h.1 h1) h2
    all_goals exact step _ h.1 hr

theorem levelTree_allowed {P : Op → Prop} {Q : Nat → Prop} (hP : Base P) (regmul : Bool) (post : Node → M Node)
    (hpost : ∀ n m, Allowed P Q n.item → (post n).out = .ok m → Allowed P Q m.item) (k : Nat) :
    ∀ e n, Allowed P Q e.item → (levelTree regmul post k e).out = .ok n → Allowed P Q n.item := by
  induction k with
  | zero => intro e n _ h; cases h
  | succ k ih =>
    intro e n h hn
    simp only [levelTree] at hn
    have hx := xformNeg_allowed hP e.op e.terms h.2 h.1
    split at hn
    · rename_i op ts he
      rw [he] at hx
      obtain ⟨ts', h1, h2, _⟩ := bind_out hn
      obtain ⟨m, h3, h4, _⟩ := bind_out h2
      refine hpost m n ?_ h4
      exact levelOp_allowed hP _ _ (segSimp_allowed hP _ _ ⟨hx.1, levelKids_allowed _ (fun a b => ih a b) ts hx.2 ts' h1⟩) _ h3
    · cases hn

theorem pure_allowed {P : Op → Prop} {Q : Nat → Prop} (n m : Node) (h : Allowed P Q n.item) (hm : (M.pure n).out = .ok m) :
    Allowed P Q m.item := by
  simp only [M.pure, Except.ok.injEq] at hm
  exact hm ▸ h

theorem distStep_allowed {P : Op → Prop} {Q : Nat → Prop} (c : Ctx) (ts : List Item) (i : Nat) (h : AllowedL P Q ts) :
    AllowedL P Q (distStep c (distInt c) ts i) := by
  unfold distStep
  split
  · exact h
  · rename_i p hp
    split
    · exact h
    · rename_i ts' hr
      obtain ⟨j, u, t, q, _, _, k3, rfl, _⟩ := replaceFirst_some c _ p ts ts' hr
      simp only [distInt, Option.map_eq_some_iff] at k3
      obtain ⟨d, _, rfl⟩ := k3
      rw [allowedL_iff] at h ⊢
      intro x hx
      rcases List.mem_or_eq_of_mem_set hx with hx | rfl
      · rcases List.mem_or_eq_of_mem_set hx with hx | rfl
        · exact h x hx
        · trivial
      · trivial

theorem distPost_allowed {P : Op → Prop} {Q : Nat → Prop} (hP : Base P) (c : Ctx) (regmul : Bool) (n m : Node)
    (h : Allowed P Q n.item) (hm : (distPost c regmul n).out = .ok m) : Allowed P Q m.item := by
  refine levelTree_allowed hP regmul M.pure pure_allowed _ _ m ?_ hm
  unfold xformDist
  split
  · exact h
  · have hf : ∀ (l : List Nat) (ts : List Item), AllowedL P Q ts → AllowedL P Q (l.foldl (distStep c (distInt c)) ts) := by
      intro l
      induction l with
      | nil => intro ts h; exact h
      | cons i l ih => intro ts h; exact ih _ (distStep_allowed c ts i h)
    have := hf (List.range n.terms.length) n.terms h.2
    refine ⟨?_, ?_⟩
    · show P (if _ then _ else _)
      split
      · exact hP.ident
      · exact hP.add
    · rw [allowedL_iff] at this ⊢
      intro t ht
      exact this t (List.mem_filter.1 ht).1

theorem expand_allowed {P : Op → Prop} {Q : Nat → Prop} (f : Nat → Option (Item × Bool × Bool))
    (hf : ∀ s r, Q s → f s = some r → Allowed P Q r.1) :
    (∀ t, Allowed P Q t → Allowed P Q (expandItem f t).1) ∧ (∀ ts, AllowedL P Q ts → AllowedL P Q (expandItems f ts).1) := by
  apply item_ind
  · intro t hl h
    cases t
    case sym s =>
      simp only [expandItem]
      split
      · exact h
      · rename_i r hr; exact hf s r h hr
    case expr => exact absurd hl (by simp [Leaf])
    all_goals exact h
  · intro op ts ih h; exact ⟨h.1, ih h.2⟩
  · intro _; trivial
  · intro t ts iht ihs h
    simp only [expandItems]
    split
    · exact ⟨iht h.1, h.2⟩
    · exact ⟨iht h.1, ihs h.2⟩

/-- The definitions of allowed EQU symbols are allowed. -/
def EquAllowed (P : Op → Prop) (Q : Nat → Prop) (c : Ctx) : Prop := ∀ s d, Q s → c.equ s = some d → Allowed P Q d.item

theorem onEqu_allowed {P : Op → Prop} {Q : Nat → Prop} (c : Ctx) (hc : EquAllowed P Q c) (k : Nat) :
    ∀ seen s r, Q s → onEqu c k seen s = some r → Allowed P Q r.1 := by
  induction k with
  | zero => intro seen s r _ h; cases h
  | succ k ih =>
    intro seen s r hq h
    simp only [onEqu] at h
    split at h
    · cases h
    · rename_i d hd
      have h2 := hc s d hq hd
      split at h
      · cases h; exact hq
      · cases h; exact ⟨h2.1, (expand_allowed _ (ih (s :: seen))).2 _ h2.2⟩

/-- Simplification uses no operators but those of the expression, of EQU definitions, and IDENT, + and *;
    and no symbols but those of the expression and of EQU definitions. -/
theorem simplify_allowed {P : Op → Prop} {Q : Nat → Prop} (hP : Base P) (c : Ctx) (hc : EquAllowed P Q c) (nequ : Nat)
    (regmul dist : Bool) (e n : Node) (h : Allowed P Q e.item) (hn : (simplify c nequ regmul dist e).out = .ok n) :
    Allowed P Q n.item := by
  simp only [simplify] at hn
  refine levelTree_allowed hP regmul _ ?_ _ _ n ?_ hn
  · intro a b ha hb
    cases dist
    · exact pure_allowed a b ha hb
    · exact distPost_allowed hP c regmul a b ha hb
  · exact ⟨h.1, (expand_allowed _ (onEqu_allowed c hc (nequ + 1) [])).2 _ h.2⟩

end Verif.Value
