import Verif.Expr.Equ
/- Where simplification releases every term exactly once. -/
set_option linter.unusedSimpArgs false
namespace Verif.Expr
open Verif.Intnum

mutual
/-- A simplified term: the nodes that can be leveled have at least two terms, at most one of them a number,
    and no IDENT among them. -/
def Neat : Item → Prop
  | .expr op ts =>
    (multi op = true → 2 ≤ ts.length ∧ (ints ts).length ≤ 1 ∧ ∀ t ∈ ts, bringUp t = t) ∧ NeatL ts
  | _ => True
/-- All terms are `Neat`. -/
def NeatL : List Item → Prop
  | [] => True
  | t :: ts => Neat t ∧ NeatL ts
end

theorem neatL_iff (ts : List Item) : NeatL ts ↔ ∀ t ∈ ts, Neat t := by
  induction ts with
  | nil => simp [NeatL]
  | cons t ts ih => simp [NeatL, ih]

theorem calmL_iff (ts : List Item) : CalmL ts ↔ ∀ t ∈ ts, Calm t := by
  induction ts with
  | nil => simp [CalmL]
  | cons t ts ih => simp [CalmL, ih]

theorem bringUp_spec : (∀ t, (Neat t → Neat (bringUp t)) ∧ bringUp (bringUp t) = bringUp t) ∧
    (∀ ts, (NeatL ts → Neat (bringUpHead ts)) ∧ bringUp (bringUpHead ts) = bringUpHead ts) := by
  apply item_ind
  · intro t hl
    cases t
    case expr => exact absurd hl (by simp [Leaf])
    all_goals exact ⟨fun h => h, rfl⟩
  · intro op ts ih
    by_cases h : op = .IDENT
    · subst h; exact ⟨fun h => ih.1 h.2, ih.2⟩
    · have : bringUp (.expr op ts) = .expr op ts := by cases op <;> first | contradiction | rfl
      rw [this]; exact ⟨fun h => h, this⟩
  · refine ⟨fun _ => ⟨by simp [multi], trivial⟩, rfl⟩
  · intro t ts iht _
    exact ⟨fun h => iht.1 h.1, iht.2⟩

theorem neat_bringUp {t : Item} (h : Neat t) : Neat (bringUp t) := (bringUp_spec.1 t).1 h
theorem bringUp_idem (t : Item) : bringUp (bringUp t) = bringUp t := (bringUp_spec.1 t).2

/-- After the initial loop either the node is unchanged or it is a simplified term. -/
theorem stripTop_spec : (∀ t : Item, ∀ op ts, t = .expr op ts → NeatL ts →
      ∃ op' ts', stripTop t = .expr op' ts' ∧ ((op' = op ∧ ts' = ts) ∨ Neat (.expr op' ts'))) ∧
    (∀ ts, NeatL ts → ∃ op' ts', stripHead ts = .expr op' ts' ∧ Neat (.expr op' ts')) := by
  apply item_ind
  · intro t hl op ts he; subst he; exact absurd hl (by simp [Leaf])
  · intro op ts ih o us he hn
    cases he
    by_cases h : op = .IDENT
    · subst h
      obtain ⟨a, b, c, d⟩ := ih hn
      exact ⟨a, b, c, Or.inr d⟩
    · have : stripTop (.expr op ts) = .expr op ts := by cases op <;> first | contradiction | rfl
      exact ⟨op, ts, this, Or.inl ⟨rfl, rfl⟩⟩
  · intro _; exact ⟨.IDENT, [], rfl, by simp [multi], trivial⟩
  · intro t ts iht _ hn
    cases t
    case expr o us =>
      obtain ⟨a, b, c, d⟩ := iht o us rfl hn.1.2
      refine ⟨a, b, c, ?_⟩
      rcases d with ⟨rfl, rfl⟩ | d
      · exact hn.1
      · exact d
    all_goals exact ⟨.IDENT, _, rfl, by simp [multi], hn⟩

theorem ints_append (a b : List Item) : ints (a ++ b) = ints a ++ ints b := by simp [ints]
theorem nonInts_append (a b : List Item) : nonInts (a ++ b) = nonInts a ++ nonInts b := by simp [nonInts]
theorem ints_nonInts (ts : List Item) : ints (nonInts ts) = [] := by
  induction ts with
  | nil => rfl
  | cons t ts ih => cases t <;> simpa [nonInts, ints, Item.isInt, Item.int?] using ih
theorem ints_of_nonInt {ts : List Item} (h : ∀ t ∈ ts, t.isInt = false) : ints ts = [] := by
  induction ts with
  | nil => rfl
  | cons t ts ih =>
    have := h t (by simp)
    have ih := ih (fun t ht => h t (by simp [ht]))
    cases t <;> first | simpa [ints, Item.int?] using ih | simp [Item.isInt] at this
theorem nonInts_of_nonInt {ts : List Item} (h : ∀ t ∈ ts, t.isInt = false) : nonInts ts = ts := by
  simp only [nonInts, List.filter_eq_self]
  intro t ht; simp [h t ht]
theorem nonInts_of_ints {ts : List Item} (h : ints ts = []) : nonInts ts = ts := by
  apply nonInts_of_nonInt
  induction ts with
  | nil => simp
  | cons t ts ih =>
    cases t
    case int => simp [ints, Item.int?] at h
    all_goals
      intro x hx
      rcases List.mem_cons.1 hx with rfl | hx
      · rfl
      · exact ih (by simpa [ints, Item.int?] using h) x hx
theorem length_split (ts : List Item) : (ints ts).length + (nonInts ts).length = ts.length := by
  induction ts with
  | nil => rfl
  | cons t ts ih =>
    cases t <;> simp only [ints, nonInts, Item.int?, Item.isInt, List.filterMap_cons, List.filter_cons, List.length_cons,
      Bool.not_false, Bool.not_true, Bool.false_eq_true, if_true, if_false] at * <;> omega
theorem nonInts_mem {ts : List Item} {t : Item} (h : t ∈ nonInts ts) : t ∈ ts ∧ t.isInt = false := by
  have := List.mem_filter.1 h
  exact ⟨this.1, by simpa using this.2⟩
theorem filter_isInt_length (ts : List Item) : (ts.filter Item.isInt).length = (ints ts).length := by
  induction ts with
  | nil => rfl
  | cons t ts ih => cases t <;> simp [ints, Item.isInt, Item.int?, List.filter_cons] at * <;> exact ih

/-- Terms as they are once IDENTs are brought up from simplified ones. -/
def Tidy (ts : List Item) : Prop := ∀ t ∈ ts, Neat t ∧ bringUp t = t

theorem tidy_append {a b : List Item} : Tidy (a ++ b) ↔ Tidy a ∧ Tidy b := by
  simp only [Tidy, List.mem_append]
  constructor
  · intro h; exact ⟨fun t ht => h t (Or.inl ht), fun t ht => h t (Or.inr ht)⟩
  · rintro ⟨h1, h2⟩ t (ht | ht)
    · exact h1 t ht
    · exact h2 t ht
theorem tidy_int (i : Intnum) (ts : List Item) : Tidy (.int i :: ts) ↔ Tidy ts := by
  simp [Tidy, Neat, bringUp]
theorem tidy_nonInts {ts : List Item} (h : Tidy ts) : Tidy (nonInts ts) := fun t ht => h t (nonInts_mem ht).1
theorem tidy_neatL {ts : List Item} (h : Tidy ts) : NeatL ts := (neatL_iff ts).2 fun t ht => (h t ht).1

theorem sameOp_some {op : Op} {t : Item} {us : List Item} (h : sameOp op t = some us) : t = .expr op us := by
  cases t <;> simp only [sameOp, reduceCtorEq] at h
  rename_i o vs
  by_cases hh : o = op
  · subst hh; simpa using h
  · simp [hh] at h

theorem flat_tidy (op : Op) (hm : multi op = true) (ts : List Item) (h : Tidy ts) : Tidy (flat op ts) := by
  induction ts with
  | nil => simpa [flat] using h
  | cons t ts ih =>
    simp only [flat]
    have ht := h t (by simp)
    refine tidy_append.2 ⟨?_, ih (fun x hx => h x (by simp [hx]))⟩
    cases hs : sameOp op t with
    | none => intro x hx; simp only [List.mem_singleton] at hx; subst hx; exact ht
    | some us =>
      have := sameOp_some hs
      subst this
      have h1 := ht.1.1 hm
      intro x hx
      exact ⟨(neatL_iff us).1 ht.1.2 x hx, h1.2.2 x hx⟩

/-- Every term brings up at least one term that is not a number. -/
theorem flat_nonInts (op : Op) (hm : multi op = true) (ts : List Item) (h : Tidy ts)
    (hn : ∀ t ∈ ts, t.isInt = false) : ts.length ≤ (nonInts (flat op ts)).length := by
  induction ts with
  | nil => simp
  | cons t ts ih =>
    have ih := ih (fun x hx => h x (by simp [hx])) (fun x hx => hn x (by simp [hx]))
    simp only [flat, nonInts_append, List.length_append, List.length_cons]
    have ht := h t (by simp)
    refine Nat.le_trans (Nat.add_le_add ih (Nat.le_refl 1)) (Nat.le_trans (Nat.le_of_eq (Nat.add_comm _ _)) (Nat.add_le_add ?_ (Nat.le_refl _)))
    cases hs : sameOp op t with
    | none => have := hn t (by simp); simp [nonInts, this]
    | some us =>
      have := sameOp_some hs
      subst this
      have h1 := ht.1.1 hm
      have := length_split us
      simp only; omega

theorem allIntKid_false (op : Op) (hm : multi op = true) (ts : List Item) (h : Tidy ts) :
    allIntKid op ts = false := by
  induction ts with
  | nil => rfl
  | cons t ts ih =>
    simp only [allIntKid, ih (fun x hx => h x (by simp [hx])), Bool.or_false]
    cases hs : sameOp op t with
    | none => rfl
    | some us =>
      have := sameOp_some hs
      subst this
      have h1 := (h _ (List.mem_cons_self ..)).1.1 hm
      have h2 := length_split us
      simp only
      cases ha : us.all Item.isInt with
      | false => rfl
      | true =>
        have : nonInts us = [] := by
          simp only [nonInts, List.filter_eq_nil_iff]
          intro t ht; simp [List.all_eq_true.1 ha t ht]
        rw [this] at h2
        simp at h2; omega

theorem isConstant_absorbing {op : Op} {i : Intnum} (h : isConstant op i = true) : Absorbing op := by
  simp only [isConstant, Bool.or_eq_true, Bool.and_eq_true, beq_iff_eq] at h
  simp only [Absorbing]
  rcases h with ((h | h) | h) | h <;> simp [h.2]

/-- The four ways `expr_simplify_identity` ends. -/
theorem simpId_cases (regmul : Bool) (op : Op) (pre : List Item) (i : Intnum) (post : List Item) (del : Option Fault) :
    (simpId regmul op pre i post del = .ok (if pre.length + post.length = 1 then .IDENT else op, .plain (pre ++ post)) ∧
      1 ≤ pre.length + post.length) ∨
    (∃ f, del = some f ∧ simpId regmul op pre i post del = .error f ∧ Absorbing op ∧ 1 ≤ pre.length + post.length) ∨
    (∃ j, simpId regmul op pre i post del = .ok (.IDENT, .withInt [] j [])) ∨
    (simpId regmul op pre i post del = .ok (op, .withInt pre i post) ∧ 1 ≤ pre.length + post.length) := by
  simp only [simpId]
  split
  · rename_i h
    left
    have e : pre.length + 1 + post.length - 1 = pre.length + post.length := by omega
    rw [e]
    refine ⟨rfl, ?_⟩
    simp only [Bool.and_eq_true, Bool.or_eq_true, decide_eq_true_eq, Bool.not_eq_true'] at h
    rcases h.2 with h | h
    · omega
    · cases pre with
      | nil => simp at h
      | cons _ _ => simp only [List.length_cons]; omega
  · split
    · rename_i h
      cases del with
      | none => right; right; left; exact ⟨i, rfl⟩
      | some f => right; left; exact ⟨f, rfl, rfl, isConstant_absorbing h.2, by omega⟩
    · split
      · right; right; left; exact ⟨_, rfl⟩
      · rename_i h; right; right; right; exact ⟨rfl, by omega⟩

/-- The result of a computation is a simplified node. -/
def Fine (m : M Node) : Prop := ∃ n, m.out = .ok n ∧ Neat n.item

theorem fine_pure {op : Op} {ts : List Item} (h : Tidy ts)
    (h2 : multi op = true → 2 ≤ ts.length ∧ (ints ts).length ≤ 1) : Fine (M.pure ⟨op, ts⟩) :=
  ⟨_, rfl, fun hm => ⟨(h2 hm).1, (h2 hm).2, fun t ht => (h t ht).2⟩, tidy_neatL h⟩

theorem levelGo_fine (regmul : Bool) (op : Op) (old : Nat) (pre : List Item) (i : Intnum) (post : List Item)
    (folded : List Intnum) (h1 : Tidy pre) (h2 : Tidy post) (hp : ints pre = []) (hq : ints post = [])
    (hold : old ≤ pre.length + 1 + post.length) : Fine (levelGo regmul op old pre i post folded) := by
  simp only [levelGo]
  rw [if_neg (by omega)]
  rcases simpId_cases regmul op pre (foldInts op i folded).1 post Option.none with ⟨h, hl⟩ | ⟨f, h, _⟩ | ⟨j, h⟩ | ⟨h, hl⟩
  · rw [h]
    refine ⟨_, rfl, ?_⟩
    have ht : Tidy (pre ++ post) := tidy_append.2 ⟨h1, h2⟩
    refine ⟨?_, tidy_neatL ht⟩
    split
    · simp [multi]
    · intro hm
      refine ⟨by simp only [Terms.list, List.length_append]; omega, by simp [Terms.list, ints_append, hp, hq],
        fun t hx => (ht t hx).2⟩
  · simp at h
  · rw [h]
    exact ⟨_, rfl, by simp [multi], by simp [Terms.list, NeatL, Neat]⟩
  · rw [h]
    have ht : Tidy (pre ++ .int (foldInts op i folded).1 :: post) := tidy_append.2 ⟨h1, (tidy_int _ _).2 h2⟩
    refine ⟨_, rfl, ?_, tidy_neatL ht⟩
    intro hm
    refine ⟨by simp only [Terms.list, List.length_append, List.length_cons]; omega, ?_, fun t hx => (ht t hx).2⟩
    have : ints (pre ++ .int (foldInts op i folded).1 :: post) = [(foldInts op i folded).1] := by
      rw [ints_append, hp]
      change [] ++ ((foldInts op i folded).1 :: ints post) = _
      rw [hq]; rfl
    simp only [Terms.list, this, List.length_singleton, Nat.le_refl]

/-- For the other operators the deletion loop is never reached. -/
theorem levelGo_old (regmul : Bool) (op : Op) (hab : ¬ Absorbing op) (o1 o2 : Nat) (pre : List Item) (i : Intnum)
    (post : List Item) (folded : List Intnum) :
    levelGo regmul op o1 pre i post folded = levelGo regmul op o2 pre i post folded := by
  have : ∀ d1 d2, simpId regmul op pre (foldInts op i folded).1 post d1 =
      simpId regmul op pre (foldInts op i folded).1 post d2 := by
    intro d1 d2
    have hc : isConstant op (foldInts op i folded).1 = false := by
      cases h : isConstant op (foldInts op i folded).1 with
      | false => rfl
      | true => exact absurd (isConstant_absorbing h) hab
    simp [simpId, hc]
  simp only [levelGo]
  rw [this]

theorem flat_length (op : Op) (ts : List Item) : ((flat op ts).length : Int) = ts.length + levelExtra op ts := by
  induction ts with
  | nil => rfl
  | cons t ts ih =>
    simp only [flat, levelExtra, List.length_append, List.length_cons]
    cases sameOp op t <;> simp <;> omega

theorem splitLast_some {ts pre post : List Item} {i : Intnum} (h : splitLastInt ts = some (pre, i, post)) :
    ts = pre ++ .int i :: post ∧ ∀ t ∈ post, t.isInt = false := by
  simp only [splitLastInt, Option.map_eq_some_iff] at h
  obtain ⟨⟨a, b, c⟩, h1, h2⟩ := h
  simp only [Prod.mk.injEq] at h2
  obtain ⟨rfl, rfl, rfl⟩ := h2
  obtain ⟨g1, g2⟩ := splitInt_some h1
  refine ⟨?_, by simpa using g2⟩
  have := congrArg List.reverse g1
  simpa using this

theorem splitLast_none {ts : List Item} (h : splitLastInt ts = Option.none) : ∀ t ∈ ts, t.isInt = false := by
  simp only [splitLastInt, Option.map_eq_none_iff] at h
  intro t ht
  exact splitInt_none h t (by simpa using ht)

/-- Leveling terms without a number of their own. -/
theorem levelTail_plain (regmul : Bool) (op : Op) (fold : Bool) (old : Nat) (extra : Int) (ts : List Item)
    (ht : Tidy ts) (hi : multi op = true → fold = true ∧ 2 ≤ ts.length ∧ ints ts = [])
    (hold : old ≤ ts.length + 1) : Fine (levelTail regmul op fold old extra (.plain ts)) := by
  unfold levelTail
  split
  · rename_i h
    obtain ⟨hf, h2, hno⟩ := hi h.1
    have hnon : ∀ t ∈ ts, t.isInt = false := by
      intro t htm
      have : nonInts ts = ts := nonInts_of_ints hno
      rw [← this] at htm
      exact (nonInts_mem htm).2
    simp only [levelUp, hf, if_true, Terms.list, allIntKid_false op h.1 ts ht, Bool.false_eq_true, if_false]
    have hfl := flat_tidy op h.1 ts ht
    have hcount := flat_nonInts op h.1 ts ht hnon
    cases hs : splitLastInt (flat op ts) with
    | none =>
      have hn := splitLast_none hs
      simp only
      refine fine_pure hfl (fun _ => ⟨?_, by simp [ints_of_nonInt hn]⟩)
      rw [nonInts_of_nonInt hn] at hcount; omega
    | some r =>
      obtain ⟨pre, i, post⟩ := r
      obtain ⟨e, hpost⟩ := splitLast_some hs
      simp only
      rw [e] at hfl hcount
      obtain ⟨t1, t2⟩ := tidy_append.1 hfl
      refine levelGo_fine regmul op old _ i post _ (tidy_nonInts t1) ((tidy_int i post).1 t2) (ints_nonInts pre)
        (ints_of_nonInt hpost) ?_
      rw [nonInts_append] at hcount
      have : nonInts (.int i :: post) = post := by
        change nonInts post = post
        exact nonInts_of_nonInt hpost
      rw [this, List.length_append] at hcount
      omega
  · exact fine_pure ht (fun hm => ⟨(hi hm).2.1, by change (ints ts).length ≤ 1; rw [(hi hm).2.2]; simp⟩)

/-- Leveling terms with one number. -/
theorem levelTail_withInt (regmul : Bool) (op : Op) (fold : Bool) (old : Nat) (extra : Int) (pre : List Item)
    (i : Intnum) (post : List Item) (h1 : Tidy pre) (h2 : Tidy post) (hp : ints pre = []) (hq : ints post = [])
    (hf : fold = true) (hl : 1 ≤ pre.length + post.length) (hold : old ≤ pre.length + 1 + post.length) :
    Fine (levelTail regmul op fold old extra (.withInt pre i post)) := by
  have ht : Tidy (pre ++ .int i :: post) := tidy_append.2 ⟨h1, (tidy_int _ _).2 h2⟩
  have hints : ints (pre ++ .int i :: post) = [i] := by
    rw [ints_append, hp]
    change [] ++ (i :: ints post) = _
    rw [hq]; rfl
  unfold levelTail
  split
  · rename_i h
    simp only [levelUp, hf, if_true, Terms.list, allIntKid_false op h.1 _ ht, Bool.false_eq_true, if_false]
    have non : ∀ l : List Item, ints l = [] → ∀ t ∈ l, t.isInt = false := by
      intro l hl t htm
      rw [← nonInts_of_ints hl] at htm
      exact (nonInts_mem htm).2
    have c1 := flat_nonInts op h.1 pre h1 (non pre hp)
    have c2 := flat_nonInts op h.1 post h2 (non post hq)
    exact levelGo_fine regmul op old _ i _ _ (tidy_nonInts (flat_tidy op h.1 pre h1))
      (tidy_nonInts (flat_tidy op h.1 post h2)) (ints_nonInts _) (ints_nonInts _) (by omega)
  · refine fine_pure ht (fun _ => ⟨?_, by simp [Terms.list, hints]⟩)
    simp only [Terms.list, List.length_append, List.length_cons]; omega

/-- Leveling a node whose terms are simplified. -/
theorem levelNode_fine (regmul : Bool) (op : Op) (ts : List Item) (hn : NeatL ts) (h2 : multi op = true → 2 ≤ ts.length)
    (ha : Absorbing op → ts.length ≤ 2 ∨ (ints (ts.map bringUp)).length ≤ 1) : Fine (levelNode regmul op ts) := by
  have ht : Tidy (ts.map bringUp) := by
    intro t hx
    obtain ⟨s, hs, rfl⟩ := List.mem_map.1 hx
    exact ⟨neat_bringUp ((neatL_iff ts).1 hn s hs), bringUp_idem s⟩
  have hlen : (ts.map bringUp).length = ts.length := by simp
  simp only [levelNode]
  generalize levelExtra op (ts.map bringUp) = extra
  generalize ts.map bringUp = us at *
  cases hs : (if (!nonnum op) = true then splitInt us else Option.none) with
  | none =>
    simp only
    refine levelTail_plain regmul op _ _ _ us ht ?_ (by omega)
    intro hm
    have hnn := multi_nonnum hm
    simp only [hnn, Bool.not_false, if_true] at hs
    exact ⟨by simp [hnn], by rw [hlen]; exact h2 hm, ints_of_nonInt (splitInt_none hs)⟩
  | some r =>
    obtain ⟨pre, i, post⟩ := r
    have hnn : nonnum op = false := by
      cases h : nonnum op with
      | false => rfl
      | true => rw [h] at hs; simp at hs
    simp only [hnn, Bool.not_false, if_true] at hs
    obtain ⟨e, hpre⟩ := splitInt_some hs
    subst e
    obtain ⟨t1, t2⟩ := tidy_append.1 ht
    have t2 := (tidy_int i post).1 t2
    have hp := ints_of_nonInt hpre
    have hcount := length_split post
    have hl : pre.length + 1 + post.length = ts.length := by
      simpa [Nat.add_assoc, Nat.add_comm, Nat.add_left_comm] using hlen
    simp only
    have htail : Absorbing op → 1 ≤ pre.length + (nonInts post).length → tailFault
        (List.drop (pre.length + 1 + (nonInts post).length) (pre ++ Item.int i :: post)) = Option.none := by
      intro hab h1
      rcases ha hab with h | h
      · rw [List.drop_eq_nil_of_le (by simp only [List.length_append, List.length_cons]; omega)]; rfl
      · have hi : (ints post).length = 0 := by
          rw [ints_append] at h
          change (ints pre ++ (i :: ints post)).length ≤ 1 at h
          simp only [List.length_append, List.length_cons] at h; omega
        rw [List.drop_eq_nil_of_le (by simp only [List.length_append, List.length_cons]; omega)]; rfl
    rcases simpId_cases regmul op pre (foldInts op i (ints post)).1 (nonInts post)
        (tailFault (List.drop (pre.length + 1 + (nonInts post).length) (pre ++ Item.int i :: post)))
      with ⟨h, hh⟩ | ⟨f, h, _, hab, hh⟩ | ⟨j, h⟩ | ⟨h, hh⟩
    · rw [h]
      have tt : Tidy (pre ++ nonInts post) := tidy_append.2 ⟨t1, tidy_nonInts t2⟩
      obtain ⟨n, hn1, hn2⟩ : Fine (levelTail regmul (if pre.length + (nonInts post).length = 1 then .IDENT else op)
          true (pre ++ Item.int i :: post).length extra (.plain (pre ++ nonInts post))) := by
        by_cases h3 : pre.length + (nonInts post).length = 1
        · rw [if_pos h3]
          refine ⟨⟨.IDENT, pre ++ nonInts post⟩, by simp [levelTail, multi, M.pure, Terms.list], ?_, tidy_neatL tt⟩
          simp [multi]
        · rw [if_neg h3]
          -- the deletion loop bound only matters for the absorbing operators
          by_cases hab : Absorbing op
          · refine levelTail_plain regmul op true _ extra _ tt ?_ ?_
            · intro hm
              exact ⟨rfl, by simp only [List.length_append]; omega, by rw [ints_append, hp, ints_nonInts]; rfl⟩
            · simp only [List.length_append, List.length_cons]
              rcases ha hab with h4 | h4
              · omega
              · rw [ints_append] at h4
                change (ints pre ++ (i :: ints post)).length ≤ 1 at h4
                simp only [List.length_append, List.length_cons] at h4; omega
          · have : levelTail regmul op true (pre ++ Item.int i :: post).length extra (.plain (pre ++ nonInts post)) =
                levelTail regmul op true 0 extra (.plain (pre ++ nonInts post)) := by
              unfold levelTail
              split
              · simp only [levelUp, if_true]
                split
                · rfl
                · split
                  · rename_i p1 i1 q1 _
                    exact levelGo_old regmul op hab _ _ _ _ _ _
                  · rfl
              · rfl
            rw [this]
            refine levelTail_plain regmul op true _ extra _ tt ?_ (by omega)
            intro hm
            exact ⟨rfl, by simp only [List.length_append]; omega, by rw [ints_append, hp, ints_nonInts]; rfl⟩
      exact ⟨n, by simpa only [hnn, Bool.not_false] using hn1, hn2⟩
    · rw [htail hab hh] at h; simp at h
    · rw [h]
      refine ⟨⟨.IDENT, [.int j]⟩, by simp [levelTail, multi, M.pure, Terms.list], ?_, ?_⟩
      · simp [multi]
      · simp [NeatL, Neat]
    · rw [h]
      obtain ⟨n, hn1, hn2⟩ : Fine (levelTail regmul op true (pre ++ Item.int i :: post).length extra
          (.withInt pre (foldInts op i (ints post)).1 (nonInts post))) := by
        by_cases hab : Absorbing op
        · refine levelTail_withInt regmul op true _ extra _ _ _ t1 (tidy_nonInts t2) hp (ints_nonInts post) rfl (by omega) ?_
          simp only [List.length_append, List.length_cons]
          rcases ha hab with h4 | h4
          · omega
          · rw [ints_append] at h4
            change (ints pre ++ (i :: ints post)).length ≤ 1 at h4
            simp only [List.length_append, List.length_cons] at h4; omega
        · have : levelTail regmul op true (pre ++ Item.int i :: post).length extra
              (.withInt pre (foldInts op i (ints post)).1 (nonInts post)) =
              levelTail regmul op true 0 extra (.withInt pre (foldInts op i (ints post)).1 (nonInts post)) := by
            unfold levelTail
            split
            · simp only [levelUp, if_true]
              split
              · rfl
              · exact levelGo_old regmul op hab _ _ _ _ _ _
            · rfl
          rw [this]
          exact levelTail_withInt regmul op true _ extra _ _ _ t1 (tidy_nonInts t2) hp (ints_nonInts post) rfl (by omega) (by omega)
      exact ⟨n, by simpa only [hnn, Bool.not_false] using hn1, hn2⟩

theorem levelOp_fine (regmul : Bool) (op : Op) (ts : List Item) (hn : NeatL ts) (h2 : multi op = true → 2 ≤ ts.length)
    (ha : Absorbing op → ts.length ≤ 2 ∨ (ints (ts.map bringUp)).length ≤ 1) : Fine (levelOp regmul ⟨op, ts⟩) := by
  obtain ⟨op', ts', e, h⟩ := stripTop_spec.1 (.expr op ts) op ts rfl hn
  simp only [levelOp, Node.item, e]
  rcases h with ⟨rfl, rfl⟩ | h
  · exact levelNode_fine regmul op' ts' hn h2 ha
  · refine levelNode_fine regmul op' ts' h.2 (fun hm => (h.1 hm).1) ?_
    intro hab
    have hm : multi op' = true := by rcases hab with rfl | rfl | rfl | rfl <;> rfl
    have : ts'.map bringUp = ts' := by
      have := (h.1 hm).2.2
      calc ts'.map bringUp = ts'.map id := List.map_congr_left this
        _ = ts' := by simp
    rw [this]
    exact Or.inr (h.1 hm).2.1

theorem minusOne_calm : Calm minusOne := trivial

theorem calmMul (a b : Item) (ha : Calm a) (hb : Calm b) : Calm (.expr .MUL [a, b]) :=
  ⟨by simp [Arity], fun _ => Or.inl (by simp), ha, hb, trivial⟩

theorem not_absorbing_id : ¬ Absorbing .IDENT := by simp [Absorbing]
theorem not_absorbing_add : ¬ Absorbing .ADD := by simp [Absorbing]

theorem negIdent_calm (t : Item) (h : Calm t) (hneg : Calm (neg t)) : Calm (negIdent [t]) := by
  have idc : ∀ x, Calm x → Calm (.expr .IDENT [x]) := fun x hx =>
    ⟨rfl, fun hh => absurd hh not_absorbing_id, hx, trivial⟩
  match t with
  | .none => exact calmMul _ _ h trivial
  | .reg _ => exact calmMul _ _ h trivial
  | .int _ => exact idc _ trivial
  | .subst _ => exact calmMul _ _ h trivial
  | .flt _ _ => exact idc _ trivial
  | .sym _ => exact calmMul _ _ h trivial
  | .precbc _ => exact calmMul _ _ h trivial
  | .expr op us =>
    simp only [negIdent]
    split
    · cases op <;> first | exact idc _ hneg | exact idc _ h
    · exact calmMul _ _ h trivial

mutual
theorem neg_calm (t : Item) (h : Calm t) : Calm (neg t) := by
  match t with
  | .none => exact calmMul _ _ trivial h
  | .reg _ => exact calmMul _ _ trivial h
  | .int _ => exact calmMul _ _ trivial h
  | .subst _ => exact calmMul _ _ trivial h
  | .flt _ _ => exact calmMul _ _ trivial h
  | .sym _ => exact calmMul _ _ trivial h
  | .precbc _ => exact calmMul _ _ trivial h
  | .expr op ts =>
    by_cases h1 : op = .ADD
    · subst h1
      obtain ⟨a, b⟩ := negL_calm ts h.2.2
      exact ⟨by rw [b]; exact h.1, fun hh => absurd hh not_absorbing_add, a⟩
    · by_cases h2 : op = .SUB
      · subst h2
        have hl : ts.length = 2 := h.1
        match ts, h, hl with
        | [x, y], h, _ =>
          exact ⟨by simp [Arity, negHead], fun hh => absurd hh not_absorbing_add, neg_calm x h.2.2.1, h.2.2.2.1, trivial⟩
      · by_cases h3 : op = .NEG
        · subst h3
          exact ⟨h.1, fun hh => absurd hh not_absorbing_id, h.2.2⟩
        · by_cases h4 : op = .IDENT
          · subst h4
            have hl : ts.length = 1 := h.1
            match ts, h, hl with
            | [x], h, _ => exact negIdent_calm x h.2.2.1 (neg_calm x h.2.2.1)
          · have : neg (.expr op ts) = .expr .MUL [minusOne, .expr op ts] := by
              cases op <;> first | contradiction | rfl
            rw [this]
            exact calmMul _ _ trivial h
theorem negL_calm (ts : List Item) (h : CalmL ts) : CalmL (negL ts) ∧ (negL ts).length = ts.length := by
  match ts, h with
  | [], _ => exact ⟨trivial, rfl⟩
  | t :: ts, h =>
    have a := neg_calm t h.1
    obtain ⟨c, e⟩ := negL_calm ts h.2
    exact ⟨⟨a, c⟩, by simp only [negL, List.length_cons, e]⟩
end

theorem xformNeg_calm (op : Op) (ts : List Item) (h : Calm (.expr op ts)) :
    ∃ op' ts', xformNeg op ts = .expr op' ts' ∧ Calm (.expr op' ts') ∧ heightL ts' < height (.expr op ts) := by
  obtain ⟨op', ts', e, hh⟩ := xformNeg_height op ts
  refine ⟨op', ts', e, ?_, hh⟩
  rw [← e]
  by_cases h1 : op = .NEG
  · subst h1
    have hl : ts.length = 1 := h.1
    match ts, h, hl with
    | [x], h, _ => exact negIdent_calm x h.2.2.1 (neg_calm x h.2.2.1)
  · by_cases h2 : op = .SUB
    · subst h2
      have hl : ts.length = 2 := h.1
      match ts, h, hl with
      | [x, y], h, _ =>
        exact ⟨by simp [Arity], fun hh => absurd hh not_absorbing_add, h.2.2.1, neg_calm y h.2.2.2.1, trivial⟩
    · have : xformNeg op ts = .expr op ts := by cases op <;> first | contradiction | rfl
      rw [this]; exact h

theorem levelKids_fine (f : Node → M Node) (ts : List Item) (hf : ∀ op us, Item.expr op us ∈ ts → Fine (f ⟨op, us⟩)) :
    ∃ us, (levelKids f ts).out = .ok us ∧ NeatL us ∧ us.length = ts.length ∧ ((∀ t ∈ ts, Leaf t) → us = ts) := by
  induction ts with
  | nil => exact ⟨[], rfl, trivial, rfl, fun _ => rfl⟩
  | cons t ts ih =>
    obtain ⟨us, h1, h2, h3, h4⟩ := ih (fun op us h => hf op us (by simp [h]))
    have leaf : ∀ t : Item, (∀ op us, t ≠ .expr op us) →
        levelKids f (t :: ts) = (levelKids f ts).bind (fun r => M.pure (t :: r)) →
        ∃ us, (levelKids f (t :: ts)).out = .ok us ∧ NeatL us ∧ us.length = (t :: ts).length ∧
          ((∀ x ∈ t :: ts, Leaf x) → us = t :: ts) := by
      intro t ht e
      refine ⟨t :: us, ?_, ⟨?_, h2⟩, by simp [h3], fun hl => by rw [h4 (fun t ht => hl t (by simp [ht]))]⟩
      · simp only [e, M.bind, h1, M.pure]
      · cases t <;> first | trivial | exact absurd rfl (ht _ _)
    cases t
    case expr op vs =>
      obtain ⟨n, k1, k2⟩ := hf op vs (by simp)
      refine ⟨n.item :: us, ?_, ⟨k2, h2⟩, by simp [h3], ?_⟩
      · simp only [levelKids, M.bind, h1, k1, M.pure]
      · intro hl; exact absurd (hl _ (List.mem_cons_self ..)) (by simp [Leaf])
    all_goals
      refine leaf _ (fun _ _ h => by simp at h) ?_
      simp only [levelKids]

theorem levelTree_fine (regmul : Bool) (k : Nat) :
    ∀ e : Node, height e.item ≤ k → Calm e.item → Fine (levelTree regmul M.pure k e) := by
  induction k with
  | zero =>
    intro e h _
    simp only [Node.item, height] at h
    split at h <;> omega
  | succ k ih =>
    intro e h hc
    obtain ⟨op, ts, h1, h2, h4⟩ := xformNeg_calm e.op e.terms hc
    simp only [levelTree, h1]
    obtain ⟨us, k1, k2, k3, k4⟩ := levelKids_fine (levelTree regmul M.pure k) ts (by
      intro o vs hm
      have hcc := (calmL_iff ts).1 h2.2.2 _ hm
      have hh := height_le_heightL hm
      simp only [Node.item] at h
      exact ih ⟨o, vs⟩ (by simp only [Node.item]; omega) hcc)
    have key : Fine (levelOp regmul (segSimp op us)) := by
      unfold segSimp
      split
      · rename_i a rest rest2
        refine levelOp_fine regmul .IDENT _ ?_ (by simp [multi]) (fun hh => absurd hh not_absorbing_id)
        exact ⟨⟨by simp [multi], k2.1.2.1, trivial⟩, k2.2⟩
      · refine levelOp_fine regmul op us k2 ?_ ?_
        · intro hm
          rw [k3]
          have := h2.1
          cases op <;> simp_all [multi, Arity]
        · intro hab
          rcases h2.2.1 hab with h5 | ⟨h5, h6⟩
          · left; omega
          · right
            rw [k4 h5]
            have : ts.map bringUp = ts := by
              calc ts.map bringUp = ts.map id := List.map_congr_left (by
                    intro t ht
                    have := h5 t ht
                    cases t <;> first | rfl | exact absurd this (by simp [Leaf]))
                _ = ts := by simp
            rw [this, ← filter_isInt_length]
            exact h6
    obtain ⟨n, g1, g2⟩ := key
    refine ⟨n, ?_, g2⟩
    simp only [M.bind, k1, g1, M.pure]

/-- Expansion of an expression without EQU symbols changes nothing. -/
theorem expand_noEqu (c : Ctx) (k : Nat) (seen : List Nat) :
    (∀ t, (∀ s ∈ syms t, c.equ s = Option.none) → expandItem (onEqu c k seen) t = (t, false, false)) ∧
    (∀ ts, (∀ s ∈ symsL ts, c.equ s = Option.none) → expandItems (onEqu c k seen) ts = (ts, false)) := by
  apply item_ind
  · intro t hl h
    cases t
    case sym s =>
      have := h s (by simp [syms])
      have e : onEqu c k seen s = Option.none := by cases k <;> simp [onEqu, this]
      simp only [expandItem, e]
    case expr => exact absurd hl (by simp [Leaf])
    all_goals rfl
  · intro op ts ih h
    simp only [expandItem, ih (by simpa [syms] using h)]
  · intro _; rfl
  · intro t ts iht ihts h
    simp only [symsL, List.mem_append] at h
    simp only [expandItems, iht (fun s hs => h s (Or.inl hs)), ihts (fun s hs => h s (Or.inr hs))]
    rfl

theorem simplify_fine (c : Ctx) (nequ : Nat) (regmul : Bool) (e : Node) (hs : ∀ s ∈ syms e.item, c.equ s = Option.none)
    (hc : Calm e.item) : Fine (simplify c nequ regmul false e) := by
  have : (expandEqu c (nequ + 1) e).1 = e := by
    simp only [expandEqu, (expand_noEqu c (nequ + 1) []).2 e.terms hs]
  simp only [simplify, this, Bool.false_eq_true, if_false]
  exact levelTree_fine regmul _ e (Nat.le_refl _) hc

theorem create_fine (op : Op) (l : Item) (r : Option Item) (hl : Neat l) (hr : ∀ t, r = some t → Neat t)
    (ha : Arity op (1 + r.toList.length)) : Fine (create op l r) := by
  refine levelOp_fine false op _ ?_ ?_ ?_
  · refine ⟨neat_bringUp hl, ?_⟩
    cases r with
    | none => trivial
    | some t => exact ⟨neat_bringUp (hr t rfl), trivial⟩
  · intro hm
    cases r with
    | none => cases op <;> simp_all [multi, Arity]
    | some t => simp
  · intro _; left; cases r <;> simp

theorem built_neat {t : Item} (h : Built t) : Neat t := by
  induction h with
  | leaf h => cases ‹Item› <;> first | trivial | exact absurd h (by simp [Leaf])
  | node _ _ ha ho ihl ihr =>
    obtain ⟨n, h1, h2⟩ := create_fine _ _ _ ihl ihr ha
    rw [ho] at h1
    simp only [Except.ok.injEq] at h1
    subst h1; exact h2

end Verif.Expr
