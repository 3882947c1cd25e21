import Verif.Expr.Lemmas
import Verif.Expr.Tree
/- Termination, constant folding and memory safety of simplification. -/
set_option linter.unusedSimpArgs false
namespace Verif.Expr
open Verif.Intnum

/-! Recursion bound -/

theorem height_le_heightL {t : Item} {ts : List Item} (h : t ∈ ts) : height t ≤ heightL ts := by
  induction ts with
  | nil => cases h
  | cons a ts ih =>
    simp only [heightL]
    rcases List.mem_cons.1 h with rfl | h
    · omega
    · have := ih h; omega

theorem heightL_le {ts : List Item} {k : Nat} (h : ∀ t ∈ ts, height t ≤ k) : heightL ts ≤ k := by
  induction ts with
  | nil => simp [heightL]
  | cons a ts ih =>
    simp only [heightL]
    have := h a (by simp); have := ih (fun t ht => h t (by simp [ht])); omega

theorem height_minusOne : height minusOne = 0 := rfl

mutual
theorem neg_height (t : Item) : height (neg t) ≤ height t + 1 := by
  match t with
  | .none => simp [neg, height, heightL, height_minusOne]
  | .reg _ => simp [neg, height, heightL, height_minusOne]
  | .int _ => simp [neg, height, heightL, height_minusOne]
  | .subst _ => simp [neg, height, heightL, height_minusOne]
  | .flt _ _ => simp [neg, height, heightL, height_minusOne]
  | .sym _ => simp [neg, height, heightL, height_minusOne]
  | .precbc _ => simp [neg, height, heightL, height_minusOne]
  | .expr op ts =>
    have h1 := negL_height ts
    have h2 := negHead_height ts
    have h3 := negIdent_height ts
    cases op <;> simp only [neg, height, heightL, height_minusOne] <;> omega
theorem negL_height (ts : List Item) : heightL (negL ts) ≤ heightL ts + 1 := by
  match ts with
  | [] => simp [negL, heightL]
  | t :: ts => have := neg_height t; have := negL_height ts; simp only [negL, heightL]; omega
theorem negHead_height (ts : List Item) : heightL (negHead ts) ≤ heightL ts + 1 := by
  match ts with
  | [] => simp [negHead, heightL]
  | t :: ts => have := neg_height t; simp only [negHead, heightL]; omega
theorem negIdent_height (ts : List Item) : height (negIdent ts) ≤ heightL ts + 2 := by
  match ts with
  | [] => simp [negIdent, height, heightL]
  | t :: ts =>
    have := neg_height t
    cases t <;> simp only [negIdent, height, heightL, height_minusOne] at * <;> try omega
    rename_i op us
    split
    · cases op <;> simp only [height, heightL] at * <;> omega
    · simp only [height, heightL, height_minusOne]; omega
end

theorem negIdent_expr (ts : List Item) :
    ∃ op' ts', negIdent ts = .expr op' ts' ∧ heightL ts' ≤ heightL ts + 1 := by
  have h := negIdent_height ts
  have hex : ∃ op' ts', negIdent ts = .expr op' ts' := by
    match ts with
    | [] => exact ⟨_, _, rfl⟩
    | t :: ts =>
      cases t <;> simp only [negIdent] <;> first | exact ⟨_, _, rfl⟩ | skip
      rename_i op us
      split
      · cases op <;> exact ⟨_, _, rfl⟩
      · exact ⟨_, _, rfl⟩
  obtain ⟨op', ts', e⟩ := hex
  refine ⟨op', ts', e, ?_⟩
  rw [e] at h
  simp only [height] at h
  split at h <;> omega

theorem xformNeg_height (op : Op) (ts : List Item) :
    ∃ op' ts', xformNeg op ts = .expr op' ts' ∧ heightL ts' < height (.expr op ts) := by
  unfold xformNeg
  split
  · obtain ⟨op', ts', e, h⟩ := negIdent_expr ts
    refine ⟨op', ts', e, ?_⟩
    simp only [height]; omega
  · rename_i a b
    refine ⟨_, _, rfl, ?_⟩
    have := neg_height b
    simp only [height, heightL]; omega
  · refine ⟨op, ts, rfl, ?_⟩
    simp only [height]
    split <;> omega

/-- The computation did not run out of recursion bound. -/
def NoFuel {α : Type} (m : M α) : Prop := m.out ≠ .error .fuel

theorem bind_noFuel {α β : Type} {x : M α} {f : α → M β} (hx : NoFuel x) (hf : ∀ a, x.out = .ok a → NoFuel (f a)) :
    NoFuel (x.bind f) := by
  unfold NoFuel M.bind at *
  cases hxo : x.out with
  | error e => rw [hxo] at hx; simpa using hx
  | ok a => simpa using hf a hxo

theorem simpId_noFuel (regmul : Bool) (op : Op) (pre : List Item) (i : Intnum) (post : List Item)
    (del : Option Fault) (h : del ≠ some .fuel) : simpId regmul op pre i post del ≠ .error .fuel := by
  simp only [simpId]
  split
  · simp
  · split
    · cases del with
      | none => simp
      | some f => simp only [ne_eq, Except.error.injEq]; intro hh; exact h (by rw [hh])
    · split <;> simp

theorem tailFault_noFuel (ts : List Item) : tailFault ts ≠ some .fuel := by
  induction ts with
  | nil => simp [tailFault]
  | cons t ts ih => cases t <;> simp [tailFault, ih]

theorem levelGo_noFuel (regmul : Bool) (op : Op) (old : Nat) (pre : List Item) (i : Intnum) (post : List Item)
    (folded : List Intnum) : NoFuel (levelGo regmul op old pre i post folded) := by
  unfold NoFuel levelGo
  have := simpId_noFuel regmul op pre (foldInts op i folded).1 post
    (if pre.length + 1 + post.length < old then some .outOfBounds else Option.none) (by split <;> simp)
  revert this
  simp only
  generalize simpId regmul op pre (foldInts op i folded).1 post _ = s
  cases s <;> simp [Except.map]

theorem levelTail_noFuel (regmul : Bool) (op : Op) (fold : Bool) (old : Nat) (extra : Int) (ts : Terms) :
    NoFuel (levelTail regmul op fold old extra ts) := by
  unfold levelTail
  split
  · unfold levelUp
    split
    · split
      · simp [NoFuel]
      · split
        · apply levelGo_noFuel
        · split
          · apply levelGo_noFuel
          · simp [NoFuel, M.pure]
    · simp [NoFuel, M.pure]
  · simp [NoFuel, M.pure]

theorem levelNode_noFuel (regmul : Bool) (op : Op) (ts : List Item) : NoFuel (levelNode regmul op ts) := by
  unfold levelNode
  simp only
  split
  · apply levelTail_noFuel
  · rename_i pre i post hs
    have := simpId_noFuel regmul op pre (foldInts op i (ints post)).1 (nonInts post)
      (tailFault (List.drop (pre.length + 1 + (nonInts post).length) (ts.map bringUp))) (tailFault_noFuel _)
    revert this
    generalize simpId regmul op pre (foldInts op i (ints post)).1 (nonInts post) _ = s
    cases s with
    | error e => simp [NoFuel]
    | ok r => intro _; obtain ⟨op', ts'⟩ := r; exact levelTail_noFuel _ _ _ _ _ _

theorem levelOp_noFuel (regmul : Bool) (e : Node) : NoFuel (levelOp regmul e) := by
  unfold levelOp
  split
  · apply levelNode_noFuel
  · simp [NoFuel, M.pure]

theorem levelKids_noFuel (f : Node → M Node) (ts : List Item)
    (hf : ∀ op us, Item.expr op us ∈ ts → NoFuel (f ⟨op, us⟩)) : NoFuel (levelKids f ts) := by
  induction ts with
  | nil => simp [levelKids, NoFuel, M.pure]
  | cons t ts ih =>
    have ih' := ih (fun op us h => hf op us (by simp [h]))
    cases t
    case expr op us =>
      simp only [levelKids]
      exact bind_noFuel (hf op us (by simp)) (fun _ _ => bind_noFuel ih' (fun _ _ => by simp [NoFuel, M.pure]))
    all_goals
      simp only [levelKids]
      exact bind_noFuel ih' (fun _ _ => by simp [NoFuel, M.pure])

theorem levelTree_noFuel (regmul : Bool) (post : Node → M Node) (hp : ∀ n, NoFuel (post n)) (k : Nat) :
    ∀ e : Node, height e.item ≤ k → NoFuel (levelTree regmul post k e) := by
  induction k with
  | zero =>
    intro e h
    simp only [Node.item, height] at h
    split at h <;> omega
  | succ k ih =>
    intro e h
    obtain ⟨op, ts, h1, h2⟩ := xformNeg_height e.op e.terms
    simp only [levelTree, h1]
    refine bind_noFuel (levelKids_noFuel _ ts ?_) (fun _ _ => bind_noFuel (levelOp_noFuel _ _) (fun _ _ => hp _))
    intro o us hm
    apply ih
    have := height_le_heightL hm
    simp only [Node.item] at h ⊢
    omega

theorem levelPlain_noFuel (regmul : Bool) (e : Node) : NoFuel (levelPlain regmul e) :=
  levelTree_noFuel regmul M.pure (fun _ => by simp [NoFuel, M.pure]) _ e (Nat.le_refl _)

theorem simplify_noFuel (c : Ctx) (nequ : Nat) (regmul dist : Bool) (e : Node) :
    NoFuel (simplify c nequ regmul dist e) := by
  refine levelTree_noFuel regmul _ ?_ _ _ (Nat.le_refl _)
  intro n
  cases dist
  · simp [NoFuel, M.pure]
  · exact levelPlain_noFuel _ _

end Verif.Expr
