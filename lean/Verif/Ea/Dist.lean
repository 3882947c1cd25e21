/-
Distributing products over sums with registers keeps the value, and the shape it leaves.
-/
import Verif.Ea.Lev

set_option linter.unusedSimpArgs false

namespace Verif.Ea

open Verif.Intnum
open Verif.Expr

theorem map_ok {α β : Type} {f : α → β} {x : Except Verif.Value.Stop α} {b : β} (h : x.map f = .ok b) :
    ∃ a, x = .ok a ∧ f a = b := by
  cases x with
  | error e => cases h
  | ok a => simp only [Except.map, Except.ok.injEq] at h; exact ⟨a, rfl, h⟩

theorem foldr_mul_factor (l : List Word) (i : Nat) (h : i < l.length) :
    ∃ r, ∀ y, (l.set i y).foldr (· * ·) 1 = y * r := by
  induction l generalizing i with
  | nil => simp at h
  | cons a l ih =>
    cases i with
    | zero => exact ⟨_, fun y => rfl⟩
    | succ i =>
      obtain ⟨r, h2⟩ := ih i (by simpa using h)
      refine ⟨a * r, fun y => ?_⟩
      simp only [List.set_cons_succ, List.foldr_cons, h2]
      rw [← BitVec.mul_assoc, ← BitVec.mul_assoc, BitVec.mul_comm a y]

theorem evalL_set (ρ : Env) (ts : List Item) (i : Nat) (u : Item) : evalL ρ (ts.set i u) = (evalL ρ ts).set i (eval ρ u) := by
  induction ts generalizing i with
  | nil => rfl
  | cons t ts ih => cases i <;> simp [evalL, ih]

theorem evalL_get (ρ : Env) (ts : List Item) (i : Nat) : (evalL ρ ts)[i]? = ts[i]?.map (eval ρ) := by
  induction ts generalizing i with
  | nil => rfl
  | cons t ts ih => cases i <;> simp [evalL, ih]

theorem set_same {α : Type} (l : List α) (i : Nat) (x : α) (h : l[i]? = some x) : l.set i x = l := by
  induction l generalizing i with
  | nil => rfl
  | cons a l ih =>
    cases i with
    | zero => simp at h; subst h; rfl
    | succ i => simp at h; simp [ih i h]

theorem sum_mul (l : List Word) (r : Word) : (l.map (· * r)).foldr (· + ·) 0 = l.foldr (· + ·) 0 * r := by
  induction l with
  | nil => simp
  | cons a l ih => simp only [List.map_cons, List.foldr_cons, ih, BitVec.add_mul]

theorem regOk_op {op : Op} {seen : Bool} (h : regOk op seen = true) (hA : op ≠ .ADD) (hM : op ≠ .MUL) : op = .IDENT := by
  unfold regOk at h
  split at h
  · exact absurd rfl hM
  · exact absurd rfl hA
  · rfl
  · cases h

theorem distribute_ok (ρ : Env) (ts : List Item) (i : Nat) (t : Item) (g : Good ρ (.expr .MUL ts))
    (h : distribute ts i = .ok t) : Good ρ t ∧ eval ρ t = eval ρ (.expr .MUL ts) := by
  unfold distribute at h
  split at h
  · rename_i us hi
    simp only [Except.ok.injEq] at h
    subst h
    have gl := (goodL_iff ρ ts).1 g.2.2
    have gu : Good ρ (.expr .ADD us) := gl _ (List.mem_of_getElem? hi)
    refine ⟨⟨?_, by simp, ?_⟩, ?_⟩
    · have := gu.1
      simp only [Arity, List.length_map] at this ⊢
      exact this
    · rw [goodL_iff]
      intro t ht
      obtain ⟨u, hu, rfl⟩ := List.mem_map.1 ht
      refine ⟨?_, by simp, ?_⟩
      · rw [List.length_set]; exact g.1
      · rw [goodL_iff]
        intro t ht
        rcases List.mem_or_eq_of_mem_set ht with ht | rfl
        · exact gl t ht
        · exact (goodL_iff ρ us).1 gu.2.2 _ hu
    · simp only [eval, opVal]
      have hlen : i < (evalL ρ ts).length := by
        rw [evalL_length]
        exact (List.getElem?_eq_some_iff.1 hi).1
      obtain ⟨r, hr⟩ := foldr_mul_factor (evalL ρ ts) i hlen
      have e1 : evalL ρ (us.map fun u => .expr .MUL (ts.set i u)) = (evalL ρ us).map (· * r) := by
        rw [evalL_eq, evalL_eq, List.map_map, List.map_map]
        refine List.map_congr_left fun u _ => ?_
        simp only [Function.comp, eval, opVal, evalL_set, hr]
      rw [e1, sum_mul]
      have : (evalL ρ ts).set i (eval ρ (.expr .ADD us)) = evalL ρ ts := by
        refine set_same _ _ _ ?_
        rw [evalL_get, hi]; rfl
      rw [← this, hr]
      simp only [eval, opVal]
  · cases h

theorem distcheck_ok (ρ : Env) :
    (∀ t, Good ρ t → ∀ b t', distcheck t = .ok (b, t') → Good ρ t' ∧ eval ρ t' = eval ρ t) ∧
    (∀ ts, GoodL ρ ts → ∀ op seen k d, distTerms op seen k ts = .ok d → GoodL ρ d.terms ∧ evalL ρ d.terms = evalL ρ ts) := by
  apply item_ind
  · intro t ht g b t' h
    cases t
    case expr => exact absurd ht id
    all_goals
      simp only [distcheck, Except.ok.injEq, Prod.mk.injEq] at h
      obtain ⟨_, rfl⟩ := h
      exact ⟨g, rfl⟩
  · intro op ts ih g b t' h
    simp only [distcheck] at h
    cases hd : distTerms op false 0 ts with
    | error e => rw [hd] at h; cases h
    | ok d =>
      rw [hd] at h
      obtain ⟨g1, g2⟩ := ih g.2.2 op false 0 d hd
      have hg : Good ρ (.expr op d.terms) := by
        refine ⟨?_, ?_, g1⟩
        · have : d.terms.length = ts.length := by rw [← evalL_length ρ, g2, evalL_length]
          rw [this]; exact g.1
        · rw [g2]; exact g.2.1
      have he : eval ρ (.expr op d.terms) = eval ρ (.expr op ts) := by simp only [eval, g2]
      dsimp only at h
      split at h
      · split at h
        · rename_i hop
          subst hop
          obtain ⟨t, h1, h2⟩ := map_ok h
          simp only [Prod.mk.injEq] at h2
          obtain ⟨_, rfl⟩ := h2
          obtain ⟨k1, k2⟩ := distribute_ok ρ _ _ _ hg h1
          exact ⟨k1, k2.trans he⟩
        · simp only [Except.ok.injEq, Prod.mk.injEq] at h
          obtain ⟨_, rfl⟩ := h
          exact ⟨hg, he⟩
      · simp only [Except.ok.injEq, Prod.mk.injEq] at h
        obtain ⟨_, rfl⟩ := h
        exact ⟨hg, he⟩
  · intro g op seen k d h
    simp only [distTerms, Except.ok.injEq] at h
    subst h
    exact ⟨trivial, rfl⟩
  · intro t ts iht ihts g op seen k d h
    have leaf : ∀ seen', ((distTerms op seen' (k + 1) ts).map fun d => { d with terms := t :: d.terms }) = .ok d →
        GoodL ρ d.terms ∧ evalL ρ d.terms = evalL ρ (t :: ts) := by
      intro seen' h
      obtain ⟨d', h1, rfl⟩ := map_ok h
      obtain ⟨g1, g2⟩ := ihts g.2 _ _ _ _ h1
      exact ⟨⟨g.1, g1⟩, by simp only [evalL, g2]⟩
    cases t
    case reg r =>
      simp only [distTerms] at h
      split at h
      · exact leaf true h
      · cases h
    case flt => exact absurd g.1 id
    case expr o us =>
      simp only [distTerms] at h
      split at h
      · split at h
        · cases h
        · split at h
          · cases h
          · cases hd : distcheck (.expr o us) with
            | error e => rw [hd] at h; cases h
            | ok r =>
              rw [hd] at h
              obtain ⟨c, t'⟩ := r
              obtain ⟨d', h1, rfl⟩ := map_ok h
              obtain ⟨g1, g2⟩ := ihts g.2 _ _ _ _ h1
              obtain ⟨g3, g4⟩ := iht g.1 _ _ hd
              exact ⟨⟨g3, g1⟩, by simp only [evalL, g2, g4]⟩
      · split at h
        · cases h
        · exact leaf seen h
    all_goals
      simp only [distTerms] at h
      exact leaf seen h

/-- Nothing changed: the expression is the same. -/
theorem distcheck_same :
    (∀ t t', distcheck t = .ok (false, t') → t' = t) ∧
    (∀ ts op seen k d, distTerms op seen k ts = .ok d → d.changed = false → d.terms = ts) := by
  apply item_ind
  · intro t ht t' h
    cases t
    case expr => exact absurd ht id
    all_goals
      simp only [distcheck, Except.ok.injEq, Prod.mk.injEq] at h
      exact h.2.symm
  · intro op ts ih t' h
    simp only [distcheck] at h
    cases hd : distTerms op false 0 ts with
    | error e => rw [hd] at h; cases h
    | ok d =>
      rw [hd] at h
      dsimp only at h
      split at h
      · split at h
        · obtain ⟨t, _, h2⟩ := map_ok h
          simp at h2
        · simp only [Except.ok.injEq, Prod.mk.injEq] at h
          obtain ⟨h1, rfl⟩ := h
          rw [ih _ _ _ d hd h1]
      · simp only [Except.ok.injEq, Prod.mk.injEq] at h
        obtain ⟨h1, rfl⟩ := h
        rw [ih _ _ _ d hd h1]
  · intro op seen k d h _
    simp only [distTerms, Except.ok.injEq] at h
    subst h; rfl
  · intro t ts iht ihts op seen k d h hc
    have leaf : ∀ seen', ((distTerms op seen' (k + 1) ts).map fun d => { d with terms := t :: d.terms }) = .ok d →
        d.terms = t :: ts := by
      intro seen' h
      obtain ⟨d', h1, rfl⟩ := map_ok h
      have := ihts _ _ _ _ h1 hc
      simp only [this]
    cases t
    case reg r =>
      simp only [distTerms] at h
      split at h
      · exact leaf true h
      · cases h
    case flt => simp only [distTerms] at h; cases h
    case expr o us =>
      simp only [distTerms] at h
      split at h
      · split at h
        · cases h
        · split at h
          · cases h
          · cases hd : distcheck (.expr o us) with
            | error e => rw [hd] at h; cases h
            | ok r =>
              rw [hd] at h
              obtain ⟨c, t'⟩ := r
              obtain ⟨d', h1, rfl⟩ := map_ok h
              simp only [Bool.or_eq_false_iff] at hc
              rw [hc.1] at hd
              rw [iht _ hd]
              dsimp only
              rw [ihts _ _ _ _ h1 hc.2]
      · split at h
        · cases h
        · exact leaf seen h
    all_goals
      simp only [distTerms] at h
      exact leaf seen h

mutual
/-- Registers only stand directly in products. -/
def Under : Item → Prop
  | .expr op ts => (∀ r, Item.reg r ∈ ts → op = .MUL) ∧ UnderL ts
  | _ => True
/-- In every term. -/
def UnderL : List Item → Prop
  | [] => True
  | t :: ts => Under t ∧ UnderL ts
end

theorem underL_iff (ts : List Item) : UnderL ts ↔ ∀ t ∈ ts, Under t := by
  induction ts with
  | nil => simp [UnderL]
  | cons t ts ih => simp [UnderL, ih]

theorem under_sub (op : Op) (ts : List Item) (h : Under (.expr op ts)) : ∀ t ∈ ts, Under t := (underL_iff ts).1 h.2

theorem hasRegL_false (ts : List Item) : hasRegL ts = false ↔ ∀ t ∈ ts, hasReg t = false := by
  induction ts with
  | nil => simp [hasRegL]
  | cons t ts ih => simp [hasRegL, ih]

theorem under_free : (∀ t, hasReg t = false → Under t) ∧ (∀ ts, hasRegL ts = false → UnderL ts) := by
  apply item_ind
  · intro t ht _
    cases t
    case expr => exact absurd ht id
    all_goals trivial
  · intro op ts ih h
    refine ⟨fun r hr => ?_, ih (by simpa [hasReg] using h)⟩
    have := (hasRegL_false ts).1 (by simpa [hasReg] using h) _ hr
    simp [hasReg] at this
  · intro _; trivial
  · intro t ts iht ihts h
    simp only [hasRegL, Bool.or_eq_false_iff] at h
    exact ⟨iht h.1, ihts h.2⟩

/-- The terms after the check of a product, except the one distributed. -/
def MulTerms (seen : Bool) (k : Nat) (d : Dist) : Prop :=
  match d.at_ with
  | none => UnderL d.terms
  | some i => seen = false ∧ k ≤ i ∧ (∀ j t, k + j ≠ i → d.terms[j]? = some t → Under t) ∧
      ∀ us, d.terms[i - k]? = some (.expr .ADD us) → UnderL us

theorem distTerms_at_lt (op : Op) : ∀ (ts : List Item) (seen : Bool) (k : Nat) (d : Dist), distTerms op seen k ts = .ok d →
    ∀ i, d.at_ = some i → k ≤ i := by
  intro ts
  induction ts with
  | nil => intro seen k d h i hi; simp only [distTerms, Except.ok.injEq] at h; subst h; cases hi
  | cons t ts ih =>
    intro seen k d h i hi
    have leaf : ∀ seen', ((distTerms op seen' (k + 1) ts).map fun d => { d with terms := t :: d.terms }) = .ok d → k ≤ i := by
      intro seen' h
      obtain ⟨d', h1, rfl⟩ := map_ok h
      have := ih _ _ _ h1 i hi
      omega
    cases t
    case reg r =>
      simp only [distTerms] at h
      split at h
      · exact leaf true h
      · cases h
    case flt => simp only [distTerms] at h; cases h
    case expr o us =>
      simp only [distTerms] at h
      split at h
      · split at h
        · cases h
        · split at h
          · cases h
          · cases hd : distcheck (.expr o us) with
            | error e => rw [hd] at h; cases h
            | ok r =>
              rw [hd] at h
              obtain ⟨c, t'⟩ := r
              obtain ⟨d', h1, rfl⟩ := map_ok h
              simp only [Option.some.injEq] at hi
              subst hi
              cases ha : d'.at_ with
              | none => simp
              | some j => have := ih _ _ _ h1 j ha; simp; omega
      · split at h
        · cases h
        · exact leaf seen h
    all_goals
      simp only [distTerms] at h
      exact leaf seen h

theorem distcheck_under :
    (∀ t, Lev t → ∀ b op' ts', distcheck t = .ok (b, .expr op' ts') →
      UnderL ts' ∧ ((∀ us, t ≠ .expr .ADD us) → Under (.expr op' ts'))) ∧
    (∀ ts, LevL ts → ∀ seen k,
      (∀ d, (∀ us, Item.expr .ADD us ∉ ts) → distTerms .ADD seen k ts = .ok d → UnderL d.terms) ∧
      (∀ d, distTerms .MUL seen k ts = .ok d → MulTerms seen k d) ∧
      (∀ op d, op ≠ .ADD → op ≠ .MUL → distTerms op seen k ts = .ok d →
        UnderL d.terms ∧ d.at_ = none ∧ (op ≠ .IDENT → ∀ r, Item.reg r ∉ d.terms))) := by
  apply item_ind
  · intro t ht _ b op' ts' h
    cases t
    case expr => exact absurd ht id
    all_goals simp [distcheck] at h
  · intro op ts ih hl b op' ts' h
    simp only [distcheck] at h
    cases hd : distTerms op false 0 ts with
    | error e => rw [hd] at h; cases h
    | ok d =>
      rw [hd] at h
      dsimp only at h
      obtain ⟨i1, i2, i3⟩ := ih hl.2.2 false 0
      by_cases hA : op = .ADD
      · subst hA
        have hu := i1 d (hl.2.1 rfl) hd
        have : ts' = d.terms := by
          split at h
          · split at h
            · rename_i hc; cases hc
            · simp only [Except.ok.injEq, Prod.mk.injEq, Item.expr.injEq] at h; exact h.2.2.symm
          · simp only [Except.ok.injEq, Prod.mk.injEq, Item.expr.injEq] at h; exact h.2.2.symm
        subst this
        exact ⟨hu, fun hne => absurd rfl (hne ts)⟩
      · by_cases hM : op = .MUL
        · subst hM
          have hm := i2 d hd
          have key : Under (.expr op' ts') := by
            unfold MulTerms at hm
            cases ha : d.at_ with
            | none =>
              rw [ha] at h hm
              simp only [Except.ok.injEq, Prod.mk.injEq, Item.expr.injEq] at h
              obtain ⟨_, rfl, rfl⟩ := h
              exact ⟨fun _ _ => rfl, hm⟩
            | some i =>
              rw [ha] at h hm
              simp only [if_true] at h
              obtain ⟨t, h1, h2⟩ := map_ok h
              simp only [Prod.mk.injEq] at h2
              obtain ⟨_, rfl⟩ := h2
              unfold distribute at h1
              split at h1
              · rename_i us hi
                simp only [Except.ok.injEq, Item.expr.injEq] at h1
                obtain ⟨rfl, rfl⟩ := h1
                obtain ⟨_, _, m3, m4⟩ := hm
                refine ⟨fun r hr => ?_, ?_⟩
                · obtain ⟨u, _, he⟩ := List.mem_map.1 hr; cases he
                · rw [underL_iff]
                  intro t ht
                  obtain ⟨u, hu, rfl⟩ := List.mem_map.1 ht
                  refine ⟨fun _ _ => rfl, ?_⟩
                  rw [underL_iff]
                  intro t ht
                  obtain ⟨j, hj⟩ := List.mem_iff_getElem?.1 ht
                  rw [List.getElem?_set] at hj
                  split at hj
                  · split at hj
                    · simp only [Option.some.injEq] at hj
                      subst hj
                      exact (underL_iff us).1 (m4 us hi) _ hu
                    · cases hj
                  · rename_i hne
                    exact m3 j t (by omega) hj
              · cases h1
          exact ⟨key.2, fun _ => key⟩
        · obtain ⟨u1, u2, u3⟩ := i3 op d hA hM hd
          rw [u2] at h
          simp only [Except.ok.injEq, Prod.mk.injEq, Item.expr.injEq] at h
          obtain ⟨_, rfl, rfl⟩ := h
          exact ⟨u1, fun _ => ⟨fun r hr => absurd hr (u3 hl.1 r), u1⟩⟩
  · intro _ seen k
    refine ⟨fun d _ h => ?_, fun d h => ?_, fun op d _ _ h => ?_⟩ <;>
      simp only [distTerms, Except.ok.injEq] at h <;> subst h
    · trivial
    · simp only [MulTerms]; trivial
    · exact ⟨trivial, rfl, by simp⟩
  · intro t ts iht ihts hl seen k
    -- a term that is kept as it is
    have leafM : Under t → ∀ seen' d, (seen = true → seen' = true) →
        ((distTerms .MUL seen' (k + 1) ts).map fun d => { d with terms := t :: d.terms }) = .ok d → MulTerms seen k d := by
      intro ht seen' d hs h
      obtain ⟨d', h1, rfl⟩ := map_ok h
      have := (ihts hl.2 seen' (k + 1)).2.1 d' h1
      unfold MulTerms at this ⊢
      dsimp only
      cases ha : d'.at_ with
      | none => rw [ha] at this; exact ⟨ht, this⟩
      | some i =>
        rw [ha] at this
        obtain ⟨a1, a2, a3, a4⟩ := this
        dsimp only
        refine ⟨by cases hh : seen with | false => rfl | true => rw [hs hh] at a1; exact a1, by omega, ?_, ?_⟩
        · intro j u hj hu
          cases j with
          | zero => simp at hu; subst hu; exact ht
          | succ j => simp at hu; exact a3 j u (by omega) hu
        · intro us hu
          have : i - k = (i - (k + 1)) + 1 := by omega
          rw [this] at hu
          simp at hu
          exact a4 us hu
    have leafA : Under t → ∀ seen' d, (∀ us, Item.expr .ADD us ∉ t :: ts) →
        ((distTerms .ADD seen' (k + 1) ts).map fun d => { d with terms := t :: d.terms }) = .ok d → UnderL d.terms := by
      intro ht seen' d hn h
      obtain ⟨d', h1, rfl⟩ := map_ok h
      exact ⟨ht, (ihts hl.2 seen' (k + 1)).1 d' (fun us hu => hn us (List.mem_cons_of_mem _ hu)) h1⟩
    have leafO : Under t → ∀ op seen' d, op ≠ .ADD → op ≠ .MUL → (op ≠ .IDENT → ∀ r, t ≠ .reg r) →
        ((distTerms op seen' (k + 1) ts).map fun d => { d with terms := t :: d.terms }) = .ok d →
        UnderL d.terms ∧ d.at_ = none ∧ (op ≠ .IDENT → ∀ r, Item.reg r ∉ d.terms) := by
      intro ht op seen' d hA hM hr h
      obtain ⟨d', h1, rfl⟩ := map_ok h
      obtain ⟨b1, b2, b3⟩ := (ihts hl.2 seen' (k + 1)).2.2 op d' hA hM h1
      refine ⟨⟨ht, b1⟩, b2, fun hi r hmem => ?_⟩
      rcases List.mem_cons.1 hmem with hmem | hmem
      · exact hr hi r hmem.symm
      · exact b3 hi r hmem
    cases t
    case reg r =>
      refine ⟨fun d hn h => ?_, fun d h => ?_, fun op d hA hM h => ?_⟩ <;> simp only [distTerms] at h <;> split at h
      · exact leafA trivial true d hn h
      · cases h
      · exact leafM trivial true d (fun _ => rfl) h
      · cases h
      · rename_i hr
        have hI : op = .IDENT := regOk_op hr hA hM
        exact leafO trivial op true d hA hM (fun hne => absurd hI hne) h
      · cases h
    case flt =>
      refine ⟨fun d hn h => ?_, fun d h => ?_, fun op d hA hM h => ?_⟩ <;> simp only [distTerms] at h <;> cases h
    case expr o us =>
      by_cases hr : hasRegL us = true
      · refine ⟨fun d hn h => ?_, fun d h => ?_, fun op d hA hM h => ?_⟩
        · simp only [distTerms, hr, if_true] at h
          split at h
          · cases h
          · split at h
            · cases h
            · cases hd : distcheck (.expr o us) with
              | error e => rw [hd] at h; cases h
              | ok r =>
                rw [hd] at h
                obtain ⟨c, t'⟩ := r
                obtain ⟨d', h1, rfl⟩ := map_ok h
                have hne : ∀ vs, Item.expr o us ≠ .expr .ADD vs := by
                  intro vs he
                  exact hn vs (by rw [he]; simp)
                have ht' : Under t' := by
                  cases t'
                  case expr o' us' => exact (iht hl.1 c o' us' hd).2 hne
                  all_goals trivial
                exact ⟨ht', (ihts hl.2 true (k + 1)).1 d' (fun us hu => hn us (List.mem_cons_of_mem _ hu)) h1⟩
        · simp only [distTerms, hr, if_true] at h
          split at h
          · cases h
          · split at h
            · cases h
            · rename_i hsn
              cases hd : distcheck (.expr o us) with
              | error e => rw [hd] at h; cases h
              | ok r =>
                rw [hd] at h
                obtain ⟨c, t'⟩ := r
                obtain ⟨d', h1, rfl⟩ := map_ok h
                have hm := (ihts hl.2 true (k + 1)).2.1 d' h1
                unfold MulTerms at hm ⊢
                cases ha : d'.at_ with
                | some i => rw [ha] at hm; exact absurd hm.1 (by decide)
                | none =>
                  rw [ha] at hm
                  simp only [Option.getD_none]
                  refine ⟨?_, Nat.le_refl _, ?_, ?_⟩
                  · cases hse : seen with
                    | false => rfl
                    | true => exact absurd ⟨trivial, hse⟩ hsn
                  · intro j u hj hu
                    cases j with
                    | zero => exact absurd rfl hj
                    | succ j => simp at hu; exact (underL_iff _).1 hm u (List.mem_of_getElem? hu)
                  · intro vs hv
                    simp at hv
                    subst hv
                    exact (iht hl.1 c _ vs hd).1
        · simp only [distTerms, hr, if_true] at h
          rw [if_pos ⟨hA, hM⟩] at h
          cases h
      · have hr' : hasRegL us = false := by simpa using hr
        have hu : Under (.expr o us) := under_free.1 _ (by simpa [hasReg] using hr')
        refine ⟨fun d hn h => ?_, fun d h => ?_, fun op d hA hM h => ?_⟩ <;>
          simp only [distTerms, hr', Bool.false_eq_true, if_false] at h <;> split at h
        · cases h
        · exact leafA hu seen d hn h
        · cases h
        · exact leafM hu seen d id h
        · cases h
        · exact leafO hu op seen d hA hM (fun _ r he => by cases he) h
    all_goals
      refine ⟨fun d hn h => ?_, fun d h => ?_, fun op d hA hM h => ?_⟩ <;> simp only [distTerms] at h
      · exact leafA trivial seen d hn h
      · exact leafM trivial seen d id h
      · exact leafO trivial op seen d hA hM (fun _ r he => by cases he) h

/-- After distribution in a levelled expression, registers in the terms stand in products. -/
theorem distTop_under (n : Node) (h : Top n) (b : Bool) (op' : Op) (ts' : List Item)
    (hd : distcheck n.item = .ok (b, .expr op' ts')) : UnderL ts' := by
  by_cases hI : n.op = .IDENT
  · simp only [Node.item, distcheck] at hd
    cases hx : distTerms n.op false 0 n.terms with
    | error e => rw [hx] at hd; cases hd
    | ok d =>
      rw [hx] at hd
      obtain ⟨u1, u2, _⟩ := (distcheck_under.2 n.terms h.2 false 0).2.2 n.op d (by rw [hI]; decide) (by rw [hI]; decide) hx
      dsimp only at hd
      rw [u2] at hd
      simp only [Except.ok.injEq, Prod.mk.injEq, Item.expr.injEq] at hd
      obtain ⟨_, _, rfl⟩ := hd
      exact u1
  · exact (distcheck_under.1 n.item ⟨hI, h.1, h.2⟩ b op' ts' hd).1

/-- An accepted subexpression with a register directly in it is a sum, a product or a wrapper. -/
theorem distTerms_regOk (op : Op) (r : Nat) : ∀ (ts : List Item) (seen : Bool) (k : Nat) (d : Dist),
    distTerms op seen k ts = .ok d → Item.reg r ∈ ts → op = .MUL ∨ op = .ADD ∨ op = .IDENT := by
  intro ts
  induction ts with
  | nil => intro _ _ _ _ h; cases h
  | cons t ts ih =>
    intro seen k d h hr
    have rest : ∀ (seen' : Bool) (f : Dist → Dist), (distTerms op seen' (k + 1) ts).map f = .ok d → Item.reg r ∈ ts →
        op = .MUL ∨ op = .ADD ∨ op = .IDENT := by
      intro seen' f h hm
      obtain ⟨d', h1, _⟩ := map_ok h
      exact ih _ _ _ h1 hm
    cases t
    case reg q =>
      simp only [distTerms] at h
      split at h
      · rename_i hok
        by_cases hM : op = .MUL
        · exact Or.inl hM
        · by_cases hA : op = .ADD
          · exact Or.inr (Or.inl hA)
          · exact Or.inr (Or.inr (regOk_op hok hA hM))
      · cases h
    case flt => simp only [distTerms] at h; cases h
    case expr o us =>
      have hm : Item.reg r ∈ ts := by
        rcases List.mem_cons.1 hr with hr | hr
        · cases hr
        · exact hr
      simp only [distTerms] at h
      split at h
      · split at h
        · cases h
        · split at h
          · cases h
          · cases hd : distcheck (.expr o us) with
            | error e => rw [hd] at h; cases h
            | ok x => rw [hd] at h; exact rest _ _ h hm
      · split at h
        · cases h
        · exact rest _ _ h hm
    all_goals
      have hm : Item.reg r ∈ ts := by
        rcases List.mem_cons.1 hr with hr | hr
        · cases hr
        · exact hr
      simp only [distTerms] at h
      exact rest _ _ h hm

/-- In an accepted list of terms every subexpression with a register was accepted, in a sum or a product. -/
theorem distTerms_kid (op : Op) (o : Op) (us : List Item) (hreg : hasRegL us = true) :
    ∀ (ts : List Item) (seen : Bool) (k : Nat) (d : Dist), distTerms op seen k ts = .ok d → Item.expr o us ∈ ts →
      (op = .ADD ∨ op = .MUL) ∧ ∃ x, distcheck (.expr o us) = .ok x := by
  intro ts
  induction ts with
  | nil => intro _ _ _ _ h; cases h
  | cons t ts ih =>
    intro seen k d h hr
    have rest : ∀ (seen' : Bool) (f : Dist → Dist), (distTerms op seen' (k + 1) ts).map f = .ok d → Item.expr o us ∈ ts →
        (op = .ADD ∨ op = .MUL) ∧ ∃ x, distcheck (.expr o us) = .ok x := by
      intro seen' f h hm
      obtain ⟨d', h1, _⟩ := map_ok h
      exact ih _ _ _ h1 hm
    cases t
    case flt => simp only [distTerms] at h; cases h
    case expr o' us' =>
      rcases List.mem_cons.1 hr with hr | hm
      · obtain ⟨rfl, rfl⟩ := Item.expr.inj hr
        simp only [distTerms, hreg, if_true] at h
        split at h
        · cases h
        · rename_i hop
          split at h
          · cases h
          · cases hd : distcheck (.expr o us) with
            | error e => rw [hd] at h; cases h
            | ok x =>
              refine ⟨?_, x, rfl⟩
              by_cases h1 : op = .ADD
              · exact Or.inl h1
              · by_cases h2 : op = .MUL
                · exact Or.inr h2
                · exact absurd ⟨h1, h2⟩ hop
      · simp only [distTerms] at h
        split at h
        · split at h
          · cases h
          · split at h
            · cases h
            · cases hd : distcheck (.expr o' us') with
              | error e => rw [hd] at h; cases h
              | ok x => rw [hd] at h; exact rest _ _ h hm
        · split at h
          · cases h
          · exact rest _ _ h hm
    case reg q =>
      have hm : Item.expr o us ∈ ts := by
        rcases List.mem_cons.1 hr with hr | hr
        · cases hr
        · exact hr
      simp only [distTerms] at h
      split at h
      · exact rest _ _ h hm
      · cases h
    all_goals
      have hm : Item.expr o us ∈ ts := by
        rcases List.mem_cons.1 hr with hr | hr
        · cases hr
        · exact hr
      simp only [distTerms] at h
      exact rest _ _ h hm

theorem hasRegL_mem {r : Nat} {ts : List Item} (h : Item.reg r ∈ ts) : hasRegL ts = true := by
  cases hh : hasRegL ts with
  | true => rfl
  | false =>
    have := (hasRegL_false ts).1 hh _ h
    simp [hasReg] at this

/-- Accepted without change in a levelled expression: subexpressions with a register directly in them are
    products. -/
theorem distTop_same (n : Node) (h : Top n) (x : Bool × Item) (hd : distcheck n.item = .ok x)
    (o : Op) (us : List Item) (r : Nat) (hm : Item.expr o us ∈ n.terms) (hr : Item.reg r ∈ us) (hop : n.op ≠ .MUL) :
    o = .MUL ∧ n.op = .ADD := by
  simp only [Node.item, distcheck] at hd
  cases hx : distTerms n.op false 0 n.terms with
  | error e => rw [hx] at hd; cases hd
  | ok d =>
    obtain ⟨h1, y, hy⟩ := distTerms_kid n.op o us (hasRegL_mem hr) n.terms _ _ d hx hm
    have hA : n.op = .ADD := by rcases h1 with h1 | h1; exact h1; exact absurd h1 hop
    refine ⟨?_, hA⟩
    have hlev := (levL_iff _).1 h.2 _ hm
    simp only [distcheck] at hy
    cases hz : distTerms o false 0 us with
    | error e => rw [hz] at hy; cases hy
    | ok d' =>
      rcases distTerms_regOk o r us _ _ d' hz hr with h2 | h2 | h2
      · exact h2
      · subst h2; exact absurd hm (h.1 hA us)
      · exact absurd h2 hlev.1

end Verif.Ea
