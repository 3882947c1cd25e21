/-
x86_expr_checkea_getregusage as a whole: the registers taken out and what remains make up the address.
-/
import Verif.Ea.Scan

set_option linter.unusedSimpArgs false

namespace Verif.Ea

open Verif.Intnum
open Verif.Expr
open Verif.Value

theorem Run.bind_out {α β : Type} {x : Run α} {f : α → Run β} {b : β} (h : (x.bind f).out = .ok b) :
    ∃ a, x.out = .ok a ∧ (f a).out = .ok b ∧ (x.bind f).log = x.log ++ (f a).log := by
  unfold Run.bind at h ⊢
  cases hx : x.out with
  | error e => rw [hx] at h; simp at h
  | ok a => rw [hx] at h; exact ⟨a, rfl, h, rfl⟩

theorem lift_out {α : Type} {m : M α} {a : α} (h : (lift m).out = .ok a) : m.out = .ok a := by
  unfold lift at h
  dsimp only at h
  split at h
  · rename_i x hx; simp only [Except.ok.injEq] at h; subst h; exact hx
  · cases h

theorem distTerms_changed (op : Op) : ∀ (ts : List Item) (seen : Bool) (k : Nat) (d : Dist),
    distTerms op seen k ts = .ok d → d.changed = true ∨ d.at_.isSome = true → op = .ADD ∨ op = .MUL := by
  intro ts
  induction ts with
  | nil => intro seen k d h hc; simp only [distTerms, Except.ok.injEq] at h; subst h; simp at hc
  | cons t ts ih =>
    intro seen k d h hc
    have leaf : ∀ seen', ((distTerms op seen' (k + 1) ts).map fun d => { d with terms := t :: d.terms }) = .ok d →
        op = .ADD ∨ op = .MUL := by
      intro seen' h
      obtain ⟨d', h1, rfl⟩ := map_ok h
      exact ih _ _ _ h1 hc
    cases t
    case reg r =>
      simp only [distTerms] at h
      split at h
      · exact leaf true h
      · cases h
    case flt => simp only [distTerms] at h; cases h
    case expr o us =>
      simp only [distTerms] at h
      split at h
      · split at h
        · cases h
        · rename_i hop
          by_cases h1 : op = .ADD
          · exact Or.inl h1
          · by_cases h2 : op = .MUL
            · exact Or.inr h2
            · exact absurd ⟨h1, h2⟩ hop
      · split at h
        · cases h
        · exact leaf seen h
    all_goals
      simp only [distTerms] at h
      exact leaf seen h

theorem distcheck_op (n : Node) (op' : Op) (ts' : List Item) (h : distcheck n.item = .ok (true, .expr op' ts')) :
    op' = .ADD ∨ op' = .MUL := by
  simp only [Node.item, distcheck] at h
  cases hx : distTerms n.op false 0 n.terms with
  | error e => rw [hx] at h; cases h
  | ok d =>
    rw [hx] at h
    dsimp only at h
    split at h
    · rename_i i hi
      split at h
      · obtain ⟨t, h1, h2⟩ := map_ok h
        simp only [Prod.mk.injEq] at h2
        obtain ⟨_, rfl⟩ := h2
        unfold distribute at h1
        split at h1
        · simp only [Except.ok.injEq, Item.expr.injEq] at h1; exact Or.inl h1.1.symm
        · cases h1
      · simp only [Except.ok.injEq, Prod.mk.injEq, Item.expr.injEq] at h
        rw [← h.2.1]
        exact distTerms_changed _ _ _ _ _ hx (Or.inl h.1)
    · simp only [Except.ok.injEq, Prod.mk.injEq, Item.expr.injEq] at h
      rw [← h.2.1]
      exact distTerms_changed _ _ _ _ _ hx (Or.inl h.1)

theorem noProduct_same :
    (∀ t, NoProduct t → ∀ b t', distcheck t = .ok (b, t') → b = false) ∧
    (∀ ts, NoProductL ts → ∀ op seen k d, distTerms op seen k ts = .ok d → d.changed = false ∧
      ((∀ o us, Item.expr o us ∈ ts → hasRegL us = false) → d.at_ = none)) := by
  apply item_ind
  · intro t ht _ b t' h
    cases t
    case expr => exact absurd ht id
    all_goals
      simp only [distcheck, Except.ok.injEq, Prod.mk.injEq] at h
      exact h.1.symm
  · intro op ts ih hp b t' h
    simp only [distcheck] at h
    cases hd : distTerms op false 0 ts with
    | error e => rw [hd] at h; cases h
    | ok d =>
      rw [hd] at h
      obtain ⟨k1, k2⟩ := ih hp.2 _ _ _ d hd
      dsimp only at h
      split at h
      · rename_i i hi
        split at h
        · rename_i hop
          rw [k2 (hp.1 hop)] at hi; cases hi
        · simp only [Except.ok.injEq, Prod.mk.injEq] at h; rw [← h.1, k1]
      · simp only [Except.ok.injEq, Prod.mk.injEq] at h; rw [← h.1, k1]
  · intro _ op seen k d h
    simp only [distTerms, Except.ok.injEq] at h
    subst h; exact ⟨rfl, fun _ => rfl⟩
  · intro t ts iht ihts hp op seen k d h
    have leaf : ∀ seen', ((distTerms op seen' (k + 1) ts).map fun d => { d with terms := t :: d.terms }) = .ok d →
        d.changed = false ∧ ((∀ o us, Item.expr o us ∈ t :: ts → hasRegL us = false) → d.at_ = none) := by
      intro seen' h
      obtain ⟨d', h1, rfl⟩ := map_ok h
      obtain ⟨a, b⟩ := ihts hp.2 _ _ _ _ h1
      exact ⟨a, fun hh => b fun o us hm => hh o us (List.mem_cons_of_mem _ hm)⟩
    cases t
    case reg r =>
      simp only [distTerms] at h
      split at h
      · exact leaf true h
      · cases h
    case flt => simp only [distTerms] at h; cases h
    case expr o us =>
      simp only [distTerms] at h
      split at h
      · rename_i hr
        split at h
        · cases h
        · split at h
          · cases h
          · cases hd : distcheck (.expr o us) with
            | error e => rw [hd] at h; cases h
            | ok r =>
              rw [hd] at h
              obtain ⟨c, t'⟩ := r
              obtain ⟨d', h1, rfl⟩ := map_ok h
              obtain ⟨a, b⟩ := ihts hp.2 _ _ _ _ h1
              refine ⟨by rw [iht hp.1 _ _ hd, a]; rfl, fun hh => ?_⟩
              have := hh o us (by simp)
              rw [hr] at this; cases this
      · split at h
        · cases h
        · exact leaf seen h
    all_goals
      simp only [distTerms] at h
      exact leaf seen h

theorem noProductL_iff (ts : List Item) : NoProductL ts ↔ ∀ t ∈ ts, NoProduct t := by
  induction ts with
  | nil => simp [NoProductL]
  | cons t ts ih => simp [NoProductL, ih]

/-- The left side of WRT, or the expression. -/
theorem extractWrt_cases (e e' : Node) (w : Option Node) (h : extractWrt e = (e', w)) :
    (w = none ∧ e' = e) ∨ ∃ a b, e = ⟨.WRT, [a, b]⟩ ∧ e' = ⟨.IDENT, [a]⟩ ∧
      ((∃ o us, b = .expr o us ∧ w = some ⟨o, us⟩) ∨ w = some ⟨.IDENT, [b]⟩) := by
  obtain ⟨op, ts⟩ := e
  unfold extractWrt at h
  dsimp only at h
  split at h
  · simp only [Prod.mk.injEq] at h
    obtain ⟨rfl, rfl⟩ := h
    rename_i a o us
    exact Or.inr ⟨_, _, rfl, rfl, Or.inl ⟨o, us, rfl, rfl⟩⟩
  · simp only [Prod.mk.injEq] at h
    obtain ⟨rfl, rfl⟩ := h
    exact Or.inr ⟨_, _, rfl, rfl, Or.inr rfl⟩
  · simp only [Prod.mk.injEq] at h
    exact Or.inl ⟨h.2.symm, h.1.symm⟩

/-- The multipliers at the start. -/
def startMult (pcrel : Bool) : Nat → BitVec 32 := if pcrel then setMult (fun _ => 0) 16 1 else fun _ => 0

theorem checkWrt_ok (ρ : Env) (getReg : Nat → Option Nat) (bits : Nat) (e : Node) (r : Node × Usage × Bool)
    (h : checkWrt getReg bits e = .ok r) (g : Good ρ e.item) (ht : Top e)
    (hw : ∀ a q, getReg q = some 16 → ρ.wrt a (ρ.reg q) = a) :
    r.1.eval ρ = e.eval ρ ∧ Good ρ r.1.item ∧ Top r.1 ∧ (NoProduct e.item → NoProduct r.1.item) ∧
      r.2.1.uses = [] ∧ r.2.1.mult = startMult r.2.2 ∧ (r.2.2 = true → bits = 64) := by
  unfold checkWrt at h
  split at h
  · rename_i e' q us hx
    split at h
    · cases h
    · rename_i hb
      split at h
      · rename_i hq
        simp only [Except.ok.injEq] at h
        subst h
        rcases extractWrt_cases e _ _ hx with ⟨h1, _⟩ | ⟨a, b, rfl, rfl, hbq⟩
        · cases h1
        · have ga : Good ρ a := g.2.2.1
          have gb : Good ρ b := g.2.2.2.1
          have hv : eval ρ b = ρ.reg q := by
            rcases hbq with ⟨o, vs, rfl, hbq⟩ | hbq
            · simp only [Option.some.injEq, Node.mk.injEq] at hbq
              obtain ⟨rfl, rfl⟩ := hbq
              have := gb.1
              simp only [Arity, List.length_cons] at this
              have hz := List.length_eq_zero_iff.1 (show us.length = 0 by omega)
              subst hz
              simp [eval, evalL, opVal]
            · simp only [Option.some.injEq, Node.mk.injEq, List.cons.injEq] at hbq
              rw [← hbq.2.1]; rfl
          refine ⟨?_, ⟨rfl, by simp, ga, trivial⟩, ⟨fun h => (by cases h), ht.2.1, trivial⟩, ?_, rfl, rfl, fun _ => ?_⟩
          · simp only [Node.eval, Node.item, eval, evalL, opVal]
            rw [hv, hw _ q hq]
          · intro hn
            exact ⟨fun h => (by cases h), hn.2.1, trivial⟩
          · simpa using hb
      · cases h
  · cases h
  · rename_i e' hx
    simp only [Except.ok.injEq] at h
    subst h
    rcases extractWrt_cases e _ _ hx with ⟨_, rfl⟩ | ⟨a, b, _, _, hbq⟩
    · exact ⟨rfl, g, ht, id, rfl, rfl, fun h => (by cases h)⟩
    · rcases hbq with ⟨_, _, _, h⟩ | h <;> cases h

/-- What must hold of the expression after distribution for its registers to be read correctly. -/
def Readable (e : Node) : Prop :=
  (e.op = .ADD → ∀ o us r, Item.expr o us ∈ e.terms → Item.reg r ∈ us → o = .MUL) ∧
  (e.op = .IDENT → ∀ t ∈ e.terms, Two t)

theorem distAll_ok (ρ : Env) (c : Ctx) (base : Nat → Word) (ag : ρ.Agrees c base) (nequ : Nat) (regmul : Bool) (e e' : Node)
    (h : (distAll c nequ regmul e).out = .ok e') (g : Good ρ e.item) (ht : Top e)
    (hs : ∀ k ∈ (distAll c nequ regmul e).log, k.Sound)
    (hk : NoProduct e.item ∨ (regmul = false ∧ (∀ s d, c.equ s = some d → hasReg d.item = false) ∧
      ∀ us, e' = ⟨.IDENT, [.expr .MUL us]⟩ → hasRegL us = true → us.length = 2)) :
    e'.eval ρ = e.eval ρ ∧ Good ρ e'.item ∧ Readable e' := by
  unfold distAll at h hs
  cases hd : distcheck e.item with
  | error s => rw [hd] at h; cases h
  | ok x =>
    obtain ⟨b, t⟩ := x
    obtain ⟨g1, g2⟩ := (distcheck_ok ρ).1 e.item g b t hd
    rw [hd] at h hs
    cases t
    case expr op ts =>
      dsimp only at h hs
      cases b with
      | false =>
        rw [if_neg (by simp)] at h
        simp only [Run.of, Except.ok.injEq] at h
        subst h
        have hsame := distcheck_same.1 _ _ hd
        have he : (⟨op, ts⟩ : Node) = e := by
          obtain ⟨o, us⟩ := e
          simp only [Node.item, Item.expr.injEq] at hsame
          obtain ⟨rfl, rfl⟩ := hsame
          rfl
        rw [he]
        refine ⟨rfl, g, ?_, ?_⟩
        · intro ho o us r hm hr
          exact (distTop_same e ht _ hd o us r hm hr (by rw [ho]; decide)).1
        · intro ho t hm o r vs he
          subst he
          have := (distTop_same e ht _ hd o _ r hm (by simp) (by rw [ho]; decide)).2
          rw [ho] at this; cases this
      | true =>
        rw [if_pos rfl] at h hs
        rcases hk with hk | ⟨rfl, hfree, hlone⟩
        · exact absurd (noProduct_same.1 _ hk _ _ hd) (by decide)
        have hm := lift_out h
        have hs' : ∀ k ∈ (simplify c nequ false false ⟨op, ts⟩).log, k.Sound := hs
        obtain ⟨a1, a2⟩ := simplify_ok ρ c base ag nequ false false ⟨op, ts⟩ g1 hs' e' hm
        have hu := distTop_under e ht _ _ _ hd
        have hop := distcheck_op e op ts hd
        have hun := simplify_kept c hfree nequ ⟨op, ts⟩ e' (by rcases hop with h | h <;> simp [h]) hu hm
        refine ⟨a2.trans g2, a1, ?_, ?_⟩
        · intro _ o us r hm hr
          exact ((underL_iff _).1 hun _ hm).1 r hr
        · intro ho t hm' o r vs he
          subst he
          have hmul := ((underL_iff _).1 hun _ hm').1 r (by simp)
          subst hmul
          refine ⟨rfl, fun i ws hws => ?_⟩
          obtain ⟨op', ts'⟩ := e'
          dsimp only at ho hm'
          subst ho
          have hl : ts'.length = 1 := a1.1
          obtain ⟨a, rfl⟩ := List.length_eq_one_iff.1 hl
          simp only [List.mem_singleton] at hm'
          subst hm'
          have := hlone _ rfl (hasRegL_mem (show Item.reg r ∈ _ by simp))
          rw [hws] at this
          simp only [List.length_cons] at this
          exact List.length_eq_zero_iff.1 (by omega)
    all_goals cases h

/-- The registers taken out of an address, and what remains, make up the address. -/
theorem getRegUsage_ok (ρ : Env) (c : Ctx) (base : Nat → Word) (ag : ρ.Agrees c base) (nequ : Nat) (getReg : Nat → Option Nat)
    (want : Bool) (bits : Nat) (e : Node) (r : Node × Usage × Bool) (h : (getRegUsage c nequ getReg want bits e).out = .ok r)
    (g : Good ρ e.item) (hs : ∀ k ∈ (getRegUsage c nequ getReg want bits e).log, k.Sound)
    (hw : ∀ a q, getReg q = some 16 → ρ.wrt a (ρ.reg q) = a)
    (hk : (∀ e1, (simplify c nequ (!want) false e).out = .ok e1 → NoProduct e1.item) ∨
      (want = true ∧ (∀ s d, c.equ s = some d → hasReg d.item = false) ∧ NoLone c nequ (!want) getReg bits e)) :
    e.eval ρ = usesVal ρ r.2.1.uses + r.1.eval ρ ∧ Good ρ r.1.item ∧
      (∀ x ∈ r.2.1.uses, (getReg x.1).isSome = true) ∧
      r.2.1.mult = addUses getReg (startMult r.2.2) r.2.1.uses ∧ (r.2.2 = true → bits = 64) := by
  unfold getRegUsage at h hs
  obtain ⟨e1, a1, a2, a3⟩ := Run.bind_out h
  obtain ⟨w, b1, b2, b3⟩ := Run.bind_out a2
  obtain ⟨e2, c1, c2, c3⟩ := Run.bind_out b2
  obtain ⟨x, d1, d2, d3⟩ := Run.bind_out c2
  obtain ⟨e3, f1, f2, f3⟩ := Run.bind_out d2
  rw [a3, b3, c3, d3, f3] at hs
  simp only [List.mem_append] at hs
  have a1' := lift_out a1
  have f1' := lift_out f1
  simp only [Run.of, Except.ok.injEq] at f2
  subst f2
  have b1' : checkWrt getReg bits e1 = .ok w := b1
  have d1' : scanExpr getReg want w.2.1 e2 = .ok (x.1, x.2) := d1
  obtain ⟨g1, v1⟩ := simplify_ok ρ c base ag nequ (!want) false e g (fun k hk => hs k (by simp only [lift]; tauto)) e1 a1'
  have t1 := simplify_top ρ c base ag nequ (!want) e g (fun k hk => hs k (by simp only [lift]; tauto)) e1 a1'
  obtain ⟨w1, w2, w3, w4, w5, w6, w7⟩ := checkWrt_ok ρ getReg bits e1 w b1' g1 t1 hw
  obtain ⟨v2, g2, rd⟩ := distAll_ok ρ c base ag nequ (!want) w.1 e2 c1 w2 w3 (fun k hk => hs k (by tauto)) (by
    rcases hk with hk | ⟨k1, k2, k3⟩
    · exact Or.inl (w4 (hk e1 a1'))
    · exact Or.inr ⟨by rw [k1]; rfl, k2, k3 e1 w e2 a1' b1' c1⟩)
  obtain ⟨new, t2, v3, g3⟩ := scanExpr_ok ρ getReg want _ _ _ _ d1' g2 rd.1 rd.2
  obtain ⟨g4, v4⟩ := simplify_ok ρ c base ag nequ true false x.2 g3 (fun k hk => hs k (by simp only [lift]; tauto)) e3 f1'
  have hu : x.1.uses = new := by rw [t2.1, w5]; rfl
  dsimp only
  refine ⟨?_, g4, by rw [hu]; exact t2.2.1, by rw [t2.2.2, hu, w6], w7⟩
  rw [hu]
  show e.eval ρ = usesVal ρ new + eval ρ e3.item
  rw [show eval ρ e3.item = x.2.eval ρ from v4, ← v3, v2, w1]
  exact v1.symm

end Verif.Ea
