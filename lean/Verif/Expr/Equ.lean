import Mathlib.Data.List.Nodup
import Mathlib.Data.List.Perm.Subperm
import Verif.Expr.Const
/- EQU expansion: circular references are found, and nothing is left to expand. -/
set_option linter.unusedSimpArgs false
namespace Verif.Expr
open Verif.Intnum

/-- Induction over terms and term lists together. -/
theorem item_ind {P : Item → Prop} {Q : List Item → Prop}
    (leaf : ∀ t, Leaf t → P t) (node : ∀ op ts, Q ts → P (.expr op ts)) (nil : Q [])
    (cons : ∀ t ts, P t → Q ts → Q (t :: ts)) : (∀ t, P t) ∧ (∀ ts, Q ts) := by
  have main : ∀ n, (∀ t, height t ≤ n → P t) ∧ (∀ ts, heightL ts ≤ n → Q ts) := by
    intro n
    induction n with
    | zero =>
      have a : ∀ t, height t ≤ 0 → P t := by
        intro t ht
        cases t
        case expr op us => simp only [height] at ht; split at ht <;> omega
        all_goals exact leaf _ trivial
      refine ⟨a, ?_⟩
      intro ts
      induction ts with
      | nil => intro _; exact nil
      | cons t ts ih =>
        intro ht
        simp only [heightL] at ht
        exact cons t ts (a t (by omega)) (ih (by omega))
    | succ n ih =>
      have a : ∀ t, height t ≤ n + 1 → P t := by
        intro t ht
        cases t
        case expr op us => exact node op us (ih.2 us (by simp only [height] at ht; split at ht <;> omega))
        all_goals exact leaf _ trivial
      refine ⟨a, ?_⟩
      intro ts
      induction ts with
      | nil => intro _; exact nil
      | cons t ts ih =>
        intro ht
        simp only [heightL] at ht
        exact cons t ts (a t (by omega)) (ih (by omega))
  exact ⟨fun t => (main (height t)).1 t (Nat.le_refl _), fun ts => (main (heightL ts)).2 ts (Nat.le_refl _)⟩

/-- A set error comes from a symbol. -/
theorem expand_flag (f : Nat → Option (Item × Bool × Bool)) :
    (∀ t, (expandItem f t).2.1 = true ∨ (expandItem f t).2.2 = true →
        ∃ s ∈ syms t, ∃ r, f s = some r ∧ (r.2.1 = true ∨ r.2.2 = true)) ∧
    (∀ ts, (expandItems f ts).2 = true → ∃ s ∈ symsL ts, ∃ r, f s = some r ∧ (r.2.1 = true ∨ r.2.2 = true)) := by
  apply item_ind
  · intro t hl h
    cases t <;> simp only [expandItem, Bool.false_eq_true, or_self] at h
    · rename_i s
      refine ⟨s, by simp [syms], ?_⟩
      cases hf : f s with
      | none => rw [hf] at h; simp at h
      | some r => rw [hf] at h; exact ⟨r, rfl, h⟩
    · exact absurd hl (by simp [Leaf])
  · intro op ts ih h
    simp only [expandItem, Bool.false_eq_true, or_false] at h
    obtain ⟨s, hs, r⟩ := ih h
    exact ⟨s, by simpa [syms] using hs, r⟩
  · intro h; simp [expandItems] at h
  · intro t ts iht ihts h
    simp only [expandItems] at h
    split at h
    · rename_i h2
      obtain ⟨s, hs, r⟩ := iht (Or.inr h2)
      exact ⟨s, by simp [symsL, hs], r⟩
    · simp only [Bool.or_eq_true] at h
      rcases h with h | h
      · obtain ⟨s, hs, r⟩ := iht (Or.inl h)
        exact ⟨s, by simp [symsL, hs], r⟩
      · obtain ⟨s, hs, r⟩ := ihts h
        exact ⟨s, by simp [symsL, hs], r⟩

/-- If no error is set, no symbol set one, and the symbols of the result come from the symbols. -/
theorem expand_noflag (f : Nat → Option (Item × Bool × Bool)) :
    (∀ t, (expandItem f t).2.1 = false → (expandItem f t).2.2 = false →
        (∀ s ∈ syms t, ∀ r, f s = some r → r.2.1 = false ∧ r.2.2 = false) ∧
        ∀ u ∈ syms (expandItem f t).1, ∃ s ∈ syms t, (f s = Option.none ∧ u = s) ∨ ∃ r, f s = some r ∧ u ∈ syms r.1) ∧
    (∀ ts, (expandItems f ts).2 = false →
        (∀ s ∈ symsL ts, ∀ r, f s = some r → r.2.1 = false ∧ r.2.2 = false) ∧
        ∀ u ∈ symsL (expandItems f ts).1, ∃ s ∈ symsL ts, (f s = Option.none ∧ u = s) ∨ ∃ r, f s = some r ∧ u ∈ syms r.1) := by
  apply item_ind
  · intro t hl h1 h2
    cases t
    case sym s =>
      simp only [expandItem] at h1 h2 ⊢
      cases hf : f s with
      | none =>
        refine ⟨?_, ?_⟩
        · intro s' hs' r hr
          simp only [syms, List.mem_singleton] at hs'
          subst hs'; rw [hf] at hr; simp at hr
        · intro u hu
          simp only [hf, syms, List.mem_singleton] at hu
          subst hu
          exact ⟨u, by simp [syms], Or.inl ⟨hf, rfl⟩⟩
      | some r =>
        rw [hf] at h1 h2
        refine ⟨?_, ?_⟩
        · intro s' hs' r' hr
          simp only [syms, List.mem_singleton] at hs'
          subst hs'; rw [hf] at hr; simp only [Option.some.injEq] at hr; subst hr
          exact ⟨h1, h2⟩
        · intro u hu
          simp only [hf] at hu
          exact ⟨s, by simp [syms], Or.inr ⟨r, hf, hu⟩⟩
    case expr => exact absurd hl (by simp [Leaf])
    all_goals simp [expandItem, syms]
  · intro op ts ih h1 h2
    simp only [expandItem] at h1 h2 ⊢
    simpa [syms] using ih h1
  · intro _; simp [expandItems, symsL]
  · intro t ts iht ihts h
    simp only [expandItems] at h ⊢
    split at h
    · simp at h
    · rename_i h2
      simp only [Bool.not_eq_true] at h2
      simp only [Bool.or_eq_false_iff] at h
      obtain ⟨a1, a2⟩ := iht h.1 h2
      obtain ⟨b1, b2⟩ := ihts h.2
      simp only [h2, Bool.false_eq_true, if_false, symsL, List.mem_append]
      refine ⟨?_, ?_⟩
      · rintro s (hs | hs)
        · exact a1 s hs
        · exact b1 s hs
      · rintro u (hu | hu)
        · obtain ⟨s, hs, r⟩ := a2 u hu; exact ⟨s, Or.inl hs, r⟩
        · obtain ⟨s, hs, r⟩ := b2 u hu; exact ⟨s, Or.inr hs, r⟩

theorem Reaches.head {c : Ctx} {s t u : Nat} (h : Uses c s t) (h2 : t = u ∨ Reaches c t u) : Reaches c s u := by
  rcases h2 with rfl | h2
  · exact .one h
  · induction h2 with
    | one h3 => exact .step (.one h) h3
    | step _ h3 ih => exact .step ih h3

theorem Reaches.cases_head {c : Ctx} {s u : Nat} (h : Reaches c s u) : ∃ t, Uses c s t ∧ (t = u ∨ Reaches c t u) := by
  induction h with
  | one h => exact ⟨_, h, Or.inl rfl⟩
  | step _ h3 ih =>
    obtain ⟨t, h1, h2⟩ := ih
    refine ⟨t, h1, Or.inr ?_⟩
    rcases h2 with rfl | h2
    · exact .one h3
    · exact .step h2 h3

/-- An error means a symbol being expanded or a symbol that depends on itself is reached. -/
theorem onEqu_flag (c : Ctx) (k : Nat) : ∀ (seen : List Nat) (s : Nat) (r : Item × Bool × Bool),
    onEqu c k seen s = some r → (r.2.1 = true ∨ r.2.2 = true) →
    ∃ t, (t = s ∨ Reaches c s t) ∧ (t ∈ seen ∨ Reaches c t t) := by
  induction k with
  | zero => intro seen s r h; simp [onEqu] at h
  | succ k ih =>
    intro seen s r h hf
    simp only [onEqu] at h
    cases hd : c.equ s with
    | none => rw [hd] at h; simp at h
    | some d =>
      rw [hd] at h
      simp only at h
      split at h
      · rename_i hm; exact ⟨s, Or.inl rfl, Or.inl hm⟩
      · simp only [Option.some.injEq] at h
        subst h
        simp only [Bool.false_eq_true, or_false] at hf
        obtain ⟨s', hs', r', hr', hf'⟩ := (expand_flag _).2 _ hf
        obtain ⟨t, h1, h2⟩ := ih _ _ _ hr' hf'
        have hu : Uses c s s' := ⟨d, hd, hs'⟩
        have hst : Reaches c s t := .head hu (h1.imp Eq.symm id)
        rcases h2 with h2 | h2
        · rcases List.mem_cons.1 h2 with rfl | h2
          · exact ⟨t, Or.inl rfl, Or.inr hst⟩
          · exact ⟨t, Or.inr hst, Or.inl h2⟩
        · exact ⟨t, Or.inr hst, Or.inr h2⟩

/-- No error, and depth enough: nothing reached is being expanded or depends on itself, and no EQU symbol
    is left. -/
theorem onEqu_noflag (c : Ctx) (n : Nat) (l : List Nat) (hl : l.length ≤ n) (hc : ∀ s, c.equ s ≠ Option.none → s ∈ l)
    (k : Nat) : ∀ (seen : List Nat) (s : Nat) (r : Item × Bool × Bool),
    seen.Nodup → (∀ x ∈ seen, c.equ x ≠ Option.none) → n + 1 ≤ k + seen.length →
    onEqu c k seen s = some r → r.2.1 = false → r.2.2 = false →
    (∀ t, (t = s ∨ Reaches c s t) → t ∉ seen ∧ ¬ Reaches c t t) ∧
    (∀ u ∈ syms r.1, c.equ u = Option.none ∧ Reaches c s u) := by
  induction k with
  | zero => intro seen s r _ _ _ h; simp [onEqu] at h
  | succ k ih =>
    intro seen s r hn hs hk h h1 h2
    simp only [onEqu] at h
    cases hd : c.equ s with
    | none => rw [hd] at h; simp at h
    | some d =>
      rw [hd] at h
      simp only at h
      split at h
      · simp only [Option.some.injEq] at h; subst h; simp at h1
      · rename_i hm
        simp only [Option.some.injEq] at h
        subst h
        simp only at h1
        obtain ⟨a1, a2⟩ := (expand_noflag _).2 _ h1
        have hn' : (s :: seen).Nodup := List.nodup_cons.2 ⟨hm, hn⟩
        have hs' : ∀ x ∈ s :: seen, c.equ x ≠ Option.none := by
          intro x hx
          rcases List.mem_cons.1 hx with rfl | hx
          · rw [hd]; simp
          · exact hs x hx
        have hk' : n + 1 ≤ k + (s :: seen).length := by simp only [List.length_cons]; omega
        -- the depth is never exhausted
        have hkpos : k ≠ 0 := by
          rintro rfl
          have hsub : s :: seen ⊆ l := fun x hx => hc x (hs' x hx)
          have := (List.subperm_of_subset hn' hsub).length_le
          omega
        have hnone : ∀ s', onEqu c k (s :: seen) s' = Option.none → c.equ s' = Option.none := by
          intro s' h'
          obtain ⟨k', rfl⟩ := Nat.exists_eq_succ_of_ne_zero hkpos
          simp only [onEqu] at h'
          cases hd' : c.equ s' with
          | none => rfl
          | some d' => rw [hd'] at h'; simp only at h'; split at h' <;> simp at h'
        have hsyms : ∀ s' ∈ symsL d.terms, ∀ t, (t = s' ∨ Reaches c s' t) → t ∉ s :: seen ∧ ¬ Reaches c t t := by
          intro s' hm' t ht
          cases ho : onEqu c k (s :: seen) s' with
          | none =>
            have e := hnone s' ho
            have nor : ∀ x, ¬ Reaches c s' x := by
              intro x hx
              obtain ⟨y, ⟨d', hd', _⟩, _⟩ := hx.cases_head
              rw [e] at hd'; simp at hd'
            rcases ht with rfl | ht
            · exact ⟨fun hx => hs' _ hx e, nor _⟩
            · exact absurd ht (nor _)
          | some r' =>
            obtain ⟨f1, f2⟩ := a1 s' hm' r' ho
            exact (ih _ _ _ hn' hs' hk' ho f1 f2).1 t ht
        refine ⟨?_, ?_⟩
        · intro t ht
          rcases ht with rfl | ht
          · refine ⟨hm, ?_⟩
            intro hr
            obtain ⟨s', ⟨d', hd', hm'⟩, h3⟩ := hr.cases_head
            rw [hd] at hd'; simp only [Option.some.injEq] at hd'; subst hd'
            exact (hsyms s' hm' t (h3.imp Eq.symm id)).1 (by simp)
          · obtain ⟨s', ⟨d', hd', hm'⟩, h3⟩ := ht.cases_head
            rw [hd] at hd'; simp only [Option.some.injEq] at hd'; subst hd'
            have := hsyms s' hm' t (h3.imp Eq.symm id)
            exact ⟨fun hx => this.1 (by simp [hx]), this.2⟩
        · intro u hu
          simp only [syms] at hu
          obtain ⟨s', hm', h3⟩ := a2 u hu
          have hus : Uses c s s' := ⟨d, hd, hm'⟩
          rcases h3 with ⟨h3, rfl⟩ | ⟨r', h3, h4⟩
          · exact ⟨hnone _ h3, .one hus⟩
          · obtain ⟨f1, f2⟩ := a1 s' hm' r' h3
            obtain ⟨g1, g2⟩ := (ih _ _ _ hn' hs' hk' h3 f1 f2).2 u h4
            exact ⟨g1, .head hus (Or.inr g2)⟩

theorem expandEqu_flag (c : Ctx) (n : Nat) (h : AtMost c n) (e : Node) :
    ((expandEqu c (n + 1) e).2 = true ↔ Circular c e) ∧
    ((expandEqu c (n + 1) e).2 = false → ∀ u ∈ syms (expandEqu c (n + 1) e).1.item,
      c.equ u = Option.none ∧ ∃ s ∈ syms e.item, u = s ∨ Reaches c s u) := by
  obtain ⟨l, hl, hc⟩ := h
  have hnone : ∀ s', onEqu c (n + 1) [] s' = Option.none → c.equ s' = Option.none := by
    intro s' h'
    simp only [onEqu] at h'
    cases hd' : c.equ s' with
    | none => rfl
    | some d' => rw [hd'] at h'; simp at h'
  have key : (expandEqu c (n + 1) e).2 = false → ¬ Circular c e ∧ ∀ u ∈ syms (expandEqu c (n + 1) e).1.item,
      c.equ u = Option.none ∧ ∃ s ∈ syms e.item, u = s ∨ Reaches c s u := by
    intro hf
    simp only [expandEqu] at hf
    obtain ⟨a1, a2⟩ := (expand_noflag _).2 _ hf
    refine ⟨?_, ?_⟩
    · rintro ⟨s, hs, t, ht, htt⟩
      cases ho : onEqu c (n + 1) [] s with
      | none =>
        have e' := hnone s ho
        have nor : ∀ x, ¬ Reaches c s x := by
          intro x hx
          obtain ⟨y, ⟨d', hd', _⟩, _⟩ := hx.cases_head
          rw [e'] at hd'; simp at hd'
        rcases ht with rfl | ht
        · exact nor _ htt
        · exact nor _ ht
      | some r =>
        obtain ⟨f1, f2⟩ := a1 s hs r ho
        exact ((onEqu_noflag c n l hl hc (n + 1) [] s r (by simp) (by simp) (by simp) ho f1 f2).1 t ht).2 htt
    · intro u hu
      simp only [expandEqu, Node.item, syms] at hu
      obtain ⟨s, hs, h3⟩ := a2 u hu
      rcases h3 with ⟨h3, rfl⟩ | ⟨r, h3, h4⟩
      · exact ⟨hnone _ h3, u, hs, Or.inl rfl⟩
      · obtain ⟨f1, f2⟩ := a1 s hs r h3
        obtain ⟨g1, g2⟩ := (onEqu_noflag c n l hl hc (n + 1) [] s r (by simp) (by simp) (by simp) h3 f1 f2).2 u h4
        exact ⟨g1, s, hs, Or.inr g2⟩
  refine ⟨⟨?_, ?_⟩, fun hf => (key hf).2⟩
  · intro hf
    simp only [expandEqu] at hf
    obtain ⟨s, hs, r, hr, hf'⟩ := (expand_flag _).2 _ hf
    obtain ⟨t, h1, h2⟩ := onEqu_flag c _ _ _ _ hr hf'
    refine ⟨s, hs, t, h1, ?_⟩
    simpa using h2
  · intro hcirc
    cases hf : (expandEqu c (n + 1) e).2 with
    | true => rfl
    | false => exact absurd hcirc (key hf).1

/-- Expansion keeps the value. -/
theorem expand_eval (ρ : Env) (f : Nat → Option (Item × Bool × Bool))
    (hf : ∀ s r, f s = some r → eval ρ r.1 = ρ.sym s) :
    (∀ t, eval ρ (expandItem f t).1 = eval ρ t) ∧ (∀ ts, evalL ρ (expandItems f ts).1 = evalL ρ ts) := by
  apply item_ind
  · intro t hl
    cases t
    case sym s =>
      simp only [expandItem]
      cases h : f s with
      | none => rfl
      | some r => exact hf s r h
    all_goals first | rfl | exact absurd hl (by simp [Leaf])
  · intro op ts ih; simp only [expandItem, eval, ih]
  · rfl
  · intro t ts iht ihts
    simp only [expandItems]
    split
    · simp only [evalL, iht]
    · simp only [evalL, iht, ihts]

theorem onEqu_eval (ρ : Env) (c : Ctx) (h : ∀ s d, c.equ s = some d → ρ.sym s = d.eval ρ) (k : Nat) :
    ∀ seen s r, onEqu c k seen s = some r → eval ρ r.1 = ρ.sym s := by
  induction k with
  | zero => intro seen s r hr; simp [onEqu] at hr
  | succ k ih =>
    intro seen s r hr
    simp only [onEqu] at hr
    cases hd : c.equ s with
    | none => rw [hd] at hr; simp at hr
    | some d =>
      rw [hd] at hr
      simp only at hr
      split at hr
      · simp only [Option.some.injEq] at hr; subst hr; rfl
      · simp only [Option.some.injEq] at hr; subst hr
        rw [h s d hd]
        simp only [Node.eval, Node.item, eval, (expand_eval ρ _ (ih (s :: seen))).2]

/-- Expansion keeps the kind of expression. -/
theorem expand_cos (f : Nat → Option (Item × Bool × Bool)) (hf : ∀ s r, f s = some r → ConstantOrSym r.1) :
    (∀ t, ConstantOrSym t → ConstantOrSym (expandItem f t).1) ∧
    (∀ ts, ConstantOrSymL ts → ConstantOrSymL (expandItems f ts).1 ∧ (expandItems f ts).1.length = ts.length) := by
  apply item_ind
  · intro t hl h
    cases t
    case sym s =>
      simp only [expandItem]
      cases h : f s with
      | none => trivial
      | some r => exact hf s r h
    all_goals first | exact h | exact absurd hl (by simp [Leaf])
  · intro op ts ih h
    obtain ⟨a, b⟩ := ih h.2.2
    exact ⟨h.1, by rw [b]; exact h.2.1, a⟩
  · intro _; exact ⟨trivial, rfl⟩
  · intro t ts iht ihts h
    simp only [expandItems]
    split
    · exact ⟨⟨iht h.1, h.2⟩, rfl⟩
    · obtain ⟨a, b⟩ := ihts h.2
      exact ⟨⟨iht h.1, a⟩, by simp [b]⟩

theorem onEqu_cos (c : Ctx) (h : ∀ s d, c.equ s = some d → ConstantOrSym d.item) (k : Nat) :
    ∀ seen s r, onEqu c k seen s = some r → ConstantOrSym r.1 := by
  induction k with
  | zero => intro seen s r hr; simp [onEqu] at hr
  | succ k ih =>
    intro seen s r hr
    simp only [onEqu] at hr
    cases hd : c.equ s with
    | none => rw [hd] at hr; simp at hr
    | some d =>
      rw [hd] at hr
      simp only at hr
      split at hr
      · simp only [Option.some.injEq] at hr; subst hr; trivial
      · simp only [Option.some.injEq] at hr; subst hr
        have hdc := h s d hd
        obtain ⟨a, b⟩ := (expand_cos _ (ih (s :: seen))).2 d.terms hdc.2.2
        exact ⟨hdc.1, by rw [b]; exact hdc.2.1, a⟩

theorem cos_const : (∀ t, ConstantOrSym t → syms t = [] → Constant t) ∧
    (∀ ts, ConstantOrSymL ts → symsL ts = [] → ConstantL ts) := by
  apply item_ind
  · intro t hl h hs
    cases t
    case sym => simp [syms] at hs
    case expr => exact absurd hl (by simp [Leaf])
    all_goals exact h
  · intro op ts ih h hs; exact ⟨h.1, h.2.1, ih h.2.2 (by simpa [syms] using hs)⟩
  · intros; trivial
  · intro t ts iht ihts h hs
    simp only [symsL, List.append_eq_nil_iff] at hs
    exact ⟨iht h.1 hs.1, ihts h.2 hs.2⟩

theorem expandEqu_const (ρ : Env) (c : Ctx) (n : Nat) (hn : AtMost c n) (e : Node) (he : ConstantOrSym e.item)
    (hd : ∀ s d, c.equ s = some d → ConstantOrSym d.item)
    (hr : ∀ s ∈ syms e.item, ∀ u, (u = s ∨ Reaches c s u) → c.equ u ≠ Option.none)
    (hc : ¬ Circular c e) (hρ : ∀ s d, c.equ s = some d → ρ.sym s = d.eval ρ) :
    Constant (expandEqu c (n + 1) e).1.item ∧ (expandEqu c (n + 1) e).1.eval ρ = e.eval ρ := by
  refine ⟨?_, ?_⟩
  · apply cos_const.1
    · obtain ⟨a, b⟩ := (expand_cos _ (onEqu_cos c hd (n + 1) [])).2 e.terms he.2.2
      exact ⟨he.1, by simp only [expandEqu, b]; exact he.2.1, a⟩
    · obtain ⟨a, b⟩ := expandEqu_flag c n hn e
      have hf : (expandEqu c (n + 1) e).2 = false := by
        cases h : (expandEqu c (n + 1) e).2 with
        | false => rfl
        | true => exact absurd (a.1 h) hc
      apply List.eq_nil_iff_forall_not_mem.2
      intro u hu
      obtain ⟨h1, s, hs, h2⟩ := b hf u hu
      exact hr s hs u h2 h1
  · simp only [Node.eval, Node.item, expandEqu, eval, (expand_eval ρ _ (onEqu_eval ρ c hρ (n + 1) [])).2]

end Verif.Expr
