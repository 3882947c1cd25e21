import Verif.Symtab.Lemmas
import Verif.Errwarn.Props
/-
Properties of the symbol table (C24, C25, C26).
-/
set_option linter.unusedSimpArgs false
namespace Verif.Symtab
open Verif.Hamt (Key Hamt Out)
open Verif.Errwarn (Global errorSet eGeneral eNone)

theorem init_good : Good State.init.tab := good_create

theorem reach_good {fuel : Nat} {ops : List Op} {s : State} (h : run fuel .init ops = .ok s) : Good s.tab := by
  rcases run_good (fuel := fuel) ops .init init_good with h' | ⟨s', h', hg⟩
  · rw [h] at h'; simp at h'
  · rw [h] at h'; simp only [Out.ok.injEq] at h'; subst h'; exact hg

theorem lookup_eq {s : State} (hg : Good s.tab) (name : Key) : s.lookup name = recOf s.tab (normal s.tab.caseSensitive name) := by
  unfold State.lookup recOf
  rw [get_eq hg, norm_eq]
  cases lk s.tab (normal s.tab.caseSensitive name) <;> rfl

/-- No history of calls makes the table read or write out of bounds. -/
theorem symtab_safe (fuel : Nat) (ops : List Op) : run fuel .init ops ≠ .ub := by
  rcases run_good (fuel := fuel) ops .init init_good with h | ⟨s, h, _⟩ <;> rw [h] <;> simp

theorem fold_facts (evs : List Ev) (ha : Ev.absolute ∉ evs) (f : Facts) :
    let r := evs.foldl (fun f e => e.apply f) f
    r.used = (f.used || !(uses evs).isEmpty) ∧ r.defined = (f.defined || !(defs evs).isEmpty) ∧
    (f.defined = true → (r.type, r.defLine) = (f.type, f.defLine)) ∧
    (f.defined = false → (r.type, r.defLine) = (defs evs).head?.getD (f.type, f.defLine)) ∧
    r.useLine = if f.useLine = 0 then ((uses evs).find? (· ≠ 0)).getD 0 else f.useLine := by
  induction evs generalizing f with
  | nil => simp [uses, defs]
  | cons e es ih =>
    have ha' : Ev.absolute ∉ es := fun h => ha (by simp [h])
    obtain ⟨h1, h2, h3, h4, h5⟩ := ih ha' (e.apply f)
    simp only [List.foldl_cons]
    cases e with
    | used l =>
      simp only [Ev.apply, uses, defs] at h1 h2 h3 h4 h5 ⊢
      refine ⟨by simp [h1], h2, h3, h4, ?_⟩
      rw [h5]
      by_cases hf : f.useLine = 0
      · by_cases hl : l = 0 <;> simp [hf, hl]
      · simp [hf]
    | defined t l =>
      simp only [Ev.apply, uses, defs] at h1 h2 h3 h4 h5 ⊢
      cases hd : f.defined with
      | true =>
        simp only [hd, if_true, Bool.true_or] at h1 h2 h3 h4 h5 ⊢
        exact ⟨h1, h2, fun _ => h3 trivial, by simp, h5⟩
      | false =>
        simp only [hd, Bool.false_eq_true, if_false, Bool.true_or, forall_const] at h1 h2 h3 h4 h5 ⊢
        exact ⟨h1, by simp [h2], by simp, by simpa using h3, h5⟩
    | declared v l => simpa only [Ev.apply, uses, defs] using ⟨h1, h2, h3, h4, h5⟩
    | absolute => simp at ha

/-- C24: after any history a name (of which the library's own absolute symbol, the empty name, is not made)
    is known iff some call mentioned it; it is used iff some call used it, and the first use is kept; it is
    defined iff some call defined it, and kind and line are those of the first definition.  This holds
    whatever errors were pending, and up to the case mode in force at each call. -/
theorem symbol_facts (fuel : Nat) (ops : List Op) (s : State) (h : run fuel .init ops = .ok s) (name : Key)
    (evs : List Ev) (hevs : evs = events true (normal (mode true ops) name) ops) (ha : Ev.absolute ∉ evs) :
    (s.lookup name = none ↔ evs = []) ∧
    ∀ r, s.lookup name = some r →
      r.name = normal (mode true ops) name ∧
      (r.used = true ↔ uses evs ≠ []) ∧
      (r.defined = true ↔ defs evs ≠ []) ∧
      (r.type, r.defLine) = (defs evs).head?.getD (.unknown, 0) ∧
      r.useLine = ((uses evs).find? (· ≠ 0)).getD 0 := by
  have hg := reach_good h
  obtain ⟨h1, h2⟩ := run_facts ops .init s init_good h (normal (mode true ops) name)
  have hcs : State.init.tab.caseSensitive = true := rfl
  rw [hcs] at h1 h2
  rw [← hevs] at h1
  have h0 : recOf State.init.tab (normal (mode true ops) name) = none := rfl
  rw [h0] at h1
  rw [lookup_eq hg, h2]
  cases he : evs with
  | nil =>
    rw [he] at h1
    simp only [Option.map_none, Option.map_eq_none_iff] at h1
    rw [h1]; simp
  | cons e es =>
    rw [he] at h1
    simp only [Option.map_none, Option.getD_none] at h1
    rw [← he] at h1 ⊢
    obtain ⟨f1, f2, _, f4, f5⟩ := fold_facts evs ha .new
    constructor
    · constructor
      · intro hn; rw [hn] at h1; simp at h1
      · intro hn; rw [hn] at he; simp at he
    · intro r hr
      rw [hr] at h1
      simp only [Option.map_some, Option.some.injEq] at h1
      refine ⟨?_, ?_, ?_, ?_, ?_⟩
      · unfold recOf at hr
        cases hl : lk s.tab (normal (mode true ops) name) with
        | none => rw [hl] at hr; simp at hr
        | some i =>
          rw [hl] at hr
          obtain ⟨q, hq1, hq2, _⟩ := hg.names _ (lk_mem hl)
          simp only [Option.bind_some] at hr
          rw [hr] at hq1; simp only [Option.some.injEq] at hq1
          subst hq1; exact hq2
      · have : r.used = r.facts.used := rfl
        rw [this, h1, f1]; simp [Facts.new]
      · have : r.defined = r.facts.defined := rfl
        rw [this, h1, f2]; simp [Facts.new]
      · have : (r.type, r.defLine) = (r.facts.type, r.facts.defLine) := rfl
        rw [this, h1, f4 rfl]; rfl
      · have : r.useLine = r.facts.useLine := rfl
        rw [this, h1, f5]; rfl

/- A name used on line 3, defined on 5 and again on 8, in a table without case. -/
example : events true [97#8] [.setCase false, .use [65#8] 3, .equ [97#8] 0 5, .label [65#8] none true 8, .use [98#8] 9]
    = [.used 3, .defined .equ 5, .defined .label 8] := by decide

/-- C24: a name has one record: two names are looked up to the same record iff they are the same in the case
    mode in force. -/
theorem one_record (fuel : Nat) (ops : List Op) (s : State) (h : run fuel .init ops = .ok s) (a b : Key) (i : Nat)
    (hi : s.tab.get a = .ok (some i)) :
    s.tab.get b = .ok (some i) ↔ normal (mode true ops) a = normal (mode true ops) b := by
  have hg := reach_good h
  have h2 := (run_facts ops .init s init_good h []).2
  have hcs : State.init.tab.caseSensitive = true := rfl
  rw [hcs] at h2
  rw [get_eq hg, norm_eq, h2] at hi
  rw [get_eq hg, norm_eq, h2]
  simp only [Out.ok.injEq] at hi ⊢
  constructor
  · intro hb; exact lk_inj hg hi hb
  · intro hab; rw [← hab]; exact hi

theorem run_lk {fuel : Nat} (ops : List Op) (s s' : State) (hg : Good s.tab) (h : run fuel s ops = .ok s') (n : Key) (i : Nat)
    (hi : lk s.tab n = some i) : lk s'.tab n = some i := by
  induction ops generalizing s with
  | nil => simp only [run, Out.ok.injEq] at h; subst h; exact hi
  | cons op ops ih =>
    simp only [run] at h
    cases he : op.eff with
    | none =>
      obtain ⟨s1, h1, h2, h3, _⟩ := step_out (fuel := fuel) hg he
      rw [h1] at h
      exact ih s1 h2 h (by rw [h3]; exact hi)
    | some p =>
      obtain ⟨m, F⟩ := p
      rcases step_in (fuel := fuel) hg he with h1 | ⟨s1, t1, j, r, h1, hs⟩
      · rw [h1] at h; simp at h
      · rw [h1] at h
        refine ih s1 (stepped_good hs (eff_name he _ _)) h ?_
        have hlk : ∀ m, lk s1.tab m = lk t1 m := by intro m; unfold lk; rw [hs.table]
        rw [hlk]
        by_cases hn : n = s.tab.norm m
        · rcases hs.got.how with ⟨g1, _⟩ | ⟨g1, _⟩
          · rw [hn]; rw [hn, g1] at hi; rw [hs.got.found]; exact hi
          · rw [hn, g1] at hi; simp at hi
        · rw [gotNew_lk hs.got hn]; exact hi

/-- C24: the record of a name never changes: later lookups of the name give the record of earlier ones, and
    calls on the name return it. -/
theorem record_stays (fuel : Nat) (ops1 ops2 : List Op) (s1 s2 : State) (h1 : run fuel .init ops1 = .ok s1)
    (h2 : run fuel s1 ops2 = .ok s2) (a b : Key) (i : Nat) (hi : s1.tab.get a = .ok (some i))
    (hab : normal s1.tab.caseSensitive a = normal s2.tab.caseSensitive b) : s2.tab.get b = .ok (some i) := by
  have hg1 := reach_good h1
  rcases run_good (fuel := fuel) ops2 s1 hg1 with h' | ⟨s', h', hg2⟩
  · rw [h2] at h'; simp at h'
  · rw [h2] at h'; simp only [Out.ok.injEq] at h'; subst h'
    rw [get_eq hg1, norm_eq] at hi
    simp only [Out.ok.injEq] at hi
    rw [get_eq hg2, norm_eq, ← hab]
    rw [run_lk ops2 s1 s2 hg1 h2 _ _ hi]

/-- The definitions of a name of the table: name, kind, line and value. -/
def Op.definition : Op → Option (Key × SymType × Nat × Value)
  | .equ n e l => some (n, .equ, l, .expn e)
  | .label n bc true l => some (n, .label, l, .precbc bc)
  | _ => none

theorem definition_eff {op : Op} {n : Key} {ty : SymType} {l : Nat} {v : Value} (h : op.definition = some (n, ty, l, v)) :
    ∃ fill, op.eff = some (n, defEff n ty l fill) ∧ ∀ r, (fill r).value = v ∧ (fill r).type = r.type ∧
      (fill r).defLine = r.defLine ∧ (fill r).defined = r.defined ∧ (fill r).vis = r.vis := by
  cases op with
  | setCase b => simp [Op.definition] at h
  | diag g => simp [Op.definition] at h
  | curpos _ _ _ => simp [Op.definition] at h
  | use m l => simp [Op.definition] at h
  | abs e => simp [Op.definition] at h
  | declare m v l => simp [Op.definition] at h
  | special m v => simp [Op.definition] at h
  | equ m e k =>
    simp only [Op.definition, Option.some.injEq, Prod.mk.injEq] at h
    obtain ⟨rfl, rfl, rfl, rfl⟩ := h
    exact ⟨_, rfl, fun r => ⟨rfl, rfl, rfl, rfl, rfl⟩⟩
  | label m bc b k =>
    cases b with
    | false => simp [Op.definition] at h
    | true =>
      simp only [Op.definition, Option.some.injEq, Prod.mk.injEq] at h
      obtain ⟨rfl, rfl, rfl, rfl⟩ := h
      exact ⟨_, rfl, fun r => ⟨rfl, rfl, rfl, rfl, rfl⟩⟩

/-- C24: a definition of a name that has none, with no error pending, is accepted without an error: the
    record gets its kind, line and value, and no other name changes. -/
theorem definition_accepted (fuel : Nat) (ops : List Op) (s s' : State) (h : run fuel .init ops = .ok s)
    (op : Op) (n : Key) (ty : SymType) (l : Nat) (v : Value) (hop : op.definition = some (n, ty, l, v))
    (hnew : ∀ r, s.lookup n = some r → r.defined = false) (hnone : s.g.err.eclass = eNone)
    (hs : step fuel s op = .ok s') :
    s'.g.err = s.g.err ∧
    (∃ r, s'.lookup n = some r ∧ r.defined = true ∧ r.type = ty ∧ r.defLine = l ∧ r.value = v ∧ s'.last.isSome) ∧
    ∀ m, normal s.tab.caseSensitive m ≠ normal s.tab.caseSensitive n → s'.lookup m = s.lookup m := by
  have hg := reach_good h
  obtain ⟨fill, he, hfill⟩ := definition_eff hop
  rcases step_in (fuel := fuel) hg he with h1 | ⟨s1, t1, i, r, h1, hst⟩
  · rw [hs] at h1; simp at h1
  · rw [hs] at h1; simp only [Out.ok.injEq] at h1; subst h1
    have hg' := stepped_good hst (eff_name he _ _)
    obtain ⟨r1, r2⟩ := stepped_rec hg hst
    have hr := gotNew_rec hg hst.got
    have hcs : s'.tab.caseSensitive = s.tab.caseSensitive := by rw [hst.cs, hst.got.cs]
    have hd : r.defined = false := by
      rw [hr, norm_eq, ← lookup_eq hg]
      cases hl : s.lookup n with
      | none => rfl
      | some q => exact hnew q hl
    have hg1 : s'.g = r.defineDiag n s.g := hst.g
    have herr : (r.defineDiag n s.g).err = s.g.err := by
      unfold Rec.defineDiag
      simp only [hd, Bool.false_eq_true, if_false]
      split
      · unfold Errwarn.warnSet; split <;> rfl
      · rfl
    have hno : errorOccurred (r.defineDiag n s.g) = false := by
      unfold errorOccurred; rw [herr, hnone]; rfl
    refine ⟨by rw [hg1, herr], ?_, ?_⟩
    · rw [lookup_eq hg', hcs, ← norm_eq, r1]
      refine ⟨_, rfl, ?_⟩
      simp only [defEff, hno, hd, Bool.false_eq_true, if_false]
      obtain ⟨a, b, c, d, _⟩ := hfill (r.define ty l)
      refine ⟨by rw [d]; rfl, by rw [b]; rfl, by rw [c]; rfl, a, by rw [hst.last]; rfl⟩
    · intro m hm
      rw [lookup_eq hg', lookup_eq hg, hcs]
      exact r2 _ (by rw [norm_eq]; exact hm)

/-- C24: a second definition is reported, with the line of the first, and changes no symbol. -/
theorem redefinition_reported (fuel : Nat) (ops : List Op) (s s' : State) (h : run fuel .init ops = .ok s)
    (op : Op) (n : Key) (ty : SymType) (l : Nat) (v : Value) (hop : op.definition = some (n, ty, l, v))
    (r : Rec) (hr : s.lookup n = some r) (hdef : r.defined = true) (hnone : s.g.err.eclass = eNone)
    (hs : step fuel s op = .ok s') :
    s'.g.err.eclass = eGeneral ∧ s'.g.err.estr = some s!"redefinition of `{text n}'" ∧
    s'.g.err.xrefline = (if r.defLine ≠ 0 then r.defLine else r.declLine) ∧
    (∀ m, s'.lookup m = s.lookup m) ∧ s'.g.warns = s.g.warns := by
  have hg := reach_good h
  obtain ⟨fill, he, hfill⟩ := definition_eff hop
  rcases step_in (fuel := fuel) hg he with h1 | ⟨s1, t1, i, q, h1, hst⟩
  · rw [hs] at h1; simp at h1
  · rw [hs] at h1; simp only [Out.ok.injEq] at h1; subst h1
    have hg' := stepped_good hst (eff_name he _ _)
    obtain ⟨r1, r2⟩ := stepped_rec hg hst
    have hq := gotNew_rec hg hst.got
    have hcs : s'.tab.caseSensitive = s.tab.caseSensitive := by rw [hst.cs, hst.got.cs]
    rw [norm_eq, ← lookup_eq hg, hr] at hq
    simp only [Option.getD_some] at hq; subst hq
    have hg1 : s'.g = q.defineDiag n s.g := hst.g
    have hdiag : q.defineDiag n s.g = { s.g with err := ⟨eGeneral, some s!"redefinition of `{text n}'",
        if q.defLine ≠ 0 then q.defLine else q.declLine, some s!"`{text n}' previously defined here"⟩ } := by
      simp [Rec.defineDiag, hdef, Errwarn.errorSetXref, errorSet, hnone]
    have hno : errorOccurred (q.defineDiag n s.g) = true := by rw [hdiag]; rfl
    refine ⟨by rw [hg1, hdiag], by rw [hg1, hdiag], by rw [hg1, hdiag], ?_, by rw [hg1, hdiag]⟩
    intro m
    rw [lookup_eq hg', lookup_eq hg, hcs]
    by_cases hm : normal s.tab.caseSensitive m = normal s.tab.caseSensitive n
    · rw [hm, ← norm_eq, r1, norm_eq, ← lookup_eq hg, hr]
      simp [defEff, hno, hdef]
    · exact r2 _ (by rw [norm_eq]; exact hm)

theorem defEff_keeps (n : Key) (ty : SymType) (l : Nat) (f : Rec → Rec) (g : Global) (r : Rec) (hd : r.defined = true) :
    (defEff n ty l f g r).1 = r := by
  unfold defEff
  simp only [hd, if_true]
  have : errorOccurred (r.defineDiag n g) = true := by
    unfold errorOccurred Rec.defineDiag
    simp only [hd, if_true, Errwarn.errorSetXref, errorSet]
    split
    · rename_i h
      simpa using h
    · simp [eGeneral, eNone]
  rw [this]; rfl

/-- Calls other than making the absolute symbol keep the definition of a defined record. -/
theorem eff_keeps {op : Op} {n : Key} {F} (he : op.eff = some (n, F)) (ha : ∀ e, op ≠ .abs e) (g : Global) (r : Rec)
    (hd : r.defined = true) :
    (F g r).1.defined = true ∧ (F g r).1.type = r.type ∧ (F g r).1.defLine = r.defLine ∧ (F g r).1.value = r.value ∧
      (F g r).1.valued = r.valued := by
  cases op with
  | setCase b => simp [Op.eff] at he
  | diag g => simp [Op.eff] at he
  | curpos _ _ _ => simp [Op.eff] at he
  | use m l => simp only [Op.eff, Option.some.injEq, Prod.mk.injEq] at he; obtain ⟨rfl, rfl⟩ := he; exact ⟨hd, rfl, rfl, rfl, rfl⟩
  | abs e => exact absurd rfl (ha e)
  | declare m v l =>
    simp only [Op.eff, Option.some.injEq, Prod.mk.injEq] at he; obtain ⟨rfl, rfl⟩ := he
    simp only [Rec.declare]; split <;> exact ⟨hd, rfl, rfl, rfl, rfl⟩
  | equ m e l =>
    simp only [Op.eff, Option.some.injEq, Prod.mk.injEq] at he; obtain ⟨rfl, rfl⟩ := he
    rw [defEff_keeps _ _ _ _ _ _ hd]; exact ⟨hd, rfl, rfl, rfl, rfl⟩
  | special m v =>
    simp only [Op.eff, Option.some.injEq, Prod.mk.injEq] at he; obtain ⟨rfl, rfl⟩ := he
    rw [defEff_keeps _ _ _ _ _ _ hd]; exact ⟨hd, rfl, rfl, rfl, rfl⟩
  | label m bc b l =>
    cases b with
    | false => simp [Op.eff] at he
    | true =>
      simp only [Op.eff, Option.some.injEq, Prod.mk.injEq] at he; obtain ⟨rfl, rfl⟩ := he
      rw [defEff_keeps _ _ _ _ _ _ hd]; exact ⟨hd, rfl, rfl, rfl, rfl⟩

theorem run_keeps {fuel : Nat} (ops : List Op) (s s' : State) (hg : Good s.tab) (h : run fuel s ops = .ok s') (n : Key)
    (hn : n = [] → ∀ e, Op.abs e ∉ ops) (r : Rec) (hr : recOf s.tab n = some r) (hd : r.defined = true) :
    ∃ r', recOf s'.tab n = some r' ∧ r'.defined = true ∧ r'.type = r.type ∧ r'.defLine = r.defLine ∧ r'.value = r.value ∧
      r'.valued = r.valued := by
  induction ops generalizing s r with
  | nil => simp only [run, Out.ok.injEq] at h; subst h; exact ⟨r, hr, hd, rfl, rfl, rfl, rfl⟩
  | cons op ops ih =>
    have hn' : n = [] → ∀ e, Op.abs e ∉ ops := fun h e he => hn h e (by simp [he])
    simp only [run] at h
    cases he : op.eff with
    | none =>
      obtain ⟨s1, h1, h2, h3, h4, _⟩ := step_out (fuel := fuel) hg he
      rw [h1] at h
      exact ih s1 h2 h hn' r (by rw [out_rec hg h3 h4]; exact hr) hd
    | some p =>
      obtain ⟨m, F⟩ := p
      rcases step_in (fuel := fuel) hg he with h1 | ⟨s1, t1, j, q, h1, hs⟩
      · rw [h1] at h; simp at h
      · rw [h1] at h
        have hg1 := stepped_good hs (eff_name he s.g q)
        obtain ⟨r1, r2⟩ := stepped_rec hg hs
        by_cases hnm : n = s.tab.norm m
        · subst hnm
          have hq := gotNew_rec hg hs.got
          rw [hr] at hq
          simp only [Option.getD_some] at hq; subst hq
          have ha : ∀ e, op ≠ .abs e := by
            intro e hop
            subst hop
            simp only [Op.eff, Option.some.injEq, Prod.mk.injEq] at he
            have : s.tab.norm m = [] := by rw [← he.1, norm_eq]; unfold normal; split <;> rfl
            exact hn this e (by simp)
          obtain ⟨k1, k2, k3, k4, k5⟩ := eff_keeps he ha s.g q hd
          obtain ⟨r', a, b, c, d, e, f⟩ := ih s1 hg1 h hn' _ r1 k1
          exact ⟨r', a, b, c.trans k2, d.trans k3, e.trans k4, f.trans k5⟩
        · exact ih s1 hg1 h hn' r (by rw [r2 n hnm]; exact hr) hd

/-- C24: the first definition stays: whatever follows, redefinitions included, the symbol keeps kind, line and
    value of its first definition. -/
theorem first_definition_stays (fuel : Nat) (ops1 ops2 : List Op) (s1 s2 : State) (h1 : run fuel .init ops1 = .ok s1)
    (h2 : run fuel s1 ops2 = .ok s2) (a b : Key) (hab : normal s1.tab.caseSensitive a = normal s2.tab.caseSensitive b)
    (ha : a = [] → ∀ e, Op.abs e ∉ ops2) (r : Rec) (hr : s1.lookup a = some r) (hd : r.defined = true) :
    ∃ r', s2.lookup b = some r' ∧ r'.defined = true ∧ r'.type = r.type ∧ r'.defLine = r.defLine ∧ r'.value = r.value := by
  have hg1 := reach_good h1
  have hg2 : Good s2.tab := by
    rcases run_good (fuel := fuel) ops2 s1 hg1 with h' | ⟨s', h', hg2⟩
    · rw [h2] at h'; simp at h'
    · rw [h2] at h'; simp only [Out.ok.injEq] at h'; subst h'; exact hg2
  rw [lookup_eq hg1] at hr
  have ha' : normal s1.tab.caseSensitive a = [] → ∀ e, Op.abs e ∉ ops2 := by
    intro h
    apply ha
    unfold normal at h
    split at h
    · exact h
    · simpa using h
  obtain ⟨r', k1, k2, k3, k4, k5, _⟩ := run_keeps ops2 s1 s2 hg1 h2 _ ha' r hr hd
  exact ⟨r', by rw [lookup_eq hg2, ← hab]; exact k1, k2, k3, k4, k5⟩

/-- C24 is false with an error pending: the label is then defined without a value, and asking for its
    position reads memory nobody wrote. -/
theorem pending_error_loses_value (fuel : Nat) (ops : List Op) (s s' : State) (h : run fuel .init ops = .ok s)
    (n : Key) (hnew : s.lookup n = none) (bc : Option Nat) (l : Nat) (herr : s.g.err.eclass ≠ eNone)
    (hs : step fuel s (.label n bc true l) = .ok s') :
    ∃ r, s'.lookup n = some r ∧ r.defined = true ∧ r.type = .label ∧ r.getLabel = none := by
  have hg := reach_good h
  have he : (Op.label n bc true l).eff = some (n, defEff n .label l fun r => { r with value := .precbc bc }) := rfl
  rcases step_in (fuel := fuel) hg he with h1 | ⟨s1, t1, i, q, h1, hst⟩
  · rw [hs] at h1; simp at h1
  · rw [hs] at h1; simp only [Out.ok.injEq] at h1; subst h1
    have hg' := stepped_good hst (eff_name he _ _)
    obtain ⟨r1, _⟩ := stepped_rec hg hst
    have hq := gotNew_rec hg hst.got
    rw [norm_eq, ← lookup_eq hg, hnew] at hq
    simp only [Option.getD_none] at hq
    have hcs : s'.tab.caseSensitive = s.tab.caseSensitive := by rw [hst.cs, hst.got.cs]
    have hdiag : q.defineDiag n s.g = s.g := by rw [hq]; simp [Rec.defineDiag, newRec, visLocal]
    have hno : errorOccurred s.g = true := by unfold errorOccurred; simpa using herr
    rw [lookup_eq hg', hcs, ← norm_eq, r1]
    refine ⟨_, rfl, ?_⟩
    simp only [defEff, hdiag, hno, if_true]
    rw [hq]
    simp [newRec, Rec.define, Rec.getLabel]

/- Such a call returns. -/
example : ∃ s', step 0 { State.init with g := errorSet .init eGeneral "e" } (.label [97#8] (some 3) true 5) = .ok s' := ⟨_, rfl⟩

/-- C22 for symbols: destroying the table frees every record exactly once. -/
theorem destroyed_once (fuel : Nat) (ops : List Op) (s : State) (h : run fuel .init ops = .ok s) :
    s.tab.destroyed.Perm (List.range s.tab.recs.length) := (reach_good h).owned

/-! C26 -/

/-- C26: which declarations are accepted: global always; extern, common and local only on an undefined symbol,
    and not after the other of extern and common (or a local after either).  An accepted one is added
    and its line noted; otherwise an error is set and nothing changes. -/
theorem declare_result (fuel : Nat) (ops : List Op) (s s' : State) (h : run fuel .init ops = .ok s)
    (n : Key) (v : Vis) (hv : v = visGlobal ∨ v = visCommon ∨ v = visExtern ∨ v = visDlocal) (l : Nat)
    (r : Rec) (hr : s.lookup n = some r) (hs : step fuel s (.declare n v l) = .ok s') :
    let common := r.vis &&& visCommon ≠ 0
    let extern := r.vis &&& visExtern ≠ 0
    let ok := v = visGlobal ∨ (r.defined = false ∧
      ((v = visCommon ∧ (common ∨ ¬ extern)) ∨ (v = visExtern ∧ (extern ∨ ¬ common)) ∨
       (v = visDlocal ∧ ¬ common ∧ ¬ extern)))
    (ok → s'.lookup n = some { r with vis := r.vis ||| v, declLine := l } ∧ s'.g = s.g) ∧
    (¬ ok → s'.lookup n = some r ∧ s'.g.err.eclass ≠ eNone) ∧
    ∀ m, normal s.tab.caseSensitive m ≠ normal s.tab.caseSensitive n → s'.lookup m = s.lookup m := by
  intro common extern ok
  have hg := reach_good h
  have he : (Op.declare n v l).eff = some (n, fun g r => r.declare v l g) := rfl
  rcases step_in (fuel := fuel) hg he with h1 | ⟨s1, t1, i, q, h1, hst⟩
  · rw [hs] at h1; simp at h1
  · rw [hs] at h1; simp only [Out.ok.injEq] at h1; subst h1
    have hg' := stepped_good hst (eff_name he _ _)
    obtain ⟨r1, r2⟩ := stepped_rec hg hst
    have hq := gotNew_rec hg hst.got
    rw [norm_eq, ← lookup_eq hg, hr] at hq
    simp only [Option.getD_some] at hq; subst hq
    have hcs : s'.tab.caseSensitive = s.tab.caseSensitive := by rw [hst.cs, hst.got.cs]
    have hg1 : s'.g = (q.declare v l s.g).2 := hst.g
    have hlook : s'.lookup n = some (q.declare v l s.g).1 := by rw [lookup_eq hg', hcs, ← norm_eq, r1]
    have hacc : q.accepts v = true ↔ ok := by
      have hbits : ∀ w : Vis, ∀ v ∈ [visGlobal, visCommon, visExtern, visDlocal], ∀ d : Bool,
          (v == visGlobal || (!d && (w &&& (visCommon ||| visExtern) == 0 || (w &&& visCommon != 0 && v == visCommon) ||
            (w &&& visExtern != 0 && v == visExtern)))) = true ↔
          (v = visGlobal ∨ (d = false ∧ ((v = visCommon ∧ (w &&& visCommon ≠ 0 ∨ ¬ (w &&& visExtern ≠ 0))) ∨
            (v = visExtern ∧ (w &&& visExtern ≠ 0 ∨ ¬ (w &&& visCommon ≠ 0))) ∨
            (v = visDlocal ∧ ¬ (w &&& visCommon ≠ 0) ∧ ¬ (w &&& visExtern ≠ 0))))) := by decide
      exact hbits q.vis v (by simpa using hv) q.defined
    refine ⟨?_, ?_, ?_⟩
    · intro hok
      rw [hlook, hg1]
      simp [Rec.declare, hacc.2 hok]
    · intro hok
      have hna : q.accepts v = false := by
        cases hh : q.accepts v with
        | false => rfl
        | true => exact absurd (hacc.1 hh) hok
      rw [hlook, hg1]
      simp only [Rec.declare, hna, Bool.false_eq_true, if_false, true_and]
      unfold errorSet
      split
      · assumption
      · simp [eGeneral, eNone]
    · intro m hm
      rw [lookup_eq hg', lookup_eq hg, hcs]
      exact r2 _ (by rw [norm_eq]; exact hm)

/- An extern symbol: a common declaration is refused, a global one accepted. -/
example : (((newRec [97#8] false).declare visExtern 4 .init).1.declare visCommon 5 .init).2.err.eclass ≠ eNone ∧
    (((newRec [97#8] false).declare visExtern 4 .init).1.declare visGlobal 5 .init).1.vis = visExtern ||| visGlobal := by
  constructor <;> decide +kernel

/-- What holds of new records and is kept by the calls of a history holds of all symbols. -/
theorem run_inv {fuel : Nat} (P : Rec → Prop) (Q : Op → Prop) (hnew : ∀ n, P (newRec n false))
    (hkeep : ∀ op n F, Q op → op.eff = some (n, F) → ∀ g r, P r → P (F g r).1) (ops : List Op) (s s' : State) (hg : Good s.tab)
    (hq : ∀ op ∈ ops, Q op) (h : run fuel s ops = .ok s') (hp : ∀ n r, recOf s.tab n = some r → P r) :
    ∀ n r, recOf s'.tab n = some r → P r := by
  induction ops generalizing s with
  | nil => simp only [run, Out.ok.injEq] at h; subst h; exact hp
  | cons op ops ih =>
    simp only [run] at h
    cases he : op.eff with
    | none =>
      obtain ⟨s1, h1, h2, h3, h4, _⟩ := step_out (fuel := fuel) hg he
      rw [h1] at h
      exact ih s1 h2 (fun o ho => hq o (by simp [ho])) h (fun n r hr => hp n r (by rw [← out_rec hg h3 h4]; exact hr))
    | some p =>
      obtain ⟨m, F⟩ := p
      rcases step_in (fuel := fuel) hg he with h1 | ⟨s1, t1, j, q, h1, hs⟩
      · rw [h1] at h; simp at h
      · rw [h1] at h
        obtain ⟨r1, r2⟩ := stepped_rec hg hs
        refine ih s1 (stepped_good hs (eff_name he _ _)) (fun o ho => hq o (by simp [ho])) h ?_
        intro n r hr
        by_cases hnm : n = s.tab.norm m
        · subst hnm
          rw [r1] at hr
          simp only [Option.some.injEq] at hr
          rw [← hr]
          refine hkeep op m F (hq op (by simp)) he _ _ ?_
          rw [gotNew_rec hg hs.got]
          cases hh : recOf s.tab (s.tab.norm m) with
          | none => exact hnew _
          | some u => exact hp _ _ hh
        · exact hp n r (by rw [← r2 n hnm]; exact hr)

/-- C26: extern and common never meet on a symbol ("mutually exclusive", symrec.h:51). -/
theorem never_common_and_extern (fuel : Nat) (ops : List Op) (s : State) (h : run fuel .init ops = .ok s)
    (hdecl : ∀ n v l, Op.declare n v l ∈ ops → v = visGlobal ∨ v = visCommon ∨ v = visExtern ∨ v = visDlocal)
    (hspec : ∀ n v, Op.special n v ∈ ops → v = visGlobal ∨ v = visCommon ∨ v = visExtern ∨ v = visDlocal ∨ v = visLocal)
    (n : Key) (r : Rec) (hr : s.lookup n = some r) : ¬ (r.vis &&& visCommon ≠ 0 ∧ r.vis &&& visExtern ≠ 0) := by
  have hg := reach_good h
  rw [lookup_eq hg] at hr
  refine run_inv (fun r => ¬ (r.vis &&& visCommon ≠ 0 ∧ r.vis &&& visExtern ≠ 0))
    (fun op => (∀ n v l, op = Op.declare n v l → v = visGlobal ∨ v = visCommon ∨ v = visExtern ∨ v = visDlocal) ∧
      ∀ n v, op = Op.special n v → v = visGlobal ∨ v = visCommon ∨ v = visExtern ∨ v = visDlocal ∨ v = visLocal)
    (fun n => by simp [newRec, visLocal]) ?_ ops .init s init_good
    (fun op ho => ⟨fun n v l e => hdecl n v l (e ▸ ho), fun n v e => hspec n v (e ▸ ho)⟩) h
    (by intro n r h0; simp [recOf, lk, State.init, Tab.create, Hamt.create] at h0) _ r hr
  intro op m F hq he g r hp
  cases op with
  | setCase b => simp [Op.eff] at he
  | diag g => simp [Op.eff] at he
  | curpos _ _ _ => simp [Op.eff] at he
  | use m l => simp only [Op.eff, Option.some.injEq, Prod.mk.injEq] at he; obtain ⟨rfl, rfl⟩ := he; exact hp
  | abs e => simp only [Op.eff, Option.some.injEq, Prod.mk.injEq] at he; obtain ⟨rfl, rfl⟩ := he; exact hp
  | declare m v l =>
    simp only [Op.eff, Option.some.injEq, Prod.mk.injEq] at he; obtain ⟨rfl, rfl⟩ := he
    have hv := hq.1 _ _ _ rfl
    simp only [Rec.declare]
    split
    · rename_i hacc
      simp only
      have hbits : ∀ w : Vis, ∀ v ∈ [visGlobal, visCommon, visExtern, visDlocal], ∀ d : Bool,
          ¬ (w &&& visCommon ≠ 0 ∧ w &&& visExtern ≠ 0) →
          (v == visGlobal || (!d && (w &&& (visCommon ||| visExtern) == 0 || (w &&& visCommon != 0 && v == visCommon) ||
            (w &&& visExtern != 0 && v == visExtern)))) = true →
          ¬ ((w ||| v) &&& visCommon ≠ 0 ∧ (w ||| v) &&& visExtern ≠ 0) := by decide
      exact hbits r.vis v (by simpa using hv) r.defined hp hacc
    · exact hp
  | equ m e l =>
    simp only [Op.eff, Option.some.injEq, Prod.mk.injEq] at he; obtain ⟨rfl, rfl⟩ := he
    simp only [defEff]
    split <;> split <;> exact hp
  | label m bc b l =>
    cases b with
    | false => simp [Op.eff] at he
    | true =>
      simp only [Op.eff, Option.some.injEq, Prod.mk.injEq] at he; obtain ⟨rfl, rfl⟩ := he
      simp only [defEff]
      split <;> split <;> exact hp
  | special m v =>
    simp only [Op.eff, Option.some.injEq, Prod.mk.injEq] at he; obtain ⟨rfl, rfl⟩ := he
    simp only [defEff]
    split
    · split <;> exact hp
    · have hv := hq.2 _ _ rfl
      have : ∀ v ∈ [visGlobal, visCommon, visExtern, visDlocal, visLocal], ¬ (v &&& visCommon ≠ 0 ∧ v &&& visExtern ≠ 0) := by decide
      exact this v (by simpa using hv)

/-- C26 is false of the code: the table in yasm_symrec_declare (symrec.c:379-388) excludes symbols both common
    and defined, but a definition after the declaration is accepted, without a diagnostic. -/
theorem common_then_defined (n : Key) (g : Global) (hg : g.err.eclass = eNone) (bc : Option Nat) (l1 l2 : Nat) :
    let r := (newRec n false).declare visCommon l1 g
    let r' := defEff n .label l2 (fun r => { r with value := .precbc bc }) r.2 r.1
    r'.2 = g ∧ r'.1.defined = true ∧ r'.1.vis = visCommon := by
  have h1 : (newRec n false).accepts visCommon = true := by
    simp only [Rec.accepts, newRec, visLocal]; decide
  simp only [Rec.declare, h1, if_true]
  have h2 : visLocal ||| visCommon = visCommon := by decide
  have h3 : ¬ (visCommon &&& visExtern ≠ 0) := by decide
  simp only [newRec, defEff, Rec.defineDiag, Bool.false_eq_true, if_false, h2, h3]
  refine ⟨trivial, ?_, ?_⟩
  · simp [errorOccurred, hg, Rec.define]
  · simp [errorOccurred, hg, Rec.define]

/-- C26 is false of the code: the declaration line kept is that of the last declaration, not "where symbol was
    first declared" (symrec.c:67). -/
theorem last_declaration_line (n : Key) (g : Global) (l1 l2 : Nat) :
    ((((newRec n false).declare visGlobal l1 g).1).declare visGlobal l2 g).1.declLine = l2 := by
  simp [Rec.declare, Rec.accepts]

/-! C25 -/

/-- Undefined symbols have an extern or common visibility iff they were declared so. -/
def Vised (o : Option Rec) (b : Bool) : Prop :=
  match o with
  | none => b = false
  | some r => r.defined = false → (r.vis &&& (visExtern ||| visCommon) != 0) = b

theorem declaredOutside_append (a b : List Ev) : declaredOutside (a ++ b) = (declaredOutside a || declaredOutside b) := by
  induction a with
  | nil => simp [declaredOutside]
  | cons e es ih => cases e <;> simp [declaredOutside, ih, Bool.or_assoc]

theorem defEff_defined (n : Key) (ty : SymType) (l : Nat) (f : Rec → Rec) (hf : ∀ r, (f r).defined = r.defined)
    (g : Global) (r : Rec) : (defEff n ty l f g r).1.defined = true := by
  unfold defEff
  simp only
  have : (if r.defined then r else r.define ty l).defined = true := by
    cases hd : r.defined <;> simp [Rec.define, hd]
  split
  · exact this
  · rw [hf]; exact this

theorem eff_vised {op : Op} {n : Key} {F} (he : op.eff = some (n, F)) (g : Global) (r : Rec) (b : Bool)
    (h : Vised (some r) b) : Vised (some (F g r).1) (b || declaredOutside [op.ev]) := by
  cases op with
  | setCase b => simp [Op.eff] at he
  | diag g => simp [Op.eff] at he
  | curpos _ _ _ => simp [Op.eff] at he
  | use m l =>
    simp only [Op.eff, Option.some.injEq, Prod.mk.injEq] at he; obtain ⟨rfl, rfl⟩ := he
    simpa [Op.ev, declaredOutside, Vised, Rec.use] using h
  | abs e =>
    simp only [Op.eff, Option.some.injEq, Prod.mk.injEq] at he; obtain ⟨rfl, rfl⟩ := he
    simp [Vised]
  | declare m v l =>
    simp only [Op.eff, Option.some.injEq, Prod.mk.injEq] at he; obtain ⟨rfl, rfl⟩ := he
    simp only [Vised, Op.ev, declaredOutside, Bool.or_false] at h ⊢
    have hbits : ∀ w v : Vis,
        ((v == visGlobal || (!false && (w &&& (visCommon ||| visExtern) == 0 || (w &&& visCommon != 0 && v == visCommon) ||
            (w &&& visExtern != 0 && v == visExtern)))) = true →
          ((w ||| v) &&& (visExtern ||| visCommon) != 0) =
            ((w &&& (visExtern ||| visCommon) != 0) || v &&& (visCommon ||| visExtern) != 0)) ∧
        ((v == visGlobal || (!false && (w &&& (visCommon ||| visExtern) == 0 || (w &&& visCommon != 0 && v == visCommon) ||
            (w &&& visExtern != 0 && v == visExtern)))) = false →
          (w &&& (visExtern ||| visCommon) != 0) = true) := by decide
    unfold Rec.declare
    split
    · rename_i ha
      intro hd
      simp only at hd ⊢
      have := (hbits r.vis v).1 (by rw [← hd]; exact ha)
      rw [this, h hd]
    · rename_i ha
      intro hd
      simp only at hd ⊢
      have := (hbits r.vis v).2 (by
        have ha' : r.accepts v = false := by simpa using ha
        rw [Rec.accepts, hd] at ha'
        exact ha')
      rw [this]; rw [h hd] at this; rw [this]; rfl
  | equ m e l =>
    simp only [Op.eff, Option.some.injEq, Prod.mk.injEq] at he; obtain ⟨rfl, rfl⟩ := he
    intro hd
    rw [defEff_defined] at hd
    · simp at hd
    · intro r; rfl
  | special m v =>
    simp only [Op.eff, Option.some.injEq, Prod.mk.injEq] at he; obtain ⟨rfl, rfl⟩ := he
    intro hd
    rw [defEff_defined] at hd
    · simp at hd
    · intro r; rfl
  | label m bc b l =>
    cases b with
    | false => simp [Op.eff] at he
    | true =>
      simp only [Op.eff, Option.some.injEq, Prod.mk.injEq] at he; obtain ⟨rfl, rfl⟩ := he
      intro hd
      rw [defEff_defined] at hd
      · simp at hd
      · intro r; rfl

theorem run_vised {fuel : Nat} (ops : List Op) (s s' : State) (hg : Good s.tab) (h : run fuel s ops = .ok s') (n : Key)
    (b : Bool) (hv : Vised (recOf s.tab n) b) :
    Vised (recOf s'.tab n) (b || declaredOutside (events s.tab.caseSensitive n ops)) := by
  induction ops generalizing s b with
  | nil => simp only [run, Out.ok.injEq] at h; subst h; simpa [events, declaredOutside] using hv
  | cons op ops ih =>
    simp only [run] at h
    cases he : op.eff with
    | none =>
      obtain ⟨s1, h1, h2, h3, h4, h5⟩ := step_out (fuel := fuel) hg he
      rw [h1] at h
      have := ih s1 h2 h b (by rw [out_rec hg h3 h4]; exact hv)
      rw [(events_out he s.tab.caseSensitive n ops).1, ← h5]
      exact this
    | some p =>
      obtain ⟨m, F⟩ := p
      rcases step_in (fuel := fuel) hg he with h1 | ⟨s1, t1, i, r, h1, hs⟩
      · rw [h1] at h; simp at h
      · rw [h1] at h
        have hg1 := stepped_good hs (eff_name he s.g r)
        have hcs : s1.tab.caseSensitive = s.tab.caseSensitive := by rw [hs.cs, hs.got.cs]
        obtain ⟨r1, r2⟩ := stepped_rec hg hs
        have hr := gotNew_rec hg hs.got
        rw [(events_eff he s.tab.caseSensitive n ops).1, declaredOutside_append, ← Bool.or_assoc, ← hcs]
        apply ih s1 hg1 h
        rw [hcs]
        by_cases hmn : normal s.tab.caseSensitive m = n
        · subst hmn
          rw [norm_eq] at r1 hr
          rw [r1, if_pos rfl]
          apply eff_vised he
          rw [hr]
          cases hh : recOf s.tab (normal s.tab.caseSensitive m) with
          | some q => rw [hh] at hv; exact hv
          | none =>
            rw [hh] at hv
            simp only [Vised] at hv; subst hv
            intro _
            simp only [Option.getD_none, newRec]; decide
        · rw [if_neg hmn, r2 n (fun h => hmn h.symm)]
          simpa [declaredOutside] using hv

/-- The record of a stored spelling is found undefined iff the history leaves it so. -/
theorem undefined_iff {fuel : Nat} {ops : List Op} {s : State} (h : run fuel .init ops = .ok s) (n : Key) (r : Rec)
    (hr : recOf s.tab n = some r) :
    (r.undefined = true ↔ Undefined (events true n ops)) ∧
    (r.undefined = true → r.useLine = firstUse (events true n ops)) := by
  obtain ⟨h1, _⟩ := run_facts ops .init s init_good h n
  have hv := run_vised ops .init s init_good h n false rfl
  have hcs : State.init.tab.caseSensitive = true := rfl
  rw [hcs] at h1 hv
  have h0 : recOf State.init.tab n = none := rfl
  rw [h0] at h1
  rw [hr] at h1 hv
  simp only [Vised, Bool.false_or] at hv
  have hund : r.undefined = true ↔ r.used = true ∧ r.defined = false ∧ (r.vis &&& (visExtern ||| visCommon) != 0) = false := by
    unfold Rec.undefined
    simp [and_assoc]
  generalize hevs : events true n ops = evs at h1 hv ⊢
  cases he : evs with
  | nil => rw [he] at h1; simp at h1
  | cons e es =>
    rw [he] at h1
    simp only [Option.map_none, Option.getD_none, Option.map_some, Option.some.injEq] at h1
    rw [← he] at h1 ⊢
    by_cases ha : Ev.absolute ∈ evs
    · -- once made absolute it is defined
      have hdef : ∀ (es : List Ev) (f : Facts), (f.defined = true ∨ Ev.absolute ∈ es) →
          (es.foldl (fun f e => e.apply f) f).defined = true := by
        intro es
        induction es with
        | nil => intro f hf; simpa using hf
        | cons e es ih =>
          intro f hf
          rw [List.foldl_cons]
          apply ih
          rcases hf with hf | hf
          · left; cases e <;> simp [Ev.apply, hf]
          · rcases List.mem_cons.1 hf with hf | hf
            · subst hf; left; rfl
            · exact Or.inr hf
      have hd : r.facts.defined = true := by rw [h1]; exact hdef _ _ (Or.inr ha)
      have hd' : r.defined = true := hd
      constructor
      · rw [hund]
        simp only [hd', Bool.true_eq_false, false_and, and_false, false_iff]
        intro hu; exact hu.2.2.1 ha
      · rw [hund, hd']; simp
    · obtain ⟨f1, f2, _, f4, f5⟩ := fold_facts evs ha .new
      have g1 : r.used = !(uses evs).isEmpty := by
        have : r.used = r.facts.used := rfl
        rw [this, h1, f1]; simp [Facts.new]
      have g2 : r.defined = !(defs evs).isEmpty := by
        have : r.defined = r.facts.defined := rfl
        rw [this, h1, f2]; simp [Facts.new]
      have g3 : r.useLine = firstUse evs := by
        have : r.useLine = r.facts.useLine := rfl
        rw [this, h1, f5]; rfl
      refine ⟨?_, fun _ => g3⟩
      rw [hund]
      unfold Undefined
      constructor
      · rintro ⟨a, b, c⟩
        rw [hv b] at c
        rw [g1] at a; rw [g2] at b
        exact ⟨by simpa using a, by simpa using b, ha, c⟩
      · rintro ⟨a, b, _, c⟩
        have hd : r.defined = false := by rw [g2]; simpa using b
        exact ⟨by rw [g1]; simpa using a, hd, by rw [hv hd]; exact c⟩

theorem errRun_append (s : Errwarn.State) (a b : List Errwarn.Op) :
    Errwarn.run s (a ++ b) = (Errwarn.run s a).bind (fun s => Errwarn.run s b) := by
  induction a generalizing s with
  | nil => rfl
  | cons o a ih =>
    simp only [List.cons_append, Errwarn.run]
    cases Errwarn.step s o with
    | none => rfl
    | some s1 => simp only [Option.bind_some, ih]

theorem errRun_report (s : Errwarn.State) (m : String) (l : Nat) (ops : List Errwarn.Op) :
    Errwarn.run s (.errorSet eGeneral m :: .propagate l :: ops) =
      (Errwarn.propagate (errorSet s.g eGeneral m) s.ew l).bind (fun r => Errwarn.run ⟨r.1, r.2⟩ ops) := by
  simp only [Errwarn.run, Errwarn.step, Option.bind_some]
  cases Errwarn.propagate (errorSet s.g eGeneral m) s.ew l <;> rfl

/-- The undefined records of a traversal. -/
def undefs (recs : List Rec) (is : List Nat) : List (Key × Nat) :=
  is.filterMap (fun i => (recs[i]?).bind (fun r => if r.undefined then some (r.name, r.useLine) else none))

theorem finalizeLoop_report (is : List Nat) (recs : List Rec) (hi : ∀ i ∈ is, i < recs.length) (s : Errwarn.State) (first : Nat) :
    finalizeLoop false is recs s first =
      (Errwarn.run s ((undefs recs is).flatMap (fun u =>
        [.errorSet eGeneral s!"undefined symbol `{text u.1}' (first use)", .propagate u.2]))).map
      (fun s' => (recs, s', (undefs recs is).foldl (fun m u => min m u.2) first)) := by
  induction is generalizing s first with
  | nil => simp [finalizeLoop, undefs, Errwarn.run]
  | cons i is ih =>
    have hr : recs[i]? = some (recs[i]'(hi i (by simp))) := List.getElem?_eq_getElem _
    have ih' := ih (fun j hj => hi j (by simp [hj]))
    generalize recs[i]'(hi i (by simp)) = r at hr
    unfold finalizeLoop
    simp only [hr]
    cases hu : r.undefined with
    | false =>
      have h1 : undefs recs (i :: is) = undefs recs is := by simp [undefs, hr, hu]
      rw [h1]
      simpa using ih' s first
    | true =>
      have h1 : undefs recs (i :: is) = (r.name, r.useLine) :: undefs recs is := by simp [undefs, hr, hu]
      rw [h1]
      simp only [if_true, Bool.false_eq_true, if_false, List.flatMap_cons, List.cons_append, List.nil_append, errRun_report,
        List.foldl_cons]
      cases Errwarn.propagate (errorSet s.g eGeneral _) s.ew r.useLine with
      | none => rfl
      | some p =>
        simp only [Option.bind_some]
        rw [ih']
        have : (if r.useLine < first then r.useLine else first) = min first r.useLine := by
          split <;> omega
        rw [this]

theorem entries_lt {t : Tab} (hg : Good t) : ∀ i ∈ t.table.entries.map (·.2), i < t.recs.length := by
  intro i hi
  obtain ⟨e, he, rfl⟩ := List.mem_map.1 hi
  obtain ⟨r, hr, _⟩ := hg.names e he
  exact (List.getElem?_eq_some_iff.1 hr).1

theorem undefs_names (recs : List Rec) (es : List (Key × Nat)) (h : ∀ e ∈ es, ∃ r, recs[e.2]? = some r ∧ r.name = e.1) :
    List.Sublist ((undefs recs (es.map (·.2))).map (·.1)) (es.map (·.1)) := by
  induction es with
  | nil => simp [undefs]
  | cons e es ih =>
    obtain ⟨r, h1, h2⟩ := h e (by simp)
    have ih' := ih (fun e he => h e (by simp [he]))
    cases hu : r.undefined with
    | false =>
      have : undefs recs ((e :: es).map (·.2)) = undefs recs (es.map (·.2)) := by simp [undefs, h1, hu]
      rw [this]; simpa using ih'.cons e.1
    | true =>
      have : undefs recs ((e :: es).map (·.2)) = (r.name, r.useLine) :: undefs recs (es.map (·.2)) := by simp [undefs, h1, hu]
      rw [this]
      simp only [List.map_cons, h2]
      exact ih'.cons₂ e.1

/-- C25: the end of parsing makes exactly the calls that report each undefined name once, at its first use, and
    then the notice at the first of these lines (if there are any); it changes no symbol.  A name is
    reported iff the history used it and neither defined it nor declared it extern or common. -/
theorem undefined_reported (fuel : Nat) (ops : List Op) (s : State) (h : run fuel .init ops = .ok s) :
    ∃ us : List (Key × Nat), (us.map (·.1)).Nodup ∧
      (∀ n l, (n, l) ∈ us ↔ Undefined (events true n ops) ∧ l = firstUse (events true n ops)) ∧
      ∀ e : Errwarn.State,
        s.tab.finalize e false = (Errwarn.run e (reportCalls us)).map (fun e => (s.tab, e)) := by
  have hg := reach_good h
  refine ⟨undefs s.tab.recs (s.tab.table.entries.map (·.2)), ?_, ?_, ?_⟩
  · exact (undefs_names _ _ (fun e he => by obtain ⟨r, a, b, _⟩ := hg.names e he; exact ⟨r, a, b⟩)).nodup hg.keys
  · intro n l
    have hmem : ∀ (n : Key) (i : Nat) (r : Rec), (n, i) ∈ s.tab.table.entries → s.tab.recs[i]? = some r → recOf s.tab n = some r := by
      intro n i r hm hr
      unfold recOf
      rw [lk_of_mem hg hm]; exact hr
    unfold undefs
    rw [List.mem_filterMap]
    constructor
    · rintro ⟨i, hi, hb⟩
      obtain ⟨e, he, rfl⟩ := List.mem_map.1 hi
      obtain ⟨r, hr, hname, _⟩ := hg.names e he
      rw [hr] at hb
      simp only [Option.bind_some] at hb
      split at hb
      · rename_i hu
        simp only [Option.some.injEq, Prod.mk.injEq] at hb
        obtain ⟨rfl, rfl⟩ := hb
        have hrec := hmem r.name e.2 r (by rw [hname]; exact he) hr
        obtain ⟨u1, u2⟩ := undefined_iff h _ r hrec
        exact ⟨u1.1 hu, u2 hu⟩
      · simp at hb
    · rintro ⟨hu, rfl⟩
      cases hrec : recOf s.tab n with
      | none =>
        exfalso
        obtain ⟨h1, _⟩ := run_facts ops .init s init_good h n
        rw [hrec] at h1
        have hcs : State.init.tab.caseSensitive = true := rfl
        rw [hcs] at h1
        cases hev : events true n ops with
        | nil => rw [hev] at hu; exact hu.1 rfl
        | cons a b => rw [hev] at h1; simp at h1
      | some r =>
        obtain ⟨u1, u2⟩ := undefined_iff h n r hrec
        have hrec' := hrec
        unfold recOf at hrec'
        cases hl : lk s.tab n with
        | none => rw [hl] at hrec'; simp at hrec'
        | some i =>
          rw [hl] at hrec'; simp only [Option.bind_some] at hrec'
          obtain ⟨q, hq, hname, _⟩ := hg.names _ (lk_mem hl)
          rw [hrec'] at hq; simp only [Option.some.injEq] at hq; subst hq
          refine ⟨i, List.mem_map.2 ⟨_, lk_mem hl, rfl⟩, ?_⟩
          simp only at hname
          rw [hrec', Option.bind_some, if_pos (u1.2 hu), u2 (u1.2 hu), hname]
  · intro e
    unfold Tab.finalize
    rw [finalizeLoop_report _ _ (entries_lt hg)]
    unfold reportCalls
    rw [errRun_append]
    cases Errwarn.run e _ with
    | none => rfl
    | some e1 =>
      simp only [Option.map_some, Option.bind_some]
      split
      · rw [errRun_report]
        cases Errwarn.propagate (errorSet e1.g eGeneral _) e1.ew _ with
        | none => rfl
        | some p => rfl
      · rfl

/- "a" is used on 3 and again on 7; "b" used on 5 and declared extern; "c" used on 2 and defined on 9: only "a"
   is undefined, at line 3; and these calls return. -/
def demoU : List Op := [.use [97#8] 3, .use [98#8] 5, .declare [98#8] visExtern 6, .use [97#8] 7, .use [99#8] 2, .equ [99#8] 0 9]

example : Undefined (events true [97#8] demoU) ∧ firstUse (events true [97#8] demoU) = 3 ∧
    ¬ Undefined (events true [98#8] demoU) ∧ ¬ Undefined (events true [99#8] demoU) := by
  unfold Undefined; decide

def isOk {α} : Out α → Bool | .ok _ => true | _ => false
example : isOk (run 50 .init demoU) = true := by decide +kernel

/-- Specification state of diagnostics after reports. -/
theorem spec_reports (us : List (Key × Nat)) (e : Errwarn.Spec.State) (h1 : e.error = none) (h2 : e.xref = none) (h3 : e.warns = []) :
    let e' := Errwarn.Spec.run e (us.flatMap (fun u =>
        [.errorSet eGeneral s!"undefined symbol `{text u.1}' (first use)", .propagate u.2]))
    e'.error = none ∧ e'.xref = none ∧ e'.warns = [] ∧ e'.reports = e.reports ++ us.map (fun u =>
      ⟨.error, u.2, some s!"undefined symbol `{text u.1}' (first use)", 0, none⟩) := by
  induction us generalizing e with
  | nil => simp [Errwarn.Spec.run, h1, h2, h3]
  | cons u us ih =>
    have := ih (Errwarn.Spec.step (Errwarn.Spec.step e (.errorSet eGeneral s!"undefined symbol `{text u.1}' (first use)")) (.propagate u.2))
      rfl (by simp [Errwarn.Spec.step, h1]) rfl
    simp only [List.flatMap_cons, Errwarn.Spec.run, List.foldl_append, List.foldl_cons, List.foldl_nil] at this ⊢
    refine ⟨this.1, this.2.1, this.2.2.1, ?_⟩
    rw [this.2.2.2]
    simp [Errwarn.Spec.step, h1, h2, h3, Errwarn.Spec.Pending.report]

/-- C25: so, with no diagnostic pending at the end of parsing, the undefined names are what is listed in
    addition to the earlier diagnostics, at the lines of their first uses. -/
theorem undefined_listed (fuel : Nat) (ops : List Op) (s : State) (h : run fuel .init ops = .ok s)
    (eops : List Errwarn.Op) (hok : ∀ op ∈ eops, Errwarn.Spec.OpOk op) (e : Errwarn.State) (he : Errwarn.run .init eops = some e)
    (hp : (Errwarn.Spec.run Errwarn.Spec.init eops).error = none) (hx : (Errwarn.Spec.run Errwarn.Spec.init eops).xref = none)
    (hw : (Errwarn.Spec.run Errwarn.Spec.init eops).warns = []) :
    ∃ (us : List (Key × Nat)) (e' : Errwarn.State) (notice : List Errwarn.Entry), (us.map (·.1)).Nodup ∧
      (∀ n l, (n, l) ∈ us ↔ Undefined (events true n ops) ∧ l = firstUse (events true n ops)) ∧
      s.tab.finalize e false = some (s.tab, e') ∧
      (∀ x ∈ notice, us ≠ [] ∧ x.msg = some " (Each undefined symbol is reported only once.)" ∧ ∃ n, (n, x.line) ∈ us) ∧
      notice.length ≤ 1 ∧
      ∀ l, e'.ew.entries.filter (fun x => x.line = l) =
        e.ew.entries.filter (fun x => x.line = l) ++
        (us.filter (fun u => u.2 = l)).map (fun u => ⟨.error, l, some s!"undefined symbol `{text u.1}' (first use)", 0, none⟩) ++
        notice.filter (fun x => x.line = l) := by
  obtain ⟨us, h1, h2, h3⟩ := undefined_reported fuel ops s h
  have hok2 : ∀ op ∈ eops ++ reportCalls us, Errwarn.Spec.OpOk op := by
    intro op hop
    rcases List.mem_append.1 hop with hop | hop
    · exact hok op hop
    · unfold reportCalls at hop
      rcases List.mem_append.1 hop with hop | hop
      · obtain ⟨u, _, hu⟩ := List.mem_flatMap.1 hop
        rcases List.mem_cons.1 hu with rfl | hu
        · exact ⟨by simp [eGeneral, eNone], Or.inl rfl⟩
        · simp only [List.mem_singleton] at hu; subst hu; trivial
      · simp only at hop
        split at hop
        · rcases List.mem_cons.1 hop with rfl | hu
          · exact ⟨by simp [eGeneral, eNone], Or.inl rfl⟩
          · simp only [List.mem_singleton] at hu; subst hu; trivial
        · simp at hop
  obtain ⟨e0, he0, c1, _, _⟩ := Errwarn.diagnostics_complete_partial eops hok
  rw [he] at he0; simp only [Option.some.injEq] at he0; subst he0
  obtain ⟨e', he', c2, _, _⟩ := Errwarn.diagnostics_complete_partial _ hok2
  rw [errRun_append, he, Option.bind_some] at he'
  have hsplit : Errwarn.Spec.run Errwarn.Spec.init (eops ++ reportCalls us) =
      Errwarn.Spec.run (Errwarn.Spec.run Errwarn.Spec.init eops) (reportCalls us) := by
    simp [Errwarn.Spec.run, List.foldl_append]
  generalize hE : Errwarn.Spec.run Errwarn.Spec.init eops = E at *
  obtain ⟨s1, s2, s3, s4⟩ := spec_reports us E hp hx hw
  have hmin : ∀ (us : List (Key × Nat)) (m : Nat), us.foldl (fun m u => min m u.2) m < m →
      ∃ n, (n, us.foldl (fun m u => min m u.2) m) ∈ us := by
    intro us
    induction us with
    | nil => intro m hm; simp at hm
    | cons u us ih =>
      intro m hm
      rw [List.foldl_cons] at hm ⊢
      by_cases hlt : us.foldl (fun m u => min m u.2) (min m u.2) < min m u.2
      · obtain ⟨n, hn⟩ := ih _ hlt
        exact ⟨n, List.mem_cons_of_mem _ hn⟩
      · have hle : ∀ (us : List (Key × Nat)) (m : Nat), us.foldl (fun m u => min m u.2) m ≤ m := by
          intro us
          induction us with
          | nil => intro m; exact Nat.le_refl _
          | cons v us ih2 => intro m; rw [List.foldl_cons]; exact Nat.le_trans (ih2 _) (Nat.min_le_left _ _)
        have := hle us (min m u.2)
        have heq : us.foldl (fun m u => min m u.2) (min m u.2) = u.2 := by omega
        rw [heq]
        exact ⟨u.1, by simp⟩
  by_cases hf : us.foldl (fun m u => min m u.2) ULONG_MAX < ULONG_MAX
  · have hrep : (Errwarn.Spec.run E (reportCalls us)).reports = E.reports ++ us.map (fun u =>
        ⟨.error, u.2, some s!"undefined symbol `{text u.1}' (first use)", 0, none⟩) ++
        [⟨.error, us.foldl (fun m u => min m u.2) ULONG_MAX, some " (Each undefined symbol is reported only once.)", 0, none⟩] := by
      unfold reportCalls
      simp only [hf, if_true]
      simp only [Errwarn.Spec.run, List.foldl_append, List.foldl_cons, List.foldl_nil] at s1 s2 s3 s4 ⊢
      simp only [Errwarn.Spec.step, s1, s2, s3, s4, Errwarn.Spec.Pending.report]
      simp
    refine ⟨us, e', [⟨.error, us.foldl (fun m u => min m u.2) ULONG_MAX, some " (Each undefined symbol is reported only once.)", 0, none⟩],
      h1, h2, by rw [h3, he']; rfl, ?_, by simp, ?_⟩
    · intro x hx
      simp only [List.mem_singleton] at hx; subst hx
      obtain ⟨n, hn⟩ := hmin us _ hf
      exact ⟨by intro h0; rw [h0] at hn; simp at hn, rfl, n, hn⟩
    · intro l
      rw [c2, c1, hsplit, hrep]
      simp only [List.filter_append, List.filter_map]
      congr 2
      apply List.map_congr_left
      intro u hu
      have := (List.mem_filter.1 hu).2
      simp only [Function.comp, decide_eq_true_eq] at this
      rw [this]
  · have hrep : (Errwarn.Spec.run E (reportCalls us)).reports = E.reports ++ us.map (fun u =>
        ⟨.error, u.2, some s!"undefined symbol `{text u.1}' (first use)", 0, none⟩) := by
      unfold reportCalls
      simp only [hf, if_false, List.append_nil]
      exact s4
    refine ⟨us, e', [], h1, h2, by rw [h3, he']; rfl, by simp, by simp, ?_⟩
    intro l
    rw [c2, c1, hsplit, hrep]
    simp only [List.filter_append, List.filter_map, List.filter_nil, List.append_nil]
    congr 1
    apply List.map_congr_left
    intro u hu
    have := (List.mem_filter.1 hu).2
    simp only [Function.comp, decide_eq_true_eq] at this
    rw [this]

/-- What undef_extern does to a record. -/
def extern1 (r : Rec) : Rec := if r.undefined then { r with vis := r.vis ||| visExtern } else r

theorem finalizeLoop_extern (is : List Nat) (recs : List Rec) (hi : ∀ i ∈ is, i < recs.length) (s : Errwarn.State) (first : Nat) :
    ∃ recs', finalizeLoop true is recs s first = some (recs', s, first) ∧ recs'.length = recs.length ∧
      ∀ j, recs'[j]? = if j ∈ is then (recs[j]?).map extern1 else recs[j]? := by
  have hidem : ∀ r, extern1 (extern1 r) = extern1 r := by
    intro r
    unfold extern1
    split
    · rename_i hu
      have hb : ∀ w : Vis, ((w ||| visExtern) &&& (visExtern ||| visCommon) == 0) = false := by decide
      have : ({ r with vis := r.vis ||| visExtern } : Rec).undefined = false := by
        simp only [Rec.undefined, hb, Bool.and_false]
      simp [this]
    · rename_i hu; simp [hu]
  induction is generalizing recs with
  | nil => exact ⟨recs, rfl, rfl, by simp⟩
  | cons i is ih =>
    have hr : recs[i]? = some (recs[i]'(hi i (by simp))) := List.getElem?_eq_getElem _
    generalize recs[i]'(hi i (by simp)) = r at hr
    have hstep : finalizeLoop true (i :: is) recs s first = finalizeLoop true is (recs.set i (extern1 r)) s first := by
      conv => lhs; unfold finalizeLoop
      simp only [hr]
      split
      · rename_i hu
        simp only [if_true]
        rw [modify_const hr]
        simp [extern1, hu]
      · rename_i hu
        congr 1
        simp only [extern1, hu, if_false, Bool.false_eq_true]
        rw [List.getElem?_eq_some_iff] at hr
        obtain ⟨hlt, he⟩ := hr
        rw [← he]; simp
    obtain ⟨recs', a, b, c⟩ := ih (recs.set i (extern1 r)) (fun j hj => by simpa using hi j (by simp [hj]))
    refine ⟨recs', by rw [hstep, a], by simpa using b, ?_⟩
    intro j
    rw [c]
    have hlt := (List.getElem?_eq_some_iff.1 hr).1
    by_cases hji : j = i
    · subst hji
      have hset : (recs.set j (extern1 r))[j]? = some (extern1 r) := by simp [hlt]
      rw [hset, hr]
      by_cases hm : j ∈ is
      · simp [hm, hidem]
      · simp [hm]
    · have hset : (recs.set i (extern1 r))[j]? = recs[j]? := by simp [Ne.symm hji]
      rw [hset]
      simp [hji]

/-- C25: when undefined symbols are made extern nothing is reported, and the undefined names, and only these,
    become extern. -/
theorem undefined_made_extern (fuel : Nat) (ops : List Op) (s : State) (h : run fuel .init ops = .ok s) (e : Errwarn.State) :
    ∃ t', s.tab.finalize e true = some (t', e) ∧ t'.table = s.tab.table ∧
      ∀ (name : Key) (r : Rec), s.lookup name = some r →
        let evs := events true (normal (mode true ops) name) ops
        (Undefined evs → { s with tab := t' }.lookup name = some { r with vis := r.vis ||| visExtern }) ∧
        (¬ Undefined evs → { s with tab := t' }.lookup name = some r) := by
  have hg := reach_good h
  obtain ⟨recs', a, b, c⟩ := finalizeLoop_extern _ s.tab.recs (entries_lt hg) e ULONG_MAX
  refine ⟨{ s.tab with recs := recs' }, ?_, rfl, ?_⟩
  · unfold Tab.finalize
    rw [a]
    simp
  · intro name r hr evs
    have hcs := (run_facts ops .init s init_good h []).2
    have hcs0 : State.init.tab.caseSensitive = true := rfl
    rw [hcs0] at hcs
    have hr0 := hr
    rw [lookup_eq hg, hcs] at hr0
    have hund := (undefined_iff h _ r hr0).1
    have hidx : ∃ i, s.tab.get name = .ok (some i) ∧ s.tab.recs[i]? = some r ∧ i ∈ s.tab.table.entries.map (·.2) := by
      have hget := get_eq hg name
      rw [norm_eq, hcs] at hget
      unfold recOf at hr0
      cases hl : lk s.tab (normal (mode true ops) name) with
      | none => rw [hl] at hr0; simp at hr0
      | some i =>
        rw [hl] at hr0 hget
        exact ⟨i, hget, hr0, List.mem_map.2 ⟨_, lk_mem hl, rfl⟩⟩
    obtain ⟨i, h1, h2, h3⟩ := hidx
    have hget' : Tab.get { s.tab with recs := recs' } name = .ok (some i) := h1
    have hlook : State.lookup { s with tab := { s.tab with recs := recs' } } name = some (extern1 r) := by
      unfold State.lookup
      simp only [hget', c, h3, if_true, h2, Option.map_some]
    rw [hlook]
    unfold extern1
    constructor
    · intro hu; rw [if_pos (hund.2 hu)]
    · intro hu; rw [if_neg (fun hh => hu (hund.1 hh))]

end Verif.Symtab
