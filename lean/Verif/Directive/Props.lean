/-
Property theorems about directives (C49, C50).
-/
import Verif.Directive.Spec
import Verif.Directive.Tables
import Verif.Hamt.Props

namespace Verif.Directive

open Verif.Hamt

theorem eqv_iff (a b : Key) : cfg.eqv a b = true ↔ Spec.same a b := by
  simp [cfg, Cfg.ofNocase, Spec.same]

theorem eqv_false (a b : Key) : cfg.eqv a b = false ↔ ¬ Spec.same a b := by
  rw [← eqv_iff]; simp

theorem lawful : Lawful cfg := ofNocase_lawful true

/-- Two stored names the table can tell apart by their first hash. -/
def Apart (a b : Key) : Prop := ∃ d, dig cfg a d ≠ dig cfg b d

theorem find_insert {α : Type} (l : List (Key × α)) (s n : Key) (x : α) :
    Hamt.Spec.find cfg.eqv (Hamt.Spec.insert cfg.eqv l s x false) n =
      (Hamt.Spec.find cfg.eqv l n).or (if Spec.same s n then some (s, x) else none) := by
  unfold Hamt.Spec.insert
  cases hs : Hamt.Spec.find cfg.eqv l s with
  | some e =>
    simp only [Bool.false_eq_true, if_false]
    by_cases h : Spec.same s n
    · have : Hamt.Spec.find cfg.eqv l n = some e := by
        rw [← hs]
        unfold Hamt.Spec.find
        congr 1
        funext a
        have : (cfg.eqv a.1 n = true) = (cfg.eqv a.1 s = true) := by
          rw [eqv_iff, eqv_iff]; unfold Spec.same at *; rw [h]
        exact Bool.eq_iff_iff.2 (by rw [this])
      rw [this]; rfl
    · rw [if_neg h]; simp
  | none =>
    unfold Hamt.Spec.find
    rw [List.find?_append]
    congr 1
    by_cases h : Spec.same s n
    · rw [if_pos h]; simp [(eqv_iff s n).2 h]
    · rw [if_neg h]; simp [(eqv_false s n).2 h]

theorem inForce_append_one (l : List Directive) (d : Directive) (p n : Key) :
    Spec.inForce (l ++ [d]) p n = (Spec.inForce l p n).or
      (if Spec.same d.parser p ∧ Spec.same d.name n then some d else none) := by
  unfold Spec.inForce
  rw [List.find?_append]
  congr 1
  by_cases h : Spec.same d.parser p ∧ Spec.same d.name n
  · rw [if_pos h]; simp [h]
  · rw [if_neg h]
    simp only [List.find?_singleton]
    rw [if_neg]
    simpa using h

theorem inForce_congr (l : List Directive) {p q : Key} (h : Spec.same p q) (n : Key) :
    Spec.inForce l p n = Spec.inForce l q n := by
  unfold Spec.inForce
  congr 1
  funext d
  have : Spec.same d.parser p ↔ Spec.same d.parser q := by unfold Spec.same at *; rw [h]
  simp [this]

/-- The tables after registering the directives of `l`. -/
structure Loaded (l : List Directive) (d : Dirs) : Prop where
  inv1 : Inv cfg d.level1
  ids : ∀ (j : Nat) (e : Key × Nat), d.level1.entries[j]? = some e → e.2 = j
  len : d.level1.entries.length = d.level2.length
  inv2 : ∀ t ∈ d.level2, Inv cfg t
  look : ∀ (j : Nat) (e : Key × Nat) (t : Hamt Directive), d.level1.entries[j]? = some e → d.level2[j]? = some t →
    ∀ n, (Hamt.Spec.find cfg.eqv t.entries n).map (·.2) = Spec.inForce l e.1 n
  miss : ∀ p, Hamt.Spec.find cfg.eqv d.level1.entries p = none → ∀ n, Spec.inForce l p n = none
  keys1 : ∀ e ∈ d.level1.entries, e.1 ∈ l.map (·.parser)
  keys2 : ∀ t ∈ d.level2, ∀ e ∈ t.entries, e.1 ∈ l.map (·.name)

theorem loaded_empty : Loaded [] Dirs.empty :=
  ⟨create_inv _, by simp [Dirs.empty, create], rfl, by simp [Dirs.empty], by simp [Dirs.empty, create],
    by intro p _ n; rfl, by simp [Dirs.empty, create], by simp [Dirs.empty]⟩

theorem find_mem {α : Type} {l : List (Key × α)} {s : Key} {e : Key × α}
    (h : Hamt.Spec.find cfg.eqv l s = some e) : e ∈ l ∧ Spec.same e.1 s := by
  unfold Hamt.Spec.find at h
  refine ⟨List.mem_of_find?_eq_some h, (eqv_iff _ _).1 ?_⟩
  have := List.find?_some h
  simpa using this

/-- The invariant while a directive of parser `p` is being added: table `i` is the one of `p`. -/
theorem level2Of_spec {l : List Directive} {d : Dirs} (hl : Loaded l d) (fuel : Nat) (dir : Directive) :
    (∃ d' i e t, level2Of fuel d dir.parser = .ok (d', i) ∧
      Inv cfg d'.level1 ∧ (∀ (j : Nat) (e : Key × Nat), d'.level1.entries[j]? = some e → e.2 = j) ∧
      d'.level1.entries.length = d'.level2.length ∧ (∀ t ∈ d'.level2, Inv cfg t) ∧
      (∀ (j : Nat) (e : Key × Nat) (t : Hamt Directive), d'.level1.entries[j]? = some e → d'.level2[j]? = some t →
        ∀ n, (Hamt.Spec.find cfg.eqv t.entries n).map (·.2) = Spec.inForce l e.1 n) ∧
      (∀ p, Hamt.Spec.find cfg.eqv d'.level1.entries p = none →
        (∀ n, Spec.inForce l p n = none) ∧ ¬ Spec.same dir.parser p) ∧
      (∀ e ∈ d'.level1.entries, e.1 ∈ (l ++ [dir]).map (·.parser)) ∧
      (∀ t ∈ d'.level2, ∀ e ∈ t.entries, e.1 ∈ l.map (·.name)) ∧
      d'.level1.entries[i]? = some e ∧ Spec.same e.1 dir.parser ∧ d'.level2[i]? = some t ∧
      (∀ j e', d'.level1.entries[j]? = some e' → Spec.same e'.1 dir.parser → j = i)) ∨
    (level2Of fuel d dir.parser = .diverged ∧
      ∃ e ∈ d.level1.entries, ¬ Spec.same e.1 dir.parser ∧
        ∀ k, k < fuel → dig cfg dir.parser k = dig cfg e.1 k) := by
  have hsearch := search_spec lawful hl.inv1 dir.parser
  unfold level2Of
  rw [hsearch]
  cases hf : Hamt.Spec.find cfg.eqv d.level1.entries dir.parser with
  | some e =>
    left
    obtain ⟨hm, hs⟩ := find_mem hf
    obtain ⟨i, hi⟩ := List.mem_iff_getElem?.1 hm
    have hei : e.2 = i := hl.ids i e hi
    have hlt : i < d.level2.length := by
      rw [← hl.len]; exact (List.getElem?_eq_some_iff.1 hi).1
    have huniq : ∀ j e', d.level1.entries[j]? = some e' → Spec.same e'.1 dir.parser → j = i := by
      intro j e' hj hs'
      obtain ⟨n, h1, h2⟩ := hl.inv1.reach_eqv lawful hi ((eqv_iff _ _).2 hs)
      obtain ⟨n', g1, g2⟩ := hl.inv1.reach_eqv lawful hj ((eqv_iff _ _).2 hs')
      rw [h1] at g1
      cases g1
      exact Reach.unique g2 (fun _ => rfl) h2
    refine ⟨d, i, e, d.level2[i], ?_, hl.inv1, hl.ids, hl.len, hl.inv2, hl.look, ?_, ?_, hl.keys2,
      hi, hs, by simp [hlt], huniq⟩
    · simp [hei]
    · intro p hp
      refine ⟨hl.miss p hp, ?_⟩
      intro hsp
      unfold Hamt.Spec.find at hp
      rw [List.find?_eq_none] at hp
      have : cfg.eqv e.1 p = true := (eqv_iff _ _).2 (hs.trans hsp)
      exact hp e hm this
    · intro e he; rw [List.map_append]; exact List.mem_append_left _ (hl.keys1 e he)
  | none =>
    simp only [Option.map_none]
    rcases insert_spec lawful hl.inv1 fuel dir.parser d.level2.length false with
      ⟨h', h1, h2, h3, _⟩ | ⟨h1, e, h2, h3, h4⟩
    · left
      rw [h1]
      have hent : h'.entries = d.level1.entries ++ [(dir.parser, d.level2.length)] := by
        rw [h3]; unfold Hamt.Spec.insert; rw [hf]
      have hres : (Hamt.Spec.result cfg.eqv d.level1.entries dir.parser d.level2.length false).returned =
          d.level2.length := by unfold Hamt.Spec.result; rw [hf]
      have hnew : h'.entries[d.level2.length]? = some (dir.parser, d.level2.length) := by
        rw [hent, ← hl.len]; simp
      have hsplit : ∀ j e, h'.entries[j]? = some e →
          (j < d.level2.length ∧ d.level1.entries[j]? = some e) ∨
          (j = d.level2.length ∧ e = (dir.parser, d.level2.length)) := by
        intro j e hj
        rw [hent, List.getElem?_append] at hj
        split at hj
        · rename_i hlt; left; exact ⟨by rw [← hl.len]; exact hlt, hj⟩
        · rename_i hge
          right
          cases hd : j - d.level1.entries.length with
          | zero =>
            rw [hd] at hj
            simp at hj
            exact ⟨by rw [← hl.len]; omega, hj.symm⟩
          | succ k => rw [hd] at hj; simp at hj
      refine ⟨⟨h', d.level2 ++ [create Directive]⟩, d.level2.length, _, create Directive, by dsimp only; rw [hres],
        h2, ?_, ?_, ?_, ?_, ?_, ?_, ?_, hnew, rfl, by simp, ?_⟩
      · intro j e hj
        rcases hsplit j e hj with ⟨_, h⟩ | ⟨rfl, rfl⟩
        · exact hl.ids j e h
        · rfl
      · rw [hent]; simp [hl.len]
      · intro t ht
        rcases List.mem_append.1 ht with ht | ht
        · exact hl.inv2 t ht
        · simp at ht; subst ht; exact create_inv _
      · intro j e t hj ht n
        dsimp only at ht
        rcases hsplit j e hj with ⟨hlt, h⟩ | ⟨rfl, rfl⟩
        · rw [List.getElem?_append_left hlt] at ht
          exact hl.look j e t h ht n
        · simp at ht
          subst ht
          have := hl.miss _ hf n
          rw [this]; rfl
      · intro p hp
        rw [h3, find_insert] at hp
        cases hfp : Hamt.Spec.find cfg.eqv d.level1.entries p with
        | some e => rw [hfp] at hp; simp at hp
        | none =>
          refine ⟨hl.miss p hfp, ?_⟩
          intro hs
          rw [hfp, if_pos hs] at hp
          simp at hp
      · intro e he
        dsimp only at he
        rw [hent] at he
        rw [List.map_append]
        rcases List.mem_append.1 he with he | he
        · exact List.mem_append_left _ (hl.keys1 e he)
        · simp at he; subst he; simp
      · intro t ht e he
        rcases List.mem_append.1 ht with ht | ht
        · exact hl.keys2 t ht e he
        · simp at ht; subst ht; simp [create] at he
      · intro j e' hj hs'
        rcases hsplit j e' hj with ⟨_, h⟩ | ⟨rfl, _⟩
        · exfalso
          unfold Hamt.Spec.find at hf
          rw [List.find?_eq_none] at hf
          exact hf e' (List.mem_of_getElem? h) ((eqv_iff _ _).2 hs')
        · rfl
    · right
      rw [h1]
      exact ⟨rfl, e, h2, (eqv_false _ _).1 h3, h4⟩

theorem addOne_spec {l : List Directive} {d : Dirs} (hl : Loaded l d) (fuel : Nat) (dir : Directive) :
    (∃ d', addOne fuel d dir = .ok d' ∧ Loaded (l ++ [dir]) d') ∨
    (addOne fuel d dir = .diverged ∧
      ((∃ p ∈ l.map (·.parser), ¬ Spec.same p dir.parser ∧
        ∀ k, k < fuel → dig cfg dir.parser k = dig cfg p k) ∨
       (∃ n ∈ l.map (·.name), ¬ Spec.same n dir.name ∧
        ∀ k, k < fuel → dig cfg dir.name k = dig cfg n k))) := by
  unfold addOne
  rcases level2Of_spec hl fuel dir with
    ⟨d1, i, e, t, h0, h1, h2, h3, h4, h5, h6, h7, h8, h9, h10, h11, h12⟩ | ⟨h0, e, he, h1, h2⟩
  · rw [h0]
    dsimp only
    rw [h11]
    dsimp only
    have hit : Inv cfg t := h4 t (List.mem_of_getElem? h11)
    have hilt : i < d1.level2.length := (List.getElem?_eq_some_iff.1 h11).1
    rcases insert_spec lawful hit fuel dir.name dir false with
      ⟨t', g1, g2, g3, _⟩ | ⟨g1, e', g2, g3, g4⟩
    · left
      rw [g1]
      refine ⟨_, rfl, ?_⟩
      have hmemset : ∀ u ∈ d1.level2.set i t', u = t' ∨ u ∈ d1.level2 := by
        intro u hu
        rcases List.mem_or_eq_of_mem_set hu with h | h
        · exact Or.inr h
        · exact Or.inl h
      refine ⟨h1, h2, by simpa using h3, ?_, ?_, ?_, h7, ?_⟩
      · intro u hu
        rcases hmemset u hu with rfl | hu
        · exact g2
        · exact h4 u hu
      · intro j e' u hj hu n
        dsimp only at hj hu
        rw [inForce_append_one]
        rw [List.getElem?_set] at hu
        by_cases hij : i = j
        · subst hij
          simp only [hilt, if_true, Option.some.injEq] at hu
          subst hu
          rw [h9] at hj
          cases hj
          rw [g3, find_insert]
          have := h5 i e t h9 h11 n
          cases hfn : Hamt.Spec.find cfg.eqv t.entries n with
          | some x =>
            rw [hfn] at this
            simp only [Option.map_some] at this
            rw [← this]; simp
          | none =>
            rw [hfn] at this
            simp only [Option.map_none] at this
            rw [← this]
            simp only [Option.none_or]
            by_cases hsn : Spec.same dir.name n
            · rw [if_pos hsn, if_pos ⟨h10.symm, hsn⟩]; rfl
            · rw [if_neg hsn, if_neg (fun h => hsn h.2)]; rfl
        · rw [if_neg hij] at hu
          have := h5 j e' u hj hu n
          rw [this, if_neg]
          · simp
          · intro hh
            exact hij (h12 j e' hj hh.1.symm).symm
      · intro p hp n
        rw [inForce_append_one, (h6 p hp).1 n, if_neg (fun hh => (h6 p hp).2 hh.1)]; rfl
      · intro u hu e' he'
        rw [List.map_append]
        rcases hmemset u hu with rfl | hu
        · rw [g3] at he'
          unfold Hamt.Spec.insert at he'
          split at he'
          · rcases List.mem_append.1 he' with he' | he'
            · exact List.mem_append_left _ (h8 t (List.mem_of_getElem? h11) e' he')
            · simp at he'; subst he'; simp
          · simp only [Bool.false_eq_true, if_false] at he'
            exact List.mem_append_left _ (h8 t (List.mem_of_getElem? h11) e' he')
        · exact List.mem_append_left _ (h8 u hu e' he')
    · right
      rw [g1]
      exact ⟨rfl, Or.inr ⟨e'.1, h8 t (List.mem_of_getElem? h11) e' g2, (eqv_false _ _).1 g3, g4⟩⟩
  · right
    rw [h0]
    exact ⟨rfl, Or.inl ⟨e.1, hl.keys1 e he, h1, h2⟩⟩

theorem directivesAdd_spec (fuel : Nat) (dirs : List Directive) : ∀ {l : List Directive} {d : Dirs},
    Loaded l d →
    (∃ d', directivesAdd fuel d dirs = .ok d' ∧ Loaded (l ++ dirs) d') ∨
    (directivesAdd fuel d dirs = .diverged ∧
      ((∃ p ∈ (l ++ dirs).map (·.parser), ∃ q ∈ (l ++ dirs).map (·.parser), ¬ Spec.same p q ∧
        ∀ k, k < fuel → dig cfg q k = dig cfg p k) ∨
       (∃ p ∈ (l ++ dirs).map (·.name), ∃ q ∈ (l ++ dirs).map (·.name), ¬ Spec.same p q ∧
        ∀ k, k < fuel → dig cfg q k = dig cfg p k))) := by
  induction dirs with
  | nil => intro l d hl; left; exact ⟨d, rfl, by simpa using hl⟩
  | cons dir dirs ih =>
    intro l d hl
    rcases addOne_spec hl fuel dir with ⟨d1, h1, h2⟩ | ⟨h1, h2⟩
    · simp only [directivesAdd, h1]
      have := ih h2
      simpa using this
    · right
      refine ⟨by simp only [directivesAdd, h1], ?_⟩
      rcases h2 with ⟨p, hp, h3, h4⟩ | ⟨p, hp, h3, h4⟩
      · left
        exact ⟨p, by rw [List.map_append]; exact List.mem_append_left _ hp, dir.parser, by simp, h3, h4⟩
      · right
        exact ⟨p, by rw [List.map_append]; exact List.mem_append_left _ hp, dir.name, by simp, h3, h4⟩

theorem loadTables_eq (fuel : Nat) (o g a b : List Directive) :
    loadTables fuel o g a b = directivesAdd fuel .empty (o ++ g ++ a ++ b) := by
  have happ : ∀ (l1 l2 : List Directive) (d : Dirs), directivesAdd fuel d (l1 ++ l2) =
      match directivesAdd fuel d l1 with
      | .ok d => directivesAdd fuel d l2
      | .diverged => .diverged
      | .ub => .ub := by
    intro l1 l2
    induction l1 with
    | nil => intro d; rfl
    | cons x t ih =>
      intro d
      simp only [List.cons_append, directivesAdd]
      cases addOne fuel d x with
      | ok d' => exact ih d'
      | diverged => rfl
      | ub => rfl
  unfold loadTables
  rw [happ (o ++ g ++ a) b, happ (o ++ g) a, happ o g]
  cases directivesAdd fuel Dirs.empty o with
  | diverged => rfl
  | ub => rfl
  | ok d1 =>
    dsimp only
    cases directivesAdd fuel d1 g with
    | diverged => rfl
    | ub => rfl
    | ok d2 =>
      dsimp only
      cases directivesAdd fuel d2 a <;> rfl

theorem search_loaded {l : List Directive} {d : Dirs} (hl : Loaded l d) (name parser : Key)
    (vps : Option (List Valparam)) :
    objectDirective d name parser vps = .ok
      (match Spec.inForce l parser name with
        | none => (1, none)
        | some dir => (0, some (callDirective dir vps))) := by
  unfold objectDirective
  rw [search_spec lawful hl.inv1]
  cases hf : Hamt.Spec.find cfg.eqv d.level1.entries parser with
  | none => rw [hl.miss parser hf]; rfl
  | some e =>
    obtain ⟨hm, hs⟩ := find_mem hf
    obtain ⟨i, hi⟩ := List.mem_iff_getElem?.1 hm
    have hei : e.2 = i := hl.ids i e hi
    have hlt : i < d.level2.length := by
      rw [← hl.len]; exact (List.getElem?_eq_some_iff.1 hi).1
    have ht : d.level2[e.2]? = some d.level2[i] := by rw [hei]; simp [hlt]
    simp only [Option.map_some, ht]
    rw [search_spec lawful (hl.inv2 _ (List.getElem_mem hlt))]
    have := hl.look i e d.level2[i] hi (by simp [hlt]) name
    rw [this, inForce_congr l hs]
    cases Spec.inForce l parser name <;> rfl

theorem and3 (n : Nat) : (n &&& (ARG_REQUIRED ||| ID_REQUIRED) ≠ 0) ↔
    (n.testBit 0 || n.testBit 1) = true := by
  have h3 : ARG_REQUIRED ||| ID_REQUIRED = 2 ^ 2 - 1 := rfl
  rw [h3, Nat.and_two_pow_sub_one_eq_mod]
  simp only [Nat.testBit, Bool.or_eq_true, Nat.shiftRight_eq_div_pow]
  simp only [Nat.one_and_eq_mod_two, bne_iff_ne, ne_eq]
  omega

theorem and2 (n : Nat) : (n &&& ID_REQUIRED ≠ 0) ↔ n.testBit 1 = true := by
  have h2 : ID_REQUIRED = 2 ^ 1 := rfl
  rw [h2]
  constructor
  · intro h
    apply Classical.byContradiction
    intro hb
    apply h
    apply Nat.eq_of_testBit_eq
    intro i
    rw [Nat.testBit_and, Nat.testBit_two_pow, Nat.zero_testBit]
    by_cases hi : 1 = i
    · subst hi; simp at hb; simp [hb]
    · simp [hi]
  · intro hb h
    have := congrArg (fun x => Nat.testBit x 1) h
    simp [Nat.testBit_and, hb] at this
    revert this; decide

/-- C49: which directive runs.  For any four tables — of the object format, the debug format, the
    architecture and the built-in one — if loading them returns, then a directive used by a parser runs
    the handler of the first entry, in that order of priority, whose parser keyword and name equal the
    ones used up to letter case; nothing is run, and 1 returned, exactly if there is no such entry.  Its
    handler runs unless the entry demands an argument and none was given, or demands an identifier and
    the first parameter is not one. -/
theorem directive_dispatch (fuel : Nat) (objfmt dbgfmt arch builtin : List Directive) (d : Dirs)
    (h : loadTables fuel objfmt dbgfmt arch builtin = .ok d) (name parser : Key)
    (vps : Option (List Valparam)) :
    (Spec.inForce (objfmt ++ dbgfmt ++ arch ++ builtin) parser name = none →
      objectDirective d name parser vps = .ok (1, none)) ∧
    ∀ dir, Spec.inForce (objfmt ++ dbgfmt ++ arch ++ builtin) parser name = some dir →
      ∃ call, objectDirective d name parser vps = .ok (0, some call) ∧
        (Spec.wantsArgument dir = true → Spec.given vps = [] → call = .needsArgument dir.name) ∧
        (Spec.wantsIdentifier dir = true → ∀ v vs, Spec.given vps = v :: vs →
          (∀ s p, v.param ≠ .id s p) → call = .needsIdentifier dir.name) ∧
        ((Spec.wantsArgument dir = true → Spec.given vps ≠ []) →
         (Spec.wantsIdentifier dir = true → ∀ v vs, Spec.given vps = v :: vs →
            ∃ s p, v.param = .id s p) → call = .handled dir.handler vps) := by
  rw [loadTables_eq] at h
  have hl : Loaded (objfmt ++ dbgfmt ++ arch ++ builtin) d := by
    rcases directivesAdd_spec fuel _ loaded_empty with ⟨d', h1, h2⟩ | ⟨h1, _⟩
    · rw [h1] at h; cases h; simpa using h2
    · rw [h1] at h; cases h
  have hs := search_loaded hl name parser vps
  refine ⟨fun hn => by rw [hs, hn], ?_⟩
  intro dir hd
  rw [hd] at hs
  refine ⟨_, hs, ?_, ?_, ?_⟩
  · intro hw hg
    unfold callDirective
    rw [if_pos]
    refine ⟨(and3 _).2 hw, ?_⟩
    cases vps with
    | none => exact Or.inl rfl
    | some l => right; simpa [Spec.given] using hg
  · intro hw v vs hg hv
    cases vps with
    | none => simp [Spec.given] at hg
    | some l =>
      have hl : l = v :: vs := hg
      subst hl
      unfold callDirective
      rw [if_neg (by simp)]
      dsimp only
      rw [if_pos ((and2 _).2 hw)]
      have : v.isId = false := by
        unfold Valparam.isId
        split
        · rename_i s p hp; exact absurd hp (hv s p)
        · rfl
      simp [this]
  · intro h1 h2
    unfold callDirective
    have hn : ¬ (dir.flags &&& (ARG_REQUIRED ||| ID_REQUIRED) ≠ 0 ∧ (vps = none ∨ vps = some [])) := by
      rintro ⟨ha, hb⟩
      have := h1 ((and3 _).1 ha)
      rcases hb with rfl | rfl <;> simp [Spec.given] at this
    rw [if_neg hn]
    cases vps with
    | none => rfl
    | some l =>
      dsimp only
      by_cases hw : dir.flags &&& ID_REQUIRED ≠ 0
      · rw [if_pos hw]
        have hw' := (and2 _).1 hw
        cases l with
        | nil =>
          exfalso
          have := h1 (by unfold Spec.wantsArgument; simp [hw'])
          simp [Spec.given] at this
        | cons v vs =>
          obtain ⟨s, p, hp⟩ := h2 hw' v vs rfl
          have : v.isId = true := by unfold Valparam.isId; rw [hp]
          simp [this]
      · rw [if_neg hw]

/-- No parameter list makes a directive dereference a missing parameter. -/
theorem call_never_null (d : Directive) (vps : Option (List Valparam)) :
    callDirective d vps ≠ .nullDeref := by
  unfold callDirective
  split
  · simp
  · rename_i hn
    cases vps with
    | none => simp
    | some l =>
      dsimp only
      split
      · rename_i hw
        cases l with
        | nil =>
          exfalso; apply hn
          refine ⟨?_, Or.inr rfl⟩
          rw [and3]; simp [(and2 _).1 hw]
        | cons v vs => dsimp only [List.head?]; split <;> simp
      · simp

/-- Loading any tables never accesses memory out of bounds, and returns if their names, and their parser
    keywords, can be told apart by the hash table. -/
theorem load_returns (l : List Directive)
    (hp : ∀ a ∈ l, ∀ b ∈ l, ¬ Spec.same a.parser b.parser → Apart a.parser b.parser)
    (hn : ∀ a ∈ l, ∀ b ∈ l, ¬ Spec.same a.name b.name → Apart a.name b.name) :
    ∃ fuel d, directivesAdd fuel .empty l = .ok d := by
  have bound : ∀ (f : Directive → Key),
      (∀ a ∈ l, ∀ b ∈ l, ¬ Spec.same (f a) (f b) → Apart (f a) (f b)) →
      ∃ B, ∀ a ∈ l, ∀ b ∈ l, ¬ Spec.same (f a) (f b) →
        ∃ k, k < B ∧ dig cfg (f a) k ≠ dig cfg (f b) k := by
    intro f hf
    have one : ∀ (m : List (Directive × Directive)),
        (∀ x ∈ m, ¬ Spec.same (f x.1) (f x.2) → Apart (f x.1) (f x.2)) →
        ∃ B, ∀ x ∈ m, ¬ Spec.same (f x.1) (f x.2) →
          ∃ k, k < B ∧ dig cfg (f x.1) k ≠ dig cfg (f x.2) k := by
      intro m
      induction m with
      | nil => intro _; exact ⟨0, by simp⟩
      | cons x m ih =>
        intro hm
        obtain ⟨B, hB⟩ := ih (fun y hy => hm y (List.mem_cons_of_mem _ hy))
        by_cases hs : Spec.same (f x.1) (f x.2)
        · refine ⟨B, ?_⟩
          intro y hy hns
          rcases List.mem_cons.1 hy with rfl | hy
          · exact absurd hs hns
          · exact hB y hy hns
        · obtain ⟨k, hk⟩ := hm x (by simp) hs
          refine ⟨max B (k + 1), ?_⟩
          intro y hy hns
          rcases List.mem_cons.1 hy with rfl | hy
          · exact ⟨k, by omega, hk⟩
          · obtain ⟨k', h1, h2⟩ := hB y hy hns
            exact ⟨k', by omega, h2⟩
    obtain ⟨B, hB⟩ := one (l.flatMap (fun a => l.map (fun b => (a, b)))) (by
      intro x hx
      obtain ⟨a, ha, hx⟩ := List.mem_flatMap.1 hx
      obtain ⟨b, hb, rfl⟩ := List.mem_map.1 hx
      exact hf a ha b hb)
    refine ⟨B, fun a ha b hb hns => hB (a, b) ?_ hns⟩
    exact List.mem_flatMap.2 ⟨a, ha, List.mem_map.2 ⟨b, hb, rfl⟩⟩
  obtain ⟨B1, h1⟩ := bound _ hp
  obtain ⟨B2, h2⟩ := bound _ hn
  refine ⟨max B1 B2, ?_⟩
  rcases directivesAdd_spec (max B1 B2) l loaded_empty with ⟨d, hd, _⟩ | ⟨_, h⟩
  · exact ⟨d, hd⟩
  · exfalso
    simp only [List.nil_append] at h
    rcases h with ⟨p, hpm, q, hqm, hns, hk⟩ | ⟨p, hpm, q, hqm, hns, hk⟩
    · obtain ⟨a, ha, rfl⟩ := List.mem_map.1 hpm
      obtain ⟨b, hb, rfl⟩ := List.mem_map.1 hqm
      obtain ⟨k, hlt, hne⟩ := h1 a ha b hb hns
      exact hne (hk k (by omega)).symm
    · obtain ⟨a, ha, rfl⟩ := List.mem_map.1 hpm
      obtain ⟨b, hb, rfl⟩ := List.mem_map.1 hqm
      obtain ⟨k, hlt, hne⟩ := h2 a ha b hb hns
      exact hne (hk k (by omega)).symm

/-- The first hash of two names differs in the 35 bits the table looks at first. -/
def hashApart (a b : Key) : Bool :=
  hashKey (a.map toLower) % 34359738368#64 != hashKey (b.map toLower) % 34359738368#64

theorem hashApart_apart {a b : Key} (h : hashApart a b = true) : Apart a b := by
  apply Classical.byContradiction
  intro hn
  have hall : ∀ d, dig cfg a d = dig cfg b d := by
    intro d
    apply Classical.byContradiction
    intro hd
    exact hn ⟨d, hd⟩
  have hd : ∀ d, d < 7 → ((hashKey (a.map toLower)).toNat / 2 ^ (5 * d)) % 32 =
      ((hashKey (b.map toLower)).toNat / 2 ^ (5 * d)) % 32 := by
    intro d hd
    have := hall d
    rw [← group_eq_dig, ← group_eq_dig] at this
    unfold Hamt.Spec.group at this
    simp only [hd, if_true, Nat.mod_eq_of_lt hd] at this
    exact this
  unfold hashApart at h
  simp only [bne_iff_ne, ne_eq] at h
  apply h
  apply BitVec.eq_of_toNat_eq
  rw [BitVec.toNat_umod, BitVec.toNat_umod]
  have e0 := hd 0 (by omega)
  have e1 := hd 1 (by omega)
  have e2 := hd 2 (by omega)
  have e3 := hd 3 (by omega)
  have e4 := hd 4 (by omega)
  have e5 := hd 5 (by omega)
  have e6 := hd 6 (by omega)
  generalize (hashKey (a.map toLower)).toNat = x at *
  generalize (hashKey (b.map toLower)).toNat = y at *
  have hm : (34359738368#64).toNat = 34359738368 := by decide
  rw [hm]
  simp only [Nat.reduceMul, Nat.reducePow] at e0 e1 e2 e3 e4 e5 e6
  omega

/-- All names, and all parser keywords, in the shipped tables. -/
def shipped : List Directive :=
  (Tables.objfmts ++ Tables.dbgfmts ++ Tables.archs ++ [Tables.builtin]).flatten

theorem shipped_apart : ∀ a ∈ shipped, ∀ b ∈ shipped,
    (Spec.same a.name b.name ∨ hashApart a.name b.name = true) ∧
    (Spec.same a.parser b.parser ∨ hashApart a.parser b.parser = true) := by
  decide +kernel

/-- C49: loading the tables of any shipped object format, debug format and architecture returns, so
    `directive_dispatch` applies to every object the assembler creates. -/
theorem shipped_tables_load (objfmt dbgfmt arch : List Directive) (ho : objfmt ∈ Tables.objfmts)
    (hg : dbgfmt ∈ Tables.dbgfmts) (ha : arch ∈ Tables.archs) :
    ∃ fuel d, loadTables fuel objfmt dbgfmt arch Tables.builtin = .ok d := by
  have hsub : ∀ x ∈ objfmt ++ dbgfmt ++ arch ++ Tables.builtin, x ∈ shipped := by
    intro x hx
    simp only [List.mem_append] at hx
    unfold shipped
    rw [List.mem_flatten]
    rcases hx with ((hx | hx) | hx) | hx
    · exact ⟨objfmt, by simp [ho], hx⟩
    · exact ⟨dbgfmt, by simp [hg], hx⟩
    · exact ⟨arch, by simp [ha], hx⟩
    · exact ⟨Tables.builtin, by simp, hx⟩
  obtain ⟨fuel, d, h⟩ := load_returns (objfmt ++ dbgfmt ++ arch ++ Tables.builtin)
    (fun a ha b hb hns => by
      rcases (shipped_apart a (hsub a ha) b (hsub b hb)).2 with h | h
      · exact absurd h hns
      · exact hashApart_apart h)
    (fun a ha b hb hns => by
      rcases (shipped_apart a (hsub a ha) b (hsub b hb)).1 with h | h
      · exact absurd h hns
      · exact hashApart_apart h)
  exact ⟨fuel, d, by rw [loadTables_eq]; exact h⟩

/-- Under ELF the NASM directive `TYPE` is the ELF one and needs an identifier; under COFF it does not
    exist, while the GAS `.type` is COFF's and needs any argument. -/
example : Spec.inForce (Tables.elf ++ [] ++ Tables.x86 ++ Tables.builtin) [78, 65, 83, 77]
    [84, 89, 80, 69] = some ⟨[116, 121, 112, 101], [110, 97, 115, 109], 23, 2⟩ := by decide
example : Spec.inForce (Tables.coff ++ [] ++ Tables.x86 ++ Tables.builtin) [110, 97, 115, 109]
    [116, 121, 112, 101] = none := by decide

/-! ### Parameters -/

theorem find_congr {α : Type} (l : List α) (p q : α → Bool) (h : ∀ x, p x = q x) :
    l.find? p = l.find? q := by
  have : p = q := funext h
  rw [this]

theorem sameName_eq (a b : Key) : sameName a b = decide (Spec.same a b) := by
  rw [Bool.eq_iff_iff, decide_eq_true_iff]
  unfold sameName Spec.same
  simp

/-- Which qualifier handles a parameter. -/
theorem helpFor_spec {σ : Type} (help : List (Help σ)) (v : Valparam)
    (hv : ¬ (v.val = none ∧ v.param = .id [] 0)) :
    helpFor help v = .val (help.find? (fun h => Spec.recognises h v)) := by
  obtain ⟨val, param⟩ := v
  unfold helpFor
  cases val with
  | some s =>
    dsimp only
    unfold findHelp
    congr 1
    apply find_congr
    intro h
    unfold Spec.recognises
    rw [sameName_eq]
    cases h.needsparam <;> rfl
  | none =>
    dsimp only
    cases param with
    | str s =>
      simp only [vpId]
      congr 1
      symm
      rw [List.find?_eq_none]
      intro x _; simp [Spec.recognises]
    | expr s =>
      simp only [vpId]
      congr 1
      symm
      rw [List.find?_eq_none]
      intro x _; simp [Spec.recognises]
    | id s pfx =>
      have hid : vpId ⟨none, .id s pfx⟩ = .val (some (Spec.bareId s pfx)) := by
        unfold vpId Spec.bareId
        cases s with
        | nil =>
          dsimp only
          rw [if_neg]
          intro h; apply hv; exact ⟨rfl, by rw [h]⟩
        | cons c cs =>
          dsimp only
          split <;> rfl
      rw [hid]
      dsimp only
      unfold findHelp
      congr 1
      apply find_congr
      intro h
      unfold Spec.recognises
      rw [sameName_eq]
      cases h.needsparam <;> rfl

/-- C50: the parameters of a directive are handled strictly left to right, each by the first qualifier
    recognising it (case-insensitively), else by the fallback; the first failure ends the handling and
    is reported as -1; otherwise 1 is returned exactly if some parameter was used. -/
theorem dir_helper_spec {σ : Type} (help : List (Help σ)) (fallback : σ → Valparam → Int × σ)
    (vps : List Valparam) (hvps : ∀ v ∈ vps, ¬ (v.val = none ∧ v.param = .id [] 0)) (st : σ) :
    ∃ res st', Spec.Handles help fallback vps st res st' ∧
      dirHelper help fallback vps st = .val (Spec.code res, st') := by
  have main : ∀ (vps : List Valparam), (∀ v ∈ vps, ¬ (v.val = none ∧ v.param = .id [] 0)) →
      ∀ (st : σ) (any : Bool), ∃ res st', Spec.Handles help fallback vps st res st' ∧
        dirHelperGo help fallback (if any then 1 else 0) vps st =
          .val (Spec.code (res.map (fun b => any || b)), st') := by
    intro vps
    induction vps with
    | nil => intro _ st any; exact ⟨_, _, .done st, by cases any <;> rfl⟩
    | cons v vs ih =>
      intro hv st any
      have ih' := ih (fun x hx => hv x (List.mem_cons_of_mem _ hx))
      unfold dirHelperGo
      rw [helpFor_spec help v (hv v (by simp))]
      dsimp only
      cases hf : help.find? (fun h => Spec.recognises h v) with
      | some h =>
        dsimp only
        by_cases hr : (h.helper st v).1 = 0
        · rw [if_neg (by simpa using hr)]
          obtain ⟨res, st', h1, h2⟩ := ih' (h.helper st v).2 true
          refine ⟨_, st', .use v vs st _ st' res ?_ h1, ?_⟩
          · unfold Spec.step; rw [hf]; dsimp only; rw [if_pos hr]
          · rw [if_pos rfl] at h2
            rw [h2]
            cases res <;> simp
        · rw [if_pos hr]
          refine ⟨none, _, .fail v vs st _ ?_, rfl⟩
          unfold Spec.step; rw [hf]; dsimp only; rw [if_neg hr]
      | none =>
        dsimp only
        by_cases hr : (fallback st v).1 < 0
        · rw [if_pos hr]
          refine ⟨none, _, .fail v vs st _ ?_, rfl⟩
          unfold Spec.step; rw [hf]; dsimp only; rw [if_pos hr]
        · rw [if_neg hr]
          by_cases hz : (fallback st v).1 = 0
          · rw [if_neg (by omega)]
            obtain ⟨res, st', h1, h2⟩ := ih' (fallback st v).2 any
            refine ⟨_, st', .ignore v vs st _ st' res ?_ h1, h2⟩
            unfold Spec.step; rw [hf]; dsimp only; rw [if_neg hr, if_pos hz]
          · rw [if_pos (by omega)]
            obtain ⟨res, st', h1, h2⟩ := ih' (fallback st v).2 true
            refine ⟨_, st', .use v vs st _ st' res ?_ h1, ?_⟩
            · unfold Spec.step; rw [hf]; dsimp only; rw [if_neg hr, if_neg hz]
            · rw [if_pos rfl] at h2
              rw [h2]
              cases res <;> simp
  obtain ⟨res, st', h1, h2⟩ := main vps hvps st false
  refine ⟨res, st', h1, ?_⟩
  unfold dirHelper
  simpa using h2

/-- `Handles` determines its result: `dir_helper_spec` names the only possible outcome. -/
theorem handles_unique {σ : Type} {help : List (Help σ)} {fallback : σ → Valparam → Int × σ}
    {vps : List Valparam} {st s1 s2 : σ} {r1 r2 : Option Bool}
    (h1 : Spec.Handles help fallback vps st r1 s1) (h2 : Spec.Handles help fallback vps st r2 s2) :
    r1 = r2 ∧ s1 = s2 := by
  induction h1 generalizing r2 s2 with
  | done st => cases h2; exact ⟨rfl, rfl⟩
  | fail v vs st st' hs =>
    cases h2 with
    | fail _ _ _ _ hs' => rw [hs] at hs'; cases hs'; exact ⟨rfl, rfl⟩
    | use _ _ _ _ _ _ hs' => rw [hs] at hs'; cases hs'
    | ignore _ _ _ _ _ _ hs' => rw [hs] at hs'; cases hs'
  | use v vs st st1 st' b hs _ ih =>
    cases h2 with
    | fail _ _ _ _ hs' => rw [hs] at hs'; cases hs'
    | use _ _ _ _ _ _ hs' h' =>
      rw [hs] at hs'; cases hs'
      obtain ⟨rfl, rfl⟩ := ih h'
      exact ⟨rfl, rfl⟩
    | ignore _ _ _ _ _ _ hs' => rw [hs] at hs'; cases hs'
  | ignore v vs st st1 st' b hs _ ih =>
    cases h2 with
    | fail _ _ _ _ hs' => rw [hs] at hs'; cases hs'
    | use _ _ _ _ _ _ hs' => rw [hs] at hs'; cases hs'
    | ignore _ _ _ _ _ _ hs' h' =>
      rw [hs] at hs'; cases hs'
      exact ih h'

/-- Disagreement (C50): an empty identifier without prefix is read past its end. -/
theorem empty_id_overrun {σ : Type} (help : List (Help σ)) (fallback : σ → Valparam → Int × σ) (st : σ)
    (vs : List Valparam) : dirHelper help fallback (⟨none, .id [] 0⟩ :: vs) st = .overrun := by
  simp [dirHelper, dirHelperGo, helpFor, vpId]

/-- The flag helpers touch exactly the bits of their flag. -/
theorem flag_helpers (flag f : BitVec 64) (i : Nat) (hi : i < 64) :
    (flagOr flag f).2.getLsbD i = (f.getLsbD i || flag.getLsbD i) ∧
    (flagAnd flag f).2.getLsbD i = (f.getLsbD i && !flag.getLsbD i) ∧
    (flagSet flag f).2.getLsbD i = flag.getLsbD i ∧
    (flagOr flag f).1 = 0 ∧ (flagAnd flag f).1 = 0 ∧ (flagSet flag f).1 = 0 := by
  simp [flagOr, flagAnd, flagSet, hi]

/-- ELF-like qualifiers on a flag word: `alloc`, `noalloc` (no value), `align=` (value; rejected here). -/
def sampleHelp : List (Help (BitVec 64)) :=
  [⟨[97], false, fun f _ => flagOr 2 f⟩, ⟨[98], false, fun f _ => flagAnd 2 f⟩,
   ⟨[97], true, fun f _ => (-1, f)⟩]

/-- Case is ignored, the `$` prefix dropped; an unknown string goes to the fallback. -/
example : dirHelper sampleHelp (fun f _ => (0, f))
    [⟨none, .id [36, 65] 36⟩, ⟨none, .str [99]⟩] 1#64 = .val (1, 3#64) := by decide +kernel
example : dirHelper sampleHelp (fun f _ => (0, f))
    [⟨none, .id [65] 0⟩, ⟨some [65], .expr 3⟩, ⟨none, .id [98] 0⟩] 1#64 = .val (-1, 3#64) := by
  decide +kernel

end Verif.Directive
