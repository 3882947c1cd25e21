/-
Lemmas about the section list.
-/
import Verif.Section.Spec
import Verif.Assoc.Props

namespace Verif.Section

open Spec

theorem applyAll_append (me : Nat) (l1 l2 : List SectOp) : ∀ (s s1 : Sect) (r : Option Nat),
    applyAll me s l1 = .done s1 r → applyAll me s (l1 ++ l2) = applyAll me s1 l2 := by
  induction l1 with
  | nil => intro s s1 r h; simp only [applyAll, Res.done.injEq] at h; rw [h.1]; rfl
  | cons op l ih =>
    intro s s1 r h
    simp only [applyAll] at h
    simp only [List.cons_append, applyAll]
    cases hop : op.apply me s with
    | done s' r' => rw [hop] at h; exact ih s' s1 r h
    | internalError => rw [hop] at h; cases h
    | ub => rw [hop] at h; cases h

theorem run_append (hook : Hook) (l1 l2 : List Op) : ∀ (o o1 : Object) (r : Option Nat),
    run hook o l1 = .done o1 r → run hook o (l1 ++ l2) = run hook o1 l2 := by
  induction l1 with
  | nil => intro s s1 r h; simp only [run, Res.done.injEq] at h; rw [h.1]; rfl
  | cons op l ih =>
    intro s s1 r h
    simp only [run] at h
    simp only [List.cons_append, run]
    cases hop : op.apply hook s with
    | done s' r' => rw [hop] at h; exact ih s' s1 r h
    | internalError => rw [hop] at h; cases h
    | ub => rw [hop] at h; cases h

/-- A finished history ran through each of its prefixes. -/
theorem run_prefix (hook : Hook) (l1 l2 : List Op) : ∀ (o o2 : Object) (r : Option Nat),
    run hook o (l1 ++ l2) = .done o2 r → ∃ o1, run hook o l1 = .done o1 none := by
  induction l1 with
  | nil => intro o o2 r _; exact ⟨o, rfl⟩
  | cons op l ih =>
    intro o o2 r h
    simp only [List.cons_append, run] at h
    simp only [run]
    cases hop : op.apply hook o with
    | done s' r' => rw [hop] at h; exact ih s' o2 r h
    | internalError => rw [hop] at h; cases h
    | ub => rw [hop] at h; cases h

theorem asked_append (l1 l2 : List Op) : asked (l1 ++ l2) = asked l1 ++ asked l2 := by
  induction l1 with
  | nil => rfl
  | cons op l ih => cases op <;> simp [asked, ih]

theorem toSection_append (i : Nat) (l1 l2 : List Op) :
    toSection i (l1 ++ l2) = toSection i l1 ++ toSection i l2 := by
  induction l1 with
  | nil => rfl
  | cons op l ih =>
    cases op with
    | get => simp [toSection, ih]
    | sect j op => simp only [List.cons_append, toSection, ih]; split <;> rfl

theorem firstRequest_append (n : Name) (l1 l2 : List Op) :
    firstRequest n (l1 ++ l2) = (firstRequest n l1).or (firstRequest n l2) := by
  induction l1 with
  | nil => simp [firstRequest]
  | cons op l ih =>
    cases op with
    | get m => simp only [List.cons_append, firstRequest, ih]; split <;> simp
    | sect j op => simp only [List.cons_append, firstRequest, ih]

theorem firstRequest_none {n : Name} {ops : List Op} (h : n ∉ asked ops) : firstRequest n ops = none := by
  induction ops with
  | nil => rfl
  | cons op l ih =>
    cases op with
    | get m =>
      simp only [asked, List.mem_cons, not_or] at h
      simp only [firstRequest]
      rw [if_neg (fun hh => h.1 hh.symm)]
      exact ih h.2
    | sect j op => exact ih h

theorem firsts_append_one {α : Type} [DecidableEq α] (l : List α) (x : α) :
    firsts (l ++ [x]) = if x ∈ firsts l then firsts l else firsts l ++ [x] := by
  unfold firsts; rw [List.foldl_append]; rfl

theorem mem_firsts {α : Type} [DecidableEq α] (l : List α) (x : α) : x ∈ firsts l ↔ x ∈ l := by
  have : ∀ (l acc : List α), x ∈ l.foldl (fun acc x => if x ∈ acc then acc else acc ++ [x]) acc ↔
      x ∈ acc ∨ x ∈ l := by
    intro l
    induction l with
    | nil => intro acc; simp
    | cons y t ih =>
      intro acc
      simp only [List.foldl_cons, ih, List.mem_cons]
      split
      · rename_i h
        constructor
        · rintro (h | h) <;> simp [h]
        · rintro (h | rfl | h) <;> simp [*]
      · simp only [List.mem_append, List.mem_singleton]
        exact or_assoc
  have := this l []
  simpa [firsts] using this

theorem nodup_firsts {α : Type} [DecidableEq α] (l : List α) : (firsts l).Nodup := by
  have : ∀ (l acc : List α), acc.Nodup →
      (l.foldl (fun acc x => if x ∈ acc then acc else acc ++ [x]) acc).Nodup := by
    intro l
    induction l with
    | nil => intro acc h; exact h
    | cons y t ih =>
      intro acc h
      simp only [List.foldl_cons]
      apply ih
      split
      · exact h
      · rename_i hn
        rw [List.nodup_append]
        refine ⟨h, by simp, ?_⟩
        intro a ha b hb
        simp at hb
        subst hb
        exact fun e => hn (e ▸ ha)
  exact this l [] List.nodup_nil

/-- What a list of operations does to a section. -/
theorem applyAll_effect (me : Nat) (l : List SectOp) : ∀ (s s' : Sect) (r : Option Nat),
    applyAll me s l = .done s' r →
    s'.name = s.name ∧ s'.code = s.code ∧ s'.resOnly = s.resOnly ∧
    s'.bcs = s.bcs ++ (appended l).map (fun b => { b with sect := some me }) ∧
    s'.relocs = s.relocs ++ relocs l ∧
    s'.align = lastAlign s.align l ∧
    (∀ x ∈ destroyers l, x = s'.destroyReloc) ∧
    (∀ d, s.destroyReloc = some d → s'.destroyReloc = some d) ∧
    (destroyers l = [] → s'.destroyReloc = s.destroyReloc) ∧
    (∀ x ∈ destroyers l, x ≠ none) ∧
    ∃ log, Assoc.run s.data (dataOps l) = some (s'.data, log) := by
  induction l with
  | nil =>
    intro s s' r h
    simp only [applyAll, Res.done.injEq] at h
    rw [← h.1]
    simp [appended, relocs, lastAlign, destroyers, dataOps, Assoc.run]
  | cons op l ih =>
    intro s s' r h
    simp only [applyAll] at h
    cases hop : op.apply me s with
    | internalError => rw [hop] at h; cases h
    | ub => rw [hop] at h; cases h
    | done s1 r1 =>
      rw [hop] at h
      obtain ⟨h1, h2, h3, h4, h5, h6, h7, h8, h9, h10, log, h11⟩ := ih s1 s' r h
      cases op with
      | append bc =>
        cases bc with
        | none =>
          simp only [SectOp.apply, Res.done.injEq] at hop
          obtain ⟨rfl, _⟩ := hop
          exact ⟨h1, h2, h3, by simpa [appended] using h4, h5, h6, h7, h8, h9, h10, log, h11⟩
        | some bc =>
          simp only [SectOp.apply] at hop
          split at hop
          · rename_i hc
            simp only [Res.done.injEq] at hop
            obtain ⟨rfl, _⟩ := hop
            refine ⟨h1, h2, h3, ?_, h5, h6, h7, h8, h9, h10, log, h11⟩
            rw [h4]; simp [appended, hc]
          · rename_i hc
            simp only [Res.done.injEq] at hop
            obtain ⟨rfl, _⟩ := hop
            refine ⟨h1, h2, h3, ?_, h5, h6, h7, h8, h9, h10, log, h11⟩
            rw [h4]; simp [appended, hc]
      | addReloc rl d =>
        simp only [SectOp.apply] at hop
        cases d with
        | none => cases hop
        | some d =>
          have key : s1 = { s with relocs := s.relocs ++ [rl], destroyReloc := some d } ∧
              (∀ x, s.destroyReloc = some x → x = d) := by
            dsimp only at hop
            cases hd : s.destroyReloc with
            | none =>
              rw [hd] at hop
              simp only [Res.done.injEq] at hop
              exact ⟨hop.1.symm, by simp⟩
            | some d' =>
              rw [hd] at hop
              dsimp only at hop
              split at hop
              · cases hop
              · rename_i hne
                simp only [Res.done.injEq] at hop
                exact ⟨hop.1.symm, by simp; exact (Classical.not_not.1 hne).symm⟩
          obtain ⟨rfl, hk⟩ := key
          have hd' := h8 d rfl
          refine ⟨h1, h2, h3, h4, ?_, h6, ?_, ?_, ?_, ?_, log, h11⟩
          · rw [h5]; simp [Spec.relocs]
          · intro x hx
            simp only [destroyers, List.mem_cons] at hx
            rcases hx with rfl | hx
            · exact hd'.symm
            · exact h7 x hx
          · intro x hx; rw [hd', hk x hx]
          · intro hh; simp [destroyers] at hh
          · intro x hx
            simp only [destroyers, List.mem_cons] at hx
            rcases hx with rfl | hx
            · simp
            · exact h10 x hx
      | setAlign a =>
        simp only [SectOp.apply, Res.done.injEq] at hop
        obtain ⟨rfl, _⟩ := hop
        exact ⟨h1, h2, h3, h4, h5, h6, h7, h8, h9, h10, log, h11⟩
      | setDefault a =>
        simp only [SectOp.apply, Res.done.injEq] at hop
        obtain ⟨rfl, _⟩ := hop
        exact ⟨h1, h2, h3, h4, h5, h6, h7, h8, h9, h10, log, h11⟩
      | setOptFlags a =>
        simp only [SectOp.apply, Res.done.injEq] at hop
        obtain ⟨rfl, _⟩ := hop
        exact ⟨h1, h2, h3, h4, h5, h6, h7, h8, h9, h10, log, h11⟩
      | addData cb d =>
        simp only [SectOp.apply] at hop
        cases ha : Assoc.add s.data cb d with
        | none => rw [ha] at hop; cases hop
        | some p =>
          obtain ⟨a, lg⟩ := p
          rw [ha] at hop
          simp only [Res.done.injEq] at hop
          obtain ⟨rfl, _⟩ := hop
          refine ⟨h1, h2, h3, h4, h5, h6, h7, h8, h9, h10, lg ++ log, ?_⟩
          simp only [dataOps, Assoc.run, ha]
          dsimp only at h11
          rw [h11]

/-- The state of an object after a history. -/
structure Tracks (hook : Hook) (ops : List Op) (o : Object) : Prop where
  names : o.sections.map (·.name) = firsts (asked ops)
  made : ∀ i s, o.sections[i]? = some s → ∃ a c r l, firstRequest s.name ops = some (a, c, r, l) ∧
    applyAll i (Sect.fresh i s.name a c r) (hook i s.name l ++ toSection i ops) = .done s none
  future : ∀ i, o.sections.length ≤ i → toSection i ops = []

theorem applyAll_ret (me : Nat) (l : List SectOp) : ∀ (s s' : Sect) (r : Option Nat),
    applyAll me s l = .done s' r → r = none := by
  induction l with
  | nil => intro s s' r h; simp only [applyAll, Res.done.injEq] at h; exact h.2.symm
  | cons op l ih =>
    intro s s' r h
    simp only [applyAll] at h
    cases hop : op.apply me s with
    | done s1 r1 => rw [hop] at h; exact ih s1 s' r h
    | internalError => rw [hop] at h; cases h
    | ub => rw [hop] at h; cases h

theorem findGeneral_spec (o : Object) (n : Name) :
    (∃ i s, findGeneral o n = some i ∧ o.sections[i]? = some s ∧ s.name = n ∧
      n ∈ o.sections.map (·.name)) ∨
    (findGeneral o n = none ∧ n ∉ o.sections.map (·.name)) := by
  unfold findGeneral
  cases h : o.sections.findIdx? (fun s => s.name == n) with
  | none =>
    right
    rw [List.findIdx?_eq_none_iff] at h
    refine ⟨rfl, ?_⟩
    intro hm
    obtain ⟨s, hs, rfl⟩ := List.mem_map.1 hm
    simpa using h s hs
  | some i =>
    left
    obtain ⟨hlt, hp, _⟩ := List.findIdx?_eq_some_iff_getElem.1 h
    have hp' : o.sections[i].name = n := by simpa using hp
    refine ⟨i, o.sections[i], rfl, by simp [hlt], hp', ?_⟩
    exact List.mem_map.2 ⟨_, List.getElem_mem hlt, hp'⟩

theorem tracks_step {hook : Hook} {ops : List Op} {o o' : Object} {r : Option Nat}
    (ht : Tracks hook ops o) (op : Op) (h : op.apply hook o = .done o' r) :
    Tracks hook (ops ++ [op]) o' := by
  have hlen : o.sections.length = (firsts (asked ops)).length := by
    rw [← ht.names]; simp
  cases op with
  | get n a c rs l =>
    simp only [Op.apply, getGeneral] at h
    rcases findGeneral_spec o n with ⟨i, s, hf, hs, hn, hm⟩ | ⟨hf, hm⟩
    · rw [hf] at h
      simp only [Res.done.injEq] at h
      obtain ⟨rfl, _⟩ := h
      refine ⟨?_, ?_, ?_⟩
      · rw [ht.names, asked_append, asked, asked, firsts_append_one, if_pos]
        rw [← ht.names]; exact hm
      · intro j t hj
        obtain ⟨a', c', r', l', h1, h2⟩ := ht.made j t hj
        refine ⟨a', c', r', l', ?_, ?_⟩
        · rw [firstRequest_append, h1]; rfl
        · rw [toSection_append]; simpa [toSection] using h2
      · intro j hj; rw [toSection_append, ht.future j hj]; rfl
    · rw [hf] at h
      dsimp only at h
      cases ha : applyAll o.sections.length (Sect.fresh o.sections.length n a c rs)
          (hook o.sections.length n l) with
      | internalError => rw [ha] at h; cases h
      | ub => rw [ha] at h; cases h
      | done s r' =>
        rw [ha] at h
        simp only [Res.done.injEq] at h
        obtain ⟨rfl, _⟩ := h
        have hname : s.name = n := (applyAll_effect _ _ _ _ _ ha).1
        have hask : n ∉ asked ops := by
          rw [← mem_firsts, ← ht.names]; exact hm
        refine ⟨?_, ?_, ?_⟩
        · rw [asked_append, asked, asked, firsts_append_one, if_neg, List.map_append, ht.names]
          · simp [hname]
          · rw [← ht.names]; exact hm
        · intro j t hj
          dsimp only at hj
          rw [List.getElem?_append] at hj
          split at hj
          · obtain ⟨a', c', r', l', h1, h2⟩ := ht.made j t hj
            refine ⟨a', c', r', l', ?_, ?_⟩
            · rw [firstRequest_append, h1]; rfl
            · rw [toSection_append]; simpa [toSection] using h2
          · rename_i hge
            have hj0 : j = o.sections.length ∧ t = s := by
              have : j - o.sections.length = 0 := by
                cases hd : j - o.sections.length with
                | zero => rfl
                | succ k => rw [hd] at hj; simp at hj
              rw [this] at hj
              simp at hj
              exact ⟨by omega, hj.symm⟩
            obtain ⟨rfl, rfl⟩ := hj0
            refine ⟨a, c, rs, l, ?_, ?_⟩
            · rw [firstRequest_append, hname, firstRequest_none hask]
              simp [firstRequest]
            · rw [toSection_append, ht.future _ (Nat.le_refl _), hname]
              simp only [toSection, List.append_nil]
              rw [ha, applyAll_ret _ _ _ _ _ ha]
        · intro j hj
          simp only [List.length_append, List.length_singleton] at hj
          rw [toSection_append, ht.future j (by omega)]; rfl
  | sect i op =>
    simp only [Op.apply] at h
    cases hs : o.sections[i]? with
    | none => rw [hs] at h; cases h
    | some s =>
      rw [hs] at h
      dsimp only at h
      have hilt : i < o.sections.length := (List.getElem?_eq_some_iff.1 hs).1
      cases ha : op.apply i s with
      | internalError => rw [ha] at h; cases h
      | ub => rw [ha] at h; cases h
      | done s' r' =>
        rw [ha] at h
        simp only [Res.done.injEq] at h
        obtain ⟨rfl, _⟩ := h
        have hone : applyAll i s [op] = .done s' none := by simp [applyAll, ha]
        have hname : s'.name = s.name := (applyAll_effect _ _ _ _ _ hone).1
        refine ⟨?_, ?_, ?_⟩
        · rw [asked_append]
          simp only [asked, List.append_nil]
          rw [← ht.names]
          apply List.ext_getElem?
          intro j
          simp only [List.getElem?_map, List.getElem?_set]
          by_cases hij : i = j
          · subst hij; simp [hilt, hs, hname]
            exact (List.getElem?_eq_some_iff.1 hs).2 ▸ rfl
          · simp [hij]
        · intro j t hj
          dsimp only at hj
          rw [List.getElem?_set] at hj
          by_cases hij : i = j
          · subst hij
            simp [hilt] at hj
            subst hj
            obtain ⟨a', c', r', l', h1, h2⟩ := ht.made i s hs
            refine ⟨a', c', r', l', ?_, ?_⟩
            · rw [firstRequest_append, hname, h1]; rfl
            · rw [toSection_append, hname]
              simp only [toSection, if_true]
              rw [← List.append_assoc, applyAll_append i _ _ _ _ _ h2, hone]
          · simp [hij] at hj
            obtain ⟨a', c', r', l', h1, h2⟩ := ht.made j t hj
            refine ⟨a', c', r', l', ?_, ?_⟩
            · rw [firstRequest_append, h1]; rfl
            · rw [toSection_append]
              simpa [toSection, hij] using h2
        · intro j hj
          simp only [List.length_set] at hj
          rw [toSection_append, ht.future j hj]
          have : i ≠ j := by omega
          simp [toSection, this]

theorem tracks_run (hook : Hook) (ops : List Op) : ∀ (o : Object) (r : Option Nat),
    run hook Object.empty ops = .done o r → Tracks hook ops o := by
  have : ∀ (n : Nat) (ops : List Op), ops.length = n → ∀ (o : Object) (r : Option Nat),
      run hook Object.empty ops = .done o r → Tracks hook ops o := by
    intro n
    induction n with
    | zero =>
      intro ops hl o r h
      have : ops = [] := List.length_eq_zero_iff.1 hl
      subst this
      simp only [run, Res.done.injEq] at h
      rw [← h.1]
      exact ⟨rfl, by simp [Object.empty], by intro i _; rfl⟩
    | succ n ih =>
      intro ops hl o r h
      have hne : ops ≠ [] := by intro h0; simp [h0] at hl
      have hsplit := List.dropLast_concat_getLast hne
      rw [← hsplit] at h ⊢
      obtain ⟨o1, h1⟩ := run_prefix hook _ _ _ _ _ h
      rw [run_append hook _ _ _ _ _ h1] at h
      simp only [run] at h
      cases hop : (ops.getLast hne).apply hook o1 with
      | internalError => rw [hop] at h; cases h
      | ub => rw [hop] at h; cases h
      | done o2 r2 =>
        rw [hop] at h
        simp only [Res.done.injEq] at h
        obtain ⟨rfl, _⟩ := h
        exact tracks_step (ih ops.dropLast (by simp [hl]) o1 none h1) _ hop
  exact this ops.length ops rfl

end Verif.Section
