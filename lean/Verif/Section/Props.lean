/-
Property theorems about sections (C34).
-/
import Verif.Section.Lemmas

namespace Verif.Section

open Spec

/-- C34: after any history of calls, whatever the object format's hook does to new sections, the
    object has one section per distinct name asked for, in the order the names were first asked
    for. -/
theorem sections_in_creation_order (hook : Hook) (ops : List Op) (o : Object) (r : Option Nat)
    (h : run hook Object.empty ops = .done o r) :
    o.sections.map (·.name) = firsts (asked ops) ∧ (o.sections.map (·.name)).Nodup := by
  have ht := tracks_run hook ops o r h
  exact ⟨ht.names, by rw [ht.names]; exact nodup_firsts _⟩

/-- C34: asking for a section by a name asked for before changes nothing and returns the section of
    that name, not new; asking for another name adds exactly one section, at the end, with that name,
    reported as new — whether the request passes the same alignment and flags or not. -/
theorem get_general_spec (hook : Hook) (ops : List Op) (o : Object) (r : Option Nat)
    (h : run hook Object.empty ops = .done o r)
    (name : Name) (align : Nat) (code resOnly : Int) (line : Nat) (o' : Object) (i : Nat)
    (isnew : Bool) (r' : Option Nat)
    (hg : getGeneral hook o name align code resOnly line = .done (o', i, isnew) r') :
    (∃ s, o'.sections[i]? = some s ∧ s.name = name) ∧
    (isnew = true ↔ name ∉ asked ops) ∧
    (isnew = false → o' = o) ∧
    (isnew = true → i = o.sections.length ∧ ∃ s, o'.sections = o.sections ++ [s]) := by
  have ht := tracks_run hook ops o r h
  unfold getGeneral at hg
  rcases findGeneral_spec o name with ⟨j, s, hf, hs, hn, hm⟩ | ⟨hf, hm⟩
  · rw [hf] at hg
    simp only [Res.done.injEq, Prod.mk.injEq] at hg
    obtain ⟨⟨rfl, rfl, rfl⟩, _⟩ := hg
    have : name ∈ asked ops := by rw [← mem_firsts, ← ht.names]; exact hm
    exact ⟨⟨s, hs, hn⟩, by simp [this], by simp, by simp⟩
  · rw [hf] at hg
    dsimp only at hg
    cases ha : applyAll o.sections.length (Sect.fresh o.sections.length name align code resOnly)
        (hook o.sections.length name line) with
    | internalError => rw [ha] at hg; cases hg
    | ub => rw [ha] at hg; cases hg
    | done s r2 =>
      rw [ha] at hg
      simp only [Res.done.injEq, Prod.mk.injEq] at hg
      obtain ⟨⟨rfl, rfl, rfl⟩, _⟩ := hg
      have : name ∉ asked ops := by rw [← mem_firsts, ← ht.names]; exact hm
      refine ⟨⟨s, by simp, ?_⟩, by simp [this], by simp, by simp⟩
      exact (applyAll_effect _ _ _ _ _ ha).1

/-- C34: a new section starts as one empty bytecode (no callback) at offset 0 that belongs to it, no
    relocations, no associated data, and the alignment and flags asked for — up to what the object
    format's own hook does, here an object format without a hook. -/
theorem new_section_state (ops : List Op) (o : Object) (r : Option Nat)
    (h : run (fun _ _ _ => []) Object.empty ops = .done o r)
    (name : Name) (hnew : name ∉ asked ops) (align : Nat) (code resOnly : Int) (line : Nat) :
    ∃ s, getGeneral (fun _ _ _ => []) o name align code resOnly line =
        .done (⟨o.sections ++ [s]⟩, o.sections.length, true) none ∧
      s.name = name ∧ s.align = align ∧ s.code = code ∧ s.resOnly = resOnly ∧ s.dflt = 0 ∧
      s.relocs = [] ∧ s.data = none ∧
      ∃ b, s.bcs = [b] ∧ b.callback = false ∧ b.offset = 0 ∧ b.sect = some o.sections.length := by
  have ht := tracks_run _ ops o r h
  have hm : name ∉ o.sections.map (·.name) := by rw [ht.names, mem_firsts]; exact hnew
  have hf : findGeneral o name = none := by
    rcases findGeneral_spec o name with ⟨_, _, _, _, _, hm'⟩ | ⟨hf, _⟩
    · exact absurd hm' hm
    · exact hf
  refine ⟨Sect.fresh o.sections.length name align code resOnly, ?_, rfl, rfl, rfl, rfl, rfl, rfl, rfl,
    _, rfl, rfl, rfl, rfl⟩
  simp [getGeneral, hf, applyAll]

/-- C34: looking a section up by name finds the section of that name exactly if the name was asked for
    before. -/
theorem find_general_spec (hook : Hook) (ops : List Op) (o : Object) (r : Option Nat)
    (h : run hook Object.empty ops = .done o r) (name : Name) :
    (name ∈ asked ops → ∃ i s, findGeneral o name = some i ∧ o.sections[i]? = some s ∧
      s.name = name) ∧
    (name ∉ asked ops → findGeneral o name = none) := by
  have ht := tracks_run hook ops o r h
  rw [← mem_firsts, ← ht.names]
  rcases findGeneral_spec o name with ⟨i, s, h1, h2, h3, h4⟩ | ⟨h1, h2⟩
  · exact ⟨fun _ => ⟨i, s, h1, h2, h3⟩, fun hh => absurd h4 hh⟩
  · exact ⟨fun hh => absurd hh h2, fun _ => h1⟩

/-- C34: after any history, every section holds — after its initial empty bytecode at offset 0 — exactly
    the bytecodes with a callback appended to it (first those the object format's hook appended), in
    order, each knowing its section; the relocations added to it, in order; the flags of the first
    request for its name; the alignment last set, else that of the first request; and every relocation
    added came with the one destroy function that will be used on all of them. -/
theorem section_contents (hook : Hook) (ops : List Op) (o : Object) (r : Option Nat)
    (h : run hook Object.empty ops = .done o r) (i : Nat) (s : Sect)
    (hs : o.sections[i]? = some s) :
    ∃ align code resOnly line b, firstRequest s.name ops = some (align, code, resOnly, line) ∧
      b.callback = false ∧ b.offset = 0 ∧ b.sect = some i ∧
      s.bcs = b :: (appended (hook i s.name line ++ toSection i ops)).map
        (fun b => { b with sect := some i }) ∧
      s.relocs = relocs (hook i s.name line ++ toSection i ops) ∧
      (∀ d ∈ destroyers (hook i s.name line ++ toSection i ops), d ≠ none ∧ d = s.destroyReloc) ∧
      s.code = code ∧ s.resOnly = resOnly ∧
      s.align = lastAlign align (hook i s.name line ++ toSection i ops) := by
  have ht := tracks_run hook ops o r h
  obtain ⟨a, c, rs, l, h1, h2⟩ := ht.made i s hs
  obtain ⟨_, e2, e3, e4, e5, e6, e7, _, _, e10, _⟩ := applyAll_effect _ _ _ _ _ h2
  exact ⟨a, c, rs, l, _, h1, rfl, rfl, rfl, e4, by simpa [Sect.fresh] using e5,
    fun d hd => ⟨e10 d hd, e7 d hd⟩, e2, e3, e6⟩

/-- C34/C37: the data associated with a section under a callback identity is the data last added to
    that section under it. -/
theorem section_data (hook : Hook) (ops : List Op) (o : Object) (r : Option Nat)
    (h : run hook Object.empty ops = .done o r) (i : Nat) (s : Sect)
    (hs : o.sections[i]? = some s) (cb : Nat) :
    ∃ align code resOnly line, firstRequest s.name ops = some (align, code, resOnly, line) ∧
      Assoc.get s.data cb =
        Assoc.Spec.current cb (dataOps (hook i s.name line ++ toSection i ops)) := by
  have ht := tracks_run hook ops o r h
  obtain ⟨a, c, rs, l, h1, h2⟩ := ht.made i s hs
  obtain ⟨_, _, _, _, _, _, _, _, _, _, log, e⟩ := applyAll_effect _ _ _ _ _ h2
  obtain ⟨a', log', g1, g2⟩ := Assoc.assoc_is_map (dataOps (hook i s.name l ++ toSection i ops))
  have e' : Assoc.run none (dataOps (hook i s.name l ++ toSection i ops)) = some (s.data, log) := e
  rw [g1] at e'
  simp only [Option.some.injEq, Prod.mk.injEq] at e'
  exact ⟨a, c, rs, l, h1, by rw [← e'.1]; exact g2 cb⟩

/-- A history of calls aborts only on a relocation without a destroy function or with another one than
    the section's: without relocations, calls on sections that exist never abort. -/
theorem never_aborts (hook : Hook) (ops : List Op)
    (hrel : ∀ i op, Op.sect i op ∈ ops → destroyers [op] = [])
    (hhook : ∀ i n l, destroyers (hook i n l) = []) (o : Object) :
    run hook o ops ≠ .internalError := by
  have happ : ∀ me (l : List SectOp), destroyers l = [] → ∀ s, applyAll me s l ≠ .internalError := by
    intro me l
    induction l with
    | nil => intro _ s; simp [applyAll]
    | cons op l ih =>
      intro hd s
      simp only [applyAll]
      cases hop : op.apply me s with
      | done s' r => exact ih (by cases op <;> simp_all [destroyers]) s'
      | ub => simp
      | internalError =>
        exfalso
        cases op with
        | addReloc r d => simp [destroyers] at hd
        | append bc =>
          cases bc with
          | none => simp [SectOp.apply] at hop
          | some bc => simp only [SectOp.apply] at hop; split at hop <;> cases hop
        | addData cb d =>
          simp only [SectOp.apply] at hop
          cases ha : Assoc.add s.data cb d <;> rw [ha] at hop <;> cases hop
        | setAlign a => simp [SectOp.apply] at hop
        | setDefault a => simp [SectOp.apply] at hop
        | setOptFlags a => simp [SectOp.apply] at hop
  induction ops generalizing o with
  | nil => simp [run]
  | cons op ops ih =>
    simp only [run]
    cases hop : op.apply hook o with
    | done o' r => exact ih (fun i op' hm => hrel i op' (List.mem_cons_of_mem _ hm)) o'
    | ub => simp
    | internalError =>
      exfalso
      cases op with
      | get n a c rs l =>
        simp only [Op.apply, getGeneral] at hop
        cases hf : findGeneral o n with
        | some i => rw [hf] at hop; simp at hop
        | none =>
          rw [hf] at hop
          dsimp only at hop
          cases ha : applyAll o.sections.length (Sect.fresh o.sections.length n a c rs)
              (hook o.sections.length n l) with
          | done s r => rw [ha] at hop; simp at hop
          | ub => rw [ha] at hop; simp at hop
          | internalError => exact happ _ _ (hhook _ _ _) _ ha
      | sect i op =>
        simp only [Op.apply] at hop
        cases hs : o.sections[i]? with
        | none => rw [hs] at hop; cases hop
        | some s =>
          rw [hs] at hop
          dsimp only at hop
          cases ha : op.apply i s with
          | done s r => rw [ha] at hop; simp at hop
          | ub => rw [ha] at hop; simp at hop
          | internalError =>
            have h1 := happ i [op] (hrel i op (by simp)) s
            simp [applyAll, ha] at h1

/-- C34: traversing a section's bytecodes calls the function on the appended bytecodes in order,
    skipping the initial empty one, up to and including the first for which it returns nonzero; that
    value is returned, 0 if there is none; errors and warnings are attributed after every call to the
    line of the bytecode just visited. -/
theorem bcs_traverse_spec {σ : Type} (f : σ → Bc → Int × σ) (s : Sect) (st : σ) :
    ∃ pre post, s.bcs.tail = pre ++ post ∧ (bcsTraverse true f s st).1 = pre ∧
      (bcsTraverse true f s st).2.1 = pre.map (·.line) ∧
      (bcsTraverse true f s st).2.2.1 = pre.foldl (fun s x => (f s x).2) st ∧
      ((post = [] ∧ (bcsTraverse true f s st).2.2.2 = 0) ∨
        ((bcsTraverse true f s st).2.2.2 ≠ 0 ∧ ∃ pre' x, pre = pre' ++ [x] ∧
          (f (pre'.foldl (fun s x => (f s x).2) st) x).1 = (bcsTraverse true f s st).2.2.2)) := by
  unfold bcsTraverse
  generalize s.bcs.tail = l
  induction l generalizing st with
  | nil => exact ⟨[], [], rfl, rfl, rfl, rfl, Or.inl ⟨rfl, rfl⟩⟩
  | cons b bs ih =>
    unfold traverseGo
    by_cases hz : (f st b).1 ≠ 0
    · rw [if_pos hz]
      exact ⟨[b], bs, rfl, rfl, rfl, rfl, Or.inr ⟨hz, [], b, rfl, rfl⟩⟩
    · obtain ⟨pre, post, h1, h2, h3, h4, h5⟩ := ih (f st b).2
      rw [if_neg hz]
      simp only [if_true]
      refine ⟨b :: pre, post, by rw [h1]; rfl, by rw [h2], by rw [h3]; rfl, by rw [h4]; rfl, ?_⟩
      rcases h5 with ⟨h6, h7⟩ | ⟨h6, pre', x, h7, h8⟩
      · exact Or.inl ⟨h6, h7⟩
      · exact Or.inr ⟨h6, b :: pre', x, by rw [h7]; rfl, h8⟩

/-- The same for the sections of an object. -/
theorem sections_traverse_spec {σ : Type} (f : σ → Sect → Int × σ) (o : Object) (st : σ) :
    ∃ pre post, o.sections = pre ++ post ∧ (sectionsTraverse f o.sections st).1 = pre ∧
      (sectionsTraverse f o.sections st).2.1 = pre.foldl (fun s x => (f s x).2) st ∧
      ((post = [] ∧ (sectionsTraverse f o.sections st).2.2 = 0) ∨
        ((sectionsTraverse f o.sections st).2.2 ≠ 0 ∧ ∃ pre' x, pre = pre' ++ [x] ∧
          (f (pre'.foldl (fun s x => (f s x).2) st) x).1 =
            (sectionsTraverse f o.sections st).2.2)) := by
  generalize o.sections = l
  induction l generalizing st with
  | nil => exact ⟨[], [], rfl, rfl, rfl, Or.inl ⟨rfl, rfl⟩⟩
  | cons b bs ih =>
    unfold sectionsTraverse
    by_cases hz : (f st b).1 ≠ 0
    · rw [if_pos hz]
      exact ⟨[b], bs, rfl, rfl, rfl, Or.inr ⟨hz, [], b, rfl, rfl⟩⟩
    · obtain ⟨pre, post, h1, h2, h3, h4⟩ := ih (f st b).2
      rw [if_neg hz]
      dsimp only
      refine ⟨b :: pre, post, by rw [h1]; rfl, by rw [h2], by rw [h3]; rfl, ?_⟩
      rcases h4 with ⟨h6, h7⟩ | ⟨h6, pre', x, h7, h8⟩
      · exact Or.inl ⟨h6, h7⟩
      · exact Or.inr ⟨h6, b :: pre', x, by rw [h7]; rfl, h8⟩

/-- C34: destroying an object whose sections got relocations destroys every relocation, once, with the
    function it was added with. -/
theorem relocs_destroyed (hook : Hook) (ops : List Op) (o : Object) (r : Option Nat)
    (h : run hook Object.empty ops = .done o r) (i : Nat) (s : Sect)
    (hs : o.sections[i]? = some s) :
    ∃ align code resOnly line, firstRequest s.name ops = some (align, code, resOnly, line) ∧
      (destroyCalls s).2 =
        (destroyers (hook i s.name line ++ toSection i ops)).zip
          (relocs (hook i s.name line ++ toSection i ops)) := by
  obtain ⟨a, c, rs, l, b, h1, _, _, _, _, h2, h3, _⟩ := section_contents hook ops o r h i s hs
  refine ⟨a, c, rs, l, h1, ?_⟩
  unfold destroyCalls
  rw [h2]
  generalize hook i s.name l ++ toSection i ops = L at h3
  dsimp only
  induction L with
  | nil => rfl
  | cons op L ih =>
    cases op with
    | addReloc r d =>
      simp only [Spec.relocs, destroyers, List.map_cons, List.zip_cons_cons]
      rw [(h3 d (by simp [destroyers])).2]
      rw [ih (fun d' hd => h3 d' (by simp [destroyers, hd]))]
    | append bc =>
      cases bc <;> exact ih h3
    | setAlign a => exact ih h3
    | setDefault a => exact ih h3
    | setOptFlags a => exact ih h3
    | addData a b => exact ih h3

/-- An object format that attaches its data (callback 1) and sets the alignment of every new section. -/
def sampleHook : Hook := fun i _ _ => [.addData 1 (100 + i), .setAlign 4]

/-- `.text` asked for twice with different flags, `.data` in between; bytecodes interleaved, one without
    callback; two relocations. -/
def sample : List Op :=
  [.get [116] 16 1 0 1, .sect 0 (.append (some (.fresh 10 true 2))), .get [100] 8 0 0 3,
   .sect 1 (.append (some (.fresh 11 true 4))), .get [116] 1 0 1 5,
   .sect 0 (.append (some (.fresh 12 false 6))), .sect 0 (.append (some (.fresh 13 true 7))),
   .sect 0 (.addReloc 50 (some 9)), .sect 0 (.addReloc 51 (some 9)), .sect 0 (.setAlign 32)]

def sampleOut : Object :=
  ⟨[⟨[116], 32, 1, 0, 0, 0, [⟨0, false, 0, some 0, 0⟩, ⟨10, true, 2, some 0, 2 ^ 64 - 1⟩,
      ⟨13, true, 7, some 0, 2 ^ 64 - 1⟩], [50, 51], some 9, some ⟨[(1, 100)], 2⟩⟩,
    ⟨[100], 4, 0, 0, 0, 0, [⟨0, false, 0, some 1, 0⟩, ⟨11, true, 4, some 1, 2 ^ 64 - 1⟩], [], none,
      some ⟨[(1, 101)], 2⟩⟩]⟩

example : run sampleHook Object.empty sample = .done sampleOut none := by decide +kernel
example : firsts (asked sample) = [[116], [100]] := by decide
example : getGeneral sampleHook sampleOut [100] 1 1 1 9 = .done (sampleOut, 1, false) none := by
  decide +kernel
example : ([98] : Name) ∉ asked sample := by decide
/-- The traversal of the sample's first section that stops at bytecode 10. -/
example : bcsTraverse (σ := Unit) true (fun _ b => (if b.id = 10 then 5 else 0, ()))
    sampleOut.sections[0] () = ([⟨10, true, 2, some 0, 2 ^ 64 - 1⟩], [2], (), 5) := by decide +kernel
/-- `never_aborts` applies to a history with sections, bytecodes and data. -/
example : ∀ i op, Op.sect i op ∈ sample.take 7 → destroyers [op] = [] := by
  intro i op h
  simp [sample] at h
  rcases h with ⟨_, rfl⟩ | ⟨_, rfl⟩ | ⟨_, rfl⟩ | ⟨_, rfl⟩ <;> rfl
/-- A second destroy function aborts. -/
example : run sampleHook Object.empty
    [.get [116] 16 1 0 1, .sect 0 (.addReloc 50 (some 9)), .sect 0 (.addReloc 51 (some 8))] =
    .internalError := by decide +kernel

end Verif.Section
