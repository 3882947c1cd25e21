import Verif.Errwarn.Spec

set_option linter.unusedSimpArgs false
set_option linter.unusedVariables false

namespace Verif.Errwarn

/-! ### The search loop -/

theorem locate_ascend (es : List Entry) (line : Nat) (fuel : Nat) : ∀ (i : Nat) (e : Entry),
    es[i]? = some e → e.line ≤ line → es.length ≤ fuel + i →
    ∃ j ej, locate es line fuel i = some (.after j) ∧ es[j]? = some ej ∧ ej.line ≤ line ∧
      (∀ n, es[j + 1]? = some n → line < n.line) := by
  induction fuel with
  | zero =>
    intro i e he hle hf
    have := (List.getElem?_eq_some_iff.mp he).1
    omega
  | succ f ih =>
    intro i e he hle hf
    unfold locate
    simp only [he]
    rw [if_neg (by omega)]
    cases hn : es[i + 1]? with
    | none => exact ⟨i, e, rfl, he, hle, by simp [hn]⟩
    | some n =>
      by_cases hlt : line < n.line
      · simp only [hlt, if_true]
        exact ⟨i, e, rfl, he, hle, by intro n' h; rw [hn] at h; cases h; exact hlt⟩
      · simp only [hlt, if_false]
        exact ih (i + 1) n hn (by omega) (by omega)

theorem locate_zero (es : List Entry) (line : Nat) (fuel : Nat) (e : Entry)
    (he : es[0]? = some e) (hf : es.length ≤ fuel) :
    (line < e.line ∧ locate es line (fuel + 1) 0 = some .head) ∨
    (∃ j ej, locate es line (fuel + 1) 0 = some (.after j) ∧ es[j]? = some ej ∧ ej.line ≤ line ∧
      (∀ n, es[j + 1]? = some n → line < n.line)) := by
  by_cases h : line < e.line
  · left; unfold locate; simp [he, h]
  · right; exact locate_ascend es line (fuel + 1) 0 e he (by omega) (by omega)

theorem locate_total (es : List Entry) (line p : Nat) (hp : p < es.length) :
    (∃ e, es[0]? = some e ∧ line < e.line ∧
      locate es line (2 * es.length + 2) p = some .head) ∨
    (∃ j ej, locate es line (2 * es.length + 2) p = some (.after j) ∧ es[j]? = some ej ∧
      ej.line ≤ line ∧ (∀ n, es[j + 1]? = some n → line < n.line)) := by
  have hep : es[p]? = some es[p] := List.getElem?_eq_getElem hp
  by_cases h : line < es[p].line
  · by_cases h0 : p = 0
    · subst h0
      left; refine ⟨es[0], hep, h, ?_⟩
      rw [show 2 * es.length + 2 = (2 * es.length + 1) + 1 from rfl]; unfold locate; simp [hep, h]
    · have hz : 0 < es.length := by omega
      have he0 : es[0]? = some es[0] := List.getElem?_eq_getElem hz
      have hstep : locate es line (2 * es.length + 2) p = locate es line (2 * es.length + 1) 0 := by
        rw [show 2 * es.length + 2 = (2 * es.length + 1) + 1 from rfl]
        conv => lhs; unfold locate
        simp [hep, h, h0]
      rw [hstep]
      rcases locate_zero es line (2 * es.length) es[0] he0 (by omega) with ⟨h1, h2⟩ | h1
      · left; exact ⟨_, he0, h1, h2⟩
      · right; exact h1
  · right; exact locate_ascend es line _ p es[p] hep (by omega) (by omega)

/-! ### Sorted insertion -/

def Sorted (es : List Entry) : Prop := es.Pairwise (fun a b => a.line ≤ b.line)

/-- Valid collections: sorted, the remembered position is inside, no parser errors. -/
structure Inv (ew : Errwarns) : Prop where
  sorted : Sorted ew.entries
  prevNil : ew.entries = [] → ew.prev = none
  prevIn : ew.entries ≠ [] → ∃ p, ew.prev = some p ∧ p < ew.entries.length
  noParse : ∀ e ∈ ew.entries, e.kind ≠ .parserError

theorem addEntry_spec (ew : Errwarns) (line : Nat) (rep : Bool) (fill : Nat → Entry)
    (h : Inv ew) :
    ∃ pre post pr, ew.entries = pre ++ post ∧ (∀ e ∈ pre, e.line ≤ line) ∧
      (∀ e ∈ post, line < e.line) ∧ pr < (pre ++ fill line :: post).length ∧
      addEntry ew line rep fill =
        some { ew with entries := pre ++ fill line :: post, prev := some pr } := by
  by_cases hn : ew.entries = []
  · have hp := h.prevNil hn
    refine ⟨[], [], 0, by simp [hn], by simp, by simp, by simp, ?_⟩
    unfold addEntry chooseAction
    simp only [hp, hn]
    cases rep <;> simp
  · obtain ⟨p, hp, hlt⟩ := h.prevIn hn
    obtain ⟨e0, tl, hes⟩ : ∃ a l, ew.entries = a :: l := by
      cases hc : ew.entries with
      | nil => exact absurd hc hn
      | cons a l => exact ⟨a, l, rfl⟩
    have hs := h.sorted
    rcases locate_total ew.entries line p hlt with ⟨e, he, hl, hloc⟩ | ⟨j, ej, hloc, hej, hle, hnx⟩
    · have hch : chooseAction ew line = some (.head, some 0) := by
        unfold chooseAction
        rw [hp, hes]
        simp only
        rw [hes] at hloc
        rw [hloc]
      refine ⟨[], ew.entries, 0, by simp, by simp, ?_, by simp, ?_⟩
      · intro e' he'
        rw [hes] at he he' hs
        simp only [List.getElem?_cons_zero, Option.some.injEq] at he
        subst he
        unfold Sorted at hs
        rw [List.pairwise_cons] at hs
        rcases List.mem_cons.mp he' with h1 | h1
        · subst h1; exact hl
        · have := hs.1 _ h1; omega
      · unfold addEntry
        rw [hch]
        have hk := h.noParse e (List.mem_of_getElem? he)
        cases rep <;> simp [he, hk]
    · have hch : chooseAction ew line = some (.after j, some j) := by
        unfold chooseAction
        rw [hp, hes]
        simp only
        rw [hes] at hloc
        rw [hloc]
      have hjl := (List.getElem?_eq_some_iff.mp hej).1
      refine ⟨ew.entries.take (j + 1), ew.entries.drop (j + 1), j + 1, by simp, ?_, ?_, ?_, ?_⟩
      · intro e he
        obtain ⟨k, hk, hek⟩ := List.getElem_of_mem he
        simp only [List.length_take] at hk
        simp only [List.getElem_take] at hek
        have hejj := (List.getElem?_eq_some_iff.mp hej).2
        by_cases hkj : k = j
        · subst hkj; rw [← hek, hejj]; exact hle
        · have := List.pairwise_iff_getElem.mp hs k j (by omega) hjl (by omega)
          rw [hek, hejj] at this; omega
      · intro e he
        obtain ⟨k, hk, hek⟩ := List.getElem_of_mem he
        simp only [List.length_drop] at hk
        simp only [List.getElem_drop] at hek
        have hj1 : j + 1 < ew.entries.length := by omega
        have hn1 := hnx _ (List.getElem?_eq_getElem hj1)
        by_cases hk0 : k = 0
        · subst hk0; rw [← hek]; exact hn1
        · have := List.pairwise_iff_getElem.mp hs (j+1) (j+1+k) hj1 (by omega) (by omega)
          rw [hek] at this; omega
      · simp only [List.length_append, List.length_take, List.length_cons, List.length_drop]; omega
      · unfold addEntry
        rw [hch]
        have hk := h.noParse ej (List.mem_of_getElem? hej)
        cases rep <;> simp [hej, hk, insertAfter]

/-- One insertion keeps the collection valid and appends to the reports of its own line only. -/
theorem addEntry_inv (ew : Errwarns) (line : Nat) (rep : Bool) (fill : Nat → Entry)
    (h : Inv ew) (hline : (fill line).line = line) (hk : (fill line).kind ≠ .parserError) :
    ∃ ew', addEntry ew line rep fill = some ew' ∧ Inv ew' ∧ ew'.ecount = ew.ecount ∧
      ew'.wcount = ew.wcount ∧
      (∀ l, ew'.entries.filter (fun e => e.line = l) =
        ew.entries.filter (fun e => e.line = l) ++ [fill line].filter (fun e => e.line = l)) ∧
      (∀ k, ew'.entries.countP (fun e => e.kind = k) =
        ew.entries.countP (fun e => e.kind = k) + [fill line].countP (fun e => e.kind = k)) := by
  obtain ⟨pre, post, pr, hes, hpre, hpost, hpr, hadd⟩ := addEntry_spec ew line rep fill h
  refine ⟨_, hadd, ⟨?_, by simp, fun _ => ⟨pr, rfl, hpr⟩, ?_⟩, rfl, rfl, ?_, ?_⟩
  · have hs := h.sorted
    unfold Sorted at hs ⊢
    rw [hes, List.pairwise_append] at hs
    simp only [List.pairwise_append, List.pairwise_cons, List.mem_cons]
    refine ⟨hs.1, ⟨?_, hs.2.1⟩, ?_⟩
    · intro a ha; have := hpost a ha; omega
    · rintro a ha b (hb | hb)
      · subst hb; rw [hline]; exact hpre a ha
      · exact hs.2.2 a ha b hb
  · intro e he
    simp only [List.mem_append, List.mem_cons] at he
    have := h.noParse e
    rw [hes] at this
    simp only [List.mem_append] at this
    rcases he with he | he | he
    · exact this (Or.inl he)
    · subst he; exact hk
    · exact this (Or.inr he)
  · intro l
    simp only [hes, List.filter_append, List.append_assoc]
    congr 1
    by_cases hl : line = l
    · have : post.filter (fun e => decide (e.line = l)) = [] := by
        rw [List.filter_eq_nil_iff]
        intro a ha; have := hpost a ha; simp; omega
      rw [List.filter_cons, this]
      simp [hline, hl, List.filter_cons]
    · simp [List.filter_cons, hline, hl]
  · intro k
    simp only [hes, List.countP_append, List.countP_cons, List.countP_nil]
    omega

theorem propagateWarns_inv (line : Nat) (ws : List (WClass × String)) : ∀ (ew : Errwarns),
    Inv ew → ∃ ew', propagateWarns ew line ws = some ew' ∧ Inv ew' ∧ ew'.ecount = ew.ecount ∧
      ew'.wcount = ew.wcount + ws.length ∧
      (∀ l, ew'.entries.filter (fun e => e.line = l) =
        ew.entries.filter (fun e => e.line = l) ++
          (ws.map (Spec.warnReport line)).filter (fun e => e.line = l)) ∧
      (∀ k, ew'.entries.countP (fun e => e.kind = k) =
        ew.entries.countP (fun e => e.kind = k) +
          (ws.map (Spec.warnReport line)).countP (fun e => e.kind = k)) := by
  induction ws with
  | nil => intro ew h; exact ⟨ew, rfl, h, rfl, rfl, by simp, by simp⟩
  | cons w ws ih =>
    intro ew h
    obtain ⟨c, m⟩ := w
    obtain ⟨e1, h1, h2, h3, h4, h5, h6⟩ :=
      addEntry_inv ew line false (fun l => ⟨.warning, l, some m, 0, none⟩) h rfl (by simp)
    obtain ⟨e2, g1, g2, g3, g4, g5, g6⟩ := ih { e1 with wcount := e1.wcount + 1 }
      ⟨h2.sorted, h2.prevNil, h2.prevIn, h2.noParse⟩
    refine ⟨e2, ?_, g2, ?_, ?_, ?_, ?_⟩
    · simp [propagateWarns, h1, g1]
    · rw [g3]; exact h3
    · rw [g4]; simp only [h4, List.length_cons]; omega
    · intro l
      rw [g5 l]
      simp only [h5 l]
      simp [List.filter_cons, Spec.warnReport]
      split <;> simp
    · intro k
      rw [g6 k]
      simp only [h6 k]
      simp only [List.map_cons, List.countP_cons, List.countP_nil, Spec.warnReport]
      omega

/-! ### Order holds for all histories, parser errors included -/

structure Inv0 (ew : Errwarns) : Prop where
  sorted : Sorted ew.entries
  prevNil : ew.entries = [] → ew.prev = none
  prevIn : ew.entries ≠ [] → ∃ p, ew.prev = some p ∧ p < ew.entries.length

theorem insert_sorted {es : List Entry} (hs : Sorted es) (j line : Nat) (ej n : Entry)
    (hej : es[j]? = some ej) (hle : ej.line ≤ line)
    (hnx : ∀ n, es[j + 1]? = some n → line < n.line) (hn : n.line = line) :
    Sorted (insertAfter es j n) := by
  have hjl := (List.getElem?_eq_some_iff.mp hej).1
  have hejj := (List.getElem?_eq_some_iff.mp hej).2
  unfold insertAfter Sorted
  rw [List.pairwise_append, List.pairwise_cons]
  refine ⟨hs.sublist (List.take_sublist _ _), ⟨?_, hs.sublist (List.drop_sublist _ _)⟩, ?_⟩
  · intro e he
    obtain ⟨k, hk, hek⟩ := List.getElem_of_mem he
    simp only [List.length_drop] at hk
    simp only [List.getElem_drop] at hek
    have hj1 : j + 1 < es.length := by omega
    have hn1 := hnx _ (List.getElem?_eq_getElem hj1)
    by_cases hk0 : k = 0
    · subst hk0; rw [← hek, hn]; simp only [Nat.add_zero]; omega
    · have := List.pairwise_iff_getElem.mp hs (j+1) (j+1+k) hj1 (by omega) (by omega)
      rw [hek] at this; omega
  · intro a ha b hb
    obtain ⟨k, hk, hek⟩ := List.getElem_of_mem ha
    simp only [List.length_take] at hk
    simp only [List.getElem_take] at hek
    rcases List.mem_cons.mp hb with hb | hb
    · subst hb
      by_cases hkj : k = j
      · subst hkj; rw [← hek, hejj, hn]; exact hle
      · have := List.pairwise_iff_getElem.mp hs k j (by omega) hjl (by omega)
        rw [hek, hejj] at this; omega
    · obtain ⟨m, hm, hem⟩ := List.getElem_of_mem hb
      simp only [List.length_drop] at hm
      simp only [List.getElem_drop] at hem
      have := List.pairwise_iff_getElem.mp hs k (j+1+m) (by omega) (by omega) (by omega)
      rw [hek, hem] at this; exact this

theorem set_sorted {es : List Entry} (hs : Sorted es) (i : Nat) (e n : Entry)
    (he : es[i]? = some e) (hn : n.line = e.line) : Sorted (es.set i n) := by
  have hmap : (es.set i n).map Entry.line = es.map Entry.line := by
    rw [List.map_set]
    apply List.ext_getElem?
    intro k
    rw [List.getElem?_set]
    by_cases hk : i = k
    · subst hk
      have := (List.getElem?_eq_some_iff.mp he).1
      simp [this, he, hn]
      have h2 := (List.getElem?_eq_some_iff.mp he).2
      rw [h2]
    · simp [hk]
  have h1 : (es.map Entry.line).Pairwise (· ≤ ·) := List.pairwise_map.mpr hs
  rw [← hmap] at h1
  exact List.pairwise_map.mp h1

theorem addEntry_inv0 (ew : Errwarns) (line : Nat) (rep : Bool) (fill : Nat → Entry)
    (h : Inv0 ew) (hline : ∀ l, (fill l).line = l) :
    ∃ ew', addEntry ew line rep fill = some ew' ∧ Inv0 ew' ∧ ew'.ecount = ew.ecount ∧
      ew'.wcount = ew.wcount := by
  by_cases hn : ew.entries = []
  · have hp := h.prevNil hn
    refine ⟨{ ew with entries := [fill line], prev := some 0 }, ?_,
      ⟨by simp [Sorted], by simp, by simp⟩, rfl, rfl⟩
    unfold addEntry chooseAction
    simp only [hp, hn]
  · obtain ⟨p, hp, hlt⟩ := h.prevIn hn
    obtain ⟨e0, tl, hes⟩ : ∃ a l, ew.entries = a :: l := by
      cases hc : ew.entries with
      | nil => exact absurd hc hn
      | cons a l => exact ⟨a, l, rfl⟩
    have hs := h.sorted
    rcases locate_total ew.entries line p hlt with ⟨e, he, hl, hloc⟩ | ⟨j, ej, hloc, hej, hle, hnx⟩
    · have hch : chooseAction ew line = some (.head, some 0) := by
        unfold chooseAction
        rw [hp, hes]
        simp only
        rw [hes] at hloc
        rw [hloc]
      have hhead : Inv0 { ew with entries := fill line :: ew.entries, prev := some 0 } := by
        refine ⟨?_, by simp, by simp⟩
        unfold Sorted at *
        rw [List.pairwise_cons]
        refine ⟨?_, hs⟩
        intro e' he'
        rw [hes] at he he' hs
        simp only [List.getElem?_cons_zero, Option.some.injEq] at he
        subst he
        rw [List.pairwise_cons] at hs
        rw [hline]
        rcases List.mem_cons.mp he' with h1 | h1
        · subst h1; omega
        · have := hs.1 _ h1; omega
      unfold addEntry
      rw [hch]
      cases rep
      · simp only [Option.bind_some, he]
        exact ⟨_, rfl, hhead, rfl, rfl⟩
      · simp only [Option.bind_some, he]
        split
        · refine ⟨_, rfl, ⟨set_sorted hs 0 e _ he (hline _), ?_, ?_⟩, rfl, rfl⟩
          · intro hc; simp [hes] at hc
          · intro _; exact ⟨0, rfl, by simp [hes]⟩
        · exact ⟨_, rfl, hhead, rfl, rfl⟩
    · have hch : chooseAction ew line = some (.after j, some j) := by
        unfold chooseAction
        rw [hp, hes]
        simp only
        rw [hes] at hloc
        rw [hloc]
      have hjl := (List.getElem?_eq_some_iff.mp hej).1
      have haft : Inv0 { ew with entries := insertAfter ew.entries j (fill line), prev := some (j + 1) } := by
        refine ⟨insert_sorted hs j line ej _ hej hle hnx (hline _), ?_, ?_⟩
        · intro hc; simp [insertAfter] at hc
        · intro _; refine ⟨j + 1, rfl, ?_⟩
          simp only [insertAfter, List.length_append, List.length_take, List.length_cons,
            List.length_drop]; omega
      unfold addEntry
      rw [hch]
      cases rep
      · simp only [Option.bind_some, hej]
        exact ⟨_, rfl, haft, rfl, rfl⟩
      · simp only [Option.bind_some, hej]
        split
        · refine ⟨_, rfl, ⟨set_sorted hs j ej _ hej (hline _), ?_, ?_⟩, rfl, rfl⟩
          · intro hc; simp [hes] at hc
          · intro _; exact ⟨j, rfl, by simpa using hjl⟩
        · exact ⟨_, rfl, haft, rfl, rfl⟩

theorem propagateWarns_inv0 (line : Nat) (ws : List (WClass × String)) : ∀ (ew : Errwarns),
    Inv0 ew → ∃ ew', propagateWarns ew line ws = some ew' ∧ Inv0 ew' := by
  induction ws with
  | nil => intro ew h; exact ⟨ew, rfl, h⟩
  | cons w ws ih =>
    intro ew h
    obtain ⟨c, m⟩ := w
    obtain ⟨e1, h1, h2, _, _⟩ :=
      addEntry_inv0 ew line false (fun l => ⟨.warning, l, some m, 0, none⟩) h (fun _ => rfl)
    obtain ⟨e2, g1, g2⟩ := ih { e1 with wcount := e1.wcount + 1 }
      ⟨h2.sorted, h2.prevNil, h2.prevIn⟩
    exact ⟨e2, by simp [propagateWarns, h1, g1], g2⟩

theorem step_inv0 (s : State) (op : Op) (h : Inv0 s.ew) :
    ∃ s', step s op = some s' ∧ Inv0 s'.ew := by
  cases op
  case propagate line =>
    have key : ∃ g1 ew1, propagateError s.g s.ew line = some (g1, ew1) ∧ Inv0 ew1 := by
      unfold propagateError
      split
      · obtain ⟨e1, h1, h2, _, _⟩ := addEntry_inv0 s.ew line true
          (fun l => ⟨kindOf s.g.err.eclass, l, s.g.err.estr, s.g.err.xrefline, s.g.err.xrefstr⟩) h
          (fun _ => rfl)
        rw [h1]
        exact ⟨_, _, rfl, ⟨h2.sorted, h2.prevNil, h2.prevIn⟩⟩
      · exact ⟨_, _, rfl, h⟩
    obtain ⟨g1, ew1, k1, k2⟩ := key
    obtain ⟨ew2, w1, w2⟩ := propagateWarns_inv0 line g1.warns ew1 k2
    exact ⟨⟨{ g1 with warns := [] }, ew2⟩, by simp [step, propagate, k1, w1], w2⟩
  all_goals exact ⟨_, rfl, h⟩

theorem run_inv0 (ops : List Op) : ∀ (s : State), Inv0 s.ew →
    ∃ s', run s ops = some s' ∧ Inv0 s'.ew := by
  induction ops with
  | nil => intro s h; exact ⟨s, rfl, h⟩
  | cons op ops ih =>
    intro s h
    obtain ⟨s1, h1, h2⟩ := step_inv0 s op h
    obtain ⟨s2, h3, h4⟩ := ih s1 h2
    exact ⟨s2, by simp [run, h1, h3], h4⟩

/-! ### Simulation of the specification -/

def xrefLine (x : Option (Nat × String)) : Nat := (x.map (·.1)).getD 0
def xrefMsg (x : Option (Nat × String)) : Option String := x.map (·.2)

def ErrRel (e : Err) (t : Spec.State) : Prop :=
  match t.error with
  | none => e = ⟨eNone, none, xrefLine t.xref, xrefMsg t.xref⟩
  | some p => p.eclass ≠ eNone ∧ Spec.NotParse p.eclass ∧
      e = ⟨p.eclass, some p.msg, xrefLine p.xref, xrefMsg p.xref⟩ ∧ t.xref = none

structure Rel (s : State) (t : Spec.State) : Prop where
  err : ErrRel s.g.err t
  warns : s.g.warns = t.warns
  enabled : ∀ c, c < 64 → s.g.enabled.getLsbD c = t.enabled c
  inv : Inv s.ew
  lines : ∀ l, s.ew.entries.filter (fun e => e.line = l) = t.reports.filter (fun e => e.line = l)
  counts : ∀ k, s.ew.entries.countP (fun e => e.kind = k) = t.reports.countP (fun e => e.kind = k)
  ecount : s.ew.ecount = t.reports.countP (fun e => e.kind = .error)
  wcount : s.ew.wcount = t.reports.countP (fun e => e.kind = .warning)

theorem bit_one (c i : Nat) : (bit c).getLsbD i = (decide (i < 64) && decide (i = c)) := by
  unfold bit
  rw [BitVec.getLsbD_shiftLeft]
  by_cases h : i < 64 <;> by_cases h2 : i = c <;> simp [h, h2, BitVec.getLsbD_one] <;> omega

theorem enabled_iff (m : BitVec 64) (c : Nat) (h : c < 64) :
    (m &&& bit c) = 0 ↔ m.getLsbD c = false := by
  constructor
  · intro hz
    have := congrArg (fun b => BitVec.getLsbD b c) hz
    simp only [BitVec.getLsbD_and, bit_one] at this
    simpa [h] using this
  · intro hf
    apply BitVec.eq_of_getLsbD_eq
    intro i hi
    simp only [BitVec.getLsbD_and, bit_one]
    by_cases hic : i = c
    · subst hic; simp [hf]
    · simp [hic]

theorem init_rel : Rel State.init Spec.init := by
  refine ⟨rfl, rfl, ?_, ⟨List.Pairwise.nil, fun _ => rfl, fun h => absurd rfl h, by simp [State.init, Errwarns.create]⟩, by simp [State.init, Errwarns.create, Spec.init], by simp [State.init, Errwarns.create, Spec.init], rfl, rfl⟩
  intro c hc
  have : ∀ c : Fin 64, (Global.init.enabled).getLsbD c.val = Spec.init.enabled c.val := by decide
  exact this ⟨c, hc⟩

theorem kindOf_notParse (c : EClass) (h : Spec.NotParse c) : kindOf c = .error := by
  unfold kindOf
  rcases h with h | h
  · simp [h]
  · simp [h]

theorem propagate_rel (s : State) (t : Spec.State) (line : Nat) (h : Rel s t) :
    ∃ s', step s (.propagate line) = some s' ∧ Rel s' (Spec.step t (.propagate line)) := by
  obtain ⟨herr, hw, hen, hinv, hl, hc, hec, hwc⟩ := h
  -- the error part
  have key : ∃ g1 ew1, propagateError s.g s.ew line = some (g1, ew1) ∧ g1.warns = s.g.warns ∧ g1.enabled = s.g.enabled ∧
        g1.err = ⟨eNone, none, xrefLine t.xref, xrefMsg t.xref⟩ ∧ Inv ew1 ∧
        ew1.wcount = s.ew.wcount ∧
        ew1.ecount = s.ew.ecount + (t.error.map (·.report line)).toList.length ∧
        (∀ l, ew1.entries.filter (fun e => e.line = l) = s.ew.entries.filter (fun e => e.line = l) ++
          (t.error.map (·.report line)).toList.filter (fun e => e.line = l)) ∧
        (∀ k, ew1.entries.countP (fun e => e.kind = k) = s.ew.entries.countP (fun e => e.kind = k) +
          (t.error.map (·.report line)).toList.countP (fun e => e.kind = k)) := by
    cases hte : t.error with
    | none =>
      simp only [ErrRel, hte] at herr
      refine ⟨s.g, s.ew, ?_, rfl, rfl, herr, hinv, rfl, by simp, by simp, by simp⟩
      simp [propagateError, herr]
    | some p =>
      simp only [ErrRel, hte] at herr
      obtain ⟨hp0, hp1, hp2, hp3⟩ := herr
      obtain ⟨e1, h1, h2, h3, h4, h5, h6⟩ := addEntry_inv s.ew line true
        (fun l => ⟨kindOf s.g.err.eclass, l, s.g.err.estr, s.g.err.xrefline, s.g.err.xrefstr⟩)
        hinv rfl (by simp [hp2, kindOf_notParse _ hp1])
      have hrep : (⟨kindOf s.g.err.eclass, line, s.g.err.estr, s.g.err.xrefline, s.g.err.xrefstr⟩ : Entry)
          = p.report line := by
        simp [hp2, kindOf_notParse _ hp1, Spec.Pending.report, xrefLine, xrefMsg]
      refine ⟨(errorFetch s.g).2, { e1 with ecount := e1.ecount + 1 }, ?_, rfl, rfl, ?_,
        ⟨h2.sorted, h2.prevNil, h2.prevIn, h2.noParse⟩, h4, by simp [h3], ?_, ?_⟩
      · unfold propagateError; rw [if_pos (by simp [hp2, hp0]), h1]
      · simp [errorFetch, hp3, Err.clear, xrefLine, xrefMsg]
      · intro l; simp only [h5 l, hrep]; simp
      · intro k; simp only [h6 k, hrep]; simp
  obtain ⟨g1, ew1, k1, k2, k3, k4, k5, k6, k7, k8, k9⟩ := key
  obtain ⟨ew2, w1, w2, w3, w4, w5, w6⟩ := propagateWarns_inv line g1.warns ew1 k5
  refine ⟨⟨{ g1 with warns := [] }, ew2⟩, ?_, ?_⟩
  · simp [step, propagate, k1, w1]
  · refine ⟨?_, rfl, ?_, w2, ?_, ?_, ?_, ?_⟩
    · simpa [ErrRel, Spec.step] using k4
    · intro c hc'; simp only [k3, Spec.step]; exact hen c hc'
    · intro l
      simp only [Spec.step, w5 l, k8 l, hl l, List.filter_append, k2, hw]
    · intro k
      simp only [Spec.step, w6 k, k9 k, hc k, List.countP_append, k2, hw]
    · simp only [Spec.step, w3, k7, hec, List.countP_append]
      have : (List.map (Spec.warnReport line) t.warns).countP (fun e => decide (e.kind = .error)) = 0 := by
        rw [List.countP_eq_zero]; intro a ha
        obtain ⟨w, _, rfl⟩ := List.mem_map.mp ha; simp [Spec.warnReport]
      rw [this]
      cases t.error <;> simp [Spec.Pending.report]
    · simp only [Spec.step, w4, k6, hwc, List.countP_append, k2, hw]
      have : (List.map (Spec.warnReport line) t.warns).countP (fun e => decide (e.kind = .warning)) = t.warns.length := by
        rw [← List.length_map (f := Spec.warnReport line), List.countP_eq_length]; intro a ha
        obtain ⟨w, _, rfl⟩ := List.mem_map.mp ha; simp [Spec.warnReport]
      rw [this]
      cases t.error <;> simp [Spec.Pending.report]

theorem step_rel (s : State) (t : Spec.State) (op : Op) (hok : Spec.OpOk op) (h : Rel s t) :
    ∃ s', step s op = some s' ∧ Rel s' (Spec.step t op) := by
  cases op with
  | propagate l => exact propagate_rel s t l h
  | errorSet c m =>
    refine ⟨_, rfl, ?_⟩
    obtain ⟨herr, hw, hen, hinv, hl, hc, hec, hwc⟩ := h
    cases hte : t.error with
    | none =>
      simp only [ErrRel, hte] at herr
      refine ⟨?_, ?_, ?_, ?_, ?_, ?_, ?_, ?_⟩ <;>
        simp_all [Spec.step, errorSet, ErrRel, Spec.OpOk, eNone, xrefLine, xrefMsg]
    | some p =>
      simp only [ErrRel, hte] at herr
      obtain ⟨hp0, hp1, hp2, hp3⟩ := herr
      have : errorSet s.g c m = s.g := by simp [errorSet, hp2, hp0]
      rw [this]
      refine ⟨?_, ?_, ?_, ?_, ?_, ?_, ?_, ?_⟩ <;> simp_all [Spec.step, ErrRel]
  | errorSetXref l m =>
    refine ⟨_, rfl, ?_⟩
    obtain ⟨herr, hw, hen, hinv, hl, hc, hec, hwc⟩ := h
    cases hte : t.error with
    | none =>
      simp only [ErrRel, hte] at herr
      refine ⟨?_, ?_, ?_, ?_, ?_, ?_, ?_, ?_⟩ <;>
        simp_all [Spec.step, errorSetXref, ErrRel, Spec.OpOk, eNone, xrefLine, xrefMsg]
    | some p =>
      simp only [ErrRel, hte] at herr
      obtain ⟨hp0, hp1, hp2, hp3⟩ := herr
      have : errorSetXref s.g l m = s.g := by simp [errorSetXref, hp2, hp0]
      rw [this]
      refine ⟨?_, ?_, ?_, ?_, ?_, ?_, ?_, ?_⟩ <;> simp_all [Spec.step, ErrRel]
  | errorClear =>
    refine ⟨_, rfl, ?_⟩
    obtain ⟨herr, hw, hen, hinv, hl, hc, hec, hwc⟩ := h
    refine ⟨?_, ?_, ?_, ?_, ?_, ?_, ?_, ?_⟩ <;>
        simp_all [Spec.step, errorClear, Err.clear, ErrRel, xrefLine, xrefMsg]
  | warnSet c m =>
    refine ⟨_, rfl, ?_⟩
    obtain ⟨herr, hw, hen, hinv, hl, hc, hec, hwc⟩ := h
    have hcc : c < 64 := hok
    have hb := enabled_iff s.g.enabled c hcc
    have hb2 := hen c hcc
    unfold ErrRel at herr
    cases hbit : t.enabled c
    · have hz : (s.g.enabled &&& bit c) = 0 := hb.mpr (by rw [hb2, hbit])
      have : warnSet s.g c m = s.g := by simp only [warnSet, hz]; simp
      rw [this]
      refine ⟨?_, ?_, ?_, ?_, ?_, ?_, ?_, ?_⟩ <;> simp_all [Spec.step, ErrRel]
    · have hz : ¬ (s.g.enabled &&& bit c) = 0 := by rw [hb, hb2, hbit]; simp
      have : warnSet s.g c m = { s.g with warns := s.g.warns ++ [(c, m)] } := by
        simp only [warnSet, if_neg hz]
      rw [this]
      clear hz this hb
      refine ⟨?_, ?_, ?_, ?_, ?_, ?_, ?_, ?_⟩ <;> simp_all [Spec.step, ErrRel]
  | warnClear =>
    refine ⟨_, rfl, ?_⟩
    obtain ⟨herr, hw, hen, hinv, hl, hc, hec, hwc⟩ := h
    unfold ErrRel at herr
    refine ⟨?_, ?_, ?_, ?_, ?_, ?_, ?_, ?_⟩ <;> simp_all [Spec.step, warnClear, ErrRel]
  | enable c =>
    refine ⟨_, rfl, ?_⟩
    obtain ⟨herr, hw, hen, hinv, hl, hc, hec, hwc⟩ := h
    unfold ErrRel at herr
    refine ⟨?_, ?_, ?_, ?_, ?_, ?_, ?_, ?_⟩
    rotate_left 2
    · intro d hd
      simp only [warnEnable, Spec.step, BitVec.getLsbD_or, bit_one, hen d hd, hd]
      by_cases hdc : d = c <;> simp [hdc]
    all_goals simp_all [Spec.step, warnEnable, ErrRel]
  | disable c =>
    refine ⟨_, rfl, ?_⟩
    obtain ⟨herr, hw, hen, hinv, hl, hc, hec, hwc⟩ := h
    unfold ErrRel at herr
    refine ⟨?_, ?_, ?_, ?_, ?_, ?_, ?_, ?_⟩
    rotate_left 2
    · intro d hd
      simp only [warnDisable, Spec.step, BitVec.getLsbD_and, BitVec.getLsbD_not, bit_one, hen d hd, hd]
      by_cases hdc : d = c <;> simp [hdc]
    all_goals simp_all [Spec.step, warnDisable, ErrRel]
  | disableAll =>
    refine ⟨_, rfl, ?_⟩
    obtain ⟨herr, hw, hen, hinv, hl, hc, hec, hwc⟩ := h
    unfold ErrRel at herr
    refine ⟨?_, ?_, ?_, ?_, ?_, ?_, ?_, ?_⟩ <;> simp_all [Spec.step, warnDisableAll, ErrRel]

theorem run_rel (ops : List Op) : ∀ (s : State) (t : Spec.State), (∀ op ∈ ops, Spec.OpOk op) →
    Rel s t → ∃ s', run s ops = some s' ∧ Rel s' (Spec.run t ops) := by
  induction ops with
  | nil => intro s t _ h; exact ⟨s, rfl, h⟩
  | cons op ops ih =>
    intro s t hok h
    obtain ⟨s1, h1, h2⟩ := step_rel s t op (hok op (by simp)) h
    obtain ⟨s2, h3, h4⟩ := ih s1 (Spec.step t op) (fun o ho => hok o (by simp [ho])) h2
    exact ⟨s2, by simp [run, h1, h3], by simpa [Spec.run] using h4⟩

end Verif.Errwarn
