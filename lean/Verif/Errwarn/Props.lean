/-
Property theorems about diagnostics (C03, C04, C42).
-/
import Verif.Errwarn.Lemmas

namespace Verif.Errwarn

/-- C03, order (all histories, parser errors included): collecting diagnostics always terminates and
    the collected list is in nondecreasing line order. -/
theorem diagnostics_sorted (ops : List Op) :
    ∃ s, run State.init ops = some s ∧ s.ew.entries.Pairwise (fun a b => a.line ≤ b.line) := by
  obtain ⟨s, h1, h2⟩ := run_inv0 ops State.init
    ⟨List.Pairwise.nil, fun _ => rfl, fun h => absurd rfl h⟩
  exact ⟨s, h1, h2.sorted⟩

/-- C03, content (histories without YASM_ERROR_PARSE errors; `parse_error_moves_report` below shows
    why they are excluded): for every line, the collected diagnostics of that line are exactly the
    reports made for it, in the order they were made, and the counters are exact.
    Missing for the full property: histories with PARSE errors, for which the clause "no report is
    moved to another line" is false. -/
theorem diagnostics_complete_partial (ops : List Op) (hok : ∀ op ∈ ops, Spec.OpOk op) :
    ∃ s, run State.init ops = some s ∧
      let reports := (Spec.run Spec.init ops).reports
      (∀ l, s.ew.entries.filter (fun e => e.line = l) = reports.filter (fun e => e.line = l)) ∧
      numErrors s.ew false = reports.countP (fun e => e.kind = .error) ∧
      numErrors s.ew true = reports.length := by
  obtain ⟨s, h1, h2⟩ := run_rel ops State.init Spec.init hok init_rel
  refine ⟨s, h1, h2.lines, h2.ecount, ?_⟩
  simp only [numErrors, if_true]
  rw [h2.ecount, h2.wcount]
  have hall : ∀ e ∈ (Spec.run Spec.init ops).reports, e.kind ≠ .parserError := by
    intro e he hk
    have := h2.counts .parserError
    have h0 : s.ew.entries.countP (fun e => decide (e.kind = .parserError)) = 0 := by
      rw [List.countP_eq_zero]; intro a ha; simpa using h2.inv.noParse a ha
    rw [h0, eq_comm, List.countP_eq_zero] at this
    exact absurd hk (by simpa using this e he)
  generalize (Spec.run Spec.init ops).reports = rs at hall
  clear h1 h2
  induction rs with
  | nil => rfl
  | cons r rs ih =>
    have := ih (fun e he => hall e (by simp [he]))
    have hr := hall r (by simp)
    simp only [List.countP_cons, List.length_cons]
    cases hk : r.kind <;> simp_all <;> omega

/-- A history with out-of-order lines, a disabled warning class, a suppressed second error and a
    cross reference; it meets the hypotheses above. -/
def demo : List Op :=
  [.errorSet eSyntax "a", .propagate 7, .warnSet 1 "w", .warnSet 4 "off", .propagate 3,
   .errorSetXref 2 "see", .errorSet eValue "b", .errorSet eType "c", .warnSet 2 "x", .propagate 3,
   .enable 4, .warnSet 4 "on", .propagate 9, .errorSet eGeneral "g", .propagate 1]

example : ∀ op ∈ demo, Spec.OpOk op := by
  simp [demo, Spec.OpOk, Spec.NotParse, eSyntax, eNone, eGeneral, eParse, eValue, eType]

example : (run State.init demo).map (fun s => s.ew.entries.map (fun e => (e.line, e.msg))) =
    some [(1, some "g"), (3, some "w"), (3, some "b"), (3, some "x"), (7, some "a"),
      (9, some "on")] := by decide

/-- The clause of C03 that fails: an error reported for line 5 after a PARSE error on line 2
    replaces it and is itself reported as being on line 2. -/
theorem parse_error_moves_report :
    (run State.init [.errorSet eParse "p", .propagate 2, .errorSet eValue "v", .propagate 5]).map
      (fun s => (s.ew.entries.map (fun e => (e.line, e.msg)), s.ew.ecount)) =
    some ([(2, some "v")], 2) := by decide

/-- What is printed: every collected diagnostic once, in list order (the extra "warnings being
    treated as errors" notice aside). -/
theorem output_all_in_order (es : List Entry) (w : Nat) :
    (outputAll es w).filter (fun p => match p with | .warningsAsErrors _ => false | _ => true) =
      es.map (fun e => if e.kind = .warning then .warning e.line e.msg
        else .error e.line e.msg e.xrefline e.xrefmsg) := by
  induction es generalizing w with
  | nil => rfl
  | cons e es ih =>
    unfold outputAll
    cases hk : e.kind <;> simp [ih, hk]
    split <;> simp [List.filter_cons, ih]

/-- The notice is printed at most once, and exactly when warnings are treated as errors and there is
    a warning. -/
theorem output_all_notice (es : List Entry) (w : Nat) (hw : w = 0 ∨ w = 1) :
    ((outputAll es w).filter (fun p => match p with | .warningsAsErrors _ => true | _ => false)).length =
      if w = 1 ∧ ∃ e ∈ es, e.kind = .warning then 1 else 0 := by
  have h2 : ∀ (es : List Entry) w, w = 0 ∨ w = 2 → (outputAll es w).filter
      (fun p => match p with | .warningsAsErrors _ => true | _ => false) = [] := by
    intro es
    induction es with
    | nil => intros; rfl
    | cons e es ih =>
      intro w hw
      unfold outputAll
      rw [if_neg (by omega)]
      cases hk : e.kind <;> simp [ih w hw]
  rcases hw with rfl | rfl
  · simp [h2 es 0 (Or.inl rfl)]
  · induction es with
    | nil => rfl
    | cons e es ih =>
      unfold outputAll
      cases hk : e.kind
      · simp only [List.filter_cons, List.mem_cons, exists_eq_or_imp, hk]
        simpa using ih
      · simp [List.filter_cons, h2 es 2 (Or.inr rfl), hk]
      · simp only [List.filter_cons, List.mem_cons, exists_eq_or_imp, hk]
        simpa using ih

/-- C04, errors: after any history of calls without clear or propagate starting with a successful
    set, fetching yields the class and message of the first error set and clears the indicator. -/
theorem first_error_wins (g : Global) (c : EClass) (m : String) (ops : List Op) (s : State)
    (hg : g.err.eclass = eNone) (hc : c ≠ eNone)
    (hops : ∀ op ∈ ops, op ≠ .errorClear ∧ ∀ l, op ≠ .propagate l)
    (hrun : run ⟨errorSet g c m, s.ew⟩ ops = some s) :
    (errorFetch s.g).1.eclass = c ∧ (errorFetch s.g).1.estr = some m ∧
      errorMatches (errorFetch s.g).2 eNone = true := by
  have key : ∀ (ops : List Op) (t : State), (∀ op ∈ ops, op ≠ .errorClear ∧ ∀ l, op ≠ .propagate l) →
      t.g.err.eclass = c → t.g.err.estr = some m → ∀ s, run t ops = some s →
      s.g.err.eclass = c ∧ s.g.err.estr = some m := by
    intro ops
    induction ops with
    | nil => intro t _ h1 h2 s hs; cases hs; exact ⟨h1, h2⟩
    | cons op ops ih =>
      intro t ho h1 h2 s hs
      simp only [run, Option.bind_eq_some_iff] at hs
      obtain ⟨t1, ht1, ht2⟩ := hs
      refine ih t1 (fun o h => ho o (by simp [h])) ?_ ?_ s ht2
      all_goals
        have hop := ho op (by simp)
        cases op <;> simp only [step, Option.some.injEq] at ht1 <;> first
          | (subst ht1; simp [errorSet, errorSetXref, warnSet, warnClear, warnEnable, warnDisable,
              warnDisableAll, h1, h2, hc] ; done)
          | (subst ht1; simp only [warnSet]; split <;> simp [h1, h2]; done)
          | exact absurd rfl hop.1
          | exact absurd rfl (hop.2 _)
  have h := key ops ⟨errorSet g c m, s.ew⟩ hops (by simp [errorSet, hg]) (by simp [errorSet, hg]) s hrun
  exact ⟨h.1, h.2, rfl⟩

example : (run ⟨errorSet Global.init eValue "first", Errwarns.create⟩
    [.errorSet eType "second", .warnSet 1 "w", .errorSetXref 4 "x", .disable 1]).map
      (fun s => (errorFetch s.g).1) = some ⟨eValue, some "first", 0, none⟩ := by decide

/-- Calls that touch only the warning queue. -/
inductive WOp
  | set (c : WClass) (m : String)
  | fetch
  | enable (c : WClass)
  | disable (c : WClass)
  | disableAll

/-- Run warning calls, collecting what the fetch calls return. -/
def wrun (g : Global) : List WOp → List (WClass × String) × Global
  | [] => ([], g)
  | .set c m :: ops => wrun (warnSet g c m) ops
  | .fetch :: ops =>
    let r := warnFetch g
    let rest := wrun r.2 ops
    (r.1.toList ++ rest.1, rest.2)
  | .enable c :: ops => wrun (warnEnable g c) ops
  | .disable c :: ops => wrun (warnDisable g c) ops
  | .disableAll :: ops => wrun (warnDisableAll g) ops

/-- Specification: the warnings whose class is enabled at the time they are raised. -/
def enabledWarnings (en : WClass → Bool) : List WOp → List (WClass × String)
  | [] => []
  | .set c m :: ops => (if en c then [(c, m)] else []) ++ enabledWarnings en ops
  | .fetch :: ops => enabledWarnings en ops
  | .enable c :: ops => enabledWarnings (fun d => d = c || en d) ops
  | .disable c :: ops => enabledWarnings (fun d => !(d = c) && en d) ops
  | .disableAll :: ops => enabledWarnings (fun _ => false) ops

def WOp.ok : WOp → Prop
  | .set c _ | .enable c | .disable c => c < 64
  | _ => True

/-- C04, warnings: what has been fetched followed by what is still queued is exactly the enabled
    warnings, each once, in the order they were raised. -/
theorem warnings_fifo (ops : List WOp) (g : Global) (en : WClass → Bool)
    (hen : ∀ c, c < 64 → g.enabled.getLsbD c = en c) (hok : ∀ op ∈ ops, op.ok) :
    (wrun g ops).1 ++ (wrun g ops).2.warns = g.warns ++ enabledWarnings en ops := by
  induction ops generalizing g en with
  | nil => simp [wrun, enabledWarnings]
  | cons op ops ih =>
    have hok' : ∀ o ∈ ops, o.ok := fun o h => hok o (by simp [h])
    have ho := hok op (by simp)
    cases op with
    | set c m =>
      have hc : c < 64 := ho
      have hb := enabled_iff g.enabled c hc
      simp only [wrun, enabledWarnings]
      rw [ih (warnSet g c m) en (by simp only [warnSet]; split <;> exact hen) hok']
      by_cases h : (g.enabled &&& bit c) = 0
      · have : en c = false := by rw [← hen c hc]; exact hb.mp h
        simp [warnSet, h, this]
      · have : en c = true := by
          rw [← hen c hc]; rw [hb] at h; simpa using h
        have hw : warnSet g c m = { g with warns := g.warns ++ [(c, m)] } := by
          simp only [warnSet, if_neg h]
        simp [hw, this]
    | fetch =>
      simp only [wrun, enabledWarnings]
      unfold warnFetch
      cases hw : g.warns with
      | nil =>
        have := ih g en hen hok'
        rw [hw] at this
        simpa using this
      | cons w ws =>
        have := ih { g with warns := ws } en hen hok'
        simp only [Option.toList_some, List.cons_append, List.nil_append]
        rw [this]
    | enable c =>
      simp only [wrun, enabledWarnings]
      refine ih (warnEnable g c) _ ?_ hok'
      intro d hd
      simp only [warnEnable, BitVec.getLsbD_or, bit_one, hen d hd, hd]
      by_cases hdc : d = c <;> simp [hdc]
    | disable c =>
      simp only [wrun, enabledWarnings]
      refine ih (warnDisable g c) _ ?_ hok'
      intro d hd
      simp only [warnDisable, BitVec.getLsbD_and, BitVec.getLsbD_not, bit_one, hen d hd, hd]
      by_cases hdc : d = c <;> simp [hdc]
    | disableAll =>
      simp only [wrun, enabledWarnings]
      exact ih (warnDisableAll g) _ (by intro d _; simp [warnDisableAll]) hok'

example : (wrun Global.init [.set 1 "a", .set 4 "off", .fetch, .enable 4, .set 4 "b", .disable 1,
    .set 1 "off", .set 2 "c", .fetch]).1 = [(1, "a"), (4, "b")] := by decide

/-- C42, first half: a pending specific error matches exactly the classes all of whose bits it has. -/
theorem errorMatches_subclass (g : Global) (c : EClass) (h0 : g.err.eclass ≠ eNone)
    (h1 : g.err.eclass ≠ eGeneral) :
    errorMatches g c = true ↔ ∀ i, c.testBit i = true → g.err.eclass.testBit i = true := by
  unfold errorMatches
  rw [if_neg h0, if_neg h1, beq_iff_eq]
  constructor
  · intro h i hi
    have := congrArg (fun n => Nat.testBit n i) h
    simp only [Nat.testBit_and, hi] at this
    simpa using this
  · intro h
    apply Nat.eq_of_testBit_eq
    intro i
    rw [Nat.testBit_and]
    cases hc : c.testBit i
    · simp
    · simp [h i hc]

example : errorMatches (errorSet .init eOverflow "o") eArithmetic = true ∧
    errorMatches (errorSet .init eOverflow "o") eValue = false := by decide

/-- C42 as documented is false: errwarn.h says that checking against YASM_ERROR_GENERAL tells
    whether any error is set.  No error of a specific documented class matches it. -/
theorem errorMatches_general_wrong :
    ∀ c ∈ [eArithmetic, eOverflow, eFloatingPoint, eZeroDivision, eAssertion, eValue, eNotAbsolute,
      eTooComplex, eNotConstant, eIO, eNotImplemented, eType, eSyntax, eParse],
    errorMatches (errorSet .init c "e") eGeneral = false := by decide

/-- ... and a pending specific error "matches" YASM_ERROR_NONE. -/
theorem errorMatches_none_wrong : errorMatches (errorSet .init eValue "e") eNone = true := by decide

end Verif.Errwarn
