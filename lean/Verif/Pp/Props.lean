import Verif.Pp.Exec
import Verif.Pp.Unique
import Verif.Pp.Lookup
import Verif.Pp.Sample
/-
C77: conditionals and `%rep` blocks.  C78: multi-line macros.
-/
namespace Verif.Pp

variable {S : Sig}

/-! ## The table of directives -/

/-- A word is taken for a directive exactly if it is one of the names of the table, compared
    without case (`%arg`, `%local` and `%stacksize` belong to another mode), and then for that
    one. -/
theorem look_exact (w : Name) (k : Nat) :
    look w = ⟨some k, true⟩ ↔
      ∃ d, directives[k]? = some d ∧ d ∉ [directives[0], directives[52], directives[60]] ∧
        w.map lower = d.map lower := by
  have hne : ∀ k < 66, (k ≠ ppArg ∧ k ≠ ppLocal ∧ k ≠ ppStacksize) ↔
      entry k ∉ [directives[0], directives[52], directives[60]] := by decide +kernel
  constructor
  · intro h
    rcases look_end w with ⟨k', hk, he, ⟨a, b, c, e⟩ | ⟨_, e⟩⟩ | ⟨p, hp, _⟩
    · rw [h] at e; injection e with e _; injection e with e; subst e
      exact ⟨entry k, entry_get hk, (hne k hk).1 ⟨a, b, c⟩, (stricmp_eq_iff _ _).1 he⟩
    · rw [h] at e; cases e
    · rw [h] at hp; injection hp with _ hp; cases hp
  · rintro ⟨d, h1, h2, h3⟩
    obtain ⟨hk, e⟩ := entry_of h1
    subst e
    have h3 := (stricmp_eq_iff _ _).2 h3
    have hx := (hne k hk).2 h2
    rcases look_end w with ⟨k', hk', he, ⟨_, _, _, e⟩ | ⟨hy, _⟩⟩ | ⟨p, _, hp⟩
    · rw [e, entry_inj hk' hk he h3]
    · have := entry_inj hk' hk he h3; subst this
      rcases hy with hy | hy | hy
      · exact absurd hy hx.1
      · exact absurd hy hx.2.1
      · exact absurd hy hx.2.2
    · by_cases hkp : k < p
      · have := hp.2.2.1 k hkp; rw [h3] at this; cases this
      · have := hp.2.2.2 k hk (by omega); rw [h3] at this; cases this

example : look [37, 73, 70] = ⟨some 31, true⟩ := by decide +kernel      -- `%IF`

/-! ## What comes out of a file -/

/-- The program run on the lines of a block that has a meaning gives exactly what the block stands
    for, and ends without an error. -/
theorem blocks_executed_partial (hL : Lawful S) (u : S.User) (b : Block S.Line) (hok : b.ok S true false)
    (n : Nat) (es : List (Event S)) (e' : Env S) (h : exec n b (Env.start u) = some (es, e', false)) :
    (∃ k, run k (start u b.lines) = (es, .inr .done)) ∧
    ∀ k es' r, run k (start u b.lines) = (es', .inr r) → es' = es ∧ r = .done := by
  have key : ∃ k, run k (start u b.lines) = (es, .inr .done) := by
    have hR : Rel (S := S) [] [] (Env.start u) (start u b.lines) :=
      ⟨rfl, rfl, by simp [Env.start], rfl, by simp [start, Env.start], by simp [Env.start],
        by simp [Env.start], rfl, rfl, rfl, rfl, by simp, rfl, rfl, rfl⟩
    obtain ⟨m', ⟨k, hk⟩, hR', hi, _⟩ := (sim hL n).1 b _ es e' false h true none [] [] (start u b.lines) []
      hok hR rfl rfl (by simp [start]) (by intro id hid; cases hid)
    refine ⟨k + 1, ?_⟩
    rw [run_add k 1 _ _ _ hk]
    have hs : step m' = .stop [] .done := by
      unfold step
      rw [hi]
      simp [hR'.conds, hR'.undef]
    simp [run, hs]
  refine ⟨key, ?_⟩
  obtain ⟨k, hk⟩ := key
  intro k' es' r h'
  exact run_unique k' k _ h' hk

section example_file
open Sample

/-- A macro with two parameters that rotates them, repeated, and a conditional:

    `%macro m 2` / `  %1 a %2` / `%rotate 1` / `  b %1 %%x` / `%endmacro`
    `%rep 2` / `m p , { q , r }` / `%if 0` / `c` / `%elif 1` / `d` / `%else` / `e` / `%endif` / `%endrep` -/
def file : Block T.Line :=
  .macro (MACRO 'm' 2 [])
    (.text [ws, pp ['1'], ws, id' ['a'], ws, pp ['2']]
    (.rotate (ROTATE 1)
    (.text [id' ['b'], ws, pp ['1'], ws, pp ['%', 'x']] .nil))) ENDMACRO
  (.rep (REP 2)
    (.text [id' ['m'], ws, id' ['p'], ws, ot ',', ws, ot '{', id' ['q'], ot ',', id' ['r'], ot '}']
    (.cond (IF [num 0]) (.text (say 'c') .nil)
      (.elif (ELIF [num 1]) (.text (say 'd') .nil) (.els ELSE (.text (say 'e') .nil) ENDIF)) .nil))
    ENDREP .nil)

theorem file_ok : file.ok T true false = true := by decide +kernel

/-- What it stands for. -/
theorem file_means : (exec 20 file (Env.start (S := T) (0 : Nat))).map (fun r => (texts r.1, r.2.2)) =
    some ([
      some [ws, id' ['p'], ws, id' ['a'], ws, id' ['q'], ot ',', id' ['r']],
      some [id' ['b'], ws, id' ['q'], ot ',', id' ['r'], ws, id' ['.', '.', '@', '0', '.', 'x']],
      some (say 'd'),
      some [ws, id' ['p'], ws, id' ['a'], ws, id' ['q'], ot ',', id' ['r']],
      some [id' ['b'], ws, id' ['q'], ot ',', id' ['r'], ws, id' ['.', '.', '@', '1', '.', 'x']],
      some (say 'd')], false) := by decide +kernel

/-- So the hypotheses of `blocks_executed_partial` are met. -/
example : ∃ es e', exec 20 file (Env.start (S := T) (0 : Nat)) = some (es, e', false) ∧ es.length = 6 := by
  have h := file_means
  cases hx : exec 20 file (Env.start (S := T) (0 : Nat)) with
  | none => rw [hx] at h; cases h
  | some r =>
    rw [hx] at h
    obtain ⟨es, e', ex⟩ := r
    simp only [Option.map_some, Option.some.injEq, Prod.mk.injEq] at h
    obtain ⟨h1, rfl⟩ := h
    refine ⟨es, e', rfl, ?_⟩
    have := congrArg List.length h1
    simpa [texts] using this

end example_file

/-! ## Errors of structure -/

/-- A branch or an end without an `%if` stops the assembler. -/
theorem orphan_fatal (hL : Lawful S) (m : M S) (l : S.Line) (rest : List (Item S)) (i : Nat)
    (hk : kind S l = some i) (hi : ppElif ≤ i ∧ i ≤ ppEndif) (hd : m.defining = none) (hc : m.conds = [])
    (hit : m.items = .line l :: rest) : step m = .stop [] .fatal := by
  have hw : ∃ w, S.word l = some w ∧ look w = ⟨some i, true⟩ := by
    unfold kind at hk
    split at hk
    · cases hk
    · rename_i w hw
      split at hk
      · rename_i hf
        refine ⟨w, hw, ?_⟩
        cases hx : look w with
        | mk a b => rw [hx] at hf hk; simp at hf hk; rw [hf, hk]
      · cases hk
  obtain ⟨w, hw, hlk⟩ := hw
  have hlive : m.live = true := by unfold M.live; rw [hc]
  unfold step
  rw [hit]
  simp only [doLine]
  have hcur : S.word (cur { m with items := rest } l) = some w := by
    unfold cur
    split
    · rw [hL.subst_word _ _ _ hk, hw]
    · exact hw
  have hcond : isCond (some i) = true := by
    unfold isCond; simp [hi.1, hi.2]
  have hdir : ∀ x, S.word x = some w → directive { m with items := rest } x = .fatal := by
    intro x hx
    unfold directive
    rw [hx]
    simp only [hlk, hcond, Bool.not_true, Bool.and_false, Bool.false_eq_true, ↓reduceIte, hd]
    unfold doSwitch
    have a1 : ¬ (ppIf ≤ i ∧ i ≤ ppIfstr) := by
      unfold ppElif ppEndif ppIf ppIfstr at *; omega
    rw [if_neg a1]
    by_cases a2 : ppElif ≤ i ∧ i ≤ ppElifstr
    · rw [if_pos a2]; unfold doElif; simp [hc]
    · rw [if_neg a2]
      by_cases a3 : i = ppElse
      · rw [if_pos a3]; unfold doElse; simp [hc]
      · rw [if_neg a3]
        have a4 : i = ppEndif := by
          unfold ppElif ppEndif ppElifstr ppElse at *; omega
        rw [if_pos a4]; unfold doEndif; simp [hc]
  rw [hdir _ hcur]
  rfl

open Sample in
example : result 1 [ELSE] = ([], some .fatal) := by decide +kernel

/-- A file that ends inside a branch that is being assembled stops the assembler. -/
theorem unclosed_fatal_partial (m : M S) (hi : m.items = []) (hc : m.conds ≠ []) (hl : m.live) :
    step m = .stop [] .fatal := by
  unfold step; rw [hi]; simp [hc, hl]

section wrong
open Sample

/-- … but in a branch that is skipped the rest of the file is dropped without a word. -/
theorem unclosed_silent : result 5 [IF [num 0], say 'a', say 'b'] = ([], some .done) := by decide +kernel

/-- A condition with an error in it after `%elif` is not reported, and the branch after `%else` is
    skipped too; after `%if` it is reported. -/
theorem elif_error_silent :
    result 9 [IF [num 0], ELIF [], say 'a', ELSE, say 'b', ENDIF] = ([], some .done) ∧
    result 9 [IF [], say 'a', ELSE, say 'b', ENDIF] = ([none], some .done) := by
  constructor <;> decide +kernel

/-- A second `%else` is accepted, and assembled after the first branch was. -/
theorem second_else_assembled :
    result 9 [IF [num 1], say 'a', ELSE, say 'b', ELSE, say 'c', ENDIF] =
      ([some (say 'a'), some (say 'c')], some .done) := by decide +kernel

/-- So is `%elif` after `%else`. -/
theorem elif_after_else_assembled :
    result 9 [IF [num 1], say 'a', ELSE, say 'b', ELIF [num 1], say 'c', ENDIF] =
      ([some (say 'a'), some (say 'c')], some .done) := by decide +kernel

/-- Within a part that is skipped a second `%else` turns assembling on. -/
theorem skipped_else_assembled :
    result 9 [IF [num 0], IF [num 1], say 'a', ELSE, ELSE, say 'b', ENDIF, ENDIF] =
      ([some (say 'b')], some .done) := by decide +kernel

/-- The count of `%rep` is cut to 32 bits: 2³² + 1 times is once. -/
theorem rep_count_truncated :
    result 9 [REP 4294967297, say 'a', ENDREP] = ([some (say 'a')], some .done) := by decide +kernel

/-- After `%exitrep` the conditions in the rest of the block are still evaluated. -/
theorem exitrep_still_evaluates :
    result 12 [REP 2, EXITREP, IF [], ENDIF, ENDREP] = ([none], some .done) := by decide +kernel

/-- `%repeat`, which is no directive, counts as a `%rep` in a `%rep` block, whose `%endrep` is then
    missing. -/
theorem unknown_word_opens_rep :
    result 12 [REP 2, [pp ['r', 'e', 'p', 'e', 'a', 't']], ENDREP, say 'a'] = ([none], some .done) := by
  decide +kernel

/-- `%endm` in a `%rep` block crashes the assembler. -/
theorem endm_in_rep_crashes : result 12 [REP 2, ENDM, ENDREP] = ([], some .crash) := by decide +kernel

end wrong

/-! ## Macros -/

/-- Of the parameters of a call the first are those given, and the others the default ones. -/
theorem params_given {P : Type} (h : Head P) (ps : List P) (i : Nat) (h0 : 0 ≤ h.min)
    (hn : h.min ≤ ps.length) (hi : (i : Int) < h.max ∨ h.plus = false) :
    (fullParams h ps)[i]? = if i < ps.length then ps[i]? else h.defaults[i - h.min.toNat]? := by
  have e : (ps ++ h.defaults.drop ((ps.length : Int) - h.min).toNat)[i]? =
      if i < ps.length then ps[i]? else h.defaults[i - h.min.toNat]? := by
    rw [List.getElem?_append]
    split
    · rfl
    · rw [List.getElem?_drop]; congr 1; omega
  unfold fullParams
  simp only
  split
  · rename_i hp
    rw [List.getElem?_take]
    have : i < h.max.toNat := by
      rcases hi with hi | hi
      · omega
      · rw [hi] at hp; simp at hp
    rw [if_pos this]; exact e
  · exact e

example : fullParams (P := Nat) ⟨[], true, 1, 3, false, [8, 9]⟩ [5] = [5, 8, 9] := by decide

/-- Every call that is begun gets the number the counter has, which is then higher, and no other
    step adds a number. -/
theorem call_numbered (m m' : M S) (es) (h : step m = .next es m') :
    (m'.unique = m.unique ∧ ∀ u ∈ m'.numbers, u ∈ m.numbers) ∨
    (m'.unique = m.unique + 1 ∧ ∀ u ∈ m'.numbers, u = m.unique ∨ u ∈ m.numbers) := step_number h

/-- So the number of a call is lower than the counter, and no call gets the number of an earlier
    one. -/
theorem call_numbers_fresh (u : S.User) (ls : List S.Line) (k : Nat) (es m)
    (h : run k (start u ls) = (es, .inl m)) : ∀ n ∈ m.numbers, n < m.unique :=
  (run_below k _ h (by simp [start, M.numbers, stackNumbers])).2

section wrong
open Sample

/-- A macro defined within a macro and ended by `%endm` ends the outer one. -/
theorem endm_ends_outer :
    result 12 [MACRO 'm' 0 [], MACRO 'n' 0 [], say 'a', ENDM, say 'b', ENDM] =
      ([some (say 'b'), none], some .done) := by decide +kernel

/-- … and the `%endmacro` of the next macro is not its end. -/
theorem endm_breaks_later :
    result 20 [MACRO 'm' 0 [], MACRO 'n' 0 [], ENDM, MACRO 'p' 0 [], say 'a', ENDMACRO, say 'b'] =
      ([none], some .done) := by decide +kernel

/-- A word that is no directive, such as `%note`, counts as `%macro` within a macro. -/
theorem unknown_word_opens_macro :
    result 20 [MACRO 'm' 0 [], [pp ['n', 'o', 't', 'e']], ENDMACRO, say 'b'] = ([none], some .done) := by
  decide +kernel

/-- `%clear` in a macro uses the memory of the macro after it was given back. -/
theorem clear_in_macro_crashes :
    result 20 [MACRO 'm' 0 [], CLEAR, ENDMACRO, call 'm'] = ([], some .crash) := by decide +kernel

end wrong

end Verif.Pp
