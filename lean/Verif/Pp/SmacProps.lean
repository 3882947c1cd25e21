import Verif.Pp.SmacMore
/-
C81: single-line macros.
-/
namespace Verif.Pp

/-- A line with single-line macros is handed on as what it stands for, if every call is whole where
    it stands: then the expansion ends, without a message, with that and with nothing else.  Missing
    for the full statement: calls whose name and arguments are not in the same body. -/
theorem smacros_expanded_partial (T : SMacs) (l r : List Tok) (h : Becomes T l r) :
    (∃ n, ∀ k, n ≤ k → expandSmacro T k l = .line r []) ∧
    ∀ k, expandSmacro T k l = .running ∨ expandSmacro T k l = .line r [] := by
  obtain ⟨n, hn⟩ := becomes_expand T h
  refine ⟨⟨n, hn⟩, fun k => ?_⟩
  by_cases hr : expandSmacro T k l = .running
  · exact Or.inl hr
  · right
    have h1 := expandAgain_mono T k [] [] l _ rfl hr (n + k) (by omega)
    have h2 := hn (n + k) (by omega)
    unfold expandSmacro at *
    rw [← h1, h2]

/-- There is no more than one line that a line stands for. -/
theorem meaning_unique (T : SMacs) (l r r' : List Tok) (h : Becomes T l r) (h' : Becomes T l r') : r = r' := by
  obtain ⟨⟨n, hn⟩, _⟩ := smacros_expanded_partial T l r h
  obtain ⟨⟨n', hn'⟩, _⟩ := smacros_expanded_partial T l r' h'
  have h1 := hn (n + n') (by omega)
  have h2 := hn' (n + n') (by omega)
  rw [h1] at h2
  cases h2; rfl

/-- Macros without parameters, however they refer to each other and to themselves, are expanded in
    every line: the loop ends, without a message and with no macro left in progress. -/
theorem plain_ends (N : Nat) (T : SMacs) (hT : Plain N T) (l : List Tok) :
    ∃ r, Expands T true [] l r ∧ ∃ n, ∀ k, n ≤ k → mainLoop T k ⟨[], l.map .tok, [], []⟩ = some (some ⟨[], [], r, []⟩) := by
  obtain ⟨r, hr⟩ := plain_expands N T hT N [] List.nodup_nil (by simp) (by simp) l true
  refine ⟨r, hr, ?_⟩
  have := mainLoop_turns T (by have := expands_turns T true [] l r hr [] [] [] (fun _ => rfl); simpa using this) rfl
  simpa using this

/-- And if no two names come to stand side by side, the line is handed on so. -/
theorem plain_expanded_partial (N : Nat) (T : SMacs) (hT : Plain N T) (l : List Tok)
    (h : ∀ r x, Expands T true [] l r → ¬ Joined r x true) : ∃ r, Becomes T l r := by
  obtain ⟨r, hr, _⟩ := plain_ends N T hT l
  obtain ⟨x, b, hj⟩ := joined_total _ r (Nat.le_refl _)
  cases b with
  | true => exact absurd hj (h r x hr)
  | false => exact ⟨_, .done l r x hr hj⟩

/-- In a line that is handed on no name stands beside another or before a number. -/
theorem names_apart (T : SMacs) (l r : List Tok) (h : Becomes T l r) : apart r = true := by
  induction h with
  | done l r x _ hj =>
    split
    · rfl
    · exact joined_apart hj
  | again l r x y _ _ _ ih => exact ih

/-! ## Samples -/

namespace SSample

/-- A name of one letter. -/
def nm (c : Nat) : Tok := ⟨.id, [c]⟩
/-- A number of one digit. -/
def one : Tok := ⟨.num, [49]⟩
/-- White space. -/
def sp : Tok := ⟨.white, [32]⟩

/-- `%define f(x) x+x`, `%define c 1`, `%define p f(`, `%define g(x,y) x+y`. -/
def T : SMacs where
  cands t := if t = nm 102 then [0] else if t = nm 99 then [1] else if t = nm 112 then [2] else if t = nm 103 then [3] else []
  mac m := match m with
    | 0 => ⟨1, [.param 0, .tok (sym 43), .param 0]⟩
    | 1 => ⟨0, [.tok one]⟩
    | 2 => ⟨0, [.tok (nm 102), .tok (sym 40)]⟩
    | _ => ⟨2, [.param 0, .tok (sym 43), .param 1]⟩

-- `f( c)` is `1+1`
example : Becomes T [nm 102, sym 40, sp, nm 99, sym 41] [one, sym 43, one] := by
  refine .done _ [one, sym 43, one] [one, sym 43, one] ?_ ?_
  · refine .call true [] (nm 102) [] [sp, nm 99, sym 41] [[nm 99]] [] [one, sym 43, one] [] 0 [] 0
      (by decide) rfl (by decide) (by intro t h; simp at h) ?_ rfl (by simp) ?_ (.nil _ _)
    · refine .last [sp, nm 99] [nm 99] [] ⟨[sp], [], ?_, ?_, rfl, by decide, ?_, ?_⟩
      · intro t h; simp at h; subst h; rfl
      · intro t h; simp at h
      · intro t h; simp at h; subst h; decide
      · intro t h; simp at h; subst h; decide
    · show Expands T false [0] [nm 99, sym 43, nm 99] [one, sym 43, one]
      have h1 : Expands T false [1, 0] [one] [one] := .other _ _ _ _ _ (Or.inr rfl) (.nil _ _)
      refine .simple false [0] (nm 99) [sym 43, nm 99] [one] [sym 43, one] 1 [] (by decide) rfl rfl (by decide) (by decide) h1 ?_
      refine .other _ _ _ _ _ (Or.inr rfl) ?_
      exact .simple false [0] (nm 99) [] [one] [] 1 [] (by decide) rfl rfl (by decide) (by decide) h1 (.nil _ _)
  · refine .keep _ _ _ _ _ (by intro h; simp [Tok.word, one] at h) ?_
    refine .keep _ _ _ _ _ (by intro h; simp [Tok.word, sym] at h) ?_
    exact .lone _

-- `%define a b`, `%define b a`: they end
example : Plain 2 ⟨fun t => if t = nm 97 then [0] else if t = nm 98 then [1] else [],
    fun m => if m = 0 then ⟨0, [.tok (nm 98)]⟩ else ⟨0, [.tok (nm 97)]⟩⟩ := by
  intro t m h
  simp only at h
  split at h
  · simp at h; subst h; exact ⟨by omega, rfl⟩
  · split at h
    · simp at h; subst h; exact ⟨by omega, rfl⟩
    · simp at h

/-- An argument is not expanded before it is put into the body, where its own macro is not one any
    more: `f(f(1))` is `f(1)+f(1)`. -/
theorem inner_call_kept :
    expandSmacro T 60 [nm 102, sym 40, nm 102, sym 40, one, sym 41, sym 41] =
      .line [nm 102, sym 40, one, sym 41, sym 43, nm 102, sym 40, one, sym 41] [] := by decide +kernel

/-- An argument in braces with another after it is reported: `g({c},c)`. -/
theorem braces_reported :
    expandSmacro T 60 [nm 103, sym 40, sym 123, nm 99, sym 125, sym 44, nm 99, sym 41] =
      .line [one, sym 43, one] [.braces] := by decide +kernel

/-- A call whose parenthesis is opened in another macro reads a token that has been given back:
    `p c)`. -/
theorem opened_elsewhere_freed : expandSmacro T 60 [nm 112, nm 99, sym 41] = .freed := by decide +kernel

/-- A call without a closing parenthesis is reported and expanded. -/
theorem unclosed_reported :
    expandSmacro T 60 [nm 102, sym 40, nm 99] = .line [one, sym 43, one] [.unclosed] := by decide +kernel

/-- A call with another number of arguments stays and is reported. -/
theorem count_reported :
    expandSmacro T 60 [nm 102, sym 40, nm 99, sym 44, nm 99, sym 41] =
      .line [nm 102, sym 40, one, sym 44, one, sym 41] [.count] := by decide +kernel

/-- The name of a macro `aa`. -/
def aa : Tok := ⟨.id, [97, 97]⟩

/-- `%define aa a %+ a`. -/
def L : SMacs where
  cands t := if t = aa then [0] else []
  mac _ := ⟨0, [.tok (nm 97), .tok sp, .tok ⟨.ppid, [37, 43]⟩, .tok sp, .tok (nm 97)]⟩

/-- The expansion of `aa` never ends: its body is joined to `aa` again, and by then it is not in
    progress. -/
theorem joined_for_ever (n : Nat) : expandSmacro L n [aa] = .running := by
  unfold expandSmacro
  induction n with
  | zero => rfl
  | succ n ih =>
    rw [expandAgain]
    have h8 : mainLoop L 8 ⟨[], [aa].map .tok, [], []⟩ =
        some (some ⟨[], [], [nm 97, sp, ⟨.ppid, [37, 43]⟩, sp, nm 97], []⟩) := by decide +kernel
    cases hm : mainLoop L n ⟨[], [aa].map .tok, [], []⟩ with
    | none => rfl
    | some y =>
      have e1 := mainLoop_mono L n _ y hm (n + 8) (by omega)
      have e2 := mainLoop_mono L 8 _ _ h8 (n + 8) (by omega)
      rw [e1] at e2
      cases e2
      have hg : glue 5 [nm 97, sp, ⟨.ppid, [37, 43]⟩, sp, nm 97] = ([aa], true) := by decide +kernel
      simp only [List.length_cons, List.length_nil, Nat.zero_add, Nat.reduceAdd, hg, ↓reduceIte]
      exact ih

end SSample

end Verif.Pp
