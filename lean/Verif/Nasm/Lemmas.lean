import Verif.Nasm.Spec
import Mathlib.Tactic.Ring
/-
Lemmas: the parser's state after the statements so far.
-/
namespace Verif.Nasm

theorem head_ne {n : Name} {c : Char} {r : List Char} {x : Char} (h : n.head? ≠ some x) (e : n = c :: r) : c ≠ x := by
  intro hc; apply h; rw [e, hc]; rfl

theorem dot_loc (base : Option Name) (t : List Char) (h : t.head? ≠ some '.') :
    dot base ('.' :: t) = .name .loc (base.getD [] ++ '.' :: t) := by
  unfold dot
  split
  · rename_i hs; injection hs with _ hs; rw [hs] at h; exact absurd rfl h
  · rename_i hs; injection hs with _ hs; rw [hs] at h; exact absurd rfl h
  · cases base <;> rfl

theorem dot_special (base : Option Name) (t : List Char) : ∃ k, k ≠ Kind.id ∧ dot base ('.' :: '.' :: t) = .name k ('.' :: '.' :: t) := by
  unfold dot
  split
  · exact ⟨.nonlocal, by decide, rfl⟩
  · exact ⟨.special, by decide, rfl⟩
  · rename_i h1 h2; exact absurd rfl (h2 _ _)

theorem lexWord_plain (keyword : Name → Bool) (base : Option Name) (n : Name) (h : Word.Ok keyword (.plain n)) :
    lexWord keyword base n = .name .id n := by
  obtain ⟨h1, h2, h3, h4, h5⟩ := h
  unfold lexWord
  split
  · exact absurd rfl h3
  · exact absurd rfl h5
  · exact absurd rfl h4
  · rw [h1]; rfl

/-- A word gives its full name, and is an ordinary identifier if it is meant to be one. -/
theorem lexWord_word (keyword : Name → Bool) (base : Option Name) (w : Word) (h : w.Ok keyword) :
    ∃ k, lexWord keyword base w.text = .name k (w.full base) ∧ (k = .id ↔ w.ordinary = true) := by
  cases w with
  | plain n => exact ⟨.id, lexWord_plain keyword base n h, by simp [Word.ordinary]⟩
  | forced n =>
    obtain ⟨h1, h2, h3⟩ := h
    cases n with
    | nil => exact absurd rfl h1
    | cons c r =>
      refine ⟨.id, ?_, by simp [Word.ordinary]⟩
      have hd := h3 c rfl
      have hc : c ≠ '.' := head_ne h2 rfl
      simp only [Word.text, lexWord, hd, Bool.false_and, Bool.false_eq_true, if_false, if_neg hc, Word.full]
  | loc t =>
    obtain ⟨h1, h2⟩ := h
    cases t with
    | nil => exact absurd rfl h1
    | cons c r =>
      refine ⟨.loc, ?_, by simp [Word.ordinary]⟩
      simp only [Word.text, lexWord, Word.full]
      exact dot_loc base _ h2
  | forcedLoc t =>
    obtain ⟨h1, h2⟩ := h
    refine ⟨.loc, ?_, by simp [Word.ordinary]⟩
    have hd : isDigit '.' = false := by decide
    simp only [Word.text, lexWord, hd, Bool.false_and, Bool.false_eq_true, if_false, if_true, Word.full]
    exact dot_loc base _ h2
  | special t =>
    obtain ⟨k, h1, h2⟩ := dot_special base t
    refine ⟨k, ?_, by simp [Word.ordinary, h1]⟩
    simp only [Word.text, lexWord, Word.full]
    exact h2

/-! ### Expressions -/

/-- The state that the statements so far lead to. -/
structure Inv (s : St) (past : List Stmt) : Prop where
  base : s.base = scope past
  sect : s.sect = home past
  len : ∀ k, s.len k = pieces k past
  code : ∀ k, home past = some k → s.prev = some ⟨k, pieces k past⟩ ∧ s.absstart = none ∧ s.abspos = none
  abs : home past = none → ∃ a b, s.absstart = some a ∧ s.abspos = some b ∧
    ∀ env, a.value env = (address env past).1 ∧ b.value env = (address env past).2

/-- An expression has the value that it has in the source; `sc` is the scope. -/
theorem resolve_value (keyword : Name → Bool) (s : St) (past : List Stmt) (hi : Inv s past) (sc : Option Name) (e : SEx) (ok : e.Ok keyword) :
    ∃ x, resolve keyword { s with base := sc } e.src = some x ∧ ∀ env, x.value env = e.value env sc (here env past) (start env past) := by
  induction e with
  | num v => exact ⟨.num v, rfl, fun env => rfl⟩
  | word w =>
    obtain ⟨k, h, _⟩ := lexWord_word keyword sc w ok
    refine ⟨.sym (w.full sc), ?_, fun env => rfl⟩
    simp only [SEx.src, resolve, h]
  | here =>
    unfold SEx.src resolve
    cases hh : home past with
    | some k =>
      obtain ⟨h1, h2, h3⟩ := hi.code k hh
      simp only [h3, h1]
      refine ⟨_, rfl, fun env => ?_⟩
      simp only [Ex.value, SEx.value, here, hh]
    | none =>
      obtain ⟨a, b, h1, h2, h3⟩ := hi.abs hh
      simp only [h2]
      refine ⟨_, rfl, fun env => ?_⟩
      simp only [SEx.value, here, hh]
      exact (h3 env).2
  | start =>
    unfold SEx.src resolve
    cases hh : home past with
    | some k =>
      obtain ⟨h1, h2, h3⟩ := hi.code k hh
      have hs := hi.sect
      rw [hh] at hs
      simp only [h2, hs]
      refine ⟨_, rfl, fun env => ?_⟩
      simp only [Ex.value, SEx.value, start, hh]
    | none =>
      obtain ⟨a, b, h1, h2, h3⟩ := hi.abs hh
      simp only [h1]
      refine ⟨_, rfl, fun env => ?_⟩
      simp only [SEx.value, start, hh]
      exact (h3 env).1
  | op o a b iha ihb =>
    obtain ⟨x, hx, vx⟩ := iha ok.1
    obtain ⟨y, hy, vy⟩ := ihb ok.2
    refine ⟨.op o x y, ?_, fun env => ?_⟩
    · simp only [SEx.src, resolve, hx, hy]
    · simp only [Ex.value, SEx.value, vx, vy]

theorem resolveAll_value (keyword : Name → Bool) (s : St) (past : List Stmt) (hi : Inv s past) (sc : Option Name) (es : List SEx)
    (ok : ∀ e ∈ es, e.Ok keyword) :
    ∃ xs, resolveAll keyword { s with base := sc } (es.map SEx.src) = some xs ∧
      ∀ env, xs.map (·.value env) = es.map (·.value env sc (here env past) (start env past)) := by
  induction es with
  | nil => exact ⟨[], rfl, fun env => rfl⟩
  | cons e es ih =>
    obtain ⟨x, hx, vx⟩ := resolve_value keyword s past hi sc e (ok e List.mem_cons_self)
    obtain ⟨xs, hxs, vxs⟩ := ih (fun e h => ok e (List.mem_cons_of_mem _ h))
    refine ⟨x :: xs, ?_, fun env => ?_⟩
    · simp only [List.map_cons, resolveAll, hx, hxs]
    · simp only [List.map_cons, vx, vxs]

/-- In directives. -/
theorem resolveDir_value (keyword : Name → Bool) (s : St) (e : SEx) (ok : e.DirOk keyword) :
    ∃ x, resolveDir keyword s e.src = some x ∧ ∀ env, x.value env = e.value env none 0 0 := by
  induction e with
  | num v => exact ⟨.num v, rfl, fun env => rfl⟩
  | word w =>
    cases w with
    | plain n =>
      obtain ⟨⟨h1, h2, h3, h4, h5⟩, h6⟩ := ok
      refine ⟨.sym n, ?_, fun env => rfl⟩
      have : lexDir keyword s.base n = .name .id n := by
        unfold lexDir
        split
        · exact absurd rfl h4
        · exact absurd rfl h6
        · rfl
      simp only [SEx.src, Word.text, resolveDir, this]
    | special t => exact ⟨.sym ('.' :: '.' :: t), rfl, fun env => rfl⟩
    | forced n => exact ok.elim
    | loc t => exact ok.elim
    | forcedLoc t => exact ok.elim
  | here => exact ok.elim
  | start => exact ok.elim
  | op o a b iha ihb =>
    obtain ⟨x, hx, vx⟩ := iha ok.1
    obtain ⟨y, hy, vy⟩ := ihb ok.2
    refine ⟨.op o x y, ?_, fun env => ?_⟩
    · simp only [SEx.src, resolveDir, hx, hy]
    · simp only [Ex.value, SEx.value, vx, vy]

theorem argument_value (keyword : Name → Bool) (s : St) (e : SEx) (ok : e.ArgOk keyword) :
    ∃ x, argument keyword s e.src = some x ∧ ∀ env, x.value env = e.value env none 0 0 := by
  cases e with
  | num v => exact ⟨.num v, rfl, fun env => rfl⟩
  | word w =>
    cases w with
    | forced n =>
      obtain ⟨h1, h2, h3⟩ := ok
      cases n with
      | nil => exact absurd rfl h1
      | cons c r =>
        refine ⟨.sym (c :: r), ?_, fun env => rfl⟩
        have hd := h3 c rfl
        simp only [SEx.src, Word.text, argument, resolveDir, lexDir, hd, Bool.false_and, Bool.false_eq_true, if_false, Option.map_some, unforce]
    | plain n =>
      obtain ⟨x, hx, vx⟩ := resolveDir_value keyword s (.word (.plain n)) ok
      obtain ⟨⟨h1, h2, h3, h4, h5⟩, h6⟩ := ok
      have : lexDir keyword s.base n = .name .id n := by
        unfold lexDir
        split
        · exact absurd rfl h4
        · exact absurd rfl h6
        · rfl
      refine ⟨.sym n, ?_, fun env => rfl⟩
      simp only [SEx.src, Word.text, argument, resolveDir, this, Option.map_some, Option.some.injEq]
      unfold unforce
      split
      · rename_i hs; injection hs with hs; rw [hs] at h4; exact absurd rfl h4
      · rfl
    | special t => exact ⟨.sym ('.' :: '.' :: t), rfl, fun env => rfl⟩
    | loc t => exact ok.elim
    | forcedLoc t => exact ok.elim
  | here => exact ok.elim
  | start => exact ok.elim
  | op o a b => exact resolveDir_value keyword s (.op o a b) ok

end Verif.Nasm
