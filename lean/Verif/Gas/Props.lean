import Verif.Gas.Lemmas
/-
C94: conditional assembly and repetition in the GAS preprocessor.
-/
namespace Verif.Gas
variable {L : Lang}

/-- Every program of conditionals and repetitions, nested in any way, with any meaning of the conditions, counts and `.set`: exactly the lines that are
    meant are assembled, in order and with the values they have there, and without an error.
    Missing from the full property: `.elseif` (`elseif_ignored`, `elseif_crashes`), macros and `.include`. -/
theorem program_assembled_partial (hL : L.Total) (p : Prog L) (e : L.State) :
    ∃ n d, ∀ k, run (n + k) (start e) p.lines = some (.done ⟨(p.exec (e, [])).1, d, 0, [], false, [], (p.exec (e, [])).2⟩) := by
  obtain ⟨d, _, _, n, h⟩ := run_lines hL p (start e) rfl rfl []
  refine ⟨n + 1, d, fun k => ?_⟩
  rw [List.append_nil] at h
  rw [Nat.add_assoc, h, Nat.add_comm, run]
  rfl

/-- A `.endif`, `.else` or `.elseif` that belongs to no `.if` is reported, if there has been no `.else` before it; nothing behind it is assembled.
    Missing: after an `.else` (`stray_endif_silent`, `stray_else_skips`). -/
theorem stray_told_partial (hL : L.Total) (p : Prog L) (hp : p.NoElse) (e : L.State) (rest : List (Line L)) :
    (∃ n, ∀ k, run (n + k) (start e) (p.lines ++ .endif :: rest) =
      some (.done ⟨(p.exec (e, [])).1, 0, 0, [], true, [.endifWithoutIf], (p.exec (e, [])).2⟩)) ∧
    (∃ n, ∀ k, run (n + k) (start e) (p.lines ++ .els :: rest) =
      some (.done ⟨(p.exec (e, [])).1, 0, 0, [], true, [.elseWithoutIf], (p.exec (e, [])).2⟩)) ∧
    (∀ c, ∃ n, ∀ k, run (n + k) (start e) (p.lines ++ .elseif c :: rest) =
      some (.done ⟨(p.exec (e, [])).1, 0, 0, [], true, [.elseifWithoutIf], (p.exec (e, [])).2⟩)) := by
  refine ⟨?_, ?_, fun c => ?_⟩
  · obtain ⟨d, _, hd, n, h⟩ := run_lines hL p (start e) rfl rfl (.endif :: rest)
    obtain rfl := hd hp
    refine ⟨n + 2, fun k => ?_⟩
    rw [Nat.add_assoc, h]
    exact run_fail rfl rfl rfl k
  · obtain ⟨d, _, hd, n, h⟩ := run_lines hL p (start e) rfl rfl (.els :: rest)
    obtain rfl := hd hp
    refine ⟨n + 2, fun k => ?_⟩
    rw [Nat.add_assoc, h]
    exact run_fail rfl rfl rfl k
  · obtain ⟨d, _, hd, n, h⟩ := run_lines hL p (start e) rfl rfl (.elseif c :: rest)
    obtain rfl := hd hp
    refine ⟨n + 2, fun k => ?_⟩
    obtain ⟨b, hb⟩ := hL (p.exec (e, [])).1 c
    have hl : (St.after (start e) (p.exec (e, [])) (start e).depth).line rest (.elseif c) =
        some ((St.after (start e) (p.exec (e, [])) (start e).depth).fail .elseifWithoutIf, rest) := by
      simp [St.line, St.directive, St.after, start, hb]
    rw [Nat.add_assoc, h]
    exact run_fail rfl hl rfl k

/-- A `.rept` without its `.endr` is reported, and nothing behind it is assembled. -/
theorem unclosed_rept_told (hL : L.Total) (p q : Prog L) (c : L.Count) (e : L.State) :
    ∃ n d, ∀ k, run (n + k) (start e) (p.lines ++ .rept c :: q.lines) =
      some (.done ⟨(p.exec (e, [])).1, d, 0, [], true, [.reptWithoutEndr], (p.exec (e, [])).2⟩) := by
  obtain ⟨d, _, _, n, h⟩ := run_lines hL p (start e) rfl rfl (.rept c :: q.lines)
  refine ⟨n + 2, d, fun k => ?_⟩
  have hc : collectRept 1 q.lines = none := by
    have := collect_lines q 0 []
    simpa [collectRept] using this
  have hl : (St.after (start e) (p.exec (e, [])) d).line q.lines (.rept c) = some ((St.after (start e) (p.exec (e, [])) d).fail .reptWithoutEndr, []) := by
    simp only [St.line, St.directive, hc]
    rfl
  rw [Nat.add_assoc, h]
  exact run_fail rfl hl rfl k

/-! ### A program -/

/-- A language: one variable; a condition is whether it is less than a number; `.set` adds a number to it; lines show it. -/
def demo : Lang := ⟨Int, Int, Int, Int, Nat, Nat × Int, fun s c => .is (decide (s < c)), fun _ n => n, fun s a => s + a, fun s t => (t, s)⟩

theorem demo_total : demo.Total := fun s c => ⟨_, rfl⟩

/-- `.rept 3`, with a conditional in it, which has an `.else` with a repetition. -/
def sample : Prog demo :=
  .rept (3 : Int) (.condElse (1 : Int) (.text (7 : Nat) .nil) (.rept (2 : Int) (.text (8 : Nat) .nil) .nil) (.set (1 : Int) .nil)) (.text (9 : Nat) .nil)

theorem sample_ok : (show Int × List (Nat × Int) from sample.exec ((0 : Int), [])) = ((3 : Int), [((7 : Nat), (0 : Int)), ((8 : Nat), (1 : Int)), ((8 : Nat), (1 : Int)), ((8 : Nat), (2 : Int)),
    ((8 : Nat), (2 : Int)), ((9 : Nat), (3 : Int))]) := by decide +kernel

/-- What the run gives, for the language. -/
def outcome (fuel : Nat) (ls : List (Line demo)) : Option (Option (List Error × List (Nat × Int))) :=
  (run fuel (start (L := demo) (0 : Int)) ls).map fun r => match r with | .crash => none | .done s => some (s.errors, s.out)

example : outcome 100 sample.lines = some (some ([], [(7, 0), (8, 1), (8, 1), (8, 2), (8, 2), (9, 3)])) := by decide +kernel

/-! ### Where the property fails -/

/-- `.elseif` after a condition that is false: never assembled, whatever its condition is. -/
theorem elseif_ignored (e : L.State) (c c' : L.Cond) (t : L.Text) (hc : L.test e c = .is false) (k : Nat) :
    run (5 + k) (start e) [.cond c, .elseif c', .text t, .endif] = some (.done (start e)) := by
  rw [Nat.add_comm]
  simp [run, St.line, St.directive, St.skipped, St.text, St.handleIf, start, hc]

/-- `.elseif` after a condition that is true: yasm ends with a failed assertion. -/
theorem elseif_crashes (e : L.State) (c c' : L.Cond) (t : L.Text) (rest : List (Line L)) (hc : L.test e c = .is true) (hc' : L.test e c' ≠ .fatal)
    (k : Nat) : run (3 + k) (start e) (.cond c :: .text t :: .elseif c' :: rest) = some .crash := by
  rw [Nat.add_comm]
  simp [run, St.line, St.directive, St.text, St.handleIf, start, hc, hc']

/-- After an `.if` with an `.else`, another `.endif` is accepted, -/
theorem stray_endif_silent : outcome 20 [.cond (1 : Int), .text (1 : Nat), .els, .text (2 : Nat), .endif, .endif, .text (3 : Nat)] =
    some (some ([], [(1, 0), (3, 0)])) := by decide +kernel

/-- and another `.else` removes the rest of the file, without a word. -/
theorem stray_else_skips : outcome 20 [.cond (1 : Int), .text (1 : Nat), .els, .text (2 : Nat), .endif, .els, .text (3 : Nat), .text (4 : Nat)] =
    some (some ([], [(1, 0)])) := by decide +kernel

/-- A file that ends before the `.endif` is accepted. -/
theorem unclosed_if_silent : outcome 20 [.cond (0 : Int), .text (1 : Nat)] = some (some ([], [])) := by decide +kernel

/-- More than one `.else`: every other branch is assembled. -/
theorem second_else_assembled : outcome 20 [.cond (0 : Int), .text (1 : Nat), .els, .text (2 : Nat), .els, .text (3 : Nat), .els, .text (4 : Nat), .endif] =
    some (some ([], [(2, 0), (4, 0)])) := by decide +kernel

/-- A second definition of a macro is accepted, and has no effect. -/
theorem macro_not_redefined : outcome 20 [.macro_ 5, .text (1 : Nat), .endm, .macro_ 5, .text (2 : Nat), .endm, .call 5 (0 : Nat)] =
    some (some ([], [(1, 0)])) := by decide +kernel

/-- Macros are expanded in lines that are skipped: one that calls itself under a condition never ends, even when the condition is false at once. -/
theorem recursion_endless (c : L.Cond) (t : L.Text) (s : St L) (hf : s.fatal = false) (rest : List (Line L))
    (hm : s.find 5 = some [.cond c, .call 5 t, .endif]) (hc : L.test s.env c = .is false) (fuel : Nat) : run fuel s (.call 5 t :: rest) = none := by
  have inner : ∀ (fuel : Nat) (s : St L) (rest : List (Line L)), s.fatal = false → 1 ≤ s.skip → s.find 5 = some [.cond c, .call 5 t, .endif] →
      run fuel s (.call 5 t :: rest) = none := by
    intro fuel
    induction fuel using Nat.strongRecOn with
    | ind fuel ih =>
      intro s rest hf hs hm
      match fuel with
      | 0 => rfl
      | 1 => simp [run, hf, St.line, hm]
      | fuel + 2 =>
        rw [run, hf]
        simp only [St.line, hm]
        rw [if_neg (by decide)]
        simp only [List.cons_append, run, hf, St.line]
        rw [if_neg (by decide), if_neg (by omega)]
        simp only [St.skipped]
        exact ih fuel (by omega) { s with skip := s.skip + 1 } _ hf (by simp) hm
  by_cases hs : s.skip = 0
  · match fuel with
    | 0 => rfl
    | 1 => simp [run, hf, St.line, hm]
    | fuel + 2 =>
      rw [run, hf]
      simp only [St.line, hm]
      rw [if_neg (by decide)]
      simp only [List.cons_append, run, hf, St.line]
      rw [if_neg (by decide), if_pos hs]
      simp only [St.directive, hc, St.handleIf]
      exact inner fuel { s with skip := 1 } _ hf (by simp) hm
  · exact inner fuel s rest hf (by omega) hm

/-- A state that meets the hypotheses. -/
example : (({ start (L := demo) (0 : Int) with macros := [(5, [.cond (0 : Int), .call 5 (0 : Nat), .endif])] } : St demo)).fatal = false ∧
    St.find ({ start (L := demo) (0 : Int) with macros := [(5, [.cond (0 : Int), .call 5 (0 : Nat), .endif])] } : St demo) 5 =
      some [.cond (0 : Int), .call 5 (0 : Nat), .endif] ∧ demo.test (0 : Int) (0 : Int) = .is false := ⟨rfl, rfl, rfl⟩

end Verif.Gas
