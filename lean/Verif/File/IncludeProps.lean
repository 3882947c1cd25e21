import Verif.File.Include
import Verif.File.Props
/-
C104: an included file is looked for beside the file that includes it, then in the include paths in their order.
-/
namespace Verif.File
open Verif.File.Spec

/-! ### Specification -/

/-- A directory with its slash at the end. -/
def asDir (d : List Char) : List Char := if d.getLast? = some '/' then d else d ++ ['/']

/-- The name in a directory; a name from the root stays as it is. -/
def inDir (dir iname : List Char) : List Char := if isAbs iname then iname else dir ++ iname

/-- Where to look, first places first. -/
def places (dirs : List (List Char)) (iname : List Char) (src : Option (List Char)) : List (List Char) :=
  (src.toList.map (fun f => inDir (dirText f) iname)) ++ dirs.map (fun d => inDir (asDir d) iname)

/-- Bases for which paths are combined rightly (`combpath_partial`). -/
def Base (b iname : List Char) : Prop :=
  (∀ c ∈ parts (dirText b), ¬ dotted c) ∧ ((∀ c ∈ parts (splitpath b).1, c ≠ ['.']) ∨ ¬ LeavesDir iname)

/-! ### Lemmas -/

theorem dirText_asDir (d : List Char) (h : d.getLast? = some '/') : dirText d = d := by
  obtain ⟨x, rfl⟩ := List.getLast?_eq_some_iff.1 h
  simp [dirText]

theorem asDir_last (d : List Char) : (asDir d).getLast? = some '/' := by
  unfold asDir
  split
  · assumption
  · simp

theorem add_spec (paths : List (List Char)) (d : List Char) (h : d ≠ []) (hb : d.getLast? ≠ some '\\') : addIncludePath paths d = some (paths ++ [asDir d]) := by
  unfold addIncludePath asDir
  cases hl : d.getLast? with
  | none => exact absurd (List.getLast?_eq_none_iff.1 hl) h
  | some c =>
    rw [hl] at hb
    have h1 : c ≠ '\\' := fun e => hb (by rw [e])
    by_cases h2 : c = '/'
    · simp [h2]
    · simp [h1, h2]

theorem addAll_spec (dirs paths : List (List Char)) (h : ∀ d ∈ dirs, d ≠ [] ∧ d.getLast? ≠ some '\\') : addAll paths dirs = some (paths ++ dirs.map asDir) := by
  induction dirs generalizing paths with
  | nil => simp [addAll]
  | cons d l ih =>
    have hd := h d (by simp)
    rw [addAll, add_spec _ _ hd.1 hd.2]
    simp only
    rw [ih _ (fun e he => h e (by simp [he]))]
    simp

theorem comb_resolve (b iname : List Char) (h : Base b iname) : resolve (combpath b iname) = resolve (inDir (dirText b) iname) :=
  combpath_partial b iname h.1 h.2

theorem tryPaths_spec (fs : Bool × List (List Char) → Bool) (iname : List Char) (ps : List (List Char)) (h : ∀ p ∈ ps, Base p iname ∧ p.getLast? = some '/') :
    (tryPaths (fun p => fs (resolve p)) iname ps).map resolve = ((ps.map (fun p => inDir p iname)).find? (fun p => fs (resolve p))).map resolve := by
  induction ps with
  | nil => rfl
  | cons p ps ih =>
    have hp := h p (by simp)
    have e := comb_resolve p iname hp.1
    rw [dirText_asDir p hp.2] at e
    rw [tryPaths, List.map_cons, List.find?_cons, e]
    cases hf : fs (resolve (inDir p iname)) with
    | true => simp [e]
    | false => simpa using ih (fun q hq => h q (by simp [hq]))

/-! ### Theorems -/

/-- All disks, include paths and names: the file that is opened is the first of the places that exists, and none is opened just if none exists.
    Missing from the full property: paths for which combining is not right (`Base`, see `combpath_partial`), paths that end in a backslash
    (`backslash_not_searched`) and the empty path (`empty_path_read`). -/
theorem first_place_opened_partial (fs : Bool × List (List Char) → Bool) (dirs : List (List Char)) (iname : List Char) (src : Option (List Char))
    (hd : ∀ d ∈ dirs, d ≠ [] ∧ d.getLast? ≠ some '\\' ∧ Base (asDir d) iname) (hs : ∀ f, src = some f → Base f iname) :
    ∃ paths, addAll [] dirs = some paths ∧
      (fopenInclude (fun p => fs (resolve p)) paths iname src).map resolve = ((places dirs iname src).find? (fun p => fs (resolve p))).map resolve := by
  refine ⟨dirs.map asDir, by simpa using addAll_spec dirs [] (fun d h => ⟨(hd d h).1, (hd d h).2.1⟩), ?_⟩
  have ht := tryPaths_spec fs iname (dirs.map asDir) (by
    intro p hp
    obtain ⟨d, hm, rfl⟩ := List.mem_map.1 hp
    exact ⟨(hd d hm).2.2, asDir_last d⟩)
  have hm : (dirs.map asDir).map (fun p => inDir p iname) = dirs.map (fun d => inDir (asDir d) iname) := by rw [List.map_map]; rfl
  rw [hm] at ht
  unfold fopenInclude places
  cases src with
  | none => simpa using ht
  | some f =>
    have e := comb_resolve f iname (hs f rfl)
    simp only [Option.toList_some, List.map_cons, List.map_nil, List.singleton_append, List.find?_cons, e]
    cases hf : fs (resolve (inDir (dirText f) iname)) with
    | true => simp [e]
    | false => simpa using ht

/-- From `src/a.asm`, with the include paths `inc` and `lib/`, `b.inc` is found in `lib`. -/
theorem include_ok : places ["inc".toList, "lib/".toList] "b.inc".toList (some "src/a.asm".toList) = ["src/b.inc".toList, "inc/b.inc".toList, "lib/b.inc".toList] ∧
    addAll [] ["inc".toList, "lib/".toList] = some ["inc/".toList, "lib/".toList] ∧
    fopenInclude (fun p => p = "lib/b.inc".toList) ["inc/".toList, "lib/".toList] "b.inc".toList (some "src/a.asm".toList) = some "lib/b.inc".toList := by
  refine ⟨by with_unfolding_all decide +kernel, by with_unfolding_all decide +kernel, by with_unfolding_all decide +kernel⟩

theorem base_ok : Base (asDir "inc".toList) "b.inc".toList := by
  unfold Base
  have h1 : parts (dirText (asDir "inc".toList)) = ["inc".toList, []] := by decide +kernel
  refine ⟨?_, .inl (by decide +kernel)⟩
  rw [h1]
  intro c hc
  rintro ⟨x, d, he, -⟩
  have := congrArg List.getLast? he
  simp only [List.mem_cons, List.not_mem_nil, or_false] at hc
  rcases hc with rfl | rfl
  · simp at this
  · simp at this

/-- A path that ends in a backslash gets no slash, and the file is looked for in the current directory instead. -/
theorem backslash_not_searched : addAll [] ["inc\\".toList] = some ["inc\\".toList] ∧
    fopenInclude (fun p => p = "b.inc".toList) ["inc\\".toList] "b.inc".toList none = some "b.inc".toList := by
  refine ⟨by with_unfolding_all decide +kernel, by with_unfolding_all decide +kernel⟩

/-- For an empty path the byte before it is read. -/
theorem empty_path_read (l : List (List Char)) : addIncludePath l [] = none := rfl

end Verif.File
