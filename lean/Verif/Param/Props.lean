import Verif.Param.Lemmas
/-
C96: the parameters of GAS macros stand for the arguments of the call.
-/
namespace Verif.Param
open Verif.Comment (Str isSpace)

theorem choose_eq (p : Param) (o : Option Str) : choose p.default o = meaning p (o.getD []) := by
  unfold choose meaning
  cases o with
  | none => simp
  | some w => by_cases h : w = [] <;> simp [h]

/-- Every macro, every call and every line of the macro: each reference to a parameter is replaced by the argument at its place, or by its default if the
    argument is missing or empty, and all other text is left as it is.
    Missing from the full property: text with backslashes of its own, such as the separator `\()` (`separator_kept`); arguments with white space in them
    (`expression_split`). -/
theorem line_expanded_partial (ps : List Param) (blank : Str) (hb : ∀ c ∈ blank, isSpace c = true) (as : List (Str × Str)) (ha : ∀ a ∈ as, ArgOk a) (b : Body)
    (ho : b.Ok) (hr : ∀ r ∈ b.refs, ∃ p ∈ ps, p.name = r.1) (v : Str → Str)
    (hv : ∀ (j : Nat) (hj : j < ps.length), v ps[j].name = meaning ps[j] (((as.map (·.1))[j]?).getD [])) :
    expandLine ps (blank ++ writeArgs as) b.write = b.mean v := by
  have hval : ∀ n, (∃ p ∈ ps, p.name = n) → lookup ps (blank ++ writeArgs as) n = some (v n) := by
    rintro n ⟨p, hp, hpn⟩
    unfold lookup
    cases hi : ps.findIdx? fun p => p.name = n with
    | none =>
      rw [List.findIdx?_eq_none_iff] at hi
      exact absurd (hi p hp) (by simp [hpn])
    | some j =>
      obtain ⟨hj, hjn, _⟩ := List.findIdx?_eq_some_iff_getElem.1 hi
      have hjn : ps[j].name = n := by simpa using hjn
      simp only [List.getElem?_eq_getElem hj, Option.map_some, value]
      have hdw : (blank ++ writeArgs as).dropWhile isSpace = writeArgs as := by
        rw [List.dropWhile_append_of_pos hb]
        cases as with
        | nil => rfl
        | cons a as => exact writeArgs_head a as (ha a (by simp))
      rw [choose_eq, hdw, arguments_eq as ha _ (by simp; omega), ← hv j hj, hjn]
  unfold expandLine Body.write Body.mean
  rw [walk_refs _ v b.refs ho.names ho.texts (fun r h => hval _ (hr r h)) [] b.start ho.start _ (by simp)]
  rfl

/-- A line without backslashes is left as it is. -/
theorem text_kept (ps : List Param) (args line : Str) (h : '\\' ∉ line) : expandLine ps args line = line :=
  walk_end _ line.length line (Nat.le_refl _) h [] _

/-! ### A macro -/

/-- `.macro put reg val=5`, with the line `mov $\val, %\reg # \reg`; the call `put eax,`. -/
def params : List Param := [⟨"reg".toList, none⟩, ⟨"val".toList, some "5".toList⟩]
def body : Body := ⟨"mov $".toList, [("val".toList, ", %".toList), ("reg".toList, " # ".toList), ("reg".toList, [])]⟩
def args : List (Str × Str) := [("eax".toList, " ".toList), ([], [])]
def vals (n : Str) : Str := if n = "reg".toList then "eax".toList else "5".toList

theorem body_ok : body.Ok where
  start := by with_unfolding_all decide +kernel
  names := by
    intro r hr
    simp only [body, List.mem_cons, List.not_mem_nil, or_false] at hr
    rcases hr with rfl | rfl | rfl
    · exact ⟨'v', "al".toList, by with_unfolding_all decide +kernel, by with_unfolding_all decide +kernel, by with_unfolding_all decide +kernel⟩
    · exact ⟨'r', "eg".toList, by with_unfolding_all decide +kernel, by with_unfolding_all decide +kernel, by with_unfolding_all decide +kernel⟩
    · exact ⟨'r', "eg".toList, by with_unfolding_all decide +kernel, by with_unfolding_all decide +kernel, by with_unfolding_all decide +kernel⟩
  texts := by
    intro r hr
    simp only [body, List.mem_cons, List.not_mem_nil, or_false] at hr
    rcases hr with rfl | rfl | rfl
    · refine ⟨by with_unfolding_all decide +kernel, fun c hc => ?_⟩
      obtain rfl : ',' = c := Option.some.inj hc
      decide
    · refine ⟨by with_unfolding_all decide +kernel, fun c hc => ?_⟩
      obtain rfl : ' ' = c := Option.some.inj hc
      decide
    · exact ⟨by simp, fun c hc => by simp at hc⟩

theorem sample_ok : (∀ a ∈ args, ArgOk a) ∧ (∀ r ∈ body.refs, ∃ p ∈ params, p.name = r.1) ∧
    (∀ (j : Nat) (hj : j < params.length), vals params[j].name = meaning params[j] (((args.map (·.1))[j]?).getD [])) ∧
    body.write = "mov $\\val, %\\reg # \\reg".toList ∧ writeArgs args = "eax, ".toList ∧ body.mean vals = "mov $5, %eax # eax".toList := by
  refine ⟨by unfold ArgOk; with_unfolding_all decide +kernel, by with_unfolding_all decide +kernel, ?_, by with_unfolding_all decide +kernel,
    by with_unfolding_all decide +kernel, by with_unfolding_all decide +kernel⟩
  intro j hj
  match j, hj with
  | 0, _ =>
    show vals "reg".toList = meaning ⟨"reg".toList, none⟩ "eax".toList
    with_unfolding_all decide +kernel
  | 1, _ =>
    show vals "val".toList = meaning ⟨"val".toList, some "5".toList⟩ []
    with_unfolding_all decide +kernel

/-! ### Where the property fails -/

/-- `\()`, which separates a parameter from text behind it, is left in the line. -/
theorem separator_kept : expandLine params "eax".toList "l\\reg\\()_end:".toList = "leax\\()_end:".toList := by with_unfolding_all decide +kernel

/-- An argument with white space is split, and the rest goes to the next parameter. -/
theorem expression_split : expandLine params "1 + 2".toList "\\reg \\val".toList = "1 +".toList := by with_unfolding_all decide +kernel

/-- White space between the backslash and the name: the white space is replaced, and the backslash is left. -/
theorem blank_replaced : expandLine params "eax".toList "\\ reg".toList = "\\eax".toList := by with_unfolding_all decide +kernel

end Verif.Param
