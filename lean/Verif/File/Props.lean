/-
Property theorems about paths (C38) and C string escapes (C39).
-/
import Verif.File.PathLemmas
import Verif.File.UnescapeLemmas

namespace Verif.File

open Spec

/-! ## C39: yasm_unescape_cstring -/

/-- For every buffer and every length within it the decoder finishes without reading or writing outside
    the given length, leaves there the bytes the string denotes, is never longer than the string, warns
    once for each out-of-range octal escape, and does not touch what follows. -/
theorem unescape_spec (str : List Nat) (len : Nat) (hl : len ≤ str.length)
    (hb : ∀ c ∈ str.take len, c < 256) :
    ∃ u, unescape str len = .done u ∧ Decodes (str.take len) (u.mem.take u.o) u.warns ∧ u.o ≤ len ∧
      u.mem.length = str.length ∧ u.mem.drop len = str.drop len ∧ (∀ c ∈ u.mem.take u.o, c < 256) := by
  obtain ⟨u, d, w, h1, h2, h3, h4, h5, h6, h7, h8, h9⟩ :=
    uloop_spec len len ⟨str, 0, 0, 0⟩ (by simp) hl (Nat.le_refl _) (Nat.zero_le _)
      (by simpa [rest] using hb)
  have hr : rest len str 0 = str.take len := by simp [rest]
  simp only [List.take_zero, List.nil_append, Nat.zero_add] at h3 h8
  rw [hr] at h2
  exact ⟨u, h1, by rw [h3, h8]; exact h2, h5, h6, h7, by rw [h3]; exact h9⟩

/-- The grammar is unambiguous: a string denotes one byte string only. -/
theorem unescape_unambiguous {s t t' : List Nat} {w w' : Nat} (h : Decodes s t w) (h' : Decodes s t' w') :
    t = t' ∧ w = w' := decodes_unique h h'

/-- A string without backslashes is left as it is. -/
theorem unescape_plain (str : List Nat) (len : Nat) (hl : len ≤ str.length)
    (hb : ∀ c ∈ str.take len, c < 256 ∧ c ≠ 92) :
    ∃ u, unescape str len = .done u ∧ u.mem.take u.o = str.take len ∧ u.warns = 0 := by
  obtain ⟨u, h1, h2, _⟩ := unescape_spec str len hl (fun c hc => (hb c hc).1)
  have hp : ∀ l : List Nat, (∀ c ∈ l, c < 256 ∧ c ≠ 92) → Decodes l l 0 := by
    intro l
    induction l with
    | nil => intro _; exact .nil
    | cons a t ih =>
      intro h
      exact .plain (h a (by simp)).2 (ih (fun c hc => h c (List.mem_cons_of_mem _ hc)))
  obtain ⟨e1, e2⟩ := decodes_unique h2 (hp _ hb)
  exact ⟨u, h1, e1, e2⟩

/-- The hypotheses are met by a string with escapes of every kind: `ab\n\x1234z\377\9\q\\\`. -/
example : unescape (bytes "ab\\n\\x1234z\\377\\9\\q\\\\\\") 22 = .done
    ⟨bytes "ab" ++ [10, 0x34] ++ bytes "z" ++ [255, 9] ++ bytes "q\\\\" ++ bytes "z\\377\\9\\q\\\\\\", 22, 10, 1⟩ := by
  with_unfolding_all decide +kernel

example : (22 : Nat) ≤ (bytes "ab\\n\\x1234z\\377\\9\\q\\\\\\").length ∧
    ∀ c ∈ (bytes "ab\\n\\x1234z\\377\\9\\q\\\\\\").take 22, c < 256 := by decide

/-- Not all of C's escapes: `\a` and `\v`, bytes 7 and 11 in C, are decoded to the letters themselves. -/
theorem alert_not_decoded :
    unescape (bytes "\\a\\v") 4 = .done ⟨bytes "av" ++ bytes "\\v", 4, 2, 0⟩ := by decide +kernel

/-- `\8` is accepted as an octal escape, with a warning; `\400` wraps around to a null byte without one. -/
theorem octal_beyond :
    unescape (bytes "\\8\\400") 6 = .done ⟨8 :: 0 :: bytes "\\400", 6, 2, 1⟩ := by decide +kernel

/-! ## C38: paths -/

/-- The head is a prefix of the path, the tail is what follows the last slash, and, if no directory name
    in the path looks like "foo.", head and tail recombine to a path naming the same file; the head by
    itself may replace the directory part in front of any relative path. -/
theorem splitpath_spec (p : List Char) :
    (splitpath p).1 <+: p ∧ (splitpath p).2 = tailText p ∧
    ((∀ c ∈ parts (dirText p), ¬ dotted c) →
      resolve (rejoin (splitpath p).1 (splitpath p).2) = resolve p ∧
      ∀ t, isAbs t = false → resolve (rejoin (splitpath p).1 t) = resolve (dirText p ++ t)) := by
  have ht : (splitpath p).2 = tailText p := by rw [splitpath_eq]
  refine ⟨?_, ht, ?_⟩
  · have h1 : (splitpath p).1 <+: dirText p := by
      rw [splitpath_eq]
      have := strip_suffix (dirText p).reverse
      rw [← List.reverse_prefix] at this
      simpa using this
    exact h1.trans ⟨tailText p, dir_tail p⟩
  · intro hd
    refine ⟨?_, fun t hta => ?_⟩
    · rw [ht, rejoin_eq, head_resolve hd (isAbs_free (tail_free p)), dir_tail]
    · rw [rejoin_eq, head_resolve hd hta]

/-- The full property: whatever the base file and the path to combine with it, the result names the file
    the textual concatenation names. -/
def CombinesRight (src to : List Char) : Prop :=
  resolve (combpath src to) = resolve (if isAbs to then to else dirText src ++ to)

/-- Combining is right when no directory name in the base path looks like "foo." and either the base's
    directory part (as split off) has no "." component or the path combined does not begin with "..".

    Missing from the full property: base paths outside these conditions, for which it is false (see
    `comb_dot_wrong` and `comb_dotted_wrong`). -/
theorem combpath_partial (src to : List Char) (hd : ∀ c ∈ parts (dirText src), ¬ dotted c)
    (hn : (∀ c ∈ parts (splitpath src).1, c ≠ ['.']) ∨ ¬ LeavesDir to) : CombinesRight src to := by
  unfold CombinesRight combpath
  by_cases h : isAbs to = true
  · have hh : to.head? = some '/' := by simpa [isAbs] using h
    rw [if_pos hh, if_pos h, resolve_collapse]
  · have hta : isAbs to = false := by simpa using h
    have hh : ¬ to.head? = some '/' := by
      intro hx; apply h; simp [isAbs, hx]
    rw [if_neg hh, if_neg h]
    have hout : addSlash (collapse (splitpath src).1).reverse =
        (slashed (collapse (splitpath src).1)).reverse := by
      unfold slashed; rw [List.reverse_reverse]
    rw [hout]
    generalize ho : slashed (collapse (splitpath src).1) = o
    have hclean : Clean o := by
      refine ⟨by rw [← ho]; exact slashed_dir _, ?_⟩
      have hnd := collapse_noDouble (splitpath src).1
      rw [← ho]
      rcases slashed_cases (collapse (splitpath src).1) with ⟨_, e⟩ | ⟨a, _, e2⟩ | ⟨_, e1, e⟩
      · rw [e]; intro x y hx; cases x <;> simp at hx
      · rw [e2]; exact hnd
      · rw [e]
        intro x y hx
        rcases List.eq_nil_or_concat y with rfl | ⟨y', c, rfl⟩
        · have : x ++ ['/', '/'] = (x ++ ['/']) ++ ['/'] := by simp
          rw [this] at hx
          exact e1 x (List.append_inj' hx rfl).1
        · rw [List.concat_eq_append,
            show x ++ '/' :: '/' :: (y' ++ [c]) = (x ++ '/' :: '/' :: y') ++ [c] by simp] at hx
          exact hnd x y' (List.append_inj' hx rfl).1
    have hdots : (∀ c ∈ parts o.reverse.reverse, c ≠ ['.']) ∨ ¬ LeavesDir to := by
      rcases hn with hn | hn
      · left
        rw [List.reverse_reverse]
        intro c hc
        by_cases hc0 : c = []
        · subst hc0; simp
        · have hm : c ∈ (parts o).filter (· ≠ []) := by simp [hc, hc0]
          rw [← ho, slashed_parts_filter] at hm
          rcases collapse_mem_parts (List.mem_filter.1 hm).1 with h0 | h0
          · exact absurd h0 hc0
          · exact hn c h0
      · exact .inr hn
    obtain ⟨i1, i2, i3⟩ := scan_spec o.reverse to (by rw [List.reverse_reverse]; exact hclean) hta hdots
    dsimp only
    rw [resolve_dir i3 (by rw [collapse_isAbs]; exact i2), collapse_foldl, ← resolve_dir i3 i2, i1,
      List.reverse_reverse, ← ho, resolve_slashed_collapse hta, head_resolve hd hta]

/-- The result fits the memory allocated for it, with its terminating null byte, and so does the base
    directory while it is being copied. -/
theorem combpath_fits (src to : List Char) :
    (combpath src to).length + 1 ≤ combAlloc src to ∧
    (isAbs to = false →
      (addSlash (collapse (splitpath src).1).reverse).length ≤ combAlloc src to) := by
  unfold combpath combAlloc
  by_cases hh : to.head? = some '/'
  · rw [if_pos hh, if_pos hh]
    have := collapse_length to
    refine ⟨by omega, ?_⟩
    intro h; simp [isAbs, hh] at h
  · rw [if_neg hh, if_neg hh]
    have h1 := collapse_length (splitpath src).1
    have h2 := addSlash_length (collapse (splitpath src).1).reverse
    rw [List.length_reverse] at h2
    have h3 := scan_length (addSlash (collapse (splitpath src).1).reverse) to
    have h4 := collapse_length (scan (addSlash (collapse (splitpath src).1).reverse) to).2
    dsimp only
    rw [List.length_append, List.length_reverse]
    exact ⟨by omega, fun _ => by omega⟩

/-- An absolute path is only rid of doubled slashes. -/
theorem combpath_absolute (src to : List Char) (h : isAbs to = true) :
    combpath src to = collapse to ∧ NoDouble (combpath src to) := by
  have hh : to.head? = some '/' := by simpa [isAbs] using h
  unfold combpath
  rw [if_pos hh]
  exact ⟨rfl, collapse_noDouble to⟩

/-- A base path with doubled slashes and "..", and a path that climbs: the hypotheses hold and the result
    is "a/b/../../d/e". -/
example : (∀ c ∈ parts (dirText "a//b/../c/f.asm".toList), ¬ dotted c) ∧
    (∀ c ∈ parts (splitpath "a//b/../c/f.asm".toList).1, c ≠ ['.']) ∧
    combpath "a//b/../c/f.asm".toList "./../..//d//e".toList = "a/b/../../d/e".toList := by
  refine ⟨?_, by decide +kernel, by with_unfolding_all decide +kernel⟩
  have : parts (dirText "a//b/../c/f.asm".toList) =
    ["a".toList, [], "b".toList, "..".toList, "c".toList, []] := by decide +kernel
  rw [this]
  intro c hc
  rintro ⟨x, d, he, hd⟩
  simp only [List.mem_cons, List.not_mem_nil, or_false] at hc
  have hlen : x.length + 2 = c.length := by rw [he]; simp
  rcases hc with rfl | rfl | rfl | rfl | rfl | rfl
  · simp at hlen
  · simp at hlen
  · simp at hlen
  · simp at hlen
    subst hlen
    have hh : ['.', '.'] = [d, '.'] := he
    simp at hh
    exact hd hh.symm
  · simp at hlen
  · simp at hlen

/-- A "." inside the base directory is popped like a name: from "a/./b/f", "../../y" is combined to
    "a/y", though "a/./b/../../y" is "y". -/
theorem comb_dot_wrong : ¬ CombinesRight "a/./b/f".toList "../../y".toList := by
  unfold CombinesRight
  have h : combpath "a/./b/f".toList "../../y".toList = "a/y".toList := by
    with_unfolding_all decide +kernel
  rw [h]
  decide +kernel

/-- A directory whose name ends in a dot is taken for one without: from "foo./f", "y" is combined to
    "foo/y", and the head of "foo./f" is "foo". -/
theorem comb_dotted_wrong :
    ¬ CombinesRight "foo./f".toList "y".toList ∧ splitpath "foo./f".toList = ("foo".toList, "f".toList) := by
  refine ⟨?_, by decide +kernel⟩
  unfold CombinesRight
  have h : combpath "foo./f".toList "y".toList = "foo/y".toList := by
    with_unfolding_all decide +kernel
  rw [h]
  decide +kernel

end Verif.File
