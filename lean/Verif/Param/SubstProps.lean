import Verif.Param.Subst
/-
C97: symbols of `.set` stand for their values in GAS sources.
-/
namespace Verif.Param
open Verif.Comment (Str isSpace)

/-- Every line and all symbols: each word that is a symbol is replaced by its value in decimal, and all other text is left as it is.
    Missing from the full property: strings, which should be left as they are (`string_changed`), numbers that are not decimal. -/
theorem values_substituted_partial (val : Str → Option Int) (ps : List Piece) (h : PiecesOk ps) : substLine val (text ps) = mean val ps := by
  have := subst_pieces val ps h [] [] rfl ((text ps).length + 1) (by simp)
  simpa [substLine] using this

/-- A line without symbols is left as it is. -/
theorem line_kept (ps : List Piece) (h : PiecesOk ps) : substLine (fun _ => none) (text ps) = text ps := by
  rw [values_substituted_partial _ ps h]
  unfold mean text
  congr 1

/-- `movl $size+12, %eax` with size = -40. -/
def line : List Piece := [.word "movl".toList, .other " $".toList, .word "size".toList, .other "+".toList, .num "12".toList, .other ", ".toList, .word "%eax".toList]
def symbols (n : Str) : Option Int := if n = "size".toList then some (-40) else if n = "a".toList then some 1 else none

theorem line_ok : PiecesOk line ∧ text line = "movl $size+12, %eax".toList ∧ mean symbols line = "movl $-40+12, %eax".toList := by
  refine ⟨?_, by with_unfolding_all decide +kernel, by with_unfolding_all decide +kernel⟩
  refine ⟨⟨'m', "ovl".toList, by with_unfolding_all decide +kernel, by decide, by with_unfolding_all decide +kernel, by decide⟩, ?_,
    by with_unfolding_all decide +kernel, ⟨'s', "ize".toList, by with_unfolding_all decide +kernel, by decide, by with_unfolding_all decide +kernel, by decide⟩, ?_,
    by with_unfolding_all decide +kernel, ⟨'1', "2".toList, by with_unfolding_all decide +kernel, by with_unfolding_all decide +kernel⟩, ?_,
    by with_unfolding_all decide +kernel,
    ⟨'%', "eax".toList, by with_unfolding_all decide +kernel, by decide, by with_unfolding_all decide +kernel, fun _ => by with_unfolding_all decide +kernel⟩, ?_, trivial⟩
  · intro c hc
    obtain rfl : ' ' = c := Option.some.inj hc
    decide
  · intro c hc
    obtain rfl : '+' = c := Option.some.inj hc
    decide
  · intro c hc
    obtain rfl : ',' = c := Option.some.inj hc
    decide
  · intro c hc
    simp [text] at hc

/-- The contents of a string are changed. -/
theorem string_changed : substLine symbols ".ascii \"a size\"".toList = ".ascii \"1 -40\"".toList := by with_unfolding_all decide +kernel

/-- A number with a suffix of letters is split, and the letters are replaced (`1a`, where `a` is a symbol). -/
theorem suffix_replaced : substLine symbols "jmp 1a".toList = "jmp 11".toList := by with_unfolding_all decide +kernel

end Verif.Param
