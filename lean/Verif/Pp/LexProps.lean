import Verif.Pp.LexLemmas
/-
C80: a line that has nothing to do with the preprocessor reaches the assembler as it is.
-/
namespace Verif.Pp

/-- A line that is split into tokens and put together again is the line as the assembler is to see
    it, unless there are environment variables or names local to a context in it. -/
theorem line_passed (outer : Name → Name) (line : Name)
    (h : ∀ t ∈ tokenise line, t.isOuter = false) : detoken outer (tokenise line) = clean line :=
  tokeniseF_clean outer _ line (Nat.le_refl _) h

example : ∀ t ∈ tokenise [32, 109, 111, 118, 32, 9, 97, 108, 44, 39, 97, 32, 32, 59, 98, 39, 32, 59, 32, 99],
    t.isOuter = false := by decide +kernel

/-- Names and numbers are taken whole: what follows one in the line is not a character it could
    have gone on with. -/
theorem words_whole (line : Name) (l1 l2 : List Tok) (a b : Tok) (h : tokenise line = l1 ++ a :: b :: l2) :
    (a.ty = .id → first isIdChar b.text = false) ∧ (a.ty = .num → first isNumChar b.text = false) :=
  tokeniseF_whole _ line l1 l2 a b h

-- `ab+1`
example : tokenise [97, 98, 43, 49] = [] ++ ⟨.id, [97, 98]⟩ :: ⟨.other, [43]⟩ :: [⟨.num, [49]⟩] := by decide +kernel

end Verif.Pp
