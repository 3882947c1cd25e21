import Verif.Pp.Lex
/-
C80: what a line is to look like to the assembler.
-/
namespace Verif.Pp

/-- A line as the assembler is to see it: every stretch of white space is one space, the comment
    and white space at the end are gone, strings are untouched (and closed), `%{x}` is `%x`, and
    everything else is as it was. -/
def cleanF : Nat → Name → Name
  | _, [] => []
  | 0, _ => []
  | n + 1, 39 :: s => 39 :: (s.takeWhile (· ≠ 39) ++ 39 :: cleanF n ((s.dropWhile (· ≠ 39)).drop 1))
  | n + 1, 34 :: s => 34 :: (s.takeWhile (· ≠ 34) ++ 34 :: cleanF n ((s.dropWhile (· ≠ 34)).drop 1))
  | n + 1, 37 :: 123 :: s => 37 :: (s.takeWhile (· ≠ 125) ++ cleanF n ((s.dropWhile (· ≠ 125)).drop 1))
  | n + 1, 37 :: 37 :: s => 37 :: 37 :: cleanF n s
  | _ + 1, 59 :: _ => []
  | n + 1, c :: s =>
    if c = 32 ∨ (9 ≤ c ∧ c ≤ 13) then
      match s.dropWhile (fun c => decide (c = 32 ∨ (9 ≤ c ∧ c ≤ 13))) with
      | [] => []
      | 59 :: _ => []
      | r => 32 :: cleanF n r
    else c :: cleanF n s

/-- The same; every step takes a character. -/
def clean (line : Name) : Name := cleanF line.length line

-- ` mov  al,'a  ;b' ; comment`
example : clean [32, 109, 111, 118, 32, 9, 97, 108, 44, 39, 97, 32, 32, 59, 98, 39, 32, 59, 32, 99] =
    [32, 109, 111, 118, 32, 97, 108, 44, 39, 97, 32, 32, 59, 98, 39] := by decide +kernel

end Verif.Pp
