import Verif.Cpp.Model
/-
Specification: what the shell reads from a command line, and what the dependencies of a file look like.
-/
namespace Verif.Cpp

/-- Words separated by blanks; `cur` is the word so far. -/
def wordsFrom : Str → Str → List Str
  | cur, [] => if cur = [] then [] else [cur]
  | cur, c :: s => if c = ' ' ∨ c = '\t' then (if cur = [] then wordsFrom [] s else cur :: wordsFrom [] s) else wordsFrom (cur ++ [c]) s

def words (s : Str) : List Str := wordsFrom [] s

/-- Commands separated by semicolons or ends of lines. -/
def partsFrom : Str → Str → List Str
  | cur, [] => [cur]
  | cur, c :: s => if c = ';' ∨ c = '\n' then cur :: partsFrom [] s else partsFrom (cur ++ [c]) s

/-- The commands the shell runs, each as its arguments, for a text without quotes, expansions and other operators. -/
def shell (s : Str) : List (List Str) := ((partsFrom [] s).map words).filter (fun w => !w.isEmpty)

/-- Characters that mean something to the shell. -/
def special : List Char := " \t\n;\"'\\$`*?[]#~&|<>(){}!".toList

/-- An argument that is not empty and has no special characters. -/
def Plain (s : Str) : Prop := s ≠ [] ∧ ∀ c ∈ s, c ∉ special

/-- What was asked for, as arguments. -/
def Req.words : Req → List Str
  | .pre f => ["-include".toList, f]
  | .define m => ["-D".toList, m]
  | .undefine m => ["-U".toList, m]
  | .builtin m => ["-D".toList, m]

def Req.text : Req → Str
  | .pre f => f
  | .define m => m
  | .undefine m => m
  | .builtin m => m

def dirWords (d : Str) : List Str := ["-I".toList, d]

/-- All that the C preprocessor is to be given. -/
def wanted (dirs : List Str) (rs : List Req) (extra : Option Str) (file : Str) : List Str :=
  dirs.flatMap dirWords ++ rs.flatMap Req.words ++ extra.toList ++ ["-x".toList, "assembler-with-cpp".toList, file]

/-- The length of arguments with a blank before each. -/
def room : List Str → Nat
  | [] => 0
  | w :: l => 1 + w.length + room l

/-- A rule on one line: the target, the source and the files it includes. -/
def rule (target src : Str) (names : List Str) : Str := target ++ [':', ' '] ++ src ++ names.flatMap (fun n => ' ' :: n) ++ ['\n']

end Verif.Cpp
