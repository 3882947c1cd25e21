import Verif.File.Path
/-
Model of the search for included files: libyasm/file.c:537-574 `yasm_fopen_include`, 593-624 `yasm_add_include_path` and the list of paths.

Which files can be opened is given by a function of the path; the mode is not modelled.
-/
namespace Verif.File

/-- file.c:609-624 `yasm_add_include_path`; `none` for an empty path, where the byte before the string is read. -/
def addIncludePath (paths : List (List Char)) (path : List Char) : Option (List (List Char)) :=
  match path.getLast? with
  | none => none
  | some c => some (paths ++ [if c ≠ '\\' ∧ c ≠ '/' then path ++ ['/'] else path])

/-- All paths of the command line, in its order. -/
def addAll (paths : List (List Char)) : List (List Char) → Option (List (List Char))
  | [] => some paths
  | d :: l =>
    match addIncludePath paths d with
    | none => none
    | some paths => addAll paths l

/-- file.c:559-569: each of the include paths. -/
def tryPaths (opens : List Char → Bool) (iname : List Char) : List (List Char) → Option (List Char)
  | [] => none
  | p :: l => if opens (combpath p iname) then some (combpath p iname) else tryPaths opens iname l

/-- file.c:537-574 `yasm_fopen_include`: the name of the file that is opened. -/
def fopenInclude (opens : List Char → Bool) (paths : List (List Char)) (iname : List Char) (src : Option (List Char)) : Option (List Char) :=
  match src with
  | some f => if opens (combpath f iname) then some (combpath f iname) else tryPaths opens iname paths
  | none => tryPaths opens iname paths

end Verif.File
