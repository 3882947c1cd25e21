import Mathlib.Data.List.Basic
/-
Model of the name of the output where none was given: frontends/yasm/yasm.c:1441-1497 `replace_extension`.

Names are C strings, lists of characters without a zero; `ext` is the extension of the object format, `none` for one that has none.
-/
namespace Verif.Outname

abbrev Str := List Char

/-- The result: the name, whether the user is told that the default is used, the memory taken, and the places where the writes to it end. -/
structure Res where
  out : Str
  told : Bool
  size : Nat
  ends : List Nat
  deriving DecidableEq, Repr

/-- yasm.c:1458 `strrchr(out, '.')`: the text before the last dot and the text behind it. -/
def lastDot : Str → Option (Str × Str)
  | [] => none
  | c :: s =>
    match lastDot s with
    | some (a, b) => some (c :: a, b)
    | none => if c = '.' then some ([], s) else none

/-- yasm.c:1448-1454: the memory taken. -/
def outlen (orig : Str) (ext : Option Str) (dflt : Str) : Nat :=
  let n := match ext with
    | none => orig.length + 2
    | some e => orig.length + 2 + (e.length + 1)
  if n < dflt.length + 1 then dflt.length + 1 else n

/-- yasm.c:1441-1497 `replace_extension`. -/
def replaceExt (orig : Str) (ext : Option Str) (dflt : Str) : Res :=
  match lastDot orig, ext with
  | some (a, b), some e =>
    if b = e then ⟨dflt, true, outlen orig ext dflt, [orig.length + 1, dflt.length + 1]⟩
    else ⟨a ++ ['.'] ++ e, false, outlen orig ext dflt, [orig.length + 1, a.length + 1 + e.length + 1]⟩
  | some (a, _), none => ⟨a, false, outlen orig ext dflt, [orig.length + 1, a.length + 1]⟩
  | none, some e => ⟨orig ++ ['.'] ++ e, false, outlen orig ext dflt, [orig.length + 1, orig.length + 1, orig.length + 1 + e.length + 1]⟩
  | none, none => ⟨dflt, true, outlen orig ext dflt, [orig.length + 1, dflt.length + 1]⟩

/-- yasm.c:415-422, 496-504: the name of the output for the last part of the name of the source. -/
def objName (base : Str) (ext : Option Str) : Str :=
  match base with
  | [] => "yasm.out".toList
  | c :: s => (replaceExt (c :: s) ext "yasm.out".toList).out

end Verif.Outname
