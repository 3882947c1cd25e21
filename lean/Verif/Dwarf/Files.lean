/-
Model of the file table and the header of the line number section: modules/dbgfmts/dwarf2/dwarf2-line.c:175-238,
486-556, 650-834 and modules/dbgfmts/dwarf2/dwarf2-dbgfmt.c:146-312.

A character stands for a byte of a path; numbers are written in the 32-bit format, which is the only one used
(dwarf2-dbgfmt.c:101), least significant byte first (x86).
-/
import Verif.Dwarf.Model
import Verif.File.Path

namespace Verif.Dwarf

open Verif.Intnum

/-- dwarf2-dbgfmt.h:36-40 `dwarf2_filename` (`pathname` is only kept, never used). -/
structure FileEntry where
  name : List Char
  dir : Nat
deriving DecidableEq

/-- dwarf2-dbgfmt.h:47-53: the tables; `none` is a number with no file yet. -/
structure FileTable where
  dirs : List (List Char)
  files : List (Option FileEntry)

/-- dwarf2-line.c:185-204: the number of a directory, put into the table if it is not there.  (Its text is a prefix of
    the path and holds no zero byte, so that the comparison with `strncmp` and the test for the end come to equality.) -/
def addDir (dirs : List (List Char)) (d : List Char) : List (List Char) × Nat :=
  if d.length > 0 then
    let i := dirs.findIdx (fun x => decide (x = d))
    if i ≥ dirs.length then (dirs ++ [d], dirs.length + 1) else (dirs, i + 1)
  else (dirs, 0)

/-- dwarf2-line.c:207-217: where the file goes. -/
def slot (files : List (Option FileEntry)) (num : Nat) (e : FileEntry) : Nat :=
  if num = 0 then files.findIdx (fun x => decide (x = none ∨ x = some e)) else num - 1

/-- dwarf2-line.c:219-236: put it there; the table grows as needed, with numbers that have no file. -/
def put (files : List (Option FileEntry)) (i : Nat) (e : FileEntry) : List (Option FileEntry) :=
  if i < files.length then files.set i (some e) else files ++ List.replicate (i - files.length) none ++ [some e]

/-- dwarf2-line.c:175-238 `dwarf2_dbgfmt_add_file`; the index is the result. -/
def addFile (t : FileTable) (num : Nat) (path : List Char) : FileTable × Nat :=
  let sp := Verif.File.splitpath path
  let d := addDir t.dirs sp.1
  let e : FileEntry := ⟨sp.2, d.2⟩
  let i := slot t.files num e
  (⟨d.1, put t.files i e⟩, i)

/-- dwarf2-line.c:486-506 `dwarf2_filename_equals`; a number with no file: NULL is compared (`none`). -/
def filenameEquals (t : FileTable) (x : Option FileEntry) (d name : List Char) : Option Bool :=
  match x with
  | none => none
  | some e =>
    if e.dir = 0 then some (decide (d.length = 0) && decide (e.name = name))
    else some (decide (t.dirs.getD (e.dir - 1) [] = d) && decide (e.name = name))

/-- dwarf2-line.c:541-546: the search. -/
def searchFile (t : FileTable) (d name : List Char) : List (Option FileEntry) → Nat → Except Stop Nat
  | [], _ => .error .internal
  | x :: xs, i => match filenameEquals t x d name with
    | none => .error .crash
    | some true => .ok i
    | some false => searchFile t d name xs (i + 1)

/-- dwarf2-line.c:531-551: the number of the file of a bytecode, and the one used last. -/
def fileNumber (t : FileTable) (last : Nat) (path : List Char) : Except Stop Nat :=
  let sp := Verif.File.splitpath path
  if last > 0 then match filenameEquals t (t.files.getD (last - 1) none) sp.1 sp.2 with
    | none => .error .crash
    | some true => .ok last
    | some false => (searchFile t sp.1 sp.2 t.files 0).map (· + 1)
  else (searchFile t sp.1 sp.2 t.files 0).map (· + 1)

/-- dwarf2-line.c:650-656, 675-679: the files of the assembly source. -/
def addSources (t : FileTable) (paths : List (List Char)) : FileTable := paths.foldl (fun t p => (addFile t 0 p).1) t

/-! ### The header -/

/-- The bytes of a string. -/
def chars (s : List Char) : List Byte := s.map fun c => BitVec.ofNat 8 c.toNat

/-- Two and four bytes, least significant first (yasm_arch_intnum_tobytes of x86). -/
def word (n : Nat) : List Byte := [BitVec.ofNat 8 n, BitVec.ofNat 8 (n / 256)]
def dword (n : Nat) : List Byte := [BitVec.ofNat 8 n, BitVec.ofNat 8 (n / 256), BitVec.ofNat 8 (n / 65536), BitVec.ofNat 8 (n / 16777216)]

/-- dwarf2-line.c:57-73 `line_opcode_num_operands`. -/
def opcodeLengths : List Byte := [0, 1, 1, 1, 1, 0, 0, 0, 1, 0, 0, 1]

/-- dwarf2-line.c:703-713: the length counted for one file; a number with no file is an error. -/
def fileLen : Option FileEntry → Except Stop Nat
  | none => .error .reject
  | some e => .ok (e.name.length + 1 + (sizeUleb (BitVec.ofNat 64 e.dir)).toNat + 2)

/-- dwarf2-line.c:702-714. -/
def filesLen : List (Option FileEntry) → Except Stop Nat
  | [] => .ok 0
  | x :: xs => match fileLen x, filesLen xs with
    | .ok a, .ok b => .ok (a + b)
    | _, _ => .error .reject

/-- dwarf2-line.c:691-715: the length counted for the header. -/
def sppLen (t : FileTable) : Except Stop Nat :=
  match filesLen t.files with
  | .error e => .error e
  | .ok n => .ok (4 + 5 + opcodeLengths.length + (t.dirs.map fun d => d.length + 1).sum + 1 + n + 1)

/-- dwarf2-line.c:818-828: the bytes of one file. -/
def fileBytes : Option FileEntry → Option (List Byte)
  | none => none
  | some e => (getUleb (BitVec.ofNat 64 e.dir)).map fun b => chars e.name ++ 0 :: b ++ [0, 0]

/-- dwarf2-line.c:817-830. -/
def filesBytes : List (Option FileEntry) → Option (List Byte)
  | [] => some [0]
  | x :: xs => match fileBytes x, filesBytes xs with
    | some a, some b => some (a ++ b)
    | _, _ => none

/-- dwarf2-line.c:809-815. -/
def dirsBytes (dirs : List (List Char)) : List Byte := (dirs.flatMap fun d => chars d ++ [0]) ++ [0]

/-- dwarf2-line.c:777-836 `dwarf2_spp_bc_tobytes`; `len` is the length counted. -/
def sppBytes (min : Byte) (t : FileTable) (len : Nat) : Option (List Byte) :=
  (filesBytes t.files).map fun f =>
    dword (len - 4) ++ [min, 1, -5, 14, 13] ++ opcodeLengths ++ dirsBytes t.dirs ++ f

/-- dwarf2-dbgfmt.c:184-217 `yasm_dwarf2__add_head` without pointer, address and segment: the length counted. -/
def headLen : Nat := 4 + 2

/-- dwarf2-dbgfmt.c:247-312 `dwarf2_head_bc_tobytes`; `total` is the distance from the start of the unit to its end. -/
def headBytes (total : Nat) : List Byte := dword (total - 4) ++ word 2

/-- dwarf2-line.c:686-727: the section, given the lengths counted for the instructions and their bytes. -/
def lineUnit (min : Byte) (t : FileTable) (opsLen : Nat) (program : List Byte) : Except Stop (Option (List Byte)) :=
  match sppLen t with
  | .error e => .error e
  | .ok n => .ok ((sppBytes min t n).map fun h => headBytes (headLen + n + opsLen) ++ h ++ program)

end Verif.Dwarf
