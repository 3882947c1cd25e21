/-
Model of the search for the name of an instruction or prefix: the prefixes of gen_x86_insn.py, the two tables of names, and
`yasm_x86__parse_check_insnprefix` of x86id.c.
-/
import Verif.Match.Table
import Verif.Match.Keyword

namespace Verif.Match

open Verif.Intnum
open Verif.Ea
open Verif.Insn

/-- An entry for a prefix (gen_x86_insn.py:503-519). -/
structure PrefixWord where
  name : String
  gas : Bool := true
  nasm : Bool := true
  value : Prefix
  only64 : Bool := false

/-- gen_x86_insn.py:7122-7123, 8465-8496: the calls of `add_prefix`, with the loops written out. -/
def prefixWords : List PrefixWord :=
  [ { name := "xacquire", value := .acqrel 0xF2 },
    { name := "xrelease", value := .acqrel 0xF3 },
    { name := "o16", gas := false, value := .opersize 16 },
    { name := "data16", nasm := false, value := .opersize 16 },
    { name := "o32", gas := false, value := .opersize 32 },
    { name := "data32", nasm := false, value := .opersize 32 },
    { name := "o64", gas := false, value := .opersize 64, only64 := true },
    { name := "data64", nasm := false, value := .opersize 64, only64 := true },
    { name := "word", nasm := false, value := .opersize 16 },
    { name := "dword", nasm := false, value := .opersize 32 },
    { name := "qword", nasm := false, value := .opersize 64, only64 := true },
    { name := "a16", gas := false, value := .addrsize 16 },
    { name := "addr16", nasm := false, value := .addrsize 16 },
    { name := "a32", gas := false, value := .addrsize 32 },
    { name := "addr32", nasm := false, value := .addrsize 32 },
    { name := "a64", gas := false, value := .addrsize 64, only64 := true },
    { name := "addr64", nasm := false, value := .addrsize 64, only64 := true },
    { name := "aword", nasm := false, value := .addrsize 16 },
    { name := "adword", nasm := false, value := .addrsize 32 },
    { name := "aqword", nasm := false, value := .addrsize 64, only64 := true },
    { name := "lock", value := .lockrep 0xF0 },
    { name := "repne", value := .lockrep 0xF2 },
    { name := "repnz", value := .lockrep 0xF2 },
    { name := "rep", value := .lockrep 0xF3 },
    { name := "repe", value := .lockrep 0xF3 },
    { name := "repz", value := .lockrep 0xF3 },
    { name := "ht", nasm := false, value := .segreg 0x3E },
    { name := "hnt", nasm := false, value := .segreg 0x2E },
    { name := "rex", nasm := false, value := .rex 0x40, only64 := true },
    { name := "rex64", nasm := false, value := .rex 0x48, only64 := true },
    { name := "rexz", nasm := false, value := .rex 0x41, only64 := true },
    { name := "rex64z", nasm := false, value := .rex 0x49, only64 := true },
    { name := "rexy", nasm := false, value := .rex 0x42, only64 := true },
    { name := "rex64y", nasm := false, value := .rex 0x4A, only64 := true },
    { name := "rexyz", nasm := false, value := .rex 0x43, only64 := true },
    { name := "rex64yz", nasm := false, value := .rex 0x4B, only64 := true },
    { name := "rexx", nasm := false, value := .rex 0x44, only64 := true },
    { name := "rex64x", nasm := false, value := .rex 0x4C, only64 := true },
    { name := "rexxz", nasm := false, value := .rex 0x45, only64 := true },
    { name := "rex64xz", nasm := false, value := .rex 0x4D, only64 := true },
    { name := "rexxy", nasm := false, value := .rex 0x46, only64 := true },
    { name := "rex64xy", nasm := false, value := .rex 0x4E, only64 := true },
    { name := "rexxyz", nasm := false, value := .rex 0x47, only64 := true },
    { name := "rex64xyz", nasm := false, value := .rex 0x4F, only64 := true } ]

/-- gen_x86_insn.py:526-531: the tables a prefix is in. -/
def PrefixWord.has (p : Dialect) (w : PrefixWord) : Bool := match p with
  | .nasm => w.nasm
  | .gas => w.gas

/-- An entry of a table of names. -/
inductive Entry where
  | insn (k : Keyword)
  | pfx (w : PrefixWord)

def Entry.name : Entry → String
  | .insn k => k.name
  | .pfx w => w.name

/-- The keywords of one of the two tables. -/
def keywordsOf (p : Dialect) : List Keyword := names.flatMap fun n => keywords p n (groups.getD n.group [])

/-- gen_x86_insn.py:580-609: one of the two tables.  (Python's dictionaries keep the last entry of a name; `names_distinct` says that
    there is only one.) -/
def entries (p : Dialect) : List Entry := (keywordsOf p).map .insn ++ (prefixWords.filter (PrefixWord.has p)).map .pfx

/-- What becomes of an identifier. -/
inductive Identified where
  /-- Neither an instruction nor a prefix. -/
  | unknown
  | insn (r : Named)
  | pfx (v : Prefix)
  /-- A prefix that can not be used in 64-bit mode, with an error. -/
  | prefixNot64
  /-- A prefix of 64-bit mode, with a warning. -/
  | prefixOnly64

/-- x86id.c:1889-1912, for the entry of a prefix that was found. -/
def PrefixWord.check (w : PrefixWord) (mode : Nat) : Identified :=
  if mode = 64 ∧ w.value = .opersize 32 then .prefixNot64
  else if mode = 64 ∧ w.value = .addrsize 16 then .prefixNot64
  else if mode ≠ 64 ∧ w.only64 = true then .prefixOnly64
  else .pfx w.value

/-- x86id.c:1791-1912 `yasm_x86__parse_check_insnprefix`.  (The perfect hash of the generated table is taken to find the entry with
    the name, if there is one.) -/
def identify (a : Setting) (id : List Char) : Identified :=
  if id.length > 16 then .unknown
  else match (entries a.parser.dialect).find? fun e => e.name.toList = id.map lower with
    | none => .unknown
    | some (.insn k) => .insn (k.check a)
    | some (.pfx w) => w.check a.mode

end Verif.Match
