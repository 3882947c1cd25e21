/-
Model of the names of instructions: what gen_x86_insn.py makes of the calls of `add_insn` for the two tables of names, and what
x86id.c does with an entry of such a table.
-/
import Verif.Match.Gen

namespace Verif.Match

open Verif.Intnum
open Verif.Ea
open Verif.Insn

/-! ### The tables of names -/

/-- The two tables, x86insn_nasm.gperf and x86insn_gas.gperf. -/
inductive Dialect where
  | nasm | gas
deriving DecidableEq, Repr

/-- gen_x86_insn.py:158-163 `parsers` of a form. -/
def RawForm.has (p : Dialect) (r : RawForm) : Bool := match p with
  | .nasm => r.nasm
  | .gas => r.gas

/-- gen_x86_insn.py:386-391: the tables a name is for. -/
def RawInsn.has (p : Dialect) (n : RawInsn) : Bool :=
  if n.gasOnly then decide (p = .gas) else if n.nasmOnly then decide (p = .nasm) else n.suffix.isNone || decide (p = .gas)

/-- gen_x86_insn.py:428-433, 445-450: the forms a name stands for: those of the table and, if the name has a suffix, with it. -/
def applies (p : Dialect) (suffix : Option Suffix) (r : RawForm) : Bool :=
  r.has p && match suffix with
    | none => true
    | some s => (r.sufs.getD []).contains s

/-- gen_x86_insn.py:422-436 `auto_cpu` (413-415: AVX names). -/
def autoCpu (p : Dialect) (n : RawInsn) (suffix : Option Suffix) (g : List RawForm) : List Nat :=
  match n.cpu with
  | some c => c
  | none =>
    if n.avx then [34]
    else match g.filter (applies p suffix) with
      | [] => []
      | r :: rs => rs.foldl (fun a r => cpuLcd a r.flags.2) r.flags.2

/-- gen_x86_insn.py:405-412: some flag is given with the name. -/
def RawInsn.flagged (n : RawInsn) : Bool := n.only64 || n.not64 || n.avx

/-- gen_x86_insn.py:438-453 `auto_misc_flags`, one flag of it: what the name says, or what all of its forms have. -/
def autoFlag (p : Dialect) (n : RawInsn) (suffix : Option Suffix) (g : List RawForm) (own : Bool) (flag : RawForm → Bool) : Bool :=
  if n.flagged then own
  else match g.filter (applies p suffix) with
    | [] => false
    | r :: rs => (r :: rs).all flag

/-- An entry of a table of names (x86id.c:1595-1641 `insnprefix_parse_data`).  `suffix` is as in the script: none is for the forms
    with and without. -/
structure Keyword where
  name : String
  group : List RawForm
  suffix : Option Suffix
  modData : List Byte
  only64 : Bool
  not64 : Bool
  avx : Bool
  cpu : List Nat

/-- gen_x86_insn.py:462-493 `Insn.__str__` of a copy with a suffix.  (It raises an exception for more than three modifiers or
    processors; `keywords_short` says that there are none.) -/
def keyword (p : Dialect) (n : RawInsn) (g : List RawForm) (name : String) (suffix : Option Suffix) : Keyword :=
  { name := name, group := g, suffix := suffix, modData := (n.modifiers.map (BitVec.ofNat 8) ++ [0, 0, 0]).take 3,
    only64 := autoFlag p n suffix g n.only64 (fun r => r.flags.1), not64 := autoFlag p n suffix g n.not64 (fun r => r.not64),
    avx := autoFlag p n suffix g n.avx (fun r => r.onlyavx || r.vex.isSome), cpu := autoCpu p n suffix g }

/-- The letter of a suffix. -/
def Suffix.letter : Suffix → String
  | .z => ""
  | .b => "b"
  | .w => "w"
  | .l => "l"
  | .q => "q"
  | .s => "s"

/-- gen_x86_insn.py:546-553: the suffixes names of GAS are made with. -/
def gasSuffixes (n : RawInsn) (g : List RawForm) : List Suffix :=
  if n.suffix.isSome then [.z]
  else
    let all := (g.filter fun r => r.genSuffix).flatMap fun r => r.sufs.getD []
    if all.isEmpty then [.z] else [Suffix.z, .b, .w, .l, .q, .s].filter all.contains

/-- gen_x86_insn.py:534-578 `finalize_insns`: the entries one call of `add_insn` makes. -/
def keywords (p : Dialect) (n : RawInsn) (g : List RawForm) : List Keyword :=
  if n.has p && g.any (RawForm.has p) then
    match p with
    | .nasm => [keyword p n g n.name n.suffix]
    | .gas => (gasSuffixes n g).map fun t => keyword p n g (n.name ++ t.letter) (if n.suffix.isSome then n.suffix else some t)
  else []

/-! ### Using a name -/

/-- `tolower` in the C locale. -/
def lower (c : Char) : Char := if 65 ≤ c.toNat ∧ c.toNat ≤ 90 then Char.ofNat (c.toNat + 32) else c

/-- What x86id.c:1791-1905 looks at besides the name: the settings of the assembler. -/
structure Setting where
  mode : Nat
  cpu : Nat → Bool
  parser : Parser
  forceStrict : Bool
  defaultRel : Bool

/-- x86id.c:1809-1820: the table for a parser. -/
def Parser.dialect : Parser → Dialect
  | .nasm | .tasm => .nasm
  | .gas => .gas

/-- What becomes of a name that is in the table. -/
inductive Named where
  /-- It is no instruction, with the warning that it is one in 64-bit mode. -/
  | only64
  /-- It is an instruction without forms in this mode, with an error. -/
  | not64
  /-- It is no instruction, with the warning that it is one of other processors. -/
  | needsCpu (cpu : List Nat)
  | insn (x : IdInsn)

/-- The bits of a suffix in an entry (gen_x86_insn.py:463-468: without one it is Z). -/
def Keyword.suffixBits (k : Keyword) : BitVec 6 := sufBits [k.suffix.getD .z]

/-- x86id.c:1869-1886: the instruction a name starts; its operands and prefixes come later. -/
def Keyword.insn (k : Keyword) (a : Setting) : IdInsn :=
  { group := k.group.filterMap RawForm.form, cpu := a.cpu, modData := k.modData, mode := a.mode, suffix := k.suffixBits, avx := k.avx,
    parser := a.parser, forceStrict := a.forceStrict, defaultRel := a.defaultRel, ops := [], prefixes := [], segregs := [] }

/-- x86id.c:1824-1886, for the entry that was found.  (The instruction made after the error for NOT_64 is not followed: assembly
    fails anyway.) -/
def Keyword.check (k : Keyword) (a : Setting) : Named :=
  if a.mode ≠ 64 ∧ k.only64 = true then .only64
  else if a.mode = 64 ∧ k.not64 = true then .not64
  else if ((k.cpu ++ [0, 0, 0]).take 3).all a.cpu then .insn (k.insn a)
  else .needsCpu k.cpu

end Verif.Match
