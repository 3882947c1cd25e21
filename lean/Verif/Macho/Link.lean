import Verif.Macho.Spec
/-
Specification for relocations: what a linker that follows the Mach-O file format puts into a field, and what the program asks for.
The rules are those of Apple's "OS X ABI Mach-O File Format Reference" and of <mach-o/x86_64/reloc.h>: for x86-64 each relocation is
to a symbol and the number in the field is added; for i386 a field has in it the address in the object file of what it refers to, and
if it is relative then it is so from its own address in the object file, and the linker adds what has moved.
-/
namespace Verif.Macho
open Verif.Elf (Byte Name Num)

/-- What a linker has decided: the addresses of the sections of the file, of the symbols that the file does not define, and of the
    entries of the table of addresses (the GOT). -/
structure Linker where
  addr : Nat → Int
  ext : Name → Int
  got : Name → Int

/-- The address of a symbol: in a section, absolute, or elsewhere. -/
def Linker.symbol (k : Linker) (f : List Byte) (y : Symbol) : Option Int :=
  if y.type / 2 % 8 = 7 then do
    let t ← sectionAt f (y.sect - 1)
    some (k.addr (y.sect - 1) + (y.value - t.addr))
  else if y.type / 2 % 8 = 1 then some y.value
  else some (k.ext y.name)

/-- X86_64_RELOC_UNSIGNED; SIGNED and BRANCH; GOT_LOAD and GOT: the number for the address `s` of the symbol, that of its entry `g` in the
    table, the number `a` in the field and the address `p` of the field. -/
def amd64 (type : Nat) (pcrel : Bool) (s g a p : Int) : Option Int :=
  match type, pcrel with
  | 0, false => some (s + a)
  | 1, true => some (s + a - (p + 4))
  | 2, true => some (s + a - (p + 4))
  | 3, true => some (g + a - (p + 4))
  | 4, true => some (g + a - (p + 4))
  | _, _ => none

/-- The number a linker puts into a field that has `a` in it, for the relocation `q` of section `i`. -/
def Linker.resolve (k : Linker) (f : List Byte) (i : Nat) (q : Rel) (a : Int) : Option Int := do
  let h ← hdr f
  let here ← sectionAt f i
  let moved := if q.pcrel then k.addr i - here.addr else 0
  if h.wide then
    guard (q.ext = true)
    let y ← symbolAt f q.num
    let s ← k.symbol f y
    amd64 q.type q.pcrel s (k.got y.name) a (k.addr i + q.addr)
  else if q.type ≠ 0 then none
  else if q.ext then do
    let y ← symbolAt f q.num
    let s ← k.symbol f y
    some (s + a - moved)
  else if q.num = 0 then some (a - moved)
  else do
    let t ← sectionAt f (q.num - 1)
    some (a + (k.addr (q.num - 1) - t.addr) - moved)

/-- Numbers that are the same in a field of some bits. -/
def SameField (bits : Nat) (a b : Int) : Prop := (2 ^ bits : Int) ∣ a - b

/-! ### What the program asks for -/

/-- The address of a symbol of the object. -/
def Obj.address (o : Obj) (k : Linker) (x : Sym) : Int :=
  match x.kind with
  | .label i off => k.addr i + off
  | .equ (.int v) => v
  | .equ .other => 0
  | .other => k.ext (o.wantName x)

/-- The number that is added. -/
def Val.added (v : Val) : Int := match v.abs with | some (.int a) => a | _ => 0

/-- The number asked for: for a value at `l` in section `j` that refers to the symbol `x`.  With `WRT ..gotpcrel` it is about the entry of the
    symbol in the table.  A value that is relative to the current position is relative to the start of the instruction or datum that
    it is in. -/
def Obj.asked (o : Obj) (k : Linker) (v : Val) (x : Sym) (j : Nat) (l : Loc) : Int :=
  (if v.wrt = some true then k.got (o.wantName x) else o.address k x) + v.added - if v.curposRel then k.addr j + l.bc else 0

end Verif.Macho
