/-
The code fill tables of the x86 and LC-3b architectures.
-/
namespace Verif.Bytecode

abbrev Byte := BitVec 8

/-- An architecture's table of code fill patterns, indexed by length; `none` is a NULL entry
(modules/arch/x86/x86arch.c:226-457, libyasm/arch.h `get_fill`). -/
abbrev FillTable := List (Option (List Byte))

/-- `fill16`, modules/arch/x86/x86arch.c:231-278. -/
def fill16 : FillTable :=
  [none,
   some [0x90],
   some [0x89, 0xf6],
   some [0x8d, 0x74, 0x00],
   some [0x8d, 0xb4, 0x00, 0x00],
   some [0x90, 0x8d, 0xb4, 0x00, 0x00],
   some [0x89, 0xf6, 0x8d, 0xbd, 0x00, 0x00],
   some [0x8d, 0x74, 0x00, 0x8d, 0xbd, 0x00, 0x00],
   some [0x8d, 0xb4, 0x00, 0x00, 0x8d, 0xbd, 0x00, 0x00],
   some [0xeb, 0x07, 0x90, 0x90, 0x90, 0x90, 0x90, 0x90, 0x90],
   some [0xeb, 0x08, 0x90, 0x90, 0x90, 0x90, 0x90, 0x90, 0x90, 0x90],
   some [0xeb, 0x09, 0x90, 0x90, 0x90, 0x90, 0x90, 0x90, 0x90, 0x90, 0x90],
   some [0xeb, 0x0a, 0x90, 0x90, 0x90, 0x90, 0x90, 0x90, 0x90, 0x90, 0x90, 0x90],
   some [0xeb, 0x0b, 0x90, 0x90, 0x90, 0x90, 0x90, 0x90, 0x90, 0x90, 0x90, 0x90, 0x90],
   some [0xeb, 0x0c, 0x90, 0x90, 0x90, 0x90, 0x90, 0x90, 0x90, 0x90, 0x90, 0x90, 0x90, 0x90],
   some [0xeb, 0x0d, 0x90, 0x90, 0x90, 0x90, 0x90, 0x90, 0x90, 0x90, 0x90, 0x90, 0x90, 0x90, 0x90]]

/-- `fill32`, modules/arch/x86/x86arch.c:280-356 (the #else branch). -/
def fill32 : FillTable :=
  [none,
   some [0x90],
   some [0x66, 0x90],
   some [0x8d, 0x76, 0x00],
   some [0x8d, 0x74, 0x26, 0x00],
   some [0x90, 0x8d, 0x74, 0x26, 0x00],
   some [0x8d, 0xb6, 0x00, 0x00, 0x00, 0x00],
   some [0x8d, 0xb4, 0x26, 0x00, 0x00, 0x00, 0x00],
   some [0x90, 0x8d, 0xb4, 0x26, 0x00, 0x00, 0x00, 0x00],
   some [0xeb, 0x07, 0x90, 0x90, 0x90, 0x90, 0x90, 0x90, 0x90],
   some [0xeb, 0x08, 0x90, 0x90, 0x90, 0x90, 0x90, 0x90, 0x90, 0x90],
   some [0xeb, 0x09, 0x90, 0x90, 0x90, 0x90, 0x90, 0x90, 0x90, 0x90, 0x90],
   some [0xeb, 0x0a, 0x90, 0x90, 0x90, 0x90, 0x90, 0x90, 0x90, 0x90, 0x90, 0x90],
   some [0xeb, 0x0b, 0x90, 0x90, 0x90, 0x90, 0x90, 0x90, 0x90, 0x90, 0x90, 0x90, 0x90],
   some [0xeb, 0x0c, 0x90, 0x90, 0x90, 0x90, 0x90, 0x90, 0x90, 0x90, 0x90, 0x90, 0x90, 0x90],
   some [0xeb, 0x0d, 0x90, 0x90, 0x90, 0x90, 0x90, 0x90, 0x90, 0x90, 0x90, 0x90, 0x90, 0x90, 0x90]]

/-- `fill32_intel`, modules/arch/x86/x86arch.c:280-283,359-394,419-425. -/
def fill32Intel : FillTable :=
  [none,
   some [0x90],
   some [0x66, 0x90],
   some [0x0f, 0x1f, 0x00],
   some [0x0f, 0x1f, 0x40, 0x00],
   some [0x0f, 0x1f, 0x44, 0x00, 0x00],
   some [0x66, 0x0f, 0x1f, 0x44, 0x00, 0x00],
   some [0x0f, 0x1f, 0x80, 0x00, 0x00, 0x00, 0x00],
   some [0x0f, 0x1f, 0x84, 0x00, 0x00, 0x00, 0x00, 0x00],
   some [0x66, 0x0f, 0x1f, 0x84, 0x00, 0x00, 0x00, 0x00, 0x00],
   some [0x66, 0x2e, 0x0f, 0x1f, 0x84, 0x00, 0x00, 0x00, 0x00, 0x00],
   some [0x66, 0x66, 0x2e, 0x0f, 0x1f, 0x84, 0x00, 0x00, 0x00, 0x00, 0x00],
   some [0x66, 0x66, 0x66, 0x2e, 0x0f, 0x1f, 0x84, 0x00, 0x00, 0x00, 0x00, 0x00],
   some [0x66, 0x66, 0x66, 0x66, 0x2e, 0x0f, 0x1f, 0x84, 0x00, 0x00, 0x00, 0x00, 0x00],
   some [0x66, 0x66, 0x66, 0x66, 0x66, 0x2e, 0x0f, 0x1f, 0x84, 0x00, 0x00, 0x00, 0x00, 0x00],
   some [0x66, 0x66, 0x66, 0x66, 0x66, 0x66, 0x2e, 0x0f, 0x1f, 0x84, 0x00, 0x00, 0x00, 0x00, 0x00]]

/-- `fill32_amd`, modules/arch/x86/x86arch.c:280-283,359-375,396-417,426-432. -/
def fill32Amd : FillTable :=
  [none,
   some [0x90],
   some [0x66, 0x90],
   some [0x0f, 0x1f, 0x00],
   some [0x0f, 0x1f, 0x40, 0x00],
   some [0x0f, 0x1f, 0x44, 0x00, 0x00],
   some [0x66, 0x0f, 0x1f, 0x44, 0x00, 0x00],
   some [0x0f, 0x1f, 0x80, 0x00, 0x00, 0x00, 0x00],
   some [0x0f, 0x1f, 0x84, 0x00, 0x00, 0x00, 0x00, 0x00],
   some [0x66, 0x0f, 0x1f, 0x84, 0x00, 0x00, 0x00, 0x00, 0x00],
   some [0x66, 0x66, 0x0f, 0x1f, 0x84, 0x00, 0x00, 0x00, 0x00, 0x00],
   some [0x0f, 0x1f, 0x44, 0x00, 0x00, 0x66, 0x0f, 0x1f, 0x44, 0x00, 0x00],
   some [0x66, 0x0f, 0x1f, 0x44, 0x00, 0x00, 0x66, 0x0f, 0x1f, 0x44, 0x00, 0x00],
   some [0x66, 0x0f, 0x1f, 0x44, 0x00, 0x00, 0x0f, 0x1f, 0x80, 0x00, 0x00, 0x00, 0x00],
   some [0x0f, 0x1f, 0x80, 0x00, 0x00, 0x00, 0x00, 0x0f, 0x1f, 0x80, 0x00, 0x00, 0x00, 0x00],
   some [0x0f, 0x1f, 0x80, 0x00, 0x00, 0x00, 0x00, 0x0f, 0x1f, 0x84, 0x00, 0x00, 0x00, 0x00, 0x00]]
/-- `fill`, modules/arch/lc3b/lc3barch.c:88-116: even lengths only. -/
def fillLc3b : FillTable :=
  [none, none, some (List.replicate 2 0), none, some (List.replicate 4 0), none,
   some (List.replicate 6 0), none, some (List.replicate 8 0), none, some (List.replicate 10 0), none,
   some (List.replicate 12 0), none, some (List.replicate 14 0), none]

/-- The NOP style the user selected (modules/arch/x86/x86arch.h `X86_NOP_*`). -/
inductive NopStyle where
  | basic | intel | amd
  deriving DecidableEq, Repr

/-- modules/arch/x86/x86arch.c:434-456: the table for the current mode; `none` is the error. -/
def x86GetFill (modeBits : Nat) (nop : NopStyle) : Option FillTable :=
  if modeBits = 16 then some fill16
  else if modeBits = 32 then
    match nop with
    | .intel => some fill32Intel
    | .amd => some fill32Amd
    | .basic => some fill32
  else if modeBits = 64 then
    match nop with
    | .amd => some fill32Amd
    | _ => some fill32Intel
  else none

end Verif.Bytecode
