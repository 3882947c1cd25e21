import Verif.Elf.Model
/-
Model of the listing: modules/listfmts/nasm/nasm-listfmt.c.

A line of the source has its text and the bytecodes that are listed with it: from the one that the parser has put into the line map on,
as long as they are of the same line (nasm-listfmt.c:199).  Of a bytecode the model has what `yasm_bc_tobytes` and
`yasm_bc_get_multiple` (libyasm/bytecode.c:301-372) give, and the values that `yasm_value_output_basic` has declined, in order.
`unsigned long` is a natural number; text is a list of characters without newlines; writing does not fail.
-/
namespace Verif.Listing
open Verif.Elf (Byte)

/-- A value that refers to something elsewhere: the offset in the bytecode (with its copies), the bytes it has, and whether it is relative to the
    current position (nasm-listfmt.c:104-108). -/
structure Val where
  offset : Nat
  size : Nat
  rel : Bool
  deriving DecidableEq, Repr

/-- A bytecode.  `mult` is the number of copies, `none` if it cannot be determined; `reserve` if nothing is written for it; `bytes` are those
    of all copies.  `junk` is what the variable `gap` holds before the call (nasm-listfmt.c:206). -/
structure Code where
  offset : Nat
  mult : Option Nat
  reserve : Bool
  bytes : List Byte
  vals : List Val
  junk : Bool
  deriving DecidableEq, Repr

/-- A line of the source: its text, and its section and bytecodes if it has any. -/
structure Line where
  source : List Char
  code : Option (Nat × List Code)
  deriving DecidableEq, Repr

/-! ### Numbers -/

/-- A digit as printf writes it. -/
def digitChar (d : Nat) : Char := "0123456789ABCDEF".toList.getD d '?'

/-- The digits of a number. -/
def digits (b n : Nat) : List Nat := if h : b < 2 ∨ n < b then [n] else digits b (n / b) ++ [n % b]
  termination_by n
  decreasing_by exact Nat.div_lt_self (by omega) (by omega)

/-- `%*s` with an empty string: the absolute value of a width that is negative. -/
def blanks (w : Int) : List Char := List.replicate w.natAbs ' '

/-- `%6lu` -/
def lineNo (n : Nat) : List Char := let d := (digits 10 n).map digitChar; List.replicate (6 - d.length) ' ' ++ d

/-- `%08lX` -/
def address (n : Nat) : List Char := let d := (digits 16 n).map digitChar; List.replicate (8 - d.length) '0' ++ d

/-- `%02X` -/
def hexByte (b : Byte) : List Char := [digitChar (b.toNat / 16), digitChar (b.toNat % 16)]

/-! ### Relocations -/

/-- nasm-listfmt.c:103-118: a mark is made for a value if the next relocation of the section is there. -/
def marks (start : Nat) : List Val → List Nat → List Val × List Nat
  | [], rs => ([], rs)
  | v :: vs, [] => marks start vs []
  | v :: vs, r :: rs =>
    if r = start + v.offset then
      let m := marks start vs rs
      (v :: m.1, m.2)
    else marks start vs (r :: rs)

/-! ### Rows -/

/-- nasm-listfmt.c:236-240: the bracket before byte `p`. -/
def opening (p : Nat) : List Val → List Char
  | m :: _ => if p = m.offset then [if m.rel then '(' else '['] else []
  | [] => []

/-- nasm-listfmt.c:243-247: the bracket after byte `p`. -/
def closing (p : Nat) : List Val → List Char
  | m :: _ => if p + 1 = m.offset + m.size then [if m.rel then ')' else ']'] else []
  | [] => []

/-- nasm-listfmt.c:257-262: the source at the end of a row. -/
def sourceText : Option (List Char) → List Char
  | some s => "    ".toList ++ s
  | none => []

/-- nasm-listfmt.c:234-249: the bytes of a row, from column `i` on and byte `p` of the bytecode on; also the column after them, the bytes
    that are left and the marks that are left. -/
def cells (i p : Nat) : List Byte → List Val → List Char × Nat × Nat × List Byte × List Val
  | [], ms => ([], i, p, [], ms)
  | b :: bs, ms =>
    if i < 18 then
      let o := opening p ms
      let c := closing p ms
      let t := cells (i + o.length + 2 + c.length) (p + 1) bs (if c = [] then ms else ms.tail)
      (o ++ hexByte b ++ c ++ t.1, t.2)
    else ([], i, p, b :: bs, ms)

/-- nasm-listfmt.c:230-265: the rows of a bytecode, in at most `fuel` rounds (there are no more than bytes); the number of the next row is
    that of `n` and the rows. -/
def rows (n start : Nat) (rept : Bool) : Nat → Nat → List Byte → List Val → Option (List Char) → List (List Char)
  | 0, _, _, _, _ => []
  | _ + 1, _, [], _, _ => []
  | fuel + 1, p, b :: bs, ms, source =>
    let t := cells 0 p (b :: bs) ms
    let tail :=
      if t.2.2.2.1 ≠ [] then ['-']
      else (if rept then "<rept>".toList else []) ++ blanks (18 - ((t.2.1 : Int) + if rept then 6 else 0) + 1)
    (lineNo n ++ [' '] ++ address start ++ [' '] ++ t.1 ++ tail ++ sourceText source) ::
      rows (n + 1) start rept fuel t.2.2.1 t.2.2.2.1 t.2.2.2.2 none

/-- Has `yasm_bc_tobytes` written bytes (libyasm/bytecode.c:314-346)? -/
def Code.written (c : Code) : Bool := match c.mult with | none => false | some m => decide (0 < m) && !c.reserve

/-- The bytes of one copy (nasm-listfmt.c:214-218). -/
def Code.shown (c : Code) : List Byte := if c.written then c.bytes.take (c.bytes.length / c.mult.getD 1) else []

/-- `gap` after the call: it is only set if there are copies. -/
def Code.gap (c : Code) : Bool := match c.mult with | none => c.junk | some 0 => c.junk | some _ => c.reserve

/-- `multiple > 1` -/
def Code.rept (c : Code) : Bool := match c.mult with | some m => decide (1 < m) | none => false

/-- What goes on from bytecode to bytecode of a line: the number of the next row, the relocations of the section that are left, the marks of the
    line, and the source if it has not been written. -/
structure State where
  n : Nat
  rs : List Nat
  ms : List Val
  source : Option (List Char)

/-- nasm-listfmt.c:199-270: one bytecode.  The marks of the bytecodes of a line are kept until its end. -/
def piece (s : State) (c : Code) : List (List Char) × State :=
  let r := if c.written then marks c.offset c.vals s.rs else ([], s.rs)
  let ms := s.ms ++ r.1
  if c.gap then
    ([lineNo s.n ++ [' '] ++ address c.offset ++ " <gap>".toList ++ blanks 18 ++ s.source.getD []], ⟨s.n + 1, r.2, ms, s.source⟩)
  else
    let out := rows s.n c.offset c.rept c.shown.length 0 c.shown ms s.source
    (out, ⟨s.n + out.length, r.2, ms, if out = [] then s.source else none⟩)

def pieces (s : State) : List Code → List (List Char) × State
  | [] => ([], s)
  | c :: cs =>
    let a := piece s c
    let b := pieces a.2 cs
    (a.1 ++ b.1, b.2)

/-- nasm-listfmt.c:160-289 `nasm_listfmt_output`: all lines, from row `n` on; `hist` has the relocations that are left of each section. -/
def output (n : Nat) (hist : Nat → List Nat) : List Line → List (List Char)
  | [] => []
  | ⟨source, none⟩ :: ls => (lineNo n ++ [' '] ++ blanks 32 ++ source) :: output (n + 1) hist ls
  | ⟨source, some (sect, cs)⟩ :: ls =>
    let a := pieces ⟨n, hist sect, [], some source⟩ cs
    a.1 ++ output a.2.n (fun k => if k = sect then a.2.rs else hist k) ls

/-- The file: `relocs` are the addresses of the relocations of each section. -/
def listing (relocs : Nat → List Nat) (ls : List Line) : List Char := (output 1 relocs ls).flatMap (· ++ ['\n'])

end Verif.Listing
