/-
Model of modules/dbgfmts/dwarf2/dwarf2-line.c (the DWARF 2 line number program), with the DWARF 3 additions
switched on, as dwarf2-dbgfmt.h:30 does.  `unsigned long` and `long` are 64 bits.
-/
import Verif.Intnum.Model

namespace Verif.Dwarf

open Verif.Intnum

abbrev Byte := BitVec 8
abbrev Long := BitVec 64

/-- How generation can end early: an error that is reported, `yasm_internal_error`, a NULL dereference. -/
inductive Stop where
  | reject
  | internal
  | crash
deriving DecidableEq, Repr

/-- dwarf2-dbgfmt.h:73-77. -/
inductive Stmt where
  | nochange
  | set
  | clear
deriving DecidableEq, Repr

/-- dwarf2-dbgfmt.h:60-84 `dwarf2_loc`; `isa` stands for `isa_change` and `isa`, `bc` for the offset of the
    bytecode (`none`: NULL). -/
structure Loc where
  vline : Long
  file : Long
  line : Long
  column : Long
  disc : Long
  isa : Option Long
  stmt : Stmt
  block : Bool
  prologue : Bool
  epilogue : Bool
  bc : Option Long
  sym : Option Nat

/-- dwarf2-line.c:98-113 `dwarf2_line_state`; `address` is never used; `prec` is the offset of `precbc`. -/
structure State where
  file : Long
  line : Long
  column : Long
  isa : Long
  stmt : Bool
  prec : Option Long

/-- dwarf2-line.c:120-129 `dwarf2_line_op`: standard (or special) opcodes; extended opcodes with a symbol, a
    number, or nothing after them. -/
inductive LineOp where
  | std (op : Byte) (operand : Option Intnum)
  | sym (op : Byte) (size : Nat) (sym : Nat)
  | num (op : Byte) (operand : Intnum)
  | bare (op : Byte)
deriving DecidableEq

/-- dwarf2-line.c:241-297: the length counted for it (`bc->len`). -/
def opLen : LineOp → Long
  | .std op operand => match operand with
    | none => 1
    | some x => 1 + sizeLeb128 x (decide (op = 3#8))
  | .sym _ size _ => 2 + sizeLeb128 (createUint (BitVec.ofNat 64 size + 1)) false + BitVec.ofNat 64 size
  | .num _ x => 2 + sizeLeb128 (createUint (sizeLeb128 x false + 1)) false + sizeLeb128 x false
  | .bare _ => 2 + sizeLeb128 (createUint 1) false

/-- dwarf2-line.c:864-895 `dwarf2_line_op_bc_tobytes`; `out` says how a symbol is written in so many bytes;
    `none` if a number cannot be written. -/
def opBytes (out : Nat → Nat → List Byte) : LineOp → Option (List Byte)
  | .std op operand => match operand with
    | none => some [op]
    | some x => (getLeb128 x (decide (op = 3#8))).map fun b => op :: b
  | .sym op size s => (getLeb128 (createUint (BitVec.ofNat 64 size + 1)) false).map fun b => 0 :: b ++ op :: out s size
  | .num op x =>
    match getLeb128 (createUint (sizeLeb128 x false + 1)) false, getLeb128 x false with
    | some a, some b => some (0 :: a ++ op :: b)
    | _, _ => none
  | .bare op => (getLeb128 (createUint 1) false).map fun b => 0 :: b ++ [op]

/-- The bytes of a list of them. -/
def bytes (out : Nat → Nat → List Byte) : List LineOp → Option (List Byte)
  | [] => some []
  | op :: ops => match opBytes out op, bytes out ops with
    | some a, some b => some (a ++ b)
    | _, _ => none

/-- dwarf2-line.c:340-344: the file. -/
def opFile (s : State) (l : Loc) : List LineOp := if s.file ≠ l.file then [.std 4 (some (createUint l.file))] else []
/-- dwarf2-line.c:345-349: the column. -/
def opColumn (s : State) (l : Loc) : List LineOp := if s.column ≠ l.column then [.std 5 (some (createUint l.column))] else []
/-- dwarf2-line.c:350-354: the discriminator. -/
def opDisc (l : Loc) : List LineOp := if l.disc ≠ 0 then [.num 4 (createUint l.disc)] else []
/-- dwarf2-line.c:355-361: the instruction set. -/
def opIsa (l : Loc) : List LineOp := match l.isa with
  | none => []
  | some i => [.std 12 (some (createUint i))]
/-- dwarf2-line.c:362-368: is the statement flag changed? -/
def flips (s : State) (l : Loc) : Bool := (!s.stmt && decide (l.stmt = .set)) || (s.stmt && decide (l.stmt = .clear))

/-- dwarf2-line.c:340-380: the registers other than address and line. -/
def registers (s : State) (l : Loc) : List LineOp × State :=
  (opFile s l ++ opColumn s l ++ opDisc l ++ opIsa l ++ (if flips s l then [.std 6 none] else []) ++
    (if l.block then [.std 7 none] else []) ++ (if l.prologue then [.std 10 none] else []) ++
    (if l.epilogue then [.std 11 none] else []),
   { s with file := l.file, column := l.column, isa := l.isa.getD s.isa, stmt := xor s.stmt (flips s l) })

/-- dwarf2-line.c:382-384: is there another one for the same place? -/
def superseded (l : Loc) (next : Option Loc) : Except Stop Bool :=
  match next with
  | none => .ok false
  | some n => match n.bc, l.bc with
    | some a, some b => .ok (decide (a = b))
    | _, _ => .error .crash

/-- dwarf2-line.c:386-402: the address, and by how much it goes up; `none`: nothing more is done. -/
def address (size : Nat) (s : State) (l : Loc) : Except Stop (Option (List LineOp × Long)) :=
  match s.prec with
  | none => match l.sym with
    | none => .error .reject
    | some y => .ok (some ([.sym 2 size y], 0))
  | some p => match l.bc with
    | none => .ok none
    | some b => if b.toNat < p.toNat then .error .internal else .ok (some ([], b - p))

/-- dwarf2-line.c:91-93: the most a special opcode adds to the address. -/
def maxAddr (min : Long) : Long := 17 * min

/-- The line part of a special opcode, counted from the opcode base (dwarf2-line.c:423, 425, 450). -/
def special (ld : Long) (a : Long) : BitVec 32 := (13 + ld + 5 + 14 * a).truncate 32

/-- dwarf2-line.c:404-455: the row; `ld` is the difference of the lines, `addr` that of the addresses. -/
def rowOps (min ld addr : Long) : List LineOp :=
  let far : Bool := ld.slt (-5) || !ld.slt 9
  let pre : List LineOp := if far then [.std 3 (some (createInt ld))] else []
  let ld : Long := if far then 0 else ld
  let op1 := special ld (addr / min)
  let op2 := special ld ((addr - maxAddr min) / min)
  pre ++
    (if ld = 0 ∧ addr = 0 then [.std 1 none]
     else if addr.toNat ≤ (maxAddr min).toNat ∧ op1.sle 255 then [.std (op1.truncate 8) none]
     else if addr.toNat ≤ (2 * maxAddr min).toNat ∧ op2.sle 255 then [.std 8 none, .std (op2.truncate 8) none]
     else .std 2 (some (createUint addr)) ::
       (if ld = 0 then [.std 1 none] else [.std ((special ld 0).truncate 8) none]))

/-- dwarf2-line.c:329-456 `dwarf2_dbgfmt_gen_line_op`: what is appended, and the new state. -/
def genLineOp (min : Long) (size : Nat) (s : State) (l : Loc) (next : Option Loc) : Except Stop (List LineOp × State) :=
  let r := registers s l
  match superseded l next with
  | .error e => .error e
  | .ok true => .ok r
  | .ok false =>
    match address size r.2 l with
    | .error e => .error e
    | .ok none => .ok r
    | .ok (some a) => .ok (r.1 ++ a.1 ++ rowOps min (l.line - r.2.line) a.2, { r.2 with line := l.line, prec := l.bc })

/-- A bytecode of a section, as far as line numbers are concerned: its line, its offset, the offset after it,
    and the labels at its end (bytecode.c:121-140, symrec.c:338-340). -/
structure Bc where
  line : Long
  offset : Long
  next : Long
  syms : List Nat

/-- dwarf2-line.c:314-322: go on to the first bytecode whose line is beyond `vline`, noting the last label. -/
def seek (vline : Long) : List Bc → Option Nat → List Bc × Option Nat
  | [], last => ([], last)
  | b :: bs, last =>
    if b.line.toNat ≤ vline.toNat then seek vline bs (b.syms.getLast?.or last)
    else (b :: bs, last)

/-- dwarf2-line.c:299-327 `dwarf2_dbgfmt_finalize_locs`; `bs` is the rest of the section. -/
def finalizeLocs : List Loc → List Bc → Option Nat → List Loc
  | [], _, _ => []
  | l :: ls, bs, last =>
    let r := seek l.vline bs last
    { l with sym := r.2, bc := r.1.head?.map Bc.offset } :: finalizeLocs ls r.1 r.2

/-- dwarf2-line.c:622-626: generate for every location. -/
def genLocs (min : Long) (size : Nat) : State → List Loc → Except Stop (List LineOp × State)
  | s, [] => .ok ([], s)
  | s, l :: ls =>
    match genLineOp min size s l ls.head? with
    | .error e => .error e
    | .ok r => match genLocs min size r.2 ls with
      | .error e => .error e
      | .ok q => .ok (r.1 ++ q.1, q.2)

/-- dwarf2-line.c:575-583: the registers at the start of a sequence. -/
def State.start : State := ⟨1, 1, 0, 0, true, none⟩

/-- dwarf2-line.c:629-645: end the sequence at the end of the section; `first` and `last` are the offset of the
    first bytecode and that after the last. -/
def endOps (min : Long) (s : State) (first last : Long) : List LineOp :=
  let addr := last - s.prec.getD first
  (if addr = maxAddr min then [.std 8 none] else if addr ≠ 0 then [.std 2 (some (createUint addr))] else []) ++ [.bare 1]

/-- dwarf2-line.c:616-648 `dwarf2_generate_line_section`, for the locations given by directives.  `bcs` are all
    the bytecodes of the section, from the empty one every section starts with. -/
def lineSection (min : Long) (size : Nat) (bcs : List Bc) (locs : List Loc) : Except Stop (List LineOp) :=
  match genLocs min size State.start (finalizeLocs locs bcs none) with
  | .error e => .error e
  | .ok r => .ok (r.1 ++ endOps min r.2 ((bcs.head?.map Bc.offset).getD 0) ((bcs.getLast?.map Bc.next).getD 0))

/-! ### From the assembly source itself -/

/-- dwarf2-line.c:508-556 `dwarf2_generate_line_bc` for one bytecode; `at` gives the file number and the line of a
    virtual line (yasm_linemap_lookup and the file table). -/
def genBc (min : Long) (size : Nat) (where_ : Long → Long × Long) (s : State) (sym : Option Nat) (b : Bc) (next : Option Bc) :
    Except Stop (List LineOp × State × Option Nat) :=
  if next.map Bc.offset = some b.offset then .ok ([], s, sym)
  else
    let sym := b.syms.getLast?.or sym
    let w := where_ b.line
    match genLineOp min size s ⟨b.line, w.1, w.2, 0, 0, none, .nochange, false, false, false, some b.offset, sym⟩ none with
    | .error e => .error e
    | .ok r => .ok (r.1, r.2, sym)

/-- section.c:646-667, over the bytecodes after the first. -/
def genBcs (min : Long) (size : Nat) (where_ : Long → Long × Long) : State → Option Nat → List Bc → Except Stop (List LineOp × State)
  | s, _, [] => .ok ([], s)
  | s, sym, b :: bs =>
    match genBc min size where_ s sym b bs.head? with
    | .error e => .error e
    | .ok r => match genBcs min size where_ r.2.1 r.2.2 bs with
      | .error e => .error e
      | .ok q => .ok (r.1 ++ q.1, q.2)

/-- dwarf2-line.c:585-614 and 629-648, for the assembly source.  (An error does not keep the end of the sequence from
    being written; here it is the result.) -/
def lineSource (min : Long) (size : Nat) (where_ : Long → Long × Long) (bcs : List Bc) : Except Stop (List LineOp) :=
  match bcs with
  | [] => .error .crash
  | b :: bs =>
    match genBcs min size where_ State.start b.syms.getLast? bs with
    | .error e => .error e
    | .ok r => .ok (r.1 ++ endOps min r.2 b.offset (((b :: bs).getLast?.map Bc.next).getD 0))

/-! ### The options of the directive -/

/-- The names of the options, compared without regard to case (dwarf2-line.c:1042-1067). -/
inductive Key where
  | isStmt
  | isa
  | discriminator
  | basicBlock
  | prologueEnd
  | epilogueBegin
  | other
deriving DecidableEq, Repr

/-- A parameter (valparam.h:51-76): the name before an equals sign, the identifier it is, and the number it is. -/
structure Param where
  name : Option Key
  id : Option Key
  num : Option Int

/-- dwarf2-line.c:899: `in_is_stmt`, `in_isa`, `in_discriminator` (at most one of them is ever set). -/
inductive Wait where
  | no
  | isStmt
  | isa
  | discriminator
deriving DecidableEq, Repr

/-- dwarf2-line.c:982-1040: take the value of the option waited for; `Int` stands for the number, and its low
    64 bits for `yasm_intnum_get_uint`. -/
def optValue (w : Wait) (l : Loc) (n : Option Int) : Except Stop Loc :=
  match n with
  | none => .error .reject
  | some n => match w with
    | .no => .ok l
    | .isStmt => if n = 0 then .ok { l with stmt := .set } else if n = 1 then .ok { l with stmt := .clear } else .error .reject
    | .isa => if n < 0 then .error .reject else .ok { l with isa := some (BitVec.ofInt 64 n) }
    | .discriminator => if n < 0 then .error .reject else .ok { l with disc := BitVec.ofInt 64 n }

/-- Which option with a value a name is. -/
def Key.wait : Key → Wait
  | .isStmt => .isStmt
  | .isa => .isa
  | .discriminator => .discriminator
  | _ => .no

/-- dwarf2-line.c:1041-1056: an option that is a name alone (an unknown one is only warned about). -/
def optName (l : Loc) : Key → Loc
  | .basicBlock => { l with block := true }
  | .prologueEnd => { l with prologue := true }
  | .epilogueBegin => { l with epilogue := true }
  | _ => l

/-- dwarf2-line.c:976-1072: one parameter. -/
def locOption (w : Wait) (l : Loc) (p : Param) : Except Stop (Wait × Loc) :=
  if w ≠ .no then (optValue w l p.num).map fun l => (.no, l)
  else match p.name, p.id with
    | none, some k => .ok (k.wait, optName l k)
    | none, none => .ok (.no, l)
    | some k, _ => if k.wait = .no then .ok (.no, l) else (optValue k.wait l p.num).map fun l => (.no, l)

/-- dwarf2-line.c:972-1080: all of them; one that still waits for its value is an error. -/
def locOptions : Wait → Loc → List Param → Except Stop Loc
  | w, l, [] => if w = .no then .ok l else .error .reject
  | w, l, p :: ps => match locOption w l p with
    | .error e => .error e
    | .ok r => locOptions r.1 r.2 ps

end Verif.Dwarf
