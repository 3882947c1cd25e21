/-
Specification for C57: how a debugger reads a line number program (DWARF 3, section 6.2), and what the table
should be.
-/
import Verif.Dwarf.Files
import Verif.Intnum.Spec

namespace Verif.Dwarf

open Verif.Intnum

/-! ### The line number program -/

/-- The parameters of the header. -/
structure Header where
  min : Nat
  stmt : Bool
  lineBase : Int
  lineRange : Nat
  opcodeBase : Nat
deriving DecidableEq

/-- The instructions of the line number machine. -/
inductive Op where
  | special (n : Nat)
  | copy
  | advancePc (n : Int)
  | advanceLine (n : Int)
  | setFile (n : Int)
  | setColumn (n : Int)
  | negateStmt
  | setBlock
  | constAddPc
  | fixedAdvancePc (n : Nat)
  | setPrologue
  | setEpilogue
  | setIsa (n : Int)
  | endSequence
  | setAddress (n : Nat)
  | setDiscriminator (n : Int)
deriving DecidableEq

/-- An operand in LEB128. -/
def operand (signed : Bool) (f : Int → Op) (bs : List Byte) : Option (Op × List Byte) :=
  (leb signed bs).map fun r => (f r.1, bs.drop r.2)

/-- An extended instruction, given all its bytes. -/
def extended : List Byte → Option Op
  | [] => none
  | o :: bs =>
    if o = 1 ∧ bs = [] then some .endSequence
    else if o = 2 then some (.setAddress (leVal bs))
    else if o = 4 then match leb false bs with
      | some r => if r.2 = bs.length then some (.setDiscriminator r.1) else none
      | none => none
    else none

/-- Read one instruction. -/
def readOp (h : Header) : List Byte → Option (Op × List Byte)
  | [] => none
  | o :: bs =>
    if h.opcodeBase ≤ o.toNat then some (.special o.toNat, bs)
    else match o.toNat with
      | 0 => match leb false bs with
        | none => none
        | some r =>
          let rest := bs.drop r.2
          if rest.length < r.1.toNat then none
          else (extended (rest.take r.1.toNat)).map fun o => (o, rest.drop r.1.toNat)
      | 1 => some (.copy, bs)
      | 2 => operand false .advancePc bs
      | 3 => operand true .advanceLine bs
      | 4 => operand false .setFile bs
      | 5 => operand false .setColumn bs
      | 6 => some (.negateStmt, bs)
      | 7 => some (.setBlock, bs)
      | 8 => some (.constAddPc, bs)
      | 9 => if bs.length < 2 then none else some (.fixedAdvancePc (leVal (bs.take 2)), bs.drop 2)
      | 10 => some (.setPrologue, bs)
      | 11 => some (.setEpilogue, bs)
      | 12 => operand false .setIsa bs
      | _ => none

/-- Read all instructions; `n` bounds their number. -/
def readOps (h : Header) : Nat → List Byte → Option (List Op)
  | _, [] => some []
  | 0, _ :: _ => none
  | n + 1, b :: bs => match readOp h (b :: bs) with
    | none => none
    | some r => (readOps h n r.2).map fun ops => r.1 :: ops

/-- The registers of the machine; a row of the table is what they hold. -/
structure Row where
  address : Int
  file : Int
  line : Int
  column : Int
  isa : Int
  disc : Int
  stmt : Bool
  block : Bool
  prologue : Bool
  epilogue : Bool
  ended : Bool
deriving DecidableEq, Repr

/-- At the start of a sequence. -/
def Row.start (h : Header) : Row := ⟨0, 1, 1, 0, 0, 0, h.stmt, false, false, false, false⟩

/-- After a row was added to the table. -/
def Row.after (r : Row) : Row := { r with disc := 0, block := false, prologue := false, epilogue := false }

/-- By how much a special opcode advances the address. -/
def Header.addr (h : Header) (n : Nat) : Int := h.min * ((n - h.opcodeBase) / h.lineRange : Nat)

/-- What an instruction does to the registers, and whether it then adds a row. -/
def exec (h : Header) (r : Row) : Op → Row × Bool
  | .special n => ({ r with address := r.address + h.addr n, line := r.line + h.lineBase + ((n - h.opcodeBase) % h.lineRange : Nat) }, true)
  | .copy => (r, true)
  | .advancePc n => ({ r with address := r.address + h.min * n }, false)
  | .advanceLine n => ({ r with line := r.line + n }, false)
  | .setFile n => ({ r with file := n }, false)
  | .setColumn n => ({ r with column := n }, false)
  | .negateStmt => ({ r with stmt := !r.stmt }, false)
  | .setBlock => ({ r with block := true }, false)
  | .constAddPc => ({ r with address := r.address + h.addr 255 }, false)
  | .fixedAdvancePc n => ({ r with address := r.address + n }, false)
  | .setPrologue => ({ r with prologue := true }, false)
  | .setEpilogue => ({ r with epilogue := true }, false)
  | .setIsa n => ({ r with isa := n }, false)
  | .endSequence => ({ r with ended := true }, true)
  | .setAddress n => ({ r with address := n }, false)
  | .setDiscriminator n => ({ r with disc := n }, false)

/-- The registers after a row. -/
def Row.next (h : Header) (r : Row) : Row := if r.ended then Row.start h else r.after

/-- The table. -/
def execAll (h : Header) : Row → List Op → List Row
  | _, [] => []
  | r, o :: os =>
    let e := exec h r o
    if e.2 then e.1 :: execAll h (e.1.next h) os else execAll h e.1 os

/-- The table a debugger reads from the bytes of a program. -/
def table (h : Header) (bs : List Byte) : Option (List Row) := (readOps h bs.length bs).map (execAll h (Row.start h))

/-- The header that goes with the programs written here. -/
def header (min : Nat) : Header := ⟨min, true, -5, 14, 13⟩

/-! ### What the table should be -/

/-- What a location leaves to the ones after it: the instruction set, the statement flag, and until the next row the
    flags and the discriminator. -/
structure Marks where
  isa : Int
  disc : Int
  stmt : Bool
  block : Bool
  prologue : Bool
  epilogue : Bool

/-- No marks. -/
def Marks.start : Marks := ⟨0, 0, true, false, false, false⟩

/-- With the marks of a location. -/
def Marks.note (k : Marks) (l : Loc) : Marks where
  isa := match l.isa with | some i => i.toNat | none => k.isa
  disc := if l.disc = 0 then k.disc else l.disc.toNat
  stmt := match l.stmt with | .nochange => k.stmt | .set => true | .clear => false
  block := k.block || l.block
  prologue := k.prologue || l.prologue
  epilogue := k.epilogue || l.epilogue

/-- After a row. -/
def Marks.after (k : Marks) : Marks := { k with disc := 0, block := false, prologue := false, epilogue := false }

/-- The row for a location at `address`. -/
def Marks.row (k : Marks) (l : Loc) (address : Int) : Row :=
  ⟨address, l.file.toNat, l.line.toNat, l.column.toNat, k.isa, k.disc, k.stmt, k.block, k.prologue, k.epilogue, false⟩

/-- Is there a later location for the same code? -/
def again (l : Loc) (ls : List Loc) : Bool :=
  match ls with
  | [] => false
  | n :: _ => decide (n.bc = l.bc)

/-- The offset of the code of a location. -/
def Loc.offset (l : Loc) : Int := ((l.bc.getD 0).toNat : Int)

/-- One row for each place in the code with locations: the last of them.  `start` is the address of the section. -/
def expected (start : Int) : Marks → List Loc → List Row
  | _, [] => []
  | k, l :: ls =>
    if again l ls then expected start (k.note l) ls
    else (k.note l).row l (start + l.offset) :: expected start (k.note l).after ls

/-- The first location that gets a row. -/
def leading : List Loc → Option Loc
  | [] => none
  | l :: ls => if again l ls then leading ls else some l

/-- The code of a location: the first bytecode beyond its line; the label: the last one before that bytecode. -/
def locate (bcs : List Bc) (l : Loc) : Loc :=
  { l with bc := (bcs.dropWhile fun b => decide (b.line.toNat ≤ l.vline.toNat)).head?.map Bc.offset,
           sym := ((bcs.takeWhile fun b => decide (b.line.toNat ≤ l.vline.toNat)).flatMap Bc.syms).getLast? }

/-- One row for each bytecode that takes up room (or is the last): its file and line in the source. -/
def expectedSource (start : Int) (where_ : Long → Long × Long) : List Bc → List Row
  | [] => []
  | b :: bs =>
    if bs.head?.map Bc.offset = some b.offset then expectedSource start where_ bs
    else ⟨start + b.offset.toNat, (where_ b.line).1.toNat, (where_ b.line).2.toNat, 0, 0, 0, true, false, false, false, false⟩ ::
      expectedSource start where_ bs

/-- The first bytecode with a row, and the label taken for its address. -/
def firstCode (sym : Option Nat) : List Bc → Option (Bc × Option Nat)
  | [] => none
  | b :: bs => if bs.head?.map Bc.offset = some b.offset then firstCode sym bs else some (b, b.syms.getLast?.or sym)

/-- The bytecodes follow each other without gaps. -/
def Laid : List Bc → Prop
  | [] => True
  | [b] => b.offset.toNat ≤ b.next.toNat ∧ b.next.toNat < 2 ^ 32
  | b :: c :: bs => b.offset.toNat ≤ b.next.toNat ∧ b.next = c.offset ∧ Laid (c :: bs)

/-- The offset after the last of them. -/
def sectionEnd (bcs : List Bc) : Nat := ((bcs.getLast?.map Bc.next).getD 0).toNat

/-! ### The options of the directive -/

/-- The options as documented. -/
inductive LocOpt where
  | isStmt (b : Bool)
  | isa (n : Nat)
  | discriminator (n : Nat)
  | basicBlock
  | prologueEnd
  | epilogueBegin

/-- As written in NASM syntax: `name=value`. -/
def LocOpt.nasm : LocOpt → List Param
  | .isStmt b => [⟨some .isStmt, none, some (if b then 1 else 0)⟩]
  | .isa n => [⟨some .isa, none, some n⟩]
  | .discriminator n => [⟨some .discriminator, none, some n⟩]
  | .basicBlock => [⟨none, some .basicBlock, none⟩]
  | .prologueEnd => [⟨none, some .prologueEnd, none⟩]
  | .epilogueBegin => [⟨none, some .epilogueBegin, none⟩]

/-- As written in GAS syntax: `name value`. -/
def LocOpt.gas : LocOpt → List Param
  | .isStmt b => [⟨none, some .isStmt, none⟩, ⟨none, none, some (if b then 1 else 0)⟩]
  | .isa n => [⟨none, some .isa, none⟩, ⟨none, none, some n⟩]
  | .discriminator n => [⟨none, some .discriminator, none⟩, ⟨none, none, some n⟩]
  | o => o.nasm

/-- What an option asks for. -/
def LocOpt.apply (l : Loc) : LocOpt → Loc
  | .isStmt b => { l with stmt := if b then .set else .clear }
  | .isa n => { l with isa := some (BitVec.ofNat 64 n) }
  | .discriminator n => { l with disc := BitVec.ofNat 64 n }
  | .basicBlock => { l with block := true }
  | .prologueEnd => { l with prologue := true }
  | .epilogueBegin => { l with epilogue := true }

/-- The statement flag is not asked for. -/
def LocOpt.plain : LocOpt → Bool
  | .isStmt _ => false
  | _ => true

/-- Numbers the encoding is right for (C16). -/
def Loc.Small (l : Loc) : Prop :=
  l.file.toNat < 2 ^ 32 ∧ l.line.toNat < 2 ^ 32 ∧ l.column.toNat < 2 ^ 32 ∧ l.disc.toNat < 2 ^ 32 ∧
  (∀ i, l.isa = some i → i.toNat < 2 ^ 32)



/-! ### The whole unit: header, directories and files -/

/-- A string that ends with a zero byte. -/
def readString : List Byte → Option (List Byte × List Byte)
  | [] => none
  | b :: bs => if b = 0 then some ([], bs) else (readString bs).map fun r => (b :: r.1, r.2)

/-- The directories, up to an empty one; `n` bounds their number. -/
def readDirs : Nat → List Byte → Option (List (List Byte) × List Byte)
  | 0, _ => none
  | n + 1, bs => match readString bs with
    | none => none
    | some ([], rest) => some ([], rest)
    | some (s, rest) => (readDirs n rest).map fun r => (s :: r.1, r.2)

/-- A number. -/
def readNum (bs : List Byte) : Option (Int × List Byte) := (leb false bs).map fun r => (r.1, bs.drop r.2)

/-- The files, up to one with an empty name: name, number of the directory (time and size are skipped). -/
def readFiles : Nat → List Byte → Option (List (List Byte × Int) × List Byte)
  | 0, _ => none
  | n + 1, bs => match readString bs with
    | none => none
    | some ([], rest) => some ([], rest)
    | some (s, rest) => match readNum rest with
      | none => none
      | some (d, rest) => match readNum rest with
        | none => none
        | some (_, rest) => match readNum rest with
          | none => none
          | some (_, rest) => (readFiles n rest).map fun r => ((s, d) :: r.1, r.2)

/-- What a unit says. -/
structure LineUnit where
  version : Nat
  header : Header
  lengths : List Byte
  dirs : List (List Byte)
  files : List (List Byte × Int)
  program : List Byte
deriving DecidableEq

/-- Read a signed byte. -/
def signed (b : Byte) : Int := b.toInt

/-- Read the part after the length of the header. -/
def readPrologue (version : Nat) (bs : List Byte) : Option LineUnit :=
  match bs.drop 4 with
  | min :: stmt :: base :: range :: opcodes :: rest =>
    if rest.length < opcodes.toNat - 1 then none
    else match readDirs (bs.length + 1) (rest.drop (opcodes.toNat - 1)) with
      | none => none
      | some (dirs, rest2) => match readFiles (bs.length + 1) rest2 with
        | none => none
        | some (files, _) => some ⟨version, ⟨min.toNat, decide (stmt ≠ 0), signed base, range.toNat, opcodes.toNat⟩,
            rest.take (opcodes.toNat - 1), dirs, files, bs.drop (4 + leVal (bs.take 4))⟩
  | _ => none

/-- Read a unit (32-bit format): its length, its version, and so on; what follows is left. -/
def readUnit (bs : List Byte) : Option (LineUnit × List Byte) :=
  let len := leVal (bs.take 4)
  if bs.length < 4 + len ∨ len < 2 then none
  else
    let body := (bs.drop 4).take len
    (readPrologue (leVal (body.take 2)) (body.drop 2)).map fun u => (u, bs.drop (4 + len))

/-! ### File numbers -/

/-- What number `n` stands for in a table: directory and name. -/
def FileTable.named (t : FileTable) (n : Nat) : Option (List Char × List Char) :=
  match t.files[n]? with
  | some (some e) => some (if e.dir = 0 then [] else t.dirs.getD (e.dir - 1) [], e.name)
  | _ => none

end Verif.Dwarf
