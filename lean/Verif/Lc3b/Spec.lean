import Verif.Intnum.Spec
import Verif.Lc3b.Model
/-
Specification for LC-3b instructions: what the machine makes of a word, and what a line of source asks for.  Nothing of the tables of the
assembler is used here.  Signed fields are in two's complement; offsets of words count two bytes each.
-/
namespace Verif.Lc3b
open Verif.Intnum

/-! ### The machine -/

inductive Mem where
  | ld | ldi | st | sti | ldb | stb
  deriving DecidableEq, Repr

inductive Shift where
  | left | logical | arithmetic
  deriving DecidableEq, Repr

/-- What an instruction does.  Displacements are in bytes from the start of the instruction, offsets and the entry of the trap table in bytes. -/
inductive Mach where
  | alu (isAnd : Bool) (d s t : Nat)
  | alui (isAnd : Bool) (d s : Nat) (v : Int)
  | br (n z p : Bool) (disp : Int)
  | jsr (disp : Int)
  | jmp (r : Nat) (off : Int)
  | lea (d : Nat) (disp : Int)
  | mem (k : Mem) (d s : Nat) (off : Int)
  | inv (d s : Nat)
  | rti
  | shift (k : Shift) (d s : Nat) (n : Nat)
  | trap (entry : Nat)
  deriving DecidableEq, Repr

/-- The low `n` bits as a signed number. -/
def low (n w : Nat) : Int := if w % 2 ^ n < 2 ^ (n - 1) then (w % 2 ^ n : Nat) else (w % 2 ^ n : Nat) - 2 ^ n

def bit (w i : Nat) : Bool := decide (w / 2 ^ i % 2 = 1)

/-- The registers are in bits 9 to 11 and 6 to 8. -/
def regA (w : Nat) : Nat := w / 512 % 8
def regB (w : Nat) : Nat := w / 64 % 8

def decode (w : Nat) : Option Mach :=
  match w / 4096 with
  | 0 => some (.br (bit w 11) (bit w 10) (bit w 9) (2 + 2 * low 9 w))
  | 1 => if bit w 5 then some (.alui false (regA w) (regB w) (low 5 w)) else if w % 32 < 8 then some (.alu false (regA w) (regB w) (w % 8)) else none
  | 5 => if bit w 5 then some (.alui true (regA w) (regB w) (low 5 w)) else if w % 32 < 8 then some (.alu true (regA w) (regB w) (w % 8)) else none
  | 2 => some (.mem .ld (regA w) (regB w) (2 * low 6 w))
  | 3 => some (.mem .st (regA w) (regB w) (2 * low 6 w))
  | 10 => some (.mem .ldi (regA w) (regB w) (2 * low 6 w))
  | 11 => some (.mem .sti (regA w) (regB w) (2 * low 6 w))
  | 6 => some (.mem .ldb (regA w) (regB w) (low 6 w))
  | 7 => some (.mem .stb (regA w) (regB w) (low 6 w))
  | 4 => if regA w = 0 then some (.jsr (2 + 2 * low 9 w)) else none
  | 8 => if w % 4096 = 0 then some .rti else none
  | 9 => if w % 64 = 63 then some (.inv (regA w) (regB w)) else none
  | 12 => some (.jmp (regA w) (2 * low 9 w))
  | 13 =>
    if w / 16 % 4 = 0 then some (.shift .left (regA w) (regB w) (w % 16))
    else if w / 16 % 4 = 1 then some (.shift .logical (regA w) (regB w) (w % 16))
    else if w / 16 % 4 = 3 then some (.shift .arithmetic (regA w) (regB w) (w % 16))
    else none
  | 14 => some (.lea (regA w) (2 + 2 * low 9 w))
  | 15 => if w / 256 % 16 = 0 then some (.trap (2 * (w % 256))) else none
  | _ => none

/-- Two bytes are a word, the low one first. -/
def read : List (BitVec 8) → Option Mach
  | [a, b] => decode (a.toNat + 256 * b.toNat)
  | _ => none

/-! ### The source -/

/-- Where a jump goes: a label at a distance, or that distance as a number. -/
inductive Target where
  | label (d : Int)
  | num (x : Intnum)
  deriving DecidableEq, Repr

/-- A line of source. -/
inductive Line where
  | alu (isAnd : Bool) (d s t : Fin 8)
  | alui (isAnd : Bool) (d s : Fin 8) (x : Intnum)
  | br (n z p : Bool) (t : Target)
  | jsr (t : Target)
  | jmp (r : Fin 8) (x : Intnum)
  | lea (d : Fin 8) (t : Target)
  | mem (k : Mem) (d s : Fin 8) (x : Intnum)
  | inv (d s : Fin 8)
  | ret
  | rti
  | nop
  | shift (k : Shift) (d s : Fin 8) (x : Intnum)
  | trap (x : Intnum)
  deriving DecidableEq, Repr

def Mem.text : Mem → String
  | .ld => "ld" | .ldi => "ldi" | .st => "st" | .sti => "sti" | .ldb => "ldb" | .stb => "stb"

def Shift.text : Shift → String
  | .left => "lshf" | .logical => "rshfl" | .arithmetic => "rshfa"

def Line.name : Line → List Char
  | .alu a _ _ _ => (if a then "and" else "add").toList
  | .alui a _ _ _ => (if a then "and" else "add").toList
  | .br n z p _ => 'b' :: 'r' :: ((if n then ['n'] else []) ++ (if z then ['z'] else []) ++ if p then ['p'] else [])
  | .jsr _ => "jsr".toList
  | .jmp _ _ => "jmp".toList
  | .lea _ _ => "lea".toList
  | .mem k _ _ _ => k.text.toList
  | .inv _ _ => "not".toList
  | .ret => "ret".toList
  | .rti => "rti".toList
  | .nop => "nop".toList
  | .shift k _ _ _ => k.text.toList
  | .trap _ => "trap".toList

def Target.operand : Target → Operand
  | .label d => .label d
  | .num x => .num x

def Line.operands : Line → List Operand
  | .alu _ d s t => [.reg d, .reg s, .reg t]
  | .alui _ d s x => [.reg d, .reg s, .num x]
  | .br _ _ _ t => [t.operand]
  | .jsr t => [t.operand]
  | .jmp r x => [.reg r, .num x]
  | .lea d t => [.reg d, t.operand]
  | .mem _ d s x => [.reg d, .reg s, .num x]
  | .inv d s => [.reg d, .reg s]
  | .ret => []
  | .rti => []
  | .nop => []
  | .shift _ d s x => [.reg d, .reg s, .num x]
  | .trap x => [.num x]

def Target.disp : Target → Int
  | .label d => d
  | .num x => val x

/-- What the line asks for; of several copies, the one that starts `k` bytes after the first. -/
def Line.means (k : Int) : Line → Mach
  | .alu a d s t => .alu a d s t
  | .alui a d s x => .alui a d s (val x)
  | .br n z p t => .br n z p (t.disp - k)
  | .jsr t => .jsr (t.disp - k)
  | .jmp r x => .jmp r (val x)
  | .lea d t => .lea d (t.disp - k)
  | .mem m d s x => .mem m d s (val x)
  | .inv d s => .inv d s
  | .ret => .jmp 7 0
  | .rti => .rti
  | .nop => .br false false false 2
  | .shift m d s x => .shift m d s (val x).toNat
  | .trap x => .trap (val x).toNat

def Mem.bytes : Mem → Bool
  | .ldb => true
  | .stb => true
  | _ => false

/-- A displacement that a jump can have: words from the next instruction in nine bits. -/
def Reach (d : Int) : Prop := d % 2 = 0 ∧ -510 ≤ d ∧ d ≤ 512

/-- The values are those that the instruction can have; of `c` copies. -/
def Line.InRange (c : Nat) : Line → Prop
  | .alu _ _ _ _ => True
  | .alui _ _ _ x => Fits x ∧ -16 ≤ val x ∧ val x < 16
  | .br _ _ _ t => (∀ x, t = .num x → Fits x) ∧ Reach t.disp ∧ Reach (t.disp - 2 * (c - 1 : Nat))
  | .jsr t => (∀ x, t = .num x → Fits x) ∧ Reach t.disp ∧ Reach (t.disp - 2 * (c - 1 : Nat))
  | .jmp _ x => Fits x ∧ val x % 2 = 0 ∧ -512 ≤ val x ∧ val x < 512
  | .lea _ t => (∀ x, t = .num x → Fits x) ∧ Reach t.disp ∧ Reach (t.disp - 2 * (c - 1 : Nat))
  | .mem k _ _ x => Fits x ∧ if k.bytes then -32 ≤ val x ∧ val x < 32 else val x % 2 = 0 ∧ -64 ≤ val x ∧ val x < 64
  | .inv _ _ => True
  | .ret => True
  | .rti => True
  | .nop => True
  | .shift _ _ _ x => Fits x ∧ 0 ≤ val x ∧ val x < 16
  | .trap x => Fits x ∧ val x % 2 = 0 ∧ 0 ≤ val x ∧ val x < 512

end Verif.Lc3b
