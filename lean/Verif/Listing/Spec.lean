import Verif.Listing.Model
/-
Specification for the listing: how somebody reads it, and what is to be found in it.  The reader knows nothing of how rows are made: a row
has a number; then, if it has code, an address and bytes in hexadecimal, with brackets around what a linker fills in, `-` if more bytes
follow in the next row, `<rept>` if there are copies, or `<gap>`; then the source, where blanks at its start do not count.
-/
namespace Verif.Listing
open Verif.Elf (Byte)

/-! ### Reading -/

/-- The lines of a text file. -/
def lines : List Char → List (List Char)
  | [] => []
  | c :: cs => if c = '\n' then [] :: lines cs else match lines cs with | l :: ls => (c :: l) :: ls | [] => [[c]]

/-- The value of a digit. -/
def charVal (b : Nat) (c : Char) : Option Nat :=
  let i := "0123456789ABCDEF".toList.idxOf c
  if i < b then some i else none

/-- The number at the start of a text, and the rest. -/
def number (b acc : Nat) : List Char → Nat × List Char
  | [] => (acc, [])
  | c :: cs => match charVal b c with | some d => number b (acc * b + d) cs | none => (acc, c :: cs)

/-- A byte, with the brackets before and after it: round (`true`) for what is relative, square otherwise. -/
structure Item where
  opened : Option Bool
  byte : Nat
  closed : Option Bool
  deriving DecidableEq, Repr

def bracket (round square : Char) : List Char → Option Bool × List Char
  | c :: cs => if c = round then (some true, cs) else if c = square then (some false, cs) else (none, c :: cs)
  | [] => (none, [])

def item (cs : List Char) : Option (Item × List Char) :=
  match bracket '(' '[' cs with
  | (o, a :: b :: r) =>
    match charVal 16 a, charVal 16 b with
    | some x, some y => let c := bracket ')' ']' r; some (⟨o, x * 16 + y, c.1⟩, c.2)
    | _, _ => none
  | _ => none

/-- As many bytes as there are, but not more than `k`. -/
def itemsAt : Nat → List Char → List Item × List Char
  | 0, cs => ([], cs)
  | k + 1, cs =>
    match item cs with
    | some (i, r) => let t := itemsAt k r; (i :: t.1, t.2)
    | none => ([], cs)

def items (cs : List Char) : List Item × List Char := itemsAt cs.length cs

/-- A text without the blanks at its start. -/
def strip (s : List Char) : List Char := s.dropWhile (· = ' ')

inductive Body where
  | text (source : List Char)
  | gap (addr : Nat) (source : List Char)
  | code (addr : Nat) (items : List Item) (more rept : Bool) (source : List Char)
  deriving DecidableEq, Repr

structure Row where
  number : Nat
  body : Body
  deriving DecidableEq, Repr

/-- What is after the bytes. -/
def ending (addr : Nat) (its : List Item) (r : List Char) : Body :=
  match r with
  | '-' :: s => .code addr its true false (strip s)
  | '<' :: 'r' :: 'e' :: 'p' :: 't' :: '>' :: s => .code addr its false true (strip s)
  | s => .code addr its false false (strip s)

def body (r : List Char) : Body :=
  match r with
  | ' ' :: s => .text (strip s)
  | [] => .text []
  | _ =>
    let a := number 16 0 r
    match a.2 with
    | ' ' :: '<' :: 'g' :: 'a' :: 'p' :: '>' :: s => .gap a.1 (strip s)
    | _ :: s => let i := items s; ending a.1 i.1 i.2
    | [] => .code a.1 [] false false []

def row (cs : List Char) : Row :=
  let n := number 10 0 (strip cs)
  ⟨n.1, body n.2.tail⟩

/-- What is listed: the address if there is code, its bytes, whether it is left open, whether it is copied, and the source. -/
structure Entry where
  addr : Option Nat
  items : List Item
  gap : Bool
  rept : Bool
  source : List Char
  deriving DecidableEq, Repr

/-- Rows that are continued are put together. -/
def entries : List Row → List Entry
  | [] => []
  | r :: rs =>
    match r.body with
    | .text s => ⟨none, [], false, false, s⟩ :: entries rs
    | .gap a s => ⟨some a, [], true, false, s⟩ :: entries rs
    | .code a its more rept s =>
      if more then
        match entries rs with
        | e :: es => ⟨some a, its ++ e.items, e.gap, e.rept, s ++ e.source⟩ :: es
        | [] => [⟨some a, its, false, rept, s⟩]
      else ⟨some a, its, false, rept, s⟩ :: entries rs

/-- What is read in a listing: the numbers of its rows, and the entries. -/
def read (f : List Char) : List Nat × List Entry := let rs := (lines f).map row; (rs.map (·.number), entries rs)

/-! ### What is to be found -/

/-- The brackets at a byte: around each value that a linker fills in. -/
def itemFor (vs : List Val) (p : Nat) (b : Byte) : Item :=
  ⟨(vs.find? fun v => v.offset = p).map (·.rel), b.toNat, (vs.find? fun v => v.offset + v.size = p + 1).map (·.rel)⟩

def itemsFor (vs : List Val) : Nat → List Byte → List Item
  | _, [] => []
  | p, b :: bs => itemFor vs p b :: itemsFor vs (p + 1) bs

/-- The bytes of one copy. -/
def Code.copy (c : Code) : List Byte := match c.mult with | some m => c.bytes.take (c.bytes.length / m) | none => []

/-- The values of a bytecode for which there are relocations. -/
def Code.filled (c : Code) (relocs : List Nat) : List Val := c.vals.filter fun v => decide (c.offset + v.offset ∈ relocs)

/-- The entry of a line with one bytecode, or with none. -/
def Line.entry (l : Line) (relocs : Nat → List Nat) : Entry :=
  match l.code with
  | some (sect, c :: _) =>
    if c.reserve then ⟨some c.offset, [], true, false, strip l.source⟩
    else ⟨some c.offset, itemsFor (c.filled (relocs sect)) 0 c.copy, false, decide (1 < c.mult.getD 1), strip l.source⟩
  | _ => ⟨none, [], false, false, strip l.source⟩

/-- The addresses of the values of a section that are listed. -/
def Line.addrs (l : Line) (sect : Nat) : List Nat :=
  match l.code with
  | some (k, cs) => if k = sect then cs.flatMap fun c => if c.reserve then [] else c.vals.map fun v => c.offset + v.offset else []
  | none => []

/-- A line that has no code, or one bytecode that has bytes or leaves space; the values in it are in order and do not overlap.  Excluded, with
    witnesses in `Verif.Listing.Props`: code without bytes, and several bytecodes. -/
structure Line.Ok (l : Line) : Prop where
  source : ∀ c ∈ l.source, c ≠ '\n'
  one : ∀ sect cs, l.code = some (sect, cs) → ∃ c m, cs = [c] ∧ c.mult = some (m + 1) ∧ (c.reserve = false → c.copy ≠ []) ∧
    (∀ v ∈ c.vals, 0 < v.size) ∧ c.vals.Pairwise fun a b => a.offset + a.size ≤ b.offset

end Verif.Listing
