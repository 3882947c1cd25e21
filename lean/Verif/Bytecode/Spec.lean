import Verif.Bytecode.Model
import Verif.Intnum.Spec
/-
What a user expects of padding and data directives.
-/
namespace Verif.Bytecode
open Verif.Intnum (val leVal leb)

/-- `e` is the least multiple of `b` that is not below `n`. -/
def LeastMultiple (b n e : Nat) : Prop := n ≤ e ∧ e % b = 0 ∧ ∀ m, n ≤ m → m % b = 0 → e ≤ m

/-- The bytes `bs` are the encoding of one copy of a data item at element size `size`. -/
def Encodes (env : Env) (arch : Bool) (size : Nat) (bs : List Byte) : Item → Prop
  | .empty => bs = []
  | .expr .value (some i) x =>
    if arch ∨ size = 1 then bs.length = size ∧ (leVal bs : Int) = val i % 256 ^ size
    else env.out x size = some bs
  | .expr .value none x => env.out x size = some bs
  | .expr .uleb (some i) _ => leb false bs = some (val i, bs.length)
  | .expr .sleb (some i) _ => leb true bs = some (val i, bs.length)
  | .expr .uleb none x => ∃ i, env.const x = some i ∧ leb false bs = some (val i, bs.length)
  | .expr .sleb none x => ∃ i, env.const x = some i ∧ leb true bs = some (val i, bs.length)
  | .raw s => ∃ k, k < size ∧ bs = s ++ List.replicate k 0 ∧ bs.length % size = 0
  | .reserve => bs = List.replicate size 0

/-- The repeat count of an item. -/
def Dv.count (d : Dv) : Int :=
  match d.mult with
  | some (.known n) => n
  | _ => 1

/-- `bs` is the data directive's output: each item in order, repeated, and followed by a NUL if asked. -/
inductive Layout (env : Env) (arch : Bool) (size : Nat) (az : Bool) : List Dv → List Byte → Prop
  | nil : Layout env arch size az [] []
  | cons (d : Dv) (ds : List Dv) (b r : List Byte) :
      Encodes env arch size b d.item → Layout env arch size az ds r →
      Layout env arch size az (d :: ds)
        ((List.replicate d.count.toNat b).flatten ++ (if az then [0] else []) ++ r)

/-! ### Executing padding -/

/-- A prefix that does not change what the no-op instructions below do. -/
def isPrefix (b : Byte) : Bool := b = 0x66#8 || b = 0x2e#8

/-- Length of the ModRM byte, SIB byte and displacement of a memory or register operand, in 16-bit
    (`a16`) or 32/64-bit addressing. -/
def modrmLen (a16 : Bool) (modrm : Byte) : Nat :=
  let md := modrm.toNat / 64
  let rm := modrm.toNat % 8
  if md = 3 then 1
  else if a16 then
    1 + (if md = 0 then (if rm = 6 then 2 else 0) else if md = 1 then 1 else 2)
  else
    1 + (if rm = 4 then 1 else 0) + (if md = 0 then (if rm = 5 then 4 else 0) else if md = 1 then 1 else 4)

/-- The register a `lea` with this operand (ModRM and following bytes) loads its own value into, provided
    the address is that register plus a zero displacement: the instruction then changes nothing. -/
def leaSelf (a16 : Bool) (ops : List Byte) : Bool :=
  match ops with
  | [] => false
  | m :: rest =>
    let md := m.toNat / 64
    let reg := m.toNat / 8 % 8
    let rm := m.toNat % 8
    if md = 0 ∨ md = 3 then false
    else if a16 then
      -- rm 4 is [si], rm 5 is [di]; si is register 6, di register 7
      (rm = 4 ∧ reg = 6 ∨ rm = 5 ∧ reg = 7) && rest.all (· = 0#8)
    else if rm = 4 then
      match rest with
      | [] => false
      | sib :: disp => (sib.toNat / 8 % 8 = 4 ∧ sib.toNat % 8 = reg) && disp.all (· = 0#8)
    else (rm = reg) && rest.all (· = 0#8)

/-- The effect of the instruction at the head of `bs`, if it is one of the no-op instructions: how far
    execution moves on.  `nop`, `nop r/m`, `mov r, r`, `lea r, [r+0]` (not in 64-bit mode, where the last
    two clear the upper half of the register), `jmp short`, with prefixes. -/
def nopStep (mode : Nat) : List Byte → Option Nat
  | [] => none
  | b :: bs =>
    if b = 0x90#8 then some 1
    else if isPrefix b then (nopStep mode bs).map (· + 1)
    else if b = 0xeb#8 then
      match bs with
      | [] => none
      | d :: _ => if d.toNat < 128 then some (2 + d.toNat) else none
    else if b = 0x0f#8 then
      match bs with
      | o :: m :: rest =>
        if o = 0x1f#8 ∧ m.toNat / 8 % 8 = 0 then
          (if modrmLen (mode = 16) m ≤ rest.length + 1 then some (2 + modrmLen (mode = 16) m) else none)
        else none
      | _ => none
    else if mode = 64 then none
    else if b = 0x89#8 then
      match bs with
      | [] => none
      | m :: _ => if m.toNat / 64 = 3 ∧ m.toNat / 8 % 8 = m.toNat % 8 then some 2 else none
    else if b = 0x8d#8 then
      match bs with
      | [] => none
      | m :: _ =>
        let n := modrmLen (mode = 16) m
        if n ≤ bs.length ∧ leaSelf (mode = 16) (bs.take n) then some (1 + n) else none
    else none

/-- Execution started at the head of `bs` runs through no-op instructions and reaches exactly the end. -/
inductive RunsThrough (mode : Nat) : List Byte → Prop
  | done : RunsThrough mode []
  | step (bs : List Byte) (n : Nat) : nopStep mode bs = some n → n ≤ bs.length →
      RunsThrough mode (bs.drop n) → RunsThrough mode bs

end Verif.Bytecode
