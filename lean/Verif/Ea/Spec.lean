/-
Specification for C52: what the ModRM and SIB bytes mean to the processor, after the tables of the Intel
manual (Vol. 2, Tables 2-1 to 2-3), and what is assumed of the address as written.
-/
import Verif.Ea.Model
import Verif.Value.Spec

namespace Verif.Ea

open Verif.Intnum
open Verif.Expr
open Verif.Value

/-! ### The decoder -/

/-- A memory operand as the processor sees it: a base register, an index register with its scale, the
    number of displacement bytes, and whether there is a SIB byte.  Registers are named by the numbers the
    assembler gives them: 0x33 BX, 0x35 BP, 0x36 SI, 0x37 DI, 0x40+n and 0x50+n the 32-bit and 64-bit
    registers, 0x80+n and 0x90+n XMM and YMM, 0xD0 RIP. -/
structure Mem where
  base : Option Nat
  index : Option (Nat × Nat)
  disp : Nat
  sib : Bool
deriving DecidableEq, Repr

/-- Table 2-1: 16-bit addresses. -/
def decode16 (modrm : BitVec 8) : Option Mem :=
  let mod := modrm.toNat / 64
  let rm := modrm.toNat % 8
  if mod = 3 then none
  else if mod = 0 ∧ rm = 6 then some ⟨none, none, 2, false⟩
  else
    let disp := if mod = 0 then 0 else if mod = 1 then 1 else 2
    match rm with
    | 0 => some ⟨some 0x33, some (0x36, 1), disp, false⟩
    | 1 => some ⟨some 0x33, some (0x37, 1), disp, false⟩
    | 2 => some ⟨some 0x35, some (0x36, 1), disp, false⟩
    | 3 => some ⟨some 0x35, some (0x37, 1), disp, false⟩
    | 4 => some ⟨some 0x36, none, disp, false⟩
    | 5 => some ⟨some 0x37, none, disp, false⟩
    | 6 => some ⟨some 0x35, none, disp, false⟩
    | _ => some ⟨some 0x33, none, disp, false⟩

/-- The general register of address size `a` with the given number; `high` is its fourth bit. -/
def gpr (a : Nat) (high : Bool) (n : Nat) : Nat := (if a = 64 then 0x50 else 0x40) + (if high then 8 else 0) + n

/-- Tables 2-2 and 2-3: addresses of size `a` (32 or 64) in a mode of 32 or 64 bits (or 16, with an address
    size prefix).  `vsib` is 1 or 2 if the index is an XMM or YMM register; `x` and `b` are the extension
    bits of the REX or VEX prefix.  Without a SIB byte its argument is not looked at. -/
def decode3264 (bits a vsib : Nat) (x b : Bool) (modrm sib : BitVec 8) : Option Mem :=
  let mod := modrm.toNat / 64
  let rm := modrm.toNat % 8
  let disp := if mod = 0 then 0 else if mod = 1 then 1 else 4
  if mod = 3 then none
  else if rm = 4 then
    let scale := 2 ^ (sib.toNat / 64)
    let idx := sib.toNat / 8 % 8
    let bs := sib.toNat % 8
    let index :=
      if vsib = 1 then some (0x80 + (if x then 8 else 0) + idx, scale)
      else if vsib = 2 then some (0x90 + (if x then 8 else 0) + idx, scale)
      else if idx = 4 ∧ x = false then none
      else some (gpr a x idx, scale)
    if bs = 5 ∧ mod = 0 then some ⟨none, index, 4, true⟩
    else some ⟨some (gpr a b bs), index, disp, true⟩
  else if vsib ≠ 0 then none
  else if rm = 5 ∧ mod = 0 then some ⟨if bits = 64 then some 0xD0 else none, none, 4, false⟩
  else some ⟨some (gpr a b rm), none, disp, false⟩

/-- An extension bit of the prefix; 0xff stands for "no REX prefix possible". -/
def rexBit (rex : BitVec 8) (pos : Nat) : Bool := decide (rex ≠ 0xff#8) && rex.getLsbD pos

/-- What the processor makes of the result. -/
def decoded (r : Checked) (bits : Nat) : Option Mem :=
  if r.addrsize = 16 then decode16 r.ea.modrm
  else decode3264 bits r.addrsize r.ea.vsib (rexBit r.rex 1) (rexBit r.rex 0) r.ea.modrm r.ea.sib

/-- The value of the registers of a memory operand. -/
def Mem.val (ρ : Env) (m : Mem) : Word :=
  (match m.base with | some r => ρ.reg r | none => 0) +
    (match m.index with | some (r, s) => BitVec.ofNat 256 s * ρ.reg r | none => 0)

/-- The number of displacement bytes the instruction gets (before it is widened): a displacement of unknown
    size takes one byte. -/
def dispBytes (ea : Effaddr) : Nat := if ea.size = 0 then (if ea.needNonzero then 1 else 0) else ea.size / 8

/-! ### The address as written -/

/-- Registers and WRT mean what they should: all names of RIP mean RIP, and WRT RIP does not change an
    address. -/
structure RegFile (ρ : Env) : Prop where
  rip : ∀ r, r / 16 = 13 → ρ.reg r = ρ.reg 0xD0
  wrtRip : ∀ a r, r / 16 = 13 → ρ.wrt a (ρ.reg r) = a

/-- The operand as the parser leaves it: mod and r/m of the ModRM byte are still clear, and neither it nor
    the SIB byte has been computed. -/
structure Fresh (ea : Effaddr) : Prop where
  modrm : ea.modrm &&& 0xC7#8 = 0#8
  needModrm : ea.needModrm = true
  validModrm : ea.validModrm = false
  validSib : ea.validSib = false
  needDisp : ea.needDisp = true
  ipRel : ea.ipRel = false
  vsib : ea.vsib ≤ 2

/-- The REX byte so far: none possible, or only its W and R bits are in use. -/
def RexFree (rex : BitVec 8) : Prop := rex = 0xff#8 ∨ rex &&& 0xB3#8 = 0#8

/-- The relocatable part of the displacement is a symbol or nothing; it is not a segment, not shifted. -/
structure PlainParts (p : Parts) : Prop where
  wrt : p.rel = none → p.wrt = none
  shift : p.rshift = 0

/-- The sum of the magnitudes of all multipliers. -/
def total : List (Nat × Intnum) → Nat
  | [] => 0
  | (_, i) :: us => (val i).natAbs + total us

/-- The registers the assembler finds in an address are multiplied by numbers, in their normal
    representation, of which the magnitudes add up to less than 2^31 - 1; an address WRT RIP does not itself
    use RIP; and outside 64-bit mode only the eight registers of a kind are used that there are. -/
def SmallUses (c : Ctx) (nequ : Nat) (getReg : Nat → Option Nat) (want : Bool) (bits : Nat) (e : Node) : Prop :=
  ∀ x, (getRegUsage c nequ getReg want bits e).out = .ok x →
    (∀ u ∈ x.2.1.uses, Canon u.2) ∧ total x.2.1.uses < 2 ^ 31 - 1 ∧
    (x.2.2 = true → ∀ u ∈ x.2.1.uses, u.1 / 16 ≠ 13) ∧ (bits ≠ 64 → ∀ u ∈ x.2.1.uses, u.1 % 16 < 8)

mutual
/-- No product has a subexpression with a register: there is nothing to multiply out. -/
def NoProduct : Item → Prop
  | .expr op ts => (op = .MUL → ∀ o us, Item.expr o us ∈ ts → hasRegL us = false) ∧ NoProductL ts
  | _ => True
/-- In no term. -/
def NoProductL : List Item → Prop
  | [] => True
  | t :: ts => NoProduct t ∧ NoProductL ts
end

/-- The address does not multiply out to a lone product of three or more factors. -/
def NoLone (c : Ctx) (nequ : Nat) (regmul : Bool) (getReg : Nat → Option Nat) (bits : Nat) (e : Node) : Prop :=
  ∀ e1 w e2, (simplify c nequ regmul false e).out = .ok e1 → checkWrt getReg bits e1 = .ok w →
    (distAll c nequ regmul w.1).out = .ok e2 → ∀ us, e2 = ⟨.IDENT, [.expr .MUL us]⟩ → hasRegL us = true → us.length = 2

/-- The address, of the given size, is one the assembler reads correctly. -/
def Written (c : Ctx) (nequ : Nat) (vsib bits a : Nat) (e : Node) : Prop :=
  if a = 16 then
    SmallUses c nequ getReg16 false bits e ∧ ∀ e1, (simplify c nequ true false e).out = .ok e1 → NoProduct e1.item
  else
    SmallUses c nequ (getReg3264 vsib bits a) true bits e ∧
      ((∀ e1, (simplify c nequ false false e).out = .ok e1 → NoProduct e1.item) ∨
        (∀ s d, c.equ s = some d → hasReg d.item = false) ∧ NoLone c nequ false (getReg3264 vsib bits a) bits e)

/-! ### The claim -/

/-- The encoding `r` of the operand `ea`, which the processor reads as `m`, is faithful to what was written. -/
structure Faithful (ρ : Env) (absSym : Nat) (ea : Effaddr) (r : Checked) (m : Mem) : Prop where
  /-- Registers and displacement add up to the address; a displacement counted from RIP is less by RIP. -/
  address : absVal ρ ea.disp.abs = m.val ρ + absVal ρ r.ea.disp.abs - (if r.ea.ipRel then ρ.reg 0xD0 else 0)
  /-- The symbol of the displacement is kept. -/
  symbol : r.ea.ipRel = false → r.ea.disp.p = ea.disp.p
  /-- A displacement counted from RIP is so emitted, and the processor adds RIP. -/
  rip : r.ea.ipRel = true → m.base = some 0xD0 ∧
    r.ea.disp.p = { ea.disp.p with curposRel := true, rel := some (ea.disp.p.rel.getD absSym) }
  /-- The processor reads as many displacement bytes as are there. -/
  bytes : m.disp = dispBytes r.ea
  /-- It reads a SIB byte if and only if there is one. -/
  sib : m.sib = true → r.ea.needSib = 1 ∧ r.ea.validSib = true
  noSib : m.sib = false → r.ea.needSib = 0
  modrm : r.ea.needModrm = true ∧ r.ea.validModrm = true
  /-- If the size was not given, a displacement is a byte only if it fits. -/
  byte : ea.size = 0 → r.ea.size = 8 →
    r.ea.disp.p.rel = none ∧ -128 ≤ (absVal ρ r.ea.disp.abs).toInt ∧ (absVal ρ r.ea.disp.abs).toInt ≤ 127
  /-- No displacement bytes only if it is zero. -/
  drop : m.disp = 0 → r.ea.disp.p.rel = none ∧ absVal ρ r.ea.disp.abs = 0
  /-- The displacement is left out if and only if it has no bytes. -/
  need : r.ea.needDisp = false ↔ m.disp = 0

end Verif.Ea
