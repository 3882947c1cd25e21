import Verif.Bin.Model
/-
Specification of the flat binary format: what the section attributes mean.
-/
namespace Verif.Bin

/-- `addr` is the first multiple of `align` at or after `from`. -/
def FirstAligned (lower : Int) (align : Nat) (addr : Int) : Prop :=
  lower ≤ addr ∧ (align : Int) ∣ addr ∧ ∀ b : Int, lower ≤ b → (align : Int) ∣ b → addr ≤ b

/-- The alignment of a section's load address: the one given, or its own but at least 4. -/
def Sect.wantAlign (s : Sect) : Nat :=
  match s.align with
  | some a => a
  | none => max s.ownAlign 4

/-- The alignment of a section's virtual address: `valign`, or that of the load address. -/
def Sect.wantValign (s : Sect) : Nat :=
  match s.valign with
  | some a => a
  | none => s.wantAlign

/-- The names that are followed exist. -/
def Known (key : Sect → Option Name) (sects : List Sect) : Prop :=
  ∀ s ∈ sects, ∀ n, key s = some n → ∃ p ∈ sects, p.name = n

/-- No section follows itself, directly or through others. -/
def Acyclic (key : Sect → Option Name) (sects : List Sect) : Prop :=
  ∃ rank : Name → Nat, ∀ s ∈ sects, ∀ n, key s = some n → rank n < rank s.name

/-- The default order: sections with contents first, then those without; otherwise as in the source. -/
def Before (sects : List Sect) (a b : Sect) : Prop :=
  (a.bss = false ∧ b.bss = true ∧ a ∈ sects ∧ b ∈ sects) ∨ (a.bss = b.bss ∧ List.Sublist [a, b] sects)

/-- One section after the other, each at the first suitable address. -/
def Sequential : Int → List Placed → Prop
  | _, [] => True
  | a, p :: l => FirstAligned a p.sect.wantAlign p.istart ∧ Sequential (p.istart + p.sect.length) l

/-- The address ranges of two sections have no byte in common. -/
def Disjoint (p q : Placed) : Prop :=
  ∀ x : Int, ¬ ((p.istart ≤ x ∧ x < p.istart + p.sect.length) ∧
    (q.istart ≤ x ∧ x < q.istart + q.sect.length))

/-- The bytes of a section; reserved space is zero. -/
def contents (s : Sect) : List Byte :=
  s.pieces.flatMap fun
    | .bytes l => l
    | .gap n => List.replicate n 0#8

/-- What a section directive guarantees: no address is both fixed and relative, and alignments are
    positive. -/
structure Sane (s : Sect) : Prop where
  start : s.start = none ∨ s.follows = none
  vstart : s.vstart = none ∨ s.vfollows = none
  align : 0 < s.wantAlign
  valign : 0 < s.wantValign

end Verif.Bin
