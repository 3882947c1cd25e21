import Verif.Optimize.Model
/-
What is claimed about the optimizer, in terms of the bytecodes it is given and the bytecodes it returns.
Nothing here mentions spans, queues or the interval tree.
-/
namespace Verif.Optimize

/-- A well-formed object: it begins with a section's empty bytecode; every later bytecode either belongs to
    the section of the one before it or is the empty bytecode beginning the next section; empty bytecodes
    have no size, no repeat count and sit at offset 0; and there are fewer than 2^31 bytecodes. -/
structure WF {M} (bcs : List (Bc M)) : Prop where
  first : ∃ b, bcs[0]? = some b ∧ b.contents = .empty
  next : ∀ (i : Nat) a b, bcs[i]? = some a → bcs[i + 1]? = some b →
    (b.contents = .empty ∧ b.sect = a.sect + 1) ∨ (b.contents ≠ .empty ∧ b.sect = a.sect)
  empty : ∀ b ∈ bcs, b.contents = .empty → b.len = 0 ∧ b.offset = 0 ∧ b.mult = .one
  small : bcs.length < 2 ^ 31

/-- The bytecodes lie one after the other in each section, from offset 0. -/
def Contiguous {M} (bcs : List (Bc M)) : Prop :=
  (∀ b ∈ bcs, b.contents = .empty → b.offset = 0 ∧ b.len = 0) ∧
  ∀ (i : Nat) a b, bcs[i]? = some a → bcs[i + 1]? = some b → b.contents ≠ .empty →
    b.offset = a.offset + a.len * a.multInt

/-- The offset of the label after bytecode `p`. -/
def labelAt {M} (bcs : List (Bc M)) (p : Nat) : Int :=
  match bcs[p]? with
  | some b => b.offset + b.len * b.multInt
  | none => 0

/-- The value of an expression of bytecode `i`, from the offsets of the bytecodes; `none` if it is not
    determined by the layout of one section. -/
def valueAt {M} (bcs : List (Bc M)) (i : Nat) (v : SVal) : Option Int :=
  let a := match v.abs with
    | none => some 0
    | some f => f (v.terms.map fun p => labelAt bcs p.2 - labelAt bcs p.1)
  match v.rel, bcs[i]? with
  | .none, _ => a
  | .label q, some b =>
    if (bcs[q]?.map (·.sect)) = some b.sect then a.map (· + (labelAt bcs q - b.offset) >>> v.rshift) else none
  | _, _ => none

/-- What the contents of a bytecode promise about the value of an expression: that it lies in `[neg, pos]`. -/
structure Promise where
  val : SVal
  neg : Int
  pos : Int

/-- The contract of an instruction set's callbacks.  `pending m id` is the promise the present form of `m`
    makes for span `id`; `rank m` bounds how often `m` can ask for another threshold. -/
structure Machine.Ok {M} (mc : Machine M) (pending : M → Nat → Option Promise) (rank : M → Nat) : Prop where
  /-- `calc_len` reports exactly the promises of the form it chooses. -/
  reports : ∀ m m' n ds, mc.calcLen m = .ok (m', n, ds) →
    (∀ id, pending m' id = (ds.find? (·.id = id)).map fun d => ⟨d.val, d.neg, d.pos⟩) ∧
    (ds.map (·.id)).Nodup ∧ ∀ d ∈ ds, 0 < d.id
  /-- An expansion that is final makes no promise for its span any more; the others are kept. -/
  done : ∀ m len id old new neg pos m' n, mc.expand m len id old new neg pos = .ok (m', n, none) →
    pending m' id = none ∧ (∀ k, k ≠ id → pending m' k = pending m k) ∧ rank m' ≤ rank m
  /-- One that is not promises what it was told. -/
  more : ∀ m len id old new neg pos m' n neg' pos', mc.expand m len id old new neg pos = .ok (m', n, some (neg', pos')) →
    pending m' id = (pending m id).map (fun p => ⟨p.val, neg', pos'⟩) ∧ neg' ≤ new ∧ new ≤ pos' ∧
    (∀ k, k ≠ id → pending m' k = pending m k) ∧ rank m' < rank m
  /-- Thresholds are below the "too complex" value. -/
  bound : ∀ m id p, pending m id = some p → p.pos < LMAX
  /-- Expansion does not shrink. -/
  grow : ∀ m len id old new neg pos m' n k, mc.expand m len id old new neg pos = .ok (m', n, k) → len ≤ n

end Verif.Optimize
