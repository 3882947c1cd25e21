/-
Reading back the instructions that are written.
-/
import Verif.Dwarf.Spec
import Verif.Intnum.Props

namespace Verif.Dwarf

open Verif.Intnum

set_option linter.unusedSimpArgs false

theorem size_small (x : Intnum) (sgn : Bool) (hx : Fits x) : (sizeLeb128 x sgn).toNat ≤ 37 := by
  by_cases h0 : x = .L 0#64
  · subst h0; simp [sizeLeb128]
  have hxt := tobv_toInt x hx
  have hnz : (tobv x).toNat ≠ 0 := by
    rw [Ne, ← Verif.Bitvect.toInt_ne_zero, hxt]
    intro hv
    have := ((small_tests x hx).1).2 hv
    cases x with
    | BV v => simp [isZero] at this
    | L l => simp [isZero] at this; exact h0 (by rw [this])
  rw [sizeLeb128, if_neg h0, sizeLeb_eq _ _ hnz]
  have hr := setMax_range _ hnz
  have hr2 := setMax_range _ (neg_ne_zero _ hnz)
  unfold lebN
  repeat' split
  all_goals omega

theorem uint_small (v : Long) (h : v.toNat < 2 ^ 32) : createUint v = .L v := by
  unfold createUint
  rw [if_neg (by omega)]

theorem small_toInt (v : Long) (h : v.toNat < 2 ^ 32) : v.toInt = (v.toNat : Int) := by
  rw [BitVec.toInt_eq_toNat_cond, if_pos (by omega)]

theorem fits_small (v : Long) (h : v.toNat < 2 ^ 32) : Fits (createUint v) ∧ val (createUint v) = (v.toNat : Int) := by
  rw [uint_small v h]
  have := small_toInt v h
  refine ⟨?_, ?_⟩
  · show -(2 ^ 32) < v.toInt ∧ v.toInt < 2 ^ 32
    omega
  · exact this

/-- A number written as ULEB128 reads back. -/
theorem uleb_back (v : Long) (h : v.toNat < 2 ^ 32) :
    ∃ bs, getLeb128 (createUint v) false = some bs ∧ bs.length = (sizeLeb128 (createUint v) false).toNat ∧
      leb false bs = some ((v.toNat : Int), bs.length) := by
  obtain ⟨hf, hv⟩ := fits_small v h
  obtain ⟨bs, h1, h2, h3⟩ := leb_encode_partial (createUint v) false hf (fun _ => by rw [hv]; omega) (fun h => by cases h)
  exact ⟨bs, h1, h2, by rw [h3, hv]⟩

/-- Instructions that are read back as written. -/
def OkOp : LineOp → Prop
  | .std op none => 13 ≤ op.toNat ∨ op = 1 ∨ op = 6 ∨ op = 7 ∨ op = 8 ∨ op = 10 ∨ op = 11
  | .std op (some x) => (op = 2 ∨ op = 3 ∨ op = 4 ∨ op = 5 ∨ op = 12) ∧ Fits x ∧ (op ≠ 3 → 0 ≤ val x) ∧ -(2 ^ 251) < val x
  | .sym op size _ => op = 2 ∧ size < 2 ^ 31
  | .num op x => op = 4 ∧ Fits x ∧ 0 ≤ val x
  | .bare op => op = 1

/-- What an instruction is to the reader. -/
def den (out : Nat → Nat → List Byte) : LineOp → Op
  | .std op none => if 13 ≤ op.toNat then .special op.toNat
    else if op = 1 then .copy else if op = 6 then .negateStmt else if op = 7 then .setBlock
    else if op = 8 then .constAddPc else if op = 10 then .setPrologue else .setEpilogue
  | .std op (some x) => if op = 2 then .advancePc (val x) else if op = 3 then .advanceLine (val x)
    else if op = 4 then .setFile (val x) else if op = 5 then .setColumn (val x) else .setIsa (val x)
  | .sym _ size s => .setAddress (leVal (out s size))
  | .num _ x => .setDiscriminator (val x)
  | .bare _ => .endSequence

theorem operand_back (sgn : Bool) (f : Int → Op) (b rest : List Byte) (v : Int) (h : leb sgn b = some (v, b.length)) :
    operand sgn f (b ++ rest) = some (f v, rest) := by
  unfold operand
  rw [leb_append _ _ _ _ h]
  simp only [Option.map_some, List.drop_left]

theorem ext_back (m : Nat) (a body rest : List Byte) (o : Op) (ha : leb false a = some ((body.length : Int), a.length))
    (ho : extended body = some o) : readOp (header m) (0 :: a ++ body ++ rest) = some (o, rest) := by
  rw [List.cons_append, List.cons_append, List.append_assoc, readOp]
  rw [if_neg (by show ¬ 13 ≤ (0 : Byte).toNat; decide)]
  have : (0 : Byte).toNat = 0 := rfl
  simp only [this]
  rw [leb_append _ _ _ _ ha]
  simp only [List.drop_left, Int.toNat_natCast]
  rw [if_neg (by rw [List.length_append]; omega), List.take_left, ho]
  rfl

theorem leb_nonempty (sgn : Bool) (b : List Byte) (r : Int × Nat) (h : leb sgn b = some r) : b ≠ [] := by
  rintro rfl
  cases sgn <;> simp [leb, uleb, sleb] at h

theorem read_op (m : Nat) (out : Nat → Nat → List Byte) (hout : ∀ s n, (out s n).length = n) (op : LineOp) (hok : OkOp op) :
    ∃ b, opBytes out op = some b ∧ b ≠ [] ∧ b.length = (opLen op).toNat ∧
      ∀ rest, readOp (header m) (b ++ rest) = some (den out op, rest) := by
  cases op with
  | std op x =>
    cases x with
    | none =>
      refine ⟨[op], rfl, by simp, rfl, ?_⟩
      intro rest
      rw [List.singleton_append, readOp]
      by_cases h : 13 ≤ op.toNat
      · rw [if_pos (show (header m).opcodeBase ≤ op.toNat from h), den, if_pos h]
      · rw [if_neg (show ¬ (header m).opcodeBase ≤ op.toNat from h), den, if_neg h]
        rcases hok with h' | h' | h' | h' | h' | h' | h'
        · exact absurd h' h
        all_goals (subst h'; rfl)
    | some x =>
      obtain ⟨ho, hf, h0, h1⟩ := hok
      obtain ⟨b, hb, hl, hd⟩ := leb_encode_partial x (decide (op = 3#8)) hf
        (fun h => h0 (by simpa using h)) (fun _ => h1)
      refine ⟨op :: b, by simp only [opBytes, hb, Option.map_some], by simp, ?_, ?_⟩
      · have := size_small x (decide (op = 3#8)) hf
        rw [List.length_cons, hl, opLen, BitVec.toNat_add, Nat.mod_eq_of_lt (by have : (1 : Long).toNat = 1 := rfl; omega)]
        have : (1 : Long).toNat = 1 := rfl
        omega
      · intro rest
        rw [List.cons_append, readOp]
        rcases ho with h' | h' | h' | h' | h' <;> subst h'
        · rw [if_neg (by show ¬ 13 ≤ (2 : Byte).toNat; decide)]
          exact operand_back _ _ _ _ _ hd
        · rw [if_neg (by show ¬ 13 ≤ (3 : Byte).toNat; decide)]
          exact operand_back _ _ _ _ _ hd
        · rw [if_neg (by show ¬ 13 ≤ (4 : Byte).toNat; decide)]
          exact operand_back _ _ _ _ _ hd
        · rw [if_neg (by show ¬ 13 ≤ (5 : Byte).toNat; decide)]
          exact operand_back _ _ _ _ _ hd
        · rw [if_neg (by show ¬ 13 ≤ (12 : Byte).toNat; decide)]
          exact operand_back _ _ _ _ _ hd
  | sym op size s =>
    obtain ⟨ho, hs⟩ := hok
    subst ho
    have hsz : (BitVec.ofNat 64 size + 1 : Long).toNat = size + 1 := by
      rw [BitVec.toNat_add, BitVec.toNat_ofNat]
      have : (1 : Long).toNat = 1 := rfl
      omega
    obtain ⟨a, ha, hl, hd⟩ := uleb_back (BitVec.ofNat 64 size + 1) (by omega)
    refine ⟨0 :: a ++ 2 :: out s size, by simp only [opBytes, ha, Option.map_some], by simp, ?_, ?_⟩
    · have := size_small (createUint (BitVec.ofNat 64 size + 1)) false (fits_small _ (by omega)).1
      simp only [List.length_append, List.length_cons, hl, hout]
      simp only [opLen, BitVec.toNat_add, BitVec.toNat_ofNat]
      have h2 : (2 : Long).toNat = 2 := rfl
      omega
    · intro rest
      apply ext_back
      · rw [hd, hsz, List.length_cons, hout]
      · simp only [extended]
        rw [if_neg (by rintro ⟨h, -⟩; exact absurd h (by decide)), if_pos trivial]
        rfl
  | num op x =>
    obtain ⟨ho, hf, h0⟩ := hok
    subst ho
    have hsm := size_small x false hf
    have hsz : (sizeLeb128 x false + 1 : Long).toNat = (sizeLeb128 x false).toNat + 1 := by
      rw [BitVec.toNat_add]
      have : (1 : Long).toNat = 1 := rfl
      omega
    obtain ⟨a, ha, hl, hd⟩ := uleb_back (sizeLeb128 x false + 1) (by omega)
    obtain ⟨b, hb, hlb, hdb⟩ := leb_encode_partial x false hf (fun _ => h0) (fun h => by cases h)
    refine ⟨0 :: a ++ 4 :: b, by simp only [opBytes, ha, hb], by simp, ?_, ?_⟩
    · have := size_small (createUint (sizeLeb128 x false + 1)) false (fits_small _ (by omega)).1
      simp only [List.length_append, List.length_cons, hl, hlb]
      simp only [opLen, BitVec.toNat_add, BitVec.toNat_ofNat]
      have h2 : (2 : Long).toNat = 2 := rfl
      omega
    · intro rest
      apply ext_back
      · rw [hd, hsz, List.length_cons, hlb]
      · simp only [extended]
        rw [if_neg (by rintro ⟨h, -⟩; exact absurd h (by decide)), if_neg (by decide), if_pos trivial, hdb]
        simp only [if_pos]
        rfl
  | bare op =>
    cases hok
    obtain ⟨a, ha, hl, hd⟩ := uleb_back 1 (by decide)
    refine ⟨0 :: a ++ [1], by simp only [opBytes, ha, Option.map_some], by simp, ?_, ?_⟩
    · have := size_small (createUint 1) false (fits_small _ (by decide)).1
      simp only [List.length_append, List.length_cons, List.length_nil, hl]
      simp only [opLen, BitVec.toNat_add, BitVec.toNat_ofNat]
      have h2 : (2 : Long).toNat = 2 := rfl
      omega
    · intro rest
      apply ext_back
      · rw [hd]; rfl
      · rfl

theorem read_ops (m : Nat) (out : Nat → Nat → List Byte) (hout : ∀ s n, (out s n).length = n) (ops : List LineOp)
    (hok : ∀ op ∈ ops, OkOp op) :
    ∃ bs, bytes out ops = some bs ∧ bs.length = (ops.map fun o => (opLen o).toNat).sum ∧
      ∀ n, bs.length ≤ n → readOps (header m) n bs = some (ops.map (den out)) := by
  induction ops with
  | nil => exact ⟨[], rfl, rfl, fun n _ => by cases n <;> rfl⟩
  | cons op ops ih =>
    obtain ⟨bs, h1, h2, h3⟩ := ih (fun o ho => hok o (List.mem_cons_of_mem _ ho))
    obtain ⟨b, g1, g2, g3, g4⟩ := read_op m out hout op (hok op (List.mem_cons_self ..))
    refine ⟨b ++ bs, by simp only [bytes, g1, h1], by rw [List.length_append, g3, h2]; rfl, ?_⟩
    intro n hn
    cases b with
    | nil => exact absurd rfl g2
    | cons x xs =>
      cases n with
      | zero => simp at hn
      | succ n =>
        have := g4 bs
        rw [List.cons_append] at this ⊢
        rw [readOps, this]
        simp only
        rw [h3 n (by simp only [List.length_cons, List.length_append] at hn; omega)]
        rfl

end Verif.Dwarf
