/-
What the instructions written for a row do.
-/
import Verif.Dwarf.Decode

namespace Verif.Dwarf

open Verif.Intnum

set_option linter.unusedSimpArgs false

theorem toInt_mod (v : Long) : (v.toNat : Int) = v.toInt % 2 ^ 64 ∧ -(2 ^ 63) ≤ v.toInt ∧ v.toInt < 2 ^ 63 := by
  have := v.isLt
  rw [BitVec.toInt_eq_toNat_cond]
  split <;> omega

theorem special_val (ld a : Long) (h1 : -5 ≤ ld.toInt) (h2 : ld.toInt ≤ 8) (ha : a.toNat ≤ 17) :
    ((special ld a).toNat : Int) = 18 + ld.toInt + 14 * a.toNat := by
  have h := toInt_mod ld
  have h13 : (13 : Long).toNat = 13 := rfl
  have h5 : (5 : Long).toNat = 5 := rfl
  have h14 : (14 : Long).toNat = 14 := rfl
  simp only [special, BitVec.truncate_eq_setWidth, BitVec.toNat_setWidth, BitVec.toNat_add, BitVec.toNat_mul, h13, h5, h14]
  omega

theorem sle_255 (x : BitVec 32) (h : x.toNat < 2 ^ 31) : (x.sle 255 = true) ↔ x.toNat ≤ 255 := by
  rw [BitVec.sle_iff_toInt_le]
  have h1 : (255 : BitVec 32).toInt = 255 := rfl
  have h2 : x.toInt = x.toNat := by rw [BitVec.toInt_eq_toNat_cond, if_pos (by omega)]
  rw [h1, h2]
  omega

theorem trunc_8 (x : BitVec 32) (h : x.toNat ≤ 255) : (x.truncate 8).toNat = x.toNat := by
  rw [BitVec.truncate_eq_setWidth, BitVec.toNat_setWidth]
  omega

/-- The row after a change of the address and of the line. -/
def Row.move (r : Row) (addr line : Int) : Row := { r with address := r.address + addr, line := r.line + line }

theorem div_one (a : Long) : a / 1 = a := by
  apply BitVec.eq_of_toNat_eq
  rw [BitVec.toNat_udiv]
  exact Nat.div_one _

theorem exec_special (r : Row) (n : Nat) (a : Nat) (l : Int) (hl : -5 ≤ l) (hl' : l ≤ 8) (hn : (n : Int) = 18 + l + 14 * a) :
    exec (header 1) r (.special n) = (r.move a l, true) := by
  have h1 : (header 1).addr n = a := by
    have : (n - 13) / 14 = a := by omega
    show ((1 : Nat) : Int) * (((n - 13) / 14 : Nat) : Int) = a
    rw [this]; omega
  have h2 : (((n - 13) % 14 : Nat) : Int) = l + 5 := by omega
  show ({ r with address := r.address + (header 1).addr n, line := r.line + -5 + ((n - 13) % 14 : Nat) }, true) = _
  rw [h1, h2, Row.move]
  congr 2
  omega

theorem exec_const (r : Row) : exec (header 1) r .constAddPc = (r.move 17 0, false) := by
  show ({ r with address := r.address + (header 1).addr 255 }, false) = _
  have : (header 1).addr 255 = 17 := by decide
  rw [this, Row.move, Int.add_zero]

theorem den_special (out : Nat → Nat → List Byte) (b : Byte) (h : 13 ≤ b.toNat) : den out (.std b none) = .special b.toNat := by
  rw [den, if_pos h]

/-- The row for a difference of the lines that a special opcode can hold. -/
def near (ld addr : Long) : List LineOp :=
  if ld = 0 ∧ addr = 0 then [.std 1 none]
  else if addr.toNat ≤ (maxAddr 1).toNat ∧ (special ld (addr / 1)).sle 255 then [.std ((special ld (addr / 1)).truncate 8) none]
  else if addr.toNat ≤ (2 * maxAddr 1).toNat ∧ (special ld ((addr - maxAddr 1) / 1)).sle 255 then
    [.std 8 none, .std ((special ld ((addr - maxAddr 1) / 1)).truncate 8) none]
  else .std 2 (some (createUint addr)) ::
    (if ld = 0 then [.std 1 none] else [.std ((special ld 0).truncate 8) none])

theorem rowOps_near (ld addr : Long) :
    rowOps 1 ld addr = if (ld.slt (-5) || !ld.slt 9) = true then .std 3 (some (createInt ld)) :: near 0 addr else near ld addr := by
  unfold rowOps near
  cases h : (ld.slt (-5) || !ld.slt 9) <;> simp

/-- Instructions do so much. -/
structure Does (out : Nat → Nat → List Byte) (ops : List LineOp) (r r' : Row) (row : Bool) : Prop where
  ok : ∀ o ∈ ops, OkOp o
  run : ∀ os, execAll (header 1) r (ops.map (den out) ++ os) =
    if row then r' :: execAll (header 1) (r'.next (header 1)) os else execAll (header 1) r' os

theorem does_nil (out : Nat → Nat → List Byte) (r : Row) : Does out [] r r false :=
  ⟨by intro o h; simp at h, fun os => rfl⟩

theorem does_cons (out : Nat → Nat → List Byte) (op : LineOp) (ops : List LineOp) (r r' r'' : Row) (b : Bool)
    (h : OkOp op) (he : exec (header 1) r (den out op) = (r', false)) (ht : Does out ops r' r'' b) :
    Does out (op :: ops) r r'' b := by
  refine ⟨?_, ?_⟩
  · intro o ho
    rcases List.mem_cons.1 ho with rfl | ho
    · exact h
    · exact ht.ok o ho
  · intro os
    rw [List.map_cons, List.cons_append, execAll, he]
    exact ht.run os

theorem does_row (out : Nat → Nat → List Byte) (op : LineOp) (r r' : Row)
    (h : OkOp op) (he : exec (header 1) r (den out op) = (r', true)) : Does out [op] r r' true := by
  refine ⟨?_, ?_⟩
  · intro o ho
    rw [List.mem_singleton.1 ho]; exact h
  · intro os
    rw [List.map_singleton, List.singleton_append, execAll, he]

theorem does_append (out : Nat → Nat → List Byte) (a b : List LineOp) (r r' r'' : Row) (x : Bool)
    (ha : Does out a r r' false) (hb : Does out b r' r'' x) : Does out (a ++ b) r r'' x := by
  refine ⟨?_, ?_⟩
  · intro o ho
    rcases List.mem_append.1 ho with h | h
    · exact ha.ok o h
    · exact hb.ok o h
  · intro os
    rw [List.map_append, List.append_assoc, ha.run]
    exact hb.run os

theorem does_special (out : Nat → Nat → List Byte) (r : Row) (ld a : Long) (h1 : -5 ≤ ld.toInt) (h2 : ld.toInt ≤ 8)
    (ha : a.toNat ≤ 17) (h : (special ld a).toNat ≤ 255) :
    Does out [.std ((special ld a).truncate 8) none] r (r.move a.toNat ld.toInt) true := by
  have hv := special_val ld a h1 h2 ha
  have ht := trunc_8 _ h
  have h13 : 13 ≤ ((special ld a).truncate 8).toNat := by rw [ht]; omega
  apply does_row
  · exact Or.inl h13
  · rw [den_special out _ h13]
    exact exec_special r _ _ _ h1 h2 (by rw [ht]; exact hv)

theorem does_copy (out : Nat → Nat → List Byte) (r : Row) : Does out [.std 1 none] r r true :=
  does_row out _ r r (Or.inr (Or.inl rfl)) rfl

theorem move_zero (r : Row) : r.move 0 0 = r := by rw [Row.move, Int.add_zero, Int.add_zero]

theorem move_move (r : Row) (a b c d : Int) : (r.move a b).move c d = r.move (a + c) (b + d) := by
  simp only [Row.move, Int.add_assoc]

theorem near_does (out : Nat → Nat → List Byte) (r : Row) (ld addr : Long) (h1 : -5 ≤ ld.toInt) (h2 : ld.toInt ≤ 8)
    (ha : addr.toNat < 2 ^ 32) : Does out (near ld addr) r (r.move addr.toNat ld.toInt) true := by
  have hm : (maxAddr 1).toNat = 17 := rfl
  have hm2 : (2 * maxAddr 1).toNat = 34 := rfl
  have z : (0 : Long).toNat = 0 := rfl
  have z' : (0 : Long).toInt = 0 := rfl
  unfold near
  rw [div_one, div_one, hm, hm2]
  by_cases c1 : ld = 0 ∧ addr = 0
  · rw [if_pos c1, c1.1, c1.2, z, z']
    have : r.move ((0 : Nat) : Int) 0 = r := move_zero r
    rw [this]
    exact does_copy out r
  rw [if_neg c1]
  by_cases c2 : addr.toNat ≤ 17 ∧ (special ld addr).sle 255
  · rw [if_pos c2]
    have hv := special_val ld addr h1 h2 c2.1
    exact does_special out r ld addr h1 h2 c2.1 ((sle_255 _ (by omega)).1 c2.2)
  rw [if_neg c2]
  by_cases c3 : addr.toNat ≤ 34 ∧ (special ld (addr - maxAddr 1)).sle 255
  · rw [if_pos c3]
    have h17 : 17 ≤ addr.toNat := by
      apply Classical.byContradiction
      intro hlt
      have hv := special_val ld addr h1 h2 (by omega)
      exact c2 ⟨by omega, (sle_255 _ (by omega)).2 (by omega)⟩
    have hsub : (addr - maxAddr 1).toNat = addr.toNat - 17 := by
      rw [BitVec.toNat_sub, hm]
      omega
    have hv := special_val ld (addr - maxAddr 1) h1 h2 (by omega)
    have hd := does_special out (r.move 17 0) ld (addr - maxAddr 1) h1 h2 (by omega) ((sle_255 _ (by omega)).1 c3.2)
    rw [move_move, hsub] at hd
    have e1 : (17 : Int) + ((addr.toNat - 17 : Nat) : Int) = addr.toNat := by omega
    rw [e1, Int.zero_add] at hd
    exact does_cons out _ _ _ _ _ _ (by simp [OkOp]) (exec_const r) hd
  rw [if_neg c3]
  obtain ⟨hf, hv⟩ := fits_small addr ha
  refine does_cons out _ _ r (r.move addr.toNat 0) _ _ ⟨Or.inl rfl, hf, fun _ => by rw [hv]; omega, by rw [hv]; omega⟩ ?_ ?_
  · have : exec (header 1) r (den out (.std 2 (some (createUint addr)))) =
        ({ r with address := r.address + ((1 : Nat) : Int) * val (createUint addr) }, false) := rfl
    rw [this, hv, Row.move, Int.add_zero]
    congr 2
    omega
  · by_cases c4 : ld = 0
    · rw [if_pos c4, c4, z']
      exact does_copy out _
    · rw [if_neg c4]
      have hv := special_val ld 0 h1 h2 (by omega)
      have hd := does_special out (r.move addr.toNat 0) ld 0 h1 h2 (by omega) (by omega)
      rw [move_move, Int.zero_add] at hd
      have e : ((addr.toNat : Int) + ((0 : Long).toNat : Int)) = addr.toNat := by omega
      rw [e] at hd
      exact hd

theorem row_does (out : Nat → Nat → List Byte) (r : Row) (ld addr : Long) (hl : -(2 ^ 32) < ld.toInt) (hl' : ld.toInt < 2 ^ 32)
    (ha : addr.toNat < 2 ^ 32) : Does out (rowOps 1 ld addr) r (r.move addr.toNat ld.toInt) true := by
  rw [rowOps_near]
  have e5 : (-5 : Long).toInt = -5 := rfl
  have e9 : (9 : Long).toInt = 9 := rfl
  have b5 : ld.slt (-5) = decide (ld.toInt < -5) := by rw [BitVec.slt, e5]
  have b9 : ld.slt 9 = decide (ld.toInt < 9) := by rw [BitVec.slt, e9]
  rw [b5, b9]
  by_cases h : ld.toInt < -5 ∨ ¬ ld.toInt < 9
  · rw [if_pos (by simpa using h)]
    refine does_cons out _ _ r (r.move 0 ld.toInt) _ _ ⟨Or.inr (Or.inl rfl), ⟨hl, hl'⟩, fun h => absurd rfl h, ?_⟩ ?_ ?_
    · show -(2 ^ 251) < ld.toInt
      omega
    · show (({ r with line := r.line + ld.toInt } : Row), false) = _
      rw [Row.move, Int.add_zero]
    · have := near_does out (r.move 0 ld.toInt) 0 addr (by decide) (by decide) ha
      rw [move_move, Int.zero_add] at this
      have z' : (0 : Long).toInt = 0 := rfl
      rw [z', Int.add_zero] at this
      exact this
  · rw [if_neg (by simpa using h)]
    exact near_does out r ld addr (by omega) (by omega) ha

end Verif.Dwarf
