import Verif.Intnum.Spec

set_option linter.unusedSimpArgs false
namespace Verif.Intnum
open Verif.Bitvect

/-! ### conversions -/

theorem toInt_small {n : Nat} (v : BitVec n) (h : 2 * v.toNat < 2 ^ n) : v.toInt = v.toNat := by
  rw [BitVec.toInt_eq_toNat_of_lt h]

theorem longBv_toInt (l : BitVec 64) (h : -(2 ^ 32) < l.toInt ∧ l.toInt < 2 ^ 32) :
    (longBv l).toInt = l.toInt := by
  unfold longBv
  have hs : l.slt 0#64 = decide (l.toInt < 0) := by rw [BitVec.slt]; simp
  have ex := toInt_eq_toNat_sub l
  have hl := l.isLt
  rw [hs]
  by_cases hn : l.toInt < 0
  · rw [if_pos (by simpa using hn)]
    have hm := (toInt_neg_iff l).2 hn
    rw [hm] at ex; simp at ex
    have hneg : (-l).toNat = 2 ^ 64 - l.toNat := by
      rw [BitVec.toNat_neg, Nat.mod_eq_of_lt (by omega)]
    have hc : (chunkStore 0#256 32 0 (-l)).toNat = 2 ^ 64 - l.toNat := by
      rw [chunkStore_zero_toNat _ _ _ (by decide) (by decide), hneg, Nat.mod_eq_of_lt (by omega)]
    generalize hcc : chunkStore 0#256 32 0 (-l) = c at *
    rw [BitVec.toInt_neg, toInt_small c (by rw [hc]; omega), hc]
    have : -((2 ^ 64 - l.toNat : Nat) : Int) = l.toInt := by omega
    rw [this]
    rw [Int.bmod_eq_of_le] <;> omega
  · rw [if_neg (by simpa using hn)]
    have hm : l.msb = false := by
      cases hm : l.msb
      · rfl
      · exact absurd ((toInt_neg_iff l).1 hm) hn
    rw [hm] at ex; simp at ex
    have hc : (chunkStore 0#256 32 0 l).toNat = l.toNat := by
      rw [chunkStore_zero_toNat _ _ _ (by decide) (by decide), Nat.mod_eq_of_lt (by omega)]
    rw [toInt_small _ (by rw [hc]; omega), hc, ex]

theorem tobv_toInt (x : Intnum) (h : Fits x) : (tobv x).toInt = val x := by
  cases x with
  | L l => exact longBv_toInt l h
  | BV v => rfl

theorem tobv_zero (x : Intnum) (h : val x = 0) : (tobv x).toNat = 0 := by
  cases x with
  | L l =>
    rw [← toInt_ne_zero, tobv, longBv_toInt] <;> simp only [val] at h <;> omega
  | BV v => exact (toInt_ne_zero v).1 h

theorem and_bit31 (x : BitVec 64) (h : x.toNat < 2 ^ 32) :
    x &&& 0x80000000#64 ≠ 0#64 ↔ 2 ^ 31 ≤ x.toNat := by
  have key : (x &&& 0x80000000#64) = 0#64 ↔ x.toNat.testBit 31 = false := by
    constructor
    · intro hh
      have h1 : (x &&& 0x80000000#64).getLsbD 31 = false := by rw [hh]; simp
      rw [BitVec.getLsbD_and, show (0x80000000#64).getLsbD 31 = true by decide, Bool.and_true,
        BitVec.getLsbD] at h1
      exact h1
    · intro hh
      apply BitVec.eq_of_getLsbD_eq
      intro i hi
      rw [BitVec.getLsbD_and]
      by_cases h31 : i = 31
      · subst h31; rw [BitVec.getLsbD, hh]; simp
      · have : (0x80000000#64).getLsbD i = false := by
          have : (0x80000000#64) = BitVec.twoPow 64 31 := by decide
          rw [this, BitVec.getLsbD_twoPow]; simp [Ne.symm h31]
        rw [this]; simp
  rw [Ne, key, Nat.testBit_eq_decide_div_mod_eq]
  simp; omega

theorem longCanon {v : Nat} (h : v < 2 ^ 31) : (BitVec.ofNat 64 v).toInt = v := by
  have e : (BitVec.ofNat 64 v).toNat = v := by
    rw [BitVec.toNat_ofNat, Nat.mod_eq_of_lt (by omega)]
  rw [toInt_small _ (by rw [e]; omega), e]

theorem frombv_spec (v : BitVec 256) : val (frombv v) = v.toInt ∧ Canon (frombv v) := by
  unfold frombv
  have hv := v.isLt
  have hsm := setMax_lt_iff v 31
  have ex := toInt_eq_toNat_sub v
  by_cases h : setMax v < 31
  · rw [if_pos h]
    have hlt := hsm.1 h
    have hr : (chunkRead v 31 0).toNat = v.toNat := by
      rw [chunkRead_toNat]; simp only [Nat.pow_zero, Nat.div_one]; exact Nat.mod_eq_of_lt hlt
    have hm : v.msb = false := by rw [msb_iff]; simp; omega
    rw [hm] at ex; simp at ex
    have hi : (chunkRead v 31 0).toInt = v.toNat := by rw [toInt_small _ (by omega), hr]
    refine ⟨by simp only [val]; rw [hi, ex], ?_⟩
    simp only [Canon]; rw [hi]; omega
  rw [if_neg h]
  have hge : 2 ^ 31 ≤ v.toNat := by
    have := fun hh => h (hsm.2 hh); omega
  by_cases hm : v.msb = true
  · rw [if_pos hm]
    rw [hm] at ex; simp at ex
    have hneg : (-v).toNat = 2 ^ 256 - v.toNat := by
      rw [BitVec.toNat_neg, Nat.mod_eq_of_lt (by omega)]
    have hsm2 := setMax_lt_iff (-v) 32
    have hge2 : setMax (-v) ≥ 32 ↔ 2 ^ 32 ≤ (-v).toNat := by
      constructor
      · intro hh
        have := mt hsm2.2 (by push_cast at *; omega)
        omega
      · intro hh
        have := mt hsm2.1 (by omega)
        push_cast at *; omega
    have hr : (chunkRead (-v) 32 0).toNat = (-v).toNat % 2 ^ 32 := by
      rw [chunkRead_toNat]; simp
    by_cases hc : setMax (-v) ≥ 32 ∨ chunkRead (-v) 32 0 &&& 0x80000000#64 ≠ 0#64
    · rw [if_pos hc]
      refine ⟨rfl, ?_⟩
      left
      rw [hge2, and_bit31 _ (by rw [hr]; omega), hr] at hc
      rw [ex]
      rcases hc with hc | hc <;> omega
    · rw [if_neg hc]
      rw [hge2, and_bit31 _ (by rw [hr]; omega), hr] at hc
      have hlt : (-v).toNat < 2 ^ 31 := by omega
      rw [Nat.mod_eq_of_lt (by omega)] at hr
      have hi : (chunkRead (-v) 32 0).toInt = (-v).toNat := by
        rw [toInt_small _ (by omega), hr]
      have hi2 : (-(chunkRead (-v) 32 0)).toInt = -((-v).toNat : Int) := by
        rw [BitVec.toInt_neg, hi, Int.bmod_eq_of_le] <;> omega
      refine ⟨?_, ?_⟩
      · simp only [val]; rw [hi2, ex, hneg]; omega
      · simp only [Canon]; rw [hi2]; omega
  · rw [if_neg hm]
    simp at hm
    rw [hm] at ex; simp at ex
    refine ⟨rfl, ?_⟩
    right; rw [ex]; omega

theorem Canon.fits {x : Intnum} (h : Canon x) : Fits x := by
  cases x <;> simp only [Canon, Fits] at * <;> omega

theorem val_range (x : Intnum) : -(2 ^ 255) ≤ val x ∧ val x < 2 ^ 255 := by
  cases x with
  | L l =>
    have h1 := @BitVec.toInt_lt 64 l
    have h2 := @BitVec.le_toInt 64 l
    simp only [val]; omega
  | BV v =>
    have h1 := @BitVec.toInt_lt 256 v
    have h2 := @BitVec.le_toInt 256 v
    simp only [val]; omega

theorem wrap_of_range (z : Int) (h1 : -(2 ^ 255) ≤ z) (h2 : z < 2 ^ 255) : wrap z = z := by
  unfold wrap
  rw [Int.bmod_eq_of_le] <;> omega

theorem ofInt_toInt (z : Int) : (BitVec.ofInt 256 z).toInt = wrap z := by
  rw [BitVec.toInt_ofInt]; rfl

theorem boolBv_toInt (b : Bool) : (boolBv b).toInt = ofBool b := by
  cases b <;> decide

end Verif.Intnum
