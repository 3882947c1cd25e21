import Verif.Floatnum.ConvLemmas
import Mathlib.Tactic.FieldSimp

set_option linter.unusedSimpArgs false

namespace Verif.Floatnum

open Verif.Bitvect
open Verif.Floatnum.Spec

/-! ### Multiplication -/

theorem widen_toNat (m : BitVec 80) : (widen m).toNat = m.toNat := by
  apply Nat.eq_of_testBit_eq
  intro i
  show (widen m).getLsbD i = m.getLsbD i
  unfold widen
  rw [BitVec.getLsbD_and, BitVec.getLsbD_signExtend, BitVec.getLsbD_not, BitVec.getLsbD_twoPow]
  by_cases h : i < 80
  · have h1 : i < 81 := by omega
    have h2 : ¬ 80 = i := by omega
    simp [h, h1, h2]
  · rw [BitVec.getLsbD_of_ge m i (by omega)]
    by_cases h2 : i = 80
    · simp [h2]
    · have h1 : ¬ i < 81 := by omega
      simp [h1]

theorem multiplyWide_toNat (y z : BitVec 80) :
    (multiplyWide (widen y) (widen z)).toNat = y.toNat * z.toNat := by
  have hy := y.isLt
  have hz := z.isLt
  have hp : y.toNat * z.toNat < 2 ^ 80 * 2 ^ 80 := Nat.mul_lt_mul'' hy hz
  have hmsb : ∀ m : BitVec 80, (widen m).msb = false := by
    intro m
    rw [msb_iff, widen_toNat]
    have := m.isLt
    exact decide_eq_false (by omega)
  unfold multiplyWide
  rw [hmsb, hmsb, widen_toNat, widen_toNat]
  by_cases h0 : y.toNat = 0 ∨ z.toNat = 0
  · rw [if_pos h0]
    rcases h0 with h | h <;> simp [h]
  · rw [if_neg h0]
    simp only [Bool.false_eq_true, if_false, bne_self_eq_false, Bool.and_false]
    split
    · have := (mulPos_strict ((widen y).setWidth 162) (widen z) (by
        rw [BitVec.toNat_setWidth, widen_toNat, widen_toNat, Nat.mod_eq_of_lt (by omega)]; omega)).2
      rw [this, BitVec.toNat_setWidth, widen_toNat, widen_toNat, Nat.mod_eq_of_lt (by omega)]
    · have := (mulPos_strict ((widen z).setWidth 162) (widen y) (by
        rw [BitVec.toNat_setWidth, widen_toNat, widen_toNat, Nat.mod_eq_of_lt (by omega), Nat.mul_comm z.toNat]
        omega)).2
      rw [this, BitVec.toNat_setWidth, widen_toNat, widen_toNat, Nat.mod_eq_of_lt (by omega), Nat.mul_comm]

/-- floatnum_mul of normalized numbers whose product is in range: the product cut to 80 bits. -/
theorem mul_eq (f g : Flt) (hf : Normal f) (hg : Normal g) (h1 : 0x7FFF + 1 ≤ f.exp + g.exp)
    (h2 : f.exp + g.exp ≤ 0x7FFF + 0xFFFE) :
    (mul f g).isZero = f.isZero ∧ (mul f g).sign = (f.sign != g.sign) ∧
    ((2 ^ 159 ≤ f.mant.toNat * g.mant.toNat → (mul f g).mant.toNat = f.mant.toNat * g.mant.toNat / 2 ^ 80 ∧
        (mul f g).exp + 0x7FFF = f.exp + g.exp + 1) ∧
     (f.mant.toNat * g.mant.toNat < 2 ^ 159 → (mul f g).mant.toNat = f.mant.toNat * g.mant.toNat / 2 ^ 79 ∧
        (mul f g).exp + 0x7FFF = f.exp + g.exp)) := by
  unfold Normal at hf hg
  have hfl := f.mant.isLt
  have hgl := g.mant.isLt
  have hp1 : 2 ^ 79 * 2 ^ 79 ≤ f.mant.toNat * g.mant.toNat := Nat.mul_le_mul hf hg
  have hp2 : f.mant.toNat * g.mant.toNat < 2 ^ 80 * 2 ^ 80 := Nat.mul_lt_mul'' hfl hgl
  have hmw := multiplyWide_toNat f.mant g.mant
  generalize hP : f.mant.toNat * g.mant.toNat = P at *
  have hsm : setMax (multiplyWide (widen f.mant) (widen g.mant)) = (Nat.log2 P : Int) := by
    rw [setMax_nonneg _ (by omega), hmw]
  have hlog : (2 ^ 159 ≤ P → Nat.log2 P = 159) ∧ (P < 2 ^ 159 → Nat.log2 P = 158) := by
    constructor
    · intro h; exact (Nat.log2_eq_iff (by omega)).mpr ⟨h, by omega⟩
    · intro h; exact (Nat.log2_eq_iff (by omega)).mpr ⟨by omega, h⟩
  unfold mul
  dsimp only
  rw [if_neg (by omega), if_neg (by omega), if_neg (by omega), hsm]
  have he : ((f.exp : Int) - 0x7FFF + ((g.exp : Int) - 0x7FFF) + 0x7FFF + 1).toNat = f.exp + g.exp - 0x7FFF + 1 := by omega
  rw [he]
  refine ⟨rfl, rfl, ?_, ?_⟩
  · intro h
    rw [hlog.1 h]
    dsimp only
    rw [show ((159 : Int) - ((159 : Nat) : Int)) = 0 by omega, if_neg (by omega)]
    refine ⟨?_, by simp only [Int.toNat_zero]; omega⟩
    rw [intervalCopy_full _ _ 80 (by omega), moveLeft_toNat, hmw]
    simp only [Int.toNat_zero, Nat.pow_zero, Nat.mul_one]
    rw [Nat.mod_eq_of_lt (b := 2 ^ 162) (by omega), Nat.mod_eq_of_lt (by omega)]
  · intro h
    rw [hlog.2 h]
    dsimp only
    rw [show ((159 : Int) - ((158 : Nat) : Int)) = 1 by omega, if_neg (by omega)]
    refine ⟨?_, by simp only [Int.toNat_one]; omega⟩
    rw [intervalCopy_full _ _ 80 (by omega), moveLeft_toNat, hmw]
    simp only [Int.toNat_one, Nat.pow_one]
    rw [Nat.mod_eq_of_lt (b := 2 ^ 162) (by omega), Nat.mod_eq_of_lt (by omega)]
    omega

/-- A product below the range becomes zero, one above it infinity. -/
theorem mul_over (f g : Flt) (hf : Normal f) (hg : Normal g) (h : 0x7FFF + 0xFFFE < f.exp + g.exp) :
    (mul f g).exp = 0xFFFF ∧ (mul f g).mant = 0 := by
  unfold Normal at hf hg
  unfold mul
  dsimp only
  rw [if_neg (by omega), if_pos (by omega)]
  exact ⟨rfl, rfl⟩

theorem mul_under (f g : Flt) (hf : Normal f) (hg : Normal g) (h : f.exp + g.exp < 0x7FFF + 1) :
    (mul f g).exp = 0 ∧ (mul f g).mant = 0 := by
  unfold Normal at hf hg
  unfold mul
  dsimp only
  rw [if_neg (by omega), if_neg (by omega), if_pos (by omega)]
  exact ⟨rfl, rfl⟩

theorem value_pos {f : Flt} (hf : Normal f) : 0 < value f := by
  unfold value Normal at *
  have : (0 : ℚ) < f.mant.toNat := by exact_mod_cast (by omega : 0 < f.mant.toNat)
  positivity

/-- A normalized number lies between two powers of two. -/
theorem value_bounds {f : Flt} (hf : Normal f) :
    (2 : ℚ) ^ ((f.exp : ℤ) - 0x7FFF) ≤ value f ∧ value f < (2 : ℚ) ^ ((f.exp : ℤ) - 0x7FFF + 1) := by
  unfold value Normal at *
  have hl := f.mant.isLt
  have h1 : (2 : ℚ) ^ (79 : ℤ) ≤ f.mant.toNat := by
    rw [show (2 : ℚ) ^ (79 : ℤ) = ((2 ^ 79 : Nat) : ℚ) by norm_num]; exact_mod_cast hf
  have h2 : (f.mant.toNat : ℚ) < (2 : ℚ) ^ (80 : ℤ) := by
    rw [show (2 : ℚ) ^ (80 : ℤ) = ((2 ^ 80 : Nat) : ℚ) by norm_num]; exact_mod_cast hl
  have hp : (0 : ℚ) < 2 ^ ((f.exp : ℤ) - 0x7FFF - 79) := by positivity
  constructor
  · refine le_trans (le_of_eq ?_) (mul_le_mul_of_nonneg_right h1 (le_of_lt hp))
    rw [← zpow_add₀ (by norm_num)]; congr 1; omega
  · refine lt_of_lt_of_le (mul_lt_mul_of_pos_right h2 hp) (le_of_eq ?_)
    rw [← zpow_add₀ (by norm_num)]; congr 1; omega

/-- The product is normalized and at most one part in 2^79 below the true product. -/
theorem mul_value (f g : Flt) (hf : Normal f) (hg : Normal g) (h1 : 0x7FFF + 1 ≤ f.exp + g.exp)
    (h2 : f.exp + g.exp ≤ 0x7FFF + 0xFFFE) :
    Normal (mul f g) ∧ value (mul f g) ≤ value f * value g ∧
      value f * value g * (1 - 1 / 2 ^ 79) ≤ value (mul f g) := by
  obtain ⟨-, -, hA, hB⟩ := mul_eq f g hf hg h1 h2
  unfold Normal at hf hg
  have hfl := f.mant.isLt
  have hgl := g.mant.isLt
  have hp1 : 2 ^ 79 * 2 ^ 79 ≤ f.mant.toNat * g.mant.toNat := Nat.mul_le_mul hf hg
  have hp2 : f.mant.toNat * g.mant.toNat < 2 ^ 80 * 2 ^ 80 := Nat.mul_lt_mul'' hfl hgl
  -- both cases: mantissa = P / 2^s, with exponent to match
  obtain ⟨s, hs, hm, he, hlow⟩ : ∃ s : Nat, 0 < 2 ^ s ∧
      (mul f g).mant.toNat = f.mant.toNat * g.mant.toNat / 2 ^ s ∧
      ((mul f g).exp : ℤ) + 0x7FFF = f.exp + g.exp + s - 79 ∧ 2 ^ 79 * 2 ^ s ≤ f.mant.toNat * g.mant.toNat := by
    by_cases h : 2 ^ 159 ≤ f.mant.toNat * g.mant.toNat
    · obtain ⟨a, b⟩ := hA h
      exact ⟨80, by decide, a, by omega, by omega⟩
    · obtain ⟨a, b⟩ := hB (by omega)
      exact ⟨79, by decide, a, by omega, by omega⟩
  have hN : 2 ^ 79 ≤ (mul f g).mant.toNat := by
    rw [hm, Nat.le_div_iff_mul_le hs]; exact hlow
  have hval : value f * value g = ((f.mant.toNat * g.mant.toNat : Nat) : ℚ) / 2 ^ s *
      2 ^ (((mul f g).exp : ℤ) - 0x7FFF - 79) := by
    unfold value
    rw [show ((mul f g).exp : ℤ) - 0x7FFF - 79 = ((f.exp : ℤ) - 0x7FFF - 79) + ((g.exp : ℤ) - 0x7FFF - 79) + (s : ℕ) by omega]
    rw [zpow_add₀ (by norm_num), zpow_add₀ (by norm_num), zpow_natCast]
    push_cast
    field_simp
  have hk : (0 : ℚ) < 2 ^ (((mul f g).exp : ℤ) - 0x7FFF - 79) := by positivity
  refine ⟨hN, ?_, ?_⟩
  · rw [hval]
    unfold value
    apply mul_le_mul_of_nonneg_right _ (le_of_lt hk)
    rw [hm, le_div_iff₀ (by positivity)]
    exact_mod_cast Nat.div_mul_le_self _ _
  · rw [hval]
    unfold value
    rw [mul_right_comm]
    apply mul_le_mul_of_nonneg_right _ (le_of_lt hk)
    have h3 : f.mant.toNat * g.mant.toNat < (mul f g).mant.toNat * 2 ^ s + 2 ^ s := by
      rw [hm]
      have := Nat.div_add_mod (f.mant.toNat * g.mant.toNat) (2 ^ s)
      have := Nat.mod_lt (f.mant.toNat * g.mant.toNat) hs
      rw [Nat.mul_comm (_ / _)]; omega
    generalize f.mant.toNat * g.mant.toNat = P at *
    generalize (mul f g).mant.toNat = M at *
    have h4 : (P : ℚ) < M * 2 ^ s + 2 ^ s := by exact_mod_cast h3
    have h5 : (2 : ℚ) ^ 79 * 2 ^ s ≤ P := by exact_mod_cast hlow
    have hs' : (0 : ℚ) < 2 ^ s := by positivity
    rw [mul_sub, mul_one, sub_le_iff_le_add]
    rw [div_le_iff₀ hs', add_mul]
    have h6 : (2 : ℚ) ^ s ≤ (P : ℚ) / 2 ^ s * (1 / 2 ^ 79) * 2 ^ s := by
      rw [mul_right_comm, div_mul_cancel₀ _ (ne_of_gt hs'), mul_one_div, le_div_iff₀ (by positivity)]
      linarith
    linarith

end Verif.Floatnum
