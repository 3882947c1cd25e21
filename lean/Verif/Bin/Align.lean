import Verif.Bin.Place
import Verif.Intnum.Props
/-
`bin_objfmt_align` on intnums.
-/
set_option linter.unusedSimpArgs false
set_option linter.unusedVariables false
namespace Verif.Bin
open Verif.Intnum Verif.Bitvect

theorem ibit_zero (z : Int) : ibit z 0 = decide (z % 2 = 1) := by simp [ibit]

theorem ibit_ext (a b : Int) (h : ∀ i, ibit a i = ibit b i) : a = b := by
  generalize hm : a.natAbs + b.natAbs = m
  induction m using Nat.strongRecOn generalizing a b with
  | ind m ih =>
    have h0 := h 0
    rw [ibit_zero, ibit_zero] at h0
    have hmod : a % 2 = b % 2 := by
      have := decide_eq_decide.1 h0
      omega
    have hs : ∀ i, ibit (a / 2) i = ibit (b / 2) i := by
      intro i
      have e1 := ibit_ediv a 1 i
      have e2 := ibit_ediv b 1 i
      rw [Int.pow_one] at e1 e2
      rw [e1, e2]; exact h (1 + i)
    by_cases hlt : (a / 2).natAbs + (b / 2).natAbs < m
    · have := ih _ hlt (a / 2) (b / 2) hs rfl
      omega
    · -- both are 0 or -1
      have : (a = 0 ∨ a = -1) ∧ (b = 0 ∨ b = -1) := by omega
      rcases this with ⟨h1 | h1, h2 | h2⟩ <;> subst h1 <;> subst h2 <;> simp at hmod ⊢

theorem ibit_emod (s : Int) (k i : Nat) : ibit (s % 2 ^ k) i = (decide (i < k) && ibit s i) := by
  by_cases h : i < k
  · have : s % 2 ^ k = s - 2 ^ k * (s / 2 ^ k) := by
      have := Int.mul_ediv_add_emod s (2 ^ k); omega
    rw [this, ibit_sub_mul _ _ _ _ h]; simp [h]
  · have hp : (0:Int) < 2 ^ k := Int.pow_pos (by decide)
    have h1 := Int.emod_nonneg s (show (2:Int) ^ k ≠ 0 by omega)
    have h2 := Int.emod_lt_of_pos s hp
    have hle : (2:Int) ^ k ≤ 2 ^ i := by
      have := Nat.pow_le_pow_right (n := 2) (by decide) (show k ≤ i by omega)
      exact_mod_cast this
    have : s % 2 ^ k / 2 ^ i = 0 := Int.ediv_eq_zero_of_lt h1 (by omega)
    simp [h, ibit, this]

theorem ibit_mul (z : Int) (k i : Nat) : ibit (2 ^ k * z) i = (!decide (i < k) && ibit z (i - k)) := by
  by_cases h : i < k
  · have := ibit_sub_mul 0 (-z) i k h
    rw [show (0:Int) - 2 ^ k * -z = 2 ^ k * z by rw [Int.mul_neg]; omega] at this
    rw [this]; simp [h, ibit]
  · have hp : (0:Int) < 2 ^ k := Int.pow_pos (by decide)
    have := ibit_ediv (2 ^ k * z) k (i - k)
    rw [Int.mul_ediv_cancel_left _ (by omega), show k + (i - k) = i by omega] at this
    rw [← this]; simp [h]

theorem ibit_neg_one (i : Nat) : ibit (-1) i = true := by
  unfold ibit
  have hp : (0:Int) < 2 ^ i := Int.pow_pos (by decide)
  have h1 : (-1 : Int) / 2 ^ i = -1 := by
    rw [show (-1 : Int) = (2 ^ i - 1) + 2 ^ i * (-1) by omega, Int.add_mul_ediv_left _ _ (by omega),
      Int.ediv_eq_zero_of_lt (by omega) (by omega)]; omega
  rw [h1]; rfl

theorem ibit_mask (k i : Nat) : ibit (2 ^ k - 1) i = decide (i < k) := by
  have := Nat.testBit_two_pow_sub_one k i
  rw [← ibit_natCast] at this
  rw [← this]
  congr 1
  have := Nat.one_le_two_pow (n := k)
  push_cast [this]
  rfl

theorem canon_fits {x : Intnum} (h : Canon x) : Fits x := by
  cases x with
  | L l => simp only [Canon, Fits] at *; omega
  | BV v => simp only [Canon, Fits] at *; omega

theorem wrap_small {z : Int} (h1 : -(2 ^ 255) ≤ z) (h2 : z < 2 ^ 255) : wrap z = z := by
  unfold wrap
  apply Int.bmod_eq_of_le <;> omega

theorem align_exact (stale : BitVec 256) (start align : Intnum) (k : Nat) (hk : k ≤ 31) (ha : Canon align)
    (hv : val align = 2 ^ k) (hs : Fits start) (hlt : val start < 2 ^ 254) :
    val (alignIntnum stale start align) = alignTo (val start) (2 ^ k) ∧ Fits (alignIntnum stale start align) := by
  have hkb : (2:Int) ^ k ≤ 2 ^ 31 := by
    have := Nat.pow_le_pow_right (n := 2) (by decide) hk
    exact_mod_cast this
  have hkn : 2 ^ k ≤ 2 ^ 31 := Nat.pow_le_pow_right (by decide) hk
  have hkp : (0:Int) < 2 ^ k := Int.pow_pos (by decide)
  have hkpn : 0 < 2 ^ k := Nat.pow_pos (by decide)
  have hu := get_uint_partial align ha (by omega)
  rw [hv, if_neg (by omega), if_pos (by omega)] at hu
  have hun : (getUint align).toNat = 2 ^ k := by exact_mod_cast hu
  generalize hg : getUint align = g at *
  have hm : (g - 1#64).toNat = 2 ^ k - 1 := by
    rw [BitVec.toNat_sub, hun, show (1#64).toNat = 1 by rfl]
    omega
  have hcu : createUint (g - 1#64) = .L (g - 1#64) := by
    unfold createUint; rw [if_neg (by omega)]
  have hmi : (g - 1#64).toInt = 2 ^ k - 1 := by
    rw [BitVec.toInt_eq_toNat_cond, if_pos (by omega), hm]
    have := Nat.one_le_two_pow (n := k)
    push_cast [this]; rfl
  have hmc : Canon (.L (g - 1#64)) := by simp only [Canon, hmi]; omega
  have hmv : val (.L (g - 1#64)) = 2 ^ k - 1 := hmi
  obtain ⟨t, et, rt, ct⟩ := calc_value_partial stale .AND (.L (g - 1#64)) start (canon_fits hmc) hs
    (by simp [Numeric]) (by simp [IsDiv]) (by simp) (by simp)
  have htv : val t = val start % 2 ^ k := by
    apply ibit_ext
    intro i
    have := rt i
    rw [hmv, ibit_mask] at this
    rw [this, ibit_emod]
  have hz := (small_tests t (canon_fits ct)).1
  unfold alignIntnum
  simp only [hg, hcu, et]
  have hat : alignTo (val start) (2 ^ k) =
      if val start % 2 ^ k = 0 then val start else 2 ^ k + (val start - val start % 2 ^ k) := by
    unfold alignTo; push_cast; rfl
  rw [hat]
  by_cases h0 : val start % 2 ^ k = 0
  · rw [if_pos h0, if_pos (hz.2 (by rw [htv, h0]))]
    exact ⟨rfl, hs⟩
  · rw [if_neg h0, if_neg (fun c => h0 (by rw [← htv]; exact hz.1 c))]
    have hsu : setUint t (g - 1#64) = .L (g - 1#64) := by
      unfold setUint; rw [if_neg (by omega)]
    rw [hsu]
    obtain ⟨m3, e3, r3, c3⟩ := calc_unary stale .NOT (.L (g - 1#64)) (canon_fits hmc) (by simp)
    have h3 : val m3 = 2 ^ k * (-1) := by
      have := r3 0
      simp only [OpRel] at this
      rw [this, hmv]; omega
    rw [e3]
    obtain ⟨m4, e4, r4, c4⟩ := calc_value_partial stale .AND m3 start (canon_fits c3) hs
      (by simp [Numeric]) (by simp [IsDiv]) (by simp) (by simp)
    have h4 : val m4 = val start - val start % 2 ^ k := by
      have e : val start - val start % 2 ^ k = 2 ^ k * (val start / 2 ^ k) := by
        have := Int.mul_ediv_add_emod (val start) (2 ^ k); omega
      rw [e]
      apply ibit_ext
      intro i
      have := r4 i
      rw [this, h3, ibit_mul, ibit_mul, ibit_neg_one, ibit_ediv]
      by_cases hi : i < k
      · simp [hi]
      · simp [hi, show k + (i - k) = i by omega]
    simp only [e4]
    obtain ⟨r, e5, r5, c5⟩ := calc_value_partial stale .ADD align m4 (canon_fits ha) (canon_fits c4)
      (by simp [Numeric]) (by simp [IsDiv]) (by simp) (by simp)
    simp only [e5]
    refine ⟨?_, canon_fits c5⟩
    simp only [OpRel] at r5
    have hr := val_range start
    have hmod := Int.emod_nonneg (val start) (show (2:Int) ^ k ≠ 0 by omega)
    have hml := Int.emod_lt_of_pos (val start) hkp
    rw [r5, hv, h4, wrap_small (by omega) (by omega)]

end Verif.Bin
