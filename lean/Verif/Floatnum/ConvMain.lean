import Verif.Floatnum.ConvLemmas

set_option linter.unusedSimpArgs false

namespace Verif.Floatnum

open Verif.Bitvect
open Verif.Floatnum.Spec

/-- What is needed of a format. -/
structure FormatOk (F : Format) : Prop where
  size : F.bytes * 8 = F.mantBits + F.expBits + 1
  eb1 : 2 ≤ F.expBits
  eb2 : F.expBits ≤ 15
  mb1 : 2 ≤ F.mantBits
  prec : F.precision < 80

/-- The assembled bytes. -/
theorem assembled {F : Format} (ok : FormatOk F) (a : BitVec (F.bytes * 8)) (e : Int) (he0 : 0 ≤ e)
    (he : e < 2 ^ F.expBits) (ha : a.toNat < 2 ^ F.mantBits) (s : Bool) :
    let n := F.bytes * 8
    let c := chunkStore a F.expBits F.mantBits (BitVec.ofInt 64 e)
    let o := if s then c ||| BitVec.twoPow n (n - 1) else c &&& ~~~(BitVec.twoPow n (n - 1))
    (blockRead o).length = F.bytes ∧ mantField F (blockRead o) = a.toNat ∧
      expField F (blockRead o) = e.toNat ∧ signField F (blockRead o) = s.toNat := by
  intro n c o
  obtain ⟨k, rfl⟩ := Int.eq_ofNat_of_zero_le he0
  have hk : k < 2 ^ F.expBits := by exact_mod_cast he
  have hf := fields (n := n) ok.size (by have := ok.eb2; omega) (by have := ok.mb1; omega) a k hk ha s
  have hl : leNat (blockRead o) = o.toNat := leNat_blockRead o (by show F.bytes * 8 = F.bytes * 8 / 8 * 8; omega)
  refine ⟨by simp [blockRead, n], ?_, ?_, ?_⟩
  · unfold mantField; rw [hl]; exact hf.1
  · unfold expField; rw [hl]; exact hf.2.1
  · unfold signField; rw [hl]; exact hf.2.2

/-- The exponent after rounding, relative to the format. -/
theorem getCommon_eq {F : Format} (ok : FormatOk F) (f : Flt) (r : BitVec (F.bytes * 8) × Int × Bool)
    (hr : roundMant (F.bytes * 8) F.mantBits F.hidden f = r) (hm : r.1.toNat < 2 ^ F.mantBits)
    (hov : r.2.2 = true → r.2.1 = 0xFFFE ∨ r.2.1 = 0xFFFF) :
    ∃ bytes ret, getCommon f F.bytes F.mantBits F.hidden F.expBits = .ok bytes ret ∧
      bytes.length = F.bytes ∧ signField F bytes = f.sign.toNat ∧
      ((F.bias : Int) + 1 ≤ r.2.1 - 0x7FFF →
        ret = 1 ∧ expField F bytes = 2 ^ F.expBits - 1 ∧ mantField F bytes = 0) ∧
      (r.2.1 - 0x7FFF < 1 - (F.bias : Int) →
        ret = (if f.isZero then 0 else -1) ∧ IsZero F bytes) ∧
      (1 - (F.bias : Int) ≤ r.2.1 - 0x7FFF → r.2.1 - 0x7FFF < (F.bias : Int) + 1 →
        ret = 0 ∧ mantField F bytes = r.1.toNat ∧ (expField F bytes : Int) = r.2.1 - 0x7FFF + F.bias ∧
          0 < expField F bytes ∧ expField F bytes < 2 ^ F.expBits - 1) := by
  have hb : ((2 : Int) ^ (F.expBits - 1) - 1) = (F.bias : Int) := by
    unfold Format.bias
    have := Nat.one_le_two_pow (n := F.expBits - 1)
    push_cast [this]; rfl
  have hi : ((2 : Int) ^ F.expBits - 1) = 2 * (F.bias : Int) + 1 := by
    rw [← hb]
    have h1 := ok.eb1
    have : (2 : Int) ^ F.expBits = 2 * 2 ^ (F.expBits - 1) := by rw [← pow_succ']; congr 1; omega
    rw [this]; ring
  have hb1 : 1 ≤ F.bias := by
    unfold Format.bias
    have := Nat.pow_le_pow_right (show 0 < 2 by decide) (show 1 ≤ F.expBits - 1 by have := ok.eb1; omega)
    omega
  have hb2 : F.bias ≤ 16383 := by
    unfold Format.bias
    have := Nat.pow_le_pow_right (show 0 < 2 by decide) (show F.expBits - 1 ≤ 14 by have := ok.eb2; omega)
    omega
  have hpe : (2 : Int) ^ F.expBits = 2 * (F.bias : Int) + 2 := by omega
  have hpen : 2 ^ F.expBits = 2 * F.bias + 2 := by exact_mod_cast hpe
  obtain ⟨rm, re, ro⟩ := r
  dsimp only at hov hm ⊢
  have hovd : ro = true → re - (0x7FFF - (F.bias : Int)) ≥ 2 * (F.bias : Int) + 1 := by
    intro h; rcases hov h with h | h <;> omega
  unfold getCommon
  dsimp only
  rw [hr, hb, hi]
  dsimp only
  have hov2 : (ro || decide (re - (0x7FFF - (F.bias : Int)) ≥ 2 * (F.bias : Int) + 1)) =
      decide (re - (0x7FFF - (F.bias : Int)) ≥ 2 * (F.bias : Int) + 1) := by
    cases ro
    · rfl
    · have := hovd rfl; simp only [Bool.true_or, this, decide_true]
  rw [hov2]
  by_cases hO : re - (0x7FFF - (F.bias : Int)) ≥ 2 * (F.bias : Int) + 1
  · simp only [hO, decide_true, Bool.not_true, Bool.false_and, Bool.false_eq_true, if_false, if_true]
    obtain ⟨h1, h2, h3, h4⟩ := assembled ok (0 : BitVec (F.bytes * 8)) (2 * (F.bias : Int) + 1) (by omega)
      (by omega) (by simp [Nat.two_pow_pos]) f.sign
    refine ⟨_, _, rfl, h1, h4, fun _ => ⟨rfl, ?_, ?_⟩, fun h => by omega, fun _ h => by omega⟩
    · rw [h3]; omega
    · rw [h2]; simp
  · by_cases hU : re - (0x7FFF - (F.bias : Int)) ≤ 0
    · simp only [hO, hU, decide_true, decide_false, Bool.not_false, Bool.and_true, Bool.and_false, Bool.false_eq_true, if_false, if_true]
      obtain ⟨h1, h2, h3, h4⟩ := assembled ok (0 : BitVec (F.bytes * 8)) 0 (by omega)
        (by omega) (by simp [Nat.two_pow_pos]) f.sign
      refine ⟨_, _, rfl, h1, h4, fun h => by omega, fun _ => ⟨rfl, ?_, ?_⟩, fun h => by omega⟩
      · rw [h3]; rfl
      · rw [h2]; simp
    · simp only [hO, hU, decide_true, decide_false, Bool.not_false, Bool.and_true, Bool.and_false, Bool.false_eq_true, if_false, if_true]
      obtain ⟨h1, h2, h3, h4⟩ := assembled ok rm (re - (0x7FFF - (F.bias : Int))) (by omega)
        (by omega) hm f.sign
      refine ⟨_, _, rfl, h1, h4, fun h => by omega, fun h => by omega, fun _ _ => ⟨rfl, h2, ?_, ?_, ?_⟩⟩
      · rw [h3]; omega
      · rw [h3]; omega
      · rw [h3]; omega

/-- Size of a product `q·2^j`. -/
theorem two_pow_le_iff (q P : Nat) (j k : Int) (h1 : 2 ^ (P - 1) ≤ q) (h2 : q < 2 ^ P) (hP : 0 < P) :
    (2 : ℚ) ^ k ≤ (q : ℚ) * 2 ^ j ↔ k ≤ j + ((P : Int) - 1) := by
  have hj : (0 : ℚ) < 2 ^ j := by positivity
  have hc : (2 : ℚ) ^ (P - 1) = 2 ^ ((P : Int) - 1) := by
    rw [← zpow_natCast]; congr 1; omega
  constructor
  · intro h
    by_contra hlt
    have h3 : (q : ℚ) < 2 ^ P := by exact_mod_cast h2
    have h4 : (q : ℚ) * 2 ^ j < 2 ^ P * 2 ^ j := mul_lt_mul_of_pos_right h3 hj
    rw [← zpow_natCast, ← zpow_add₀ (by norm_num)] at h4
    have := (zpow_lt_zpow_iff_right₀ (show (1 : ℚ) < 2 by norm_num)).mp (lt_of_le_of_lt h h4)
    omega
  · intro h
    have h3 : (2 : ℚ) ^ (P - 1) ≤ q := by exact_mod_cast h1
    refine le_trans ?_ (mul_le_mul_of_nonneg_right h3 (le_of_lt hj))
    rw [hc, ← zpow_add₀ (by norm_num)]
    exact zpow_le_zpow_right₀ (by norm_num) (by omega)

/-- Conversion of a normalized number. -/
theorem getCommon_normal {F : Format} (ok : FormatOk F) (f : Flt) (hnorm : Normal f) (hexp : f.exp ≤ 0xFFFF) :
    ∃ d bytes ret, Rounded F.precision (value f) d ∧
      getCommon f F.bytes F.mantBits F.hidden F.expBits = .ok bytes ret ∧
      bytes.length = F.bytes ∧ signField F bytes = f.sign.toNat ∧
      ((2 : ℚ) ^ ((F.bias : Int) + 1) ≤ d →
        ret = 1 ∧ expField F bytes = 2 ^ F.expBits - 1 ∧ mantField F bytes = 0) ∧
      (d < (2 : ℚ) ^ (1 - (F.bias : Int)) → ret = (if f.isZero then 0 else -1) ∧ IsZero F bytes) ∧
      ((2 : ℚ) ^ (1 - (F.bias : Int)) ≤ d → d < (2 : ℚ) ^ ((F.bias : Int) + 1) →
        ret = 0 ∧ IsNormal F bytes ∧ decode F bytes = d) := by
  have hm := f.mant.isLt
  have hP : F.precision = F.mantBits + (if F.hidden then 1 else 0) := by
    unfold Format.precision; split <;> rfl
  have hP80 := ok.prec
  have hmb := ok.mb1
  have hP0 : 0 < F.precision := by rw [hP]; omega
  have hrd := rounded_of_nat f.mant.toNat F.precision ((f.exp : ℤ) - 0x7FFF - 79) hP0 ok.prec hnorm hm
  have hrm := roundMant_spec (n := F.bytes * 8) F.hidden f hP ok.prec (by omega)
    (by have := ok.size; omega) hnorm
  dsimp only at hrm
  generalize hq : (f.mant.toNat + 2 ^ (79 - F.precision)) / 2 ^ (80 - F.precision) = q at *
  obtain ⟨hq1, hq2, hA, hB⟩ := hrm
  -- the rounded number with its normalised exponent
  obtain ⟨q', e', hq1', hq2', hd, hmant, hlt, hre, hov⟩ : ∃ (q' : Nat) (e' : Int), 2 ^ (F.precision - 1) ≤ q' ∧
      q' < 2 ^ F.precision ∧
      (q : ℚ) * 2 ^ ((f.exp : ℤ) - 0x7FFF - 79 + (80 - F.precision : Nat)) =
        (q' : ℚ) * 2 ^ (e' - 0x7FFF - ((F.precision : Int) - 1)) ∧
      (roundMant (F.bytes * 8) F.mantBits F.hidden f).1.toNat + (if F.hidden then 2 ^ F.mantBits else 0) = q' ∧
      (roundMant (F.bytes * 8) F.mantBits F.hidden f).1.toNat < 2 ^ F.mantBits ∧
      ((roundMant (F.bytes * 8) F.mantBits F.hidden f).2.1 = e' ∨
        (0xFFFE ≤ (roundMant (F.bytes * 8) F.mantBits F.hidden f).2.1 ∧ 0xFFFE ≤ e')) ∧
      ((roundMant (F.bytes * 8) F.mantBits F.hidden f).2.2 = true →
        (roundMant (F.bytes * 8) F.mantBits F.hidden f).2.1 = 0xFFFE ∨
        (roundMant (F.bytes * 8) F.mantBits F.hidden f).2.1 = 0xFFFF) := by
    by_cases hlt : q < 2 ^ F.precision
    · obtain ⟨h1, h2, h3⟩ := hA hlt
      refine ⟨q, f.exp, hq1, hlt, ?_, h1, h2, Or.inl (by rw [h3]), fun h => by rw [h3] at h; cases h⟩
      congr 2; omega
    · obtain ⟨h1, h2, h3⟩ := hB (by omega)
      refine ⟨2 ^ (F.precision - 1), f.exp + 1, Nat.le_refl _, Nat.pow_lt_pow_right (by decide) (by omega), ?_,
        h1, h2, ?_, ?_⟩
      · have hqe : q = 2 ^ F.precision := by omega
        rw [hqe]
        push_cast
        rw [← zpow_natCast, ← zpow_natCast, ← zpow_add₀ (by norm_num), ← zpow_add₀ (by norm_num)]
        congr 1; omega
      · rw [h3]
        by_cases hh : (f.exp : Int) + 1 ≥ 0xFFFF
        · rw [if_pos hh]; right; dsimp only; omega
        · rw [if_neg hh]; left; rfl
      · rw [h3]
        by_cases hh : (f.exp : Int) + 1 ≥ 0xFFFF
        · rw [if_pos hh]; intro _; dsimp only; omega
        · rw [if_neg hh]; intro h; cases h
  have hb2 : F.bias ≤ 16383 := by
    unfold Format.bias
    have := Nat.pow_le_pow_right (show 0 < 2 by decide) (show F.expBits - 1 ≤ 14 by have := ok.eb2; omega)
    omega
  obtain ⟨bytes, ret, h1, h2, h3, h4, h5, h6⟩ := getCommon_eq ok f _ rfl hlt hov
  refine ⟨_, bytes, ret, hrd, h1, h2, h3, ?_, ?_, ?_⟩
  · intro h
    rw [hd, two_pow_le_iff q' F.precision _ _ hq1' hq2' hP0] at h
    exact h4 (by omega)
  · intro h
    have h := not_le.mpr h
    rw [hd, two_pow_le_iff q' F.precision _ _ hq1' hq2' hP0] at h
    exact h5 (by omega)
  · intro ha hb
    have hb := not_le.mpr hb
    rw [hd, two_pow_le_iff q' F.precision _ _ hq1' hq2' hP0] at ha hb
    obtain ⟨g1, g2, g3, g4, g5⟩ := h6 (by omega) (by omega)
    refine ⟨g1, ⟨g4, g5, ?_⟩, ?_⟩
    · intro hh
      rw [g2]
      simp only [hh]
      simp only [hh, Bool.false_eq_true, if_false, Nat.add_zero] at hmant hP
      rw [hmant, ← hP]; exact hq1'
    · unfold decode
      rw [hd, g2, hmant, g3]
      congr 2; omega

end Verif.Floatnum
