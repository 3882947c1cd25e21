import Verif.Floatnum.ConvMain
import Verif.Floatnum.CreateMain

set_option linter.unusedSimpArgs false

namespace Verif.Floatnum

open Verif.Bitvect
open Verif.Floatnum.Spec

/-! ### Numbers of `p` bits -/

/-- Different numbers of `p` bits are at least one part in 2^p apart. -/
theorem gap {p : Nat} (hp : 0 < p) {x y : ℚ} (hx : Representable p x) (hy : Representable p y) (hne : x ≠ y) :
    x / 2 ^ p ≤ |x - y| := by
  obtain ⟨a, i, ha1, ha2, rfl⟩ := hx
  obtain ⟨b, j, hb1, hb2, rfl⟩ := hy
  have hi : (0 : ℚ) < 2 ^ i := by positivity
  have hj : (0 : ℚ) < 2 ^ j := by positivity
  have hP : (0 : ℚ) < 2 ^ p := by positivity
  rcases lt_or_ge j i with h | h
  · -- y lies below the binade of x
    have h1 : (2 : ℚ) ^ (j + 1) ≤ 2 ^ i := zpow_le_zpow_right₀ (by norm_num) (by omega)
    rw [← two_mul_zpow] at h1
    have h2 : (2 : ℚ) ^ p * 2 ^ j ≤ a * 2 ^ i := by
      have h3 : (2 : ℚ) ^ (p - 1) ≤ a := by exact_mod_cast ha1
      have h4 : (2 : ℚ) ^ p = 2 ^ (p - 1) * 2 := by rw [← pow_succ]; congr 1; omega
      rw [h4, mul_assoc]
      exact mul_le_mul h3 h1 (by positivity) (by positivity)
    have h5 : (b : ℚ) ≤ 2 ^ p - 1 := by
      have : (b : ℚ) + 1 ≤ 2 ^ p := by exact_mod_cast hb2
      linarith
    have h6 : (b : ℚ) * 2 ^ j ≤ (2 ^ p - 1) * 2 ^ j := mul_le_mul_of_nonneg_right h5 (le_of_lt hj)
    refine le_trans ?_ (le_abs_self _)
    have h7 : (2 : ℚ) ^ j ≤ a * 2 ^ i / 2 ^ p := by rw [le_div_iff₀ hP]; linarith
    have h8 : (1 : ℚ) ≤ 2 ^ p := one_le_pow₀ (by norm_num)
    have h9 : (2 ^ p - 1 : ℚ) * 2 ^ j ≤ (2 ^ p - 1) * (a * 2 ^ i / 2 ^ p) :=
      mul_le_mul_of_nonneg_left h7 (by linarith)
    have h10 : (2 ^ p - 1 : ℚ) * (a * 2 ^ i / 2 ^ p) = a * 2 ^ i - a * 2 ^ i / 2 ^ p := by field_simp
    linarith
  · obtain ⟨t, ht⟩ := Int.eq_ofNat_of_zero_le (show 0 ≤ j - i by omega)
    have hjt : j = i + (t : ℤ) := by omega
    have hy2 : (b : ℚ) * 2 ^ j = ((b * 2 ^ t : Nat) : ℚ) * 2 ^ i := by
      rw [hjt, zpow_add₀ (by norm_num), zpow_natCast]; push_cast; ring
    rw [hy2] at hne ⊢
    rw [← sub_mul, abs_mul, abs_of_pos hi]
    have hne2 : (a : ℤ) - ((b * 2 ^ t : Nat) : ℤ) ≠ 0 := by
      intro hh
      apply hne
      have : a = b * 2 ^ t := by omega
      rw [this]
    have h1 : (1 : ℤ) ≤ |(a : ℤ) - ((b * 2 ^ t : Nat) : ℤ)| := Int.one_le_abs hne2
    have h2 : (1 : ℚ) ≤ |(a : ℚ) - ((b * 2 ^ t : Nat) : ℚ)| := by exact_mod_cast h1
    have h3 : (a : ℚ) ≤ 2 ^ p := by exact_mod_cast Nat.le_of_lt ha2
    rw [div_le_iff₀ hP]
    calc (a : ℚ) * 2 ^ i ≤ 2 ^ p * 2 ^ i := mul_le_mul_of_nonneg_right h3 (le_of_lt hi)
      _ = 1 * 2 ^ i * 2 ^ p := by ring
      _ ≤ _ := by
        apply mul_le_mul_of_nonneg_right _ (le_of_lt hP)
        exact mul_le_mul_of_nonneg_right h2 (le_of_lt hi)

theorem representable_zpow (p : Nat) (hp : 0 < p) (k : ℤ) : Representable p ((2 : ℚ) ^ k) := by
  refine ⟨2 ^ (p - 1), k - ((p : ℤ) - 1), le_refl _, Nat.pow_lt_pow_right (by decide) (by omega), ?_⟩
  push_cast
  rw [← zpow_natCast, ← zpow_add₀ (by norm_num)]
  congr 1; omega

theorem Representable.pos {p : Nat} {x : ℚ} (h : Representable p x) : 0 < x := by
  obtain ⟨a, i, ha, -, rfl⟩ := h
  have : 0 < a := Nat.lt_of_lt_of_le (Nat.two_pow_pos _) ha
  have : (0 : ℚ) < a := by exact_mod_cast this
  positivity

/-- Rounding an approximation: nearly the nearest number. -/
theorem rounded_near {p : Nat} {x v d ε : ℚ} (hr : Rounded p v d) (hv : |v - x| ≤ ε) :
    ∀ y, Representable p y → |x - d| ≤ |x - y| + 2 * ε := by
  intro y hy
  have h1 := hr.nearest y hy
  have h2 : |x - d| ≤ |x - v| + |v - d| := abs_sub_le x v d
  have h3 : |v - y| ≤ |v - x| + |x - y| := abs_sub_le v x y
  rw [abs_sub_comm x v] at h2
  linarith

/-- Rounding an approximation of a number of `p` bits gives that number. -/
theorem rounded_exact {p : Nat} (hp : 0 < p) {x v d ε : ℚ} (hr : Rounded p v d) (hx : Representable p x)
    (hv : |v - x| ≤ ε) (hε : 2 * ε < x / 2 ^ p) : d = x := by
  by_contra hne
  have h1 := gap hp hx hr.repr (fun h => hne h.symm)
  have h2 := rounded_near hr hv x hx
  simp at h2
  linarith

/-- Rounding keeps to the same side of a number of `p` bits. -/
theorem rounded_ge {p : Nat} {v d y : ℚ} (hr : Rounded p v d) (hy : Representable p y) (h : y ≤ v) : y ≤ d := by
  by_contra hlt
  have hlt := not_le.mp hlt
  have h1 := hr.nearest y hy
  rw [abs_of_nonneg (by linarith), abs_of_nonneg (by linarith)] at h1
  linarith

theorem rounded_le {p : Nat} {v d y : ℚ} (hr : Rounded p v d) (hy : Representable p y) (h : v ≤ y) : d ≤ y := by
  by_contra hlt
  have hlt := not_le.mp hlt
  have h1 := hr.nearest y hy
  rw [abs_of_nonpos (by linarith), abs_of_nonpos (by linarith)] at h1
  linarith

/-! ### Formats -/

theorem half_ok : FormatOk half := ⟨rfl, by decide, by decide, by decide, by decide⟩
theorem single_ok : FormatOk single := ⟨rfl, by decide, by decide, by decide, by decide⟩
theorem double_ok : FormatOk double := ⟨rfl, by decide, by decide, by decide, by decide⟩
theorem extended_ok : FormatOk extended := ⟨rfl, by decide, by decide, by decide, by decide⟩

theorem format_ok {F : Format} (hF : F = half ∨ F = single ∨ F = double ∨ F = extended) : FormatOk F := by
  rcases hF with rfl | rfl | rfl | rfl
  · exact half_ok
  · exact single_ok
  · exact double_ok
  · exact extended_ok

theorem getSized_eq {F : Format} (hF : F = half ∨ F = single ∨ F = double ∨ F = extended) (f : Flt) :
    getSized f F.bytes = getCommon f F.bytes F.mantBits F.hidden F.expBits := by
  rcases hF with rfl | rfl | rfl | rfl <;> rfl

/-- The mantissa of a number with an empty one. -/
theorem roundMant_zero (n mb : Nat) (hid : Bool) (f : Flt) (h : f.mant = 0) (hn : mb < n) (hmb : mb + 1 ≤ 80) :
    (roundMant n mb hid f).1.toNat = 0 ∧ (roundMant n mb hid f).2 = ((f.exp : Int), false) := by
  have hc : (intervalCopy (0 : BitVec n) f.mant 0 (80 - (if hid then 1 else 0) - mb) mb).toNat = 0 := by
    rw [intervalCopy_toNat _ _ _ (by omega) (by cases hid <;> simp <;> omega), h]; simp
  have hc2 : (intervalCopy (0 : BitVec n) f.mant 0 (80 - (if hid then 1 else 0) - mb) mb).getLsbD mb = false := by
    show Nat.testBit _ _ = _; rw [hc]; simp
  have hb : f.mant.getLsbD (80 - (if hid then 1 else 0) - (mb + 1)) = false := by rw [h]; simp
  unfold roundMant
  simp only [hb, Bool.false_eq_true, if_false, hc2]
  exact ⟨hc, trivial⟩

/-- Emission never meets the internal error. -/
theorem getCommon_total {F : Format} (ok : FormatOk F) (f : Flt) :
    getCommon f F.bytes F.mantBits F.hidden F.expBits ≠ .internal := by
  have hb2 : F.bias ≤ 16383 := by
    unfold Format.bias
    have := Nat.pow_le_pow_right (show 0 < 2 by decide) (show F.expBits - 1 ≤ 14 by have := ok.eb2; omega)
    omega
  have hb : ((2 : Int) ^ (F.expBits - 1) - 1) = (F.bias : Int) := by
    unfold Format.bias
    have := Nat.one_le_two_pow (n := F.expBits - 1)
    push_cast [this]; rfl
  unfold getCommon
  dsimp only
  rw [hb]
  generalize hr : roundMant (F.bytes * 8) F.mantBits F.hidden f = r
  have hov : r.2.2 = true → (0xFFFE : Int) ≤ r.2.1 := by
    rw [← hr]
    unfold roundMant
    dsimp only
    generalize (if f.mant.getLsbD _ = true then _ else _ : BitVec (F.bytes * 8)) = out
    by_cases h1 : out.getLsbD F.mantBits = true
    · rw [if_pos h1]
      by_cases h2 : (f.exp : Int) + 1 ≥ 0xFFFF
      · rw [if_pos h2]; intro _; dsimp only; omega
      · rw [if_neg h2]; intro h; cases h
    · rw [if_neg h1]; intro h; cases h
  rw [if_neg]
  · simp
  · intro h
    simp only [Bool.and_eq_true, Bool.or_eq_true, decide_eq_true_eq, Bool.not_eq_true', decide_eq_false_iff_not] at h
    obtain ⟨⟨h1, h2⟩, h3⟩ := h
    rcases h3 with h3 | h3
    · have := hov h3; omega
    · exact h1 h3

/-! ### Literals -/

theorem create_spec (l : Literal) (hl : Readable l) :
    ∃ f, create l.text = some f ∧ f.sign = l.negative ∧
      (l.magnitude = 0 → f.isZero = true ∧ f.mant = 0 ∧ f.exp = 0) ∧
      (l.magnitude ≠ 0 → f.isZero = false ∧ 0 < l.magnitude ∧
        Result l.magnitude (if l.significant ≤ 19 then 1 / 2 ^ 74 else 1 / 2 ^ 59) f) := by
  unfold Readable at hl
  obtain ⟨m, dec, ds, k, h1, h2, h3, h4, h5, h6, h7⟩ := create_read l (by
    unfold isInt; simp only [Bool.and_eq_true, decide_eq_true_eq]; omega) (by
    intro d hd1 hd2
    unfold isInt; simp only [Bool.and_eq_true, decide_eq_true_eq]; omega)
  have hlead : Lead ds := by rw [h1]; exact lead_dropWhile _
  have hN : natValue (l.whole ++ l.fracDigits) = natValue ds := by rw [h1, natValue_dropWhile]
  have hsig : l.significant = ds.length := by rw [h1]; rfl
  obtain ⟨k1, k2, k3, k4⟩ := kept ds hlead k h2 h3
  rw [← h4] at k1 k2 k3 k4
  have hpw : (0 : ℚ) < (10 : ℚ) ^ (l.expValue - (l.fracDigits.length : ℤ)) := by positivity
  have hK : (m.toNat : ℚ) * 10 ^ dec =
      ((m.toNat * 10 ^ (ds.length - k) : Nat) : ℚ) * 10 ^ (l.expValue - (l.fracDigits.length : ℤ)) := by
    push_cast
    rw [mul_assoc, ← zpow_natCast, ← zpow_add₀ (by norm_num), h6]
    congr 2; omega
  have hX : l.magnitude = (natValue ds : ℚ) * 10 ^ (l.expValue - (l.fracDigits.length : ℤ)) := by
    unfold Literal.magnitude; rw [hN]
  have hKX1 : (m.toNat : ℚ) * 10 ^ dec ≤ l.magnitude := by
    rw [hK, hX]
    exact mul_le_mul_of_nonneg_right (by exact_mod_cast k1) (le_of_lt hpw)
  have hKX2 : l.magnitude * 10 ^ 18 ≤ (m.toNat : ℚ) * 10 ^ dec * (10 ^ 18 + 1) := by
    rw [hK, hX, mul_right_comm, mul_right_comm _ _ ((10 : ℚ) ^ 18 + 1)]
    exact mul_le_mul_of_nonneg_right (by exact_mod_cast k2) (le_of_lt hpw)
  have hKX3 : l.significant ≤ 19 → l.magnitude = (m.toNat : ℚ) * 10 ^ dec := by
    intro h
    rw [hK, hX]
    congr 1
    rw [hsig] at h
    exact_mod_cast k3 (by omega)
  by_cases h0 : m.toNat = 0
  · rw [if_pos h0] at h7
    refine ⟨_, h7, rfl, fun _ => ⟨rfl, ?_, rfl⟩, fun hne => ?_⟩
    · exact BitVec.eq_of_toNat_eq (by simpa using h0)
    · exfalso; apply hne; rw [hX, k4.mp h0]; simp
  · rw [if_neg h0] at h7
    obtain ⟨f, g1, g2, g3, g4⟩ := scaled m h0 l.negative dec
    rw [g1] at h7
    have hKp : 0 < (m.toNat : ℚ) * 10 ^ dec := by
      have : (0 : ℚ) < m.toNat := by exact_mod_cast Nat.pos_of_ne_zero h0
      positivity
    have hXp : 0 < l.magnitude := lt_of_lt_of_le hKp hKX1
    refine ⟨f, h7, g2, fun hz => by rw [hz] at hXp; exact absurd hXp (lt_irrefl _), fun _ => ⟨g3, hXp, ?_⟩⟩
    generalize hKd : (m.toNat : ℚ) * 10 ^ dec = K at *
    generalize l.magnitude = X at *
    cases g4 with
    | near n1 n2 n3 n4 =>
      refine .near n1 n2 (abs_le.mpr ?_)
      by_cases hs : l.significant ≤ 19
      · rw [if_pos hs]
        have := hKX3 hs
        subst this
        constructor <;> linarith
      · rw [if_neg hs]
        constructor
        · have h8 : X * (1 - 1 / 10 ^ 18) ≤ K := by
            have : (1 : ℚ) - 1 / 10 ^ 18 ≤ 10 ^ 18 / (10 ^ 18 + 1) := by norm_num
            refine le_trans (mul_le_mul_of_nonneg_left this (le_of_lt hXp)) ?_
            rw [← mul_div_assoc, div_le_iff₀ (by norm_num)]
            exact hKX2
          have h9 := mul_le_mul_of_nonneg_right h8 (show (0 : ℚ) ≤ 1 - 1 / 2 ^ 74 by norm_num)
          have h10 : (1 : ℚ) - 1 / 2 ^ 59 ≤ (1 - 1 / 10 ^ 18) * (1 - 1 / 2 ^ 74) := by norm_num
          have h11 := mul_le_mul_of_nonneg_left h10 (le_of_lt hXp)
          linarith
        · have h8 := mul_le_mul_of_nonneg_right hKX1 (show (0 : ℚ) ≤ 1 + 1 / 2 ^ 75 by norm_num)
          have h10 : (1 : ℚ) + 1 / 2 ^ 75 ≤ 1 + 1 / 2 ^ 59 := by norm_num
          have h11 := mul_le_mul_of_nonneg_left h10 (le_of_lt hXp)
          linarith
    | over n1 n2 n3 =>
      refine .over n1 n2 (le_trans (le_trans ?_ n3) hKX1)
      exact zpow_le_zpow_right₀ (by norm_num) (by omega)
    | under n1 n2 n3 =>
      refine .under n1 n2 ?_
      have h8 : X ≤ 2 * K := by linarith
      have h9 : 2 * K ≤ 2 * (2 : ℚ) ^ (-32760 : ℤ) := mul_le_mul_of_nonneg_left n3 (by norm_num)
      rw [two_mul_zpow] at h9
      exact le_trans h8 h9

/-- The infinite and the vanished number. -/
theorem getCommon_over {F : Format} (ok : FormatOk F) (f : Flt) (hexp : f.exp = 0xFFFF)
    (hm : Normal f ∨ f.mant = 0) :
    ∃ bytes, getCommon f F.bytes F.mantBits F.hidden F.expBits = .ok bytes 1 ∧
      bytes.length = F.bytes ∧ signField F bytes = f.sign.toNat ∧
      expField F bytes = 2 ^ F.expBits - 1 ∧ mantField F bytes = 0 := by
  have hb2 : F.bias ≤ 16383 := by
    unfold Format.bias
    have := Nat.pow_le_pow_right (show 0 < 2 by decide) (show F.expBits - 1 ≤ 14 by have := ok.eb2; omega)
    omega
  have hP : F.precision = F.mantBits + (if F.hidden then 1 else 0) := by
    unfold Format.precision; split <;> rfl
  have hP80 := ok.prec
  have hsz := ok.size
  obtain ⟨r1, r2, r3⟩ : (roundMant (F.bytes * 8) F.mantBits F.hidden f).1.toNat < 2 ^ F.mantBits ∧
      ((roundMant (F.bytes * 8) F.mantBits F.hidden f).2.2 = true →
        (roundMant (F.bytes * 8) F.mantBits F.hidden f).2.1 = 0xFFFE ∨
        (roundMant (F.bytes * 8) F.mantBits F.hidden f).2.1 = 0xFFFF) ∧
      0xFFFF ≤ (roundMant (F.bytes * 8) F.mantBits F.hidden f).2.1 := by
    rcases hm with hm | hm
    · obtain ⟨-, q2, hA, hB⟩ := roundMant_spec (n := F.bytes * 8) F.hidden f hP ok.prec
        (by have := ok.mb1; omega) (by omega) hm
      by_cases hlt : (f.mant.toNat + 2 ^ (79 - F.precision)) / 2 ^ (80 - F.precision) < 2 ^ F.precision
      · obtain ⟨-, a, b⟩ := hA hlt
        rw [b]; exact ⟨a, fun h => (by cases h), by dsimp only; omega⟩
      · obtain ⟨-, a, b⟩ := hB (by omega)
        rw [b, if_pos (by omega)]; exact ⟨a, fun _ => Or.inr (by dsimp only; omega), by dsimp only; omega⟩
    · obtain ⟨a, b⟩ := roundMant_zero (F.bytes * 8) F.mantBits F.hidden f hm (by omega) (by
        cases hh : F.hidden <;> simp [hh] at hP <;> omega)
      rw [a, b]; exact ⟨Nat.two_pow_pos _, fun h => (by cases h), by dsimp only; omega⟩
  obtain ⟨bytes, ret, h1, h2, h3, h4, -, -⟩ := getCommon_eq ok f _ rfl r1 r2
  obtain ⟨g1, g2, g3⟩ := h4 (by omega)
  subst g1
  exact ⟨bytes, h1, h2, h3, g2, g3⟩

theorem getCommon_under {F : Format} (ok : FormatOk F) (f : Flt) (hexp : f.exp = 0) (hm : f.mant = 0) :
    ∃ bytes, getCommon f F.bytes F.mantBits F.hidden F.expBits = .ok bytes (if f.isZero then 0 else -1) ∧
      bytes.length = F.bytes ∧ signField F bytes = f.sign.toNat ∧ IsZero F bytes := by
  have hb2 : F.bias ≤ 16383 := by
    unfold Format.bias
    have := Nat.pow_le_pow_right (show 0 < 2 by decide) (show F.expBits - 1 ≤ 14 by have := ok.eb2; omega)
    omega
  have hP80 := ok.prec
  have hsz := ok.size
  have hP : F.precision = F.mantBits + (if F.hidden then 1 else 0) := by
    unfold Format.precision; split <;> rfl
  obtain ⟨a, b⟩ := roundMant_zero (F.bytes * 8) F.mantBits F.hidden f hm (by omega) (by
        cases hh : F.hidden <;> simp [hh] at hP <;> omega)
  obtain ⟨bytes, ret, h1, h2, h3, -, h5, -⟩ := getCommon_eq ok f _ rfl (by rw [a]; exact Nat.two_pow_pos _)
    (by rw [b]; intro h; cases h)
  rw [b] at h5
  obtain ⟨g1, g2⟩ := h5 (by dsimp only; omega)
  subst g1
  exact ⟨bytes, h1, h2, h3, g2⟩

/-- Greatest finite number, least normal number, and the number just below that. -/
theorem representable_below (p : Nat) (hp : 0 < p) (k : ℤ) :
    Representable p ((2 : ℚ) ^ k * (1 - 1 / 2 ^ p)) := by
  have h1 : (2 : ℕ) ^ p = 2 ^ (p - 1) * 2 := by rw [← Nat.pow_succ]; congr 1; omega
  have h2 := Nat.two_pow_pos (p - 1)
  refine ⟨2 ^ p - 1, k - (p : ℤ), by omega, by omega, ?_⟩
  rw [zpow_sub₀ (by norm_num), zpow_natCast]
  have h3 : ((2 ^ p - 1 : Nat) : ℚ) = 2 ^ p - 1 := by
    rw [Nat.cast_sub Nat.one_le_two_pow]; push_cast; rfl
  rw [h3]
  field_simp

/-- Rounding an approximation keeps to the side of the original. -/
theorem near_ge {p : Nat} (hp : 0 < p) {x v d y ε : ℚ} (hr : Rounded p v d) (hy : Representable p y)
    (hx : 0 < x) (hv : |v - x| ≤ x * ε) (hε0 : 0 ≤ ε) (hε : 4 * ε < 1 / 2 ^ p) (h : y ≤ x) : y ≤ d := by
  by_cases hvy : y ≤ v
  · exact rounded_ge hr hy hvy
  · have hvy := not_le.mp hvy
    have hyp := Representable.pos hy
    have h1 := (abs_le.mp hv).1
    have hP : (1 : ℚ) / 2 ^ p ≤ 1 := by
      rw [div_le_one (by positivity)]; exact one_le_pow₀ (by norm_num)
    -- x(1-ε) ≤ v < y ≤ x
    have h2 : x * (1 - ε) < y := by linarith
    have h3 : x < y * 2 := by
      have : x * (1 / 2) ≤ x * (1 - ε) := mul_le_mul_of_nonneg_left (by linarith) (le_of_lt hx)
      linarith
    have h4 : x * ε ≤ y * (2 * ε) := by
      have := mul_le_mul_of_nonneg_right (le_of_lt h3) hε0
      linarith
    have h5 : |v - y| ≤ y * (2 * ε) := by
      rw [abs_of_nonpos (by linarith)]; linarith
    have h6 : 2 * (y * (2 * ε)) < y / 2 ^ p := by
      have := mul_lt_mul_of_pos_left hε hyp
      rw [mul_one_div] at this
      linarith
    exact le_of_eq (rounded_exact hp hr hy h5 h6).symm

theorem near_le {p : Nat} (hp : 0 < p) {x v d y ε : ℚ} (hr : Rounded p v d) (hy : Representable p y)
    (hx : 0 < x) (hv : |v - x| ≤ x * ε) (hε0 : 0 ≤ ε) (hε : 4 * ε < 1 / 2 ^ p) (h : x ≤ y) : d ≤ y := by
  by_cases hvy : v ≤ y
  · exact rounded_le hr hy hvy
  · have hvy := not_le.mp hvy
    have hyp := Representable.pos hy
    have h1 := (abs_le.mp hv).2
    have h4 : x * ε ≤ y * ε := mul_le_mul_of_nonneg_right h hε0
    have h5 : |v - y| ≤ y * ε := by
      rw [abs_of_nonneg (by linarith)]; linarith
    have h6 : 2 * (y * ε) < y / 2 ^ p := by
      have := mul_lt_mul_of_pos_left hε hyp
      rw [mul_one_div] at this
      have := mul_nonneg (le_of_lt hyp) hε0
      linarith
    exact le_of_eq (rounded_exact hp hr hy h5 h6)

/-- Emission of an approximation. -/
theorem emit_near {F : Format} (ok : FormatOk F) (f : Flt) (x ε : ℚ) (hx : 0 < x) (hz : f.isZero = false)
    (hε0 : 0 ≤ ε) (hε : 4 * ε < 1 / 2 ^ F.precision) (h : Result x ε f) :
    ∃ bytes ret, getCommon f F.bytes F.mantBits F.hidden F.expBits = .ok bytes ret ∧ bytes.length = F.bytes ∧
      signField F bytes = f.sign.toNat ∧
      ((2 : ℚ) ^ ((F.bias : ℤ) + 1) ≤ x →
        ret = 1 ∧ expField F bytes = 2 ^ F.expBits - 1 ∧ mantField F bytes = 0) ∧
      (x ≤ (2 : ℚ) ^ (1 - (F.bias : ℤ)) * (1 - 1 / 2 ^ F.precision) → ret = -1 ∧ IsZero F bytes) ∧
      ((2 : ℚ) ^ (1 - (F.bias : ℤ)) ≤ x → x ≤ (2 : ℚ) ^ ((F.bias : ℤ) + 1) * (1 - 1 / 2 ^ F.precision) →
        ret = 0 ∧ IsNormal F bytes ∧
        (∀ y, Representable F.precision y → |x - decode F bytes| ≤ |x - y| + x * (2 * ε)) ∧
        (Representable F.precision x → decode F bytes = x)) := by
  have hb2 : F.bias ≤ 16383 := by
    unfold Format.bias
    have := Nat.pow_le_pow_right (show 0 < 2 by decide) (show F.expBits - 1 ≤ 14 by have := ok.eb2; omega)
    omega
  have hp : 0 < F.precision := by
    have := ok.mb1
    unfold Format.precision; split <;> omega
  have hb1 : 1 ≤ F.bias := by
    unfold Format.bias
    have := Nat.pow_le_pow_right (show 0 < 2 by decide) (show 1 ≤ F.expBits - 1 by have := ok.eb1; omega)
    omega
  have hlt1 : (1 - 1 / 2 ^ F.precision : ℚ) < 1 := by
    have : (0 : ℚ) < 1 / 2 ^ F.precision := by positivity
    linarith
  have hhalf : (2 : ℚ) ^ (1 - (F.bias : ℤ)) < (2 : ℚ) ^ ((F.bias : ℤ) + 1) :=
    zpow_lt_zpow_right₀ (by norm_num) (by omega)
  have hA0 : (0 : ℚ) < 2 ^ (1 - (F.bias : ℤ)) := by positivity
  have hB0 : (0 : ℚ) < 2 ^ ((F.bias : ℤ) + 1) := by positivity
  have hA1 : (2 : ℚ) ^ (1 - (F.bias : ℤ)) * (1 - 1 / 2 ^ F.precision) < 2 ^ (1 - (F.bias : ℤ)) :=
    mul_lt_of_lt_one_right hA0 hlt1
  have hB1 : (2 : ℚ) ^ ((F.bias : ℤ) + 1) * (1 - 1 / 2 ^ F.precision) < 2 ^ ((F.bias : ℤ) + 1) :=
    mul_lt_of_lt_one_right hB0 hlt1
  cases h with
  | near n1 n2 n3 =>
    obtain ⟨d, bytes, ret, h1, h2, h3, h4, h5, h6, h7⟩ := getCommon_normal ok f n1 n2
    rw [hz] at h6
    refine ⟨bytes, ret, h2, h3, h4, ?_, ?_, ?_⟩
    · intro hx1
      exact h5 (near_ge hp h1 (representable_zpow _ hp _) hx n3 hε0 hε hx1)
    · intro hx1
      exact h6 (lt_of_le_of_lt (near_le hp h1 (representable_below _ hp _) hx n3 hε0 hε hx1) hA1)
    · intro hx1 hx2
      obtain ⟨g1, g2, g3⟩ := h7 (near_ge hp h1 (representable_zpow _ hp _) hx n3 hε0 hε hx1)
        (lt_of_le_of_lt (near_le hp h1 (representable_below _ hp _) hx n3 hε0 hε hx2) hB1)
      refine ⟨g1, g2, ?_, ?_⟩
      · intro y hy
        rw [g3]
        have := rounded_near h1 n3 y hy
        linarith
      · intro hxr
        rw [g3]
        refine rounded_exact hp h1 hxr n3 ?_
        have := mul_lt_mul_of_pos_left hε hx
        rw [mul_one_div] at this
        have := mul_nonneg (le_of_lt hx) hε0
        linarith
  | over n1 n2 n3 =>
    obtain ⟨bytes, h1, h2, h3, h4, h5⟩ := getCommon_over ok f n1 n2
    have hbig : (2 : ℚ) ^ ((F.bias : ℤ) + 1) ≤ x :=
      le_trans (zpow_le_zpow_right₀ (by norm_num) (by omega)) n3
    refine ⟨bytes, 1, h1, h2, h3, fun _ => ⟨rfl, h4, h5⟩, fun hx1 => ?_, fun _ hx2 => ?_⟩
    · exfalso; linarith
    · exfalso; linarith
  | under n1 n2 n3 =>
    obtain ⟨bytes, h1, h2, h3, h4⟩ := getCommon_under ok f n1 n2
    rw [hz] at h1
    have hsm : x < (2 : ℚ) ^ (1 - (F.bias : ℤ)) :=
      lt_of_le_of_lt n3 (zpow_lt_zpow_right₀ (by norm_num) (by omega))
    refine ⟨bytes, -1, h1, h2, h3, fun hx1 => ?_, fun _ => ⟨rfl, h4⟩, fun hx1 _ => ?_⟩
    · exfalso; linarith
    · exfalso; linarith

/-! ### Correctly rounded constants -/

/-- A number less than half a unit away is the nearest. -/
theorem rounded_of_close {p : Nat} (hp : 0 < p) {x : ℚ} (q : Nat) (k : ℤ) (h1 : 2 ^ (p - 1) ≤ q) (h2 : q < 2 ^ p)
    (hlow : (2 : ℚ) ^ (p - 1) * 2 ^ k ≤ x) (hc : |x - (q : ℚ) * 2 ^ k| < 2 ^ k / 2) :
    Rounded p x ((q : ℚ) * 2 ^ k) := by
  have hk : (0 : ℚ) < 2 ^ k := by positivity
  have hrep : Representable p ((q : ℚ) * 2 ^ k) := ⟨q, k, h1, h2, rfl⟩
  -- other multiples are further away
  have hmul : ∀ n : Nat, n ≠ q → |x - (q : ℚ) * 2 ^ k| < |x - (n : ℚ) * 2 ^ k| := by
    intro n hn
    have hne : (q : ℤ) - (n : ℤ) ≠ 0 := by omega
    have h3 : (1 : ℤ) ≤ |(q : ℤ) - (n : ℤ)| := Int.one_le_abs hne
    have h4 : (1 : ℚ) ≤ |(q : ℚ) - (n : ℚ)| := by exact_mod_cast h3
    have h5 : |(q : ℚ) * 2 ^ k - (n : ℚ) * 2 ^ k| ≤ |(q : ℚ) * 2 ^ k - x| + |x - (n : ℚ) * 2 ^ k| := abs_sub_le _ _ _
    rw [← sub_mul, abs_mul, abs_of_pos hk, abs_sub_comm _ x] at h5
    have h6 := mul_le_mul_of_nonneg_right h4 (le_of_lt hk)
    linarith
  have hall : ∀ y, Representable p y → y = (q : ℚ) * 2 ^ k ∨ |x - (q : ℚ) * 2 ^ k| < |x - y| := by
    rintro y ⟨a, j, ha1, ha2, rfl⟩
    by_cases hj : k ≤ j
    · obtain ⟨t, ht⟩ := Int.eq_ofNat_of_zero_le (show 0 ≤ j - k by omega)
      have hy2 : (a : ℚ) * 2 ^ j = ((a * 2 ^ t : Nat) : ℚ) * 2 ^ k := by
        rw [show j = k + (t : ℤ) by omega, zpow_add₀ (by norm_num), zpow_natCast]; push_cast; ring
      rw [hy2]
      by_cases hn : a * 2 ^ t = q
      · left; rw [hn]
      · right; exact hmul _ hn
    · right
      have h3 : (2 : ℚ) ^ (j + 1) ≤ 2 ^ k := zpow_le_zpow_right₀ (by norm_num) (by omega)
      rw [← two_mul_zpow] at h3
      have h4 : (a : ℚ) < 2 ^ p := by exact_mod_cast ha2
      have hjp : (0 : ℚ) < 2 ^ j := by positivity
      have h5 : (a : ℚ) * 2 ^ j < 2 ^ (p - 1) * 2 ^ k := by
        have h6 : (2 : ℚ) ^ p = 2 ^ (p - 1) * 2 := by rw [← pow_succ]; congr 1; omega
        have h7 := mul_lt_mul_of_pos_right h4 hjp
        have h8 := mul_le_mul_of_nonneg_left h3 (show (0 : ℚ) ≤ 2 ^ (p - 1) by positivity)
        rw [h6] at h7
        linarith
      have h6 : |x - (q : ℚ) * 2 ^ k| ≤ |x - (2 : ℚ) ^ (p - 1) * 2 ^ k| := by
        by_cases hq : 2 ^ (p - 1) = q
        · have : (q : ℚ) = 2 ^ (p - 1) := by rw [← hq]; push_cast; rfl
          rw [this]
        · have := hmul (2 ^ (p - 1)) hq
          push_cast at this
          exact le_of_lt this
      rw [abs_of_nonneg (show 0 ≤ x - (2 : ℚ) ^ (p - 1) * 2 ^ k by linarith)] at h6
      rw [abs_of_pos (show 0 < x - (a : ℚ) * 2 ^ j by linarith)]
      linarith
  refine ⟨hrep, ?_, ?_⟩
  · intro y hy
    rcases hall y hy with h | h
    · rw [h]
    · exact le_of_lt h
  · intro y hy heq
    rcases hall y hy with h | h
    · exact le_of_eq h
    · rw [heq] at h; exact absurd h (lt_irrefl _)

/-- `10^dec` in units of the entry, in integers: less than half a unit from the mantissa and not below the
    first one of 80 bits. -/
def entryExact (e : Entry) : Bool :=
  let a := 10 ^ e.dec.toNat * 2 ^ (32846 - e.f.exp)
  let b := 2 ^ (e.f.exp - 32846) * 10 ^ (-e.dec).toNat
  decide (2 * a < (2 * e.f.mant.toNat + 1) * b) && decide ((2 * e.f.mant.toNat - 1) * b < 2 * a) &&
    decide (2 ^ 79 * b ≤ a) && decide (2 ^ 79 ≤ e.f.mant.toNat)

theorem entry_unit (e : Entry) :
    (10 : ℚ) ^ e.dec * ((2 ^ (e.f.exp - 32846) * 10 ^ (-e.dec).toNat : Nat) : ℚ) =
      ((10 ^ e.dec.toNat * 2 ^ (32846 - e.f.exp) : Nat) : ℚ) * 2 ^ ((e.f.exp : ℤ) - 0x7FFF - 79) := by
  rw [zpow_split 10 (by norm_num) e.dec, zpow_split 2 (by norm_num)]
  have h1 : ((e.f.exp : ℤ) - 0x7FFF - 79).toNat = e.f.exp - 32846 := by omega
  have h2 : (-((e.f.exp : ℤ) - 0x7FFF - 79)).toNat = 32846 - e.f.exp := by omega
  rw [h1, h2]
  push_cast
  field_simp

theorem entryExact_spec (e : Entry) (h : entryExact e = true) : Rounded 80 ((10 : ℚ) ^ e.dec) (value e.f) := by
  unfold entryExact at h
  simp only [Bool.and_eq_true, decide_eq_true_eq] at h
  obtain ⟨⟨⟨h1, h2⟩, h3⟩, h4⟩ := h
  have hu := entry_unit e
  have hb : 0 < 2 ^ (e.f.exp - 32846) * 10 ^ (-e.dec).toNat :=
    Nat.mul_pos (Nat.two_pow_pos _) (Nat.pow_pos (by decide))
  generalize (10 ^ e.dec.toNat * 2 ^ (32846 - e.f.exp) : Nat) = a at *
  generalize (2 ^ (e.f.exp - 32846) * 10 ^ (-e.dec).toNat : Nat) = b at *
  have hlt := e.f.mant.isLt
  unfold value
  generalize e.f.mant.toNat = q at *
  generalize ((e.f.exp : ℤ) - 0x7FFF - 79) = k at *
  have hk : (0 : ℚ) < 2 ^ k := by positivity
  have hbq : (0 : ℚ) < b := by exact_mod_cast hb
  have hx : (10 : ℚ) ^ e.dec = (a : ℚ) / b * 2 ^ k := by field_simp; linarith
  have q1 : 2 * (a : ℚ) < (2 * q + 1) * b := by exact_mod_cast h1
  have q2 : (2 * (q : ℚ) - 1) * b < 2 * a := by
    have h5 : (((2 * q - 1) * b : Nat) : ℚ) < ((2 * a : Nat) : ℚ) := by exact_mod_cast h2
    rw [Nat.cast_mul, Nat.cast_sub (by omega)] at h5
    push_cast at h5
    exact h5
  have q3 : (2 : ℚ) ^ 79 * b ≤ a := by exact_mod_cast h3
  have hr1 : (a : ℚ) / b < q + 1 / 2 := by rw [div_lt_iff₀ hbq]; linarith
  have hr2 : (q : ℚ) - 1 / 2 < (a : ℚ) / b := by rw [lt_div_iff₀ hbq]; linarith
  have hr3 : (2 : ℚ) ^ 79 ≤ (a : ℚ) / b := by rw [le_div_iff₀ hbq]; exact q3
  rw [hx]
  refine rounded_of_close (by decide) q k h4 hlt (mul_le_mul_of_nonneg_right hr3 (le_of_lt hk)) ?_
  rw [← sub_mul, abs_mul, abs_of_pos hk]
  have : |(a : ℚ) / b - q| < 1 / 2 := abs_lt.mpr ⟨by linarith, by linarith⟩
  have := mul_lt_mul_of_pos_right this hk
  linarith

end Verif.Floatnum
