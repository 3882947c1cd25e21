import Verif.Floatnum.MulLemmas

set_option linter.unusedSimpArgs false

namespace Verif.Floatnum

open Verif.Bitvect
open Verif.Floatnum.Spec

/-! ### The tables -/

/-- Numerator and denominator of `value / 10^dec`. -/
def entryNum (e : Entry) : Nat := e.f.mant.toNat * 2 ^ (e.f.exp - 32846) * 10 ^ (-e.dec).toNat
def entryDen (e : Entry) : Nat := 10 ^ e.dec.toNat * 2 ^ (32846 - e.f.exp)

theorem zpow_split (b : ℚ) (hb : b ≠ 0) (k : ℤ) : b ^ k = b ^ k.toNat / b ^ (-k).toNat := by
  rcases Int.le_total 0 k with h | h
  · obtain ⟨n, rfl⟩ := Int.eq_ofNat_of_zero_le h
    simp
  · obtain ⟨n, hn⟩ := Int.eq_ofNat_of_zero_le (show 0 ≤ -k by omega)
    have : k = -(n : ℤ) := by omega
    subst this
    simp

theorem entry_ratio (e : Entry) :
    value e.f * (entryDen e : ℚ) = (10 : ℚ) ^ e.dec * (entryNum e : ℚ) := by
  unfold value entryDen entryNum
  rw [zpow_split 10 (by norm_num) e.dec, zpow_split 2 (by norm_num)]
  have h1 : ((e.f.exp : ℤ) - 0x7FFF - 79).toNat = e.f.exp - 32846 := by omega
  have h2 : (-((e.f.exp : ℤ) - 0x7FFF - 79)).toNat = 32846 - e.f.exp := by omega
  rw [h1, h2]
  push_cast
  field_simp

/-- Relative error at most 2^-80. -/
def entryClose (e : Entry) : Bool :=
  decide (entryNum e * 2 ^ 80 ≤ entryDen e * (2 ^ 80 + 1)) && decide (entryDen e * (2 ^ 80 - 1) ≤ entryNum e * 2 ^ 80)

theorem entryClose_spec (e : Entry) (h : entryClose e = true) :
    (10 : ℚ) ^ e.dec * (1 - 1 / 2 ^ 80) ≤ value e.f ∧ value e.f ≤ (10 : ℚ) ^ e.dec * (1 + 1 / 2 ^ 80) := by
  unfold entryClose at h
  simp only [Bool.and_eq_true, decide_eq_true_eq] at h
  have hr := entry_ratio e
  have hd : (0 : ℚ) < entryDen e := by unfold entryDen; positivity
  have h10 : (0 : ℚ) < (10 : ℚ) ^ e.dec := by positivity
  have hv : value e.f = (10 : ℚ) ^ e.dec * ((entryNum e : ℚ) / entryDen e) := by
    field_simp; linarith
  have h1 : (entryNum e : ℚ) * 2 ^ 80 ≤ entryDen e * (2 ^ 80 + 1) := by exact_mod_cast h.1
  have h2 : (entryDen e : ℚ) * (2 ^ 80 - 1) ≤ entryNum e * 2 ^ 80 := by
    have := h.2
    have h3 : ((entryDen e * (2 ^ 80 - 1) : Nat) : ℚ) ≤ ((entryNum e * 2 ^ 80 : Nat) : ℚ) := by exact_mod_cast this
    push_cast at h3
    have h4 : (((2 ^ 80 - 1 : Nat)) : ℚ) = 2 ^ 80 - 1 := by norm_num
    linarith [h3, h4]
  rw [hv]
  constructor
  · apply mul_le_mul_of_nonneg_left _ (le_of_lt h10)
    rw [le_div_iff₀ hd]
    have : (1 - 1 / 2 ^ 80 : ℚ) * entryDen e = (entryDen e * (2 ^ 80 - 1)) / 2 ^ 80 := by field_simp
    rw [this, div_le_iff₀ (by positivity)]; exact h2
  · apply mul_le_mul_of_nonneg_left _ (le_of_lt h10)
    rw [div_le_iff₀ hd]
    have : (1 + 1 / 2 ^ 80 : ℚ) * entryDen e = (entryDen e * (2 ^ 80 + 1)) / 2 ^ 80 := by field_simp
    rw [this, le_div_iff₀ (by positivity)]; exact h1

/-- All that the algorithm needs of an entry. -/
def entryOk (e : Entry) : Bool := entryClose e && decide (2 ^ 79 ≤ e.f.mant.toNat) && !e.f.sign && !e.f.isZero

theorem potP_ok : ∀ e ∈ potP, entryOk e = true := by decide +kernel
theorem potN_ok : ∀ e ∈ potN, entryOk e = true := by decide +kernel

/-- Sign of the powers in a table. -/
def sgn (neg : Bool) : ℤ := if neg then -1 else 1

/-- The decimal exponents run 2^(j-1), ..., 2, 1, 0 (or their negatives). -/
def Chain (neg : Bool) : List Entry → Nat → Prop
  | [], _ => False
  | e :: t, 0 => e.dec = 0 ∧ t = []
  | e :: t, j + 1 => e.dec = sgn neg * 2 ^ j ∧ Chain neg t j

theorem potP_chain : Chain false potP 13 := by
  refine ⟨?_, ?_, ?_, ?_, ?_, ?_, ?_, ?_, ?_, ?_, ?_, ?_, ?_, ?_, ?_⟩ <;> decide +kernel
theorem potN_chain : Chain true potN 13 := by
  refine ⟨?_, ?_, ?_, ?_, ?_, ?_, ?_, ?_, ?_, ?_, ?_, ?_, ?_, ?_, ?_⟩ <;> decide +kernel

/-! ### Scaling by a power of ten -/

/-- `v` approximates `x` after `r` multiplications. -/
def Approx (r : Nat) (x v : ℚ) : Prop := x * (1 - 1 / 2 ^ 78) ^ r ≤ v ∧ v ≤ x * (1 + 1 / 2 ^ 80) ^ r

theorem low_pow (r : Nat) (hr : r ≤ 16) : (1 / 2 : ℚ) ≤ (1 - 1 / 2 ^ 78) ^ r := by
  refine le_trans (b := ((1 - 1 / 2 ^ 78 : ℚ)) ^ 16) (by norm_num) ?_
  exact pow_le_pow_of_le_one (by norm_num) (by norm_num) hr

theorem high_pow (r : Nat) (hr : r ≤ 16) : (1 + 1 / 2 ^ 80 : ℚ) ^ r ≤ 2 := by
  refine le_trans (b := ((1 + 1 / 2 ^ 80 : ℚ)) ^ 16) ?_ (by norm_num)
  exact pow_le_pow_right₀ (by norm_num) hr

theorem Approx.bounds {r : Nat} {x v : ℚ} (h : Approx r x v) (hx : 0 < x) (hr : r ≤ 16) : x / 2 ≤ v ∧ v ≤ 2 * x := by
  have h1 := low_pow r hr
  have h2 := high_pow r hr
  have h3 := mul_le_mul_of_nonneg_left h1 (le_of_lt hx)
  have h4 := mul_le_mul_of_nonneg_left h2 (le_of_lt hx)
  obtain ⟨ha, hb⟩ := h
  constructor <;> linarith

theorem lt_of_zpow_le_lt {a b : ℤ} {v : ℚ} (h1 : (2 : ℚ) ^ a ≤ v) (h2 : v < (2 : ℚ) ^ b) : a < b :=
  (zpow_lt_zpow_iff_right₀ (show (1 : ℚ) < 2 by norm_num)).mp (lt_of_le_of_lt h1 h2)

theorem le_of_zpow_le_le {a b : ℤ} {v : ℚ} (h1 : (2 : ℚ) ^ a ≤ v) (h2 : v ≤ (2 : ℚ) ^ b) : a ≤ b :=
  (zpow_le_zpow_iff_right₀ (show (1 : ℚ) < 2 by norm_num)).mp (le_trans h1 h2)

theorem zpow2_mul (k j : ℤ) : (2 : ℚ) ^ k * (2 : ℚ) ^ j = (2 : ℚ) ^ (k + j) := (zpow_add₀ (by norm_num) k j).symm

theorem two_mul_zpow (k : ℤ) : 2 * (2 : ℚ) ^ k = (2 : ℚ) ^ (k + 1) := by
  rw [zpow_add₀ (by norm_num)]; simp; ring

theorem zpow_half (k : ℤ) : (2 : ℚ) ^ k / 2 = (2 : ℚ) ^ (k - 1) := by
  rw [zpow_sub₀ (by norm_num)]; simp

theorem far_up {X v : ℚ} (k j : ℤ) (hj : k + 1 ≤ j) (h1 : (2 : ℚ) ^ j ≤ v) (h2 : v ≤ 2 * X) : (2 : ℚ) ^ k ≤ X := by
  have h3 : (2 : ℚ) ^ (k + 1) ≤ 2 ^ j := zpow_le_zpow_right₀ (by norm_num) hj
  rw [← two_mul_zpow] at h3
  linarith

theorem far_down {X v : ℚ} (k j : ℤ) (hj : j ≤ k - 1) (h1 : v < (2 : ℚ) ^ j) (h2 : X / 2 ≤ v) : X ≤ (2 : ℚ) ^ k := by
  have h3 : (2 : ℚ) ^ j ≤ 2 ^ (k - 1) := zpow_le_zpow_right₀ (by norm_num) hj
  rw [← zpow_half] at h3
  linarith

/-- The multiplications ended in infinity or zero. -/
def Stop (neg : Bool) (f : Flt) : Prop := f.exp = (if neg then 0 else 0xFFFF)

/-- The number is too great (or too small) for the internal format. -/
def Far (neg : Bool) (x : ℚ) : Prop := if neg then x ≤ (2 : ℚ) ^ (-32760 : ℤ) else (2 : ℚ) ^ (32760 : ℤ) ≤ x

/-- The state of the loops before they stop. -/
structure Good (neg : Bool) (r : Nat) (x : ℚ) (f : Flt) : Prop where
  pos : 0 < x
  normal : Normal f
  approx : Approx r x (value f)
  side : if neg then f.exp ≤ 32846 else 32767 ≤ f.exp
  run : ¬ Stop neg f
  top : f.exp ≤ 0xFFFF

/-- A power of ten on the right side of one. -/
def entrySide (neg : Bool) (e : Entry) : Bool :=
  if neg then decide (e.f.exp < 0x7FFF) || decide (e.f.exp = 0x7FFF ∧ e.f.mant.toNat = 2 ^ 79)
  else decide (0x7FFF ≤ e.f.exp)

theorem potP_side : ∀ e ∈ potP, entrySide false e = true := by decide +kernel
theorem potN_side : ∀ e ∈ potN, entrySide true e = true := by decide +kernel

theorem far_mono (neg : Bool) {x : ℚ} (k : Nat) (hx : 0 < x) (h : Far neg x) : Far neg (x * 10 ^ (sgn neg * (k : ℤ))) := by
  unfold Far at *
  cases neg
  · simp only [sgn, Bool.false_eq_true, if_false, one_mul] at h ⊢
    refine le_trans h (le_mul_of_one_le_right (le_of_lt hx) ?_)
    rw [zpow_natCast]; exact one_le_pow₀ (by norm_num)
  · simp only [sgn, if_true] at h ⊢
    refine le_trans (mul_le_of_le_one_right (le_of_lt hx) ?_) h
    exact zpow_le_one_of_nonpos₀ (by norm_num) (by omega)

/-- One multiplication by an entry. -/
theorem mul_step {neg : Bool} {r : Nat} {x : ℚ} {f : Flt} {e : Entry} (hr : r ≤ 15) (hg : Good neg r x f)
    (he : entryOk e = true) (hs : entrySide neg e = true) :
    (mul f e.f).sign = f.sign ∧ (mul f e.f).isZero = f.isZero ∧
    ((Stop neg (mul f e.f) ∧ Far neg (x * 10 ^ e.dec) ∧ ((neg = false ∧ Normal (mul f e.f)) ∨ (mul f e.f).mant = 0)) ∨
     (Good neg (r + 1) (x * 10 ^ e.dec) (mul f e.f) ∧
      f.exp + e.f.exp ≤ (mul f e.f).exp + 0x7FFF ∧ (mul f e.f).exp + 0x7FFF ≤ f.exp + e.f.exp + 1)) := by
  unfold entryOk at he
  simp only [Bool.and_eq_true, decide_eq_true_eq, Bool.not_eq_true'] at he
  obtain ⟨⟨⟨hc, hN⟩, hsg⟩, -⟩ := he
  obtain ⟨hxp, hf, ha, hside, hrun, htop⟩ := hg
  have hg : Normal e.f := hN
  obtain ⟨c1, c2⟩ := entryClose_spec e hc
  have h10 : (0 : ℚ) < (10 : ℚ) ^ e.dec := by positivity
  obtain ⟨f1, f2⟩ := value_bounds hf
  obtain ⟨g1, g2⟩ := value_bounds hg
  have vf := value_pos hf
  have vg := value_pos hg
  have hxd : 0 < x * 10 ^ e.dec := mul_pos hxp h10
  have q1 : value f * value e.f < (2 : ℚ) ^ (((f.exp : ℤ) - 0x7FFF + 1) + ((e.f.exp : ℤ) - 0x7FFF + 1)) := by
    rw [← zpow2_mul]
    exact mul_lt_mul'' f2 g2 (le_of_lt vf) (le_of_lt vg)
  have q2 : (2 : ℚ) ^ (((f.exp : ℤ) - 0x7FFF) + ((e.f.exp : ℤ) - 0x7FFF)) ≤ value f * value e.f := by
    rw [← zpow2_mul]
    exact mul_le_mul f1 g1 (by positivity) (le_of_lt vf)
  have happ : Approx (r + 1) (x * 10 ^ e.dec) (value f * value e.f) := by
    constructor
    · have hq : ((1 : ℚ) - 1 / 2 ^ 78) ≤ 1 - 1 / 2 ^ 80 := by norm_num
      have hp : (0 : ℚ) ≤ x * (1 - 1 / 2 ^ 78) ^ r := mul_nonneg (le_of_lt hxp) (pow_nonneg (by norm_num) r)
      refine le_trans ?_ (mul_le_mul ha.1 c1 (mul_nonneg (le_of_lt h10) (by norm_num)) (le_of_lt vf))
      rw [pow_succ]
      calc x * 10 ^ e.dec * ((1 - 1 / 2 ^ 78) ^ r * (1 - 1 / 2 ^ 78))
          = (x * (1 - 1 / 2 ^ 78) ^ r * 10 ^ e.dec) * (1 - 1 / 2 ^ 78) := by ring
        _ ≤ (x * (1 - 1 / 2 ^ 78) ^ r * 10 ^ e.dec) * (1 - 1 / 2 ^ 80) :=
            mul_le_mul_of_nonneg_left hq (mul_nonneg hp (le_of_lt h10))
        _ = _ := by ring
    · have hmul : value f * value e.f ≤ x * (1 + 1 / 2 ^ 80) ^ r * ((10 : ℚ) ^ e.dec * (1 + 1 / 2 ^ 80)) :=
        mul_le_mul ha.2 c2 (le_of_lt vg) (by positivity)
      refine le_trans hmul (le_of_eq ?_)
      rw [pow_succ]; ring
  obtain ⟨b1, b2⟩ := happ.bounds hxd (by omega)
  by_cases hlo : 0x7FFF + 1 ≤ f.exp + e.f.exp
  · by_cases hhi : f.exp + e.f.exp ≤ 0x7FFF + 0xFFFE
    · obtain ⟨m1, m2, m3⟩ := mul_value f e.f hf hg hlo hhi
      obtain ⟨z1, z2, z3, z4⟩ := mul_eq f e.f hf hg hlo hhi
      have hexp : f.exp + e.f.exp ≤ (mul f e.f).exp + 0x7FFF ∧ (mul f e.f).exp + 0x7FFF ≤ f.exp + e.f.exp + 1 := by
        by_cases h : 2 ^ 159 ≤ f.mant.toNat * e.f.mant.toNat
        · have := (z3 h).2; omega
        · have := (z4 (by omega)).2; omega
      refine ⟨by rw [z2, hsg]; simp, z1, ?_⟩
      by_cases hst : Stop neg (mul f e.f)
      · left
        have hst' := hst
        unfold Stop at hst'
        cases neg
        · simp only [Bool.false_eq_true, if_false] at hst'
          refine ⟨hst, ?_, Or.inl ⟨rfl, m1⟩⟩
          unfold Far
          simp only [Bool.false_eq_true, if_false]
          have h1 := (value_bounds m1).1
          rw [hst'] at h1
          exact far_up _ _ (by omega) (le_trans h1 m2) b2
        · simp only [if_true] at hst'; omega
      · right
        refine ⟨⟨hxd, m1, ⟨?_, le_trans m2 happ.2⟩, ?_, hst, by omega⟩, hexp⟩
        · refine le_trans ?_ m3
          have hq : ((1 : ℚ) - 1 / 2 ^ 78) ≤ (1 - 1 / 2 ^ 80) * (1 - 1 / 2 ^ 79) := by norm_num
          have hp : (0 : ℚ) ≤ x * (1 - 1 / 2 ^ 78) ^ r := mul_nonneg (le_of_lt hxp) (pow_nonneg (by norm_num) r)
          have hmul : x * (1 - 1 / 2 ^ 78) ^ r * ((10 : ℚ) ^ e.dec * (1 - 1 / 2 ^ 80)) ≤ value f * value e.f :=
            mul_le_mul ha.1 c1 (mul_nonneg (le_of_lt h10) (by norm_num)) (le_of_lt vf)
          have h7 := mul_le_mul_of_nonneg_right hmul (show (0 : ℚ) ≤ 1 - 1 / 2 ^ 79 by norm_num)
          refine le_trans ?_ h7
          rw [pow_succ]
          calc x * 10 ^ e.dec * ((1 - 1 / 2 ^ 78) ^ r * (1 - 1 / 2 ^ 78))
              = (x * (1 - 1 / 2 ^ 78) ^ r * 10 ^ e.dec) * (1 - 1 / 2 ^ 78) := by ring
            _ ≤ (x * (1 - 1 / 2 ^ 78) ^ r * 10 ^ e.dec) * ((1 - 1 / 2 ^ 80) * (1 - 1 / 2 ^ 79)) :=
                mul_le_mul_of_nonneg_left hq (mul_nonneg hp (le_of_lt h10))
            _ = _ := by ring
        · unfold Stop at hrun
          cases neg
          · simp only [Bool.false_eq_true, if_false, entrySide, decide_eq_true_eq] at hside hs hrun ⊢; omega
          · simp only [if_true, entrySide, decide_eq_true_eq, Bool.or_eq_true] at hside hs hrun hst ⊢
            rcases hs with hs | hs
            · omega
            · have h6 := f.mant.isLt
              have h7 : f.mant.toNat * e.f.mant.toNat < 2 ^ 159 := by rw [hs.2]; omega
              have := (z4 h7).2
              omega
    · obtain ⟨o1, o2⟩ := mul_over f e.f hf hg (by omega)
      have osg : (mul f e.f).sign = (f.sign != e.f.sign) ∧ (mul f e.f).isZero = f.isZero := by
        unfold Normal at hf hg
        unfold mul
        dsimp only
        rw [if_neg (by omega), if_pos (by omega)]
        exact ⟨rfl, rfl⟩
      refine ⟨by rw [osg.1, hsg]; simp, osg.2, Or.inl ⟨?_, ?_, Or.inr o2⟩⟩
      · unfold Stop
        cases neg
        · exact o1
        · simp only [if_true, entrySide, decide_eq_true_eq, Bool.or_eq_true] at hs hside; omega
      · unfold Far
        cases neg
        · simp only [Bool.false_eq_true, if_false]
          exact far_up _ _ (by omega) q2 b2
        · simp only [if_true, entrySide, decide_eq_true_eq, Bool.or_eq_true] at hs hside; omega
  · obtain ⟨o1, o2⟩ := mul_under f e.f hf hg (by omega)
    have osg : (mul f e.f).sign = (f.sign != e.f.sign) ∧ (mul f e.f).isZero = f.isZero := by
      unfold Normal at hf hg
      unfold mul
      dsimp only
      rw [if_neg (by omega), if_neg (by omega), if_pos (by omega)]
      exact ⟨rfl, rfl⟩
    refine ⟨by rw [osg.1, hsg]; simp, osg.2, Or.inl ⟨?_, ?_, Or.inr o2⟩⟩
    · unfold Stop
      cases neg
      · simp only [Bool.false_eq_true, if_false, entrySide, decide_eq_true_eq] at hs hside; omega
      · exact o1
    · unfold Far
      cases neg
      · simp only [Bool.false_eq_true, if_false, entrySide, decide_eq_true_eq] at hs hside; omega
      · simp only [if_true]
        exact far_down _ _ (by omega) q1 b1

theorem chain_ne {neg : Bool} {t : List Entry} {j : Nat} (h : Chain neg t j) : t ≠ [] := by
  cases t with
  | nil => exact h.elim
  | cons => simp

/-- A power beyond the exponent is skipped. -/
theorem scale_skip (neg : Bool) (n : Nat) (e : Entry) (t : List Entry) (ht : t ≠ []) (dec : ℤ) (f : Flt)
    (h : dec = 0 ∨ (if neg then dec > e.dec else dec < e.dec)) :
    scale neg n (e :: t) dec f = scale neg n t dec f := by
  by_cases h0 : dec = 0 ∨ f.exp = (if neg then 0 else 0xFFFF)
  · cases n <;> rw [scale, scale, if_pos (Or.inr h0), if_pos (Or.inr h0)]
  · have h1 : dec ≠ 0 := fun hh => h0 (Or.inl hh)
    have h2 := h.resolve_left h1
    cases n <;> rw [scale, scale, if_neg (by simp only [List.cons_ne_nil, false_or]; exact h0),
      if_neg (by simp only [ht, false_or]; exact h0)]
    rw [seek, if_pos h2]

/-- How the loops end. -/
structure Scaled (neg : Bool) (x : ℚ) (f f' : Flt) : Prop where
  sign : f'.sign = f.sign
  isZero : f'.isZero = f.isZero
  result : (Stop neg f' ∧ Far neg x ∧ ((neg = false ∧ Normal f') ∨ f'.mant = 0)) ∨ ∃ r, r ≤ 16 ∧ Good neg r x f'

theorem scale_stop (neg : Bool) (n : Nat) (tbl : List Entry) (dec : ℤ) (f : Flt) (h : Stop neg f) :
    scale neg n tbl dec f = some f := by
  unfold Stop at h
  cases n <;> rw [scale, if_pos (Or.inr (Or.inr h))]

theorem scale_zero (neg : Bool) (n : Nat) (tbl : List Entry) (f : Flt) : scale neg n tbl 0 f = some f := by
  cases n <;> rw [scale, if_pos (Or.inr (Or.inl rfl))]

theorem sgn_cases (neg : Bool) : sgn neg = -1 ∧ neg = true ∨ sgn neg = 1 ∧ neg = false := by cases neg <;> simp [sgn]

/-- A turn of the loop. -/
theorem scale_mul (neg : Bool) (m p k : Nat) (e : Entry) (t : List Entry) (hed : e.dec = sgn neg * (p : ℤ)) (hp : 0 < p)
    (hk : p ≤ k) (f : Flt) (hrun : ¬ Stop neg f) :
    scale neg (m + 1) (e :: t) (sgn neg * k) f = scale neg m (e :: t) (sgn neg * ((k - p : Nat) : ℤ)) (mul f e.f) := by
  have hdec : sgn neg * (k : ℤ) - e.dec = sgn neg * ((k - p : Nat) : ℤ) := by
    rw [hed]; push_cast [hk]; ring
  rw [scale, if_neg]
  · rw [seek, if_neg]
    · dsimp only; rw [hdec]
    · rw [hed]
      rcases sgn_cases neg with ⟨h1, h2⟩ | ⟨h1, h2⟩
      · rw [h1, h2]; simp only [if_true]; omega
      · rw [h1, h2]; simp only [Bool.false_eq_true, if_false]; omega
  · rintro (h | h | h)
    · cases h
    · rcases sgn_cases neg with ⟨h1, h2⟩ | ⟨h1, h2⟩
      · rw [h1] at h; omega
      · rw [h1] at h; omega
    · exact hrun h

theorem skip_cond (neg : Bool) (k p : Nat) (e : Entry) (hed : e.dec = sgn neg * (p : ℤ)) (h : k < p) :
    (sgn neg * (k : ℤ)) = 0 ∨ (if neg then (sgn neg * (k : ℤ)) > e.dec else (sgn neg * (k : ℤ)) < e.dec) := by
  right
  rw [hed]
  rcases sgn_cases neg with ⟨h1, h2⟩ | ⟨h1, h2⟩
  · rw [h1, h2]; simp only [if_true]; omega
  · rw [h1, h2]; simp only [Bool.false_eq_true, if_false]; omega

/-- The table entries from here on, once the exponent is below twice the first power. -/
theorem scale_chain (neg : Bool) (j : Nat) (tbl : List Entry) (hc : Chain neg tbl j)
    (hok : ∀ e ∈ tbl, entryOk e = true) (hsd : ∀ e ∈ tbl, entrySide neg e = true)
    (n k : Nat) (hk : k < 2 ^ j) (hn : k ≤ n) (r : Nat) (hr : r + j ≤ 16)
    (x : ℚ) (f : Flt) (hg : Good neg r x f) :
    ∃ f', scale neg n tbl (sgn neg * k) f = some f' ∧ Scaled neg (x * 10 ^ (sgn neg * (k : ℤ))) f f' := by
  induction j generalizing tbl n k r x f with
  | zero =>
    have hk0 : k = 0 := by simpa using hk
    subst hk0
    refine ⟨f, ?_, rfl, rfl, Or.inr ⟨r, by omega, by simpa using hg⟩⟩
    simp only [Nat.cast_zero, mul_zero]; exact scale_zero ..
  | succ j ih =>
    cases tbl with
    | nil => exact hc.elim
    | cons e t =>
      obtain ⟨hed, hct⟩ := hc
      have hed' : e.dec = sgn neg * ((2 ^ j : Nat) : ℤ) := by rw [hed]; push_cast; rfl
      have hokt : ∀ e ∈ t, entryOk e = true := fun e he => hok e (List.mem_cons_of_mem _ he)
      have hsdt : ∀ e ∈ t, entrySide neg e = true := fun e he => hsd e (List.mem_cons_of_mem _ he)
      by_cases hlt : k < 2 ^ j
      · rw [scale_skip neg n e t (chain_ne hct) _ _ (skip_cond neg k _ e hed' hlt)]
        exact ih t hct hokt hsdt n k hlt hn r (by omega) x f hg
      · have hj1 := Nat.one_le_two_pow (n := j)
        obtain ⟨s1, s2, s3⟩ := mul_step (by omega) hg (hok e (List.mem_cons_self ..)) (hsd e (List.mem_cons_self ..))
        obtain ⟨m, rfl⟩ : ∃ m, n = m + 1 := ⟨n - 1, by omega⟩
        have hXe : x * 10 ^ e.dec * 10 ^ (sgn neg * ((k - 2 ^ j : Nat) : ℤ)) = x * 10 ^ (sgn neg * (k : ℤ)) := by
          rw [mul_assoc, ← zpow_add₀ (by norm_num), hed']; congr 2
          push_cast [Nat.le_of_not_lt hlt]; ring
        rw [scale_mul neg m (2 ^ j) k e t hed' hj1 (by omega) f hg.run]
        have hkk : k - 2 ^ j < 2 ^ j := by rw [Nat.pow_succ] at hk; omega
        rcases s3 with ⟨t1, t2, t3⟩ | ⟨t1, -⟩
        · refine ⟨mul f e.f, scale_stop neg m _ _ _ t1, s1, s2, Or.inl ⟨t1, ?_, t3⟩⟩
          rw [← hXe]
          exact far_mono neg _ (mul_pos hg.pos (by positivity)) t2
        · rw [scale_skip neg m e t (chain_ne hct) _ _ (skip_cond neg _ _ e hed' hkk)]
          obtain ⟨f', h1, h2, h3, h4⟩ := ih t hct hokt hsdt m (k - 2 ^ j) hkk (by omega) (r + 1) (by omega)
            (x * 10 ^ e.dec) (mul f e.f) t1
          rw [hXe] at h4
          exact ⟨f', h1, h2.trans s1, h3.trans s2, h4⟩

/-- The first power of a table changes the exponent a lot. -/
def topOk (neg : Bool) (tbl : List Entry) : Prop :=
  ∀ e ∈ tbl.head?, if neg then e.f.exp + 13607 ≤ 0x7FFF else 0x7FFF + 13606 ≤ e.f.exp

theorem potP_top : topOk false potP := by
  have h : ∀ e ∈ potP.head?, 0x7FFF + 13606 ≤ e.f.exp := by decide +kernel
  exact h
theorem potN_top : topOk true potN := by
  have h : ∀ e ∈ potN.head?, e.f.exp + 13607 ≤ 0x7FFF := by decide +kernel
  exact h

/-- The whole table: the greatest power can be used a few times before the number leaves the range. -/
theorem scale_table (neg : Bool) (tbl : List Entry) (hc : Chain neg tbl 13)
    (hok : ∀ e ∈ tbl, entryOk e = true) (hsd : ∀ e ∈ tbl, entrySide neg e = true) (htop : topOk neg tbl)
    (n k : Nat) (hn : k ≤ n) (r : Nat) (x : ℚ) (f : Flt) (hg : Good neg r x f)
    (hr : if neg then f.exp + 13606 * r ≤ 32846 else 32767 + 13606 * r ≤ f.exp) :
    ∃ f', scale neg n tbl (sgn neg * k) f = some f' ∧ Scaled neg (x * 10 ^ (sgn neg * (k : ℤ))) f f' := by
  induction n generalizing k r x f with
  | zero =>
    have hk0 : k = 0 := by omega
    subst hk0
    have hr3 : r ≤ 2 := by
      have h1 := hg.top
      cases neg
      · simp only [Bool.false_eq_true, if_false] at hr; omega
      · simp only [if_true] at hr; omega
    refine ⟨f, ?_, rfl, rfl, Or.inr ⟨r, by omega, by simpa using hg⟩⟩
    simp only [Nat.cast_zero, mul_zero]; exact scale_zero ..
  | succ m ih =>
    have hr3 : r ≤ 2 := by
      have h1 := hg.top
      cases neg
      · simp only [Bool.false_eq_true, if_false] at hr; omega
      · simp only [if_true] at hr; omega
    by_cases hlt : k < 8192
    · exact scale_chain neg 13 tbl hc hok hsd (m + 1) k (by omega) hn r (by omega) x f hg
    · cases tbl with
      | nil => exact hc.elim
      | cons e t =>
        obtain ⟨hed, hct⟩ := hc
        have hed' : e.dec = sgn neg * ((4096 : Nat) : ℤ) := hed
        have ht := htop e (by simp)
        obtain ⟨s1, s2, s3⟩ := mul_step (by omega) hg (hok e (List.mem_cons_self ..)) (hsd e (List.mem_cons_self ..))
        have hXe : x * 10 ^ e.dec * 10 ^ (sgn neg * ((k - 4096 : Nat) : ℤ)) = x * 10 ^ (sgn neg * (k : ℤ)) := by
          rw [mul_assoc, ← zpow_add₀ (by norm_num), hed']; congr 2
          push_cast [show 4096 ≤ k by omega]; ring
        rw [scale_mul neg m 4096 k e t hed' (by omega) (by omega) f hg.run]
        rcases s3 with ⟨t1, t2, t3⟩ | ⟨t1, t2, t3⟩
        · refine ⟨mul f e.f, scale_stop neg m _ _ _ t1, s1, s2, Or.inl ⟨t1, ?_, t3⟩⟩
          rw [← hXe]
          exact far_mono neg _ (mul_pos hg.pos (by positivity)) t2
        · obtain ⟨f', h1, h2, h3, h4⟩ := ih (k - 4096) (by omega) (r + 1)
            (x * 10 ^ e.dec) (mul f e.f) t1 (by
              clear ih hXe s1 s2 t1 hed hed' hlt hn
              generalize (mul f e.f).exp = E at *
              generalize e.f.exp = X at *
              cases neg
              · simp only [Bool.false_eq_true, if_false] at hr ht ⊢; clear hg; linarith
              · simp only [if_true] at hr ht ⊢; clear hg; linarith)
          rw [hXe] at h4
          exact ⟨f', h1, h2.trans s1, h3.trans s2, h4⟩

end Verif.Floatnum
