import Verif.Floatnum.Spec
import Verif.Bitvect.Bits
import Mathlib.Tactic.Linarith
import Mathlib.Tactic.Ring
import Mathlib.Tactic.NormNum
import Mathlib.Tactic.Positivity
import Mathlib.Algebra.Order.Field.Power

set_option linter.unusedSimpArgs false

namespace Verif.Floatnum

open Verif.Bitvect
open Verif.Floatnum.Spec

/-! ### Vectors as numbers -/

theorem intervalCopy_toNat {n m : Nat} (y : BitVec m) (yo len : Nat) (hn : len ≤ n) (hm : yo + len ≤ m) :
    (intervalCopy (0 : BitVec n) y 0 yo len).toNat = y.toNat / 2 ^ yo % 2 ^ len := by
  apply Nat.eq_of_testBit_eq
  intro i
  rw [Nat.testBit_mod_two_pow, Nat.testBit_div_two_pow]
  show (intervalCopy (0 : BitVec n) y 0 yo len).getLsbD i = _
  unfold intervalCopy
  rw [getLsbD_ofBits]
  by_cases h : i < len
  · have h1 : i < n := by omega
    have h2 : 0 < n := by omega
    have h3 : yo + i < m := by omega
    simp [h, h1, h2, h3, BitVec.getLsbD, Nat.add_comm]
  · simp [h]

theorem intervalCopy_full {n m : Nat} (x : BitVec n) (y : BitVec m) (yo : Nat) (hm : yo + n ≤ m) :
    (intervalCopy x y 0 yo n).toNat = y.toNat / 2 ^ yo % 2 ^ n := by
  rw [← intervalCopy_toNat (n := n) y yo n (Nat.le_refl _) hm]
  congr 1
  unfold intervalCopy
  apply ofBits_congr
  intro i hi
  have h2 : 0 < n := by omega
  have h3 : yo + i < m := by omega
  simp [hi, h2, h3]

theorem leNat_blockRead_aux (x : Nat) (k j : Nat) :
    leNat ((List.range' j k).map fun j => BitVec.ofNat 8 (x / 2 ^ (8 * j))) = x / 2 ^ (8 * j) % 2 ^ (8 * k) := by
  induction k generalizing j with
  | zero => simp [leNat, Nat.mod_one]
  | succ k ih =>
    rw [List.range'_succ, List.map_cons, leNat, ih]
    rw [BitVec.toNat_ofNat]
    have e1 : x / 2 ^ (8 * (j + 1)) = x / 2 ^ (8 * j) / 256 := by
      rw [Nat.div_div_eq_div_mul, show 8 * (j + 1) = 8 * j + 8 by omega, Nat.pow_add]
    have e2 : 2 ^ (8 * (k + 1)) = 256 * 2 ^ (8 * k) := by
      rw [show 8 * (k + 1) = 8 + 8 * k by omega, Nat.pow_add]
    rw [e1, e2, Nat.mod_mul]

theorem leNat_blockRead {n : Nat} (x : BitVec n) (h : n = n / 8 * 8) : leNat (blockRead x) = x.toNat := by
  unfold blockRead
  rw [List.range_eq_range', leNat_blockRead_aux]
  simp only [Nat.mul_zero, Nat.pow_zero, Nat.div_one]
  apply Nat.mod_eq_of_lt
  rw [Nat.mul_comm, ← h]
  exact x.isLt

/-- The fields of an assembled number. -/
theorem fields {mb eb n : Nat} (hn : n = mb + eb + 1) (heb : eb ≤ 64) (hmb : 0 < mb) (a : BitVec n)
    (e : Nat) (he : e < 2 ^ eb) (ha : a.toNat < 2 ^ mb) (s : Bool) :
    let c := chunkStore a eb mb (BitVec.ofInt 64 (e : Int))
    let o := if s then c ||| BitVec.twoPow n (n - 1) else c &&& ~~~(BitVec.twoPow n (n - 1))
    o.toNat % 2 ^ mb = a.toNat ∧ o.toNat / 2 ^ mb % 2 ^ eb = e ∧ o.toNat / 2 ^ (mb + eb) = s.toNat := by
  intro c o
  have hbit : ∀ i, o.toNat.testBit i =
      if i < mb then a.toNat.testBit i
      else if i < mb + eb then e.testBit (i - mb)
      else (decide (i = mb + eb) && s) := by
    intro i
    show o.getLsbD i = _
    have ho : o.getLsbD i = (if i = n - 1 then (decide (i < n) && s) else c.getLsbD i) := by
      show (if s then c ||| BitVec.twoPow n (n - 1) else c &&& ~~~(BitVec.twoPow n (n - 1))).getLsbD i = _
      by_cases hi : i < n
      · by_cases h2 : i = n - 1
        · cases s <;> simp [h2, BitVec.getLsbD_twoPow, hi] <;> omega
        · have h3 : ¬ n - 1 = i := fun hh => h2 hh.symm
          cases s <;> simp [h2, h3, BitVec.getLsbD_twoPow, hi]
      · have h1 : ¬ i = n - 1 := by omega
        cases s
        · rw [if_neg (by decide), BitVec.getLsbD_of_ge _ _ (by omega), if_neg h1,
            BitVec.getLsbD_of_ge _ _ (by omega)]
        · rw [if_pos rfl, BitVec.getLsbD_of_ge _ _ (by omega), if_neg h1,
            BitVec.getLsbD_of_ge _ _ (by omega)]
    rw [ho]
    by_cases h1 : i < mb
    · rw [if_neg (by omega), if_pos h1]
      show (chunkStore a eb mb _).getLsbD i = _
      rw [getLsbD_chunkStore _ _ _ _ _ (by omega), if_neg (by omega)]
      rfl
    · rw [if_neg h1]
      by_cases h2 : i < mb + eb
      · rw [if_neg (by omega), if_pos h2]
        show (chunkStore a eb mb _).getLsbD i = _
        rw [getLsbD_chunkStore _ _ _ _ _ (by omega), if_pos (by omega)]
        have hlt : e < 2 ^ 64 := Nat.lt_of_lt_of_le he (Nat.pow_le_pow_right (by decide) heb)
        have : BitVec.ofInt 64 (e : Int) = BitVec.ofNat 64 e := by simp
        rw [this]
        show (BitVec.ofNat 64 e).toNat.testBit _ = _
        rw [BitVec.toNat_ofNat, Nat.mod_eq_of_lt hlt]
      · rw [if_neg h2]
        by_cases h3 : i = n - 1
        · rw [if_pos h3]
          have : i < n := by omega
          have h4 : i = mb + eb := by omega
          simp [h4, hn]
        · rw [if_neg h3, BitVec.getLsbD_of_ge _ _ (by omega)]
          have h4 : ¬ i = mb + eb := by omega
          simp [h4]
  refine ⟨?_, ?_, ?_⟩
  · apply Nat.eq_of_testBit_eq
    intro i
    rw [Nat.testBit_mod_two_pow, hbit]
    by_cases h1 : i < mb
    · simp [h1]
    · have : a.toNat < 2 ^ i := Nat.lt_of_lt_of_le ha (Nat.pow_le_pow_right (by decide) (by omega))
      rw [Nat.testBit_lt_two_pow this]; simp [h1]
  · apply Nat.eq_of_testBit_eq
    intro i
    rw [Nat.testBit_mod_two_pow, Nat.testBit_div_two_pow, hbit]
    by_cases h1 : i < eb
    · have a1 : ¬ i + mb < mb := by omega
      have a2 : i + mb < mb + eb := by omega
      rw [if_neg a1, if_pos a2]; simp [h1]
    · have : e < 2 ^ i := Nat.lt_of_lt_of_le he (Nat.pow_le_pow_right (by decide) (by omega))
      rw [Nat.testBit_lt_two_pow this]; simp [h1]
  · apply Nat.eq_of_testBit_eq
    intro i
    rw [Nat.testBit_div_two_pow, hbit, if_neg (by omega), if_neg (by omega)]
    cases i with
    | zero => cases s <;> simp
    | succ i =>
      have : ¬ i + 1 + (mb + eb) = mb + eb := by omega
      cases s <;> simp [this, Nat.testBit_succ]

/-! ### Rounding -/

/-- Nearest multiple of a power of two, in integers. -/
theorem half_div (m s : Nat) (hs : 0 < s) :
    (m + 2 ^ (s - 1)) / 2 ^ s = m / 2 ^ s + (m.testBit (s - 1)).toNat := by
  have e : 2 ^ s = 2 * 2 ^ (s - 1) := by
    rw [← Nat.pow_succ']; congr 1; omega
  rw [Nat.testBit_eq_decide_div_mod_eq]
  have h0 := Nat.div_add_mod m (2 ^ s)
  have h1 := Nat.mod_lt m (show 0 < 2 ^ s from Nat.two_pow_pos s)
  have hq : m / 2 ^ s = m / 2 ^ (s - 1) / 2 := by rw [e, Nat.mul_comm, Nat.div_div_eq_div_mul]
  generalize hd : 2 ^ (s - 1) = u at *
  have hu : 0 < u := hd ▸ Nat.two_pow_pos _
  have hu1 := Nat.div_add_mod m u
  have hu2 := Nat.mod_lt m hu
  rw [e, show (m + u) / (2 * u) = (m + u) / u / 2 by rw [Nat.mul_comm, Nat.div_div_eq_div_mul],
    Nat.add_div_right _ hu]
  rw [e] at hq
  rw [hq]
  have := Nat.div_add_mod (m / u) 2
  rcases Nat.mod_two_eq_zero_or_one (m / u) with h | h <;> simp [h] <;> omega

/-- The result of roundMant. -/
theorem roundMant_spec {mb P n : Nat} (hid : Bool) (f : Flt) (hP : P = mb + (if hid then 1 else 0))
    (hP2 : P < 80) (hmb : 0 < mb) (hn : mb < n) (hnorm : Normal f) :
    let q := (f.mant.toNat + 2 ^ (79 - P)) / 2 ^ (80 - P)
    2 ^ (P - 1) ≤ q ∧ q ≤ 2 ^ P ∧
    (q < 2 ^ P → ((roundMant n mb hid f).1.toNat + (if hid then 2 ^ mb else 0) = q ∧
        (roundMant n mb hid f).1.toNat < 2 ^ mb ∧
        (roundMant n mb hid f).2 = ((f.exp : Int), false))) ∧
    (q = 2 ^ P → ((roundMant n mb hid f).1.toNat + (if hid then 2 ^ mb else 0) = 2 ^ (P - 1) ∧
        (roundMant n mb hid f).1.toNat < 2 ^ mb ∧
        (roundMant n mb hid f).2 =
          if (f.exp : Int) + 1 ≥ 0xFFFF then ((f.exp : Int), true) else ((f.exp : Int) + 1, false))) := by
  intro q
  have hm := f.mant.isLt
  have hlow : 2 ^ 79 ≤ f.mant.toNat := hnorm
  have e1 : 2 ^ 80 = 2 ^ (80 - P) * 2 ^ P := by rw [← Nat.pow_add]; congr 1; omega
  have e2 : 2 ^ 79 = 2 ^ (80 - P) * 2 ^ (P - 1) := by rw [← Nat.pow_add]; congr 1; omega
  have hq : q = f.mant.toNat / 2 ^ (80 - P) + (f.mant.toNat.testBit (79 - P)).toNat := by
    have := half_div f.mant.toNat (80 - P) (by omega)
    rw [show 80 - P - 1 = 79 - P by omega] at this
    exact this
  have hb : (f.mant.toNat.testBit (79 - P)).toNat ≤ 1 := by cases f.mant.toNat.testBit (79 - P) <;> simp
  have hd1 : 2 ^ (P - 1) ≤ f.mant.toNat / 2 ^ (80 - P) := by
    rw [Nat.le_div_iff_mul_le (Nat.two_pow_pos _), Nat.mul_comm, ← e2]; exact hlow
  have hd2 : f.mant.toNat / 2 ^ (80 - P) < 2 ^ P := by
    rw [Nat.div_lt_iff_lt_mul (Nat.two_pow_pos _), Nat.mul_comm, ← e1]; exact hm
  have hi : 80 - (if hid = true then 1 else 0) - mb = 80 - P := by cases hid <;> simp at hP ⊢ <;> omega
  have hi2 : 80 - (if hid = true then 1 else 0) - (mb + 1) = 79 - P := by cases hid <;> simp at hP ⊢ <;> omega
  have hc := intervalCopy_toNat (n := n) f.mant (80 - P) mb (by omega) (by
    cases hid <;> simp at hP <;> omega)
  have hmod : f.mant.toNat / 2 ^ (80 - P) % 2 ^ mb + (if hid then 2 ^ mb else 0) = f.mant.toNat / 2 ^ (80 - P) := by
    cases hid
    · simp at hP ⊢; apply Nat.mod_eq_of_lt; rw [← hP]; exact hd2
    · simp at hP
      rw [hP] at hd1 hd2 ⊢
      simp only [Nat.add_sub_cancel] at hd1
      rw [Nat.pow_succ] at hd2
      simp only [if_true]
      rw [Nat.mod_eq_sub_mod hd1, Nat.mod_eq_of_lt (by omega)]
      omega
  have hPe : 2 ^ P = 2 ^ mb + (if hid then 2 ^ mb else 0) := by
    cases hid
    · simp at hP ⊢; rw [hP]
    · simp at hP ⊢; rw [hP, Nat.pow_succ]; omega
  have hPe2 : P - 1 = if hid then mb else mb - 1 := by
    cases hid
    · simp at hP ⊢; rw [hP]
    · simp at hP ⊢; omega
  have hlt : 2 ^ mb < 2 ^ n := Nat.pow_lt_pow_right (by decide) hn
  -- the incremented vector
  have hout : (if f.mant.getLsbD (79 - P) then intervalCopy (0 : BitVec n) f.mant 0 (80 - P) mb + 1
      else intervalCopy (0 : BitVec n) f.mant 0 (80 - P) mb).toNat =
      f.mant.toNat / 2 ^ (80 - P) % 2 ^ mb + (f.mant.toNat.testBit (79 - P)).toNat := by
    have hml := Nat.mod_lt (f.mant.toNat / 2 ^ (80 - P)) (Nat.two_pow_pos mb)
    have hg : f.mant.getLsbD (79 - P) = f.mant.toNat.testBit (79 - P) := rfl
    rw [hg]
    cases hbb : f.mant.toNat.testBit (79 - P)
    · simp only [Bool.false_eq_true, if_false, Bool.toNat_false, Nat.add_zero]; exact hc
    · simp only [if_true, Bool.toNat_true]
      rw [BitVec.toNat_add, hc, show (1 : BitVec n).toNat = 1 from BitVec.toNat_one (by omega),
        Nat.mod_eq_of_lt (by omega)]
  generalize hO : (if f.mant.getLsbD (79 - P) then intervalCopy (0 : BitVec n) f.mant 0 (80 - P) mb + 1
      else intervalCopy (0 : BitVec n) f.mant 0 (80 - P) mb) = out at hout
  have hoq : out.toNat + (if hid then 2 ^ mb else 0) = q := by rw [hout, hq]; omega
  have hRM : roundMant n mb hid f =
      if out.getLsbD mb then
        (if (f.exp : Int) + 1 ≥ 0xFFFF then
          ((if hid then 0 else BitVec.twoPow n (mb - 1)), (f.exp : Int), true)
         else ((if hid then 0 else BitVec.twoPow n (mb - 1)), (f.exp : Int) + 1, false))
      else (out, (f.exp : Int), false) := by
    unfold roundMant
    simp only [hi, hi2, hO]
  refine ⟨by omega, by omega, ?_, ?_⟩
  · intro hlt2
    have h1 : out.toNat < 2 ^ mb := by omega
    have h2 : out.getLsbD mb = false := Nat.testBit_lt_two_pow h1
    rw [hRM, h2]
    exact ⟨hoq, h1, rfl⟩
  · intro heq
    have h1 : out.toNat = 2 ^ mb := by omega
    have h2 : out.getLsbD mb = true := by
      show out.toNat.testBit mb = true
      rw [h1]; exact Nat.testBit_two_pow_self
    rw [hRM, h2, if_pos rfl]
    have hv : (if hid then (0 : BitVec n) else BitVec.twoPow n (mb - 1)).toNat + (if hid then 2 ^ mb else 0)
        = 2 ^ (P - 1) ∧ (if hid then (0 : BitVec n) else BitVec.twoPow n (mb - 1)).toNat < 2 ^ mb := by
      rw [hPe2]
      cases hid
      · simp only [Bool.false_eq_true, if_false, Nat.add_zero]
        rw [BitVec.toNat_twoPow_of_lt (by omega)]
        exact ⟨rfl, Nat.pow_lt_pow_right (by decide) (by omega)⟩
      · simp
    split <;> exact ⟨hv.1, hv.2, rfl⟩

/-- Rounding in integers is rounding. -/
theorem rounded_of_nat (m P : Nat) (k : Int) (hP : 0 < P) (hP2 : P < 80) (hlow : 2 ^ 79 ≤ m) (hm : m < 2 ^ 80) :
    Rounded P ((m : ℚ) * 2 ^ k)
      ((((m + 2 ^ (79 - P)) / 2 ^ (80 - P) : Nat) : ℚ) * 2 ^ (k + (80 - P : Nat))) := by
  generalize hs : 80 - P = s
  have hs0 : 0 < s := by omega
  have hs1 : 79 - P = s - 1 := by omega
  have hPs : P = 80 - s := by omega
  rw [hs1]
  generalize hq : (m + 2 ^ (s - 1)) / 2 ^ s = q
  have hpow : 2 ^ s = 2 * 2 ^ (s - 1) := by rw [← Nat.pow_succ']; congr 1; omega
  have e1 : 2 ^ 80 = 2 ^ s * 2 ^ P := by rw [← Nat.pow_add]; congr 1; omega
  have e2 : 2 ^ 79 = 2 ^ s * 2 ^ (P - 1) := by rw [← Nat.pow_add]; congr 1; omega
  have hu : 0 < 2 ^ (s - 1) := Nat.two_pow_pos _
  generalize hU : 2 ^ (s - 1) = u at *
  rw [hpow] at hq e1 e2
  have hdm := Nat.div_add_mod (m + u) (2 * u)
  have hml := Nat.mod_lt (m + u) (show 0 < 2 * u by omega)
  rw [hq] at hdm
  -- q·2u ≤ m + u < (q+1)·2u
  have hA : 2 * u * q ≤ m + u := by omega
  have hB : m < 2 * u * q + u := by omega
  have hq1 : 2 ^ (P - 1) ≤ q := by
    rw [← hq, Nat.le_div_iff_mul_le (by omega), Nat.mul_comm, ← e2]; omega
  have hq2 : q ≤ 2 ^ P := by
    have : 2 * u * q < 2 * u * (2 ^ P + 1) := by rw [Nat.mul_add, ← e1]; omega
    have := Nat.lt_of_mul_lt_mul_left this
    omega
  have hk : (0 : ℚ) < 2 ^ k := by positivity
  have hz : (2 : ℚ) ^ (k + (s : ℕ)) = 2 ^ k * (2 * (u : ℚ)) := by
    rw [zpow_add₀ (by norm_num), zpow_natCast]
    congr 1
    exact_mod_cast hpow
  have hd : (q : ℚ) * 2 ^ (k + (s : ℕ)) = ((2 * u * q : Nat) : ℚ) * 2 ^ k := by rw [hz]; push_cast; ring
  -- nearest among multiples
  have hn : ∀ n : Nat, |(m : Int) - (2 * u * q : Nat)| ≤ |(m : Int) - (2 * u * n : Nat)| ∧
      (|(m : Int) - (2 * u * n : Nat)| = |(m : Int) - (2 * u * q : Nat)| → 2 * u * n ≤ 2 * u * q) := by
    intro n
    have hl : |(m : Int) - (2 * u * q : Nat)| ≤ u := abs_le.mpr ⟨by omega, by omega⟩
    rcases Nat.lt_trichotomy n q with h | h | h
    · have h1 : 2 * u * (n + 1) ≤ 2 * u * q := Nat.mul_le_mul_left _ h
      rw [Nat.mul_add] at h1
      have h2 : (u : Int) ≤ m - (2 * u * n : Nat) := by omega
      exact ⟨le_trans hl (le_trans h2 (le_abs_self _)), fun _ => by omega⟩
    · subst h; exact ⟨le_refl _, fun _ => le_refl _⟩
    · have h1 : 2 * u * (q + 1) ≤ 2 * u * n := Nat.mul_le_mul_left _ h
      rw [Nat.mul_add] at h1
      have h2 : (u : Int) < -(m - (2 * u * n : Nat)) := by omega
      have h3 : (u : Int) < |(m : Int) - (2 * u * n : Nat)| := lt_of_lt_of_le h2 (neg_le_abs _)
      exact ⟨le_trans hl (le_of_lt h3), fun hh => by omega⟩
  -- any number of P bits is a multiple, or lies below the mantissa range
  have hcmp : ∀ y, Representable P y → (∃ n : Nat, y = ((2 * u * n : Nat) : ℚ) * 2 ^ k) ∨
      y < ((2 * u * 2 ^ (P - 1) : Nat) : ℚ) * 2 ^ k := by
    rintro y ⟨a, j, ha1, ha2, rfl⟩
    by_cases hj : k + (s : ℕ) ≤ j
    · left
      obtain ⟨t, ht⟩ := Int.eq_ofNat_of_zero_le (show 0 ≤ j - (k + (s : ℕ)) by omega)
      refine ⟨a * 2 ^ t, ?_⟩
      have : j = (k + (s : ℕ)) + (t : ℕ) := by omega
      rw [this, zpow_add₀ (by norm_num), hz, zpow_natCast]
      push_cast; ring
    · right
      have h1 : (2 : ℚ) ^ j ≤ 2 ^ (k + (s : ℕ) - 1) := zpow_le_zpow_right₀ (by norm_num) (by omega)
      have h2 : (2 : ℚ) ^ (k + (s : ℕ) - 1) = 2 ^ k * u := by
        rw [zpow_sub₀ (by norm_num), hz]; simp; ring
      rw [h2] at h1
      have h3 : (a : ℚ) < 2 ^ P := by exact_mod_cast ha2
      have hPP : (2 : ℚ) ^ P = 2 * 2 ^ (P - 1) := by
        rw [← pow_succ']; congr 1; omega
      have hju : (0 : ℚ) < 2 ^ k * u := mul_pos hk (by exact_mod_cast hu)
      calc (a : ℚ) * 2 ^ j ≤ a * (2 ^ k * u) := mul_le_mul_of_nonneg_left h1 (by positivity)
        _ < 2 ^ P * (2 ^ k * u) := mul_lt_mul_of_pos_right h3 hju
        _ = _ := by rw [hPP]; push_cast; ring
  -- transport
  have hT : ∀ n : Nat, |(m : ℚ) * 2 ^ k - ((n : Nat) : ℚ) * 2 ^ k| = ((|(m : Int) - (n : Nat)| : Int) : ℚ) * 2 ^ k := by
    intro n
    rw [← sub_mul, abs_mul, abs_of_pos hk]
    push_cast; rfl
  rw [hd]
  refine ⟨?_, ?_, ?_⟩
  · by_cases hlt : q < 2 ^ P
    · exact ⟨q, k + (s : ℕ), hq1, hlt, hd.symm⟩
    · have hqe : q = 2 ^ P := by omega
      have hPP : 2 ^ P = 2 * 2 ^ (P - 1) := by rw [← Nat.pow_succ']; congr 1; omega
      refine ⟨2 ^ (P - 1), k + (s : ℕ) + 1, Nat.le_refl _, Nat.pow_lt_pow_right (by decide) (by omega), ?_⟩
      rw [zpow_add₀ (by norm_num), hz, hqe, hPP]
      push_cast; ring
  · intro y hy
    rcases hcmp y hy with ⟨n, rfl⟩ | hlt
    · rw [hT, hT]
      exact mul_le_mul_of_nonneg_right (by exact_mod_cast (hn n).1) (le_of_lt hk)
    · have h0 := (hn (2 ^ (P - 1))).1
      rw [hT]
      have h1 : |(m : Int) - (2 * u * 2 ^ (P - 1) : Nat)| = m - (2 * u * 2 ^ (P - 1) : Nat) := by
        have h5 : 2 * u * 2 ^ (P - 1) ≤ m := by rw [← e2]; exact hlow
        have h6 : ((2 * u * 2 ^ (P - 1) : Nat) : Int) ≤ m := by exact_mod_cast h5
        exact abs_of_nonneg (sub_nonneg.mpr h6)
      rw [h1] at h0
      have h2 : ((|(m : Int) - (2 * u * q : Nat)| : Int) : ℚ) ≤ ((m : Int) - (2 * u * 2 ^ (P - 1) : Nat) : Int) := by
        exact_mod_cast h0
      refine le_trans (mul_le_mul_of_nonneg_right h2 (le_of_lt hk)) (le_trans ?_ (le_abs_self _))
      push_cast at hlt ⊢
      linarith
  · intro y hy heq
    rcases hcmp y hy with ⟨n, rfl⟩ | hlt
    · rw [hT, hT] at heq
      have := mul_right_cancel₀ (ne_of_gt hk) heq
      have := (hn n).2 (by exact_mod_cast this)
      exact mul_le_mul_of_nonneg_right (by exact_mod_cast this) (le_of_lt hk)
    · refine le_trans (le_of_lt hlt) (mul_le_mul_of_nonneg_right ?_ (le_of_lt hk))
      exact_mod_cast Nat.mul_le_mul_left _ hq1

end Verif.Floatnum
