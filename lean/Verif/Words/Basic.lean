import Verif.Words.Spec
import Verif.Bitvect.Lemmas
namespace Verif.Words
open Verif.Bitvect (getLsbD_ofBits)

theorem size_eq (n : Nat) : size n = (n + 31) / 32 := by unfold size; split <;> omega

theorem size_pos {n : Nat} (h : 0 < n) : 0 < size n := by rw [size_eq]; omega

/-- The number of bits in use in the last word. -/
def used (n : Nat) : Nat := n - 32 * (size n - 1)

theorem used_spec {n : Nat} (h : 0 < n) : 0 < used n ∧ used n ≤ 32 ∧ n = 32 * (size n - 1) + used n := by
  have := size_eq n
  unfold used; omega

theorem used_mod {n : Nat} (h : 0 < n) : used n = if n % 32 = 0 then 32 else n % 32 := by
  have := size_eq n
  unfold used; split <;> omega

theorem ones_bit (i : Nat) : ones.getLsbD i = decide (i < 32) := by
  unfold ones; rw [BitVec.getLsbD_not]; simp

theorem mask_bit {n : Nat} (h : 0 < n) (i : Nat) : (mask n).getLsbD i = decide (i < used n) := by
  rw [used_mod h]
  unfold mask
  by_cases hm : n % 32 = 0
  · simp [hm, ones_bit]
  · have : n % 32 < 32 := Nat.mod_lt _ (by omega)
    simp only [hm, ne_eq, not_false_eq_true, if_true, if_false, BitVec.getLsbD_not, BitVec.getLsbD_shiftLeft,
      ones_bit]
    by_cases h1 : i < 32 <;> by_cases h2 : i < n % 32 <;> simp [h1, h2] <;> omega

theorem mask_toNat {n : Nat} (h : 0 < n) : (mask n).toNat = 2 ^ used n - 1 := by
  apply Nat.eq_of_testBit_eq
  intro i
  rw [Nat.testBit_two_pow_sub_one]
  exact mask_bit h i

theorem topBit_bit {n : Nat} (h : 0 < n) (i : Nat) : (topBit (mask n)).getLsbD i = decide (i + 1 = used n) := by
  obtain ⟨h1, h2, _⟩ := used_spec h
  unfold topBit
  simp only [BitVec.getLsbD_and, BitVec.getLsbD_not, BitVec.getLsbD_ushiftRight, mask_bit h]
  by_cases a : i < used n <;> by_cases b : 1 + i < used n <;> simp [a, b] <;> omega

theorem topBit_eq {n : Nat} (h : 0 < n) : topBit (mask n) = BitVec.twoPow 32 (used n - 1) := by
  obtain ⟨h1, h2, _⟩ := used_spec h
  apply BitVec.eq_of_getLsbD_eq
  intro i hi
  rw [topBit_bit h, BitVec.getLsbD_twoPow]
  by_cases a : i + 1 = used n <;> simp [a] <;> omega

/-- A word ANDed with one bit. -/
theorem and_twoPow_ne {w : W} {i : Nat} (h : i < 32) : (w &&& BitVec.twoPow 32 i ≠ 0#32) ↔ w.getLsbD i = true := by
  rw [BitVec.and_twoPow]
  constructor
  · intro hh
    by_cases hb : w.getLsbD i = true
    · exact hb
    · simp [hb] at hh
  · intro hb
    simp only [hb, if_true]
    intro h0
    have := congrArg (fun v => v.getLsbD i) h0
    simp [h] at this

theorem test_twoPow {w : W} {i : Nat} (h : i < 32) : (!(w &&& BitVec.twoPow 32 i == 0#32)) = w.getLsbD i := by
  rw [Bool.eq_iff_iff, ← and_twoPow_ne h]
  simp

theorem msb_eq : msb = BitVec.twoPow 32 31 := by decide
theorem lsb_eq : lsb = BitVec.twoPow 32 0 := by decide
theorem bitMask_eq (i : Nat) : bitMask i = BitVec.twoPow 32 i := by
  apply BitVec.eq_of_getLsbD_eq
  intro j hj
  simp [bitMask, lsb, BitVec.getLsbD_twoPow, BitVec.getLsbD_shiftLeft, BitVec.getLsbD_one]
  by_cases h : i = j
  · subst h; simp [hj]
  · by_cases h2 : j < i <;> simp [h, h2] <;> omega

/-! ### Values -/

theorem val_append (xs ys : List W) : val (xs ++ ys) = val xs + 2 ^ (32 * xs.length) * val ys := by
  induction xs with
  | nil => simp [val]
  | cons w ws ih =>
    simp only [List.cons_append, val, ih, List.length_cons]
    rw [show 32 * (ws.length + 1) = 32 + 32 * ws.length by omega, Nat.pow_add, Nat.mul_add, ← Nat.mul_assoc]
    omega

theorem val_lt (ws : List W) : val ws < 2 ^ (32 * ws.length) := by
  induction ws with
  | nil => simp [val]
  | cons w ws ih =>
    simp only [val, List.length_cons]
    rw [show 32 * (ws.length + 1) = 32 + 32 * ws.length by omega, Nat.pow_add]
    have := w.isLt
    have h2 : 2 ^ 32 * (val ws + 1) ≤ 2 ^ 32 * 2 ^ (32 * ws.length) := Nat.mul_le_mul_left _ ih
    omega

/-- Bit i of the words. -/
def bit (ws : List W) (i : Nat) : Bool := (ws.getD (i / 32) 0#32).getLsbD (i % 32)

theorem bit_cons_lo (w : W) (ws : List W) {i : Nat} (h : i < 32) : bit (w :: ws) i = w.getLsbD i := by
  simp [bit, Nat.div_eq_of_lt h, Nat.mod_eq_of_lt h]

theorem bit_cons_hi (w : W) (ws : List W) (i : Nat) : bit (w :: ws) (i + 32) = bit ws i := by
  have h1 : (i + 32) / 32 = i / 32 + 1 := by omega
  have h2 : (i + 32) % 32 = i % 32 := by omega
  simp [bit, h1, h2]

theorem testBit_val (ws : List W) (i : Nat) : (val ws).testBit i = bit ws i := by
  induction ws generalizing i with
  | nil => simp [val, bit]
  | cons w ws ih =>
    rw [val, Nat.add_comm, Nat.testBit_two_pow_mul_add _ w.isLt]
    by_cases h : i < 32
    · rw [if_pos h, bit_cons_lo w ws h]; rfl
    · rw [if_neg h, ih]
      rw [show i = (i - 32) + 32 by omega, bit_cons_hi, Nat.add_sub_cancel]

theorem bit_ge (ws : List W) {i : Nat} (h : 32 * ws.length ≤ i) : bit ws i = false := by
  unfold bit
  rw [List.getD_eq_getElem?_getD, List.getElem?_eq_none (by omega)]
  simp

theorem rep_iff {n : Nat} {ws : List W} {x : BitVec n} :
    Rep n ws x ↔ ws.length = size n ∧ ∀ i, bit ws i = x.getLsbD i := by
  constructor
  · rintro ⟨h1, h2⟩
    refine ⟨h1, fun i => ?_⟩
    rw [← testBit_val, h2]; rfl
  · rintro ⟨h1, h2⟩
    refine ⟨h1, Nat.eq_of_testBit_eq fun i => ?_⟩
    rw [testBit_val, h2]; rfl

/-- Enough to look at the bits in use, if the others are 0. -/
theorem rep_of {n : Nat} {ws : List W} {x : BitVec n} (h1 : ws.length = size n)
    (h2 : ∀ i, i < n → bit ws i = x.getLsbD i) (h3 : ∀ i, n ≤ i → i < 32 * size n → bit ws i = false) : Rep n ws x := by
  rw [rep_iff]
  refine ⟨h1, fun i => ?_⟩
  by_cases h : i < n
  · exact h2 i h
  · rw [BitVec.getLsbD_of_ge x i (by omega)]
    by_cases h' : i < 32 * size n
    · exact h3 i (by omega) h'
    · exact bit_ge ws (by omega)

theorem Rep.len {n : Nat} {ws : List W} {x : BitVec n} (h : Rep n ws x) : ws.length = size n := h.1
theorem Rep.val_eq {n : Nat} {ws : List W} {x : BitVec n} (h : Rep n ws x) : val ws = x.toNat := h.2
theorem Rep.bit {n : Nat} {ws : List W} {x : BitVec n} (h : Rep n ws x) (i : Nat) : bit ws i = x.getLsbD i :=
  (rep_iff.mp h).2 i
theorem Rep.ne_nil {n : Nat} {ws : List W} {x : BitVec n} (h : Rep n ws x) (hn : 0 < n) : ws ≠ [] := by
  have := size_pos hn
  have := h.len
  intro h0; subst h0; simp at *; omega
theorem Rep.lt {n : Nat} {ws : List W} {x : BitVec n} (h : Rep n ws x) : val ws < 2 ^ n := by
  rw [h.val_eq]; exact x.isLt

/-- Every number of n bits has its words. -/
theorem exists_rep (n : Nat) (x : BitVec n) :
    Rep n ((List.range (size n)).map fun j => BitVec.ofNat 32 (x.toNat / 2 ^ (32 * j))) x := by
  rw [rep_iff]
  refine ⟨by simp, fun i => ?_⟩
  unfold Words.bit
  have hs := size_eq n
  by_cases h : i / 32 < size n
  · rw [List.getD_eq_getElem?_getD, List.getElem?_map, List.getElem?_range h]
    simp only [Option.map_some, Option.getD_some, BitVec.getLsbD_ofNat, Nat.testBit_div_two_pow]
    rw [show i % 32 + 32 * (i / 32) = i by omega]
    simp only [show decide (i % 32 < 32) = true by simp; omega, Bool.true_and]
    rfl
  · rw [List.getD_eq_getElem?_getD, List.getElem?_eq_none (by simp; omega)]
    simp
    rw [BitVec.getLsbD_of_ge]; omega

/-! ### The last word -/

theorem lastWord_bit {ws : List W} (h : ws ≠ []) {i : Nat} (hi : i < 32) :
    (lastWord ws).getLsbD i = bit ws (32 * (ws.length - 1) + i) := by
  induction ws with
  | nil => exact absurd rfl h
  | cons w ws ih =>
    cases ws with
    | nil => simp [lastWord, bit_cons_lo w [] hi]
    | cons v vs =>
      have := ih (by simp)
      simp only [lastWord, List.getLastD_cons, List.length_cons] at this ⊢
      rw [show 32 * (vs.length + 1 + 1 - 1) + i = (32 * (vs.length + 1 - 1) + i) + 32 by omega, bit_cons_hi]
      exact this

theorem maskLast_length (m : W) (ws : List W) : (maskLast m ws).length = ws.length := by
  induction ws with
  | nil => rfl
  | cons w ws ih =>
    cases ws with
    | nil => rfl
    | cons v vs => simp only [maskLast, List.length_cons] at ih ⊢; omega

theorem fillLast_length (m : W) (ws : List W) : (fillLast m ws).length = ws.length := by
  induction ws with
  | nil => rfl
  | cons w ws ih =>
    cases ws with
    | nil => rfl
    | cons v vs => simp only [fillLast, List.length_cons] at ih ⊢; omega

theorem maskLast_bit (m : W) (ws : List W) (i : Nat) :
    bit (maskLast m ws) i = (bit ws i && (decide (i < 32 * (ws.length - 1)) || m.getLsbD (i - 32 * (ws.length - 1)))) := by
  induction ws generalizing i with
  | nil => simp [maskLast, bit]
  | cons w ws ih =>
    cases ws with
    | nil =>
      simp only [maskLast, List.length_singleton, Nat.sub_self, Nat.mul_zero, Nat.not_lt_zero, decide_false,
        Bool.false_or, Nat.sub_zero]
      by_cases h : i < 32
      · rw [bit_cons_lo _ _ h, bit_cons_lo _ _ h]; simp
      · rw [bit_ge [w] (by simp; omega), bit_ge _ (by simp; omega)]; simp
    | cons v vs =>
      simp only [maskLast]
      by_cases h : i < 32
      · rw [bit_cons_lo _ _ h, bit_cons_lo _ _ h]
        simp; omega
      · obtain ⟨j, rfl⟩ : ∃ j, i = j + 32 := ⟨i - 32, by omega⟩
        rw [bit_cons_hi, bit_cons_hi, ih]
        simp only [List.length_cons]
        congr 2
        · simp; omega
        · congr 1; omega

theorem fillLast_bit (m : W) (ws : List W) (i : Nat) (hi : i < 32 * ws.length) :
    bit (fillLast m ws) i = (bit ws i || (decide (32 * (ws.length - 1) ≤ i) && !m.getLsbD (i - 32 * (ws.length - 1)))) := by
  induction ws generalizing i with
  | nil => simp at hi
  | cons w ws ih =>
    cases ws with
    | nil =>
      simp only [fillLast, List.length_singleton, Nat.sub_self, Nat.mul_zero, Nat.zero_le, decide_true,
        Bool.true_and, Nat.sub_zero]
      have h : i < 32 := by simpa using hi
      rw [bit_cons_lo _ _ h, bit_cons_lo _ _ h]; simp [h]
    | cons v vs =>
      simp only [fillLast]
      by_cases h : i < 32
      · rw [bit_cons_lo _ _ h, bit_cons_lo _ _ h]
        have : ¬ 32 * ((w :: v :: vs).length - 1) ≤ i := by simp only [List.length_cons]; omega
        simp only [this, decide_false, Bool.false_and, Bool.or_false]
      · obtain ⟨j, rfl⟩ : ∃ j, i = j + 32 := ⟨i - 32, by omega⟩
        rw [bit_cons_hi, bit_cons_hi, ih _ (by simp only [List.length_cons] at hi ⊢; omega)]
        simp only [List.length_cons]
        congr 2
        · simp only [decide_eq_decide]; omega
        · congr 2; omega

/-- After `*last &= mask` the bits in use are as before, and the others 0. -/
theorem masked_bit {n : Nat} (hn : 0 < n) {ws : List W} (hl : ws.length = size n) (i : Nat) :
    bit (maskLast (mask n) ws) i = (bit ws i && decide (i < n)) := by
  obtain ⟨h1, h2, h3⟩ := used_spec hn
  rw [maskLast_bit, mask_bit hn, hl]
  congr 1
  by_cases a : i < 32 * (size n - 1) <;> by_cases b : i - 32 * (size n - 1) < used n <;> simp [a, b] <;> omega

/-- The result of masking is a number of n bits. -/
theorem rep_masked {n : Nat} (hn : 0 < n) {ws : List W} {x : BitVec n} (hl : ws.length = size n)
    (h : ∀ i, i < n → bit ws i = x.getLsbD i) : Rep n (maskLast (mask n) ws) x := by
  refine rep_of (by rw [maskLast_length, hl]) ?_ ?_
  · intro i hi
    rw [masked_bit hn hl, h i hi]; simp [hi]
  · intro i hi _
    rw [masked_bit hn hl]; simp; omega

theorem masked_self {n : Nat} (hn : 0 < n) {ws : List W} {x : BitVec n} (h : Rep n ws x) : maskLast (mask n) ws = ws := by
  apply List.ext_getElem (maskLast_length _ _)
  intro j h1 h2
  apply BitVec.eq_of_getLsbD_eq
  intro i hi
  have e : bit (maskLast (mask n) ws) (32 * j + i) = bit ws (32 * j + i) := by
    rw [masked_bit hn h.len, h.bit]
    by_cases hh : 32 * j + i < n
    · simp [hh]
    · rw [BitVec.getLsbD_of_ge _ _ (by omega)]; simp
  unfold Words.bit at e
  rw [show (32 * j + i) / 32 = j by omega, show (32 * j + i) % 32 = i by omega] at e
  rw [List.getD_eq_getElem?_getD, List.getD_eq_getElem?_getD, List.getElem?_eq_getElem h1, List.getElem?_eq_getElem h2] at e
  exact e

/-- The sign bit. -/
theorem top_bit {n : Nat} (hn : 0 < n) {ws : List W} {x : BitVec n} (h : Rep n ws x) :
    (!(lastWord ws &&& topBit (mask n) == 0#32)) = x.msb := by
  obtain ⟨h1, h2, h3⟩ := used_spec hn
  rw [topBit_eq hn, test_twoPow (by omega), lastWord_bit (h.ne_nil hn) (by omega), h.bit, h.len,
    BitVec.msb_eq_getLsbD_last]
  congr 1; omega

end Verif.Words
