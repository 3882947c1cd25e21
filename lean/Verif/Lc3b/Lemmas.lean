import Verif.Lc3b.Spec
import Verif.Intnum.Props
namespace Verif.Lc3b
open Verif.Intnum
open Verif.Bitvect (ibit)

/-! ### Numbers -/

theorem fits_one : Fits (.L 1#64) := by unfold Fits; decide
theorem fits_neg : Fits (.L (-1#64)) := by unfold Fits; decide

theorem shr_canon (x : Intnum) (h : Fits x) : Canon (calcI x .SHR (.L 1#64)) ∧ val (calcI x .SHR (.L 1#64)) = val x / 2 := by
  obtain ⟨r, e, o, c⟩ := calc_value_partial 0#256 .SHR x (.L 1#64) h fits_one (by unfold Numeric; decide) (by intro h; simp [IsDiv] at h)
    (by intro h; cases h) (fun _ => Or.inr ⟨_, rfl⟩)
  unfold calcI
  rw [e]
  refine ⟨c, ?_⟩
  have o : val r = if val (.L 1#64) < 0 then 0 else val x / 2 ^ (val (.L 1#64)).toNat := o
  have v1 : val (.L 1#64) = 1 := by decide
  rw [v1] at o
  simpa using o

theorem shr_one (x : Intnum) (h : Fits x) : Fits (calcI x .SHR (.L 1#64)) ∧ val (calcI x .SHR (.L 1#64)) = val x / 2 :=
  ⟨(shr_canon x h).1.fits, (shr_canon x h).2⟩

theorem getInt_small (x : Intnum) (h : Canon x) (hs : -(2 ^ 31) < val x ∧ val x < 2 ^ 31) : (getInt x).toInt = val x := by
  cases x with
  | L l => rfl
  | BV v =>
    have h : v.toInt ≤ -(2 ^ 31) ∨ 2 ^ 31 ≤ v.toInt := h
    have hs : -(2 ^ 31) < v.toInt ∧ v.toInt < 2 ^ 31 := hs
    omega

theorem wrap_small (z : Int) (h : -(2 ^ 255) ≤ z ∧ z < 2 ^ 255) : wrap z = z := by
  unfold wrap
  exact Int.bmod_eq_of_le (by omega) (by omega)

theorem add_small (x y : Intnum) (hx : Fits x) (hy : Fits y) (h : -(2 ^ 255) ≤ val x + val y ∧ val x + val y < 2 ^ 255) :
    Fits (calcI x .ADD y) ∧ val (calcI x .ADD y) = val x + val y := by
  obtain ⟨r, e, o, c⟩ := calc_value_partial 0#256 .ADD x y hx hy (by unfold Numeric; decide) (by intro h; simp [IsDiv] at h)
    (by intro h; cases h) (by intro h; cases h)
  unfold calcI
  rw [e]
  refine ⟨c.fits, ?_⟩
  have o : val r = wrap (val x + val y) := o
  rw [wrap_small _ h] at o
  exact o

theorem uint_small (n : Nat) (h : n < 2 ^ 32) : Fits (createUint (BitVec.ofNat 64 n)) ∧ val (createUint (BitVec.ofNat 64 n)) = n := by
  have h0 : (BitVec.ofNat 64 n).toNat = n := by rw [BitVec.toNat_ofNat]; omega
  have h2 : (BitVec.ofNat 64 n).toInt = n := by rw [BitVec.toInt_eq_toNat_of_lt (by omega), h0]
  unfold createUint
  rw [if_neg (by omega)]
  refine ⟨?_, h2⟩
  simp only [Fits, h2]
  omega

theorem distance_val (d : Int) (h : -(2 ^ 31) ≤ d ∧ d < 2 ^ 31) : Fits (distance d) ∧ val (distance d) = d := by
  unfold distance
  by_cases hd : d < 0
  · rw [if_pos hd]
    obtain ⟨n, hn⟩ := Int.eq_ofNat_of_zero_le (show 0 ≤ -d by omega)
    rw [hn, BitVec.ofInt_natCast]
    obtain ⟨f, v⟩ := uint_small n (by omega)
    obtain ⟨r, e, o, c⟩ := calc_unary 0#256 .NEG _ f (Or.inl rfl)
    rw [e]
    refine ⟨c.fits, ?_⟩
    have o : val r = wrap (-val (createUint (BitVec.ofNat 64 n))) := o 0
    rw [v, wrap_small _ (by omega)] at o
    show val r = d
    omega
  · rw [if_neg hd]
    obtain ⟨n, hn⟩ := Int.eq_ofNat_of_zero_le (show 0 ≤ d by omega)
    rw [hn, BitVec.ofInt_natCast]
    exact uint_small n (by omega)

/-! ### A number in a word -/

/-- The word after a field is filled. -/
def filled (o n : Nat) (v : Int) : Nat := o / 2 ^ n * 2 ^ n + (v % 2 ^ n).toNat

theorem bufBit_word (o i : Nat) (h : i < 16) : bufBit [BitVec.ofNat 8 o, BitVec.ofNat 8 (o / 256)] i = o.testBit i := by
  have e := leVal_testBit [BitVec.ofNat 8 o, BitVec.ofNat 8 (o / 256)] i
  rw [← e]
  have : leVal [BitVec.ofNat 8 o, BitVec.ofNat 8 (o / 256)] = o % 2 ^ 16 := by
    simp only [leVal, BitVec.toNat_ofNat]
    omega
  rw [this, Nat.testBit_mod_two_pow]
  simp [h]

theorem filled_testBit (o n i : Nat) (v : Int) : (filled o n v).testBit i = if i < n then ibit v i else o.testBit i := by
  unfold filled
  have hp : (0 : Int) < 2 ^ n := Int.pow_pos (by decide)
  have h0 : 0 ≤ v % 2 ^ n := Int.emod_nonneg _ (by omega)
  have h1 := Int.emod_lt_of_pos v hp
  have hlt : (v % 2 ^ n).toNat < 2 ^ n := by
    have : ((v % 2 ^ n).toNat : Int) < ((2 ^ n : Nat) : Int) := by rw [Int.toNat_of_nonneg h0]; push_cast; exact h1
    exact_mod_cast this
  rw [Nat.mul_comm, Nat.testBit_two_pow_mul_add _ hlt]
  by_cases h : i < n
  · rw [if_pos h, if_pos h, ← Verif.Bitvect.ibit_natCast, Int.toNat_of_nonneg h0]
    rw [← Verif.Bitvect.ibit_sub_mul v (v / 2 ^ n) i n h]
    congr 1
    have := Int.emod_add_mul_ediv v (2 ^ n)
    omega
  · rw [if_neg h, if_neg h, Nat.testBit_div_two_pow]
    congr 1
    omega

theorem list_two {α : Type} (l : List α) (h : l.length = 2) : ∃ a b, l = [a, b] := by
  match l, h with
  | [a, b], _ => exact ⟨a, b, rfl⟩

/-- Writing a number into the low bits of a word. -/
theorem put_word (x : Intnum) (hx : Fits x) (o n : Nat) (ho : o < 65536) (hn : 1 ≤ n) (hn' : n ≤ 16) (sign : Bool) :
    ∃ out a b, getSized x [BitVec.ofNat 8 o, BitVec.ofNat 8 (o / 256)] n 0 false (if sign then -1 else 1) = some out ∧ out.buf = [a, b] ∧
      a.toNat + 256 * b.toNat = filled o n (val x) ∧
      (out.warns = [] ↔ -(2 ^ (n - 1)) ≤ val x ∧ val x < if sign then 2 ^ (n - 1) else 2 ^ n) := by
  obtain ⟨out, e, hl, hb⟩ := get_sized_field x [BitVec.ofNat 8 o, BitVec.ofNat 8 (o / 256)] n 0 (if sign then -1 else 1) hx (by simp)
  obtain ⟨a, b, hab⟩ := list_two out.buf (by rw [hl]; rfl)
  obtain ⟨w1, w2, w3⟩ := get_sized_warns x _ n 0 (if sign then -1 else 1) hx hn (by omega) (by decide) out e
  refine ⟨out, a, b, e, hab, ?_, ?_⟩
  · have hlv : a.toNat + 256 * b.toNat = leVal out.buf := by rw [hab]; simp [leVal]
    rw [hlv]
    apply Nat.eq_of_testBit_eq
    intro i
    rw [leVal_testBit, filled_testBit]
    by_cases hi : i < 16
    · rw [hb i (by simpa using hi)]
      simp only [Int.toNat_zero, Nat.zero_le, true_and, Nat.zero_add, Int.neg_zero, pow_zero, Int.ediv_one, Nat.sub_zero]
      rw [bufBit_word _ _ hi]
    · rw [if_neg (by omega)]
      have h1 : o.testBit i = false := Nat.testBit_lt_two_pow (Nat.lt_of_lt_of_le ho (show 65536 ≤ 2 ^ i from
        Nat.le_trans (by decide : 65536 ≤ 2 ^ 16) (Nat.pow_le_pow_right (by decide) (by omega))))
      rw [h1, hab]
      unfold bufBit
      have : [a, b].getD (i / 8) 0#8 = 0#8 := by
        have : 2 ≤ i / 8 := by omega
        simp [List.getD, List.getElem?_eq_none (show [a, b].length ≤ i / 8 by simpa using this)]
      rw [this]
      simp
  · simp only [Int.neg_zero, Int.toNat_zero, pow_zero, Int.ediv_one, Int.emod_one] at w1 w2 w3
    constructor
    · intro hw
      rw [hw] at w1 w2
      cases sign with
      | true =>
        simp only [if_true] at w1 ⊢
        by_contra hc
        exact absurd (w1.2 ⟨by decide, hc⟩) (by simp)
      | false =>
        simp only [Bool.false_eq_true, if_false] at w2 ⊢
        by_contra hc
        exact absurd (w2.2 ⟨by decide, hc⟩) (by simp)
    · intro hr
      rw [List.eq_nil_iff_forall_not_mem]
      intro w hw
      cases w with
      | signedField =>
        obtain ⟨q1, q2⟩ := w1.1 hw
        cases sign with
        | true => exact q2 hr
        | false => simp at q1
      | field =>
        obtain ⟨q1, q2⟩ := w2.1 hw
        cases sign with
        | true => simp at q1
        | false => exact q2 hr
      | misaligned => exact absurd rfl (w3.1 hw).2

/-- The same for what is read: low bits and the rest. -/
theorem filled_mod (o n : Nat) (v : Int) : ((filled o n v) % 2 ^ n : Nat) = v % 2 ^ n ∧ filled o n v / 2 ^ n = o / 2 ^ n := by
  unfold filled
  have hp : (0 : Int) < 2 ^ n := Int.pow_pos (by decide)
  have h0 : 0 ≤ v % 2 ^ n := Int.emod_nonneg _ (by omega)
  have h1 := Int.emod_lt_of_pos v hp
  have hlt : (v % 2 ^ n).toNat < 2 ^ n := by
    have : ((v % 2 ^ n).toNat : Int) < ((2 ^ n : Nat) : Int) := by rw [Int.toNat_of_nonneg h0]; push_cast; exact h1
    exact_mod_cast this
  constructor
  · rw [Nat.add_comm, Nat.add_mul_mod_self_right, Nat.mod_eq_of_lt hlt, Int.toNat_of_nonneg h0]
  · rw [Nat.add_comm, Nat.add_mul_div_right _ _ (Nat.two_pow_pos n), Nat.div_eq_of_lt hlt, Nat.zero_add]

end Verif.Lc3b
