import Verif.Intnum.Calc
import Mathlib.Tactic.Ring

set_option linter.unusedSimpArgs false
namespace Verif.Intnum
open Verif.Bitvect

/-! ### size checks -/

theorem shifted_toInt (v : BitVec 256) (k : Nat) :
    (if k > 0 then shrLoop v.msb k v else v).toInt = v.toInt / 2 ^ k := by
  by_cases h : k > 0
  · rw [if_pos h, shrLoop_toInt _ _ (by decide)]
  · have : k = 0 := by omega
    subst this; simp

theorem neg_sub_one_toNat (v : BitVec 256) (h : v.toInt < 0) :
    ((-v - 1#256).toNat : Int) = -v.toInt - 1 := by
  have e : -v - 1#256 = ~~~v := by
    rw [BitVec.neg_eq_not_add, BitVec.add_sub_cancel]
  rw [e, BitVec.toNat_not]
  have hm := (toInt_neg_iff v).2 h
  have ex := toInt_eq_toNat_sub v
  have := v.isLt
  rw [hm] at ex; simp at ex
  omega

theorem setMax_lt_toInt (v : BitVec 256) (h : ¬ v.toInt < 0) (k : Nat) :
    setMax v < (k : Int) ↔ v.toInt < 2 ^ k := by
  rw [setMax_lt_iff]
  have hm : v.msb = false := by
    cases hm : v.msb
    · rfl
    · exact absurd ((toInt_neg_iff v).1 hm) h
  have ex := toInt_eq_toNat_sub v
  rw [hm] at ex; simp at ex
  rw [ex]
  constructor <;> intro h <;> exact_mod_cast h

theorem checkSize_spec (x : Intnum) (size rshift : Nat) (rt : Int) (hf : Fits x) (h1 : 1 ≤ size)
    (h2 : size < 256) :
    checkSize x size rshift rt = true ↔
      (if rt ≤ 0 then 0 ≤ val x / 2 ^ rshift ∧ val x / 2 ^ rshift < 2 ^ size
       else if rt = 1 then -(2 ^ (size - 1)) ≤ val x / 2 ^ rshift ∧ val x / 2 ^ rshift < 2 ^ (size - 1)
       else -(2 ^ (size - 1)) ≤ val x / 2 ^ rshift ∧ val x / 2 ^ rshift < 2 ^ size) := by
  unfold checkSize
  rw [if_neg (by unfold native; omega)]
  have hs := shifted_toInt (tobv x) rshift
  rw [tobv_toInt x hf] at hs
  simp only []
  generalize (if rshift > 0 then shrLoop (tobv x).msb rshift (tobv x) else tobv x) = v at *
  rw [← hs]
  have e : (size : Int) - 1 = ((size - 1 : Nat) : Int) := by omega
  have p1 : (0:Int) < 2 ^ size := Int.pow_pos (by decide)
  have p2 : (0:Int) < 2 ^ (size - 1) := Int.pow_pos (by decide)
  by_cases hn : v.toInt < 0
  · have hm := (toInt_neg_iff v).2 hn
    have hu : ¬ setMax v < (size : Int) := by
      rw [setMax_lt_iff]
      have hmm := hm
      rw [msb_iff] at hmm
      simp at hmm
      have := Nat.pow_le_pow_right (n := 2) (by decide) (show size ≤ 255 by omega)
      omega
    have hneg : setMax (-v - 1#256) < (size : Int) - 1 ↔ -(2 ^ (size - 1)) ≤ v.toInt := by
      rw [e, setMax_lt_iff]
      have := neg_sub_one_toNat v hn
      constructor
      · intro h
        have : ((-v - 1#256).toNat : Int) < 2 ^ (size - 1) := by exact_mod_cast h
        omega
      · intro h
        have : ((-v - 1#256).toNat : Int) < 2 ^ (size - 1) := by omega
        exact_mod_cast this
    by_cases h0 : rt ≤ 0
    · rw [if_neg (by omega), if_pos h0]; simp [hu]; omega
    · rw [if_pos (by omega), if_neg h0, if_pos hm]
      by_cases h1 : rt = 1
      · rw [if_pos h1]; simp only [decide_eq_true_eq, hneg]; omega
      · rw [if_neg h1]; simp only [decide_eq_true_eq, hneg]; omega
  · have hm : ¬ v.msb = true := fun h => hn ((toInt_neg_iff v).1 h)
    have a1 := setMax_lt_toInt v hn size
    have a2 := setMax_lt_toInt v hn (size - 1)
    rw [← e] at a2
    by_cases h0 : rt ≤ 0
    · rw [if_neg (by omega), if_pos h0]; simp only [decide_eq_true_eq, a1]; omega
    · rw [if_pos (by omega), if_neg h0, if_neg hm]
      by_cases h1 : rt = 1
      · rw [if_pos h1, if_pos h1]; simp only [decide_eq_true_eq, a2]; omega
      · rw [if_neg h1, if_neg h1]; simp only [decide_eq_true_eq, a1]; omega

/-! ### buffers -/

theorem blockStore_bit (buf : List (BitVec 8)) (i : Nat) (h : i < 256) :
    (blockStore 256 buf).getLsbD i = bufBit buf i := by
  unfold blockStore bufBit
  rw [getLsbD_ofBits]; simp [h]

theorem blockRead_length (x : BitVec 256) : (blockRead x).length = 32 := by simp [blockRead]

theorem blockRead_bit (x : BitVec 256) (n i : Nat) (h : i < 8 * n) (hn : n ≤ 32) :
    bufBit ((blockRead x).take n) i = x.getLsbD i := by
  unfold bufBit blockRead
  have h1 : i / 8 < n := by omega
  have h2 : i / 8 < 32 := by omega
  rw [List.getD_eq_getElem?_getD, List.getElem?_take, if_pos h1, List.getElem?_map,
    List.getElem?_range (by omega)]
  simp only [Option.map_some, Option.getD_some]
  rw [BitVec.getLsbD_ofNat, Nat.testBit_div_two_pow, BitVec.getLsbD]
  have : i % 8 < 8 := Nat.mod_lt _ (by decide)
  simp only [this, decide_true, Bool.true_and]
  congr 1; omega

/-! ### appending chunks -/

theorem chunkStore_append {n : Nat} (acc : BitVec n) (s i A : Nat) (v : BitVec 64) (hs : s ≤ 64)
    (ha : acc.toNat = A % 2 ^ n) (hA : A < 2 ^ i) :
    (chunkStore acc s i v).toNat = (2 ^ i * (v.toNat % 2 ^ s) + A) % 2 ^ n := by
  apply Nat.eq_of_testBit_eq
  intro j
  rw [Nat.testBit_mod_two_pow]
  by_cases hj : j < n
  · have := getLsbD_chunkStore acc s i v j hj
    rw [BitVec.getLsbD, BitVec.getLsbD, BitVec.getLsbD, ha, Nat.testBit_mod_two_pow] at this
    rw [this, Nat.testBit_two_pow_mul_add _ hA]
    have e : min s 64 = s := by omega
    simp only [hj, decide_true, Bool.true_and, e]
    by_cases hji : j < i
    · rw [if_neg (by omega), if_pos hji]
    · rw [if_neg hji, Nat.testBit_mod_two_pow]
      by_cases h3 : j < i + s
      · rw [if_pos ⟨by omega, h3⟩]
        have : j - i < s := by omega
        simp [this]
      · rw [if_neg (by omega)]
        have : ¬ j - i < s := by omega
        simp [this]
        exact Nat.testBit_lt_two_pow (Nat.lt_of_lt_of_le hA (Nat.pow_le_pow_right (by decide) (by omega)))
  · rw [Nat.testBit_lt_two_pow (Nat.lt_of_lt_of_le (chunkStore acc s i v).isLt
      (Nat.pow_le_pow_right (by decide) (by omega)))]
    simp [hj]

theorem chunkStore_hole {n : Nat} (acc : BitVec n) (k Y : Nat) (c : BitVec 8)
    (ha : acc.toNat = Y * 2 ^ (k + 8) % 2 ^ n) :
    (chunkStore acc 8 k (c.zeroExtend 64)).toNat = (Y * 256 + c.toNat) * 2 ^ k % 2 ^ n := by
  have hc : (c.zeroExtend 64).toNat = c.toNat := by
    have := c.isLt; simp; omega
  have e1 : ∀ j, (Y * 2 ^ (k + 8)).testBit j = (decide (k + 8 ≤ j) && Y.testBit (j - (k + 8))) := by
    intro j; rw [Nat.mul_comm, Nat.testBit_two_pow_mul]
  have e2 : ∀ j, ((Y * 256 + c.toNat) * 2 ^ k).testBit j =
      (decide (k ≤ j) && if j - k < 8 then c.toNat.testBit (j - k) else Y.testBit (j - k - 8)) := by
    intro j
    rw [Nat.mul_comm, Nat.testBit_two_pow_mul]
    congr 1
    have := Nat.testBit_two_pow_mul_add Y (i := 8) (b := c.toNat) c.isLt (j - k)
    rw [show 2 ^ 8 * Y = Y * 256 by rw [Nat.mul_comm]; norm_num] at this
    exact this
  apply Nat.eq_of_testBit_eq
  intro j
  rw [Nat.testBit_mod_two_pow, e2]
  by_cases hj : j < n
  · have := getLsbD_chunkStore acc 8 k (c.zeroExtend 64) j hj
    rw [BitVec.getLsbD, BitVec.getLsbD, BitVec.getLsbD, ha, Nat.testBit_mod_two_pow, hc, e1] at this
    rw [this]
    simp only [hj, decide_true, Bool.true_and, show min 8 64 = 8 by decide]
    by_cases h1 : k ≤ j
    · by_cases h2 : j < k + 8
      · rw [if_pos ⟨h1, h2⟩, if_pos (by omega)]; simp [h1]
      · rw [if_neg (by omega), if_neg (by omega)]
        have : k + 8 ≤ j := by omega
        simp [h1, this]; congr 1
    · rw [if_neg (by omega)]
      have : ¬ k + 8 ≤ j := by omega
      simp [h1, this]
  · rw [Nat.testBit_lt_two_pow (Nat.lt_of_lt_of_le (chunkStore acc 8 k _).isLt
      (Nat.pow_le_pow_right (by decide) (by omega)))]
    simp [hj]

theorem leVal_append (a b : List (BitVec 8)) : leVal (a ++ b) = leVal a + 256 ^ a.length * leVal b := by
  induction a with
  | nil => simp [leVal]
  | cons c cs ih =>
    simp only [List.cons_append, leVal, ih, List.length_cons, Nat.pow_succ]
    rw [Nat.mul_add, ← Nat.mul_assoc, Nat.mul_comm 256 (256 ^ cs.length)]; omega

theorem leVal_lt (a : List (BitVec 8)) : leVal a < 256 ^ a.length := by
  induction a with
  | nil => simp [leVal]
  | cons c cs ih =>
    simp only [leVal, List.length_cons, Nat.pow_succ]
    have := c.isLt; omega

theorem nasmLoop_toNat (l : List (BitVec 8)) (acc : BitVec 256) :
    (nasmLoop l acc).toNat = (acc.toNat * 256 ^ l.length + leVal l.reverse) % 2 ^ 256 := by
  induction l generalizing acc with
  | nil => simp [nasmLoop, leVal]; exact (Nat.mod_eq_of_lt acc.isLt).symm
  | cons c cs ih =>
    have h := chunkStore_hole (moveLeft acc 8) 0 acc.toNat c (by rw [moveLeft_toNat])
    rw [nasmLoop, ih, h, Nat.pow_zero, Nat.mul_one]
    simp only [List.length_cons, List.reverse_cons, leVal_append, List.length_reverse, leVal]
    rw [Nat.pow_succ 256 cs.length]
    generalize 256 ^ cs.length = P
    generalize leVal cs.reverse = R
    generalize 2 ^ 256 = M
    rw [Nat.add_mod, Nat.mod_mul_mod, ← Nat.add_mod]
    congr 1; ring

theorem tasmLoop_toNat (len : Nat) (l : List (BitVec 8)) (i : Nat) (acc : BitVec 256) (X : Nat)
    (hl : i + l.length = len) (ha : acc.toNat = X * 2 ^ (8 * (len - i)) % 2 ^ 256) :
    (tasmLoop len l i acc).toNat = (X * 256 ^ l.length + leVal l.reverse) % 2 ^ 256 := by
  induction l generalizing acc i X with
  | nil =>
    simp only [List.length_nil] at hl
    simp [tasmLoop, leVal]; rw [ha, show len - i = 0 by omega]; simp
  | cons c cs ih =>
    simp only [List.length_cons] at hl
    have h := chunkStore_hole acc ((len - i - 1) * 8) X c
      (by rw [ha]; congr 3; omega)
    rw [tasmLoop, ih (i + 1) _ (X * 256 + c.toNat) (by omega) (by rw [h]; congr 3; omega)]
    simp only [List.length_cons, List.reverse_cons, leVal_append, List.length_reverse, leVal]
    congr 1; ring

theorem sizedRead_toNat (l : List (BitVec 8)) (i A : Nat) (acc : BitVec 256)
    (ha : acc.toNat = A % 2 ^ 256) (hA : A < 256 ^ i) :
    (sizedRead l i acc).toNat = (A + 256 ^ i * leVal l) % 2 ^ 256 := by
  induction l generalizing i A acc with
  | nil => simp [sizedRead, leVal, ha]
  | cons c cs ih =>
    have e : (256:Nat) ^ i = 2 ^ (i * 8) := by
      rw [Nat.mul_comm, Nat.pow_mul]
    have hc : (c.zeroExtend 64).toNat % 2 ^ 8 = c.toNat := by
      have := c.isLt; simp; omega
    have h := chunkStore_append acc 8 (i * 8) A (c.zeroExtend 64) (by decide) ha (by rw [← e]; exact hA)
    rw [hc, ← e] at h
    have hlt : 256 ^ i * c.toNat + A < 256 ^ (i + 1) := by
      have := c.isLt
      rw [Nat.pow_succ]
      calc 256 ^ i * c.toNat + A < 256 ^ i * c.toNat + 256 ^ i := by omega
        _ = 256 ^ i * (c.toNat + 1) := by ring
        _ ≤ 256 ^ i * 256 := Nat.mul_le_mul_left _ (by omega)
    rw [sizedRead, ih (i + 1) _ _ h hlt, leVal]
    congr 1; ring

theorem intervalFill_toInt (v : BitVec 256) (i : Nat) (hi : i < 256) (hv : v.toNat < 2 ^ i) :
    (intervalFill v i 255).toInt = (v.toNat : Int) - 2 ^ i := by
  have hn : (intervalFill v i 255).toNat = 2 ^ i * (2 ^ (256 - i) - 1) + v.toNat := by
    apply Nat.eq_of_testBit_eq
    intro j
    rw [Nat.testBit_two_pow_mul_add _ hv]
    by_cases hj : j < 256
    · have : (intervalFill v i 255).getLsbD j = _ := getLsbD_ofBits _ _ j
      rw [BitVec.getLsbD] at this
      rw [this]
      by_cases h : j < i
      · rw [if_neg (by omega), if_pos h]; simp [hj, BitVec.getLsbD]
      · rw [if_pos (by omega), if_neg h, Nat.testBit_two_pow_sub_one]
        have : j - i < 256 - i := by omega
        simp [hj, this]
    · rw [Nat.testBit_lt_two_pow (Nat.lt_of_lt_of_le (intervalFill v i 255).isLt
        (Nat.pow_le_pow_right (by decide) (by omega))), if_neg (by omega), Nat.testBit_two_pow_sub_one]
      simp; omega
  have hp : 2 ^ i * 2 ^ (256 - i) = 2 ^ 256 := by rw [← Nat.pow_add]; congr 1; omega
  have hp2 : 2 ^ i ≤ 2 ^ 255 := Nat.pow_le_pow_right (by decide) (by omega)
  have hn2 : (intervalFill v i 255).toNat = 2 ^ 256 - 2 ^ i + v.toNat := by
    rw [hn, Nat.mul_sub, hp, Nat.mul_one]
  generalize intervalFill v i 255 = w at *
  have hm : w.msb = true := by rw [msb_iff]; simp; omega
  rw [toInt_eq_toNat_sub, hm, hn2]
  have e : ((2 ^ i : Nat) : Int) = (2:Int) ^ i := by simp
  simp only [if_true]
  rw [← e]; omega


theorem toInt_wrap (v : BitVec 256) : v.toInt = wrap v.toNat := by
  rw [wrap, BitVec.toInt_eq_toNat_bmod]

theorem wrap_mod (n : Nat) : wrap ((n % 2 ^ 256 : Nat) : Int) = wrap n := by
  unfold wrap
  generalize 2 ^ 256 = m
  rw [Int.natCast_emod, Int.emod_bmod]

theorem zext8 (c : BitVec 8) : (c.zeroExtend 64).toNat = c.toNat := by
  have := c.isLt; simp [BitVec.toNat_setWidth]; omega

theorem or_shift8 (x y : BitVec 64) (hx : x.toNat < 2 ^ 40) (hy : y.toNat < 2 ^ 8) :
    ((x <<< 8) ||| y).toNat = x.toNat * 256 + y.toNat := by
  rw [BitVec.toNat_or, BitVec.toNat_shiftLeft, Nat.mod_eq_of_lt (by rw [Nat.shiftLeft_eq]; omega),
    ← Nat.shiftLeft_add_eq_or_of_lt hy, Nat.shiftLeft_eq]

theorem toInt_or2 (a b : BitVec 8) :
    ((a.zeroExtend 64 <<< 8) ||| b.zeroExtend 64).toInt = (a.toNat : Int) * 256 + b.toNat := by
  have := a.isLt; have := b.isLt
  have h := or_shift8 (a.zeroExtend 64) (b.zeroExtend 64) (by rw [zext8]; omega) (by rw [zext8]; omega)
  rw [zext8, zext8] at h
  rw [BitVec.toInt_eq_toNat_of_lt (by omega), h]; push_cast; rfl

theorem toInt_or3 (a b c : BitVec 8) :
    ((((a.zeroExtend 64 <<< 8) ||| b.zeroExtend 64) <<< 8) ||| c.zeroExtend 64).toInt =
      ((a.toNat : Int) * 256 + b.toNat) * 256 + c.toNat := by
  have := a.isLt; have := b.isLt; have := c.isLt
  have h := or_shift8 (a.zeroExtend 64) (b.zeroExtend 64) (by rw [zext8]; omega) (by rw [zext8]; omega)
  rw [zext8, zext8] at h
  have h2 := or_shift8 ((a.zeroExtend 64 <<< 8) ||| b.zeroExtend 64) (c.zeroExtend 64) (by rw [h]; omega)
    (by rw [zext8]; omega)
  rw [h, zext8] at h2
  rw [BitVec.toInt_eq_toNat_of_lt (by omega), h2]; push_cast; rfl

theorem bmod_shift (v m : Nat) (h1 : m ≤ 2 * v) (h2 : v < m) : Int.bmod v m = (v : Int) - m := by
  rw [Int.bmod_def, Int.emod_eq_of_lt (by omega) (by omega), if_neg (by omega)]

theorem leVal_testBit (l : List (BitVec 8)) (i : Nat) : (leVal l).testBit i = bufBit l i := by
  induction l generalizing i with
  | nil => simp [leVal, bufBit]
  | cons b bs ih =>
    have hb := b.isLt
    rw [leVal, show b.toNat + 256 * leVal bs = 2 ^ 8 * leVal bs + b.toNat by omega,
      Nat.testBit_two_pow_mul_add _ hb]
    by_cases h : i < 8
    · rw [if_pos h]; simp [bufBit, Nat.div_eq_of_lt h, Nat.mod_eq_of_lt h, BitVec.getLsbD]
    · rw [if_neg h, ih]
      unfold bufBit
      rw [show i / 8 = (i - 8) / 8 + 1 by omega, show i % 8 = (i - 8) % 8 by omega]
      rfl

theorem leVal_of_bits (l : List (BitVec 8)) (z : Int)
    (h : ∀ i, i < 8 * l.length → bufBit l i = ibit z i) : (leVal l : Int) = z % 2 ^ (8 * l.length) := by
  have hlt := leVal_lt l
  have hz : 0 ≤ z % 2 ^ (8 * l.length) := Int.emod_nonneg _ (by have := Int.pow_pos (n := 2) (m := 8 * l.length) (by decide); omega)
  obtain ⟨n, hn⟩ := Int.eq_ofNat_of_zero_le hz
  rw [hn]
  congr 1
  apply Nat.eq_of_testBit_eq
  intro i
  rw [leVal_testBit]
  have e : (256:Nat) ^ l.length = 2 ^ (8 * l.length) := by
    rw [show 256 = 2 ^ 8 by rfl, ← Nat.pow_mul]
  by_cases hi : i < 8 * l.length
  · rw [h i hi, ← ibit_natCast, ← hn, ← ibit_sub_mul z (z / 2 ^ (8 * l.length)) i _ hi]
    congr 1
    have := Int.emod_add_mul_ediv z (2 ^ (8 * l.length))
    omega
  · rw [← leVal_testBit]
    have hle : 2 ^ (8 * l.length) ≤ 2 ^ i := Nat.pow_le_pow_right (by decide) (by omega)
    have hn2 : n < 2 ^ (8 * l.length) := by
      have := Int.emod_lt_of_pos z (b := 2 ^ (8 * l.length)) (Int.pow_pos (by decide))
      rw [hn] at this; exact_mod_cast this
    rw [Nat.testBit_lt_two_pow (by omega), Nat.testBit_lt_two_pow (by omega)]

end Verif.Intnum
