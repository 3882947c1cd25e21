import Verif.Bitvect.Lemmas

set_option linter.unusedSimpArgs false
namespace Verif.Bitvect

/-- Bit i of the infinite two's complement representation of an integer. -/
def ibit (z : Int) (i : Nat) : Bool := decide (z / 2 ^ i % 2 = 1)

theorem ibit_natCast (x i : Nat) : ibit (x : Int) i = x.testBit i := by
  unfold ibit
  rw [Nat.testBit_eq_decide_div_mod_eq]
  have : ((x : Int) / 2 ^ i % 2) = ((x / 2 ^ i % 2 : Nat) : Int) := by push_cast; rfl
  rw [this]
  by_cases h : x / 2 ^ i % 2 = 1
  · simp [h]
  · have : ¬ ((x / 2 ^ i % 2 : Nat) : Int) = 1 := by omega
    simp only [decide_eq_false this, decide_eq_false h]

theorem ibit_sub_mul (z k : Int) (i n : Nat) (h : i < n) : ibit (z - 2 ^ n * k) i = ibit z i := by
  unfold ibit
  have e : (2:Int) ^ n = 2 ^ i * (2 * 2 ^ (n - i - 1)) := by
    rw [← Int.mul_assoc, ← Int.pow_succ, ← Int.pow_add]; congr 1; omega
  have hp : (2:Int) ^ i ≠ 0 := by
    have : (0:Int) < 2 ^ i := Int.pow_pos (by decide)
    omega
  have : z - 2 ^ n * k = z + 2 ^ i * (-(2 * (2 ^ (n - i - 1) * k))) := by
    rw [e]; simp only [Int.mul_assoc, Int.mul_neg]; omega
  rw [this, Int.add_mul_ediv_left _ _ hp]
  congr 2; omega

theorem toInt_eq_toNat_sub {n : Nat} (v : BitVec n) :
    v.toInt = (v.toNat : Int) - 2 ^ n * (if v.msb then 1 else 0) := by
  rw [BitVec.toInt_eq_msb_cond]
  cases v.msb <;> simp

theorem getLsbD_eq_ibit {n : Nat} (v : BitVec n) (i : Nat) (h : i < n) :
    v.getLsbD i = ibit v.toInt i := by
  rw [toInt_eq_toNat_sub, ibit_sub_mul _ _ _ _ h, ibit_natCast, BitVec.getLsbD]

theorem ibit_ge {n : Nat} (v : BitVec n) (i : Nat) (h : n ≤ i) : ibit v.toInt i = v.msb := by
  have hx := v.isLt
  have hp : (0:Int) < 2 ^ i := Int.pow_pos (by decide)
  have hle : (2:Int) ^ n ≤ 2 ^ i := by
    have := Nat.pow_le_pow_right (n := 2) (by decide) h
    exact_mod_cast this
  have e : ((2 ^ n : Nat) : Int) = (2:Int) ^ n := by simp
  rw [toInt_eq_toNat_sub]
  unfold ibit
  cases v.msb
  · have : ((v.toNat : Int) - 2 ^ n * (if false = true then 1 else 0)) / 2 ^ i = 0 := by
      simp; apply Int.ediv_eq_zero_of_lt <;> omega
    rw [this]; rfl
  · have : ((v.toNat : Int) - 2 ^ n * (if true = true then 1 else 0)) / 2 ^ i = -1 := by
      simp
      have h1 : (v.toNat : Int) - 2 ^ n = ((v.toNat : Int) - 2 ^ n + 2 ^ i) + 2 ^ i * (-1) := by omega
      rw [h1, Int.add_mul_ediv_left _ _ (by omega), Int.ediv_eq_zero_of_lt (by omega) (by omega)]; rfl
    rw [this]; rfl

/-- Two integers of the same width are equal when all bits below the width are. -/
theorem toInt_bits {n : Nat} (v : BitVec n) (i : Nat) :
    ibit v.toInt i = if i < n then v.getLsbD i else v.msb := by
  by_cases h : i < n
  · rw [if_pos h, getLsbD_eq_ibit v i h]
  · rw [if_neg h, ibit_ge v i (by omega)]

theorem ibit_ediv (z : Int) (k i : Nat) : ibit (z / 2 ^ k) i = ibit z (k + i) := by
  unfold ibit
  rw [Int.pow_add, Int.ediv_ediv_of_nonneg (Int.le_of_lt (Int.pow_pos (by decide)))]

/-! ### shifting -/

theorem getLsbD_shr1 {n : Nat} (x : BitVec n) (c : Bool) (i : Nat) (h : i < n) :
    (shr1 x c).getLsbD i = if i = n - 1 then c else x.getLsbD (i + 1) := by
  unfold shr1
  rw [BitVec.getLsbD_or, BitVec.getLsbD_ushiftRight]
  by_cases hi : i = n - 1
  · have h1 : x.getLsbD (1 + i) = false := BitVec.getLsbD_of_ge _ _ (by omega)
    rw [h1, if_pos hi]
    cases c
    · simp
    · simp [BitVec.getLsbD_shiftLeft, hi]; omega
  · rw [if_neg hi, Nat.add_comm]
    cases c
    · simp
    · simp [BitVec.getLsbD_shiftLeft]; omega

theorem shr1_msb {n : Nat} (x : BitVec n) (c : Bool) (h : 0 < n) : (shr1 x c).msb = c := by
  rw [BitVec.msb_eq_getLsbD_last, getLsbD_shr1 _ _ _ (by omega), if_pos rfl]

theorem shr1_eq {n : Nat} (x : BitVec n) : shr1 x x.msb = x.sshiftRight 1 := by
  apply BitVec.eq_of_getLsbD_eq
  intro i hi
  rw [getLsbD_shr1 _ _ _ hi, BitVec.getLsbD_sshiftRight]
  by_cases h : i = n - 1
  · have : ¬ (1 + i < n) := by omega
    have h2 : ¬ (n ≤ i) := by omega
    rw [if_pos h, if_neg this]; simp [h2]
  · have : 1 + i < n := by omega
    have h2 : ¬ (n ≤ i) := by omega
    rw [if_neg h, if_pos this, Nat.add_comm]; simp [h2]

theorem shrLoop_eq {n : Nat} (k : Nat) (x : BitVec n) (hn : 0 < n) :
    shrLoop x.msb k x = x.sshiftRight k := by
  induction k generalizing x with
  | zero => simp [shrLoop]
  | succ k ih =>
    rw [shrLoop]
    have hm : (shr1 x x.msb).msb = x.msb := shr1_msb x _ hn
    have := ih (shr1 x x.msb)
    rw [hm] at this
    rw [this, shr1_eq, ← BitVec.sshiftRight_add, Nat.add_comm]

theorem shrLoop_toInt {n : Nat} (k : Nat) (x : BitVec n) (hn : 0 < n) :
    (shrLoop x.msb k x).toInt = x.toInt / 2 ^ k := by
  rw [shrLoop_eq k x hn, BitVec.toInt_sshiftRight, Int.shiftRight_eq_div_pow]
  simp only [Int.natCast_pow]; rfl

theorem moveLeft_toNat {n : Nat} (x : BitVec n) (k : Nat) :
    (moveLeft x k).toNat = x.toNat * 2 ^ k % 2 ^ n := by
  unfold moveLeft
  by_cases h0 : k = 0
  · simp [h0, Nat.mod_eq_of_lt x.isLt]
  rw [if_neg h0]
  by_cases hk : k ≥ n
  · rw [if_pos hk]
    have : 2 ^ k = 2 ^ n * 2 ^ (k - n) := by rw [← Nat.pow_add]; congr 1; omega
    rw [this, ← Nat.mul_assoc, Nat.mul_comm x.toNat, Nat.mul_assoc, Nat.mul_mod_right]; simp
  · rw [if_neg hk, ← BitVec.shiftLeft_add, Nat.mod_add_div, BitVec.toNat_shiftLeft, Nat.shiftLeft_eq]

theorem moveLeft_eq {n : Nat} (x : BitVec n) (k : Nat) :
    moveLeft x k = BitVec.ofInt n (x.toInt * 2 ^ k) := by
  apply BitVec.eq_of_toNat_eq
  rw [moveLeft_toNat, BitVec.toNat_ofInt, toInt_eq_toNat_sub]
  have e : ((x.toNat : Int) - 2 ^ n * (if x.msb = true then 1 else 0)) * 2 ^ k =
      ((x.toNat * 2 ^ k : Nat) : Int) + ((2 ^ n : Nat) : Int) * (-(if x.msb = true then 1 else 0) * 2 ^ k) := by
    rw [Int.sub_mul]; push_cast
    simp only [Int.neg_mul, Int.mul_neg, Int.mul_assoc]; omega
  rw [e, Int.add_mul_emod_self_left]
  omega

/-! ### comparison -/

theorem cmp_spec {n : Nat} (x y : BitVec n) :
    cmp x y = if x.toInt < y.toInt then -1 else if x.toInt = y.toInt then 0 else 1 := by
  unfold cmp
  have hx := x.isLt
  have hy := y.isLt
  have e : ((2 ^ n : Nat) : Int) = (2:Int) ^ n := by simp
  have ex := toInt_eq_toNat_sub x
  have ey := toInt_eq_toNat_sub y
  have mx := msb_iff x
  have my := msb_iff y
  cases h1 : x.msb <;> cases h2 : y.msb <;> rw [h1] at ex mx <;> rw [h2] at ey my <;> simp at mx my ex ey ⊢ <;>
    (repeat' split) <;> omega

theorem sign_spec {n : Nat} (x : BitVec n) :
    sign x = if x.toInt < 0 then -1 else if x.toInt = 0 then 0 else 1 := by
  unfold sign
  have h0 := toInt_ne_zero x
  have hm := toInt_neg_iff x
  by_cases h : x.toNat = 0
  · rw [if_pos h]; rw [h0.2 h]; rfl
  · have h0' : x.toInt ≠ 0 := fun hh => h (h0.1 hh)
    rw [if_neg h]
    by_cases hmm : x.msb = true
    · rw [if_pos hmm, if_pos (hm.1 hmm)]
    · rw [if_neg hmm, if_neg (fun hh => hmm (hm.2 hh)), if_neg h0']

/-! ### chunks -/

theorem getLsbD_chunkStore {n : Nat} (x : BitVec n) (size off : Nat) (v : BitVec 64) (i : Nat) (hi : i < n) :
    (chunkStore x size off v).getLsbD i =
      if off ≤ i ∧ i < off + min size 64 then v.getLsbD (i - off) else x.getLsbD i := by
  unfold chunkStore
  rw [getLsbD_ofBits]
  simp only [hi, decide_true, Bool.true_and]
  by_cases h : off ≤ i ∧ i < off + min size 64
  · rw [if_pos h, if_pos ⟨h.1, h.2, by omega⟩]
  · rw [if_neg h, if_neg (fun hh => h ⟨hh.1, hh.2.1⟩)]

theorem chunkRead_toNat {n : Nat} (x : BitVec n) (size off : Nat) :
    (chunkRead x size off).toNat = x.toNat / 2 ^ off % 2 ^ min size 64 := by
  unfold chunkRead
  rw [BitVec.toNat_ofNat]
  apply Nat.mod_eq_of_lt
  apply Nat.lt_of_lt_of_le (Nat.mod_lt _ (Nat.two_pow_pos _))
  exact Nat.pow_le_pow_right (by decide) (by omega)

theorem chunkStore_zero_toNat (n : Nat) (v : BitVec 64) (s : Nat) (hs : s ≤ 64) (hn : s ≤ n) :
    (chunkStore 0#n s 0 v).toNat = v.toNat % 2 ^ s := by
  apply Nat.eq_of_testBit_eq
  intro i
  rw [Nat.testBit_mod_two_pow]
  by_cases hi : i < n
  · have := getLsbD_chunkStore 0#n s 0 v i hi
    rw [BitVec.getLsbD] at this
    rw [this]
    have e : min s 64 = s := by omega
    simp only [Nat.zero_le, true_and, e, Nat.zero_add, Nat.sub_zero]
    by_cases h : i < s
    · simp [h, BitVec.getLsbD]
    · simp [h]
  · rw [Nat.testBit_lt_two_pow (Nat.lt_of_lt_of_le (chunkStore 0#n s 0 v).isLt
      (Nat.pow_le_pow_right (by decide) (by omega)))]
    have : ¬ i < s := by omega
    simp [this]

end Verif.Bitvect
