import Verif.Words.Simple
namespace Verif.Words
open Verif.Bitvect (msb_iff)

/-! ### One word -/

theorem and_lsb (w : W) : (w &&& lsb).toNat = w.toNat % 2 := by
  rw [BitVec.toNat_and]
  exact Nat.and_two_pow_sub_one_eq_mod w.toNat 1

theorem shl_or (a b : W) (hb : b.toNat < 2) : ((a <<< 1) ||| b).toNat = 2 * a.toNat % 2 ^ 32 + b.toNat := by
  rw [BitVec.toNat_or, BitVec.toNat_shiftLeft]
  have h : a.toNat <<< 1 % 2 ^ 32 = 2 ^ 1 * (a.toNat % 2 ^ 31) := by
    rw [Nat.shiftLeft_eq]; omega
  rw [h, ← Nat.two_pow_add_eq_or_of_lt (show b.toNat < 2 ^ 1 by omega)]
  omega

theorem msb_ne (w : W) : (w &&& msb ≠ 0#32) ↔ 2 ^ 31 ≤ w.toNat := by
  rw [msb_eq, and_twoPow_ne (by omega)]
  rw [show w.getLsbD 31 = w.msb by rw [BitVec.msb_eq_getLsbD_last], msb_iff]
  simp only [decide_eq_true_iff]
  omega

/-- `y + z + carry`, or `y - z - borrow` as `y + NOT z + carry`, in one full word. -/
theorem fullStep_spec (minus : Bool) (y z cc : W) (hc : cc.toNat ≤ 1) :
    (fullStep minus y z cc).2.toNat ≤ 1 ∧
      (fullStep minus y z cc).1.toNat + 2 ^ 32 * (fullStep minus y z cc).2.toNat =
        y.toNat + (if minus then ~~~z else z).toNat + cc.toNat := by
  unfold fullStep
  generalize (if minus then ~~~z else z) = zz
  have hy := y.isLt
  have hz := zz.isLt
  have hlo : ((y &&& lsb) + (zz &&& lsb) + cc).toNat = y.toNat % 2 + zz.toNat % 2 + cc.toNat := by
    rw [BitVec.toNat_add, BitVec.toNat_add, and_lsb, and_lsb]; omega
  generalize hl : (y &&& lsb) + (zz &&& lsb) + cc = lo at hlo
  have hhi : ((y >>> 1) + (zz >>> 1) + (lo >>> 1)).toNat = y.toNat / 2 + zz.toNat / 2 + lo.toNat / 2 := by
    rw [BitVec.toNat_add, BitVec.toNat_add, BitVec.toNat_ushiftRight, BitVec.toNat_ushiftRight,
      BitVec.toNat_ushiftRight]
    simp only [Nat.shiftRight_eq_div_pow]
    omega
  simp only [hl]
  generalize (y >>> 1) + (zz >>> 1) + (lo >>> 1) = hi at hhi
  have h1 : ((hi <<< 1) ||| (lo &&& lsb)).toNat = 2 * hi.toNat % 2 ^ 32 + lo.toNat % 2 := by
    rw [shl_or _ _ (by rw [and_lsb]; omega), and_lsb]
  rw [h1]
  by_cases hm : 2 ^ 31 ≤ hi.toNat
  · rw [if_pos ((msb_ne hi).mpr hm)]
    exact ⟨by decide, by rw [show (1#32).toNat = 1 from rfl]; omega⟩
  · rw [if_neg (fun h => hm ((msb_ne hi).mp h))]
    exact ⟨by decide, by rw [show (0#32).toNat = 0 from rfl]; omega⟩

/-- `w AND (2^k - 1)` -/
theorem and_mask (w m : W) (k : Nat) (hm : m.toNat = 2 ^ k - 1) : (w &&& m).toNat = w.toNat % 2 ^ k := by
  rw [BitVec.toNat_and, hm]
  exact Nat.and_two_pow_sub_one_eq_mod w.toNat k

theorem pow_lt32 {k : Nat} (h : k ≤ 32) : 2 ^ k ≤ 2 ^ 32 := Nat.pow_le_pow_right (by omega) h

/-- What the last word should be: the sum modulo 2^k, the carry out, and the overflow: the operands have the same
    sign and the result another one. -/
structure TopOk (k : Nat) (y z c : Nat) (r : W × W × W) : Prop where
  word : r.1.toNat = (y + z + c) % 2 ^ k
  carry : (r.2.1 ≠ 0#32) ↔ 2 ^ k ≤ y + z + c
  over : (r.2.2 ≠ 0#32) ↔
    (2 ^ k ≤ 2 * y ↔ 2 ^ k ≤ 2 * z) ∧ ¬ (2 ^ k ≤ 2 * y ↔ 2 ^ k ≤ 2 * ((y + z + c) % 2 ^ k))

theorem toNat_ne_zero (w : W) : w ≠ 0#32 ↔ w.toNat ≠ 0 := by
  constructor
  · intro h h0; exact h (BitVec.eq_of_toNat_eq (by simpa using h0))
  · intro h h0; subst h0; simp at h

theorem topOne_spec (yy zz cc : W) (hy : yy.toNat < 2) (hz : zz.toNat < 2) (hc : cc.toNat ≤ 1) :
    TopOk 1 yy.toNat zz.toNat cc.toNat (topOne yy zz cc) := by
  have h : ∀ y z c : Fin 2, ((topOne (BitVec.ofNat 32 y) (BitVec.ofNat 32 z) (BitVec.ofNat 32 c)).1.toNat = (y.val + z.val + c.val) % 2) ∧
      ((topOne (BitVec.ofNat 32 y) (BitVec.ofNat 32 z) (BitVec.ofNat 32 c)).2.1 ≠ 0#32 ↔ 2 ≤ y.val + z.val + c.val) ∧
      ((topOne (BitVec.ofNat 32 y) (BitVec.ofNat 32 z) (BitVec.ofNat 32 c)).2.2 ≠ 0#32 ↔
        (2 ≤ 2 * y.val ↔ 2 ≤ 2 * z.val) ∧ ¬ (2 ≤ 2 * y.val ↔ 2 ≤ 2 * ((y.val + z.val + c.val) % 2))) := by decide
  have := h ⟨yy.toNat, hy⟩ ⟨zz.toNat, hz⟩ ⟨cc.toNat, by omega⟩
  simp only [BitVec.ofNat_toNat, BitVec.setWidth_eq] at this
  exact ⟨this.1, this.2.1, this.2.2⟩

/-- Testing one bit of a number. -/
theorem and_pow_bit (a j : Nat) : (a &&& 2 ^ j ≠ 0) ↔ a.testBit j = true := by
  constructor
  · intro h
    apply Decidable.byContradiction
    intro hb
    apply h
    apply Nat.eq_of_testBit_eq
    intro i
    rw [Nat.testBit_and, Nat.testBit_two_pow, Nat.zero_testBit]
    by_cases e : j = i
    · subst e; simp at hb; simp [hb]
    · simp [e]
  · intro hb h
    have := congrArg (fun v => v.testBit j) h
    simp [Nat.testBit_and, hb, Nat.testBit_two_pow] at this

theorem and_pow_ne (a j : Nat) : (a &&& 2 ^ j ≠ 0) ↔ a / 2 ^ j % 2 = 1 := by
  rw [and_pow_bit, Nat.testBit_eq_decide_div_mod_eq]
  simp

/-- `a / P % 2` for `a < 4 P`. -/
theorem quarter (P a : Nat) (h4 : a < 4 * P) :
    a / P % 2 = 1 ↔ (P ≤ a ∧ a < 2 * P) ∨ 3 * P ≤ a := by
  have hP : 0 < P := by omega
  rcases Nat.lt_or_ge a P with h | h
  · rw [Nat.div_eq_of_lt h]; simp; omega
  rcases Nat.lt_or_ge a (2 * P) with h' | h'
  · rw [Nat.div_eq_of_lt_le (k := 1) (by omega) (by omega)]; simp; omega
  rcases Nat.lt_or_ge a (3 * P) with h'' | h''
  · rw [Nat.div_eq_of_lt_le (k := 2) (by omega) (by omega)]; simp; omega
  · rw [Nat.div_eq_of_lt_le (k := 3) (by omega) (by omega)]; simp; omega

/-- Remainder by `P` of a number below `2 P`. -/
theorem mod_two (P a : Nat) (h : a < 2 * P) : a % P = if a < P then a else a - P := by
  split
  · exact Nat.mod_eq_of_lt ‹_›
  · rw [Nat.mod_eq_sub_mod (by omega), Nat.mod_eq_of_lt (by omega)]

/-- Carry into and out of the sign bit. -/
theorem carries (P y z c : Nat) (hy : y < 2 * P) (hz : z < 2 * P) (hc : c ≤ 1) (hP : 0 < P) :
    let v := y % P + z % P + c
    ((2 * P ≤ 2 * y ↔ 2 * P ≤ 2 * z) ∧ ¬ (2 * P ≤ 2 * y ↔ 2 * P ≤ 2 * ((y + z + c) % (2 * P)))) ↔
      ¬ (P ≤ v ↔ 2 * P ≤ y + z + c) := by
  intro v
  have hv : v = y % P + z % P + c := rfl
  rw [mod_two P y hy, mod_two P z hz] at hv
  rw [mod_two (2 * P) (y + z + c) (by omega)]
  split at hv <;> split at hv <;> split <;> omega

theorem topSome_spec (k : Nat) (m yy zz cc : W) (hk1 : 2 ≤ k) (hk : k ≤ 31) (hm : m.toNat = 2 ^ k - 1)
    (htop : m &&& ~~~(m >>> 1) = BitVec.twoPow 32 (k - 1))
    (hy : yy.toNat < 2 ^ k) (hz : zz.toNat < 2 ^ k) (hc : cc.toNat ≤ 1) :
    TopOk k yy.toNat zz.toNat cc.toNat (topSome m yy zz cc) := by
  have hP : (2 : Nat) ^ k = 2 * 2 ^ (k - 1) := by
    rw [show k = (k - 1) + 1 by omega, Nat.pow_succ]; simp; omega
  have h31 : (2 : Nat) ^ k ≤ 2 ^ 31 := Nat.pow_le_pow_right (by omega) hk
  have hPpos : 0 < 2 ^ (k - 1) := Nat.pow_pos (by omega)
  have hP2 : 2 ≤ 2 ^ (k - 1) := by
    calc 2 = 2 ^ 1 := rfl
      _ ≤ 2 ^ (k - 1) := Nat.pow_le_pow_right (by omega) (by omega)
  have hmm : (m >>> 1).toNat = 2 ^ (k - 1) - 1 := by
    rw [BitVec.toNat_ushiftRight, hm, Nat.shiftRight_eq_div_pow, hP]; omega
  have hlo : (yy + zz + cc).toNat = yy.toNat + zz.toNat + cc.toNat := by
    rw [BitVec.toNat_add, BitVec.toNat_add]; omega
  have hvv : ((yy &&& m >>> 1) + (zz &&& m >>> 1) + cc).toNat = yy.toNat % 2 ^ (k - 1) + zz.toNat % 2 ^ (k - 1) + cc.toNat := by
    rw [BitVec.toNat_add, BitVec.toNat_add, and_mask _ _ _ hmm, and_mask _ _ _ hmm]
    have := Nat.mod_lt yy.toNat hPpos
    have := Nat.mod_lt zz.toNat hPpos
    omega
  have tp : (BitVec.twoPow 32 (k - 1)).toNat = 2 ^ (k - 1) := by
    rw [BitVec.toNat_twoPow]; exact Nat.mod_eq_of_lt (by omega)
  have hcar := carries (2 ^ (k - 1)) yy.toNat zz.toNat cc.toNat (by omega) (by omega) hc hPpos
  simp only at hcar
  have hhalf : ((yy + zz + cc) >>> 1).toNat = (yy.toNat + zz.toNat + cc.toNat) / 2 := by
    rw [BitVec.toNat_ushiftRight, hlo, Nat.shiftRight_eq_div_pow]
  have b1 : ((yy.toNat + zz.toNat + cc.toNat) / 2 / 2 ^ (k - 1) % 2 = 1) ↔ 2 ^ k ≤ yy.toNat + zz.toNat + cc.toNat := by
    rw [quarter _ _ (by omega)]; omega
  have b2 : ((yy.toNat % 2 ^ (k - 1) + zz.toNat % 2 ^ (k - 1) + cc.toNat) / 2 ^ (k - 1) % 2 = 1) ↔
      2 ^ (k - 1) ≤ yy.toNat % 2 ^ (k - 1) + zz.toNat % 2 ^ (k - 1) + cc.toNat := by
    have := Nat.mod_lt yy.toNat hPpos
    have := Nat.mod_lt zz.toNat hPpos
    rw [quarter _ _ (by omega)]; omega
  refine ⟨?_, ?_, ?_⟩
  · simp only [topSome]
    rw [and_mask _ _ _ hm, hlo]
  · simp only [topSome, htop]
    rw [toNat_ne_zero, BitVec.toNat_and, tp, and_pow_ne, hhalf, b1]
  · simp only [topSome, htop]
    rw [toNat_ne_zero, BitVec.toNat_and, tp, BitVec.toNat_xor, and_pow_bit, Nat.testBit_xor, hhalf, hvv]
    rw [hP] at b1 ⊢
    rw [hcar]
    rw [Nat.testBit_eq_decide_div_mod_eq, Nat.testBit_eq_decide_div_mod_eq]
    simp only [b1, b2]
    by_cases c1 : 2 ^ (k - 1) ≤ yy.toNat % 2 ^ (k - 1) + zz.toNat % 2 ^ (k - 1) + cc.toNat <;>
      by_cases c2 : 2 * 2 ^ (k - 1) ≤ yy.toNat + zz.toNat + cc.toNat <;> simp [c1, c2]

theorem and_msb (w : W) : (w &&& msb).toNat = if 2 ^ 31 ≤ w.toNat then 2 ^ 31 else 0 := by
  have := msb_ne w
  rw [msb_eq, BitVec.and_twoPow] at *
  by_cases h : 2 ^ 31 ≤ w.toNat
  · rw [if_pos h]
    have h2 := this.mpr h
    split
    · decide
    · rename_i hh; rw [if_neg hh] at h2; exact absurd rfl h2
  · rw [if_neg h]
    split
    · rename_i hh; rw [if_pos hh] at this
      exact absurd (this.mp (by decide)) h
    · rfl

theorem topAll_spec (yy zz cc : W) (hc : cc.toNat ≤ 1) :
    TopOk 32 yy.toNat zz.toNat cc.toNat (topAll yy zz cc) := by
  have hy := yy.isLt
  have hz := zz.isLt
  have hmm : (~~~msb).toNat = 2 ^ 31 - 1 := by decide
  have hlo : ((yy &&& ~~~msb) + (zz &&& ~~~msb) + cc).toNat = yy.toNat % 2 ^ 31 + zz.toNat % 2 ^ 31 + cc.toNat := by
    rw [BitVec.toNat_add, BitVec.toNat_add, and_mask _ _ 31 hmm, and_mask _ _ 31 hmm]
    omega
  have hcar := carries (2 ^ 31) yy.toNat zz.toNat cc.toNat (by omega) (by omega) hc (by omega)
  rw [show 2 * 2 ^ 31 = 2 ^ 32 from rfl] at hcar
  simp only at hcar
  unfold topAll
  generalize hl : (yy &&& ~~~msb) + (zz &&& ~~~msb) + cc = lo at hlo
  simp only [hl]
  have hh : ∀ w : W, ((w &&& msb) >>> 1).toNat = if 2 ^ 31 ≤ w.toNat then 2 ^ 30 else 0 := by
    intro w
    rw [BitVec.toNat_ushiftRight, and_msb, Nat.shiftRight_eq_div_pow]
    split <;> rfl
  have hhi : (((yy &&& msb) >>> 1) + ((zz &&& msb) >>> 1) + ((lo &&& msb) >>> 1)).toNat =
      (if 2 ^ 31 ≤ yy.toNat then 2 ^ 30 else 0) + (if 2 ^ 31 ≤ zz.toNat then 2 ^ 30 else 0) +
        (if 2 ^ 31 ≤ lo.toNat then 2 ^ 30 else 0) := by
    rw [BitVec.toNat_add, BitVec.toNat_add, hh, hh, hh]
    split <;> split <;> split <;> omega
  generalize hhi' : ((yy &&& msb) >>> 1) + ((zz &&& msb) >>> 1) + ((lo &&& msb) >>> 1) = hi at hhi
  have hc2 : (hi &&& msb ≠ 0#32) ↔ 2 ^ 32 ≤ yy.toNat + zz.toNat + cc.toNat := by
    rw [msb_ne, hhi]
    split <;> split <;> split <;> omega
  refine ⟨?_, ?_, ?_⟩
  · rw [BitVec.toNat_or, BitVec.toNat_shiftLeft, and_mask _ _ 31 hmm, Nat.shiftLeft_eq]
    have : hi.toNat * 2 ^ 1 % 2 ^ 32 = 2 ^ 31 * (hi.toNat / 2 ^ 30 % 2) := by
      rw [hhi]
      split <;> split <;> split <;> omega
    rw [this, ← Nat.two_pow_add_eq_or_of_lt (Nat.mod_lt _ (by omega)), hhi, hlo]
    split <;> split <;> split <;> omega
  · exact hc2
  · rw [hcar, ← hlo, ← hc2, ← msb_ne lo]
    have key : ∀ a b : W, (a = 0#32 ∨ a = BitVec.twoPow 32 31) → (b = 0#32 ∨ b = BitVec.twoPow 32 31) →
        (a ^^^ b ≠ 0#32 ↔ ¬ (a ≠ 0#32 ↔ b ≠ 0#32)) := by
      rintro a b (rfl | rfl) (rfl | rfl) <;> decide
    apply key
    · rw [msb_eq, BitVec.and_twoPow]; split <;> simp
    · rw [msb_eq, BitVec.and_twoPow]; split <;> simp

theorem topStep_spec {n : Nat} (hn : 0 < n) (minus : Bool) (y z cc : W) (hy : y.toNat < 2 ^ used n) (hc : cc.toNat ≤ 1) :
    TopOk (used n) y.toNat ((if minus then ~~~z else z).toNat % 2 ^ used n) cc.toNat (topStep (mask n) minus y z cc) := by
  obtain ⟨u1, u2, u3⟩ := used_spec hn
  have hm := mask_toNat hn
  have hyy : (y &&& mask n).toNat = y.toNat := by rw [and_mask _ _ _ hm]; exact Nat.mod_eq_of_lt hy
  have hzz := and_mask (if minus then ~~~z else z) (mask n) _ hm
  unfold topStep
  simp only
  generalize (if minus then ~~~z else z) &&& mask n = zz at hzz
  generalize y &&& mask n = yy at hyy
  have hpos : 0 < 2 ^ used n := Nat.pow_pos (by omega)
  have hzlt : zz.toNat < 2 ^ used n := by rw [hzz]; exact Nat.mod_lt _ hpos
  rw [← hyy, ← hzz]
  rw [← hyy] at hy
  by_cases h1 : used n = 1
  · have : mask n = lsb := by
      apply BitVec.eq_of_toNat_eq; rw [hm, h1]; rfl
    rw [if_pos this, h1]
    rw [h1] at hy hzlt
    exact topOne_spec _ _ _ hy hzlt hc
  · have hne : mask n ≠ lsb := by
      intro h
      rw [h] at hm
      have h4 : 2 ^ 2 ≤ 2 ^ used n := Nat.pow_le_pow_right (by omega) (by omega)
      have : lsb.toNat = 1 := rfl
      omega
    rw [if_neg hne]
    by_cases h2 : used n = 32
    · have : mask n = ones := by apply BitVec.eq_of_toNat_eq; rw [hm, h2]; rfl
      rw [if_neg (by rw [this]; decide), h2]
      exact topAll_spec _ _ _ hc
    · have : ~~~(mask n) ≠ 0#32 := by
        intro h
        have h3 := congrArg BitVec.toNat h
        rw [BitVec.toNat_not, hm] at h3
        have : 2 ^ used n ≤ 2 ^ 31 := Nat.pow_le_pow_right (by omega) (by omega)
        simp at h3; omega
      rw [if_pos this]
      exact topSome_spec _ _ _ _ _ (by omega) (by omega) hm (topBit_eq hn) hy hzlt hc

/-! ### All words -/

/-- The second operand as it is added: itself, or its complement. -/
def operand (minus : Bool) (zs : List W) : List W := if minus then zs.map (~~~ ·) else zs

theorem val_not (zs : List W) : val (zs.map (~~~ ·)) + val zs = 2 ^ (32 * zs.length) - 1 := by
  induction zs with
  | nil => rfl
  | cons z zs ih =>
    simp only [List.map_cons, val, BitVec.toNat_not, List.length_cons]
    have hz := z.isLt
    have hp : 0 < 2 ^ (32 * zs.length) := Nat.pow_pos (by omega)
    rw [show 32 * (zs.length + 1) = 32 + 32 * zs.length by omega, Nat.pow_add]
    have : 2 ^ 32 * (val (zs.map (~~~ ·)) + val zs) = 2 ^ 32 * (2 ^ (32 * zs.length) - 1) := by rw [ih]
    rw [Nat.mul_add, Nat.mul_sub] at this
    have h3 : 2 ^ 32 * 1 ≤ 2 ^ 32 * 2 ^ (32 * zs.length) := Nat.mul_le_mul_left _ hp
    omega

theorem mod_shift (a b P Q : Nat) (ha : a < P) : (a + P * b) % (P * Q) = a + P * (b % Q) := by
  rw [Nat.mod_mul, Nat.add_mul_mod_self_left, Nat.mod_eq_of_lt ha, Nat.add_mul_div_left _ _ (by omega),
    Nat.div_eq_of_lt ha, Nat.zero_add]

theorem le_shift (a b P Q : Nat) (ha : a < P) : P * Q ≤ a + P * b ↔ Q ≤ b := by
  constructor
  · intro h
    apply Decidable.byContradiction
    intro hc
    have : P * (b + 1) ≤ P * Q := Nat.mul_le_mul_left _ (by omega)
    rw [Nat.mul_add] at this
    omega
  · intro h
    have : P * Q ≤ P * b := Nat.mul_le_mul_left _ h
    omega

/-- What the loop gives on whole numbers; `N` is the number of values, `Y` and `Z` the operands, `c` the carry in. -/
structure SumOk (N Y Z c : Nat) (r : List W × W × W) : Prop where
  val : val r.1 = (Y + Z + c) % N
  carry : (r.2.1 ≠ 0#32) ↔ N ≤ Y + Z + c
  over : (r.2.2 ≠ 0#32) ↔ (N ≤ 2 * Y ↔ N ≤ 2 * Z) ∧ ¬ (N ≤ 2 * Y ↔ N ≤ 2 * ((Y + Z + c) % N))

theorem computeLoop_length (m : W) (minus : Bool) (ys zs : List W) (cc : W) (h : ys.length = zs.length) :
    (computeLoop m minus ys zs cc).1.length = ys.length := by
  induction ys generalizing zs cc with
  | nil => cases zs <;> simp_all [computeLoop]
  | cons y ys ih =>
    cases zs with
    | nil => simp at h
    | cons z zs =>
      cases ys with
      | nil =>
        cases zs with
        | nil => simp [computeLoop]
        | cons _ _ => simp at h
      | cons y2 ys =>
        simp only [computeLoop, List.length_cons]
        rw [ih zs _ (by simpa using h)]
        simp

theorem not_mod (z : W) (k : Nat) (hk : k ≤ 32) (hz : z.toNat < 2 ^ k) : (~~~z).toNat % 2 ^ k = 2 ^ k - 1 - z.toNat := by
  rw [BitVec.toNat_not]
  have h1 : 2 ^ 32 = 2 ^ k * 2 ^ (32 - k) := by rw [← Nat.pow_add]; congr 1; omega
  have h2 : 2 ^ 32 - 1 - z.toNat = (2 ^ k - 1 - z.toNat) + 2 ^ k * (2 ^ (32 - k) - 1) := by
    rw [Nat.mul_sub, h1]
    have : 2 ^ k * 1 ≤ 2 ^ k * 2 ^ (32 - k) := Nat.mul_le_mul_left _ (Nat.pow_pos (by omega))
    omega
  rw [h2, Nat.add_mul_mod_self_left, Nat.mod_eq_of_lt]
  have : 0 < 2 ^ k := Nat.pow_pos (by omega)
  omega

theorem computeLoop_spec {n : Nat} (hn : 0 < n) (minus : Bool) (ys zs : List W) (cc : W) (hc : cc.toNat ≤ 1)
    (h : ys.length = zs.length) (hne : ys ≠ []) (hy : val ys < 2 ^ (32 * (ys.length - 1)) * 2 ^ used n)
    (hz : val zs < 2 ^ (32 * (ys.length - 1)) * 2 ^ used n) :
    SumOk (2 ^ (32 * (ys.length - 1)) * 2 ^ used n) (val ys)
      (if minus then 2 ^ (32 * (ys.length - 1)) * 2 ^ used n - 1 - val zs else val zs) cc.toNat
      (computeLoop (mask n) minus ys zs cc) := by
  obtain ⟨u1, u2, u3⟩ := used_spec hn
  induction ys generalizing zs cc with
  | nil => exact absurd rfl hne
  | cons y ys ih =>
    cases zs with
    | nil => simp at h
    | cons z zs =>
      cases ys with
      | nil =>
        cases zs with
        | cons _ _ => simp at h
        | nil =>
          simp only [List.length_singleton, Nat.sub_self, Nat.mul_zero, Nat.pow_zero, Nat.one_mul, val,
            Nat.add_zero, computeLoop] at hy hz ⊢
          have t := topStep_spec hn minus y z cc hy hc
          have e : (if minus = true then ~~~z else z).toNat % 2 ^ used n =
              if minus = true then 2 ^ used n - 1 - z.toNat else z.toNat := by
            cases minus
            · exact Nat.mod_eq_of_lt hz
            · exact not_mod z _ u2 hz
          rw [e] at t
          exact ⟨by simp only [val]; rw [t.word]; simp, t.carry, t.over⟩
      | cons y2 ys =>
        have hl : (y2 :: ys).length = zs.length := by simpa using h
        obtain ⟨s1, s2⟩ := fullStep_spec minus y z cc hc
        simp only [computeLoop]
        generalize fullStep minus y z cc = s at s1 s2
        simp only [List.length_cons, Nat.add_sub_cancel] at hy hz ih ⊢
        rw [show 32 * (ys.length + 1) = 32 + 32 * ys.length by omega, Nat.pow_add, Nat.mul_assoc] at hy hz ⊢
        have hy' : val (y2 :: ys) < 2 ^ (32 * ys.length) * 2 ^ used n := by
          apply Decidable.byContradiction; intro hh
          have : 2 ^ 32 * (2 ^ (32 * ys.length) * 2 ^ used n) ≤ 2 ^ 32 * val (y2 :: ys) := Nat.mul_le_mul_left _ (by omega)
          simp only [val] at hy this; omega
        have hz' : val zs < 2 ^ (32 * ys.length) * 2 ^ used n := by
          apply Decidable.byContradiction; intro hh
          have : 2 ^ 32 * (2 ^ (32 * ys.length) * 2 ^ used n) ≤ 2 ^ 32 * val zs := Nat.mul_le_mul_left _ (by omega)
          simp only [val] at hz this; omega
        have r := ih zs s.2 s1 hl (by simp) hy' hz'
        generalize hN : 2 ^ (32 * ys.length) * 2 ^ used n = N at *
        generalize computeLoop (mask n) minus (y2 :: ys) zs s.2 = q at r
        generalize hY : val (y2 :: ys) = Y at *
        have hyl := y.isLt
        have hzl := z.isLt
        have hsl := s.1.isLt
        have hvy : val (y :: y2 :: ys) = y.toNat + 2 ^ 32 * Y := by simp only [val] at hY ⊢; rw [hY]
        have hvz : val (z :: zs) = z.toNat + 2 ^ 32 * val zs := rfl
        rw [hvy, hvz]
        -- the second operand
        obtain ⟨z0, hz0⟩ : ∃ z0, z0 = (if minus then ~~~z else z).toNat := ⟨_, rfl⟩
        have hzw : (if minus = true then 2 ^ 32 * N - 1 - (z.toNat + 2 ^ 32 * val zs) else z.toNat + 2 ^ 32 * val zs) =
            z0 + 2 ^ 32 * (if minus = true then N - 1 - val zs else val zs) := by
          subst hz0
          cases minus
          · rfl
          · simp only [if_true, BitVec.toNat_not]
            rw [Nat.mul_sub, Nat.mul_sub]
            have : 2 ^ 32 * (val zs + 1) ≤ 2 ^ 32 * N := Nat.mul_le_mul_left _ hz'
            omega
        rw [hzw]
        rw [← hz0] at s2
        have hz0l : z0 < 2 ^ 32 := by rw [hz0]; exact (if minus then ~~~z else z).isLt
        generalize hZ : (if minus = true then N - 1 - val zs else val zs) = Z at r
        have hsum : y.toNat + 2 ^ 32 * Y + (z0 + 2 ^ 32 * Z) + cc.toNat = s.1.toNat + 2 ^ 32 * (Y + Z + s.2.toNat) := by omega
        have d1 : ∀ a b : Nat, a < 2 ^ 32 → (2 ^ 32 * N ≤ 2 * (a + 2 ^ 32 * b) ↔ N ≤ 2 * b) := by
          intro a b ha
          have hev : N % 2 = 0 := by
            rw [← hN, show used n = (used n - 1) + 1 by omega, Nat.pow_succ, ← Nat.mul_assoc]
            exact Nat.mul_mod_left _ 2
          obtain ⟨M, hM⟩ : ∃ M, N = 2 * M := ⟨N / 2, by omega⟩
          have := le_shift a b (2 ^ 32) M ha
          rw [hM]
          constructor
          · intro hh
            have := this.mp (by omega)
            omega
          · intro hh
            have := this.mpr (by omega)
            omega
        refine ⟨?_, ?_, ?_⟩
        · simp only [val]
          rw [hsum, mod_shift _ _ _ _ hsl, r.val]
        · simp only
          rw [hsum, le_shift _ _ _ _ hsl]; exact r.carry
        · simp only
          rw [hsum, mod_shift _ _ _ _ hsl, d1 _ _ hyl, d1 _ _ hz0l, d1 _ _ hsl]; exact r.over

/-! ### The function -/

theorem pow_used {n : Nat} (hn : 0 < n) : 2 ^ (32 * (size n - 1)) * 2 ^ used n = 2 ^ n := by
  obtain ⟨u1, u2, u3⟩ := used_spec hn
  rw [← Nat.pow_add, ← u3]

theorem compute_sum {n : Nat} (hn : 0 < n) {ys zs : List W} {y z : BitVec n} (hy : Rep n ys y) (hz : Rep n zs z)
    (minus : Bool) (cc : W) (hc : cc.toNat ≤ 1) :
    SumOk (2 ^ n) y.toNat (if minus then 2 ^ n - 1 - z.toNat else z.toNat) cc.toNat
      (computeLoop (mask n) minus ys zs cc) := by
  have hp := pow_used hn
  have := computeLoop_spec hn minus ys zs cc hc (by rw [hy.len, hz.len]) (hy.ne_nil hn)
    (by rw [hy.len, hp]; exact hy.lt) (by rw [hy.len, hp]; exact hz.lt)
  rw [hy.len, hp, hy.val_eq, hz.val_eq] at this
  exact this

theorem add_rep {n : Nat} (hn : 0 < n) {ys zs : List W} {y z : BitVec n} (hy : Rep n ys y) (hz : Rep n zs z) (c : Bool) :
    Rep n (compute n ys zs false c).words (y + z + BitVec.ofNat n c.toNat) ∧
      ((compute n ys zs false c).carry = decide (2 ^ n ≤ y.toNat + z.toNat + c.toNat)) ∧
      ((compute n ys zs false c).overflow = ((y.msb == z.msb) && ((y + z + BitVec.ofNat n c.toNat).msb != y.msb))) := by
  have hne : ys.isEmpty = false := by have := hy.ne_nil hn; cases ys <;> simp_all
  have hcc : (if c then 1#32 else 0#32 : W).toNat = c.toNat := by cases c <;> rfl
  have h := compute_sum hn hy hz false (if c then 1#32 else 0#32) (by rw [hcc]; cases c <;> decide)
  rw [hcc] at h
  simp only [Bool.false_eq_true, if_false] at h
  have hx : (y + z + BitVec.ofNat n c.toNat).toNat = (y.toNat + z.toNat + c.toNat) % 2 ^ n := by simp
  simp only [compute, hne, Bool.false_eq_true, if_false]
  refine ⟨⟨?_, ?_⟩, ?_, ?_⟩
  · rw [computeLoop_length _ _ _ _ _ (by rw [hy.len, hz.len]), hy.len]
  · rw [h.val, hx]
  · rw [Bool.eq_iff_iff, decide_eq_true_iff, ← h.carry]; simp
  · rw [msb_iff, msb_iff, msb_iff, hx, Bool.eq_iff_iff]
    have := h.over
    simp only [Bool.not_eq_true', beq_eq_false_iff_ne, Bool.and_eq_true, beq_iff_eq, bne_iff_ne, ne_eq, decide_eq_decide]
    rw [← ne_eq, this]
    constructor <;> rintro ⟨a, b⟩ <;> exact ⟨a, fun hh => b hh.symm⟩

theorem sub_rep {n : Nat} (hn : 0 < n) {ys zs : List W} {y z : BitVec n} (hy : Rep n ys y) (hz : Rep n zs z) (c : Bool) :
    Rep n (compute n ys zs true c).words (y - z - BitVec.ofNat n c.toNat) ∧
      ((compute n ys zs true c).carry = decide (y.toNat < z.toNat + c.toNat)) ∧
      ((compute n ys zs true c).overflow = ((y.msb != z.msb) && ((y - z - BitVec.ofNat n c.toNat).msb != y.msb))) := by
  have hne : ys.isEmpty = false := by have := hy.ne_nil hn; cases ys <;> simp_all
  have hcc : (if c then 0#32 else 1#32 : W).toNat = 1 - c.toNat := by cases c <;> rfl
  have h := compute_sum hn hy hz true (if c then 0#32 else 1#32) (by rw [hcc]; omega)
  rw [hcc] at h
  simp only [if_true] at h
  have hyl := y.isLt
  have hzl := z.isLt
  have h2 : 2 ≤ 2 ^ n := by
    calc 2 = 2 ^ 1 := rfl
      _ ≤ 2 ^ n := Nat.pow_le_pow_right (by omega) hn
  have hcl : c.toNat ≤ 1 := by cases c <;> decide
  have hcn : (BitVec.ofNat n c.toNat).toNat = c.toNat := by
    rw [BitVec.toNat_ofNat]; exact Nat.mod_eq_of_lt (by omega)
  have hx : (y - z - BitVec.ofNat n c.toNat).toNat = (y.toNat + (2 ^ n - 1 - z.toNat) + (1 - c.toNat)) % 2 ^ n := by
    rw [BitVec.toNat_sub, BitVec.toNat_sub, hcn]
    rw [Nat.add_mod_mod]
    by_cases hz0 : c = true
    · subst hz0
      simp only [Bool.toNat_true]
      rw [show 2 ^ n - 1 + (2 ^ n - z.toNat + y.toNat) = (y.toNat + (2 ^ n - 1 - z.toNat) + (1 - 1)) + 2 ^ n by omega]
      rw [Nat.add_mod_right]
    · have : c = false := by simpa using hz0
      subst this
      simp only [Bool.toNat_false]
      rw [show 2 ^ n - 0 + (2 ^ n - z.toNat + y.toNat) = (y.toNat + (2 ^ n - 1 - z.toNat) + (1 - 0)) + 2 ^ n by omega]
      rw [Nat.add_mod_right]
  simp only [compute, hne, Bool.false_eq_true, if_false, if_true]
  refine ⟨⟨?_, ?_⟩, ?_, ?_⟩
  · rw [computeLoop_length _ _ _ _ _ (by rw [hy.len, hz.len]), hy.len]
  · rw [h.val, hx]
  · have := h.carry
    rw [Bool.eq_iff_iff, decide_eq_true_iff, beq_iff_eq]
    generalize (computeLoop (mask n) true ys zs (if c = true then 0#32 else 1#32)).2.1 = cy at this
    constructor
    · intro h0
      have : ¬ (2 ^ n ≤ y.toNat + (2 ^ n - 1 - z.toNat) + (1 - c.toNat)) := fun hh => this.mpr hh h0
      omega
    · intro h0
      apply Decidable.byContradiction
      intro hh
      have := this.mp hh
      omega
  · rw [msb_iff, msb_iff, msb_iff, hx, Bool.eq_iff_iff]
    have := h.over
    simp only [Bool.not_eq_true', beq_eq_false_iff_ne, Bool.and_eq_true, bne_iff_ne, ne_eq, decide_eq_decide]
    rw [← ne_eq, this]
    have hev : 2 ^ n % 2 = 0 := by
      rw [show n = (n - 1) + 1 by omega, Nat.pow_succ]; exact Nat.mul_mod_left _ 2
    have hsw : (2 ^ n ≤ 2 * (2 ^ n - 1 - z.toNat)) ↔ ¬ (2 ^ n ≤ 2 * z.toNat) := by omega
    rw [hsw]
    constructor
    · rintro ⟨a, b⟩
      refine ⟨?_, fun hh => b hh.symm⟩
      intro hh; by_cases e : 2 ^ n ≤ 2 * z.toNat
      · exact (a.mp (hh.mpr e)) e
      · exact e (hh.mp (a.mpr e))
    · rintro ⟨a, b⟩
      refine ⟨?_, fun hh => b hh.symm⟩
      constructor
      · intro h1 h2; exact a ⟨fun _ => h2, fun _ => h1⟩
      · intro h2; apply Decidable.byContradiction; intro h1; exact a ⟨fun h => absurd h h1, fun h => absurd h h2⟩

/-- Without carry: the functions of `Verif.Bitvect`. -/
theorem add0_rep {n : Nat} (hn : 0 < n) {ys zs : List W} {y z : BitVec n} (hy : Rep n ys y) (hz : Rep n zs z) :
    Rep n (compute n ys zs false false).words (y + z) ∧
      (compute n ys zs false false).carry = Bitvect.addCarry y z ∧
      (compute n ys zs false false).overflow = Bitvect.addOvfl y z := by
  have := add_rep hn hy hz false
  simpa [Bitvect.addCarry, Bitvect.addOvfl] using this

theorem sub0_rep {n : Nat} (hn : 0 < n) {ys zs : List W} {y z : BitVec n} (hy : Rep n ys y) (hz : Rep n zs z) :
    Rep n (compute n ys zs true false).words (y - z) ∧
      (compute n ys zs true false).carry = Bitvect.subBorrow y z := by
  have := sub_rep hn hy hz false
  exact ⟨by simpa using this.1, by simpa [Bitvect.subBorrow] using this.2.1⟩

/-! ### Negation and increment -/

theorem negLoop_length (c : Bool) (ys : List W) : (negLoop c ys).length = ys.length := by
  induction ys generalizing c with
  | nil => rfl
  | cons y ys ih => cases c <;> simp [negLoop, ih]

theorem negLoop_val (c : Bool) (ys : List W) :
    val (negLoop c ys) = (2 ^ (32 * ys.length) - 1 - val ys + c.toNat) % 2 ^ (32 * ys.length) := by
  induction ys generalizing c with
  | nil => simp [negLoop, val, Nat.mod_one]
  | cons y ys ih =>
    have hy := y.isLt
    have hv := val_lt ys
    have hsz : 2 ^ (32 * (ys.length + 1)) = 2 ^ 32 * 2 ^ (32 * ys.length) := by
      rw [← Nat.pow_add]; congr 1; omega
    have hnot : (~~~y).toNat = 2 ^ 32 - 1 - y.toNat := BitVec.toNat_not
    generalize hP : 2 ^ (32 * ys.length) = P at *
    have hm : 2 ^ 32 * (val ys + 1) ≤ 2 ^ 32 * P := Nat.mul_le_mul_left _ hv
    simp only [List.length_cons, hsz, val]
    have base : 2 ^ 32 * P - 1 - (y.toNat + 2 ^ 32 * val ys) = (2 ^ 32 - 1 - y.toNat) + 2 ^ 32 * (P - 1 - val ys) := by
      rw [Nat.mul_sub, Nat.mul_sub]; omega
    rw [base]
    cases c with
    | false =>
      simp only [negLoop, Bool.false_eq_true, if_false, val, ih, Bool.toNat_false, Nat.add_zero]
      rw [mod_shift _ _ _ _ (by omega), hnot]
    | true =>
      simp only [negLoop, if_true, val, ih, Bool.toNat_true]
      by_cases h0 : ~~~y + 1#32 = 0#32
      · have e0 : y.toNat = 0 := by
          have := congrArg BitVec.toNat h0
          rw [BitVec.toNat_add, hnot] at this
          simp at this; omega
        rw [h0, e0]
        simp only [beq_self_eq_true, Bool.toNat_true]
        rw [show 2 ^ 32 - 1 - 0 + 2 ^ 32 * (P - 1 - val ys) + 1 = 0 + 2 ^ 32 * (P - 1 - val ys + 1) by omega]
        rw [mod_shift _ _ _ _ (by omega)]; rfl
      · have e0 : y.toNat ≠ 0 := by
          intro e
          apply h0
          apply BitVec.eq_of_toNat_eq
          rw [BitVec.toNat_add, hnot, e]; rfl
        have e1 : (~~~y + 1#32).toNat = 2 ^ 32 - 1 - y.toNat + 1 := by
          rw [BitVec.toNat_add, hnot]; simp; omega
        have hb : (~~~y + 1#32 == 0#32) = false := by simpa using h0
        rw [hb, e1]
        simp only [Bool.toNat_false, Nat.add_zero]
        rw [show 2 ^ 32 - 1 - y.toNat + 2 ^ 32 * (P - 1 - val ys) + 1 = (2 ^ 32 - 1 - y.toNat + 1) + 2 ^ 32 * (P - 1 - val ys) by omega]
        rw [mod_shift _ _ _ _ (by omega)]

/-- Masking is taking the remainder. -/
theorem maskLast_val {n : Nat} (hn : 0 < n) {ws : List W} (hl : ws.length = size n) :
    val (maskLast (mask n) ws) = val ws % 2 ^ n := by
  apply Nat.eq_of_testBit_eq
  intro i
  rw [testBit_val, masked_bit hn hl, Nat.testBit_mod_two_pow, testBit_val, Bool.and_comm]

theorem pow_dvd {n : Nat} : 2 ^ n ∣ 2 ^ (32 * size n) := Nat.pow_dvd_pow 2 (by rw [size_eq]; omega)

theorem negate_rep {n : Nat} (hn : 0 < n) {ys : List W} {y : BitVec n} (hy : Rep n ys y) : Rep n (negate n ys) (-y) := by
  refine ⟨by simp [negate, maskLast_length, negLoop_length, hy.len], ?_⟩
  rw [negate, maskLast_val hn (by rw [negLoop_length, hy.len]), negLoop_val, hy.len, hy.val_eq,
    Nat.mod_mod_of_dvd _ pow_dvd, BitVec.toNat_neg]
  have hyl := y.isLt
  obtain ⟨q, hq⟩ := pow_dvd (n := n)
  have hq0 : 0 < q := by
    rcases Nat.eq_zero_or_pos q with h | h
    · subst h
      have : 0 < 2 ^ (32 * size n) := Nat.pow_pos (by omega)
      omega
    · exact h
  rw [hq]
  have : 2 ^ n * 1 ≤ 2 ^ n * q := Nat.mul_le_mul_left _ hq0
  rw [show 2 ^ n * q - 1 - y.toNat + true.toNat = (2 ^ n - y.toNat) + 2 ^ n * (q - 1) by
    rw [Nat.mul_sub]; simp only [Bool.toNat_true]; omega]
  rw [Nat.add_mul_mod_self_left]

theorem incLoop_spec (ws : List W) :
    (incLoop ws).1.length = ws.length ∧ val (incLoop ws).1 = (val ws + 1) % 2 ^ (32 * ws.length) ∧
      ((incLoop ws).2 = decide (2 ^ (32 * ws.length) ≤ val ws + 1)) := by
  induction ws with
  | nil => simp [incLoop, val]
  | cons w ws ih =>
    obtain ⟨i1, i2, i3⟩ := ih
    have hw := w.isLt
    have hv := val_lt ws
    have hsz : 2 ^ (32 * (ws.length + 1)) = 2 ^ 32 * 2 ^ (32 * ws.length) := by
      rw [← Nat.pow_add]; congr 1; omega
    simp only [incLoop, List.length_cons, hsz, val]
    generalize hP : 2 ^ (32 * ws.length) = P at *
    have hm : 2 ^ 32 * (val ws + 1) ≤ 2 ^ 32 * P := Nat.mul_le_mul_left _ hv
    by_cases h0 : w + 1#32 = 0#32
    · have e0 : w.toNat = 2 ^ 32 - 1 := by
        have := congrArg BitVec.toNat h0
        rw [BitVec.toNat_add] at this
        simp at this; omega
      simp only [h0, beq_self_eq_true, if_true, List.length_cons, i1, val, i2, i3]
      refine ⟨trivial, ?_, ?_⟩
      · rw [e0, show 2 ^ 32 - 1 + 2 ^ 32 * val ws + 1 = 0 + 2 ^ 32 * (val ws + 1) by omega, mod_shift _ _ _ _ (by omega)]
        rfl
      · rw [decide_eq_decide, e0, show 2 ^ 32 - 1 + 2 ^ 32 * val ws + 1 = 0 + 2 ^ 32 * (val ws + 1) by omega,
          le_shift _ _ _ _ (by omega)]
    · have e1 : w.toNat + 1 < 2 ^ 32 := by
        apply Decidable.byContradiction
        intro hh
        apply h0
        apply BitVec.eq_of_toNat_eq
        rw [BitVec.toNat_add, show w.toNat = 2 ^ 32 - 1 by omega]; rfl
      have e2 : (w + 1#32).toNat = w.toNat + 1 := by
        rw [BitVec.toNat_add]; simp; omega
      simp only [beq_iff_eq, h0, if_false, List.length_cons, val, e2]
      refine ⟨trivial, ?_, ?_⟩
      · rw [show w.toNat + 2 ^ 32 * val ws + 1 = (w.toNat + 1) + 2 ^ 32 * val ws by omega, mod_shift _ _ _ _ e1,
          Nat.mod_eq_of_lt hv]
      · symm; rw [decide_eq_false_iff_not]; omega

/-- `*last |= NOT mask` sets the unused bits. -/
theorem filled_val {n : Nat} (hn : 0 < n) {ws : List W} {x : BitVec n} (h : Rep n ws x) :
    val (fillLast (mask n) ws) = x.toNat + (2 ^ (32 * size n) - 2 ^ n) := by
  obtain ⟨u1, u2, u3⟩ := used_spec hn
  have hp := size_pos hn
  obtain ⟨k, hk⟩ : ∃ k, 32 * size n = n + k := ⟨32 * size n - n, by omega⟩
  have hkey : x.toNat + (2 ^ (32 * size n) - 2 ^ n) = 2 ^ n * (2 ^ k - 1) + x.toNat := by
    rw [hk, Nat.pow_add, Nat.mul_sub]; omega
  rw [hkey]
  apply Nat.eq_of_testBit_eq
  intro i
  rw [testBit_val, Nat.testBit_two_pow_mul_add _ x.isLt, Nat.testBit_two_pow_sub_one]
  by_cases hi : i < 32 * ws.length
  · rw [fillLast_bit _ _ _ hi, mask_bit hn, h.bit, h.len]
    rw [h.len] at hi
    by_cases h1 : i < n
    · rw [if_pos h1]
      have : (decide (32 * (size n - 1) ≤ i) && !decide (i - 32 * (size n - 1) < used n)) = false := by
        by_cases a : 32 * (size n - 1) ≤ i
        · simp; omega
        · simp [a]
      rw [this]; simp; rfl
    · rw [if_neg h1, BitVec.getLsbD_of_ge _ _ (by omega)]
      have a : 32 * (size n - 1) ≤ i := by omega
      have b : ¬ (i - 32 * (size n - 1) < used n) := by omega
      simp [a, b]; omega
  · rw [bit_ge _ (by rw [fillLast_length]; omega)]
    rw [h.len] at hi
    rw [if_neg (by omega)]
    simp; omega

theorem increment_rep {n : Nat} (hn : 0 < n) {ws : List W} {x : BitVec n} (h : Rep n ws x) :
    Rep n (increment n ws).1 (x + 1#n) ∧ (increment n ws).2 = decide (x.toNat + 1 = 2 ^ n) := by
  obtain ⟨l1, l2, l3⟩ := incLoop_spec (fillLast (mask n) ws)
  rw [fillLast_length, h.len] at l1 l2 l3
  rw [filled_val hn h] at l2 l3
  have hx := x.isLt
  have hle : 2 ^ n ≤ 2 ^ (32 * size n) := Nat.le_of_dvd (Nat.pow_pos (by omega)) pow_dvd
  unfold increment
  simp only
  refine ⟨⟨by rw [maskLast_length, l1], ?_⟩, ?_⟩
  · rw [maskLast_val hn l1, l2, Nat.mod_mod_of_dvd _ pow_dvd, BitVec.toNat_add]
    obtain ⟨q, hq⟩ := pow_dvd (n := n)
    rw [hq] at hle ⊢
    rw [show x.toNat + (2 ^ n * q - 2 ^ n) + 1 = (x.toNat + 1) + 2 ^ n * (q - 1) by
      rw [Nat.mul_sub]; omega, Nat.add_mul_mod_self_left]
    simp
  · rw [l3, decide_eq_decide]; omega

end Verif.Words
