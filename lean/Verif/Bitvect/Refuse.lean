import Verif.Bitvect.Lemmas
/-! A product that does not fit is refused. -/
namespace Verif.Bitvect

theorem addOvfl_true {n : Nat} (x y : BitVec n) (hx : 2 * x.toNat < 2 ^ n) (hy : 2 * y.toNat < 2 ^ n)
    (h : 2 ^ n ≤ 2 * (x.toNat + y.toNat)) : addOvfl x y = true := by
  unfold addOvfl
  rw [msb_iff, msb_iff, msb_iff, BitVec.toNat_add, Nat.mod_eq_of_lt (by omega)]
  have h1 : ¬ 2 ^ n ≤ 2 * x.toNat := by omega
  have h2 : ¬ 2 ^ n ≤ 2 * y.toNat := by omega
  simp [h1, h2, h]

theorem mulLoop_refuse {n m : Nat} (z : BitVec m) (k c : Nat) (x y : BitVec n)
    (hk : z.toNat / 2 ^ c < 2 ^ (k + 1)) (hk' : 2 ^ k ≤ z.toNat / 2 ^ c)
    (hx : 2 * x.toNat < 2 ^ n) (hy : 2 * y.toNat < 2 ^ n)
    (h : 2 ^ n ≤ 2 * (x.toNat + y.toNat * (z.toNat / 2 ^ c))) :
    (mulLoop true z (k + 1) c x y).2 = false := by
  induction k generalizing c x y with
  | zero =>
    have h1 : z.toNat / 2 ^ c = 1 := by simp at hk hk'; omega
    have hs := div_pow_step z.toNat c
    have hb : z.getLsbD c = z.toNat.testBit c := by rw [BitVec.getLsbD]
    rw [← hb, h1] at hs
    have hbit : z.getLsbD c = true := by
      rcases (by decide : ∀ b : Bool, b = false ∨ b = true) (z.getLsbD c) with e | e
      · rw [e] at hs; simp at hs; omega
      · exact e
    rw [h1, Nat.mul_one] at h
    unfold mulLoop
    simp [hbit, addOvfl_true x y hx hy h]
  | succ k ih =>
    have hs := div_pow_step z.toNat c
    have hb : z.getLsbD c = z.toNat.testBit c := by rw [BitVec.getLsbD]
    rw [← hb] at hs
    generalize hz : z.toNat / 2 ^ c = zc at *
    generalize hz1 : z.toNat / 2 ^ (c + 1) = zc1 at *
    have hexp : y.toNat * zc = 2 * (y.toNat * zc1) + y.toNat * (z.getLsbD c).toNat := by
      rw [hs, Nat.mul_add]
      congr 1
      rw [← Nat.mul_assoc, Nat.mul_comm y.toNat 2, Nat.mul_assoc]
    have hbl := Bool.toNat_le (z.getLsbD c)
    have e1 : 2 ^ (k + 1 + 1) = 2 * 2 ^ (k + 1) := by rw [Nat.pow_succ, Nat.mul_comm]
    have e2 : 2 ^ (k + 1) = 2 * 2 ^ k := by rw [Nat.pow_succ, Nat.mul_comm]
    have hcar : addCarry x y = false := by simp [addCarry]; omega
    have hc1 : shl1Carry y = false := by
      rw [shl1Carry, msb_iff]; simp; omega
    have hy1 : (shl1 y false).toNat = 2 * y.toNat := by
      rw [shl1_toNat _ _ (by simp; omega)]; simp
    have hadd : (x + y).toNat = x.toNat + y.toNat := by
      rw [BitVec.toNat_add, Nat.mod_eq_of_lt (by omega)]
    have step : ∀ x1 : BitVec n, 2 * x1.toNat < 2 ^ n → x1.toNat = x.toNat + y.toNat * (z.getLsbD c).toNat →
        (if (!(shl1Carry y || (shl1 y false).msb)) = false then (x1, false) else mulLoop true z (k + 1) (c + 1) x1 (shl1 y false)).2 = false := by
      intro x1 h1 h2
      rw [hc1]
      by_cases hm : 2 ^ n ≤ 4 * y.toNat
      · have : (shl1 y false).msb = true := by rw [msb_iff, hy1]; simp; omega
        simp [this]
      · have : (shl1 y false).msb = false := by rw [msb_iff, hy1]; simp; omega
        simp only [this, Bool.or_false, Bool.not_false, Bool.true_eq_false, if_false]
        refine ih (c + 1) x1 (shl1 y false) (by rw [hz1]; omega) (by rw [hz1]; omega) h1 (by rw [hy1]; omega) ?_
        rw [hy1, hz1, h2, Nat.mul_assoc]
        omega
    unfold mulLoop
    rcases (by decide : ∀ b : Bool, b = false ∨ b = true) (z.getLsbD c) with e | e
    · simp only [e, Bool.false_eq_true, if_false, Bool.true_eq_false, Nat.add_eq_zero_iff, Nat.one_ne_zero, and_false, if_true]
      exact step x hx (by simp [e])
    · simp only [e, if_true, Nat.add_eq_zero_iff, Nat.one_ne_zero, and_false, if_false]
      by_cases ho : 2 ^ n ≤ 2 * (x.toNat + y.toNat)
      · simp [addOvfl_true x y hx hy ho]
      · have := addOvfl_false x y (by omega)
        simp only [this, hcar, Bool.or_false, Bool.not_false, Bool.true_eq_false, if_false]
        exact step (x + y) (by rw [hadd]; omega) (by rw [hadd]; simp [e])

theorem mulPos_refuse {n m : Nat} (y : BitVec n) (z : BitVec m) (hy : 2 * y.toNat ≤ 2 ^ n)
    (h : 2 ^ n < 2 * (y.toNat * z.toNat)) : (mulPos y z true).2 = false := by
  unfold mulPos
  have hy0 : y.toNat ≠ 0 := by intro c; rw [c] at h; simp at h
  have hz0 : z.toNat ≠ 0 := by intro c; rw [c] at h; simp at h
  rw [if_neg hy0, if_neg (by rw [setMax_neg_iff]; exact hz0), setMax_nonneg z hz0]
  rw [show (((z.toNat.log2 : Nat) : Int)).toNat = z.toNat.log2 from rfl]
  by_cases hlt : 2 * y.toNat < 2 ^ n
  · refine mulLoop_refuse z z.toNat.log2 0 (0#n) y (by simpa using Nat.lt_log2_self) (by simpa using Nat.log2_self_le hz0)
      (by simp; exact Nat.two_pow_pos n) hlt ?_
    simp; omega
  · have he : 2 * y.toNat = 2 ^ n := by omega
    have hz2 : 2 ≤ z.toNat := by
      rcases Nat.lt_or_ge z.toNat 2 with c | c
      · have : z.toNat = 1 := by omega
        rw [this] at h; omega
      · exact c
    have hl : z.toNat.log2 ≠ 0 := by
      intro c
      have := @Nat.lt_log2_self z.toNat
      rw [c] at this; omega
    obtain ⟨k, hk⟩ : ∃ k, z.toNat.log2 = k + 1 := ⟨z.toNat.log2 - 1, by omega⟩
    have hm : y.msb = true := by rw [msb_iff]; simp; omega
    have hc : shl1Carry y = true := hm
    have ha : addCarry (0#n) y = false := by simp [addCarry]; omega
    have ho : addOvfl (0#n) y = false := by simp [addOvfl, hm]
    rw [hk]
    unfold mulLoop
    simp [hc, ha, ho]

theorem multiply_refuse {n : Nat} (y z : BitVec n) (h : 2 ^ n < 2 * (y.toInt * z.toInt).natAbs) :
    (multiply y z).2 = false := by
  unfold multiply
  have h0 : ¬ (y.toNat = 0 ∨ z.toNat = 0) := by
    rintro (c | c)
    · rw [(toInt_ne_zero y).2 c] at h; simp at h
    · rw [(toInt_ne_zero z).2 c] at h; simp at h
  rw [if_neg h0]
  have hy := abs_toNat y
  have hz := abs_toNat z
  have by_ := natAbs_bound y
  have bz := natAbs_bound z
  generalize ha : (if y.msb = true then -y else y) = a at *
  generalize hb : (if z.msb = true then -z else z) = b at *
  have hab : a.toNat * b.toNat = (y.toInt * z.toInt).natAbs := by
    rw [hy, hz, Int.natAbs_mul]
  have key : ∀ r : BitVec n × Bool, r.2 = false →
      (if (r.2 && (y.msb != z.msb)) = true then (-r.1, r.2) else r).2 = false := by
    intro r h2
    rw [h2]; simp [h2]
  by_cases ht : topWordGt a b ((n + 31) / 32) = true
  · simp only [ht, if_true]
    exact key _ (mulPos_refuse a b (by omega) (by rw [hab]; exact h))
  · simp only [ht]
    exact key _ (mulPos_refuse b a (by omega) (by rw [Nat.mul_comm b.toNat, hab]; exact h))

end Verif.Bitvect
