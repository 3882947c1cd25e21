import Verif.Bitvect.Model

set_option linter.unusedSimpArgs false
namespace Verif.Bitvect

theorem getLsbD_ofBits (n : Nat) (f : Nat → Bool) (i : Nat) :
    (ofBits n f).getLsbD i = (decide (i < n) && f i) := by
  induction n with
  | zero => simp [ofBits]
  | succ n ih =>
    rw [ofBits, BitVec.getLsbD_cons, ih]
    by_cases h : i = n
    · subst h; simp
    · rw [if_neg h]
      by_cases h2 : i < n
      · simp [h2]; omega
      · have : ¬ i < n + 1 := by omega
        simp [h2, this]

theorem ofBits_congr (n : Nat) {f g : Nat → Bool} (h : ∀ i, i < n → f i = g i) :
    ofBits n f = ofBits n g := by
  apply BitVec.eq_of_getLsbD_eq
  intro i hi
  rw [getLsbD_ofBits, getLsbD_ofBits, h i hi]

/-! ### Set_Max -/

theorem setMax_lt_iff {n : Nat} (x : BitVec n) (k : Nat) : setMax x < (k : Int) ↔ x.toNat < 2 ^ k := by
  unfold setMax
  by_cases h : x.toNat = 0
  · rw [if_pos h, h]
    have : longMin < (k : Int) := by unfold longMin; omega
    simp [this, Nat.two_pow_pos]
  · rw [if_neg h, Int.ofNat_lt, Nat.log2_lt h]

theorem setMax_neg_iff {n : Nat} (x : BitVec n) : setMax x < 0 ↔ x.toNat = 0 := by
  have := setMax_lt_iff x 0
  simp at this
  rw [this]

theorem setMax_nonneg {n : Nat} (x : BitVec n) (h : x.toNat ≠ 0) : setMax x = (Nat.log2 x.toNat : Int) := by
  unfold setMax; rw [if_neg h]

/-! ### sign -/

theorem msb_iff {n : Nat} (x : BitVec n) : x.msb = decide (2 ^ n ≤ 2 * x.toNat) := by
  rw [BitVec.msb_eq_decide]
  rcases n with _ | n
  · have := x.isLt; simp at this; simp [this]
  · have e : 2 ^ (n + 1) = 2 * 2 ^ n := by rw [Nat.pow_succ, Nat.mul_comm]
    rw [Nat.add_sub_cancel]
    by_cases h : 2 ^ n ≤ x.toNat
    · rw [decide_eq_true h, decide_eq_true (by omega)]
    · rw [decide_eq_false h, decide_eq_false (by omega)]

theorem abs_toNat {n : Nat} (x : BitVec n) :
    (if x.msb then -x else x).toNat = x.toInt.natAbs := by
  rw [BitVec.toInt_eq_msb_cond, msb_iff]
  have hx := x.isLt
  by_cases h : 2 ^ n ≤ 2 * x.toNat
  · have h0 : 0 < 2 ^ n := Nat.two_pow_pos n
    simp only [decide_eq_true h, if_true]
    rw [BitVec.toNat_neg, Nat.mod_eq_of_lt (by omega)]
    have : ((2:Int) ^ n) = ((2 ^ n : Nat) : Int) := by push_cast; rfl
    omega
  · simp [h]

theorem toInt_neg_iff {n : Nat} (x : BitVec n) : x.msb = true ↔ x.toInt < 0 := by
  rw [BitVec.toInt_eq_msb_cond]
  have hx := x.isLt
  have e : ((2 ^ n : Nat) : Int) = (2 : Int) ^ n := by simp
  cases h : x.msb <;> simp <;> omega

/-! ### multiplication -/

theorem shl1_false {n : Nat} (y : BitVec n) : shl1 y false = y <<< 1 := by simp [shl1]

theorem shl1_toNat {n : Nat} (y : BitVec n) (c : Bool) (h : 2 * y.toNat + c.toNat < 2 ^ n) :
    (shl1 y c).toNat = 2 * y.toNat + c.toNat := by
  unfold shl1
  rw [BitVec.toNat_or, BitVec.toNat_shiftLeft, Nat.shiftLeft_eq, Nat.mod_eq_of_lt (by omega)]
  cases c
  · simp; omega
  · have : (1#n).toNat = 1 := by
      rw [BitVec.toNat_ofNat, Nat.mod_eq_of_lt]
      simp at h; omega
    simp [this]
    apply Nat.eq_of_testBit_eq
    intro i
    rw [Nat.testBit_or]
    rcases i with _ | i
    · simp [Nat.testBit_zero]
    · simp [Nat.testBit_succ, Nat.mul_comm]
      have : (y.toNat * 2 + 1) / 2 = y.toNat := by omega
      have h1 : 1 / 2 = 0 := by decide
      rw [this]; try simp

theorem addOvfl_false {n : Nat} (x y : BitVec n) (h : 2 * (x.toNat + y.toNat) < 2 ^ n) :
    addOvfl x y = false := by
  unfold addOvfl
  rw [msb_iff, msb_iff, msb_iff, BitVec.toNat_add, Nat.mod_eq_of_lt (by omega)]
  have h1 : ¬ 2 ^ n ≤ 2 * x.toNat := by omega
  have h2 : ¬ 2 ^ n ≤ 2 * (x.toNat + y.toNat) := by omega
  simp [h1, h2]; try omega

theorem div_pow_step (z c : Nat) : z / 2 ^ c = 2 * (z / 2 ^ (c + 1)) + (z.testBit c).toNat := by
  rw [Nat.testBit_eq_decide_div_mod_eq, Nat.pow_succ, ← Nat.div_div_eq_div_mul]
  have := Nat.div_add_mod (z / 2 ^ c) 2
  rcases Nat.mod_two_eq_zero_or_one (z / 2 ^ c) with h | h <;> simp [h] <;> omega

theorem mulLoop_strict {n m : Nat} (z : BitVec m) (k c : Nat) (x y : BitVec n)
    (hk : z.toNat / 2 ^ c < 2 ^ k) (hk' : 0 < k → 2 ^ (k - 1) ≤ z.toNat / 2 ^ c)
    (h : 2 * (x.toNat + y.toNat * (z.toNat / 2 ^ c)) < 2 ^ n) :
    (mulLoop true z k c x y).2 = true ∧
      (mulLoop true z k c x y).1.toNat = x.toNat + y.toNat * (z.toNat / 2 ^ c) := by
  induction k generalizing c x y with
  | zero =>
    have : z.toNat / 2 ^ c = 0 := by simpa using hk
    simp [mulLoop, this]
  | succ k ih =>
    have hs := div_pow_step z.toNat c
    have hb : z.getLsbD c = z.toNat.testBit c := by rw [BitVec.getLsbD]
    rw [← hb] at hs
    generalize hz : z.toNat / 2 ^ c = zc at *
    generalize hz1 : z.toNat / 2 ^ (c + 1) = zc1 at *
    have hpos : 1 ≤ zc := by
      have := hk' (by omega)
      have h2 : 0 < 2 ^ (k + 1 - 1) := Nat.two_pow_pos _
      omega
    have hyz : y.toNat ≤ y.toNat * zc := Nat.le_mul_of_pos_right _ hpos
    have hx : x.toNat + y.toNat < 2 ^ n := by omega
    have hxt : 2 * (x.toNat + y.toNat) < 2 ^ n := by omega
    have hcar : addCarry x y = false := by simp [addCarry]; omega
    have hov := addOvfl_false x y hxt
    have hadd : (x + y).toNat = x.toNat + y.toNat := by
      rw [BitVec.toNat_add, Nat.mod_eq_of_lt hx]
    set_option hygiene false in
    have hx1 : (if z.getLsbD c = true then x + y else x).toNat = x.toNat + y.toNat * (z.getLsbD c).toNat := by
      cases z.getLsbD c <;> simp [hadd]
    unfold mulLoop
    simp only [hcar, hov, Bool.or_false, Bool.not_false, if_true, ite_self]
    rw [if_neg (by simp)]
    by_cases hk0 : k = 0
    · rw [if_pos hk0]
      refine ⟨rfl, ?_⟩
      rw [hx1]
      have : zc1 = 0 := by subst hk0; simp at hk; omega
      rw [this] at hs
      have : zc = (z.getLsbD c).toNat := by omega
      rw [this]
    · rw [if_neg hk0]
      have hz1ge : 2 ^ (k - 1) ≤ zc1 := by
        have := hk' (by omega)
        have e : 2 ^ (k + 1 - 1) = 2 * 2 ^ (k - 1) := by
          rw [Nat.add_sub_cancel]
          conv => lhs; rw [show k = (k - 1) + 1 by omega]
          rw [Nat.pow_succ, Nat.mul_comm]
        rw [e, hs] at this
        have := Bool.toNat_le (z.getLsbD c)
        omega
      have hz1pos : 1 ≤ zc1 := by
        have h2 : 0 < 2 ^ (k - 1) := Nat.two_pow_pos _
        omega
      have hexp : y.toNat * zc = 2 * (y.toNat * zc1) + y.toNat * (z.getLsbD c).toNat := by
        rw [hs, Nat.mul_add]
        congr 1
        rw [← Nat.mul_assoc, Nat.mul_comm y.toNat 2, Nat.mul_assoc]
      have hyz1 : y.toNat ≤ y.toNat * zc1 := Nat.le_mul_of_pos_right _ hz1pos
      have h2y : 2 * (2 * y.toNat) < 2 ^ n := by omega
      have hy1 : (shl1 y false).toNat = 2 * y.toNat := by
        rw [shl1_toNat _ _ (by simp; omega)]; simp
      have hc1 : shl1Carry y = false := by
        rw [shl1Carry, msb_iff]; simp; omega
      have hc2 : (shl1 y false).msb = false := by
        rw [msb_iff, hy1]; simp; omega
      rw [hc1, hc2]
      rw [if_neg (by simp)]
      have hmul : (2 * y.toNat) * zc1 = 2 * (y.toNat * zc1) := by rw [Nat.mul_assoc]
      have := ih (c + 1) (if z.getLsbD c = true then x + y else x) (shl1 y false)
        (by rw [hz1]; have : 2 ^ (k + 1) = 2 * 2 ^ k := by rw [Nat.pow_succ, Nat.mul_comm]
            omega)
        (by intro _; rw [hz1]; exact hz1ge)
        (by rw [hz1, hx1, hy1, hmul]; omega)
      refine ⟨this.1, ?_⟩
      rw [this.2, hz1, hx1, hy1, hmul]; omega

theorem mulPos_strict {n m : Nat} (y : BitVec n) (z : BitVec m)
    (h : 2 * (y.toNat * z.toNat) < 2 ^ n) :
    (mulPos y z true).2 = true ∧ (mulPos y z true).1.toNat = y.toNat * z.toNat := by
  unfold mulPos
  by_cases hy : y.toNat = 0
  · simp [hy]
  rw [if_neg hy]
  by_cases hz : z.toNat = 0
  · rw [if_pos ((setMax_neg_iff z).2 hz)]; simp [hz]
  rw [if_neg (by rw [setMax_neg_iff]; exact hz), setMax_nonneg z hz]
  have := mulLoop_strict z (z.toNat.log2 + 1) 0 (0#n) y
    (by simp; exact Nat.lt_log2_self) (by intro _; simp; exact Nat.log2_self_le hz)
    (by simpa using h)
  simpa using this

/-! ### signed multiplication -/

theorem natAbs_bound {n : Nat} (x : BitVec n) : 2 * x.toInt.natAbs ≤ 2 ^ n := by
  rw [← abs_toNat, ]
  have hx := x.isLt
  rw [msb_iff]
  by_cases h : 2 ^ n ≤ 2 * x.toNat
  · simp only [decide_eq_true h, if_true]
    have h0 : 0 < 2 ^ n := Nat.two_pow_pos n
    rw [BitVec.toNat_neg, Nat.mod_eq_of_lt (by omega)]; omega
  · simp [h]; omega

theorem ofInt_natAbs {n : Nat} (b : BitVec n) (z : Int) (h : b.toNat = z.natAbs) :
    BitVec.ofInt n z = if z < 0 then -b else b := by
  have e : b = BitVec.ofInt n (z.natAbs : Int) := by
    apply BitVec.eq_of_toNat_eq
    rw [← h]; simp
  by_cases hz : z < 0
  · rw [if_pos hz, e]
    have : z = -(z.natAbs : Int) := by omega
    conv => lhs; rw [this]
    rw [BitVec.ofInt_neg]
  · rw [if_neg hz, e]
    congr 1; omega

theorem toInt_ne_zero {n : Nat} (x : BitVec n) : x.toInt = 0 ↔ x.toNat = 0 := by
  have hx := x.isLt
  have := abs_toNat x
  constructor
  · intro h
    have : x = 0#n := by rw [← BitVec.toInt_inj]; simpa using h
    simp [this]
  · intro h
    have : x = 0#n := BitVec.eq_of_toNat_eq (by simpa using h)
    simp [this]

theorem multiply_spec {n : Nat} (y z : BitVec n) (h : 2 * (y.toInt * z.toInt).natAbs < 2 ^ n) :
    (multiply y z).1 = BitVec.ofInt n (y.toInt * z.toInt) ∧ (multiply y z).2 = true := by
  unfold multiply
  by_cases h0 : y.toNat = 0 ∨ z.toNat = 0
  · rw [if_pos h0]
    refine ⟨?_, rfl⟩
    rcases h0 with h0 | h0
    · rw [(toInt_ne_zero y).2 h0]; simp
    · rw [(toInt_ne_zero z).2 h0]; simp
  rw [if_neg h0]
  have hy := abs_toNat y
  have hz := abs_toNat z
  have hyz : y.toInt ≠ 0 ∧ z.toInt ≠ 0 := by
    rw [Ne, toInt_ne_zero, Ne, toInt_ne_zero]
    exact ⟨fun h => h0 (Or.inl h), fun h => h0 (Or.inr h)⟩
  generalize ha : (if y.msb = true then -y else y) = a at *
  generalize hb : (if z.msb = true then -z else z) = b at *
  have hab : a.toNat * b.toNat = (y.toInt * z.toInt).natAbs := by
    rw [hy, hz, Int.natAbs_mul]
  have key : ∀ r : BitVec n × Bool, r.2 = true → r.1.toNat = a.toNat * b.toNat →
      (if (r.2 && (y.msb != z.msb)) = true then (-r.1, r.2) else r).1 =
        BitVec.ofInt n (y.toInt * z.toInt) ∧
      (if (r.2 && (y.msb != z.msb)) = true then (-r.1, r.2) else r).2 = true := by
    intro r h2 h1
    rw [ofInt_natAbs r.1 _ (h1.trans hab), h2]
    have hs : (y.msb != z.msb) = true ↔ y.toInt * z.toInt < 0 := by
      have hym := toInt_neg_iff y
      have hzm := toInt_neg_iff z
      cases hm1 : y.msb <;> cases hm2 : z.msb <;> simp [hm1, hm2] at hym hzm ⊢
      · exact Int.mul_nonneg hym hzm
      · exact Int.mul_neg_of_pos_of_neg (by omega) hzm
      · exact Int.mul_neg_of_neg_of_pos hym (by omega)
      · exact Int.mul_nonneg_of_nonpos_of_nonpos (by omega) (by omega)
    by_cases hn : (y.msb != z.msb) = true
    · rw [if_pos (by simpa using hn), if_pos (hs.1 hn)]; exact ⟨rfl, rfl⟩
    · rw [if_neg (by simpa using hn), if_neg (fun h => hn (hs.2 h))]; exact ⟨rfl, h2⟩
  by_cases ht : topWordGt a b ((n + 31) / 32) = true
  · simp only [ht, if_true]
    have := mulPos_strict a b (by rw [hab]; exact h)
    exact key _ this.1 this.2
  · simp only [ht]
    have := mulPos_strict b a (by rw [Nat.mul_comm b.toNat, hab]; exact h)
    exact key _ this.1 (by rw [Nat.mul_comm a.toNat]; exact this.2)

/-! ### division -/

theorem clr_toNat_div {n : Nat} (q : BitVec n) (k : Nat) (hk : k < n) (b : Bool) :
    let q' := if b then q ||| BitVec.twoPow n k else q &&& ~~~(BitVec.twoPow n k)
    q'.toNat / 2 ^ k = 2 * (q.toNat / 2 ^ (k + 1)) + b.toNat ∧ ∀ i, i < k → q'.getLsbD i = q.getLsbD i := by
  intro q'
  have hbit : ∀ i, i < n → q'.getLsbD i = if i = k then b else q.getLsbD i := by
    intro i hi
    cases b
    · simp only [q', Bool.false_eq_true, if_false]
      rw [BitVec.getLsbD_and, BitVec.getLsbD_not, BitVec.getLsbD_twoPow]
      by_cases h : k = i
      · subst h; simp [hk]
      · simp [hi, h, Ne.symm h]
    · simp only [q', if_true]
      rw [BitVec.getLsbD_or, BitVec.getLsbD_twoPow]
      by_cases h : k = i
      · subst h; simp [hk]
      · simp [hi, h, Ne.symm h]
  refine ⟨?_, fun i hi => by rw [hbit i (by omega), if_neg (by omega)]⟩
  rw [div_pow_step]
  have h1 : q'.toNat.testBit k = b := by
    have := hbit k hk
    rw [if_pos rfl, BitVec.getLsbD] at this
    exact this
  rw [h1]
  congr 2
  apply Nat.eq_of_testBit_eq
  intro i
  rw [Nat.testBit_div_two_pow, Nat.testBit_div_two_pow]
  by_cases hi : i + (k + 1) < n
  · have := hbit (i + (k + 1)) hi
    rw [if_neg (by omega), BitVec.getLsbD, BitVec.getLsbD] at this
    exact this
  · rw [Nat.testBit_lt_two_pow (Nat.lt_of_lt_of_le q'.isLt (Nat.pow_le_pow_right (by decide) (by omega))),
      Nat.testBit_lt_two_pow (Nat.lt_of_lt_of_le q.isLt (Nat.pow_le_pow_right (by decide) (by omega)))]

/-- The valid remainder of a division state. -/
def DivState.rest {n : Nat} (s : DivState n) : BitVec n := if s.copy then s.x else s.r

/-- Invariant of the division loop when the bits below `k` are still to be processed. -/
structure DivInv {n : Nat} (a y : BitVec n) (k : Nat) (s : DivState n) : Prop where
  low : ∀ i, i < k → s.q.getLsbD i = a.getLsbD i
  lt : s.rest.toNat < y.toNat
  eq : a.toNat / 2 ^ k = (s.q.toNat / 2 ^ k) * y.toNat + s.rest.toNat

theorem divStep_inv {n : Nat} (a y : BitVec n) (k : Nat) (s : DivState n) (hk : k < n)
    (hy : 2 * y.toNat ≤ 2 ^ n) (hi : DivInv a y (k + 1) s) : DivInv a y k (divStep y k s) := by
  obtain ⟨hlow, hlt, heq⟩ := hi
  have hb : (a.toNat.testBit k).toNat = (s.q.getLsbD k).toNat := by
    rw [hlow k (by omega)]; rfl
  have hflag := Bool.toNat_le (s.q.getLsbD k)
  have hstep : a.toNat / 2 ^ k = 2 * (s.q.toNat / 2 ^ (k + 1)) * y.toNat +
      (2 * s.rest.toNat + (s.q.getLsbD k).toNat) := by
    rw [div_pow_step, hb, heq, Nat.mul_add, ← Nat.mul_assoc, Nat.add_assoc]
  generalize hf : s.q.getLsbD k = f at *
  have h2 : 2 * s.rest.toNat + f.toNat < 2 ^ n := by omega
  have hr1 : (shl1 s.rest f).toNat = 2 * s.rest.toNat + f.toNat := shl1_toNat _ _ h2
  have common : ∀ (s' : DivState n) (b : Bool),
      s'.q = (if b then s.q ||| BitVec.twoPow n k else s.q &&& ~~~(BitVec.twoPow n k)) →
      subBorrow (shl1 s.rest f) y = !b →
      s'.rest = (if b then shl1 s.rest f - y else shl1 s.rest f) → DivInv a y k s' := by
    intro s' b hq hbor hrest
    have hc := clr_toNat_div s.q k hk b
    rw [← hq] at hc
    refine ⟨fun i hi => by rw [hc.2 i hi, hlow i (by omega)], ?_, ?_⟩
    · rw [hrest]
      cases b
      · simp [subBorrow] at hbor
        simpa using hbor
      · simp [subBorrow] at hbor
        simp only [if_true]
        rw [BitVec.toNat_sub_of_le (by rw [BitVec.le_def]; omega)]
        omega
    · rw [hstep, hc.1, hrest]
      cases b
      · simp [hr1]
      · simp [subBorrow] at hbor
        simp only [if_true, Bool.toNat_true]
        rw [BitVec.toNat_sub_of_le (by rw [BitVec.le_def]; omega), hr1, Nat.add_mul, Nat.one_mul]
        omega
  unfold divStep
  rw [hf]
  by_cases hcp : s.copy = true
  · have hrest : s.rest = s.x := by simp [DivState.rest, hcp]
    rw [hrest] at common
    rw [if_pos hcp]
    by_cases hbor : subBorrow (shl1 s.x f) y = true
    · simp only [hbor, if_true]
      exact common _ false (by simp) (by simpa using hbor) (by simp [DivState.rest])
    · simp only [hbor]
      exact common _ true (by simp) (by simpa using hbor) (by simp [DivState.rest])
  · have hrest : s.rest = s.r := by simp [DivState.rest, hcp]
    rw [hrest] at common
    rw [if_neg hcp]
    by_cases hbor : subBorrow (shl1 s.r f) y = true
    · simp only [hbor, if_true]
      exact common _ false (by simp) (by simpa using hbor) (by simp [DivState.rest])
    · simp only [hbor]
      exact common _ true (by simp) (by simpa using hbor) (by simp [DivState.rest])

theorem divLoop_inv {n : Nat} (a y : BitVec n) (k : Nat) (s : DivState n) (hk : k ≤ n)
    (hy : 2 * y.toNat ≤ 2 ^ n) (hi : DivInv a y k s) : DivInv a y 0 (divLoop y k s) := by
  induction k generalizing s with
  | zero => exact hi
  | succ k ih => exact ih _ (by omega) (divStep_inv a y k s (by omega) hy hi)

theorem divPos_spec {n : Nat} (x y : BitVec n) (hy0 : y.toNat ≠ 0) (hy : 2 * y.toNat ≤ 2 ^ n) :
    (divPos x y).1.toNat = x.toNat / y.toNat ∧ (divPos x y).2.toNat = x.toNat % y.toNat := by
  unfold divPos
  by_cases hx : x.toNat = 0
  · rw [if_pos ((setMax_neg_iff x).2 hx)]; simp [hx]
  rw [if_neg (by rw [setMax_neg_iff]; exact hx), setMax_nonneg x hx]
  have hlog : x.toNat < 2 ^ (x.toNat.log2 + 1) := Nat.lt_log2_self
  have hle : x.toNat.log2 + 1 ≤ n := by
    have : x.toNat.log2 < n := (Nat.log2_lt hx).2 x.isLt
    omega
  have := divLoop_inv x y (x.toNat.log2 + 1) { q := x, x := x, r := 0#n, copy := false } hle hy
    { low := fun i _ => rfl
      lt := by simp [DivState.rest]; omega
      eq := by simp [DivState.rest, Nat.div_eq_of_lt hlog] }
  simp only [Int.toNat_natCast]
  generalize divLoop y (x.toNat.log2 + 1) { q := x, x := x, r := 0#n, copy := false } = s at *
  have heq := this.eq
  have hlt := this.lt
  simp only [Nat.pow_zero, Nat.div_one] at heq
  have hr : (if s.copy = true then s.x else s.r) = s.rest := rfl
  rw [hr]
  rw [heq]
  refine ⟨?_, ?_⟩
  · rw [Nat.mul_comm, Nat.mul_add_div (by omega), Nat.div_eq_of_lt hlt]; rfl
  · rw [Nat.mul_comm, Nat.mul_add_mod, Nat.mod_eq_of_lt hlt]

theorem divide_spec {n : Nat} (x y : BitVec n) (hy0 : y.toNat ≠ 0) :
    divide x y = some (BitVec.ofInt n (x.toInt.tdiv y.toInt), BitVec.ofInt n (x.toInt.tmod y.toInt)) := by
  unfold divide
  rw [if_neg hy0]
  by_cases hx0 : x.toNat = 0
  · rw [if_pos hx0, (toInt_ne_zero x).2 hx0]; simp
  rw [if_neg hx0]
  have hx := abs_toNat x
  have hy := abs_toNat y
  have hyb := natAbs_bound y
  have hym := toInt_neg_iff y
  have hxm := toInt_neg_iff x
  have hy1 : y.toInt ≠ 0 := by rw [Ne, toInt_ne_zero]; exact hy0
  generalize ha : (if x.msb = true then -x else x) = a at *
  generalize hb : (if y.msb = true then -y else y) = b at *
  have hd := divPos_spec a b (by rw [hy]; omega) (by rw [hy]; exact hyb)
  have hq : (x.toInt.tdiv y.toInt).natAbs = x.toInt.natAbs / y.toInt.natAbs := Int.natAbs_tdiv _ _
  have hr : (x.toInt.tmod y.toInt).natAbs = x.toInt.natAbs % y.toInt.natAbs := Int.natAbs_tmod _ _
  rw [hx, hy, ← hq, ← hr] at hd
  simp only [Option.some.injEq, Prod.mk.injEq]
  constructor
  · rw [ofInt_natAbs _ _ hd.1]
    by_cases hz : x.toInt.tdiv y.toInt = 0
    · have : (divPos a b).1 = 0#n := by
        apply BitVec.eq_of_toNat_eq; rw [hd.1, hz]; simp
      rw [this]; simp
    · have hs : (x.msb != y.msb) = true ↔ x.toInt.tdiv y.toInt < 0 := by
        cases h1 : x.msb <;> cases h2 : y.msb <;> simp [h1, h2] at hxm hym ⊢
        · exact Int.tdiv_nonneg hxm hym
        · have := Int.tdiv_nonpos_of_nonneg_of_nonpos (a := x.toInt) (b := y.toInt) hxm (by omega)
          omega
        · have := Int.tdiv_nonneg (a := -x.toInt) (b := y.toInt) (by omega) hym
          rw [Int.neg_tdiv] at this
          omega
        · exact Int.tdiv_nonneg_of_nonpos_of_nonpos (by omega) (by omega)
      by_cases hn : (x.msb != y.msb) = true
      · rw [if_pos hn, if_pos (hs.1 hn)]
      · rw [if_neg hn, if_neg (fun h => hn (hs.2 h))]
  · rw [ofInt_natAbs _ _ hd.2]
    by_cases hz : x.toInt.tmod y.toInt = 0
    · have : (divPos a b).2 = 0#n := by
        apply BitVec.eq_of_toNat_eq; rw [hd.2, hz]; simp
      rw [this]; simp
    · have hs : x.msb = true ↔ x.toInt.tmod y.toInt < 0 := by
        cases h1 : x.msb <;> simp [h1] at hxm ⊢
        · exact Int.tmod_nonneg _ hxm
        · have := Int.tmod_nonneg (a := -x.toInt) y.toInt (by omega)
          rw [Int.neg_tmod] at this
          omega
      by_cases hn : x.msb = true
      · rw [if_pos hn, if_pos (hs.1 hn)]
      · rw [if_neg hn, if_neg (fun h => hn (hs.2 h))]

end Verif.Bitvect
