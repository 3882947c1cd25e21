import Verif.Words.Fields
namespace Verif.Words

/-- The first and last words and bits are those of the ranges of `n` bits from `xo` and `yo` on. -/
structure RangeOk (r : Range) (xo yo n : Nat) : Prop where
  pos : 0 < n
  tlo : xo = 32 * r.tLo + r.tLoBit
  tlo32 : r.tLoBit < 32
  thi : xo + n = 32 * r.tHi + r.tHiBit + 1
  thi32 : r.tHiBit < 32
  slo : yo = 32 * r.sLo + r.sLoBit
  slo32 : r.sLoBit < 32
  shi : yo + n = 32 * r.sHi + r.sHiBit + 1
  shi32 : r.sHiBit < 32

theorem mkRange_ok (xo yo n : Nat) (h : 0 < n) : RangeOk (mkRange xo yo n) xo yo n := by
  unfold mkRange; constructor <;> first | exact h | (show _ = _; simp only []; omega) | (show _ < _; simp only []; omega)

/-- Bit `p` of the result. -/
def goal (X ys : List W) (xo yo n p : Nat) : Bool :=
  if xo ≤ p ∧ p < xo + n then bit ys (yo + (p - xo)) else bit X p

/-- Bit `p` of the result while the bits `a` to `e` are still to be moved. -/
def going (X ys : List W) (xo yo n a e p : Nat) : Bool :=
  if xo + a ≤ p ∧ p < xo + e then false else goal X ys xo yo n p

theorem lowerBit_spec (b lo loBit : Nat) : (b = lo ∧ lowerBit b lo loBit = loBit) ∨ (b ≠ lo ∧ lowerBit b lo loBit = 0) := by
  unfold lowerBit; split
  · exact Or.inl ⟨by assumption, rfl⟩
  · exact Or.inr ⟨by assumption, rfl⟩

theorem upperBit_spec (b hi hiBit : Nat) : (b = hi ∧ upperBit b hi hiBit = hiBit) ∨ (b ≠ hi ∧ upperBit b hi hiBit = 31) := by
  unfold upperBit; split
  · exact Or.inl ⟨by assumption, rfl⟩
  · exact Or.inr ⟨by assumption, rfl⟩

/-- A word of the target before bits are moved to it. -/
theorem startTarget_bit {r : Range} {xo yo n : Nat} (h : RangeOk r xo yo n) (s : Cp) (h1 : r.tLo ≤ s.tBase)
    (h2 : s.tBase ≤ r.tHi) (j : Nat) (hj : j < 32) :
    (startTarget r s).target.getLsbD j =
      if xo ≤ 32 * s.tBase + j ∧ 32 * s.tBase + j < xo + n then false else bit s.x (32 * s.tBase + j) := by
  obtain ⟨p, a1, a2, a3, a4, -, -, -, -⟩ := h
  have hw : (s.x.getD s.tBase 0#32).getLsbD j = bit s.x (32 * s.tBase + j) := by rw [getD_bit]; simp [hj]
  simp only [startTarget]
  by_cases b : s.tBase = r.tHi
  · rw [if_pos b]
    by_cases c : s.tBase = r.tLo
    · rw [if_pos c, BitVec.getLsbD_and, BitVec.getLsbD_not, BitVec.getLsbD_and, lomask_bit, himask_bit _ _ hj, hw,
        lowerBit, upperBit, if_pos c, if_pos b]
      simp only [hj, decide_true, Bool.true_and]
      by_cases d : r.tLoBit ≤ j <;> by_cases e : j ≤ r.tHiBit
      · rw [if_pos (by omega)]; simp [d, e]
      · rw [if_neg (by omega)]; simp [e]
      · rw [if_neg (by omega)]; simp [d]
      · rw [if_neg (by omega)]; simp [d]
    · rw [if_neg c, BitVec.getLsbD_and, hw, upperBit, if_pos b]
      have := himask_bit r.tHiBit j hj
      rw [BitVec.getLsbD_not] at this
      simp only [hj, decide_true, Bool.true_and] at this
      have h' : ((ones <<< r.tHiBit) <<< 1 : W).getLsbD j = !decide (j ≤ r.tHiBit) := by rw [← this, Bool.not_not]
      rw [h']
      by_cases e : j ≤ r.tHiBit
      · rw [if_pos (by omega)]; simp [e]
      · rw [if_neg (by omega)]; simp [e]
  · rw [if_neg b]
    by_cases c : s.tBase = r.tLo
    · rw [if_pos c, BitVec.getLsbD_and, BitVec.getLsbD_not, lomask_bit, hw, lowerBit, if_pos c]
      simp only [hj, decide_true, Bool.true_and]
      by_cases d : r.tLoBit ≤ j
      · rw [if_pos (by omega)]; simp [d]
      · rw [if_neg (by omega)]; simp [d]
    · rw [if_neg c, if_pos (by omega)]; simp

/-- The bits moved from one word to the other. -/
theorem part_bit (src : W) (sMin tMin bits : Nat) (hb : 0 < bits) (h1 : sMin + bits ≤ 32) (h2 : tMin + bits ≤ 32) (j : Nat)
    (hj : j < 32) :
    (if sMin = tMin then src &&& ((ones <<< sMin) &&& ~~~((ones <<< (sMin + bits - 1)) <<< 1))
      else if sMin < tMin then (src &&& ((ones <<< sMin) &&& ~~~((ones <<< (sMin + bits - 1)) <<< 1))) <<< (tMin - sMin)
      else (src &&& ((ones <<< sMin) &&& ~~~((ones <<< (sMin + bits - 1)) <<< 1))) >>> (sMin - tMin) : W).getLsbD j =
      (decide (tMin ≤ j ∧ j < tMin + bits) && src.getLsbD (j - tMin + sMin)) := by
  have hm : ∀ i, i < 32 → (src &&& ((ones <<< sMin) &&& ~~~((ones <<< (sMin + bits - 1)) <<< 1))).getLsbD i =
      (src.getLsbD i && decide (sMin ≤ i ∧ i < sMin + bits)) := by
    intro i hi
    rw [BitVec.getLsbD_and, BitVec.getLsbD_and, lomask_bit, himask_bit _ _ hi]
    congr 1
    by_cases a : sMin ≤ i <;> by_cases b : i < sMin + bits
    · have : i ≤ sMin + bits - 1 := by omega
      simp [hi, a, b, this]
    · have : ¬ i ≤ sMin + bits - 1 := by omega
      simp [b, this]
    · simp [a]
    · simp [a]
  by_cases e : sMin = tMin
  · subst e
    rw [if_pos rfl, hm j hj, Bool.and_comm]
    by_cases a : sMin ≤ j
    · rw [show j - sMin + sMin = j by omega]
    · simp [a]
  · rw [if_neg e]
    by_cases l : sMin < tMin
    · rw [if_pos l, BitVec.getLsbD_shiftLeft]
      by_cases a : j < tMin - sMin
      · have : ¬ tMin ≤ j := by omega
        simp [a, this]
      · rw [hm _ (by omega), Bool.and_comm (BitVec.getLsbD src _)]
        have e1 : (sMin ≤ j - (tMin - sMin) ∧ j - (tMin - sMin) < sMin + bits) ↔ (tMin ≤ j ∧ j < tMin + bits) := by omega
        simp only [e1, hj, a, decide_true, decide_false, Bool.true_and, Bool.not_false]
        by_cases c : tMin ≤ j
        · rw [show j - (tMin - sMin) = j - tMin + sMin by omega]
        · simp [c]
    · rw [if_neg l, BitVec.getLsbD_ushiftRight]
      by_cases a : sMin - tMin + j < 32
      · rw [hm _ a, Bool.and_comm]
        have e1 : (sMin ≤ sMin - tMin + j ∧ sMin - tMin + j < sMin + bits) ↔ (tMin ≤ j ∧ j < tMin + bits) := by omega
        simp only [e1]
        by_cases c : tMin ≤ j
        · rw [show sMin - tMin + j = j - tMin + sMin by omega]
        · simp [c]
      · rw [BitVec.getLsbD_of_ge _ _ (by omega)]
        have : ¬ (tMin ≤ j ∧ j < tMin + bits) := by omega
        simp [this]

/-- The number of bits moved. -/
def moved (s : Cp) : Nat := if s.sBits > s.tBits then s.tBits else s.sBits

theorem moveBits_target (r : Range) (s : Cp) (hs : 0 < s.sBits) (ht : 0 < s.tBits) (us : s.sUpper + 1 = s.sLower + s.sBits)
    (ut : s.tUpper + 1 = s.tLower + s.tBits) (s32 : s.sLower + s.sBits ≤ 32) (t32 : s.tLower + s.tBits ≤ 32) (j : Nat) (hj : j < 32) :
    (moveBits r s).target.getLsbD j = (s.target.getLsbD j ||
      if r.asc then decide (s.tLower ≤ j ∧ j < s.tLower + moved s) && s.source.getLsbD (j - s.tLower + s.sLower)
      else decide (s.tLower + s.tBits - moved s ≤ j ∧ j < s.tLower + s.tBits) &&
        s.source.getLsbD (j - (s.tLower + s.tBits - moved s) + (s.sLower + s.sBits - moved s))) := by
  have hm : 0 < moved s ∧ moved s ≤ s.sBits ∧ moved s ≤ s.tBits := by unfold moved; split <;> omega
  obtain ⟨m1, m2, m3⟩ := hm
  have key : ∀ sMin sMax tMin : Nat, sMax = sMin + moved s - 1 → sMin + moved s ≤ 32 → tMin + moved s ≤ 32 →
      (if sMin = tMin then s.source &&& ((ones <<< sMin) &&& ~~~((ones <<< sMax) <<< 1))
        else if sMin < tMin then (s.source &&& ((ones <<< sMin) &&& ~~~((ones <<< sMax) <<< 1))) <<< (tMin - sMin)
        else (s.source &&& ((ones <<< sMin) &&& ~~~((ones <<< sMax) <<< 1))) >>> (sMin - tMin) : W).getLsbD j =
        (decide (tMin ≤ j ∧ j < tMin + moved s) && s.source.getLsbD (j - tMin + sMin)) := by
    intro sMin sMax tMin e h1 h2
    subst e
    exact part_bit s.source sMin tMin (moved s) m1 h1 h2 j hj
  simp only [moveBits]
  rw [BitVec.getLsbD_or]
  congr 1
  rw [show (if s.sBits > s.tBits then s.tBits else s.sBits) = moved s from rfl]
  cases r.asc
  · simp only [Bool.false_eq_true, if_false]
    have e1 : (if s.sBits > s.tBits then s.sUpper - (moved s - 1) else s.sLower) = s.sLower + s.sBits - moved s := by
      unfold moved; split <;> omega
    have e2 : (if s.sBits > s.tBits then s.sUpper else s.sUpper) = s.sLower + s.sBits - moved s + moved s - 1 := by
      split <;> omega
    have e3 : (if s.sBits > s.tBits then s.tLower else s.tUpper - (moved s - 1)) = s.tLower + s.tBits - moved s := by
      unfold moved; split <;> omega
    rw [e1, e2, e3, key _ _ _ rfl (by omega) (by omega), show s.tLower + s.tBits - moved s + moved s = s.tLower + s.tBits by omega]
  · simp only [if_true]
    have e1 : (if s.sBits > s.tBits then s.sLower else s.sLower) = s.sLower := by split <;> rfl
    have e2 : (if s.sBits > s.tBits then s.sLower + (moved s - 1) else s.sUpper) = s.sLower + moved s - 1 := by
      unfold moved; split <;> omega
    have e3 : (if s.sBits > s.tBits then s.tLower else s.tLower) = s.tLower := by split <;> rfl
    rw [e1, e2, e3, key _ _ _ rfl (by omega) (by omega)]

/-- What holds between two iterations, when the bits `a` to `e` are still to be moved. -/
structure Inv (r : Range) (X ys : List W) (xo yo n : Nat) (s : Cp) (a e : Nat) : Prop where
  ae : a ≤ e
  en : e ≤ n
  end_ : if r.asc then e = n ∧ 32 * s.tBase + s.tLower = xo + a ∧ 32 * s.sBase + s.sLower = yo + a ∧
        s.tLower + s.tBits = upperBit s.tBase r.tHi r.tHiBit + 1 ∧ s.sLower + s.sBits = upperBit s.sBase r.sHi r.sHiBit + 1
      else a = 0 ∧ 32 * s.tBase + s.tLower + s.tBits = xo + e ∧ 32 * s.sBase + s.sLower + s.sBits = yo + e ∧
        s.tLower = lowerBit s.tBase r.tLo r.tLoBit ∧ s.sLower = lowerBit s.sBase r.sLo r.sLoBit
  ut : 0 < s.tBits → s.tUpper + 1 = s.tLower + s.tBits
  us : 0 < s.sBits → s.sUpper + 1 = s.sLower + s.sBits
  t32 : s.tLower + s.tBits ≤ 32
  s32 : s.sLower + s.sBits ≤ 32
  tb : r.tLo ≤ s.tBase ∧ s.tBase ≤ r.tHi
  sb : r.sLo ≤ s.sBase ∧ s.sBase ≤ r.sHi
  source : s.source = ys.getD s.sBase 0#32
  target : ∀ j, j < 32 → s.target.getLsbD j = going X ys xo yo n a e (32 * s.tBase + j)
  len : s.x.length = X.length
  words : ∀ i, bit s.x i = if (if r.asc then i / 32 < s.tBase else s.tBase < i / 32) then goal X ys xo yo n i else bit X i

variable {r : Range} {X ys : List W} {xo yo n : Nat}

theorem source_bit {s : Cp} (h : s.source = ys.getD s.sBase 0#32) (i : Nat) (hi : i < 32) :
    s.source.getLsbD i = bit ys (32 * s.sBase + i) := by
  rw [h, getD_bit]; simp [hi]

theorem going_in (a e p : Nat) (h : xo + a ≤ p ∧ p < xo + e) : going X ys xo yo n a e p = false := by
  unfold going; rw [if_pos h]

theorem going_done (a e p : Nat) (h : ¬ (xo + a ≤ p ∧ p < xo + e)) (hp : xo ≤ p ∧ p < xo + n) :
    going X ys xo yo n a e p = bit ys (yo + (p - xo)) := by
  unfold going goal; rw [if_neg h, if_pos hp]

theorem going_congr (a e a' e' p : Nat) (h : (xo + a ≤ p ∧ p < xo + e) ↔ (xo + a' ≤ p ∧ p < xo + e')) :
    going X ys xo yo n a e p = going X ys xo yo n a' e' p := by
  unfold going
  by_cases c : xo + a ≤ p ∧ p < xo + e
  · rw [if_pos c, if_pos (h.1 c)]
  · rw [if_neg c, if_neg (fun d => c (h.2 d))]

theorem Inv.move (hr : RangeOk r xo yo n) {s : Cp} {a e : Nat} (h : Inv r X ys xo yo n s a e) (ht : 0 < s.tBits) (hs : 0 < s.sBits) :
    Inv r X ys xo yo n (moveBits r s) (if r.asc then a + moved s else a) (if r.asc then e else e - moved s) ∧
      0 < moved s ∧ moved s ≤ e - a := by
  have hm : 0 < moved s ∧ moved s ≤ s.sBits ∧ moved s ≤ s.tBits := by unfold moved; split <;> omega
  obtain ⟨m1, m2, m3⟩ := hm
  have htar := moveBits_target r s hs ht (h.us hs) (h.ut ht) h.s32 h.t32
  obtain ⟨ae, en, hend, ut, us, t32, s32, tb, sb, src, tar, len, wds⟩ := h
  obtain ⟨-, r1, r2, r3, r4, r5, r6, r7, r8⟩ := hr
  have ut := ut ht
  have us := us hs
  rcases (by decide : ∀ b : Bool, b = false ∨ b = true) r.asc with hasc | hasc
  · simp only [hasc, Bool.false_eq_true, if_false] at hend wds htar ⊢
    obtain ⟨h0, h1, h2, h3, h4⟩ := hend
    subst h0
    have hle : moved s ≤ e := by
      rcases lowerBit_spec s.tBase r.tLo r.tLoBit with ⟨q1, q2⟩ | ⟨q1, q2⟩ <;> omega
    refine ⟨⟨by omega, by omega, ?_, ?_, ?_, ?_, ?_, tb, sb, src, ?_, len, ?_⟩, m1, by omega⟩
    · simp only [hasc, Bool.false_eq_true, if_false, moveBits]
      rw [show (if s.sBits > s.tBits then s.tBits else s.sBits) = moved s from rfl]
      exact ⟨trivial, by omega, by omega, h3, h4⟩
    · simp only [hasc, Bool.false_eq_true, if_false, moveBits]
      rw [show (if s.sBits > s.tBits then s.tBits else s.sBits) = moved s from rfl]
      omega
    · simp only [hasc, Bool.false_eq_true, if_false, moveBits]
      rw [show (if s.sBits > s.tBits then s.tBits else s.sBits) = moved s from rfl]
      omega
    · simp only [hasc, Bool.false_eq_true, if_false, moveBits]
      rw [show (if s.sBits > s.tBits then s.tBits else s.sBits) = moved s from rfl]
      omega
    · simp only [hasc, Bool.false_eq_true, if_false, moveBits]
      rw [show (if s.sBits > s.tBits then s.tBits else s.sBits) = moved s from rfl]
      omega
    · intro j hj
      show (moveBits r s).target.getLsbD j = going X ys xo yo n 0 (e - moved s) (32 * s.tBase + j)
      rw [htar j hj, tar j hj]
      by_cases c : s.tLower + s.tBits - moved s ≤ j ∧ j < s.tLower + s.tBits
      · rw [going_in _ _ _ (by omega), going_done _ _ _ (by omega) (by omega), source_bit src _ (by omega)]
        simp only [c, and_self, decide_true, Bool.true_and, Bool.false_or]
        congr 1; omega
      · rw [going_congr 0 e 0 (e - moved s) _ (by omega)]
        rw [decide_eq_false c]; simp
    · simpa only [hasc, Bool.false_eq_true, if_false, moveBits] using wds
  · simp only [hasc, if_true] at hend wds htar ⊢
    obtain ⟨h0, h1, h2, h3, h4⟩ := hend
    subst h0
    have hle : moved s ≤ e - a := by
      rcases upperBit_spec s.tBase r.tHi r.tHiBit with ⟨q1, q2⟩ | ⟨q1, q2⟩ <;> omega
    refine ⟨⟨by omega, by omega, ?_, ?_, ?_, ?_, ?_, tb, sb, src, ?_, len, ?_⟩, m1, by omega⟩
    · simp only [hasc, if_true, moveBits]
      rw [show (if s.sBits > s.tBits then s.tBits else s.sBits) = moved s from rfl]
      exact ⟨trivial, by omega, by omega, by omega, by omega⟩
    · simp only [hasc, if_true, moveBits]
      rw [show (if s.sBits > s.tBits then s.tBits else s.sBits) = moved s from rfl]
      omega
    · simp only [hasc, if_true, moveBits]
      rw [show (if s.sBits > s.tBits then s.tBits else s.sBits) = moved s from rfl]
      omega
    · simp only [hasc, if_true, moveBits]
      rw [show (if s.sBits > s.tBits then s.tBits else s.sBits) = moved s from rfl]
      omega
    · simp only [hasc, if_true, moveBits]
      rw [show (if s.sBits > s.tBits then s.tBits else s.sBits) = moved s from rfl]
      omega
    · intro j hj
      show (moveBits r s).target.getLsbD j = going X ys xo yo e (a + moved s) e (32 * s.tBase + j)
      rw [htar j hj, tar j hj]
      by_cases c : s.tLower ≤ j ∧ j < s.tLower + moved s
      · rw [going_in _ _ _ (by omega), going_done _ _ _ (by omega) (by omega), source_bit src _ (by omega)]
        simp only [c, and_self, decide_true, Bool.true_and, Bool.false_or]
        congr 1; omega
      · rw [going_congr a e (a + moved s) e _ (by omega)]
        rw [decide_eq_false c]; simp
    · simpa only [hasc, if_true, moveBits] using wds

/-- At the end of the target everything is in its place. -/
theorem Inv.last (hr : RangeOk r xo yo n) {s : Cp} {a e : Nat} (h : Inv r X ys xo yo n s a e) (ht : s.tBits = 0)
    (hl : s.tBase = if r.asc then r.tHi else r.tLo) (hX : r.tHi < X.length) (i : Nat) :
    bit (s.x.set s.tBase s.target) i = goal X ys xo yo n i := by
  obtain ⟨ae, en, hend, ut, us, t32, s32, tb, sb, src, tar, len, wds⟩ := h
  obtain ⟨-, r1, r2, r3, r4, r5, r6, r7, r8⟩ := hr
  rw [bit_set _ _ _ (by omega)]
  have hmi : i % 32 < 32 := Nat.mod_lt _ (by omega)
  by_cases b : i / 32 = s.tBase
  · rw [if_pos b, tar _ hmi, show 32 * s.tBase + i % 32 = i by omega]
    unfold going
    rw [if_neg]
    rcases (by decide : ∀ b : Bool, b = false ∨ b = true) r.asc with hasc | hasc
    · simp only [hasc, Bool.false_eq_true, if_false] at hend hl
      rcases lowerBit_spec s.tBase r.tLo r.tLoBit with ⟨q1, q2⟩ | ⟨q1, q2⟩ <;> omega
    · simp only [hasc, if_true] at hend hl
      rcases upperBit_spec s.tBase r.tHi r.tHiBit with ⟨q1, q2⟩ | ⟨q1, q2⟩ <;> omega
  · rw [if_neg b, wds]
    rcases (by decide : ∀ b : Bool, b = false ∨ b = true) r.asc with hasc | hasc
    · simp only [hasc, Bool.false_eq_true, if_false] at hend hl ⊢
      by_cases c : s.tBase < i / 32
      · rw [if_pos c]
      · rw [if_neg c]; unfold goal; rw [if_neg (by omega)]
    · simp only [hasc, if_true] at hend hl ⊢
      by_cases c : i / 32 < s.tBase
      · rw [if_pos c]
      · rw [if_neg c]; unfold goal; rw [if_neg (by omega)]

/-- The next word of the target. -/
theorem Inv.target_next (hr : RangeOk r xo yo n) {s : Cp} {a e : Nat} (h : Inv r X ys xo yo n s a e) (ht : s.tBits = 0)
    (hl : s.tBase ≠ if r.asc then r.tHi else r.tLo) (hX : r.tHi < X.length) :
    Inv r X ys xo yo n (startTarget r { s with
      x := s.x.set s.tBase s.target
      tBase := if r.asc then s.tBase + 1 else s.tBase - 1 }) a e ∧
    0 < (startTarget r { s with
      x := s.x.set s.tBase s.target
      tBase := if r.asc then s.tBase + 1 else s.tBase - 1 }).tBits := by
  obtain ⟨ae, en, hend, ut, us, t32, s32, tb, sb, src, tar, len, wds⟩ := h
  have hr' := hr
  obtain ⟨r0, r1, r2, r3, r4, r5, r6, r7, r8⟩ := hr
  refine ⟨?_, by simp [startTarget]⟩
  rcases (by decide : ∀ b : Bool, b = false ∨ b = true) r.asc with hasc | hasc
  · simp only [hasc, Bool.false_eq_true, if_false] at hend hl wds ⊢
    obtain ⟨h0, h1, h2, h3, h4⟩ := hend
    subst h0
    have q0 : lowerBit s.tBase r.tLo r.tLoBit = 0 := by
      rcases lowerBit_spec s.tBase r.tLo r.tLoBit with ⟨q1, q2⟩ | ⟨q1, q2⟩ <;> omega
    have hx : ∀ i, bit (s.x.set s.tBase s.target) i = if s.tBase - 1 < i / 32 then goal X ys xo yo n i else bit X i := by
      intro i
      have hmi : i % 32 < 32 := Nat.mod_lt _ (by omega)
      rw [bit_set _ _ _ (by omega)]
      by_cases b : i / 32 = s.tBase
      · rw [if_pos b, if_pos (by omega), tar _ hmi, show 32 * s.tBase + i % 32 = i by omega]
        unfold going; rw [if_neg (by omega)]
      · rw [if_neg b, wds]
        by_cases c : s.tBase < i / 32
        · rw [if_pos c, if_pos (by omega)]
        · rw [if_neg c, if_neg (by omega)]
    have hup := upperBit_spec (s.tBase - 1) r.tHi r.tHiBit
    have hlow := lowerBit_spec (s.tBase - 1) r.tLo r.tLoBit
    have hsum : lowerBit (s.tBase - 1) r.tLo r.tLoBit + (upperBit (s.tBase - 1) r.tHi r.tHiBit - lowerBit (s.tBase - 1) r.tLo r.tLoBit + 1) = 32 := by
      rcases hup with ⟨q1, q2⟩ | ⟨q1, q2⟩ <;> rcases hlow with ⟨q3, q4⟩ | ⟨q3, q4⟩ <;> omega
    refine ⟨ae, en, ?_, ?_, us, ?_, s32, ?_, sb, src, ?_, ?_, ?_⟩
    · simp only [hasc, Bool.false_eq_true, if_false, startTarget]
      exact ⟨trivial, by omega, h2, trivial, h4⟩
    · simp only [startTarget]; intro _
      rcases hup with ⟨q1, q2⟩ | ⟨q1, q2⟩ <;> rcases hlow with ⟨q3, q4⟩ | ⟨q3, q4⟩ <;> omega
    · simp only [startTarget]; omega
    · simp only [startTarget]; omega
    · intro j hj
      rw [startTarget_bit hr' _ (by simp only []; omega) (by simp only []; omega) j hj]
      show _ = going X ys xo yo n 0 e (32 * (s.tBase - 1) + j)
      simp only [hx]
      by_cases c : xo ≤ 32 * (s.tBase - 1) + j ∧ 32 * (s.tBase - 1) + j < xo + n
      · rw [if_pos c, going_in _ _ _ (by omega)]
      · rw [if_neg c, if_neg (by omega)]
        unfold going goal; rw [if_neg (by omega), if_neg c]
    · simp only [startTarget, List.length_set]; exact len
    · simpa only [hasc, Bool.false_eq_true, if_false, startTarget] using hx
  · simp only [hasc, if_true] at hend hl wds ⊢
    obtain ⟨h0, h1, h2, h3, h4⟩ := hend
    subst h0
    have q0 : upperBit s.tBase r.tHi r.tHiBit = 31 := by
      rcases upperBit_spec s.tBase r.tHi r.tHiBit with ⟨q1, q2⟩ | ⟨q1, q2⟩ <;> omega
    have hx : ∀ i, bit (s.x.set s.tBase s.target) i = if i / 32 < s.tBase + 1 then goal X ys xo yo e i else bit X i := by
      intro i
      have hmi : i % 32 < 32 := Nat.mod_lt _ (by omega)
      rw [bit_set _ _ _ (by omega)]
      by_cases b : i / 32 = s.tBase
      · rw [if_pos b, if_pos (by omega), tar _ hmi, show 32 * s.tBase + i % 32 = i by omega]
        unfold going; rw [if_neg (by omega)]
      · rw [if_neg b, wds]
        by_cases c : i / 32 < s.tBase
        · rw [if_pos c, if_pos (by omega)]
        · rw [if_neg c, if_neg (by omega)]
    have hup := upperBit_spec (s.tBase + 1) r.tHi r.tHiBit
    have hlow : lowerBit (s.tBase + 1) r.tLo r.tLoBit = 0 := by
      rcases lowerBit_spec (s.tBase + 1) r.tLo r.tLoBit with ⟨q1, q2⟩ | ⟨q1, q2⟩ <;> omega
    refine ⟨ae, en, ?_, ?_, us, ?_, s32, ?_, sb, src, ?_, ?_, ?_⟩
    · simp only [hasc, if_true, startTarget, hlow]
      exact ⟨trivial, by omega, h2, by omega, h4⟩
    · simp only [startTarget, hlow]; intro _; omega
    · simp only [startTarget, hlow]
      rcases hup with ⟨q1, q2⟩ | ⟨q1, q2⟩ <;> omega
    · simp only [startTarget]; omega
    · intro j hj
      rw [startTarget_bit hr' _ (by simp only []; omega) (by simp only []; omega) j hj]
      show _ = going X ys xo yo e a e (32 * (s.tBase + 1) + j)
      simp only [hx]
      by_cases c : xo ≤ 32 * (s.tBase + 1) + j ∧ 32 * (s.tBase + 1) + j < xo + e
      · rw [if_pos c, going_in _ _ _ (by omega)]
      · rw [if_neg c, if_neg (by omega)]
        unfold going goal; rw [if_neg (by omega), if_neg c]
    · simp only [startTarget, List.length_set]; exact len
    · simpa only [hasc, if_true, startTarget] using hx

/-- The next word of the source; there is one as long as the target is not full. -/
theorem Inv.source_next (hr : RangeOk r xo yo n) {s : Cp} {a e : Nat} (h : Inv r X ys xo yo n s a e) (ht : 0 < s.tBits) (hs : s.sBits = 0) :
    s.sBase ≠ (if r.asc then r.sHi else r.sLo) ∧
    Inv r X ys xo yo n (startSource r ys { s with sBase := if r.asc then s.sBase + 1 else s.sBase - 1 }) a e ∧
    0 < (startSource r ys { s with sBase := if r.asc then s.sBase + 1 else s.sBase - 1 }).sBits := by
  obtain ⟨ae, en, hend, ut, us, t32, s32, tb, sb, src, tar, len, wds⟩ := h
  obtain ⟨r0, r1, r2, r3, r4, r5, r6, r7, r8⟩ := hr
  rcases (by decide : ∀ b : Bool, b = false ∨ b = true) r.asc with hasc | hasc
  · simp only [hasc, Bool.false_eq_true, if_false] at hend wds ⊢
    obtain ⟨h0, h1, h2, h3, h4⟩ := hend
    subst h0
    have hne : s.sBase ≠ r.sLo := by
      intro c
      rcases lowerBit_spec s.sBase r.sLo r.sLoBit with ⟨q1, q2⟩ | ⟨q1, q2⟩ <;>
      rcases lowerBit_spec s.tBase r.tLo r.tLoBit with ⟨q3, q4⟩ | ⟨q3, q4⟩ <;> omega
    have q0 : lowerBit s.sBase r.sLo r.sLoBit = 0 := by
      rcases lowerBit_spec s.sBase r.sLo r.sLoBit with ⟨q1, q2⟩ | ⟨q1, q2⟩ <;> omega
    have hup := upperBit_spec (s.sBase - 1) r.sHi r.sHiBit
    have hlow := lowerBit_spec (s.sBase - 1) r.sLo r.sLoBit
    have hsum : lowerBit (s.sBase - 1) r.sLo r.sLoBit + (upperBit (s.sBase - 1) r.sHi r.sHiBit - lowerBit (s.sBase - 1) r.sLo r.sLoBit + 1) = 32 := by
      rcases hup with ⟨q1, q2⟩ | ⟨q1, q2⟩ <;> rcases hlow with ⟨q3, q4⟩ | ⟨q3, q4⟩ <;> omega
    refine ⟨hne, ⟨ae, en, ?_, ut, ?_, t32, ?_, tb, ?_, rfl, tar, len, ?_⟩, by simp [startSource]⟩
    · simp only [hasc, Bool.false_eq_true, if_false, startSource]
      exact ⟨trivial, h1, by omega, h3, trivial⟩
    · simp only [startSource]; intro _
      rcases hup with ⟨q1, q2⟩ | ⟨q1, q2⟩ <;> rcases hlow with ⟨q3, q4⟩ | ⟨q3, q4⟩ <;> omega
    · simp only [startSource]; omega
    · simp only [startSource]; omega
    · simpa only [hasc, Bool.false_eq_true, if_false, startSource] using wds
  · simp only [hasc, if_true] at hend wds ⊢
    obtain ⟨h0, h1, h2, h3, h4⟩ := hend
    subst h0
    have hne : s.sBase ≠ r.sHi := by
      intro c
      rcases upperBit_spec s.sBase r.sHi r.sHiBit with ⟨q1, q2⟩ | ⟨q1, q2⟩ <;>
      rcases upperBit_spec s.tBase r.tHi r.tHiBit with ⟨q3, q4⟩ | ⟨q3, q4⟩ <;> omega
    have q0 : upperBit s.sBase r.sHi r.sHiBit = 31 := by
      rcases upperBit_spec s.sBase r.sHi r.sHiBit with ⟨q1, q2⟩ | ⟨q1, q2⟩ <;> omega
    have hup := upperBit_spec (s.sBase + 1) r.sHi r.sHiBit
    have hlow : lowerBit (s.sBase + 1) r.sLo r.sLoBit = 0 := by
      rcases lowerBit_spec (s.sBase + 1) r.sLo r.sLoBit with ⟨q1, q2⟩ | ⟨q1, q2⟩ <;> omega
    refine ⟨hne, ⟨ae, en, ?_, ut, ?_, t32, ?_, tb, ?_, rfl, tar, len, ?_⟩, by simp [startSource]⟩
    · simp only [hasc, if_true, startSource, hlow]
      exact ⟨trivial, h1, by omega, h3, by omega⟩
    · simp only [startSource, hlow]; intro _; omega
    · simp only [startSource, hlow]
      rcases hup with ⟨q1, q2⟩ | ⟨q1, q2⟩ <;> omega
    · simp only [startSource]; omega
    · simpa only [hasc, if_true, startSource] using wds

theorem copyLoop_bit (hr : RangeOk r xo yo n) (hX : r.tHi < X.length) (k : Nat) (s : Cp) (a e : Nat)
    (h : Inv r X ys xo yo n s a e) (hk : e - a < k) (i : Nat) :
    bit (copyLoop r ys k s) i = goal X ys xo yo n i ∧ (copyLoop r ys k s).length = X.length := by
  induction k generalizing s a e with
  | zero => omega
  | succ k ih =>
    have rest : ∀ s' : Cp, Inv r X ys xo yo n s' a e → 0 < s'.tBits →
        (bit (if (nextSource r ys s').2 then (nextSource r ys s').1.x else copyLoop r ys k (moveBits r (nextSource r ys s').1)) i =
          goal X ys xo yo n i ∧
        (if (nextSource r ys s').2 then (nextSource r ys s').1.x else copyLoop r ys k (moveBits r (nextSource r ys s').1)).length = X.length) := by
      intro s' h' ht'
      have go : ∀ s'' : Cp, Inv r X ys xo yo n s'' a e → 0 < s''.tBits → 0 < s''.sBits →
          bit (copyLoop r ys k (moveBits r s'')) i = goal X ys xo yo n i ∧ (copyLoop r ys k (moveBits r s'')).length = X.length := by
        intro s'' h'' t'' q''
        obtain ⟨m1, m2, m3⟩ := h''.move hr t'' q''
        refine ih _ _ _ m1 ?_
        split <;> omega
      by_cases hs : s'.sBits = 0
      · obtain ⟨n1, n2, n3⟩ := h'.source_next hr ht' hs
        have e1 : nextSource r ys s' = (startSource r ys { s' with sBase := if r.asc then s'.sBase + 1 else s'.sBase - 1 }, false) := by
          unfold nextSource; rw [if_pos hs, if_neg n1]
        rw [e1]
        exact go _ n2 ht' n3
      · have e1 : nextSource r ys s' = (s', false) := by unfold nextSource; rw [if_neg hs]
        rw [e1]
        exact go s' h' ht' (by omega)
    simp only [copyLoop]
    by_cases ht : s.tBits = 0
    · by_cases hl : s.tBase = if r.asc then r.tHi else r.tLo
      · have e1 : nextTarget r s = ({ s with x := s.x.set s.tBase s.target }, true) := by
          unfold nextTarget; rw [if_pos ht]; simp only []; rw [if_pos hl]
        rw [e1]
        exact ⟨h.last hr ht hl hX i, by simp [h.len]⟩
      · obtain ⟨n1, n2⟩ := h.target_next hr ht hl hX
        have e1 : nextTarget r s = (startTarget r { s with
            x := s.x.set s.tBase s.target
            tBase := if r.asc then s.tBase + 1 else s.tBase - 1 }, false) := by
          unfold nextTarget; rw [if_pos ht]; simp only []; rw [if_neg hl]
        rw [e1]
        exact rest _ n1 n2
    · have e1 : nextTarget r s = (s, false) := by unfold nextTarget; rw [if_neg ht]
      rw [e1]
      exact rest s h (by omega)

theorem first_inv (hr : RangeOk r xo yo n) (X ys : List W) :
    Inv r X ys xo yo n (startSource r ys (startTarget r
      ⟨X, if r.asc then r.sLo else r.sHi, if r.asc then r.tLo else r.tHi, 0#32, 0#32, 0, 0, 0, 0, 0, 0⟩)) 0 n ∧
    0 < (startSource r ys (startTarget r
      ⟨X, if r.asc then r.sLo else r.sHi, if r.asc then r.tLo else r.tHi, 0#32, 0#32, 0, 0, 0, 0, 0, 0⟩)).tBits ∧
    0 < (startSource r ys (startTarget r
      ⟨X, if r.asc then r.sLo else r.sHi, if r.asc then r.tLo else r.tHi, 0#32, 0#32, 0, 0, 0, 0, 0, 0⟩)).sBits := by
  have hr' := hr
  obtain ⟨r0, r1, r2, r3, r4, r5, r6, r7, r8⟩ := hr
  refine ⟨?_, by simp [startTarget, startSource], by simp [startTarget, startSource]⟩
  have hT := startTarget_bit hr'
    ⟨X, if r.asc then r.sLo else r.sHi, if r.asc then r.tLo else r.tHi, 0#32, 0#32, 0, 0, 0, 0, 0, 0⟩
    (by simp only []; split <;> omega) (by simp only []; split <;> omega)
  have hgo : ∀ p, going X ys xo yo n 0 n p = if xo ≤ p ∧ p < xo + n then false else bit X p := by
    intro p
    by_cases c : xo ≤ p ∧ p < xo + n
    · simp [going, c]
    · simp only [going, goal, Nat.add_zero, if_neg c]
  rcases (by decide : ∀ b : Bool, b = false ∨ b = true) r.asc with hasc | hasc
  · simp only [hasc, Bool.false_eq_true, if_false] at hT ⊢
    have u1 : upperBit r.tHi r.tHi r.tHiBit = r.tHiBit := by simp [upperBit]
    have u2 : upperBit r.sHi r.sHi r.sHiBit = r.sHiBit := by simp [upperBit]
    have l1 := lowerBit_spec r.tHi r.tLo r.tLoBit
    have l2 := lowerBit_spec r.sHi r.sLo r.sLoBit
    refine ⟨by omega, by omega, ?_, ?_, ?_, ?_, ?_, ?_, ?_, rfl, ?_, rfl, ?_⟩
    · simp only [hasc, Bool.false_eq_true, if_false, startTarget, startSource, u1, u2]
      refine ⟨trivial, ?_, ?_, trivial, trivial⟩
      · rcases l1 with ⟨q1, q2⟩ | ⟨q1, q2⟩ <;> omega
      · rcases l2 with ⟨q1, q2⟩ | ⟨q1, q2⟩ <;> omega
    · simp only [startTarget, startSource, u1]; intro _
      rcases l1 with ⟨q1, q2⟩ | ⟨q1, q2⟩ <;> omega
    · simp only [startTarget, startSource, u2]; intro _
      rcases l2 with ⟨q1, q2⟩ | ⟨q1, q2⟩ <;> omega
    · simp only [startTarget, startSource, u1]
      rcases l1 with ⟨q1, q2⟩ | ⟨q1, q2⟩ <;> omega
    · simp only [startTarget, startSource, u2]
      rcases l2 with ⟨q1, q2⟩ | ⟨q1, q2⟩ <;> omega
    · simp only [startTarget, startSource]; omega
    · simp only [startTarget, startSource]; omega
    · intro j hj
      rw [hgo]
      exact hT j hj
    · intro i
      simp only [hasc, Bool.false_eq_true, if_false, startTarget, startSource]
      by_cases c : r.tHi < i / 32
      · rw [if_pos c]; unfold goal; rw [if_neg (by omega)]
      · rw [if_neg c]
  · simp only [hasc, if_true] at hT ⊢
    have u1 : lowerBit r.tLo r.tLo r.tLoBit = r.tLoBit := by simp [lowerBit]
    have u2 : lowerBit r.sLo r.sLo r.sLoBit = r.sLoBit := by simp [lowerBit]
    have l1 := upperBit_spec r.tLo r.tHi r.tHiBit
    have l2 := upperBit_spec r.sLo r.sHi r.sHiBit
    refine ⟨by omega, by omega, ?_, ?_, ?_, ?_, ?_, ?_, ?_, rfl, ?_, rfl, ?_⟩
    · simp only [hasc, if_true, startTarget, startSource, u1, u2]
      refine ⟨trivial, by omega, by omega, ?_, ?_⟩
      · rcases l1 with ⟨q1, q2⟩ | ⟨q1, q2⟩ <;> omega
      · rcases l2 with ⟨q1, q2⟩ | ⟨q1, q2⟩ <;> omega
    · simp only [startTarget, startSource, u1]; intro _
      rcases l1 with ⟨q1, q2⟩ | ⟨q1, q2⟩ <;> omega
    · simp only [startTarget, startSource, u2]; intro _
      rcases l2 with ⟨q1, q2⟩ | ⟨q1, q2⟩ <;> omega
    · simp only [startTarget, startSource, u1]
      rcases l1 with ⟨q1, q2⟩ | ⟨q1, q2⟩ <;> omega
    · simp only [startTarget, startSource, u2]
      rcases l2 with ⟨q1, q2⟩ | ⟨q1, q2⟩ <;> omega
    · simp only [startTarget, startSource]; omega
    · simp only [startTarget, startSource]; omega
    · intro j hj
      rw [hgo]
      exact hT j hj
    · intro i
      simp only [hasc, if_true, startTarget, startSource]
      by_cases c : i / 32 < r.tLo
      · rw [if_pos c]; unfold goal; rw [if_neg (by omega)]
      · rw [if_neg c]

theorem clipCopy_spec (n m xo yo len : Nat) (h1 : xo < n) (h2 : yo < m) :
    clipCopy n m xo yo len = min (min len (n - xo)) (m - yo) := by
  simp only [clipCopy]; split <;> split <;> omega

theorem intervalCopy_rep {n m : Nat} (xo yo len : Nat) {xs ys : List W} {x : BitVec n} {y : BitVec m}
    (hx : Rep n xs x) (hy : Rep m ys y) :
    Rep n (intervalCopy n m xs ys xo yo len) (Bitvect.intervalCopy x y xo yo len) := by
  have hs := size_eq n
  have hR : ∀ i, (Bitvect.intervalCopy x y xo yo len).getLsbD i = (decide (i < n) &&
      if xo ≤ i ∧ i < xo + len ∧ xo < n ∧ yo + (i - xo) < m then y.getLsbD (yo + (i - xo)) else x.getLsbD i) := by
    intro i; unfold Bitvect.intervalCopy; rw [Bitvect.getLsbD_ofBits]
  unfold intervalCopy
  by_cases h : len > 0 ∧ xo < n ∧ yo < m
  · rw [if_pos h]
    obtain ⟨h1, h2, h3⟩ := h
    have hc := clipCopy_spec n m xo yo len h2 h3
    simp only []
    generalize clipCopy n m xo yo len = l at hc
    have hr := mkRange_ok xo yo l (by omega)
    have hX : (mkRange xo yo l).tHi < xs.length := by
      rw [hx.len]; simp only [mkRange]; omega
    obtain ⟨i0, i1, i2⟩ := first_inv hr xs ys
    obtain ⟨m1, m2, m3⟩ := i0.move hr i1 i2
    have loop := copyLoop_bit hr hX (l + 1) _ _ _ m1 (by split <;> omega)
    refine rep_masked (by omega) ((loop 0).2.trans hx.len) fun i hi => ?_
    rw [(loop i).1, hR]
    unfold goal
    simp only [hi, decide_true, Bool.true_and]
    by_cases c : xo ≤ i ∧ i < xo + l
    · rw [if_pos c, if_pos (by omega), hy.bit]
    · rw [if_neg c, if_neg (by omega), hx.bit]
  · rw [if_neg h]
    have : Bitvect.intervalCopy x y xo yo len = x := by
      apply BitVec.eq_of_getLsbD_eq
      intro i hi
      rw [hR, if_neg (by omega)]; simp [hi]
    rwa [this]

end Verif.Words
