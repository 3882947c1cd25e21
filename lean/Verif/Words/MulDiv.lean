import Verif.Words.Shift
namespace Verif.Words
variable {n : Nat}

/-! ### Multiplication -/

theorem mulLoop_rep (hn : 0 < n) {m : Nat} (strict : Bool) {zs : List W} {z : BitVec m} (hz : Rep m zs z) (k c : Nat)
    {xs ys : List W} {x y : BitVec n} (hx : Rep n xs x) (hy : Rep n ys y) :
    Rep n (mulLoop n m strict zs k c xs ys).1 (Bitvect.mulLoop strict z k c x y).1 ∧
      (mulLoop n m strict zs k c xs ys).2 = (Bitvect.mulLoop strict z k c x y).2 := by
  induction k generalizing c xs ys x y with
  | zero => exact ⟨hx, rfl⟩
  | succ k ih =>
    obtain ⟨a1, a2, a3⟩ := add0_rep hn hx hy
    obtain ⟨s1, s2⟩ := shiftLeft_rep hn hy false
    have hx1 : Rep n (if z.getLsbD c then (compute n xs ys false false).words else xs) (if z.getLsbD c then x + y else x) := by
      split
      · exact a1
      · exact hx
    simp only [mulLoop, Bitvect.mulLoop, bitTest_rep hz, a2, a3, s2, top_bit hn s1]
    generalize (if z.getLsbD c = true then (compute n xs ys false false).words else xs) = u at hx1 ⊢
    generalize (if z.getLsbD c = true then x + y else x) = v at hx1 ⊢
    generalize (if z.getLsbD c = true then
      (if strict = true then !(Bitvect.addCarry x y || Bitvect.addOvfl x y) else !Bitvect.addCarry x y) else true) = ok
    generalize (if strict = true then !(Bitvect.shl1Carry y || (Bitvect.shl1 y false).msb) else !Bitvect.shl1Carry y) = ok2
    split
    · exact ⟨hx1, rfl⟩
    · split
      · exact ⟨hx1, rfl⟩
      · split
        · exact ⟨hx1, rfl⟩
        · exact ih (c + 1) hx1 s1

theorem mulPos_rep (hn : 0 < n) {m : Nat} (strict : Bool) {ys zs : List W} {y : BitVec n} {z : BitVec m}
    (hy : Rep n ys y) (hz : Rep m zs z) :
    Rep n (mulPos n m ys zs strict).1 (Bitvect.mulPos y z strict).1 ∧
      (mulPos n m ys zs strict).2 = (Bitvect.mulPos y z strict).2 := by
  unfold mulPos Bitvect.mulPos
  rw [isEmpty_rep hy, setMax_rep hz]
  simp only [decide_eq_true_eq]
  split
  · exact ⟨empty_rep hy, rfl⟩
  · split
    · exact ⟨empty_rep hy, rfl⟩
    · exact mulLoop_rep hn strict hz _ _ (empty_rep hy) hy

theorem word_snoc {ws : List W} {x : BitVec n} (h : Rep n ws x) (i : Nat) : Bitvect.word x i = (ws.getD i 0#32).toNat := by
  apply Nat.eq_of_testBit_eq
  intro j
  unfold Bitvect.word
  rw [Nat.testBit_mod_two_pow, Nat.testBit_div_two_pow]
  by_cases hj : j < 32
  · have := h.bit (32 * i + j)
    unfold bit at this
    rw [show (32 * i + j) / 32 = i by omega, show (32 * i + j) % 32 = j by omega] at this
    rw [show j + 32 * i = 32 * i + j by omega]
    simp only [hj, decide_true, Bool.true_and]
    exact this.symm
  · simp only [hj, decide_false, Bool.false_and]
    exact (BitVec.getLsbD_of_ge _ _ (by omega)).symm

theorem gtDown_rep {as bs : List W} {a b : BitVec n} (ha : Rep n as a) (hb : Rep n bs b) (k : Nat)
    (h1 : k ≤ as.length) (h2 : k ≤ bs.length) :
    gtDown (as.take k).reverse (bs.take k).reverse = Bitvect.topWordGt a b k := by
  induction k with
  | zero => rfl
  | succ k ih =>
    have e1 : (as.take (k + 1)).reverse = as.getD k 0#32 :: (as.take k).reverse := by
      rw [List.take_succ_eq_append_getElem (by omega), List.reverse_append]
      rw [List.getD_eq_getElem?_getD, List.getElem?_eq_getElem (by omega)]; rfl
    have e2 : (bs.take (k + 1)).reverse = bs.getD k 0#32 :: (bs.take k).reverse := by
      rw [List.take_succ_eq_append_getElem (by omega), List.reverse_append]
      rw [List.getD_eq_getElem?_getD, List.getElem?_eq_getElem (by omega)]; rfl
    rw [e1, e2, gtDown, Bitvect.topWordGt, word_snoc ha, word_snoc hb, ih (by omega) (by omega)]
    have e3 : ((as.take k).reverse.isEmpty = true) ↔ k = 0 := by
      rw [List.isEmpty_iff, List.reverse_eq_nil_iff, List.take_eq_nil_iff]
      constructor
      · rintro (h | h)
        · exact h
        · subst h; simp at h1
      · exact Or.inl
    have e4 : ((as.getD k 0#32 == 0#32 && bs.getD k 0#32 == 0#32) = true) ↔
        ((as.getD k 0#32).toNat = 0 ∧ (bs.getD k 0#32).toNat = 0) := by
      simp [BitVec.toNat_eq]
    by_cases h : (as.getD k 0#32).toNat = 0 ∧ (bs.getD k 0#32).toNat = 0
    · rw [if_pos (e4.2 h), if_pos h]
      by_cases h0 : k = 0
      · rw [if_pos (e3.2 h0), if_pos h0]
      · rw [if_neg (fun c => h0 (e3.1 c)), if_neg h0]
    · rw [if_neg (fun c => h (e4.1 c)), if_neg h]
      rfl

theorem gtDown_all {as bs : List W} {a b : BitVec n} (ha : Rep n as a) (hb : Rep n bs b) :
    gtDown as.reverse bs.reverse = Bitvect.topWordGt a b ((n + 31) / 32) := by
  rw [← size_eq, ← gtDown_rep ha hb _ (by rw [ha.len]; omega) (by rw [hb.len]; omega), List.take_of_length_le (by rw [ha.len]; omega),
    List.take_of_length_le (by rw [hb.len]; omega)]

theorem abs_rep (hn : 0 < n) {ys : List W} {y : BitVec n} (hy : Rep n ys y) :
    Rep n (if y.msb then negate n ys else copy n n ys) (if y.msb then -y else y) := by
  split
  · exact negate_rep hn hy
  · exact copy_same hn hy

theorem multiply_rep (hn : 0 < n) {ys zs : List W} {y z : BitVec n} (hy : Rep n ys y) (hz : Rep n zs z) :
    Rep n (multiply n ys zs).1 (Bitvect.multiply y z).1 ∧ (multiply n ys zs).2 = (Bitvect.multiply y z).2 := by
  have ha := abs_rep hn hy
  have hb := abs_rep hn hz
  unfold multiply Bitvect.multiply
  simp only [isEmpty_rep hy, isEmpty_rep hz, top_bit hn hy, top_bit hn hz, Bool.or_eq_true, decide_eq_true_eq,
    gtDown_all ha hb]
  split
  · exact ⟨empty_rep hy, rfl⟩
  · generalize (if y.msb = true then negate n ys else copy n n ys) = as at ha ⊢
    generalize (if z.msb = true then negate n zs else copy n n zs) = bs at hb ⊢
    generalize (if y.msb = true then -y else y) = a at ha ⊢
    generalize (if z.msb = true then -z else z) = b at hb ⊢
    generalize Bitvect.topWordGt a b ((n + 31) / 32) = gt
    generalize (y.msb != z.msb) = neg
    have key : ∀ {p : List W × Bool} {q : BitVec n × Bool}, Rep n p.1 q.1 ∧ p.2 = q.2 →
        Rep n (if (p.2 && neg) = true then (negate n p.1, p.2) else p).1 (if (q.2 && neg) = true then (-q.1, q.2) else q).1 ∧
          (if (p.2 && neg) = true then (negate n p.1, p.2) else p).2 = (if (q.2 && neg) = true then (-q.1, q.2) else q).2 := by
      intro p q ⟨h1, h2⟩
      rw [h2]
      split
      · exact ⟨negate_rep hn h1, rfl⟩
      · exact ⟨h1, h2⟩
    cases gt
    · exact key (mulPos_rep hn true hb ha)
    · exact key (mulPos_rep hn true ha hb)

/-! ### Division -/

/-- The variables of the two levels correspond. -/
structure DivRep (n : Nat) (s : Div) (t : Bitvect.DivState n) : Prop where
  q : Rep n s.q t.q
  x : Rep n s.x t.x
  r : Rep n s.r t.r
  copy : s.copy = t.copy

theorem divStep_rep (hn : 0 < n) {ys : List W} {y : BitVec n} (hy : Rep n ys y) (k : Nat) (hk : k < n) {s : Div}
    {t : Bitvect.DivState n} (h : DivRep n s t) : DivRep n (divStep n ys k s) (Bitvect.divStep y k t) := by
  obtain ⟨hq, hx, hr, hc⟩ := h
  have hf := bitTest_rep hq k
  have hon := bitOn_rep hq k
  have hoff := bitOff_rep hq k
  simp only [bitTest, bitOn, bitOff, if_pos hk] at hf hon hoff
  unfold divStep Bitvect.divStep
  simp only [hf, hc]
  by_cases hcp : t.copy = true
  · simp only [hcp, if_true]
    have s1 := (shiftLeft_rep hn hx (t.q.getLsbD k)).1
    obtain ⟨b1, b2⟩ := sub0_rep hn s1 hy
    rw [b2]
    split
    · exact ⟨hoff, s1, b1, rfl⟩
    · exact ⟨hon, s1, b1, rfl⟩
  · simp only [hcp]
    have s1 := (shiftLeft_rep hn hr (t.q.getLsbD k)).1
    obtain ⟨b1, b2⟩ := sub0_rep hn s1 hy
    simp only [b2, Bool.false_eq_true, if_false]
    split
    · exact ⟨hoff, b1, s1, rfl⟩
    · exact ⟨hon, b1, s1, rfl⟩

theorem divLoop_rep (hn : 0 < n) {ys : List W} {y : BitVec n} (hy : Rep n ys y) (k : Nat) (hk : k ≤ n) {s : Div}
    {t : Bitvect.DivState n} (h : DivRep n s t) : DivRep n (divLoop n ys k s) (Bitvect.divLoop y k t) := by
  induction k generalizing s t with
  | zero => exact h
  | succ k ih => exact ih (by omega) (divStep_rep hn hy k (by omega) h)

theorem setMax_bound (x : BitVec n) (h : ¬ Bitvect.setMax x < 0) : (Bitvect.setMax x).toNat + 1 ≤ n := by
  have := (Bitvect.setMax_lt_iff x n).2 x.isLt
  omega

theorem divPos_rep (hn : 0 < n) {xs ys : List W} {x y : BitVec n} (hx : Rep n xs x) (hy : Rep n ys y) :
    Rep n (divPos n xs ys).1 (Bitvect.divPos x y).1 ∧ Rep n (divPos n xs ys).2 (Bitvect.divPos x y).2 := by
  have hq := copy_same hn hx
  unfold divPos Bitvect.divPos
  simp only [setMax_rep hq]
  split
  · exact ⟨hq, empty_rep hx⟩
  · rename_i hm
    have := divLoop_rep hn hy _ (setMax_bound x hm) (s := ⟨copy n n xs, xs, empty xs, false⟩)
      (t := ⟨x, x, 0#n, false⟩) ⟨hq, hx, empty_rep hx, rfl⟩
    obtain ⟨d1, d2, d3, d4⟩ := this
    refine ⟨d1, ?_⟩
    simp only [d4]
    split
    · exact copy_same hn d2
    · exact d3

/-- The outcomes correspond: both refuse, or both give quotient and remainder. -/
def RepPair (n : Nat) : Option (List W × List W) → Option (BitVec n × BitVec n) → Prop
  | none, none => True
  | some a, some b => Rep n a.1 b.1 ∧ Rep n a.2 b.2
  | _, _ => False

theorem divide_rep (hn : 0 < n) {xs ys : List W} {x y : BitVec n} (hx : Rep n xs x) (hy : Rep n ys y) :
    RepPair n (divide n xs ys) (Bitvect.divide x y) := by
  have ha := abs_rep hn hx
  have hb := abs_rep hn hy
  unfold divide Bitvect.divide
  simp only [isEmpty_rep hx, isEmpty_rep hy, top_bit hn hx, top_bit hn hy, decide_eq_true_eq]
  split
  · trivial
  · split
    · exact ⟨empty_rep hx, empty_rep hx⟩
    · obtain ⟨d1, d2⟩ := divPos_rep hn ha hb
      generalize divPos n (if x.msb = true then negate n xs else copy n n xs)
        (if y.msb = true then negate n ys else copy n n ys) = p at d1 d2 ⊢
      generalize Bitvect.divPos (if x.msb = true then -x else x) (if y.msb = true then -y else y) = q at d1 d2 ⊢
      constructor
      · simp only
        split
        · exact negate_rep hn d1
        · exact d1
      · simp only
        split
        · exact negate_rep hn d2
        · exact d2

end Verif.Words
