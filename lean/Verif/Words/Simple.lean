import Verif.Words.Basic
namespace Verif.Words
open Verif.Bitvect (msb_iff)

variable {n : Nat}

theorem val_replicate_zero (k : Nat) : val (List.replicate k 0#32) = 0 := by
  induction k with
  | zero => rfl
  | succ k ih => simp [List.replicate_succ, val, ih]

theorem empty_rep {ws : List W} {x : BitVec n} (h : Rep n ws x) : Rep n (empty ws) 0#n := by
  refine ⟨by simp [empty, h.len], ?_⟩
  simp [empty, val_replicate_zero]

theorem isEmpty_val (ws : List W) : isEmpty ws = decide (val ws = 0) := by
  induction ws with
  | nil => rfl
  | cons w ws ih =>
    simp only [isEmpty, val]
    by_cases hw : w = 0#32
    · subst hw; simp [ih]; omega
    · have : w.toNat ≠ 0 := fun h0 => hw (by apply BitVec.eq_of_toNat_eq; simpa using h0)
      simp [hw, this]

theorem isEmpty_rep {ws : List W} {x : BitVec n} (h : Rep n ws x) : isEmpty ws = decide (x.toNat = 0) := by
  rw [isEmpty_val, h.val_eq]

theorem equal_val (xs ys : List W) (h : xs.length = ys.length) : equal xs ys = decide (val xs = val ys) := by
  rw [Bool.eq_iff_iff, decide_eq_true_iff]
  induction xs generalizing ys with
  | nil => cases ys <;> simp_all [equal]
  | cons x xs ih =>
    cases ys with
    | nil => simp at h
    | cons y ys =>
      simp only [equal, val]
      have := x.isLt
      have := y.isLt
      by_cases hw : x = y
      · subst hw; simp only [beq_self_eq_true, if_true, ih ys (by simpa using h)]; omega
      · have hne : x.toNat ≠ y.toNat := fun h0 => hw (BitVec.eq_of_toNat_eq h0)
        simp only [beq_iff_eq, hw, if_false, Bool.false_eq_true, false_iff]; omega

theorem compareDown_val (xs ys : List W) (h : xs.length = ys.length) :
    compareDown xs ys = if val xs.reverse = val ys.reverse then 0 else if val xs.reverse < val ys.reverse then -1 else 1 := by
  induction xs generalizing ys with
  | nil => cases ys <;> simp_all [compareDown]
  | cons x xs ih =>
    cases ys with
    | nil => simp at h
    | cons y ys =>
      have hl : xs.length = ys.length := by simpa using h
      simp only [compareDown, List.reverse_cons, val_append, val, List.length_reverse, Nat.mul_zero, Nat.add_zero]
      have h1 := val_lt xs.reverse
      have h2 := val_lt ys.reverse
      rw [List.length_reverse] at h1 h2
      rw [hl] at h1 ⊢
      generalize 2 ^ (32 * ys.length) = P at *
      by_cases hw : x = y
      · subst hw
        simp only [beq_self_eq_true, if_true, ih ys hl]
        by_cases e1 : val xs.reverse = val ys.reverse
        · simp [e1]
        · by_cases e2 : val xs.reverse < val ys.reverse <;> simp [e1, e2] <;> omega
      · have hne : x.toNat ≠ y.toNat := fun h0 => hw (BitVec.eq_of_toNat_eq h0)
        simp only [beq_iff_eq, hw, if_false]
        by_cases hlt : x.toNat < y.toNat
        · have : P * (x.toNat + 1) ≤ P * y.toNat := Nat.mul_le_mul_left _ hlt
          rw [Nat.mul_add] at this
          rw [if_pos (show x < y from hlt), if_neg (by omega), if_pos (by omega)]
        · have : P * (y.toNat + 1) ≤ P * x.toNat := Nat.mul_le_mul_left _ (by omega)
          rw [Nat.mul_add] at this
          rw [if_neg (show ¬ x < y from hlt), if_neg (by omega), if_neg (by omega)]

theorem compare_rep (hn : 0 < n) {xs ys : List W} {x y : BitVec n} (hx : Rep n xs x) (hy : Rep n ys y) :
    compare n xs ys = Bitvect.cmp x y := by
  have h1 := top_bit hn hx
  have h2 := top_bit hn hy
  unfold compare Bitvect.cmp
  have hne : xs.isEmpty = false := by
    have := hx.ne_nil hn
    cases xs <;> simp_all
  rw [hne]
  simp only [Bool.false_eq_true, if_false]
  have hk : ∀ w : W, (w &&& topBit (mask n) = 0#32) ∨ (w &&& topBit (mask n) = topBit (mask n)) := by
    intro w
    rw [topBit_eq hn, BitVec.and_twoPow]
    split <;> simp
  have ht : topBit (mask n) ≠ 0#32 := by
    obtain ⟨u1, u2, u3⟩ := used_spec hn
    intro h0
    have := topBit_bit hn (used n - 1)
    rw [h0] at this
    simp at this; omega
  rw [compareDown_val _ _ (by simp [hx.len, hy.len])]
  simp only [List.reverse_reverse, hx.val_eq, hy.val_eq, ← h1, ← h2]
  rcases hk (lastWord xs) with a | a <;> rcases hk (lastWord ys) with b | b <;> rw [a, b] <;> simp [ht, ht.symm]

theorem lexicompare_rep {xs ys : List W} {x y : BitVec n} (hx : Rep n xs x) (hy : Rep n ys y) :
    lexicompare xs ys = if x.toNat = y.toNat then 0 else if x.toNat < y.toNat then -1 else 1 := by
  unfold lexicompare
  rw [compareDown_val _ _ (by simp [hx.len, hy.len])]
  simp only [List.reverse_reverse, hx.val_eq, hy.val_eq]

theorem sign_rep (hn : 0 < n) {xs : List W} {x : BitVec n} (hx : Rep n xs x) : sign n xs = Bitvect.sign x := by
  unfold sign Bitvect.sign
  rw [isEmpty_rep hx, ← top_bit hn hx]
  by_cases h0 : x.toNat = 0
  · simp [h0]
  · by_cases h1 : lastWord xs &&& topBit (mask n) = 0#32 <;> simp [h0, h1]

theorem getMsb_rep (hn : 0 < n) {xs : List W} {x : BitVec n} (hx : Rep n xs x) : getMsb n xs = x.msb := by
  unfold getMsb
  rw [top_bit hn hx]
  have := hx.ne_nil hn
  cases xs <;> simp_all

/-! ### Single bits -/

theorem bitTest_rep {xs : List W} {x : BitVec n} (hx : Rep n xs x) (i : Nat) : bitTest n xs i = x.getLsbD i := by
  unfold bitTest
  by_cases h : i < n
  · rw [if_pos h, bitMask_eq, test_twoPow (Nat.mod_lt _ (by omega))]
    exact hx.bit i
  · rw [if_neg h, BitVec.getLsbD_of_ge _ _ (by omega)]

theorem bit_set (ws : List W) (j : Nat) (w : W) (hj : j < ws.length) (i : Nat) :
    bit (ws.set j w) i = if i / 32 = j then w.getLsbD (i % 32) else bit ws i := by
  unfold bit
  rw [List.getD_eq_getElem?_getD, List.getElem?_set]
  by_cases h : j = i / 32
  · subst h; simp [hj]
  · rw [if_neg h, if_neg (fun h' => h h'.symm), List.getD_eq_getElem?_getD]

theorem twoPow_bit (i j : Nat) (hi : i < 32) : (BitVec.twoPow 32 i).getLsbD j = decide (i = j) := by
  rw [BitVec.getLsbD_twoPow]; simp [hi]

theorem bitOn_rep {xs : List W} {x : BitVec n} (hx : Rep n xs x) (i : Nat) :
    Rep n (bitOn n xs i) (x ||| BitVec.twoPow n i) := by
  unfold bitOn
  have hs := size_eq n
  by_cases h : i < n
  · rw [if_pos h]
    rw [rep_iff]
    refine ⟨by simp [hx.len], fun j => ?_⟩
    rw [bit_set _ _ _ (by rw [hx.len]; omega), BitVec.getLsbD_or (x := x), BitVec.getLsbD_twoPow, ← hx.bit]
    by_cases hj : j / 32 = i / 32
    · rw [if_pos hj, BitVec.getLsbD_or, bitMask_eq, twoPow_bit _ _ (Nat.mod_lt _ (by omega))]
      unfold bit
      rw [hj]
      by_cases e : i = j
      · subst e; simp [h]
      · have : i % 32 ≠ j % 32 := by omega
        simp [e, this]
    · rw [if_neg hj]
      have : i ≠ j := by intro e; subst e; exact hj rfl
      simp [this]
  · rw [if_neg h]
    have : BitVec.twoPow n i = 0#n := by
      apply BitVec.eq_of_getLsbD_eq; intro j hj; rw [BitVec.getLsbD_twoPow]; simp; omega
    simpa [this] using hx

theorem bitOff_rep {xs : List W} {x : BitVec n} (hx : Rep n xs x) (i : Nat) :
    Rep n (bitOff n xs i) (x &&& ~~~(BitVec.twoPow n i)) := by
  unfold bitOff
  have hs := size_eq n
  by_cases h : i < n
  · rw [if_pos h]
    rw [rep_iff]
    refine ⟨by simp [hx.len], fun j => ?_⟩
    rw [bit_set _ _ _ (by rw [hx.len]; omega), BitVec.getLsbD_and (x := x), BitVec.getLsbD_not (x := BitVec.twoPow n i), BitVec.getLsbD_twoPow, ← hx.bit]
    have hout : n ≤ j → bit xs j = false := fun hj => by rw [hx.bit, BitVec.getLsbD_of_ge _ _ hj]
    by_cases hj : j / 32 = i / 32
    · rw [if_pos hj, BitVec.getLsbD_and, BitVec.getLsbD_not, bitMask_eq, twoPow_bit _ _ (Nat.mod_lt _ (by omega))]
      by_cases hjn : j < n
      · unfold bit
        rw [hj]
        have hj32 : j % 32 < 32 := Nat.mod_lt _ (by omega)
        by_cases e : i = j
        · subst e; simp
        · have : i % 32 ≠ j % 32 := by omega
          simp [e, this, hjn, hj32]
      · have hb := hout (by omega)
        unfold bit at hb ⊢
        rw [hj] at hb ⊢
        rw [hb]; simp
    · rw [if_neg hj]
      have : i ≠ j := by intro e; subst e; exact hj rfl
      by_cases hjn : j < n
      · simp [this, hjn]
      · rw [hout (by omega)]; simp
  · rw [if_neg h]
    have : x &&& ~~~(BitVec.twoPow n i) = x := by
      apply BitVec.eq_of_getLsbD_eq; intro j hj
      rw [BitVec.getLsbD_and, BitVec.getLsbD_not, BitVec.getLsbD_twoPow]
      have : i ≠ j := by omega
      simp [hj, this]
    rw [this]; exact hx

/-! ### Bitwise operations -/

theorem bit_zipWith (f : W → W → W) (g : Bool → Bool → Bool)
    (hfg : ∀ a b : W, ∀ i, i < 32 → (f a b).getLsbD i = g (a.getLsbD i) (b.getLsbD i))
    (ys zs : List W) (h : ys.length = zs.length) (i : Nat) (hi : i < 32 * ys.length) :
    bit (List.zipWith f ys zs) i = g (bit ys i) (bit zs i) := by
  unfold bit
  have h1 : i / 32 < ys.length := by omega
  have h2 : i / 32 < zs.length := by omega
  simp only [List.getD_eq_getElem?_getD, List.getElem?_zipWith, List.getElem?_eq_getElem h1,
    List.getElem?_eq_getElem h2, Option.getD_some]
  exact hfg _ _ _ (Nat.mod_lt _ (by omega))

theorem zipWith_rep (hn : 0 < n) (f : W → W → W) (g : Bool → Bool → Bool) (F : BitVec n → BitVec n → BitVec n)
    (hfg : ∀ a b : W, ∀ i, i < 32 → (f a b).getLsbD i = g (a.getLsbD i) (b.getLsbD i))
    (hF : ∀ a b : BitVec n, ∀ i, i < n → (F a b).getLsbD i = g (a.getLsbD i) (b.getLsbD i))
    {ys zs : List W} {y z : BitVec n} (hy : Rep n ys y) (hz : Rep n zs z) :
    Rep n (maskLast (mask n) (List.zipWith f ys zs)) (F y z) := by
  have hs := size_eq n
  refine rep_masked hn (by simp [hy.len, hz.len]) fun i hi => ?_
  rw [bit_zipWith f g hfg ys zs (by rw [hy.len, hz.len]) i (by rw [hy.len]; omega), hy.bit, hz.bit, hF _ _ _ hi]

theorem setUnion_rep (hn : 0 < n) {ys zs : List W} {y z : BitVec n} (hy : Rep n ys y) (hz : Rep n zs z) :
    Rep n (setUnion n ys zs) (y ||| z) :=
  zipWith_rep hn _ (· || ·) (· ||| ·) (by intros; simp) (by intros; simp) hy hz
theorem setIntersection_rep (hn : 0 < n) {ys zs : List W} {y z : BitVec n} (hy : Rep n ys y) (hz : Rep n zs z) :
    Rep n (setIntersection n ys zs) (y &&& z) :=
  zipWith_rep hn _ (· && ·) (· &&& ·) (by intros; simp) (by intros; simp) hy hz
theorem setExclusiveOr_rep (hn : 0 < n) {ys zs : List W} {y z : BitVec n} (hy : Rep n ys y) (hz : Rep n zs z) :
    Rep n (setExclusiveOr n ys zs) (y ^^^ z) :=
  zipWith_rep hn _ (fun a b => a ^^ b) (· ^^^ ·) (by intros; simp) (by intros; simp) hy hz

theorem bit_not (ys : List W) (i : Nat) (hi : i < 32 * ys.length) : bit (ys.map (~~~ ·)) i = !bit ys i := by
  unfold bit
  have h1 : i / 32 < ys.length := by omega
  simp only [List.getD_eq_getElem?_getD, List.getElem?_map, List.getElem?_eq_getElem h1, Option.map_some,
    Option.getD_some, BitVec.getLsbD_not]
  have : i % 32 < 32 := Nat.mod_lt _ (by omega)
  simp [this]

theorem setComplement_rep (hn : 0 < n) {ys : List W} {y : BitVec n} (hy : Rep n ys y) :
    Rep n (setComplement n ys) (~~~y) := by
  have hs := size_eq n
  refine rep_masked hn (by simp [hy.len]) fun i hi => ?_
  rw [bit_not _ _ (by rw [hy.len]; omega), hy.bit, BitVec.getLsbD_not]; simp [hi]

end Verif.Words
