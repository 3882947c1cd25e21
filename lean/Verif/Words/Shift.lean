import Verif.Words.Arith
import Verif.Bitvect.Bits
namespace Verif.Words

variable {n : Nat}

/-! ### One place to the left -/

theorem shlWord_bit (w : W) (c : Bool) (i : Nat) (hi : i < 32) :
    ((w <<< 1) ||| (if c then lsb else 0#32)).getLsbD i = if i = 0 then c else w.getLsbD (i - 1) := by
  have h1 : (if c then lsb else 0#32 : W).getLsbD i = (decide (i = 0) && c) := by
    cases c
    · simp
    · rw [if_pos rfl, lsb_eq, twoPow_bit _ _ (by omega)]
      simp [eq_comm]
  rw [BitVec.getLsbD_or, h1, BitVec.getLsbD_shiftLeft]
  by_cases h : i = 0
  · subst h; simp
  · have : ¬ i < 1 := by omega
    simp [h, this, hi]

theorem msb_test (w : W) : (!(w &&& msb == 0#32)) = w.getLsbD 31 := by
  rw [msb_eq, test_twoPow (by omega)]
theorem lsb_test (w : W) : (!(w &&& lsb == 0#32)) = w.getLsbD 0 := by
  rw [lsb_eq, test_twoPow (by omega)]

theorem shlLoop_length (m : W) (ws : List W) (c : Bool) : (shlLoop m ws c).1.length = ws.length := by
  induction ws generalizing c with
  | nil => rfl
  | cons w ws ih =>
    cases ws with
    | nil => rfl
    | cons v vs => simp only [shlLoop, List.length_cons] at ih ⊢; rw [ih]

theorem shlLoop_bit (m : W) (ws : List W) (c : Bool) (i : Nat) (hi : i < 32 * ws.length) :
    bit (shlLoop m ws c).1 i =
      ((if i = 0 then c else bit ws (i - 1)) &&
        (decide (i < 32 * (ws.length - 1)) || m.getLsbD (i - 32 * (ws.length - 1)))) := by
  induction ws generalizing c i with
  | nil => simp at hi
  | cons w ws ih =>
    cases ws with
    | nil =>
      have h : i < 32 := by simpa using hi
      simp only [shlLoop, List.length_singleton, Nat.sub_self, Nat.mul_zero, Nat.not_lt_zero, decide_false,
        Bool.false_or, Nat.sub_zero]
      rw [bit_cons_lo _ _ h, BitVec.getLsbD_and, shlWord_bit _ _ _ h]
      congr 1
      split
      · rfl
      · rw [bit_cons_lo _ _ (by omega)]
    | cons v vs =>
      simp only [shlLoop]
      by_cases h : i < 32
      · rw [bit_cons_lo _ _ h, shlWord_bit _ _ _ h]
        have : i < 32 * ((w :: v :: vs).length - 1) := by simp only [List.length_cons]; omega
        simp only [this, decide_true, Bool.true_or, Bool.and_true]
        split
        · rfl
        · rw [bit_cons_lo _ _ (by omega)]
      · obtain ⟨j, rfl⟩ : ∃ j, i = j + 32 := ⟨i - 32, by omega⟩
        rw [bit_cons_hi, ih _ _ (by simp only [List.length_cons] at hi ⊢; omega), msb_test]
        simp only [List.length_cons]
        congr 1
        · rw [if_neg (show ¬ (j + 32 = 0) by omega)]
          by_cases h0 : j = 0
          · subst h0; rw [if_pos rfl, bit_cons_lo _ _ (by omega)]
          · rw [if_neg h0, show j + 32 - 1 = (j - 1) + 32 by omega, bit_cons_hi]
        · congr 1
          · rw [decide_eq_decide]; omega
          · congr 1; omega

theorem shlLoop_carry (m : W) (ws : List W) (c : Bool) (h : ws ≠ []) :
    (shlLoop m ws c).2 = !(lastWord ws &&& topBit m == 0#32) := by
  induction ws generalizing c with
  | nil => exact absurd rfl h
  | cons w ws ih =>
    cases ws with
    | nil => rfl
    | cons v vs => exact ih _ (by simp)

theorem shiftLeft_rep (hn : 0 < n) {ws : List W} {x : BitVec n} (h : Rep n ws x) (c : Bool) :
    Rep n (shiftLeft n ws c).1 (Bitvect.shl1 x c) ∧ (shiftLeft n ws c).2 = Bitvect.shl1Carry x := by
  obtain ⟨u1, u2, u3⟩ := used_spec hn
  constructor
  · have hb : ∀ i, i < 32 * size n → bit (shiftLeft n ws c).1 i = ((if i = 0 then c else x.getLsbD (i - 1)) && decide (i < n)) := by
      intro i hi
      rw [shiftLeft, shlLoop_bit _ _ _ _ (by rw [h.len]; exact hi), h.bit, mask_bit hn, h.len]
      congr 1
      by_cases a : i < 32 * (size n - 1) <;> by_cases b : i - 32 * (size n - 1) < used n <;> simp [a, b] <;> omega
    refine rep_of (by rw [shiftLeft, shlLoop_length, h.len]) ?_ ?_
    · intro i hi
      rw [hb i (by have := size_eq n; omega)]
      unfold Bitvect.shl1
      rw [BitVec.getLsbD_or, BitVec.getLsbD_shiftLeft]
      by_cases h0 : i = 0
      · subst h0
        cases c <;> simp [hi]
      · have h1 : (if c then 1#n else 0#n).getLsbD i = false := by
          cases c <;> simp [h0]
        have : ¬ i < 1 := by omega
        rw [h1]; simp [h0, hi, this]
    · intro i h1 h2
      rw [hb i h2]; simp; omega
  · rw [shiftLeft, shlLoop_carry _ _ _ (h.ne_nil hn), top_bit hn h]; rfl

/-! ### One place to the right -/

theorem shrLoop_length (m : W) (ws : List W) (c : Bool) : (shrLoop m ws c).1.length = ws.length := by
  induction ws with
  | nil => rfl
  | cons w ws ih =>
    cases ws with
    | nil => rfl
    | cons v vs => simp only [shrLoop, List.length_cons] at ih ⊢; rw [ih]

theorem shrLoop_carry (m : W) (ws : List W) (c : Bool) (h : ws ≠ []) :
    (shrLoop m ws c).2 = bit (maskLast m ws) 0 := by
  cases ws with
  | nil => exact absurd rfl h
  | cons w ws =>
    cases ws with
    | nil => simp only [shrLoop, maskLast, lsb_test]; rw [bit_cons_lo _ _ (by omega)]
    | cons v vs => simp only [shrLoop, maskLast, lsb_test]; rw [bit_cons_lo _ _ (by omega)]

theorem shrLoop_bit (m : W) (ws : List W) (c : Bool) (i : Nat) (hi : i < 32 * ws.length) :
    bit (shrLoop m ws c).1 i =
      (bit (maskLast m ws) (i + 1) ||
        (c && decide (32 * (ws.length - 1) ≤ i) && (topBit m).getLsbD (i - 32 * (ws.length - 1)))) := by
  induction ws generalizing i with
  | nil => simp at hi
  | cons w ws ih =>
    cases ws with
    | nil =>
      have h : i < 32 := by simpa using hi
      simp only [shrLoop, maskLast, List.length_singleton, Nat.sub_self, Nat.mul_zero, Nat.zero_le, decide_true,
        Bool.and_true, Nat.sub_zero]
      rw [bit_cons_lo _ _ h, BitVec.getLsbD_or]
      congr 1
      · rw [BitVec.getLsbD_ushiftRight, Nat.add_comm]
        by_cases h1 : i + 1 < 32
        · rw [bit_cons_lo _ _ h1]
        · rw [bit_ge _ (by simp; omega), BitVec.getLsbD_of_ge _ _ (by omega)]
      · cases c <;> simp
    | cons v vs =>
      simp only [shrLoop, maskLast]
      by_cases h : i < 32
      · rw [bit_cons_lo _ _ h, BitVec.getLsbD_or, shrLoop_carry _ _ _ (by simp), BitVec.getLsbD_ushiftRight, Nat.add_comm 1 i]
        have hlt : ¬ 32 * ((w :: v :: vs).length - 1) ≤ i := by simp only [List.length_cons]; omega
        simp only [hlt, decide_false, Bool.and_false, Bool.false_and, Bool.or_false]
        have hm : ∀ b : Bool, (if b = true then msb else 0#32).getLsbD i = (b && decide (i = 31)) := by
          intro b; cases b
          · simp
          · rw [if_pos rfl, msb_eq, twoPow_bit _ _ (by omega)]; simp [eq_comm]
        rw [hm]
        by_cases h1 : i = 31
        · subst h1
          have := bit_cons_hi w (maskLast m (v :: vs)) 0
          rw [show 31 + 1 = 0 + 32 from rfl, this]
          rw [BitVec.getLsbD_of_ge _ _ (by omega)]; simp
        · rw [bit_cons_lo _ _ (by omega)]; simp [h1]
      · obtain ⟨j, rfl⟩ : ∃ j, i = j + 32 := ⟨i - 32, by omega⟩
        rw [bit_cons_hi, show j + 32 + 1 = (j + 1) + 32 by omega, bit_cons_hi,
          ih _ (by simp only [List.length_cons] at hi ⊢; omega)]
        simp only [List.length_cons]
        congr 1
        congr 1
        · congr 1; rw [decide_eq_decide]; omega
        · congr 1; omega

theorem shiftRight_rep (hn : 0 < n) {ws : List W} {x : BitVec n} (h : Rep n ws x) (c : Bool) :
    Rep n (shiftRight n ws c).1 (Bitvect.shr1 x c) ∧ (shiftRight n ws c).2 = x.getLsbD 0 := by
  obtain ⟨u1, u2, u3⟩ := used_spec hn
  have hself := masked_self hn h
  constructor
  · have hb : ∀ i, i < 32 * size n → bit (shiftRight n ws c).1 i = (x.getLsbD (i + 1) || (c && decide (i + 1 = n))) := by
      intro i hi
      rw [shiftRight, shrLoop_bit _ _ _ _ (by rw [h.len]; exact hi), hself, h.bit, topBit_bit hn, h.len]
      congr 1
      rw [Bool.and_assoc]
      congr 1
      by_cases a : 32 * (size n - 1) ≤ i <;> simp [a] <;> omega
    refine rep_of (by rw [shiftRight, shrLoop_length, h.len]) ?_ ?_
    · intro i hi
      rw [hb i (by have := size_eq n; omega), Bitvect.getLsbD_shr1 x c i hi]
      by_cases e : i + 1 < n
      · have : i + 1 ≠ n := by omega
        have h' : i ≠ n - 1 := by omega
        simp [this, h', e]
      · rw [BitVec.getLsbD_of_ge _ _ (by omega)]
        have : i + 1 = n := by omega
        have h' : i = n - 1 := by omega
        simp [this, ← h']
    · intro i h1 h2
      rw [hb i h2, BitVec.getLsbD_of_ge _ _ (by omega)]; simp; omega
  · rw [shiftRight, shrLoop_carry _ _ _ (h.ne_nil hn), hself, h.bit]

/-! ### Several places to the left -/

theorem shiftsLeft_rep (hn : 0 < n) (k : Nat) {ws : List W} {x : BitVec n} (h : Rep n ws x) :
    Rep n (shiftsLeft n k ws) (x <<< k) := by
  induction k generalizing ws x with
  | zero => simpa [shiftsLeft] using h
  | succ k ih =>
    have := ih (shiftLeft_rep hn h false).1
    rw [Bitvect.shl1_false, ← BitVec.shiftLeft_add, Nat.add_comm 1 k] at this
    exact this

theorem bit_append (xs ys : List W) (i : Nat) :
    bit (xs ++ ys) i = if i < 32 * xs.length then bit xs i else bit ys (i - 32 * xs.length) := by
  unfold bit
  simp only [List.getD_eq_getElem?_getD]
  by_cases h : i < 32 * xs.length
  · rw [if_pos h, List.getElem?_append_left (by omega)]
  · rw [if_neg h, List.getElem?_append_right (by omega)]
    rw [show (i - 32 * xs.length) / 32 = i / 32 - xs.length by omega,
      show (i - 32 * xs.length) % 32 = i % 32 by omega]

theorem bit_take (xs : List W) (k i : Nat) : bit (xs.take k) i = (decide (i < 32 * k) && bit xs i) := by
  unfold bit
  simp only [List.getD_eq_getElem?_getD, List.getElem?_take]
  by_cases h : i / 32 < k
  · have : i < 32 * k := by omega
    simp [h, this]
  · have : ¬ i < 32 * k := by omega
    simp [h, this]

theorem bit_drop (xs : List W) (k i : Nat) : bit (xs.drop k) i = bit xs (i + 32 * k) := by
  unfold bit
  simp only [List.getD_eq_getElem?_getD, List.getElem?_drop]
  rw [show (i + 32 * k) / 32 = k + i / 32 by omega, show (i + 32 * k) % 32 = i % 32 by omega]

theorem bit_replicate (k : Nat) (w : W) (i : Nat) (h : i < 32 * k) : bit (List.replicate k w) i = w.getLsbD (i % 32) := by
  unfold bit
  rw [List.getD_eq_getElem?_getD, List.getElem?_replicate, if_pos (by omega)]
  rfl

theorem insWords_spec (ws : List W) (k : Nat) (hk : k ≤ ws.length) :
    (insWords ws k).length = ws.length ∧
      ∀ i, i < 32 * ws.length → bit (insWords ws k) i = (decide (32 * k ≤ i) && bit ws (i - 32 * k)) := by
  unfold insWords
  simp only [show ¬ k > ws.length by omega, if_false]
  refine ⟨by simp; omega, fun i hi => ?_⟩
  rw [bit_append, List.length_replicate, bit_take]
  by_cases h : i < 32 * k
  · rw [if_pos h, bit_replicate _ _ _ h]
    have : ¬ 32 * k ≤ i := by omega
    simp [this]
  · rw [if_neg h]
    have h1 : 32 * k ≤ i := by omega
    have h2 : i - 32 * k < 32 * (ws.length - k) := by omega
    simp [h1, h2]

theorem moveLeft_rep (hn : 0 < n) {ws : List W} {x : BitVec n} (h : Rep n ws x) (k : Nat) :
    Rep n (moveLeft n ws k) (Bitvect.moveLeft x k) := by
  unfold moveLeft Bitvect.moveLeft
  by_cases h0 : k = 0
  · subst h0; simpa using h
  · rw [if_pos (by omega), if_neg h0]
    by_cases h1 : k ≥ n
    · rw [if_pos h1, if_pos h1]; exact empty_rep h
    · rw [if_neg h1, if_neg h1]
      have hs := shiftsLeft_rep hn (k % 32) h
      have hsz := size_eq n
      have hle : k / 32 ≤ (shiftsLeft n (k % 32) ws).length := by rw [hs.len]; omega
      unfold wordInsert
      rw [masked_self hn hs]
      obtain ⟨l1, l2⟩ := insWords_spec (shiftsLeft n (k % 32) ws) (k / 32) hle
      refine rep_masked hn (by rw [l1, hs.len]) fun i hi => ?_
      rw [l2 i (by rw [hs.len]; omega), hs.bit, BitVec.getLsbD_shiftLeft (n := 32 * (k / 32))]
      by_cases a : 32 * (k / 32) ≤ i
      · have : ¬ i < 32 * (k / 32) := by omega
        simp [a, this, hi]
      · have : i < 32 * (k / 32) := by omega
        simp [a, this]

/-! ### The highest bit -/

theorem normLoop_spec (k : Nat) (c : W) (i j : Nat) (hj : j < k) (hji : j ≤ i) (hj32 : j ≤ 31)
    (h1 : 2 ^ (31 - j) ≤ c.toNat) (h2 : c.toNat < 2 ^ (32 - j)) : normLoop k c i = i - j := by
  induction k generalizing c i j with
  | zero => omega
  | succ k ih =>
    simp only [normLoop]
    by_cases hm : 2 ^ 31 ≤ c.toNat
    · rw [if_pos ((msb_ne c).mpr hm)]
      cases j with
      | zero => rfl
      | succ j =>
        have : 2 ^ (32 - (j + 1)) ≤ 2 ^ 31 := Nat.pow_le_pow_right (by omega) (by omega)
        omega
    · rw [if_neg (fun h => hm ((msb_ne c).mp h))]
      cases j with
      | zero => simp at h1; omega
      | succ j =>
        have e : (c <<< 1).toNat = 2 * c.toNat := by
          rw [BitVec.toNat_shiftLeft, Nat.shiftLeft_eq]; omega
        have p1 : 2 ^ (31 - j) = 2 * 2 ^ (31 - (j + 1)) := by
          rw [show 31 - j = (31 - (j + 1)) + 1 by omega, Nat.pow_succ]; omega
        have p2 : 2 ^ (32 - j) = 2 * 2 ^ (32 - (j + 1)) := by
          rw [show 32 - j = (32 - (j + 1)) + 1 by omega, Nat.pow_succ]; omega
        rw [ih (c <<< 1) (i - 1) j (by omega) (by omega) (by omega) (by rw [e, p1]; omega) (by rw [e, p2]; omega)]
        omega

theorem maxDown_spec (cs : List W) :
    maxDown cs = if val cs.reverse = 0 then Bitvect.longMin else (Nat.log2 (val cs.reverse) : Int) := by
  induction cs with
  | nil => simp [maxDown, val]
  | cons c cs ih =>
    simp only [maxDown, List.reverse_cons, val_append, val, List.length_reverse, Nat.mul_zero, Nat.add_zero]
    by_cases h : c = 0#32
    · subst h
      simp only [ne_eq, not_true_eq_false, if_false, ih]
      simp
    · rw [if_pos h]
      have hc : c.toNat ≠ 0 := (toNat_ne_zero c).mp h
      have hv := val_lt cs.reverse
      rw [List.length_reverse] at hv
      have hl1 : 2 ^ Nat.log2 c.toNat ≤ c.toNat := Nat.log2_self_le hc
      have hl2 : c.toNat < 2 ^ (Nat.log2 c.toNat + 1) := Nat.lt_log2_self
      have hl3 : Nat.log2 c.toNat < 32 := (Nat.log2_lt hc).mpr c.isLt
      generalize Nat.log2 c.toNat = l at *
      have hne : ¬ (val cs.reverse + 2 ^ (32 * cs.length) * c.toNat = 0) := by
        have : 0 < 2 ^ (32 * cs.length) * c.toNat := Nat.mul_pos (Nat.pow_pos (by omega)) (by omega)
        omega
      rw [if_neg hne]
      rw [normLoop_spec 32 c _ (31 - l) (by omega) (by omega) (by omega)
        (by rw [show 31 - (31 - l) = l by omega]; exact hl1)
        (by rw [show 32 - (31 - l) = l + 1 by omega]; exact hl2)]
      have : Nat.log2 (val cs.reverse + 2 ^ (32 * cs.length) * c.toNat) = 32 * cs.length + l := by
        rw [Nat.log2_eq_iff hne]
        constructor
        · rw [Nat.pow_add]
          have : 2 ^ (32 * cs.length) * 2 ^ l ≤ 2 ^ (32 * cs.length) * c.toNat := Nat.mul_le_mul_left _ hl1
          omega
        · rw [show 32 * cs.length + l + 1 = 32 * cs.length + (l + 1) by omega, Nat.pow_add]
          have : 2 ^ (32 * cs.length) * (c.toNat + 1) ≤ 2 ^ (32 * cs.length) * 2 ^ (l + 1) := Nat.mul_le_mul_left _ hl2
          rw [Nat.mul_add] at this
          omega
      rw [this]
      omega

theorem setMax_rep {ws : List W} {x : BitVec n} (h : Rep n ws x) : setMax ws = Bitvect.setMax x := by
  unfold setMax Bitvect.setMax
  rw [maxDown_spec, List.reverse_reverse, h.val_eq]

/-! ### Copy -/

theorem extended_bit (hn : 0 < n) {ys : List W} {y : BitVec n} (h : Rep n ys y) (i : Nat) (hi : i < 32 * size n) :
    bit (if y.msb then fillLast (mask n) ys else maskLast (mask n) ys) i = if i < n then y.getLsbD i else y.msb := by
  obtain ⟨u1, u2, u3⟩ := used_spec hn
  rcases (by decide : ∀ b : Bool, b = false ∨ b = true) y.msb with hm | hm
  · rw [hm]
    simp only [Bool.false_eq_true, if_false]
    rw [masked_self hn h, h.bit]
    split
    · rfl
    · rw [BitVec.getLsbD_of_ge _ _ (by omega)]
  · rw [hm, if_pos rfl, fillLast_bit _ _ _ (by rw [h.len]; exact hi), h.bit, mask_bit hn, h.len]
    by_cases hlt : i < n
    · rw [if_pos hlt]
      have : (decide (32 * (size n - 1) ≤ i) && !decide (i - 32 * (size n - 1) < used n)) = false := by
        by_cases a : 32 * (size n - 1) ≤ i
        · simp; omega
        · simp [a]
      rw [this]; simp
    · rw [if_neg hlt, BitVec.getLsbD_of_ge _ _ (by omega)]
      have a : 32 * (size n - 1) ≤ i := by omega
      have b : ¬ (i - 32 * (size n - 1) < used n) := by omega
      simp [a, b]

theorem copy_rep {m : Nat} (hm : 0 < m) (hn : 0 < n) {ys : List W} {y : BitVec n} (h : Rep n ys y) :
    Rep m (copy m n ys) (y.signExtend m) := by
  have hne : ys.isEmpty = false := by have := h.ne_nil hn; cases ys <;> simp_all
  unfold copy
  simp only [hne, top_bit hn h, Bool.false_eq_true, if_false]
  have hl : (if y.msb then fillLast (mask n) ys else maskLast (mask n) ys).length = size n := by
    split
    · rw [fillLast_length, h.len]
    · rw [maskLast_length, h.len]
  have hb := extended_bit hn h
  generalize (if y.msb = true then fillLast (mask n) ys else maskLast (mask n) ys) = zs at hl hb
  have hsm := size_eq m
  have hsn := size_eq n
  refine rep_masked hm (by simp [hl, h.len]; omega) fun i hi => ?_
  rw [BitVec.getLsbD_signExtend, bit_append, List.length_take, hl, h.len]
  simp only [hi, decide_true, Bool.true_and]
  by_cases h1 : i < 32 * min (size m) (size n)
  · rw [if_pos h1, bit_take, hb i (by omega)]
    have : i < 32 * size m := by omega
    simp [this]
  · rw [if_neg h1, bit_replicate _ _ _ (by omega), if_neg (show ¬ i < n by omega)]
    have hlt : (i - 32 * min (size m) (size n)) % 32 < 32 := Nat.mod_lt _ (by omega)
    rcases (by decide : ∀ b : Bool, b = false ∨ b = true) y.msb with hb | hb
    · rw [hb]; simp
    · rw [hb, if_pos rfl, ones_bit]; simp [hlt]

theorem copy_same (hn : 0 < n) {ys : List W} {y : BitVec n} (h : Rep n ys y) : Rep n (copy n n ys) y := by
  have := copy_rep hn hn h
  rwa [BitVec.signExtend_eq] at this

end Verif.Words
