import Verif.Words.Shift
import Verif.Bitvect.Bits
namespace Verif.Words
variable {n : Nat}

/-! ### The lowest and the highest bit -/

theorem setLsb_length (b : Bool) (ws : List W) : (setLsb b ws).length = ws.length := by cases ws <;> rfl

theorem setLsb_bit (b : Bool) (ws : List W) (h : ws ≠ []) (i : Nat) :
    bit (setLsb b ws) i = if i = 0 then b else bit ws i := by
  cases ws with
  | nil => exact absurd rfl h
  | cons w ws =>
    rw [setLsb]
    by_cases hi : i < 32
    · rw [bit_cons_lo _ _ hi, bit_cons_lo _ _ hi]
      cases b
      · simp only [Bool.false_eq_true, if_false, BitVec.getLsbD_and, BitVec.getLsbD_not, lsb, BitVec.getLsbD_one, hi]
        by_cases h0 : i = 0 <;> simp [h0]
      · simp only [if_true, BitVec.getLsbD_or, lsb, BitVec.getLsbD_one]
        by_cases h0 : i = 0 <;> simp [h0]
    · obtain ⟨j, rfl⟩ : ∃ j, i = j + 32 := ⟨i - 32, by omega⟩
      rw [bit_cons_hi, bit_cons_hi, if_neg (by omega)]

theorem setMsb_length (n : Nat) (b : Bool) (ws : List W) : (setMsb n b ws).length = ws.length := by
  induction ws with
  | nil => rfl
  | cons w ws ih => cases ws with
    | nil => rfl
    | cons v vs => simpa [setMsb] using ih

theorem setMsb_bit (hn : 0 < n) (b : Bool) (ws : List W) (h : ws ≠ []) (i : Nat) :
    bit (setMsb n b ws) i = if i + 1 = 32 * (ws.length - 1) + used n then b else bit ws i := by
  obtain ⟨u1, u2, u3⟩ := used_spec hn
  induction ws generalizing i with
  | nil => exact absurd rfl h
  | cons w ws ih => cases ws with
    | nil =>
      rw [setMsb]
      by_cases hi : i < 32
      · rw [bit_cons_lo _ _ hi, bit_cons_lo _ _ hi]
        cases b
        · simp only [Bool.false_eq_true, if_false, BitVec.getLsbD_and, BitVec.getLsbD_or, BitVec.getLsbD_not,
            BitVec.getLsbD_ushiftRight, mask_bit hn, hi, decide_true, Bool.true_and, List.length_singleton]
          by_cases h0 : i + 1 = used n
          · have a : i < used n := by omega
            have c : ¬ 1 + i < used n := by omega
            simp [h0, a, c]
          · by_cases a : i < used n
            · have c : 1 + i < used n := by omega
              simp [h0, a, c]
            · simp [h0, a]
        · simp only [if_true, BitVec.getLsbD_or, topBit_bit hn, List.length_singleton]
          by_cases h0 : i + 1 = used n <;> simp [h0]
      · obtain ⟨j, rfl⟩ : ∃ j, i = j + 32 := ⟨i - 32, by omega⟩
        rw [bit_cons_hi, bit_cons_hi, if_neg (by simp; omega)]
    | cons v vs =>
      rw [setMsb]
      · by_cases hi : i < 32
        · rw [bit_cons_lo _ _ hi, bit_cons_lo _ _ hi, if_neg (by simp; omega)]
        · obtain ⟨j, rfl⟩ : ∃ j, i = j + 32 := ⟨i - 32, by omega⟩
          rw [bit_cons_hi, bit_cons_hi, ih (by simp)]
          have : (j + 1 = 32 * ((v :: vs).length - 1) + used n) ↔ (j + 32 + 1 = 32 * ((w :: v :: vs).length - 1) + used n) := by
            simp only [List.length_cons]; omega
          simp only [this]
      · simp

theorem set_bit_rep {ws zs : List W} {x : BitVec n} (hx : Rep n ws x) (k : Nat) (hk : k < n) (b : Bool)
    (hl : zs.length = ws.length) (hb : ∀ i, bit zs i = if i = k then b else bit ws i) :
    Rep n zs (if b then x ||| BitVec.twoPow n k else x &&& ~~~(BitVec.twoPow n k)) := by
  rw [rep_iff]
  refine ⟨by rw [hl, hx.len], fun i => ?_⟩
  rw [hb, hx.bit]
  by_cases hi : i < n
  · cases b <;> by_cases e : i = k
    · subst e; simp [BitVec.getLsbD_twoPow]
    · have : k ≠ i := fun c => e c.symm
      simp [BitVec.getLsbD_twoPow, e, this, hi]
    · subst e; simp [BitVec.getLsbD_twoPow, hi]
    · have : k ≠ i := fun c => e c.symm
      simp [BitVec.getLsbD_twoPow, e, this, hi]
  · rw [if_neg (by omega), BitVec.getLsbD_of_ge _ _ (by omega), BitVec.getLsbD_of_ge _ _ (by omega)]

theorem setLsb_rep (hn : 0 < n) (b : Bool) {ws : List W} {x : BitVec n} (hx : Rep n ws x) :
    Rep n (setLsb b ws) (if b then x ||| BitVec.twoPow n 0 else x &&& ~~~(BitVec.twoPow n 0)) :=
  set_bit_rep hx 0 hn b (setLsb_length b ws) (setLsb_bit b ws (hx.ne_nil hn))

theorem setMsb_rep (hn : 0 < n) (b : Bool) {ws : List W} {x : BitVec n} (hx : Rep n ws x) :
    Rep n (setMsb n b ws) (if b then x ||| BitVec.twoPow n (n - 1) else x &&& ~~~(BitVec.twoPow n (n - 1))) := by
  obtain ⟨u1, u2, u3⟩ := used_spec hn
  refine set_bit_rep hx (n - 1) (by omega) b (setMsb_length n b ws) fun i => ?_
  rw [setMsb_bit hn b ws (hx.ne_nil hn), hx.len]
  have : (i + 1 = 32 * (size n - 1) + used n) ↔ i = n - 1 := by omega
  simp only [this]

theorem lomask_bit (l i : Nat) : (ones <<< l : W).getLsbD i = (decide (i < 32) && decide (l ≤ i)) := by
  simp only [BitVec.getLsbD_shiftLeft, ones_bit]
  by_cases a : i < 32 <;> by_cases b : l ≤ i
  · have e1 : ¬ i < l := by omega
    have e2 : i - l < 32 := by omega
    simp [a, b, e1, e2]
  · have e1 : i < l := by omega
    simp [b, e1]
  · simp [a]
  · simp [a]

theorem himask_bit (u i : Nat) (hi : i < 32) : (~~~((ones <<< u) <<< 1)).getLsbD i = decide (i ≤ u) := by
  simp only [BitVec.getLsbD_not, BitVec.getLsbD_shiftLeft, ones_bit]
  by_cases a : i ≤ u
  · by_cases b : i < 1
    · simp [a, b, hi]
    · have : i - 1 < u := by omega
      simp [a, this, hi]
  · have e1 : ¬ i < 1 := by omega
    have e2 : ¬ i - 1 < u := by omega
    have e3 : i - 1 - u < 32 := by omega
    have e4 : i - 1 < 32 := by omega
    simp [a, hi, e1, e2, e3, e4]

/-! ### Storing a field -/

theorem storeLoop_length (ws : List W) (o c : Nat) (v : BitVec 64) : (storeLoop ws o c v).length = ws.length := by
  induction ws generalizing o c v with
  | nil => rfl
  | cons w ws ih =>
    simp only [storeLoop]
    split
    · rfl
    · simp [ih]

theorem storeLoop_zero (ws : List W) (o : Nat) (v : BitVec 64) : storeLoop ws o 0 v = ws := by
  cases ws <;> simp [storeLoop]

theorem storeLoop_bit (ws : List W) (o c : Nat) (v : BitVec 64) (ho : o < 32) (i : Nat) (hi : i < 32 * ws.length) :
    bit (storeLoop ws o c v) i = if o ≤ i ∧ i < o + c then v.getLsbD (i - o) else bit ws i := by
  induction ws generalizing o c v i with
  | nil => simp at hi
  | cons w ws ih =>
    simp only [storeLoop]
    by_cases hc : c = 0
    · rw [if_pos hc, if_neg (by omega)]
    · rw [if_neg hc]
      by_cases hlt : o + c < 32
      · simp only [if_pos hlt, Nat.sub_self, storeLoop_zero]
        by_cases h : i < 32
        · rw [bit_cons_lo _ _ h, bit_cons_lo _ _ h]
          simp only [BitVec.getLsbD_or, BitVec.getLsbD_and, BitVec.getLsbD_not, lomask_bit,
            BitVec.getLsbD_setWidth, h, decide_true, Bool.true_and]
          rw [BitVec.getLsbD_shiftLeft]
          have h64 : i < 64 := by omega
          by_cases a : o ≤ i <;> by_cases b : i < o + c
          · have e1 : ¬ i < o := by omega
            have e2 : ¬ o + c ≤ i := by omega
            simp [a, b, e1, e2, h64]
          · have e2 : o + c ≤ i := by omega
            simp [b, e2]
          · simp [a]
          · simp [a]
        · obtain ⟨j, rfl⟩ : ∃ j, i = j + 32 := ⟨i - 32, by omega⟩
          rw [bit_cons_hi, bit_cons_hi, if_neg (by omega)]
      · simp only [if_neg hlt]
        by_cases h : i < 32
        · rw [bit_cons_lo _ _ h, bit_cons_lo _ _ h]
          simp only [BitVec.getLsbD_or, BitVec.getLsbD_and, BitVec.getLsbD_not, lomask_bit,
            BitVec.getLsbD_setWidth, h, decide_true, Bool.true_and]
          rw [BitVec.getLsbD_shiftLeft]
          have b : i < o + c := by omega
          have h64 : i < 64 := by omega
          by_cases a : o ≤ i
          · have e1 : ¬ i < o := by omega
            simp [a, b, e1, h64]
          · simp [a]
        · obtain ⟨j, rfl⟩ : ∃ j, i = j + 32 := ⟨i - 32, by omega⟩
          rw [bit_cons_hi, bit_cons_hi, ih 0 _ _ (by omega) j (by simp only [List.length_cons] at hi; omega),
            BitVec.getLsbD_ushiftRight]
          by_cases b : j + 32 < o + c
          · rw [if_pos (by omega), if_pos (by omega)]; congr 1; omega
          · rw [if_neg (by omega), if_neg (by omega)]

theorem clip_spec (n c o : Nat) (ho : o < n) : clip n c o = min (min c 64) (n - o) := by
  simp only [clip]; split <;> split <;> omega

theorem chunkStore_rep (c o : Nat) (v : BitVec 64) {ws : List W} {x : BitVec n} (hx : Rep n ws x) :
    Rep n (chunkStore n ws c o v) (Bitvect.chunkStore x c o v) := by
  have hs := size_eq n
  unfold chunkStore
  by_cases h : c > 0 ∧ o < n
  · rw [if_pos h]
    have hl : ((ws.take (o / 32)).length) = o / 32 := by rw [List.length_take, hx.len]; omega
    have hb : ∀ i, i < 32 * size n → bit (ws.take (o / 32) ++ storeLoop (ws.drop (o / 32)) (o % 32) (clip n c o) v) i =
        if o ≤ i ∧ i < o + clip n c o then v.getLsbD (i - o) else x.getLsbD i := by
      intro i hi
      rw [bit_append, hl]
      by_cases a : i < 32 * (o / 32)
      · rw [if_pos a, bit_take, if_neg (by omega), hx.bit]; simp [a]
      · rw [if_neg a, storeLoop_bit _ _ _ _ (Nat.mod_lt _ (by omega)) _ (by rw [List.length_drop, hx.len]; omega), bit_drop,
          hx.bit, show i - 32 * (o / 32) + 32 * (o / 32) = i by omega]
        by_cases b : o ≤ i ∧ i < o + clip n c o
        · rw [if_pos b, if_pos (by omega)]; congr 1; omega
        · rw [if_neg b, if_neg (by omega)]
    rw [clip_spec _ _ _ h.2] at hb ⊢
    refine rep_of (by rw [List.length_append, hl, storeLoop_length, List.length_drop, hx.len]; omega) ?_ ?_
    · intro i hi
      rw [hb i (by omega), Bitvect.getLsbD_chunkStore _ _ _ _ _ hi]
      by_cases a : o ≤ i ∧ i < o + min c 64
      · rw [if_pos a, if_pos (by omega)]
      · rw [if_neg a, if_neg (by omega)]
    · intro i h1 h2
      rw [hb i h2, if_neg (by omega), BitVec.getLsbD_of_ge _ _ h1]
  · rw [if_neg h]
    have : Bitvect.chunkStore x c o v = x := by
      apply BitVec.eq_of_getLsbD_eq
      intro i hi
      rw [Bitvect.getLsbD_chunkStore _ _ _ _ _ hi, if_neg (by omega)]
    rwa [this]

/-! ### Reading a field -/

theorem readLoop_zero (ws : List W) (o g : Nat) (v : BitVec 64) : readLoop ws o 0 g v = v := by
  cases ws <;> simp [readLoop]

theorem readLoop_bit (ws : List W) (o c g : Nat) (v : BitVec 64) (ho : o < 32) (hg : g + c ≤ 64) (j : Nat) :
    (readLoop ws o c g v).getLsbD j = (v.getLsbD j || (decide (g ≤ j) && decide (j < g + c) && bit ws (o + (j - g)))) := by
  induction ws generalizing o c g v with
  | nil => simp [readLoop, bit]
  | cons w ws ih =>
    simp only [readLoop]
    by_cases hc : c = 0
    · rw [if_pos hc]
      by_cases a : g ≤ j
      · have : ¬ j < g + c := by omega
        simp [this]
      · simp [a]
    · rw [if_neg hc]
      by_cases hlt : o + c < 32
      · simp only [if_pos hlt, Nat.sub_self, readLoop_zero, BitVec.getLsbD_or]
        congr 1
        rw [BitVec.getLsbD_shiftLeft, BitVec.getLsbD_setWidth, BitVec.getLsbD_ushiftRight, BitVec.getLsbD_and, BitVec.getLsbD_not,
          BitVec.getLsbD_shiftLeft, ones_bit]
        by_cases a : g ≤ j
        · by_cases b : j < g + c
          · rw [bit_cons_lo _ _ (by omega)]
            have e1 : j < 64 := by omega
            have e2 : ¬ j < g := by omega
            have e3 : o + (j - g) < 32 := by omega
            have e4 : o + (j - g) < o + c := by omega
            have e5 : j - g < 64 := by omega
            simp [a, b, e1, e2, e3, e4, e5]
          · have e4 : ¬ o + (j - g) < o + c := by omega
            by_cases e3 : o + (j - g) < 32
            · have e6 : o + (j - g) - (o + c) < 32 := by omega
              simp [b, e4, e3, e6]
            · simp [b, e3]
        · have e2 : j < g := by omega
          simp [a, e2]
      · simp only [if_neg hlt]
        rw [ih 0 _ _ _ (by omega) (by omega), BitVec.getLsbD_or, Bool.or_assoc]
        congr 1
        rw [BitVec.getLsbD_shiftLeft, BitVec.getLsbD_setWidth, BitVec.getLsbD_ushiftRight, BitVec.getLsbD_and, ones_bit]
        by_cases a : g ≤ j
        · by_cases b : j < g + (32 - o)
          · rw [bit_cons_lo _ _ (by omega)]
            have e1 : j < 64 := by omega
            have e2 : ¬ j < g := by omega
            have e3 : o + (j - g) < 32 := by omega
            have e4 : ¬ g + (32 - o) ≤ j := by omega
            have e5 : j - g < 64 := by omega
            have e6 : j < g + c := by omega
            simp [a, e1, e2, e3, e4, e5, e6]
          · have e3 : ¬ o + (j - g) < 32 := by omega
            have e4 : g + (32 - o) ≤ j := by omega
            have e7 : (j < g + (32 - o) + (c - (32 - o))) ↔ j < g + c := by omega
            rw [show o + (j - g) = (j - (g + (32 - o))) + 32 by omega, bit_cons_hi] at *
            simp only [e3, e4, e7, a, decide_false, decide_true, Bool.and_false, Bool.false_or, Bool.true_and, Nat.zero_add]
        · have e2 : j < g := by omega
          have e4 : ¬ g + (32 - o) ≤ j := by omega
          simp [a, e2, e4]

theorem chunkRead_rep (c o : Nat) {ws : List W} {x : BitVec n} (hx : Rep n ws x) :
    chunkRead n ws c o = Bitvect.chunkRead x c o := by
  apply BitVec.eq_of_getLsbD_eq
  intro j hj
  have hr : (Bitvect.chunkRead x c o).getLsbD j = (decide (j < min c 64) && x.getLsbD (o + j)) := by
    unfold BitVec.getLsbD
    rw [Bitvect.chunkRead_toNat, Nat.testBit_mod_two_pow, Nat.testBit_div_two_pow, Nat.add_comm j o]
  rw [hr]
  unfold chunkRead
  by_cases h : c > 0 ∧ o < n
  · rw [if_pos h, readLoop_bit _ _ _ _ _ (Nat.mod_lt _ (by omega)) (by rw [clip_spec _ _ _ h.2]; omega), bit_drop, hx.bit,
      clip_spec _ _ _ h.2, show o % 32 + (j - 0) + 32 * (o / 32) = o + j by omega]
    by_cases a : o + j < n
    · have : (j < 0 + min (min c 64) (n - o)) ↔ j < min c 64 := by omega
      simp only [this]; simp
    · rw [BitVec.getLsbD_of_ge x _ (by omega)]; simp
  · rw [if_neg h]
    by_cases a : c = 0
    · simp [a]
    · rw [BitVec.getLsbD_of_ge x _ (by omega)]; simp

/-! ### Filling a range -/

theorem fillWords_length (ws : List W) (i k : Nat) : (fillWords ws i k).length = ws.length := by
  induction k generalizing ws i with
  | zero => rfl
  | succ k ih => rw [fillWords, ih, List.length_set]

theorem fillWords_bit (ws : List W) (i k : Nat) (h : i + k ≤ ws.length) (t : Nat) :
    bit (fillWords ws i k) t = if i ≤ t / 32 ∧ t / 32 < i + k then true else bit ws t := by
  induction k generalizing ws i with
  | zero => rw [fillWords, if_neg (by omega)]
  | succ k ih =>
    rw [fillWords, ih _ _ (by rw [List.length_set]; omega), bit_set _ _ _ (by omega), ones_bit]
    have : t % 32 < 32 := Nat.mod_lt _ (by omega)
    by_cases a : t / 32 = i
    · rw [if_neg (by omega), if_pos a, if_pos (by omega)]; simp [this]
    · rw [if_neg a]
      by_cases b : i + 1 ≤ t / 32 ∧ t / 32 < i + 1 + k
      · rw [if_pos b, if_pos (by omega)]
      · rw [if_neg b, if_neg (by omega)]

theorem getD_bit (ws : List W) (j i : Nat) : (ws.getD j 0#32).getLsbD i = (decide (i < 32) && bit ws (32 * j + i)) := by
  by_cases h : i < 32
  · unfold bit
    rw [show (32 * j + i) / 32 = j by omega, show (32 * j + i) % 32 = i by omega]; simp [h]
  · rw [BitVec.getLsbD_of_ge _ _ (by omega)]; simp [h]

theorem intervalFill_rep (lo hi : Nat) {ws : List W} {x : BitVec n} (hx : Rep n ws x) :
    Rep n (intervalFill n ws lo hi) (Bitvect.intervalFill x lo hi) := by
  have hs := size_eq n
  have hR : ∀ i, (Bitvect.intervalFill x lo hi).getLsbD i =
      (decide (i < n) && if lo ≤ i ∧ i ≤ hi ∧ lo < n ∧ hi < n then true else x.getLsbD i) := by
    intro i; unfold Bitvect.intervalFill; rw [Bitvect.getLsbD_ofBits]
  unfold intervalFill
  by_cases h : ws.length > 0 ∧ lo < n ∧ hi < n ∧ lo ≤ hi
  · obtain ⟨h0, h1, h2, h3⟩ := h
    rw [if_pos ⟨h0, h1, h2, h3⟩]
    have hl0 : lo / 32 < ws.length := by rw [hx.len]; omega
    have hl1 : hi / 32 < ws.length := by rw [hx.len]; omega
    simp only []
    refine rep_masked (by omega) ?_ ?_
    · split
      · rw [List.length_set, hx.len]
      · rw [List.length_set, fillWords_length, List.length_set, hx.len]
    · intro i hi'
      have hm : i % 32 < 32 := Nat.mod_lt _ (by omega)
      have hii : ∀ j, i / 32 = j → 32 * j + i % 32 = i := by omega
      rw [hR]
      simp only [hi', decide_true, Bool.true_and]
      by_cases e : hi / 32 - lo / 32 = 0
      · rw [if_pos e, bit_set _ _ _ hl0]
        by_cases a : i / 32 = lo / 32
        · rw [if_pos a, BitVec.getLsbD_or, BitVec.getLsbD_and, lomask_bit, himask_bit _ _ hm, getD_bit, hii _ a, hx.bit]
          by_cases b : lo ≤ i <;> by_cases c : i ≤ hi
          · have e1 : lo % 32 ≤ i % 32 := by omega
            have e2 : i % 32 ≤ hi % 32 := by omega
            simp [b, c, e1, e2, hm, h1, h2]
          · have e2 : ¬ i % 32 ≤ hi % 32 := by omega
            simp [c, e2, hm]
          · have e1 : ¬ lo % 32 ≤ i % 32 := by omega
            simp [b, e1, hm]
          · have e1 : ¬ lo % 32 ≤ i % 32 := by omega
            simp [b, e1, hm]
        · rw [if_neg a, hx.bit, if_neg (by omega)]
      · rw [if_neg e, bit_set _ _ _ (by rw [fillWords_length, List.length_set]; exact hl1)]
        have hfill : ∀ t, bit (fillWords (ws.set (lo / 32) (ws.getD (lo / 32) 0#32 ||| ones <<< (lo % 32))) (lo / 32 + 1) (hi / 32 - lo / 32 - 1)) t =
            if lo / 32 + 1 ≤ t / 32 ∧ t / 32 < hi / 32 then true else if t / 32 = lo / 32 then (x.getLsbD t || decide (lo % 32 ≤ t % 32)) else x.getLsbD t := by
          intro t
          have hmt : t % 32 < 32 := Nat.mod_lt _ (by omega)
          rw [fillWords_bit _ _ _ (by rw [List.length_set]; omega), bit_set _ _ _ hl0,
            show lo / 32 + 1 + (hi / 32 - lo / 32 - 1) = hi / 32 by omega]
          split
          · rfl
          · split
            · rename_i a
              rw [BitVec.getLsbD_or, lomask_bit, getD_bit, show 32 * (lo / 32) + t % 32 = t by omega, hx.bit]
              simp [hmt]
            · exact hx.bit t
        by_cases a : i / 32 = hi / 32
        · rw [if_pos a, BitVec.getLsbD_or, himask_bit _ _ hm, getD_bit, hii _ a, hfill, if_neg (by omega), if_neg (by omega)]
          by_cases c : i ≤ hi
          · have e2 : i % 32 ≤ hi % 32 := by omega
            rw [if_pos (by omega)]
            simp [e2]
          · have e2 : ¬ i % 32 ≤ hi % 32 := by omega
            rw [if_neg (by omega)]
            simp [e2, hm]
        · rw [if_neg a, hfill]
          by_cases b : lo / 32 + 1 ≤ i / 32 ∧ i / 32 < hi / 32
          · rw [if_pos b, if_pos (by omega)]
          · rw [if_neg b]
            by_cases c : i / 32 = lo / 32
            · rw [if_pos c]
              by_cases d : lo ≤ i
              · have e1 : lo % 32 ≤ i % 32 := by omega
                rw [if_pos (by omega)]; simp [e1]
              · have e1 : ¬ lo % 32 ≤ i % 32 := by omega
                rw [if_neg (by omega)]; simp [e1]
            · rw [if_neg c, if_neg (by omega)]
  · rw [if_neg h]
    have : Bitvect.intervalFill x lo hi = x := by
      apply BitVec.eq_of_getLsbD_eq
      intro i hi'
      have hlen : ws.length > 0 := by rw [hx.len]; omega
      rw [hR, if_neg (by omega)]; simp [hi']
    rwa [this]

/-! ### Bytes -/

theorem packWord_bit (bs : List (BitVec 8)) (j : Nat) (hj : j ≤ 4) (i : Nat) (hi : i < 32) :
    (packWord (8 * j) bs).getLsbD i = (decide (8 * j ≤ i) && (bs.getD (i / 8 - j) 0#8).getLsbD (i % 8)) := by
  induction bs generalizing j with
  | nil => simp [packWord]
  | cons b bs ih =>
    rw [packWord]
    by_cases h : 8 * j < 32
    · rw [if_pos h, show 8 * j + 8 = 8 * (j + 1) by omega, BitVec.getLsbD_or, ih (j + 1) (by omega), BitVec.getLsbD_shiftLeft,
        BitVec.getLsbD_setWidth]
      by_cases a : 8 * j ≤ i
      · by_cases c : 8 * (j + 1) ≤ i
        · rw [BitVec.getLsbD_of_ge b _ (by omega)]
          rw [show i / 8 - j = (i / 8 - (j + 1)) + 1 by omega]
          simp [a, c]
        · have e1 : ¬ i < 8 * j := by omega
          have e2 : i - 8 * j < 32 := by omega
          have e3 : i / 8 - j = 0 := by omega
          have e4 : i - 8 * j = i % 8 := by omega
          have e5 : i % 8 < 32 := by omega
          simp [a, c, hi, e1, e3, e4, e5]
      · have c : ¬ 8 * (j + 1) ≤ i := by omega
        have e1 : i < 8 * j := by omega
        simp [a, c, e1]
    · rw [if_neg h]
      have : ¬ 8 * j ≤ i := by omega
      simp [this]

theorem packWords_length (k : Nat) (bs : List (BitVec 8)) : (packWords k bs).length = k := by
  induction k generalizing bs with
  | zero => rfl
  | succ k ih => simp [packWords, ih]

theorem packWords_bit (k : Nat) (bs : List (BitVec 8)) (i : Nat) (hi : i < 32 * k) :
    bit (packWords k bs) i = (bs.getD (i / 8) 0#8).getLsbD (i % 8) := by
  induction k generalizing bs i with
  | zero => omega
  | succ k ih =>
    rw [packWords]
    by_cases h : i < 32
    · rw [bit_cons_lo _ _ h]
      have := packWord_bit bs 0 (by omega) i h
      simpa using this
    · obtain ⟨j, rfl⟩ : ∃ j, i = j + 32 := ⟨i - 32, by omega⟩
      rw [bit_cons_hi, ih _ _ (by omega), List.getD_eq_getElem?_getD, List.getElem?_drop, List.getD_eq_getElem?_getD,
        show 4 + j / 8 = (j + 32) / 8 by omega, show j % 8 = (j + 32) % 8 by omega]

theorem blockStore_rep (hn : 0 < n) (bs : List (BitVec 8)) : Rep n (blockStore n bs) (Bitvect.blockStore n bs) := by
  have hs := size_eq n
  refine rep_masked hn (packWords_length _ _) fun i hi => ?_
  rw [packWords_bit _ _ _ (by omega), Bitvect.blockStore, Bitvect.getLsbD_ofBits]
  simp [hi]

theorem unpack4 (w : W) : unpackWord 4 w = [BitVec.ofNat 8 w.toNat, BitVec.ofNat 8 (w.toNat / 2 ^ 8),
    BitVec.ofNat 8 (w.toNat / 2 ^ 16), BitVec.ofNat 8 (w.toNat / 2 ^ 24)] := by
  have h : ∀ v : W, (v &&& 0xff#32).setWidth 8 = BitVec.ofNat 8 v.toNat := by
    intro v
    apply BitVec.eq_of_toNat_eq
    rw [BitVec.toNat_setWidth, BitVec.toNat_and]
    show (v.toNat &&& (2 ^ 8 - 1)) % 2 ^ 8 = _
    rw [Nat.and_two_pow_sub_one_eq_mod, Nat.mod_mod, BitVec.toNat_ofNat]
  simp only [unpackWord, h, if_true, Nat.lt_add_one, Nat.zero_lt_succ, gt_iff_lt, BitVec.toNat_ushiftRight, Nat.shiftRight_eq_div_pow,
    Nat.div_div_eq_div_mul, ← Nat.pow_add, Nat.reduceAdd]

theorem blockRead_val (ws : List W) :
    blockRead ws = (List.range (4 * ws.length)).map fun j => BitVec.ofNat 8 (val ws / 2 ^ (8 * j)) := by
  induction ws with
  | nil => rfl
  | cons w ws ih =>
    have h1 : blockRead (w :: ws) = unpackWord 4 w ++ blockRead ws := by simp [blockRead]
    rw [h1, ih, unpack4, List.length_cons, show 4 * (ws.length + 1) = 4 + 4 * ws.length by omega, List.range_add,
      List.map_append, List.map_map]
    congr 1
    · have hw := w.isLt
      simp only [List.range, List.range.loop, List.map_cons, List.map_nil, val, List.cons.injEq, and_true]
      refine ⟨?_, ?_, ?_, ?_⟩ <;> (apply BitVec.eq_of_toNat_eq; simp only [BitVec.toNat_ofNat]; omega)
    · apply List.map_congr_left
      intro j _
      simp only [Function.comp_apply, val]
      rw [show 8 * (4 + j) = 32 + 8 * j by omega, Nat.pow_add, ← Nat.div_div_eq_div_mul,
        Nat.add_mul_div_left _ _ (by decide), Nat.div_eq_of_lt w.isLt, Nat.zero_add]

theorem blockRead_rep (h32 : n % 32 = 0) {ws : List W} {x : BitVec n} (hx : Rep n ws x) :
    blockRead ws = Bitvect.blockRead x := by
  have hs := size_eq n
  rw [blockRead_val, hx.len, hx.val_eq, Bitvect.blockRead, show 4 * size n = n / 8 by omega]

end Verif.Words
