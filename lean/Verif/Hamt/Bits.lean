/- The population-count macro and the bitmap-indexed child array. -/
import Verif.Hamt.Model

set_option linter.unusedSimpArgs false
set_option linter.unusedVariables false

namespace Verif.Hamt

/-! ### Fields packed in a number -/

def ofF (w : Nat) : List Nat → Nat
  | [] => 0
  | a :: l => a + 2 ^ w * ofF w l

def msk (w : Nat) : Nat → Nat
  | 0 => 0
  | n + 1 => (2 ^ w - 1) + 2 ^ (2 * w) * msk w n

def pairs : List Nat → List Nat
  | a :: b :: l => (a + b) :: pairs l
  | _ => []

theorem and_split (k a b c d : Nat) (ha : a < 2 ^ k) (hc : c < 2 ^ k) :
    (a + 2 ^ k * b) &&& (c + 2 ^ k * d) = (a &&& c) + 2 ^ k * (b &&& d) := by
  have hac : a &&& c < 2 ^ k := Nat.lt_of_le_of_lt Nat.and_le_left ha
  apply Nat.eq_of_testBit_eq
  intro i
  rw [Nat.testBit_and, Nat.add_comm a, Nat.add_comm c, Nat.add_comm (a &&& c)]
  rw [Nat.testBit_two_pow_mul_add _ ha, Nat.testBit_two_pow_mul_add _ hc,
    Nat.testBit_two_pow_mul_add _ hac]
  split <;> simp [Nat.testBit_and]

theorem ofF_lt (w : Nat) (l : List Nat) (h : ∀ a ∈ l, a < 2 ^ w) : ofF w l < 2 ^ (w * l.length) := by
  induction l with
  | nil => simp [ofF]
  | cons a l ih =>
    have ha := h a (by simp)
    have hl := ih (fun x hx => h x (by simp [hx]))
    simp only [ofF, List.length_cons]
    rw [show w * (l.length + 1) = w + w * l.length by rw [Nat.mul_add]; omega, Nat.pow_add]
    have : 2 ^ w * (ofF w l + 1) ≤ 2 ^ w * 2 ^ (w * l.length) := Nat.mul_le_mul_left _ hl
    rw [Nat.mul_add] at this
    omega

theorem pair_step (w : Nat) (n : Nat) : ∀ (l : List Nat), l.length = 2 * n → (∀ a ∈ l, a < 2 ^ w) →
    (ofF w l &&& msk w n) + ((ofF w l >>> w) &&& msk w n) = ofF (2 * w) (pairs l) := by
  induction n with
  | zero =>
    intro l hl _
    have : l = [] := List.length_eq_zero_iff.mp (by omega)
    subst this
    simp [ofF, msk, pairs]
  | succ n ih =>
    intro l hl hb
    match l, hl with
    | a :: b :: r, hl =>
      have hr : r.length = 2 * n := by simp at hl; omega
      have ha := hb a (by simp)
      have hbb := hb b (by simp)
      have hih := ih r hr (fun x hx => hb x (by simp [hx]))
      have hw : 0 < 2 ^ w := Nat.two_pow_pos w
      have h2w : 2 ^ (2 * w) = 2 ^ w * 2 ^ w := by rw [← Nat.pow_add]; congr 1; omega
      have hm1 : 2 ^ w - 1 < 2 ^ w := by omega
      have hself : ∀ x, x < 2 ^ w → x &&& (2 ^ w - 1) = x := by
        intro x hx; rw [Nat.and_two_pow_sub_one_eq_mod]; exact Nat.mod_eq_of_lt hx
      have e1 : msk w (n + 1) = (2 ^ w - 1) + 2 ^ w * (0 + 2 ^ w * msk w n) := by
        simp only [msk, h2w, Nat.zero_add, Nat.mul_assoc]
      have e2 : ofF w (a :: b :: r) = a + 2 ^ w * (b + 2 ^ w * ofF w r) := rfl
      have f1 : ofF w (a :: b :: r) &&& msk w (n + 1) =
          a + 2 ^ w * (2 ^ w * (ofF w r &&& msk w n)) := by
        rw [e1, e2, and_split w a _ _ _ ha hm1, hself a ha, and_split w b _ 0 _ hbb hw]
        simp
      have f2 : (ofF w (a :: b :: r) >>> w) &&& msk w (n + 1) =
          b + 2 ^ w * (2 ^ w * ((ofF w r >>> w) &&& msk w n)) := by
        have hs : ofF w (a :: b :: r) >>> w = b + 2 ^ w * ofF w r := by
          rw [e2, Nat.shiftRight_eq_div_pow, Nat.add_mul_div_left _ _ hw, Nat.div_eq_of_lt ha]
          omega
        have hs2 : ofF w r = ofF w r % 2 ^ w + 2 ^ w * (ofF w r >>> w) := by
          rw [Nat.shiftRight_eq_div_pow]; exact (Nat.mod_add_div _ _).symm
        rw [hs, e1, and_split w b _ _ _ hbb hm1, hself b hbb]
        congr 2
        conv => lhs; rw [hs2]
        rw [and_split w _ _ 0 _ (Nat.mod_lt _ hw) hw]
        simp
      rw [f1, f2]
      have : ofF (2 * w) (pairs (a :: b :: r)) = (a + b) + 2 ^ (2 * w) * ofF (2 * w) (pairs r) := rfl
      rw [this, ← hih, h2w]
      simp only [Nat.mul_add, Nat.mul_assoc]
      omega

theorem pairs_append (n : Nat) : ∀ (l1 l2 : List Nat), l1.length = 2 * n →
    pairs (l1 ++ l2) = pairs l1 ++ pairs l2 := by
  induction n with
  | zero =>
    intro l1 l2 h
    have : l1 = [] := List.length_eq_zero_iff.mp (by omega)
    subst this; simp [pairs]
  | succ n ih =>
    intro l1 l2 h
    match l1, h with
    | a :: b :: r, h =>
      have hr : r.length = 2 * n := by simp at h; omega
      simp [pairs, ih r l2 hr]

theorem pairs_props (n : Nat) : ∀ (l : List Nat), l.length = 2 * n →
    (pairs l).length = n ∧ (pairs l).sum = l.sum := by
  induction n with
  | zero =>
    intro l h
    have : l = [] := List.length_eq_zero_iff.mp (by omega)
    subst this; simp [pairs]
  | succ n ih =>
    intro l h
    match l, h with
    | a :: b :: r, h =>
      have hr : r.length = 2 * n := by simp at h; omega
      obtain ⟨h1, h2⟩ := ih r hr
      simp [pairs, h1, h2, Nat.add_assoc]

theorem pairs_le (m : Nat) (n : Nat) : ∀ (l : List Nat), l.length = 2 * n → (∀ a ∈ l, a ≤ m) →
    ∀ a ∈ pairs l, a ≤ 2 * m := by
  induction n with
  | zero =>
    intro l h
    have : l = [] := List.length_eq_zero_iff.mp (by omega)
    subst this; simp [pairs]
  | succ n ih =>
    intro l h hb
    match l, h with
    | a :: b :: r, h =>
      have hr : r.length = 2 * n := by simp at h; omega
      intro x hx
      simp only [pairs, List.mem_cons] at hx
      rcases hx with rfl | hx
      · have := hb a (by simp); have := hb b (by simp); omega
      · exact ih r hr (fun y hy => hb y (by simp [hy])) x hx

/-- One macro step on packed fields. -/
theorem bcCount_fields (c : Nat) (hc : c < 5) (l : List Nat) (m : Nat)
    (hlen : l.length = 2 * (32 / 2 ^ c)) (hm : m < 2 ^ (2 ^ c)) (hb : ∀ a ∈ l, a ≤ m)
    (h2m : 2 * m < 2 ^ (2 * 2 ^ c)) (x : BitVec 64) (hx : x.toNat = ofF (2 ^ c) l) :
    (bcCount x c).toNat = ofF (2 ^ (c + 1)) (pairs l) := by
  have hmask : (bcMask c).toNat = msk (2 ^ c) (32 / 2 ^ c) := by
    have : c = 0 ∨ c = 1 ∨ c = 2 ∨ c = 3 ∨ c = 4 := by omega
    rcases this with rfl | rfl | rfl | rfl | rfl <;> decide +kernel
  have hlt : ∀ a ∈ l, a < 2 ^ (2 ^ c) := fun a ha => Nat.lt_of_le_of_lt (hb a ha) hm
  have hstep := pair_step (2 ^ c) (32 / 2 ^ c) l hlen hlt
  have hbound : ofF (2 * 2 ^ c) (pairs l) < 2 ^ 64 := by
    have h1 := ofF_lt (2 * 2 ^ c) (pairs l)
      (fun a ha => Nat.lt_of_le_of_lt (pairs_le m _ l hlen hb a ha) h2m)
    rw [(pairs_props _ l hlen).1] at h1
    have : 2 * 2 ^ c * (32 / 2 ^ c) = 64 := by
      have : c = 0 ∨ c = 1 ∨ c = 2 ∨ c = 3 ∨ c = 4 := by omega
      rcases this with rfl | rfl | rfl | rfl | rfl <;> rfl
    rwa [this] at h1
  unfold bcCount
  rw [BitVec.toNat_add, BitVec.toNat_and, BitVec.toNat_and, BitVec.toNat_ushiftRight, hmask, hx,
    hstep, Nat.mod_eq_of_lt hbound]
  congr 1
  rw [Nat.pow_succ, Nat.mul_comm]

/-- The bits of a number, as a list. -/
def bitsL (x : Nat) : Nat → List Nat
  | 0 => []
  | n + 1 => x % 2 :: bitsL (x / 2) n

theorem bitsL_props (n : Nat) : ∀ x, x < 2 ^ n → (bitsL x n).length = n ∧
    ofF 1 (bitsL x n) = x ∧ (∀ a ∈ bitsL x n, a ≤ 1) := by
  induction n with
  | zero => intro x h; simp [bitsL, ofF] at *; omega
  | succ n ih =>
    intro x h
    obtain ⟨h1, h2, h3⟩ := ih (x / 2) (by rw [Nat.pow_succ] at h; omega)
    refine ⟨by simp [bitsL, h1], ?_, ?_⟩
    · simp only [bitsL, ofF, h2]; omega
    · intro a ha
      simp only [bitsL, List.mem_cons] at ha
      rcases ha with rfl | ha
      · omega
      · exact h3 a ha

/-- Number of set bits of `x` among positions `lo`, `lo+1`, ..., `lo+n-1`. -/
def cntFrom (x : Nat) (lo : Nat) : Nat → Nat
  | 0 => 0
  | n + 1 => (if x.testBit lo then 1 else 0) + cntFrom x (lo + 1) n

theorem bitsL_sum (n : Nat) : ∀ x lo, ((bitsL (x / 2 ^ lo) n)).sum = cntFrom x lo n := by
  induction n with
  | zero => intro x lo; rfl
  | succ n ih =>
    intro x lo
    simp only [bitsL, List.sum_cons, cntFrom]
    rw [Nat.div_div_eq_div_mul, ← Nat.pow_succ, ih x (lo + 1)]
    congr 1
    rw [Nat.testBit_eq_decide_div_mod_eq]
    have := Nat.mod_two_eq_zero_or_one (x / 2 ^ lo)
    split <;> simp_all

theorem bitsL_append (n m : Nat) : ∀ x, bitsL x (n + m) = bitsL x n ++ bitsL (x / 2 ^ n) m := by
  induction n with
  | zero => intro x; simp [bitsL]
  | succ n ih =>
    intro x
    rw [Nat.succ_add]
    simp only [bitsL, List.cons_append, ih]
    rw [Nat.div_div_eq_div_mul, Nat.pow_succ, Nat.mul_comm]

theorem bitsL_len (n : Nat) : ∀ x, (bitsL x n).length = n := by
  induction n with
  | zero => intro x; rfl
  | succ n ih => intro x; simp [bitsL, ih]

/-- The macro computes the number of set bits among the low 32, modulo 32 when masked. -/
theorem bitCount_spec (x : BitVec 64) :
    (bitCount x &&& 0x1F#64).toNat = cntFrom x.toNat 0 32 % 32 := by
  obtain ⟨hl, hv, hb⟩ := bitsL_props 64 x.toNat x.isLt
  have hsplit := bitsL_append 32 32 x.toNat
  generalize hA : bitsL x.toNat 32 = A at hsplit
  generalize hB : bitsL (x.toNat / 2 ^ 32) 32 = B at hsplit
  have hAl : A.length = 32 := by rw [← hA, bitsL_len]
  have hBl : B.length = 32 := by rw [← hB, bitsL_len]
  have hAs : A.sum = cntFrom x.toNat 0 32 := by
    have := bitsL_sum 32 x.toNat 0
    simpa [hA] using this
  generalize hL : bitsL x.toNat 64 = L at *
  have hL' : L = A ++ B := hsplit
  have s0 := bcCount_fields 0 (by omega) L 1 (by rw [hl]) (by decide) hb (by decide) x (by rw [hv])
  have l1 := (pairs_props 32 L (by rw [hl])).1
  have b1 := pairs_le 1 32 L (by rw [hl]) hb
  have s1 := bcCount_fields 1 (by omega) _ 2 (by rw [l1]) (by decide) b1 (by decide) _ s0
  have l2 := (pairs_props 16 _ (by rw [l1])).1
  have b2 := pairs_le 2 16 _ (by rw [l1]) b1
  have s2 := bcCount_fields 2 (by omega) _ 4 (by rw [l2]) (by decide) b2 (by decide) _ s1
  have l3 := (pairs_props 8 _ (by rw [l2])).1
  have b3 := pairs_le 4 8 _ (by rw [l2]) b2
  have s3 := bcCount_fields 3 (by omega) _ 8 (by rw [l3]) (by decide) b3 (by decide) _ s2
  have l4 := (pairs_props 4 _ (by rw [l3])).1
  have b4 := pairs_le 8 4 _ (by rw [l3]) b3
  have s4 := bcCount_fields 4 (by omega) _ 16 (by rw [l4]) (by decide) b4 (by decide) _ s3
  have p1 : pairs L = pairs A ++ pairs B := by rw [hL', pairs_append 16 A B hAl]
  have a1 := pairs_props 16 A hAl
  have p2 : pairs (pairs L) = pairs (pairs A) ++ pairs (pairs B) := by
    rw [p1, pairs_append 8 _ _ (by rw [a1.1])]
  have a2 := pairs_props 8 (pairs A) (by rw [a1.1])
  have p3 : pairs (pairs (pairs L)) = pairs (pairs (pairs A)) ++ pairs (pairs (pairs B)) := by
    rw [p2, pairs_append 4 _ _ (by rw [a2.1])]
  have a3 := pairs_props 4 (pairs (pairs A)) (by rw [a2.1])
  have p4 : pairs (pairs (pairs (pairs L))) =
      pairs (pairs (pairs (pairs A))) ++ pairs (pairs (pairs (pairs B))) := by
    rw [p3, pairs_append 2 _ _ (by rw [a3.1])]
  have a4 := pairs_props 2 (pairs (pairs (pairs A))) (by rw [a3.1])
  have p5 : pairs (pairs (pairs (pairs (pairs L)))) =
      pairs (pairs (pairs (pairs (pairs A)))) ++ pairs (pairs (pairs (pairs (pairs B)))) := by
    rw [p4, pairs_append 1 _ _ (by rw [a4.1])]
  have a5 := pairs_props 1 (pairs (pairs (pairs (pairs A)))) (by rw [a4.1])
  have hsum : (pairs (pairs (pairs (pairs (pairs A))))).sum = A.sum := by
    rw [a5.2, a4.2, a3.2, a2.2, a1.2]
  obtain ⟨q, hq⟩ : ∃ q, pairs (pairs (pairs (pairs (pairs A)))) = [q] :=
    List.length_eq_one_iff.mp a5.1
  rw [BitVec.toNat_and]
  show (bitCount x).toNat &&& 31 = _
  rw [show (31 : Nat) = 2 ^ 5 - 1 by rfl, Nat.and_two_pow_sub_one_eq_mod]
  unfold bitCount
  rw [s4, p5, hq]
  simp only [List.cons_append, List.nil_append, ofF]
  rw [hq] at hsum
  simp at hsum
  rw [hsum, hAs]
  omega

/-! ### The bitmap as a set of digits -/

/-- Digit `k` (0..31) is present. -/
def present (bm : BitVec 64) (k : Nat) : Bool := bm.getLsbD k

/-- A bitmap value is normal when bits 32..63 are only set together with bit 31 (they come from the
    sign extension of `1<<31`). -/
def Normal (bm : BitVec 64) : Prop := ∀ i, 32 ≤ i → bm.getLsbD i = true → bm.getLsbD 31 = true

theorem intBit_getLsbD (k i : Nat) (hk : k < 32) (hi : i < 64) :
    (intBit k).getLsbD i = (decide (i = k) || (decide (k = 31) && decide (31 ≤ i))) := by
  have : ∀ (k : Fin 32) (i : Fin 64), (intBit k.val).getLsbD i.val =
      (decide (i.val = k.val) || (decide (k.val = 31) && decide (31 ≤ i.val))) := by decide +kernel
  exact this ⟨k, hk⟩ ⟨i, hi⟩

theorem and_intBit_zero (bm : BitVec 64) (hn : Normal bm) (k : Nat) (hk : k < 32) :
    bm &&& intBit k = 0 ↔ present bm k = false := by
  constructor
  · intro h
    have := congrArg (fun b => BitVec.getLsbD b k) h
    simp only [BitVec.getLsbD_and, intBit_getLsbD k k hk (by omega)] at this
    simpa [present] using this
  · intro h
    apply BitVec.eq_of_getLsbD_eq
    intro i hi
    rw [BitVec.getLsbD_and, intBit_getLsbD k i hk hi]
    simp only [BitVec.ofNat_eq_ofNat, BitVec.getLsbD_zero]
    unfold present at h
    by_cases hik : i = k
    · subst hik; simp [h]
    · by_cases h31 : k = 31
      · subst h31
        by_cases hi31 : 31 ≤ i
        · cases hb : bm.getLsbD i
          · simp
          · have := hn i (by omega) hb
            rw [h] at this; cases this
        · simp [hik, hi31]
      · simp [hik, h31]

theorem or_intBit_normal (bm : BitVec 64) (hn : Normal bm) (k : Nat) (hk : k < 32) :
    Normal (bm ||| intBit k) := by
  intro i hi h
  by_cases hi64 : i < 64
  · rw [BitVec.getLsbD_or, intBit_getLsbD k i hk hi64] at h
    rw [BitVec.getLsbD_or, intBit_getLsbD k 31 hk (by omega)]
    simp only [Bool.or_eq_true, decide_eq_true_eq, Bool.and_eq_true] at h ⊢
    rcases h with h | h | h
    · left; exact hn i hi h
    · omega
    · right; left; omega
  · rw [BitVec.getLsbD_of_ge _ _ (by omega)] at h; cases h

theorem or_intBit_present (bm : BitVec 64) (k j : Nat) (hk : k < 32) (hj : j < 32) :
    present (bm ||| intBit k) j = (present bm j || decide (j = k)) := by
  unfold present
  rw [BitVec.getLsbD_or, intBit_getLsbD k j hk (by omega)]
  congr 1
  by_cases h : j = k
  · simp [h]
  · simp [h]; omega

theorem intBit_eq_or (k : Nat) : intBit k = 0#64 ||| intBit k := by simp

theorem zero_normal : Normal 0#64 := by intro i _ h; simp at h

theorem two_normal (k k2 : Nat) (hk : k < 32) (hk2 : k2 < 32) :
    Normal ((1#64 <<< k) ||| (1#64 <<< k2)) := by
  intro i hi h
  by_cases hi64 : i < 64
  · have : ∀ (k k2 : Fin 32) (i : Fin 64), 32 ≤ i.val →
      ((1#64 <<< k.val) ||| (1#64 <<< k2.val)).getLsbD i.val = false := by
      intro k k2 i hi
      simp [BitVec.getLsbD_shiftLeft, BitVec.getLsbD_one]
      omega
    rw [this ⟨k, hk⟩ ⟨k2, hk2⟩ ⟨i, hi64⟩ hi] at h
    cases h
  · rw [BitVec.getLsbD_of_ge _ _ (by omega)] at h; cases h

theorem two_present (k k2 j : Nat) (hk : k < 32) (hk2 : k2 < 32) (hj : j < 32) :
    present ((1#64 <<< k) ||| (1#64 <<< k2)) j = (decide (j = k) || decide (j = k2)) := by
  unfold present
  simp [BitVec.getLsbD_shiftLeft, BitVec.getLsbD_one]
  rw [Bool.eq_iff_iff]
  simp
  omega

/-- Number of digits below `k` in the bitmap. -/
def rank (bm : BitVec 64) : Nat → Nat
  | 0 => 0
  | k + 1 => rank bm k + (if present bm k then 1 else 0)

theorem cntFrom_snoc (x : Nat) (n : Nat) : ∀ lo, cntFrom x lo (n + 1) =
    cntFrom x lo n + (if x.testBit (lo + n) then 1 else 0) := by
  induction n with
  | zero => intro lo; simp [cntFrom]
  | succ n ih =>
    intro lo
    rw [cntFrom, ih (lo + 1)]
    conv => rhs; rw [cntFrom]
    rw [show lo + 1 + n = lo + (n + 1) by omega, Nat.add_assoc]

theorem cntFrom_rank (bm : BitVec 64) (n : Nat) : cntFrom bm.toNat 0 n = rank bm n := by
  induction n with
  | zero => rfl
  | succ n ih =>
    rw [cntFrom_snoc, ih, rank]
    simp only [present, BitVec.getLsbD, Nat.zero_add]
    rfl

theorem rank_le (bm : BitVec 64) (k : Nat) : rank bm k ≤ k := by
  induction k with
  | zero => simp [rank]
  | succ k ih => simp only [rank]; split <;> omega

theorem rank_mono (bm : BitVec 64) {a b : Nat} (h : a ≤ b) : rank bm a ≤ rank bm b := by
  induction b with
  | zero => have : a = 0 := by omega
            subst this; exact Nat.le_refl _
  | succ b ih =>
    by_cases hb : a = b + 1
    · subst hb; exact Nat.le_refl _
    · have := ih (by omega)
      simp only [rank]; omega

theorem rank_lt (bm : BitVec 64) {a b : Nat} (h : a < b) (hp : present bm a = true) :
    rank bm a < rank bm b := by
  have h1 : rank bm (a + 1) = rank bm a + 1 := by simp [rank, hp]
  have := rank_mono bm (show a + 1 ≤ b by omega)
  omega

theorem masked_present (bm : BitVec 64) (k j : Nat) :
    present (bm &&& ~~~(BitVec.allOnes 64 <<< k)) j = (present bm j && decide (j < k)) := by
  unfold present
  by_cases hj : j < 64
  · simp [hj]
    by_cases hjk : j < k
    · simp [hjk]
    · have : (BitVec.allOnes 64)[j - k]'(by omega) = true := by
        rw [BitVec.getElem_allOnes]
      simp only [hjk, decide_false, Bool.false_or, Bool.and_false]
      simp at this
      simp [this]
  · simp [BitVec.getLsbD_of_ge _ _ (show 64 ≤ j by omega)]

theorem rank_masked (bm : BitVec 64) (k n : Nat) :
    rank (bm &&& ~~~(BitVec.allOnes 64 <<< k)) n = rank bm (min n k) := by
  induction n with
  | zero => simp [rank]
  | succ n ih =>
    rw [rank, ih, masked_present]
    by_cases h : n < k
    · rw [show min (n + 1) k = n + 1 by omega, show min n k = n by omega, rank]
      simp [h]
    · rw [show min (n + 1) k = k by omega, show min n k = k by omega]
      simp [h]

theorem mapIdx_rank (bm : BitVec 64) (k : Nat) (hk : k < 32) : mapIdx bm k = rank bm k := by
  unfold mapIdx
  rw [bitCount_spec, cntFrom_rank, rank_masked, show min 32 k = k by omega]
  have := rank_le bm k
  exact Nat.mod_eq_of_lt (by omega)

theorem mapSize_rank (bm : BitVec 64) (h : 0 < rank bm 32) : mapSize bm = rank bm 32 := by
  unfold mapSize
  rw [bitCount_spec, cntFrom_rank]
  have := rank_le bm 32
  simp only
  split
  · omega
  · have h32 : rank bm 32 ≠ 32 := by intro h'; omega
    rw [Nat.mod_eq_of_lt (by omega)]

theorem rank_or (bm : BitVec 64) (k : Nat) (hk : k < 32) (hp : present bm k = false) (n : Nat)
    (hn : n ≤ 32) : rank (bm ||| intBit k) n = rank bm n + (if k < n then 1 else 0) := by
  induction n with
  | zero => simp [rank]
  | succ n ih =>
    rw [rank, ih (by omega), or_intBit_present bm k n hk (by omega), rank]
    by_cases h : n = k
    · subst h; simp [hp]
    · by_cases h1 : k < n
      · simp [h, h1, show k < n + 1 by omega]; omega
      · simp [h, h1, show ¬ k < n + 1 by omega]

/-! ### Children -/

/-- The child of digit `k`. -/
def childAt (bm : BitVec 64) (ch : List Node) (k : Nat) : Option Node :=
  if present bm k then ch[rank bm k]? else none

structure ArrOk (bm : BitVec 64) (ch : List Node) : Prop where
  normal : Normal bm
  len : ch.length = rank bm 32

theorem childAt_isSome {bm : BitVec 64} {ch : List Node} (h : ArrOk bm ch) {k : Nat} (hk : k < 32)
    (hp : present bm k = true) : ∃ c, ch[rank bm k]? = some c := by
  have := rank_lt bm hk hp
  rw [← h.len] at this
  exact ⟨_, List.getElem?_eq_getElem this⟩

theorem arrOk_set {bm : BitVec 64} {ch : List Node} (h : ArrOk bm ch) (m : Nat) (c : Node) :
    ArrOk bm (ch.set m c) := ⟨h.normal, by simp [h.len]⟩

theorem childAt_set {bm : BitVec 64} {ch : List Node} (h : ArrOk bm ch) {k : Nat} (hk : k < 32)
    (hp : present bm k = true) (c : Node) (j : Nat) (hj : j < 32) :
    childAt bm (ch.set (rank bm k) c) j = if j = k then some c else childAt bm ch j := by
  unfold childAt
  by_cases hjk : j = k
  · subst hjk
    obtain ⟨c0, hc0⟩ := childAt_isSome h hk hp
    have := (List.getElem?_eq_some_iff.mp hc0).1
    simp [hp, this]
  · simp only [hjk, if_false]
    by_cases hpj : present bm j = true
    · simp only [hpj, if_true]
      have : rank bm k ≠ rank bm j := by
        rcases Nat.lt_or_gt_of_ne hjk with h1 | h1
        · have := rank_lt bm h1 hpj; omega
        · have := rank_lt bm h1 hp; omega
      rw [List.getElem?_set_ne this]
    · simp [hpj]

theorem arrOk_insert {bm : BitVec 64} {ch : List Node} (h : ArrOk bm ch) {k : Nat} (hk : k < 32)
    (hp : present bm k = false) (c : Node) :
    ArrOk (bm ||| intBit k) (ch.take (rank bm k) ++ c :: ch.drop (rank bm k)) := by
  refine ⟨or_intBit_normal bm h.normal k hk, ?_⟩
  rw [rank_or bm k hk hp 32 (by omega), ← h.len]
  have := rank_mono bm (show k ≤ 32 by omega)
  rw [← h.len] at this
  simp [hk]
  omega

theorem childAt_insert {bm : BitVec 64} {ch : List Node} (h : ArrOk bm ch) {k : Nat} (hk : k < 32)
    (hp : present bm k = false) (c : Node) (j : Nat) (hj : j < 32) :
    childAt (bm ||| intBit k) (ch.take (rank bm k) ++ c :: ch.drop (rank bm k)) j =
      if j = k then some c else childAt bm ch j := by
  have hle := rank_mono bm (show k ≤ 32 by omega)
  rw [← h.len] at hle
  have hlt : (ch.take (rank bm k)).length = rank bm k := by simp; omega
  unfold childAt
  rw [or_intBit_present bm k j hk hj, rank_or bm k hk hp j (by omega)]
  by_cases hjk : j = k
  · subst hjk
    simp only [decide_true, Bool.or_true, if_true, Nat.lt_irrefl, if_false, Nat.add_zero]
    rw [List.getElem?_append_right (by omega), hlt]
    simp
  · simp only [hjk, decide_false, Bool.or_false, if_false]
    cases hpj : present bm j
    · simp
    · simp only [if_true]
      by_cases hkj : k < j
      · have h1 := rank_mono bm (show k ≤ j by omega)
        simp only [hkj, if_true]
        rw [List.getElem?_append_right (by omega), hlt,
          show rank bm j + 1 - rank bm k = (rank bm j - rank bm k) + 1 by omega,
          List.getElem?_cons_succ, List.getElem?_drop,
          show rank bm k + (rank bm j - rank bm k) = rank bm j by omega]
      · have h1 : rank bm j < rank bm k := rank_lt bm (by omega) hpj
        simp only [hkj, if_false, Nat.add_zero]
        rw [List.getElem?_append_left (by omega), List.getElem?_take, if_pos h1]

end Verif.Hamt
