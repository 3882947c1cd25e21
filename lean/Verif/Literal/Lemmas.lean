import Verif.Literal.Spec
import Verif.Intnum.Bytes
import Mathlib.Tactic.Ring
import Mathlib.Tactic.Linarith
set_option linter.unusedSimpArgs false
set_option linter.unusedVariables false
namespace Verif.Literal
open Verif.Bitvect Verif.Intnum

/-- Value of a reversed digit string. -/
def rval (base : Nat) : List (BitVec 8) → Nat
  | [] => 0
  | c :: cs => if c = us then rval base cs else digitOf c + base * rval base cs

theorem litVal_eq (base : Nat) (s : List (BitVec 8)) : litVal base s = rval base s.reverse := by
  have : ∀ l : List (BitVec 8), rval base l =
      l.foldr (fun c acc => if c = us then acc else acc * base + digitOf c) 0 := by
    intro l
    induction l with
    | nil => rfl
    | cons c cs ih =>
      rw [rval, List.foldr_cons, ih]
      split
      · rfl
      · rw [Nat.add_comm, Nat.mul_comm]
  rw [this, litVal, List.foldr_reverse]

theorem hexCls_spec (c : BitVec 8) :
    hexCls c = if c = us then .sep else if digitOf c < 2 ^ 4 then .digit (digitOf c) else .bad := by
  revert c; decide +kernel
theorem octCls_spec (c : BitVec 8) :
    octCls c = if c = us then .sep else if digitOf c < 2 ^ 3 then .digit (digitOf c) else .bad := by
  revert c; decide +kernel
theorem binCls_spec (c : BitVec 8) :
    binCls c = if c = us then .sep else if digitOf c < 2 ^ 1 then .digit (digitOf c) else .bad := by
  revert c; decide +kernel

theorem or_low (value c d : Nat) (hv : value < 2 ^ c) (hc : c < 32) :
    value ||| (d * 2 ^ c % 2 ^ 32) = value + d * 2 ^ c % 2 ^ 32 ∧
    d * 2 ^ c = d * 2 ^ c % 2 ^ 32 + 2 ^ 32 * (d / 2 ^ (32 - c)) ∧
    value + d * 2 ^ c % 2 ^ 32 < 2 ^ 32 := by
  have e32 : 2 ^ 32 = 2 ^ (32 - c) * 2 ^ c := by rw [← Nat.pow_add]; congr 1; omega
  have elow : d * 2 ^ c % 2 ^ 32 = d % 2 ^ (32 - c) * 2 ^ c := by rw [e32, Nat.mul_mod_mul_right]
  have hd : d / 2 ^ (32 - c) * 2 ^ (32 - c) + d % 2 ^ (32 - c) = d := Nat.div_add_mod' d _
  refine ⟨?_, ?_, ?_⟩
  · rw [elow, Nat.or_comm, ← Nat.shiftLeft_eq, ← Nat.shiftLeft_add_eq_or_of_lt hv, Nat.add_comm]
  · rw [elow, e32]
    conv => lhs; rw [← hd]
    ring
  · rw [elow, e32]
    have hlt : d % 2 ^ (32 - c) < 2 ^ (32 - c) := Nat.mod_lt _ (Nat.two_pow_pos _)
    have h2 : (d % 2 ^ (32 - c) + 1) * 2 ^ c ≤ 2 ^ (32 - c) * 2 ^ c := Nat.mul_le_mul_right _ hlt
    rw [Nat.add_mul] at h2
    omega

theorem valid_tail {base : Nat} {c : BitVec 8} {cs : List (BitVec 8)} (h : ValidLit base (c :: cs)) :
    ValidLit base cs := fun x hx => h x (List.mem_cons_of_mem _ hx)

/-- Filling a word from a well-formed string. -/
theorem scan_valid (k : Nat) (cls : BitVec 8 → Cls) (hk : 0 < k) (hk2 : k ≤ 32)
    (H : ∀ c, cls c = if c = us then .sep else if digitOf c < 2 ^ k then .digit (digitOf c) else .bad)
    (l : List (BitVec 8)) (count value digit : Nat) (hl : ValidLit (2 ^ k) l) (hc : count < 32)
    (hv : value < 2 ^ count) :
    (scan k cls l count value digit).ok = true ∧
    (scan k cls l count value digit).value < 2 ^ 32 ∧
    ValidLit (2 ^ k) (scan k cls l count value digit).rest ∧
    (k ∣ count → k ∣ (scan k cls l count value digit).count) ∧
    (((scan k cls l count value digit).rest = [] ∧ (scan k cls l count value digit).count < 32 ∧
        (scan k cls l count value digit).value = value + 2 ^ count * rval (2 ^ k) l) ∨
     (32 ≤ (scan k cls l count value digit).count ∧ (scan k cls l count value digit).count < 32 + k ∧
      (scan k cls l count value digit).digit < 2 ^ k ∧
      (scan k cls l count value digit).value + 2 ^ 32 *
        ((scan k cls l count value digit).digit / 2 ^ (k - ((scan k cls l count value digit).count - 32)) +
          2 ^ ((scan k cls l count value digit).count - 32) * rval (2 ^ k) (scan k cls l count value digit).rest) =
        value + 2 ^ count * rval (2 ^ k) l)) := by
  induction l generalizing count value digit with
  | nil =>
    have : 2 ^ count ≤ 2 ^ 32 := Nat.pow_le_pow_right (by decide) (by omega)
    simp only [scan, rval]
    exact ⟨trivial, by omega, hl, id, Or.inl ⟨trivial, hc, by simp⟩⟩
  | cons c cs ih =>
    have hvt := valid_tail hl
    by_cases hus : c = us
    · have e : scan k cls (c :: cs) count value digit = scan k cls cs count value c.toNat := by
        rw [scan, if_pos hc, H, if_pos hus]
      rw [e]
      have := ih count value c.toNat hvt hc hv
      rw [show rval (2 ^ k) (c :: cs) = rval (2 ^ k) cs by rw [rval, if_pos hus]]
      exact this
    · have hd : digitOf c < 2 ^ k := by
        rcases hl c (List.mem_cons_self) with h | h
        · exact absurd h hus
        · exact h
      have e : scan k cls (c :: cs) count value digit =
          scan k cls cs (count + k) (value ||| (digitOf c * 2 ^ count % 2 ^ 32)) (digitOf c) := by
        rw [scan, if_pos hc, H, if_neg hus, if_pos hd]
      rw [e, show rval (2 ^ k) (c :: cs) = digitOf c + 2 ^ k * rval (2 ^ k) cs by rw [rval, if_neg hus]]
      obtain ⟨h1, h2, h3⟩ := or_low value count (digitOf c) hv hc
      rw [h1]
      generalize digitOf c = d at *
      have epow : 2 ^ (count + k) = 2 ^ count * 2 ^ k := Nat.pow_add _ _ _
      by_cases hfull : count + k < 32
      · have hdlt : d * 2 ^ count < 2 ^ 32 := by
          have : d * 2 ^ count < 2 ^ k * 2 ^ count := Nat.mul_lt_mul_of_pos_right hd (Nat.two_pow_pos _)
          rw [← Nat.pow_add] at this
          have h4 : 2 ^ (k + count) ≤ 2 ^ 32 := Nat.pow_le_pow_right (by decide) (by omega)
          omega
        rw [Nat.mod_eq_of_lt hdlt]
        have hv2 : value + d * 2 ^ count < 2 ^ (count + k) := by
          have : (d + 1) * 2 ^ count ≤ 2 ^ k * 2 ^ count := Nat.mul_le_mul_right _ hd
          rw [epow, Nat.mul_comm (2 ^ count)]
          rw [Nat.add_mul] at this
          omega
        have := ih (count + k) (value + d * 2 ^ count) d hvt hfull hv2
        have er : value + d * 2 ^ count + 2 ^ (count + k) * rval (2 ^ k) cs =
            value + 2 ^ count * (d + 2 ^ k * rval (2 ^ k) cs) := by rw [epow]; ring
        rw [er] at this
        refine ⟨this.1, this.2.1, this.2.2.1, ?_, this.2.2.2.2⟩
        intro hkc
        exact this.2.2.2.1 (Nat.dvd_add hkc (Nat.dvd_refl k))
      · have hs : scan k cls cs (count + k) (value + d * 2 ^ count % 2 ^ 32) d =
            ⟨value + d * 2 ^ count % 2 ^ 32, count + k, d, true, cs⟩ := by
          cases cs with
          | nil => rfl
          | cons c2 cs2 => rw [scan, if_neg hfull]
        rw [hs]
        refine ⟨rfl, h3, hvt, fun hkc => Nat.dvd_add hkc (Nat.dvd_refl k), Or.inr ⟨?_, ?_, hd, ?_⟩⟩
        · show 32 ≤ count + k; omega
        · show count + k < 32 + k; omega
        · show value + d * 2 ^ count % 2 ^ 32 + 2 ^ 32 * (d / 2 ^ (k - (count + k - 32)) +
            2 ^ (count + k - 32) * rval (2 ^ k) cs) = value + 2 ^ count * (d + 2 ^ k * rval (2 ^ k) cs)
          rw [show k - (count + k - 32) = 32 - count by omega]
          have e2 : 2 ^ 32 * 2 ^ (count + k - 32) = 2 ^ count * 2 ^ k := by
            rw [← Nat.pow_add, ← Nat.pow_add]; congr 1; omega
          rw [Nat.mul_add (2 ^ 32), ← Nat.mul_assoc (2 ^ 32), e2, Nat.mul_add (2 ^ count),
            Nat.mul_comm (2 ^ count) d, ← Nat.mul_assoc (2 ^ count)]
          omega

/-- Sum of the words. -/
def wsum (ws : List Nat) : Nat := ws.foldr (fun w acc => w + 2 ^ 32 * acc) 0

theorem wsum_cons (w : Nat) (ws : List Nat) : wsum (w :: ws) = w + 2 ^ 32 * wsum ws := rfl

theorem word_mod (v X n : Nat) (hv : v < 2 ^ 32) :
    (v + 2 ^ 32 * X) % 2 ^ (32 * (n + 1)) = v + 2 ^ 32 * (X % 2 ^ (32 * n)) := by
  rw [show 32 * (n + 1) = 32 + 32 * n by omega, Nat.pow_add, Nat.mod_mul]
  rw [Nat.add_mul_mod_self_left, Nat.mod_eq_of_lt hv, Nat.add_mul_div_left _ _ (Nat.two_pow_pos _),
    Nat.div_eq_of_lt hv, Nat.zero_add]

theorem words_valid (k : Nat) (cls : BitVec 8 → Cls) (hk : 0 < k) (hk32 : k ∣ 32)
    (H : ∀ c, cls c = if c = us then .sep else if digitOf c < 2 ^ k then .digit (digitOf c) else .bad)
    (n : Nat) (l : List (BitVec 8)) (hl : ValidLit (2 ^ k) l) :
    (words k cls n true l).2 = true ∧ wsum (words k cls n true l).1 = rval (2 ^ k) l % 2 ^ (32 * n) := by
  have hk2 : k ≤ 32 := Nat.le_of_dvd (by decide) hk32
  induction n generalizing l with
  | zero => simp [words, wsum, Nat.mod_one]
  | succ n ih =>
    obtain ⟨hok, hv, hrest, hdvd, hcase⟩ := scan_valid k cls hk hk2 H l 0 0 0 hl (by decide) (by decide)
    rw [words]
    simp only [wsum_cons]
    rw [hok]
    obtain ⟨i1, i2⟩ := ih _ hrest
    refine ⟨i1, ?_⟩
    rw [i2]
    rcases hcase with ⟨hnil, hc, hval⟩ | ⟨hc1, hc2, hdig, heq⟩
    · rw [hnil]
      have e : rval (2 ^ k) l = (scan k cls l 0 0 0).value + 2 ^ 32 * 0 := by
        rw [hval]; simp
      rw [e, word_mod _ _ _ hv]
      simp [rval]
    · have hc32 : (scan k cls l 0 0 0).count = 32 := by
        obtain ⟨a, ha⟩ := hdvd (Nat.dvd_zero k)
        obtain ⟨b, hb⟩ := hk32
        have h1 : b ≤ a := by
          by_contra h
          have := Nat.mul_le_mul_left k (show a + 1 ≤ b by omega)
          rw [Nat.mul_add] at this; omega
        have h2 : a ≤ b := by
          by_contra h
          have := Nat.mul_le_mul_left k (show b + 1 ≤ a by omega)
          rw [Nat.mul_add] at this; omega
        have : a = b := by omega
        rw [ha, this, ← hb]
      rw [hc32] at heq
      simp only [Nat.sub_self, Nat.sub_zero, Nat.pow_zero, Nat.one_mul, Nat.zero_add] at heq
      rw [Nat.div_eq_of_lt hdig, Nat.zero_add] at heq
      rw [← heq, word_mod _ _ _ hv]

theorem wordsOct_nil (n : Nat) (cfill : Int) (digit : Nat) (h0 : cfill < 0)
    (h : -(2 ^ 31) + 32 * n ≤ cfill) :
    (wordsOct n true 0 cfill digit []).2 = true ∧ wsum (wordsOct n true 0 cfill digit []).1 = 0 := by
  induction n generalizing cfill with
  | zero => simp [wordsOct, wsum]
  | succ n ih =>
    have e1 : (cfill % 2 ^ 32).toNat = (2 ^ 32 + cfill).toNat := by omega
    have e2 : Int.bmod ((2 ^ 32 + cfill).toNat : Int) (2 ^ 32) = cfill := by
      rw [Int.bmod_def]; omega
    rw [wordsOct]
    simp only [if_true, scan, e1, e2, wsum_cons]
    rw [if_neg (by omega)]
    have := ih (cfill - 32) (by omega) (by omega)
    exact ⟨this.1, by rw [this.2]; rfl⟩

theorem wordsOct_valid (n : Nat) (l : List (BitVec 8)) (vfill cfill digit : Nat)
    (hl : ValidLit (2 ^ 3) l) (hn : n ≤ 8) (hc : cfill ≤ 2) (hv : vfill < 2 ^ cfill) :
    (wordsOct n true vfill cfill digit l).2 = true ∧
    wsum (wordsOct n true vfill cfill digit l).1 = (vfill + 2 ^ cfill * rval (2 ^ 3) l) % 2 ^ (32 * n) := by
  induction n generalizing l vfill cfill digit with
  | zero => simp [wordsOct, wsum, Nat.mod_one]
  | succ n ih =>
    have e1 : ((cfill : Int) % 2 ^ 32).toNat = cfill := by omega
    obtain ⟨hok, hv2, hrest, -, hcase⟩ := scan_valid 3 octCls (by decide) (by decide) octCls_spec l cfill vfill
      digit hl (by omega) hv
    rw [wordsOct]
    simp only [if_true, e1, wsum_cons]
    rw [hok]
    generalize hs : scan 3 octCls l cfill vfill digit = s at *
    rcases hcase with ⟨hnil, hcnt, hval⟩ | ⟨hc1, hc2, hdig, heq⟩
    · have e2 : Int.bmod (s.count : Int) (2 ^ 32) = s.count := by rw [Int.bmod_def]; omega
      rw [hnil, e2, if_neg (by omega)]
      have := wordsOct_nil n ((s.count : Int) - 32) s.digit (by omega) (by omega)
      refine ⟨this.1, ?_⟩
      rw [this.2, ← hval, Nat.mod_eq_of_lt]
      · omega
      · have h4 : 2 ^ 32 ≤ 2 ^ (32 * (n + 1)) := Nat.pow_le_pow_right (by decide) (by omega)
        omega
    · have e2 : Int.bmod (s.count : Int) (2 ^ 32) = s.count := by rw [Int.bmod_def]; clear heq; omega
      rw [e2, show (s.count : Int) - 32 = ((s.count - 32 : Nat) : Int) by clear heq; omega]
      have ev : (if ((s.count - 32 : Nat) : Int) > 0 then
          s.digit / 2 ^ (3 - ((s.count - 32 : Nat) : Int)).toNat % 2 ^ 32 else 0) =
          s.digit / 2 ^ (3 - (s.count - 32)) := by
        have hd2 : s.digit / 2 ^ (3 - (s.count - 32)) ≤ s.digit := Nat.div_le_self _ _
        by_cases h0 : s.count = 32
        · rw [if_neg (by clear heq; omega), h0]; simp only [Nat.sub_self, Nat.sub_zero]
          exact (Nat.div_eq_of_lt hdig).symm
        · rw [if_pos (by clear heq; omega), show (3 - ((s.count - 32 : Nat) : Int)).toNat = 3 - (s.count - 32) by clear heq; omega,
            Nat.mod_eq_of_lt (by clear heq; omega)]
      rw [ev]
      have hfill : s.digit / 2 ^ (3 - (s.count - 32)) < 2 ^ (s.count - 32) := by
        rw [Nat.div_lt_iff_lt_mul (Nat.two_pow_pos _), ← Nat.pow_add,
          show s.count - 32 + (3 - (s.count - 32)) = 3 by clear heq; omega]
        exact hdig
      obtain ⟨i1, i2⟩ := ih s.rest (s.digit / 2 ^ (3 - (s.count - 32))) (s.count - 32) s.digit hrest
        (by clear heq; omega) (by clear heq; omega) hfill
      refine ⟨i1, ?_⟩
      rw [i2, ← heq, word_mod _ _ _ hv2]

/-! ### malformed strings -/

theorem scan_invalid (k : Nat) (cls : BitVec 8 → Cls) (hk : 0 < k)
    (H : ∀ c, cls c = if c = us then .sep else if digitOf c < 2 ^ k then .digit (digitOf c) else .bad)
    (l : List (BitVec 8)) (count value digit : Nat) (hl : ¬ ValidLit (2 ^ k) l) :
    (scan k cls l count value digit).ok = false ∨
    (¬ ValidLit (2 ^ k) (scan k cls l count value digit).rest ∧
      32 ≤ (scan k cls l count value digit).count ∧
      (count < 32 + k → (scan k cls l count value digit).count < 32 + k) ∧
      k * numDigits (scan k cls l count value digit).rest + (scan k cls l count value digit).count =
        k * numDigits l + count ∧
      (k ∣ count → k ∣ (scan k cls l count value digit).count)) := by
  induction l generalizing count value digit with
  | nil => exact absurd (fun c hc => by simp at hc) hl
  | cons c cs ih =>
    by_cases hc : count < 32
    · by_cases hus : c = us
      · have e : scan k cls (c :: cs) count value digit = scan k cls cs count value c.toNat := by
          rw [scan, if_pos hc, H, if_pos hus]
        have en : numDigits (c :: cs) = numDigits cs := by simp [numDigits, hus]
        rw [e, en]
        apply ih
        intro hv; apply hl
        intro x hx
        rcases List.mem_cons.1 hx with h | h
        · left; rw [h]; exact hus
        · exact hv x h
      · by_cases hd : digitOf c < 2 ^ k
        · have e : scan k cls (c :: cs) count value digit =
              scan k cls cs (count + k) (value ||| (digitOf c * 2 ^ count % 2 ^ 32)) (digitOf c) := by
            rw [scan, if_pos hc, H, if_neg hus, if_pos hd]
          have en : numDigits (c :: cs) = numDigits cs + 1 := by simp [numDigits, hus]
          rw [e, en]
          rcases ih (count + k) (value ||| (digitOf c * 2 ^ count % 2 ^ 32)) (digitOf c) (by
            intro hv; apply hl
            intro x hx
            rcases List.mem_cons.1 hx with h | h
            · right; rw [h]; exact hd
            · exact hv x h) with h | ⟨h1, h2, h3, h4, h5⟩
          · exact Or.inl h
          · refine Or.inr ⟨h1, h2, fun _ => h3 (by omega), ?_, fun hkc => h5 (Nat.dvd_add hkc (Nat.dvd_refl k))⟩
            rw [h4]; ring
        · left
          rw [scan, if_pos hc, H, if_neg hus, if_neg hd]
    · right
      have e : scan k cls (c :: cs) count value digit = ⟨value, count, digit, true, c :: cs⟩ := by
        rw [scan, if_neg hc]
      rw [e]
      exact ⟨hl, by show 32 ≤ count; omega, id, rfl, id⟩

theorem numDigits_pos {base : Nat} {l : List (BitVec 8)} (hl : ¬ ValidLit base l) : 1 ≤ numDigits l := by
  induction l with
  | nil => exact absurd (fun c hc => by simp at hc) hl
  | cons c cs ih =>
    by_cases hus : c = us
    · have : numDigits (c :: cs) = numDigits cs := by simp [numDigits, hus]
      rw [this]; apply ih
      intro hv; apply hl
      intro x hx
      rcases List.mem_cons.1 hx with h | h
      · left; rw [h]; exact hus
      · exact hv x h
    · simp [numDigits, hus]

theorem words_false (k : Nat) (cls : BitVec 8 → Cls) (n : Nat) (l : List (BitVec 8)) :
    (words k cls n false l).2 = false := by
  induction n with
  | zero => rfl
  | succ n ih => rw [words]; exact ih

theorem words_invalid (k : Nat) (cls : BitVec 8 → Cls) (hk : 0 < k) (hk32 : k ∣ 32)
    (H : ∀ c, cls c = if c = us then .sep else if digitOf c < 2 ^ k then .digit (digitOf c) else .bad)
    (n : Nat) (l : List (BitVec 8)) (hl : ¬ ValidLit (2 ^ k) l) (hn : k * numDigits l ≤ 32 * n) :
    (words k cls n true l).2 = false := by
  have hk2 : k ≤ 32 := Nat.le_of_dvd (by decide) hk32
  induction n generalizing l with
  | zero =>
    have := Nat.mul_le_mul_left k (numDigits_pos hl)
    omega
  | succ n ih =>
    rw [words]
    show (words k cls n (scan k cls l 0 0 0).ok (scan k cls l 0 0 0).rest).2 = false
    rcases scan_invalid k cls hk H l 0 0 0 hl with h | ⟨h1, h2, h3, h4, h5⟩
    · rw [h]; exact words_false _ _ _ _
    · cases hb : (scan k cls l 0 0 0).ok
      · exact words_false _ _ _ _
      · exact ih _ h1 (by omega)

theorem wordsOct_false (n : Nat) (vfill : Nat) (cfill : Int) (digit : Nat) (l : List (BitVec 8)) :
    (wordsOct n false vfill cfill digit l).2 = false := by
  induction n generalizing vfill cfill digit with
  | zero => rfl
  | succ n ih => rw [wordsOct]; exact ih _ _ _

theorem wordsOct_invalid (n : Nat) (l : List (BitVec 8)) (vfill cfill digit : Nat)
    (hl : ¬ ValidLit (2 ^ 3) l) (hc : cfill ≤ 2) (hn : 3 * numDigits l + cfill ≤ 32 * n + 2) :
    (wordsOct n true vfill cfill digit l).2 = false := by
  induction n generalizing l vfill cfill digit with
  | zero =>
    have := numDigits_pos hl
    omega
  | succ n ih =>
    have e1 : ((cfill : Int) % 2 ^ 32).toNat = cfill := by omega
    rw [wordsOct]
    simp only [if_true, e1]
    rcases scan_invalid 3 octCls (by decide) octCls_spec l cfill vfill digit hl with h | ⟨h1, h2, h3, h4, -⟩
    · rw [h]; exact wordsOct_false _ _ _ _ _
    · generalize hs : scan 3 octCls l cfill vfill digit = s at *
      cases hb : s.ok
      · exact wordsOct_false _ _ _ _ _
      · have h3' := h3 (by omega)
        have e2 : Int.bmod (s.count : Int) (2 ^ 32) = s.count := by rw [Int.bmod_def]; omega
        rw [e2, show (s.count : Int) - 32 = ((s.count - 32 : Nat) : Int) by omega]
        exact ih s.rest _ (s.count - 32) s.digit h1 (by omega) (by omega)

theorem ofWords_toNat (ws : List Nat) (v : Nat) (h : wsum ws = v % 2 ^ 256) : (ofWords ws).toNat = v % 2 ^ 256 := by
  rw [ofWords, BitVec.toNat_ofNat]
  show wsum ws % 2 ^ 256 = _
  rw [h, Nat.mod_mod]

theorem valid_reverse {base : Nat} {s : List (BitVec 8)} : ValidLit base s.reverse ↔ ValidLit base s := by
  simp [ValidLit]

theorem numDigits_reverse (s : List (BitVec 8)) : numDigits s.reverse = numDigits s := by
  simp [numDigits, List.filter_reverse]

end Verif.Literal
