import Verif.Floatnum.ScaleLemmas

set_option linter.unusedSimpArgs false

namespace Verif.Floatnum

open Verif.Bitvect
open Verif.Floatnum.Spec

/-! ### Digits -/

theorem natValue_foldl (ds : List (Fin 10)) (v : Nat) :
    ds.foldl (fun v d => v * 10 + d.val) v = v * 10 ^ ds.length + natValue ds := by
  unfold natValue
  induction ds generalizing v with
  | nil => simp
  | cons d t ih =>
    simp only [List.foldl_cons, List.length_cons]
    rw [ih, ih (0 * 10 + d.val)]
    rw [Nat.pow_succ]; ring

theorem natValue_cons (d : Fin 10) (ds : List (Fin 10)) :
    natValue (d :: ds) = d.val * 10 ^ ds.length + natValue ds := by
  rw [natValue, List.foldl_cons, natValue_foldl]; simp

theorem natValue_append (a b : List (Fin 10)) : natValue (a ++ b) = natValue a * 10 ^ b.length + natValue b := by
  rw [natValue, List.foldl_append, natValue_foldl]; rfl

theorem natValue_lt (ds : List (Fin 10)) : natValue ds < 10 ^ ds.length := by
  induction ds with
  | nil => simp [natValue]
  | cons d t ih =>
    rw [natValue_cons, List.length_cons, Nat.pow_succ]
    have := d.isLt
    have h2 : d.val * 10 ^ t.length ≤ 9 * 10 ^ t.length := Nat.mul_le_mul_right _ (by omega)
    omega

theorem natValue_dropWhile (ds : List (Fin 10)) : natValue (ds.dropWhile (· == 0)) = natValue ds := by
  induction ds with
  | nil => rfl
  | cons d t ih =>
    rw [List.dropWhile_cons]
    by_cases h : (d == 0) = true
    · rw [if_pos h, ih, natValue_cons]
      have : d = 0 := by simpa using h
      subst this; simp
    · rw [if_neg h]

/-- A leading digit other than zero. -/
def Lead (ds : List (Fin 10)) : Prop := ∀ d ∈ ds.head?, d ≠ 0

theorem lead_dropWhile (ds : List (Fin 10)) : Lead (ds.dropWhile (· == 0)) := by
  intro d hd
  induction ds with
  | nil => simp at hd
  | cons c t ih =>
    rw [List.dropWhile_cons] at hd
    by_cases h : (c == 0) = true
    · rw [if_pos h] at hd; exact ih hd
    · rw [if_neg h] at hd
      simp at hd; subst hd
      simpa using h

theorem natValue_lead (ds : List (Fin 10)) (h : Lead ds) (k : Nat) (hk : 0 < k) (hk2 : k ≤ ds.length) :
    10 ^ (k - 1) ≤ natValue (ds.take k) := by
  cases ds with
  | nil => simp at hk2; omega
  | cons d t =>
    obtain ⟨j, rfl⟩ : ∃ j, k = j + 1 := ⟨k - 1, by omega⟩
    rw [List.take_succ_cons, natValue_cons, List.length_take]
    have hd : d ≠ 0 := h d (by simp)
    have : 1 ≤ d.val := by
      rcases Nat.eq_zero_or_pos d.val with h0 | h0
      · exact absurd (Fin.ext h0) hd
      · exact h0
    simp at hk2
    rw [Nat.min_eq_left hk2, Nat.add_sub_cancel]
    exact le_trans (Nat.le_mul_of_pos_left _ this) (Nat.le_add_right _ _)

theorem digit_facts : ∀ d : Fin 10, isdigit (digitChar d) = true ∧ digitVal (digitChar d) = d.val ∧
    digitChar d ≠ '-' ∧ digitChar d ≠ '+' ∧ digitChar d ≠ '.' ∧ (digitChar d = '0' ↔ d = 0) ∧
    digitChar d ≠ 'e' ∧ digitChar d ≠ 'E' := by decide

/-- Ten times the mantissa, plus a digit. -/
theorem addDigit_toNat (m : BitVec 80) (d : Fin 10) (h : 10 * m.toNat + d.val < 2 ^ 80) :
    (addDigit m (digitChar d)).toNat = m.toNat * 10 + d.val := by
  have hd := d.isLt
  unfold addDigit
  dsimp only
  rw [(digit_facts d).2.1]
  have h2 : (shl1 m false).toNat = 2 * m.toNat := by
    rw [shl1_toNat _ _ (by simp; omega)]; simp
  have h8 : (moveLeft (shl1 m false) 2).toNat = 8 * m.toNat := by
    rw [moveLeft_toNat, h2, Nat.mod_eq_of_lt (by omega)]; omega
  have hc : (chunkStore (0 : BitVec 80) 4 0 (BitVec.ofNat 64 d.val)).toNat = d.val := by
    rw [show (0 : BitVec 80) = 0#80 from rfl, chunkStore_zero_toNat 80 _ 4 (by omega) (by omega),
      BitVec.toNat_ofNat]
    omega
  rw [BitVec.toNat_add, BitVec.toNat_add, h2, h8, hc]
  omega

/-- A text that does not go on with a digit. -/
def NoDigit (rest : List Char) : Prop := ∀ c ∈ rest.head?, isdigit c = false

theorem pow24_lt : 10 ^ 24 < 2 ^ 80 := by decide

theorem readInt_spec (ds : List (Fin 10)) (rest : List Char) (hrest : NoDigit rest) (r : Read)
    (hr : r.mant.toNat < 10 ^ (min r.sig 24)) :
    ∃ r', readInt r (ds.map digitChar ++ rest) = (r', rest) ∧
      r'.mant.toNat = r.mant.toNat * 10 ^ (min ds.length (24 - r.sig)) + natValue (ds.take (24 - r.sig)) ∧
      r'.dec = r.dec + (ds.length - min ds.length (24 - r.sig) : Nat) ∧ r'.sig = r.sig + ds.length ∧
      r'.mant.toNat < 10 ^ (min r'.sig 24) := by
  induction ds generalizing r with
  | nil =>
    refine ⟨r, ?_, by simp [natValue], by simp, by simp, hr⟩
    simp only [List.map_nil, List.nil_append]
    cases rest with
    | nil => rfl
    | cons c t => rw [readInt, hrest c (by simp)]; simp
  | cons d t ih =>
    have hd := d.isLt
    rw [List.map_cons, List.cons_append, readInt, (digit_facts d).1, if_pos rfl]
    by_cases hs : r.sig < 24
    · rw [if_pos hs]
      have hp : 10 ^ (r.sig + 1) ≤ 10 ^ 24 := Nat.pow_le_pow_right (by decide) (by omega)
      rw [Nat.min_eq_left (by omega)] at hr
      rw [Nat.pow_succ] at hp
      have hm := addDigit_toNat r.mant d (by have := pow24_lt; omega)
      obtain ⟨r', h1, h2, h3, h4, h5⟩ := ih { r with mant := addDigit r.mant (digitChar d), sig := r.sig + 1 } (by
        dsimp only
        rw [hm, Nat.min_eq_left (by omega), Nat.pow_succ]; omega)
      refine ⟨r', h1, ?_, ?_, ?_, h5⟩
      · rw [h2]
        dsimp only
        rw [hm, show 24 - r.sig = (24 - (r.sig + 1)) + 1 by omega, List.take_succ_cons, natValue_cons,
          List.length_take, List.length_cons]
        have : min (t.length + 1) (24 - (r.sig + 1) + 1) = min (24 - (r.sig + 1)) t.length + 1 := by omega
        rw [this, Nat.min_comm t.length, Nat.pow_succ]
        ring
      · rw [h3]; dsimp only; rw [List.length_cons]; omega
      · rw [h4]; dsimp only; rw [List.length_cons]; omega
    · rw [if_neg hs]
      obtain ⟨r', h1, h2, h3, h4, h5⟩ := ih { r with dec := r.dec + 1, sig := r.sig + 1 } (by
        dsimp only
        rw [Nat.min_eq_right (by omega)] at hr ⊢; exact hr)
      refine ⟨r', h1, ?_, ?_, ?_, h5⟩
      · rw [h2]; dsimp only
        rw [show 24 - (r.sig + 1) = 0 by omega, show 24 - r.sig = 0 by omega]; simp
      · rw [h3]; dsimp only; rw [List.length_cons]; omega
      · rw [h4]; dsimp only; rw [List.length_cons]; omega

theorem readFrac_spec (ds : List (Fin 10)) (rest : List Char) (hrest : NoDigit rest) (r : Read)
    (hr : r.mant.toNat < 10 ^ (min r.sig 24)) :
    ∃ r', readFrac r (ds.map digitChar ++ rest) = (r', rest) ∧
      r'.mant.toNat = r.mant.toNat * 10 ^ (min ds.length (19 - r.sig)) + natValue (ds.take (19 - r.sig)) ∧
      r'.dec = r.dec - (min ds.length (19 - r.sig) : Nat) ∧
      r'.mant.toNat < 10 ^ 24 := by
  induction ds generalizing r with
  | nil =>
    refine ⟨r, ?_, by simp [natValue], by simp,
      Nat.lt_of_lt_of_le hr (Nat.pow_le_pow_right (by decide) (by omega))⟩
    simp only [List.map_nil, List.nil_append]
    cases rest with
    | nil => rfl
    | cons c t => rw [readFrac, hrest c (by simp)]; simp
  | cons d t ih =>
    have hd := d.isLt
    rw [List.map_cons, List.cons_append, readFrac, (digit_facts d).1, if_pos rfl]
    by_cases hs : r.sig < 19
    · rw [if_pos hs]
      have hp : 10 ^ (r.sig + 1) ≤ 10 ^ 24 := Nat.pow_le_pow_right (by decide) (by omega)
      rw [Nat.min_eq_left (by omega)] at hr
      rw [Nat.pow_succ] at hp
      have hm := addDigit_toNat r.mant d (by have := pow24_lt; omega)
      obtain ⟨r', h1, h2, h3, h5⟩ := ih ⟨addDigit r.mant (digitChar d), r.dec - 1, r.sig + 1⟩ (by
        dsimp only
        rw [hm, Nat.min_eq_left (by omega), Nat.pow_succ]; omega)
      refine ⟨r', h1, ?_, ?_, h5⟩
      · rw [h2]
        dsimp only
        rw [hm, show 19 - r.sig = (19 - (r.sig + 1)) + 1 by omega, List.take_succ_cons, natValue_cons,
          List.length_take, List.length_cons]
        have : min (t.length + 1) (19 - (r.sig + 1) + 1) = min (19 - (r.sig + 1)) t.length + 1 := by omega
        rw [this, Nat.min_comm t.length, Nat.pow_succ]
        ring
      · rw [h3]; dsimp only; rw [List.length_cons]; omega
    · rw [if_neg hs]
      obtain ⟨r', h1, h2, h3, h5⟩ := ih { r with sig := r.sig + 1 } (by
        dsimp only
        exact Nat.lt_of_lt_of_le hr (Nat.pow_le_pow_right (by decide) (by omega)))
      refine ⟨r', h1, ?_, ?_, h5⟩
      · rw [h2]; dsimp only
        rw [show 19 - (r.sig + 1) = 0 by omega, show 19 - r.sig = 0 by omega]; simp
      · rw [h3]; dsimp only; rw [List.length_cons]; omega

theorem skipZeros_eq (t : List Char) : skipZeros t = t.dropWhile (· == '0') := by
  induction t with
  | nil => rfl
  | cons c t ih =>
    rw [List.dropWhile_cons]
    by_cases h : c = '0'
    · subst h; simp [skipZeros, ih]
    · have : (c == '0') = false := by simpa using h
      rw [this]
      unfold skipZeros
      split
      · rename_i heq; simp at heq; exact absurd heq.1 h
      · simp

theorem skipZeros_map (ds : List (Fin 10)) (tail : List Char) (ht : tail.head? ≠ some '0') :
    skipZeros (ds.map digitChar ++ tail) = (ds.dropWhile (· == 0)).map digitChar ++ tail := by
  rw [skipZeros_eq]
  induction ds with
  | nil =>
    cases tail with
    | nil => rfl
    | cons c t =>
      have : (c == '0') = false := by simpa using ht
      simp [List.dropWhile_cons, this]
  | cons d t ih =>
    rw [List.map_cons, List.cons_append, List.dropWhile_cons, List.dropWhile_cons]
    by_cases h : d = 0
    · have h1 : (digitChar d == '0') = true := by simpa using (digit_facts d).2.2.2.2.2.1.mpr h
      have h2 : (d == 0) = true := by simpa using h
      rw [h1, h2, if_pos rfl, if_pos rfl, ih]
    · have h1 : (digitChar d == '0') = false := by
        simpa using fun hh => h ((digit_facts d).2.2.2.2.2.1.mp hh)
      have h2 : (d == 0) = false := by simpa using h
      rw [h1, h2]; simp

theorem skipZerosDec_map (ds : List (Fin 10)) (tail : List Char) (ht : tail.head? ≠ some '0') (d0 : ℤ) :
    skipZerosDec d0 (ds.map digitChar ++ tail) =
      (d0 - ((ds.length - (ds.dropWhile (· == 0)).length : Nat) : ℤ), (ds.dropWhile (· == 0)).map digitChar ++ tail) := by
  have hne : ∀ (c : Char) (t : List Char), c ≠ '0' → skipZerosDec d0 (c :: t) = (d0, c :: t) := by
    intro c t h
    unfold skipZerosDec
    split
    · rename_i heq; simp at heq; exact absurd heq.1 h
    · rfl
  induction ds generalizing d0 with
  | nil =>
    simp only [List.map_nil, List.nil_append, List.dropWhile_nil, List.length_nil]
    cases tail with
    | nil => simp [skipZerosDec]
    | cons c t => rw [hne c t (by simpa using ht)]; simp
  | cons d t ih =>
    rw [List.map_cons, List.cons_append, List.dropWhile_cons]
    have hle := (List.dropWhile_suffix (l := t) (· == (0 : Fin 10))).length_le
    by_cases h : d = 0
    · have h1 : digitChar d = '0' := (digit_facts d).2.2.2.2.2.1.mpr h
      have h2 : (d == 0) = true := by simpa using h
      rw [h1, h2, if_pos rfl]
      show skipZerosDec (d0 - 1) _ = _
      rw [ih]
      · congr 1; rw [List.length_cons]; omega
      · intro c t' hc
        unfold skipZerosDec
        split
        · rename_i heq; simp at heq; exact absurd heq.1 hc
        · rfl
    · have h2 : (d == 0) = false := by simpa using h
      rw [hne _ _ (fun hh => h ((digit_facts d).2.2.2.2.2.1.mp hh)), h2]
      simp

theorem scanDigits_map (ds : List (Fin 10)) (v : Nat) :
    scanDigits (ds.map digitChar) v = v * 10 ^ ds.length + natValue ds := by
  induction ds generalizing v with
  | nil => simp [scanDigits, natValue]
  | cons d t ih =>
    rw [List.map_cons, scanDigits, (digit_facts d).1, if_pos rfl, (digit_facts d).2.1, ih, natValue_cons,
      List.length_cons, Nat.pow_succ]
    ring

theorem scanInt_text (s : Option Bool) (e : List (Fin 10)) :
    scanInt (signText s ++ e.map digitChar) =
      if s = some true then -(natValue e : ℤ) else (natValue e : ℤ) := by
  have h := scanDigits_map e 0
  simp only [Nat.zero_mul, Nat.zero_add] at h
  rcases s with _ | _ | _
  · simp only [signText, List.nil_append]
    cases e with
    | nil => simp [scanInt, scanDigits, natValue]
    | cons d t =>
      rw [← h]
      unfold scanInt
      split
      · rename_i heq; simp at heq; exact absurd heq.1 (digit_facts d).2.2.1
      · rename_i heq; simp at heq; exact absurd heq.1 (digit_facts d).2.2.2.1
      · simp
  · simp [signText, scanInt, h]
  · simp [signText, scanInt, h]

theorem readSign_text (s : Option Bool) (t : List Char) (h1 : t.head? ≠ some '-') (h2 : t.head? ≠ some '+') :
    readSign (signText s ++ t) = (s == some true, t) := by
  rcases s with _ | _ | _
  · simp only [signText, List.nil_append]
    unfold readSign
    split
    · simp at h1
    · simp at h2
    · rfl
  · rfl
  · rfl

/-- The part of the text after the digits. -/
def expText : Option (Option Bool × List (Fin 10)) → List Char
  | none => []
  | some (s, e) => 'e' :: (signText s ++ e.map digitChar)

/-- The text from the point on. -/
def fracText : Option (List (Fin 10)) → List Char
  | none => []
  | some f => '.' :: f.map digitChar

theorem text_eq (l : Literal) :
    l.text = signText l.sign ++ (l.whole.map digitChar ++ (fracText l.frac ++ expText l.exp)) := by
  unfold Literal.text fracText expText
  simp only [List.append_assoc]
  rfl

theorem expText_noDigit (e : Option (Option Bool × List (Fin 10))) : NoDigit (expText e) := by
  rcases e with _ | ⟨s, e⟩
  · simp [expText, NoDigit]
  · simp [expText, NoDigit]; decide

theorem expText_head (e : Option (Option Bool × List (Fin 10))) :
    (expText e).head? = none ∨ (expText e).head? = some 'e' := by
  rcases e with _ | ⟨s, e⟩
  · simp [expText]
  · simp [expText]

theorem tail_head (fr : Option (List (Fin 10))) (e : Option (Option Bool × List (Fin 10))) :
    (fracText fr ++ expText e).head? = some '.' ∨ (fracText fr ++ expText e).head? = none ∨
      (fracText fr ++ expText e).head? = some 'e' := by
  rcases fr with _ | f
  · simp only [fracText, List.nil_append]; exact Or.inr (expText_head e)
  · left; rfl

/-- The digits kept. -/
theorem readDigits_spec (W : List (Fin 10)) (hW : Lead W) (fr : Option (List (Fin 10)))
    (e : Option (Option Bool × List (Fin 10))) :
    ∃ r ds k, readDigits (W.map digitChar ++ (fracText fr ++ expText e)) = (r, expText e) ∧
      ds = (W ++ fr.getD []).dropWhile (· == 0) ∧ k ≤ ds.length ∧ (k = ds.length ∨ 19 ≤ k) ∧
      r.mant.toNat = natValue (ds.take k) ∧ r.mant.toNat < 10 ^ 24 ∧
      r.dec = (ds.length : ℤ) - ((fr.getD []).length : ℤ) - (k : ℤ) := by
  have hnd := expText_noDigit e
  cases W with
  | nil =>
    cases fr with
    | none =>
      refine ⟨⟨0, 0, 0⟩, [], 0, ?_, rfl, by simp, Or.inl rfl, by simp [natValue], by simp, by simp⟩
      simp only [List.map_nil, List.nil_append, fracText]
      rcases e with _ | ⟨s, e⟩
      · rfl
      · rfl
    | some f =>
      have hr : readDigits ([].map digitChar ++ (fracText (some f) ++ expText e)) =
          readFrac ⟨0, (skipZerosDec 0 (f.map digitChar ++ expText e)).1, 0⟩
            (skipZerosDec 0 (f.map digitChar ++ expText e)).2 := rfl
      rw [hr, skipZerosDec_map f _ (by rcases expText_head e with h | h <;> rw [h] <;> simp)]
      dsimp only
      have hle := (List.dropWhile_suffix (l := f) (· == (0 : Fin 10))).length_le
      obtain ⟨r', h1, h2, h3, h4⟩ := readFrac_spec (f.dropWhile (· == 0)) (expText e) hnd
        ⟨0, 0 - ((f.length - (f.dropWhile (· == 0)).length : Nat) : ℤ), 0⟩ (by simp)
      refine ⟨r', f.dropWhile (· == 0), min (f.dropWhile (· == 0)).length 19, h1, by simp, by omega, by omega, ?_, h4, ?_⟩
      · rw [h2]
        simp only [Nat.sub_zero]
        have : (List.dropWhile (· == 0) f).take (min (List.dropWhile (· == 0) f).length 19) =
            (List.dropWhile (· == 0) f).take 19 := by
          rw [Nat.min_comm, ← List.take_eq_take_min]
        rw [this]; simp
      · rw [h3]; simp only [Option.getD_some, Nat.sub_zero]; omega
  | cons d W' =>
    have hd0 : d ≠ 0 := hW d (by simp)
    have hds : ((d :: W') ++ fr.getD []).dropWhile (· == 0) = (d :: W') ++ fr.getD [] := by
      rw [List.cons_append, List.dropWhile_cons]
      have : (d == 0) = false := by simpa using hd0
      rw [this]; simp
    rw [hds]
    generalize hWe : d :: W' = W at *
    have hnd2 : NoDigit (fracText fr ++ expText e) := by
      intro c hc
      rcases tail_head fr e with h | h | h
      · rw [h] at hc; simp at hc; subst hc; decide
      · rw [h] at hc; simp at hc
      · rw [h] at hc; simp at hc; subst hc; decide
    obtain ⟨r1, h1, h2, h3, h4, h5⟩ := readInt_spec W (fracText fr ++ expText e) hnd2 ⟨0, 0, 0⟩ (by simp)
    have hsplit : readDigits (W.map digitChar ++ (fracText fr ++ expText e)) =
        match fracText fr ++ expText e with
        | '.' :: t => readFrac r1 t
        | _ => (r1, fracText fr ++ expText e) := by
      rw [← hWe] at h1 ⊢
      unfold readDigits
      split
      · rename_i heq
        simp at heq
        exact absurd heq.1 (digit_facts d).2.2.2.2.1
      · rw [h1]; rfl
    simp only [Nat.sub_zero, BitVec.toNat_zero, Nat.zero_mul, Nat.zero_add, Int.zero_add] at h2 h3 h4
    have h2' : r1.mant.toNat = natValue (W.take 24) := by rw [h2]; simp
    cases fr with
    | none =>
      refine ⟨r1, W, min W.length 24, ?_, by simp, by omega, by omega, ?_, ?_, ?_⟩
      · rw [hsplit]
        simp only [fracText, List.nil_append]
        rcases e with _ | ⟨s, e⟩ <;> rfl
      · rw [h2', Nat.min_comm, ← List.take_eq_take_min]
      · exact Nat.lt_of_lt_of_le h5 (Nat.pow_le_pow_right (by decide) (by omega))
      · rw [h3]; simp
    | some f =>
      have hs2 : readDigits (W.map digitChar ++ (fracText (some f) ++ expText e)) =
          readFrac r1 (f.map digitChar ++ expText e) := hsplit
      obtain ⟨r', g1, g2, g3, g4⟩ := readFrac_spec f (expText e) hnd r1 h5
      rw [h4] at g2 g3
      refine ⟨r', W ++ f, min W.length 24 + min f.length (19 - W.length), by rw [hs2, g1], rfl, ?_, ?_, ?_, g4, ?_⟩
      · rw [List.length_append]; omega
      · rw [List.length_append]; omega
      · rw [g2, h2']
        by_cases h24 : W.length ≤ 24
        · have e1 : min W.length 24 = W.length := by omega
          rw [e1, List.take_of_length_le h24, List.take_length_add_append, natValue_append,
            List.length_take, Nat.min_comm f.length]
          have : f.take (min (19 - W.length) f.length) = f.take (19 - W.length) := by
            rw [← List.take_eq_take_min]
          rw [this, Nat.min_comm]
          simp
        · have e1 : min W.length 24 = 24 := by omega
          have e2 : 19 - W.length = 0 := by omega
          rw [e1, e2]
          simp only [Nat.min_zero, Nat.pow_zero, Nat.mul_one, List.take_zero, Nat.add_zero]
          rw [List.take_append_of_le_length (by omega)]
          simp [natValue]
      · rw [g3, h3]; simp only [Option.getD_some, List.length_append]; omega

end Verif.Floatnum
