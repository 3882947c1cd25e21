import Verif.Floatnum.ReadLemmas

set_option linter.unusedSimpArgs false

namespace Verif.Floatnum

open Verif.Bitvect
open Verif.Floatnum.Spec

/-- Normalization keeps the value. -/
theorem normalize_spec (m : BitVec 80) (hm : m.toNat ≠ 0) (s z : Bool) :
    Normal (normalize ⟨m, 0x7FFF + 79, s, z⟩) ∧ value (normalize ⟨m, 0x7FFF + 79, s, z⟩) = m.toNat ∧
      (normalize ⟨m, 0x7FFF + 79, s, z⟩).sign = s ∧ (normalize ⟨m, 0x7FFF + 79, s, z⟩).isZero = z ∧
      32767 ≤ (normalize ⟨m, 0x7FFF + 79, s, z⟩).exp ∧ (normalize ⟨m, 0x7FFF + 79, s, z⟩).exp ≤ 32846 := by
  have hlt := m.isLt
  have hl1 : 2 ^ m.toNat.log2 ≤ m.toNat := Nat.log2_self_le hm
  have hl2 : m.toNat < 2 ^ (m.toNat.log2 + 1) := Nat.lt_log2_self
  have hl3 : m.toNat.log2 < 80 := (Nat.log2_lt hm).mpr hlt
  unfold normalize
  dsimp only
  rw [if_neg hm, setMax_nonneg _ hm]
  generalize m.toNat.log2 = L at *
  have e1 : ((79 : ℤ) - (L : ℤ)).toNat = 79 - L := by omega
  rw [if_neg (by omega), e1]
  have hp : 2 ^ 79 = 2 ^ L * 2 ^ (79 - L) := by rw [← Nat.pow_add]; congr 1; omega
  have hp2 : 2 ^ 80 = 2 ^ (L + 1) * 2 ^ (79 - L) := by rw [← Nat.pow_add]; congr 1; omega
  have hb : m.toNat * 2 ^ (79 - L) < 2 ^ 80 := by
    rw [hp2]; exact Nat.mul_lt_mul_of_pos_right hl2 (Nat.two_pow_pos _)
  have hmv : (moveLeft m (79 - L)).toNat = m.toNat * 2 ^ (79 - L) := by
    rw [moveLeft_toNat, Nat.mod_eq_of_lt hb]
  refine ⟨?_, ?_, rfl, rfl, by dsimp only; omega, by dsimp only; omega⟩
  · show 2 ^ 79 ≤ (moveLeft m (79 - L)).toNat
    rw [hmv, hp]; exact Nat.mul_le_mul_right _ hl1
  · unfold value
    dsimp only
    rw [hmv]
    push_cast
    rw [mul_assoc, ← zpow_natCast, ← zpow_add₀ (by norm_num)]
    rw [show ((79 - L : Nat) : ℤ) + ((((0x7FFF + 79 : Nat) - (79 - L) : Nat) : ℤ) - 0x7FFF - 79) = 0 by omega]
    simp

/-- The final increment adds at most one part in 2^79. -/
theorem bump_spec (f : Flt) (hf : Normal f) :
    Normal (bump f) ∧ value f ≤ value (bump f) ∧ value (bump f) ≤ value f * (1 + 1 / 2 ^ 79) ∧
      (bump f).sign = f.sign ∧ (bump f).isZero = f.isZero ∧ (bump f).exp = f.exp := by
  have vp := value_pos hf
  have hle : value f ≤ value f * (1 + 1 / 2 ^ 79) := by
    apply le_mul_of_one_le_right (le_of_lt vp); norm_num
  unfold bump
  split
  · rename_i h
    have hlt := f.mant.isLt
    have hne : f.mant.toNat ≠ 2 ^ 80 - 1 := by
      intro hh
      apply h.2.2
      apply BitVec.eq_of_toNat_eq
      rw [hh]; simp
    have hv : (f.mant + 1).toNat = f.mant.toNat + 1 := by
      rw [BitVec.toNat_add]; simp; omega
    unfold Normal at hf
    have hk : (0 : ℚ) < 2 ^ ((f.exp : ℤ) - 0x7FFF - 79) := by positivity
    have hm : (2 : ℚ) ^ 79 ≤ f.mant.toNat := by exact_mod_cast hf
    refine ⟨?_, ?_, ?_, rfl, rfl, rfl⟩
    · show 2 ^ 79 ≤ (f.mant + 1).toNat; omega
    · unfold value; dsimp only; rw [hv]; push_cast
      apply mul_le_mul_of_nonneg_right _ (le_of_lt hk); linarith
    · unfold value; dsimp only; rw [hv]; push_cast
      rw [mul_right_comm]
      apply mul_le_mul_of_nonneg_right _ (le_of_lt hk)
      rw [mul_add, mul_one, mul_one_div]
      have : (1 : ℚ) ≤ (f.mant.toNat : ℚ) / 2 ^ 79 := by
        rw [le_div_iff₀ (by positivity)]; linarith
      linarith
  · exact ⟨hf, le_refl _, hle, rfl, rfl, rfl⟩

/-- How a conversion can end. -/
inductive Outcome (x : ℚ) (ε δ : ℚ) (f : Flt) : Prop
  | near (normal : Normal f) (top : f.exp ≤ 0xFFFF) (low : x * (1 - ε) ≤ value f) (high : value f ≤ x * (1 + δ))
  | over (exp : f.exp = 0xFFFF) (mant : Normal f ∨ f.mant = 0) (far : (2 : ℚ) ^ (32760 : ℤ) ≤ x)
  | under (exp : f.exp = 0) (mant : f.mant = 0) (far : x ≤ (2 : ℚ) ^ (-32760 : ℤ))

theorem bump_stop (neg : Bool) (f : Flt) (h : Stop neg f) : bump f = f := by
  unfold bump
  rw [if_neg]
  rintro ⟨h1, h2, -⟩
  unfold Stop at h
  cases neg
  · exact h1 h
  · exact h2 h

theorem outcome_of_scaled {neg : Bool} {x : ℚ} {f0 f1 : Flt} (h : Scaled neg x f0 f1) :
    (bump f1).sign = f0.sign ∧ (bump f1).isZero = f0.isZero ∧ Outcome x (1 / 2 ^ 74) (1 / 2 ^ 75) (bump f1) := by
  obtain ⟨h5, h6, h7⟩ := h
  rcases h7 with ⟨h1, h2, h3⟩ | ⟨r, hr, hg⟩
  · rw [bump_stop neg f1 h1]
    refine ⟨h5, h6, ?_⟩
    unfold Stop at h1
    unfold Far at h2
    cases neg
    · exact .over h1 (h3.imp (fun hh => hh.2) id) h2
    · simp only [if_true] at h1 h2
      exact .under h1 (h3.resolve_left (fun hh => by simp at hh)) h2
  · obtain ⟨hX, h3, h4, -, -, htop⟩ := hg
    obtain ⟨b1, b2, b3, b4, b5, b6⟩ := bump_spec f1 h3
    refine ⟨b4.trans h5, b5.trans h6, .near b1 (by rw [b6]; exact htop) ?_ ?_⟩
    · refine le_trans (le_trans ?_ h4.1) b2
      apply mul_le_mul_of_nonneg_left _ (le_of_lt hX)
      refine le_trans (b := ((1 - 1 / 2 ^ 78 : ℚ)) ^ 16) (by norm_num) ?_
      exact pow_le_pow_of_le_one (by norm_num) (by norm_num) hr
    · refine le_trans b3 ?_
      refine le_trans (mul_le_mul_of_nonneg_right h4.2 (by norm_num)) ?_
      rw [mul_assoc]
      apply mul_le_mul_of_nonneg_left _ (le_of_lt hX)
      refine le_trans (b := ((1 + 1 / 2 ^ 80 : ℚ)) ^ 16 * (1 + 1 / 2 ^ 79)) ?_ (by norm_num)
      exact mul_le_mul_of_nonneg_right (pow_le_pow_right₀ (by norm_num) hr) (by norm_num)

/-- Normalization, scaling and the final increment. -/
theorem scaled (m : BitVec 80) (hm : m.toNat ≠ 0) (s : Bool) (dec : ℤ) :
    ∃ f, (match (if dec > 0 then scale false dec.natAbs potP dec (normalize ⟨m, 0x7FFF + 79, s, false⟩)
             else if dec < 0 then scale true dec.natAbs potN dec (normalize ⟨m, 0x7FFF + 79, s, false⟩)
             else some (normalize ⟨m, 0x7FFF + 79, s, false⟩)) with
      | none => none
      | some f => some (bump f)) = some f ∧ f.sign = s ∧ f.isZero = false ∧
      Outcome ((m.toNat : ℚ) * 10 ^ dec) (1 / 2 ^ 74) (1 / 2 ^ 75) f := by
  obtain ⟨n1, n2, n3, n4, n5, n6⟩ := normalize_spec m hm s false
  generalize normalize ⟨m, 0x7FFF + 79, s, false⟩ = f0 at *
  have hmp : (0 : ℚ) < m.toNat := by exact_mod_cast Nat.pos_of_ne_zero hm
  have ha : Approx 0 (m.toNat : ℚ) (value f0) := by rw [n2]; exact ⟨by simp, by simp⟩
  have hG : ∀ neg, Good neg 0 (m.toNat : ℚ) f0 := by
    intro neg
    refine ⟨hmp, n1, ha, ?_, ?_, by omega⟩
    · cases neg
      · simp only [Bool.false_eq_true, if_false]; omega
      · simp only [if_true]; omega
    · unfold Stop
      cases neg
      · simp only [Bool.false_eq_true, if_false]; omega
      · simp only [if_true]; omega
  by_cases hpos : dec > 0
  · rw [if_pos hpos]
    have hd : sgn false * ((dec.natAbs : Nat) : ℤ) = dec := by
      have : ((dec.natAbs : Nat) : ℤ) = dec := by omega
      rw [this]; simp [sgn]
    obtain ⟨f1, h1, h2⟩ := scale_table false potP potP_chain potP_ok potP_side potP_top dec.natAbs dec.natAbs (le_refl _) 0
      (m.toNat : ℚ) f0 (hG false) (by simp only [Bool.false_eq_true, if_false]; omega)
    rw [hd] at h1 h2
    rw [h1]
    obtain ⟨a, b, c⟩ := outcome_of_scaled h2
    exact ⟨bump f1, rfl, a.trans n3, b.trans n4, c⟩
  · rw [if_neg hpos]
    by_cases hneg : dec < 0
    · rw [if_pos hneg]
      have hd : sgn true * ((dec.natAbs : Nat) : ℤ) = dec := by
        have : ((dec.natAbs : Nat) : ℤ) = -dec := by omega
        rw [this]; simp [sgn]
      obtain ⟨f1, h1, h2⟩ := scale_table true potN potN_chain potN_ok potN_side potN_top dec.natAbs dec.natAbs (le_refl _) 0
        (m.toNat : ℚ) f0 (hG true) (by simp only [if_true]; omega)
      rw [hd] at h1 h2
      rw [h1]
      obtain ⟨a, b, c⟩ := outcome_of_scaled h2
      exact ⟨bump f1, rfl, a.trans n3, b.trans n4, c⟩
    · rw [if_neg hneg]
      have h0 : dec = 0 := by omega
      subst h0
      have h2 : Scaled false ((m.toNat : ℚ) * 10 ^ (0 : ℤ)) f0 f0 :=
        ⟨rfl, rfl, Or.inr ⟨0, by omega, by simpa using hG false⟩⟩
      obtain ⟨a, b, c⟩ := outcome_of_scaled h2
      exact ⟨bump f0, rfl, a.trans n3, b.trans n4, c⟩

/-- What the kept digits are worth. -/
theorem kept (ds : List (Fin 10)) (hl : Lead ds) (k : Nat) (hk : k ≤ ds.length) (hk2 : k = ds.length ∨ 19 ≤ k) :
    (natValue (ds.take k) * 10 ^ (ds.length - k) ≤ natValue ds) ∧
    (natValue ds * 10 ^ 18 ≤ natValue (ds.take k) * 10 ^ (ds.length - k) * (10 ^ 18 + 1)) ∧
    (k = ds.length → natValue ds = natValue (ds.take k) * 10 ^ (ds.length - k)) ∧
    (natValue (ds.take k) = 0 ↔ natValue ds = 0) := by
  have hsplit : natValue ds = natValue (ds.take k) * 10 ^ (ds.length - k) + natValue (ds.drop k) := by
    conv_lhs => rw [← List.take_append_drop k ds]
    rw [natValue_append, List.length_drop]
  have hlt := natValue_lt (ds.drop k)
  rw [List.length_drop] at hlt
  have hz : k = ds.length → natValue (ds.drop k) = 0 := by
    intro h; rw [h, List.drop_length]; rfl
  have hpos : 19 ≤ k → 10 ^ 18 ≤ natValue (ds.take k) := by
    intro h
    refine le_trans ?_ (natValue_lead ds hl k (by omega) hk)
    exact Nat.pow_le_pow_right (by decide) (by omega)
  generalize natValue (ds.take k) = A at *
  generalize natValue (ds.drop k) = B at *
  have hE : 0 < 10 ^ (ds.length - k) := Nat.pow_pos (by decide)
  generalize 10 ^ (ds.length - k) = E at *
  refine ⟨by omega, ?_, fun h => by rw [hsplit, hz h]; rfl, ?_⟩
  · rw [hsplit]
    rcases hk2 with h | h
    · rw [hz h]; nlinarith [Nat.zero_le (A * E)]
    · have h1 := hpos h
      have h2 : 10 ^ 18 * E ≤ A * E := Nat.mul_le_mul_right _ h1
      generalize A * E = X at *
      rw [Nat.mul_add, Nat.mul_one]
      omega
  · rw [hsplit]
    constructor
    · intro h
      rcases hk2 with h2 | h2
      · rw [h, hz h2]; simp
      · have := hpos h2; omega
    · intro h
      have : A * E = 0 := by omega
      rcases Nat.mul_eq_zero.mp this with h3 | h3
      · exact h3
      · omega

theorem readExp_text (r : Read) (e : Option (Option Bool × List (Fin 10))) (E : ℤ)
    (hE : E = match e with | none => 0 | some (s, d) => if s = some true then -(natValue d : ℤ) else natValue d)
    (h1 : isInt E = true) (h2 : isInt (r.dec + E) = true) :
    readExp (r, expText e) = some (r.dec + E) := by
  rcases e with _ | ⟨s, d⟩
  · simp only at hE; subst hE; simp [readExp, expText]
  · unfold readExp expText
    dsimp only
    rw [if_pos (Or.inl rfl), scanInt_text]
    dsimp only at hE
    rw [← hE, h1, h2]; rfl

theorem expValue_eq (l : Literal) : l.expValue =
    match l.exp with | none => 0 | some (s, d) => if s = some true then -(natValue d : ℤ) else natValue d := rfl

/-- Reading a literal: kept digits and exponent. -/
theorem create_read (l : Literal) (hE : isInt l.expValue = true)
    (hE2 : ∀ d : ℤ, -(l.fracDigits.length : ℤ) ≤ d → d ≤ (l.whole.length : ℤ) → isInt (d + l.expValue) = true) :
    ∃ (m : BitVec 80) (dec : ℤ) (ds : List (Fin 10)) (k : Nat),
      ds = (l.whole ++ l.fracDigits).dropWhile (· == 0) ∧ k ≤ ds.length ∧ (k = ds.length ∨ 19 ≤ k) ∧
      m.toNat = natValue (ds.take k) ∧ m.toNat < 10 ^ 24 ∧
      dec = (ds.length : ℤ) - (l.fracDigits.length : ℤ) - (k : ℤ) + l.expValue ∧
      create l.text = if m.toNat = 0 then some ⟨m, 0, l.negative, true⟩
        else match (if dec > 0 then scale false dec.natAbs potP dec (normalize ⟨m, 0x7FFF + 79, l.negative, false⟩)
             else if dec < 0 then scale true dec.natAbs potN dec (normalize ⟨m, 0x7FFF + 79, l.negative, false⟩)
             else some (normalize ⟨m, 0x7FFF + 79, l.negative, false⟩)) with
        | none => none
        | some f => some (bump f) := by
  have hth := tail_head l.frac l.exp
  obtain ⟨r, ds, k, h1, h2, h3, h4, h5, h6, h7⟩ := readDigits_spec (l.whole.dropWhile (· == 0))
    (lead_dropWhile _) l.frac l.exp
  have hds : ds = (l.whole ++ l.fracDigits).dropWhile (· == 0) := by
    rw [h2]
    show _ = (l.whole ++ l.frac.getD []).dropWhile (· == 0)
    generalize l.frac.getD [] = F
    induction l.whole with
    | nil => rfl
    | cons d t ih =>
      rw [List.cons_append, List.dropWhile_cons, List.dropWhile_cons]
      by_cases hd : (d == 0) = true
      · rw [if_pos hd, if_pos hd, ih]
      · rw [if_neg hd, if_neg hd]
        rw [List.cons_append, List.dropWhile_cons, if_neg hd]
  have hlen : ds.length ≤ l.whole.length + l.fracDigits.length := by
    rw [hds, ← List.length_append]
    exact (List.dropWhile_suffix _).length_le
  have hfl : (l.frac.getD []).length = l.fracDigits.length := rfl
  rw [hfl] at h7
  have hre := readExp_text r l.exp l.expValue (expValue_eq l) hE (hE2 r.dec (by omega) (by omega))
  refine ⟨r.mant, r.dec + l.expValue, ds, k, hds, h3, h4, h5, h6, by rw [h7], ?_⟩
  unfold create
  dsimp only
  rw [text_eq, readSign_text]
  · dsimp only
    rw [skipZeros_map]
    · rw [h1, hre]; rfl
    · rcases hth with h | h | h <;> rw [h] <;> simp
  · cases hw : l.whole with
    | nil => simp only [List.map_nil, List.nil_append]; rcases hth with h | h | h <;> rw [h] <;> simp
    | cons d t => simpa using (digit_facts d).2.2.1
  · cases hw : l.whole with
    | nil => simp only [List.map_nil, List.nil_append]; rcases hth with h | h | h <;> rw [h] <;> simp
    | cons d t => simpa using (digit_facts d).2.2.2.1

end Verif.Floatnum
