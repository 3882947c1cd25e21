/-
Property theorems about floating-point numbers (C36, C51): conversion of internal numbers to the emitted
formats, the decimal tables, and literals from text to bytes.
-/
import Verif.Floatnum.PropLemmas

namespace Verif.Floatnum

open Verif.Floatnum.Spec

theorem mem_formats {F : Format} (hF : F ∈ formats) : F = half ∨ F = single ∨ F = double ∨ F = extended := by
  simpa [formats] using hF

/-! ### Conversion to the emitted formats (C36) -/

/-- Every normal internal number, in each of the four formats: there is the value `d` of the number rounded
    to the format's precision, half up.  If `d` is beyond the format's exponents the bytes have the all-ones
    exponent and an empty fraction and overflow is reported; if `d` is below the least normal number the bytes
    are zero and underflow is reported; otherwise the bytes encode exactly `d`.  The sign bit is the number's
    sign in every case.
    Partial: the 80-bit format's infinity also has its leading bit set, which the code leaves clear
    (`extended_overflow_not_infinity`). -/
theorem conversion_partial (f : Flt) (hf : Normal f) (he : f.exp ≤ 0xFFFF) (hz : f.isZero = false)
    (F : Format) (hF : F ∈ formats) :
    ∃ d bytes ret, Rounded F.precision (value f) d ∧ getSized f F.bytes = .ok bytes ret ∧
      bytes.length = F.bytes ∧ signField F bytes = f.sign.toNat ∧
      ((2 : ℚ) ^ ((F.bias : ℤ) + 1) ≤ d →
        ret = 1 ∧ expField F bytes = 2 ^ F.expBits - 1 ∧ mantField F bytes = 0) ∧
      (d < (2 : ℚ) ^ (1 - (F.bias : ℤ)) → ret = -1 ∧ IsZero F bytes) ∧
      ((2 : ℚ) ^ (1 - (F.bias : ℤ)) ≤ d → d < (2 : ℚ) ^ ((F.bias : ℤ) + 1) →
        ret = 0 ∧ IsNormal F bytes ∧ decode F bytes = d) := by
  obtain ⟨d, bytes, ret, h1, h2, h3, h4, h5, h6, h7⟩ := getCommon_normal (format_ok (mem_formats hF)) f hf he
  rw [hz] at h6
  exact ⟨d, bytes, ret, h1, (getSized_eq (mem_formats hF) f).trans h2, h3, h4, h5, h6, h7⟩

/-- In the three formats with an implied leading bit the overflowed number is an infinity. -/
theorem conversion_infinity (f : Flt) (hf : Normal f) (he : f.exp ≤ 0xFFFF) (F : Format)
    (hF : F ∈ [half, single, double]) (d : ℚ) (hd : Rounded F.precision (value f) d)
    (hbig : (2 : ℚ) ^ ((F.bias : ℤ) + 1) ≤ d) :
    ∃ bytes, getSized f F.bytes = .ok bytes 1 ∧ bytes.length = F.bytes ∧
      signField F bytes = f.sign.toNat ∧ IsInfinity F bytes := by
  have hF' : F = half ∨ F = single ∨ F = double ∨ F = extended := by
    simp at hF; rcases hF with h | h | h <;> simp [h]
  have hh : F.hidden = true := by
    simp at hF; rcases hF with h | h | h <;> rw [h] <;> rfl
  obtain ⟨d', bytes, ret, h1, h2, h3, h4, h5, -, -⟩ := getCommon_normal (format_ok hF') f hf he
  have hdd : d = d' :=
    le_antisymm (h1.halfUp d hd.repr (le_antisymm (hd.nearest d' h1.repr) (h1.nearest d hd.repr)))
      (hd.halfUp d' h1.repr (le_antisymm (h1.nearest d hd.repr) (hd.nearest d' h1.repr)))
  subst hdd
  obtain ⟨g1, g2, g3⟩ := h5 hbig
  subst g1
  exact ⟨bytes, (getSized_eq hF' f).trans h2, h3, h4, g2, by rw [hh]; exact g3⟩

/-- Rounding is a function: a number has one rounded value. -/
theorem rounded_unique (p : Nat) (x d d' : ℚ) (h : Rounded p x d) (h' : Rounded p x d') : d = d' :=
  le_antisymm (h'.halfUp d h.repr (le_antisymm (h.nearest d' h'.repr) (h'.nearest d h.repr)))
    (h.halfUp d' h'.repr (le_antisymm (h'.nearest d h.repr) (h.nearest d' h'.repr)))

/-- 2^16 in half precision: beyond the format, and an infinity. -/
example :
    let f : Flt := ⟨0x80000000000000000000, 0x7FFF + 16, true, false⟩
    Normal f ∧ Rounded half.precision (value f) (2 ^ 16) ∧ (2 : ℚ) ^ ((half.bias : ℤ) + 1) ≤ 2 ^ 16 ∧
      getSized f 2 = .ok [0x00, 0xFC] 1 := by
  have hv : value ⟨0x80000000000000000000, 0x7FFF + 16, true, false⟩ = 2 ^ 16 := by
    have h : (0x80000000000000000000 : BitVec 80).toNat = 2 ^ 79 := by decide
    unfold value; dsimp only; rw [h]; norm_num [zpow_neg]
  refine ⟨by unfold Normal; decide, ?_, by norm_num [half, Format.bias], by with_unfolding_all decide +kernel⟩
  rw [hv]
  refine ⟨⟨2 ^ 10, 6, by decide, by decide, by norm_num⟩, fun y _ => by simp, fun y _ h => ?_⟩
  rw [sub_self, abs_zero, abs_eq_zero] at h
  linarith

/-- 1.0 and its conversion to the four formats: the hypotheses are met. -/
example : Normal ⟨0x80000000000000000000, 0x7FFF, true, false⟩ ∧
    getSized ⟨0x80000000000000000000, 0x7FFF, true, false⟩ 2 = .ok [0x00, 0xBC] 0 ∧
    getSized ⟨0x80000000000000000000, 0x7FFF, true, false⟩ 10 =
      .ok [0, 0, 0, 0, 0, 0, 0, 0x80, 0xFF, 0xBF] 0 := by
  refine ⟨by unfold Normal; decide, ?_, ?_⟩ <;> with_unfolding_all decide +kernel

/-- Disagreement with C36: a number beyond the 80-bit format is emitted with a clear leading bit, which is
    not the encoding of infinity. -/
theorem extended_overflow_not_infinity :
    ∃ f : Flt, Normal f ∧ f.exp ≤ 0xFFFF ∧ ∃ bytes, getSized f 10 = .ok bytes 1 ∧ ¬ IsInfinity extended bytes := by
  refine ⟨⟨0x80000000000000000000, 0xFFF0, false, false⟩, by unfold Normal; decide, by decide,
    [0, 0, 0, 0, 0, 0, 0, 0, 0xFF, 0x7F], ?_, ?_⟩
  · with_unfolding_all decide +kernel
  · unfold IsInfinity
    with_unfolding_all decide +kernel

/-- Zero stays zero, keeps its sign, and is reported exact. -/
theorem conversion_zero (f : Flt) (hm : f.mant = 0) (he : f.exp = 0) (hz : f.isZero = true)
    (F : Format) (hF : F ∈ formats) :
    ∃ bytes, getSized f F.bytes = .ok bytes 0 ∧ bytes.length = F.bytes ∧
      signField F bytes = f.sign.toNat ∧ IsZero F bytes := by
  obtain ⟨bytes, h1, h2⟩ := getCommon_under (format_ok (mem_formats hF)) f he hm
  rw [hz] at h1
  exact ⟨bytes, (getSized_eq (mem_formats hF) f).trans h1, h2⟩

example : getSized ⟨0, 0, true, true⟩ 8 = .ok [0, 0, 0, 0, 0, 0, 0, 0x80] 0 := by
  with_unfolding_all decide +kernel

/-- Emission in a supported size never ends in the internal error, whatever the number. -/
theorem conversion_total (f : Flt) (F : Format) (hF : F ∈ formats) : getSized f F.bytes ≠ .internal := by
  rw [getSized_eq (mem_formats hF) f]
  exact getCommon_total (format_ok (mem_formats hF)) f

/-- The sizes accepted by the size check are exactly the supported ones. -/
theorem checkSize_iff (size : Nat) : checkSize size = true ↔ ∃ F ∈ formats, size = 8 * F.bytes := by
  unfold checkSize formats
  simp only [Bool.or_eq_true, decide_eq_true_eq]
  constructor
  · rintro (((h | h) | h) | h)
    · exact ⟨half, by simp, by rw [h]; rfl⟩
    · exact ⟨single, by simp, by rw [h]; rfl⟩
    · exact ⟨double, by simp, by rw [h]; rfl⟩
    · exact ⟨extended, by simp, by rw [h]; rfl⟩
  · rintro ⟨F, hF, h⟩
    simp at hF
    rcases hF with rfl | rfl | rfl | rfl
    · exact Or.inl (Or.inl (Or.inl h))
    · exact Or.inl (Or.inl (Or.inr h))
    · exact Or.inl (Or.inr h)
    · exact Or.inr h

/-- Negation flips the sign bit of the emitted bytes and leaves the other fields and the report alone. -/
theorem neg_fields (f : Flt) (F : Format) (hF : F ∈ formats) (hf : Normal f) (he : f.exp ≤ 0xFFFF) :
    ∃ b b' ret, getSized f F.bytes = .ok b ret ∧ getSized (neg f) F.bytes = .ok b' ret ∧
      signField F b = f.sign.toNat ∧ signField F b' = (!f.sign).toNat ∧
      expField F b' = expField F b ∧ mantField F b' = mantField F b := by
  have ok := format_ok (mem_formats hF)
  have hb2 : F.bias ≤ 16383 := by
    unfold Format.bias
    have := Nat.pow_le_pow_right (show 0 < 2 by decide) (show F.expBits - 1 ≤ 14 by have := ok.eb2; omega)
    omega
  have hP : F.precision = F.mantBits + (if F.hidden then 1 else 0) := by
    unfold Format.precision; split <;> rfl
  have hsz := ok.size
  have hrm : roundMant (F.bytes * 8) F.mantBits F.hidden (neg f) = roundMant (F.bytes * 8) F.mantBits F.hidden f := rfl
  obtain ⟨r1, r2⟩ : (roundMant (F.bytes * 8) F.mantBits F.hidden f).1.toNat < 2 ^ F.mantBits ∧
      ((roundMant (F.bytes * 8) F.mantBits F.hidden f).2.2 = true →
        (roundMant (F.bytes * 8) F.mantBits F.hidden f).2.1 = 0xFFFE ∨
        (roundMant (F.bytes * 8) F.mantBits F.hidden f).2.1 = 0xFFFF) := by
    obtain ⟨-, q2, hA, hB⟩ := roundMant_spec (n := F.bytes * 8) F.hidden f hP ok.prec
        (by have := ok.mb1; omega) (by omega) hf
    by_cases hlt : (f.mant.toNat + 2 ^ (79 - F.precision)) / 2 ^ (80 - F.precision) < 2 ^ F.precision
    · obtain ⟨-, a, b⟩ := hA hlt
      rw [b]; exact ⟨a, fun h => (by cases h)⟩
    · obtain ⟨-, a, b⟩ := hB (by omega)
      rw [b]
      refine ⟨a, ?_⟩
      split
      · intro _; dsimp only; omega
      · intro h; cases h
  obtain ⟨b, ret, h1, -, h3, h4, h5, h6⟩ := getCommon_eq ok f _ rfl r1 r2
  obtain ⟨b', ret', k1, -, k3, k4, k5, k6⟩ := getCommon_eq ok (neg f) _ hrm r1 r2
  generalize roundMant (F.bytes * 8) F.mantBits F.hidden f = r at *
  refine ⟨b, b', ret, (getSized_eq (mem_formats hF) f).trans h1, ?_, h3, k3, ?_⟩
  all_goals
    rcases lt_or_ge (r.2.1 - 0x7FFF) (1 - (F.bias : Int)) with hlo | hlo
    · obtain ⟨a1, a2, a3⟩ := h5 hlo
      obtain ⟨c1, c2, c3⟩ := k5 hlo
      first
        | (rw [getSized_eq (mem_formats hF), k1, a1, c1]; rfl)
        | exact ⟨c2.trans a2.symm, c3.trans a3.symm⟩
    · rcases lt_or_ge (r.2.1 - 0x7FFF) ((F.bias : Int) + 1) with hhi | hhi
      · obtain ⟨a1, a2, a3, -⟩ := h6 hlo hhi
        obtain ⟨c1, c2, c3, -⟩ := k6 hlo hhi
        first
          | (rw [getSized_eq (mem_formats hF), k1, a1, c1])
          | exact ⟨by omega, c2.trans a2.symm⟩
      · obtain ⟨a1, a2, a3⟩ := h4 hhi
        obtain ⟨c1, c2, c3⟩ := k4 hhi
        first
          | (rw [getSized_eq (mem_formats hF), k1, a1, c1])
          | exact ⟨c2.trans a2.symm, c3.trans a3.symm⟩

example : Normal ⟨0xC0000000000000000000, 0x8000, false, false⟩ ∧
    getSized (neg ⟨0xC0000000000000000000, 0x8000, false, false⟩) 4 = .ok [0x00, 0x00, 0x40, 0xC0] 0 := by
  refine ⟨by unfold Normal; decide, ?_⟩
  with_unfolding_all decide +kernel

/-! ### The decimal tables (C36) -/

/-- The decimal exponents of the tables. -/
theorem tables_exponents :
    potP.map (·.dec) = [4096, 2048, 1024, 512, 256, 128, 64, 32, 16, 8, 4, 2, 1, 0] ∧
    potN.map (·.dec) = [-4096, -2048, -1024, -512, -256, -128, -64, -32, -16, -8, -4, -2, -1, 0] := by
  constructor <;> with_unfolding_all decide +kernel

/-- Every entry of the positive table, and every entry of the negative one but the first, is the power of
    ten correctly rounded to 80 bits.
    Partial: the first entry of the negative table, 10^-4096, is not (`table_first_misrounded`). -/
theorem tables_rounded_partial (e : Entry) (he : e ∈ potP ∨ e ∈ potN.tail) :
    Rounded 80 ((10 : ℚ) ^ e.dec) (value e.f) := by
  have h1 : ∀ e ∈ potP, entryExact e = true := by with_unfolding_all decide +kernel
  have h2 : ∀ e ∈ potN.tail, entryExact e = true := by with_unfolding_all decide +kernel
  exact entryExact_spec e (he.elim (h1 e) (h2 e))

example : potP.length = 14 ∧ potN.tail.length = 13 := by
  constructor <;> with_unfolding_all decide +kernel

/-- Disagreement with C36: 10^-4096 is held one unit in the last place too low; the next number is nearer. -/
theorem table_first_misrounded :
    ∃ e ∈ potN, e.dec = -4096 ∧ ¬ Rounded 80 ((10 : ℚ) ^ e.dec) (value e.f) := by
  have h1 : ∃ e ∈ potN, e.dec = -4096 ∧ (e.f.mant.toNat + 1 < 2 ^ 80 ∧ 2 ^ 79 ≤ e.f.mant.toNat) ∧
      (2 * e.f.mant.toNat + 1) * (2 ^ (e.f.exp - 32846) * 10 ^ (-e.dec).toNat) <
        2 * (10 ^ e.dec.toNat * 2 ^ (32846 - e.f.exp)) ∧
      (10 ^ e.dec.toNat * 2 ^ (32846 - e.f.exp)) ≤
        (e.f.mant.toNat + 1) * (2 ^ (e.f.exp - 32846) * 10 ^ (-e.dec).toNat) := by
    with_unfolding_all decide +kernel
  obtain ⟨e, he, hd, ⟨hm1, hm2⟩, hc, hc2⟩ := h1
  refine ⟨e, he, hd, fun hr => ?_⟩
  have hu := entry_unit e
  have hb : 0 < 2 ^ (e.f.exp - 32846) * 10 ^ (-e.dec).toNat :=
    Nat.mul_pos (Nat.two_pow_pos _) (Nat.pow_pos (by decide))
  have hn := hr.nearest (((e.f.mant.toNat + 1 : Nat) : ℚ) * 2 ^ ((e.f.exp : ℤ) - 0x7FFF - 79))
    ⟨e.f.mant.toNat + 1, _, by omega, hm1, rfl⟩
  unfold value at hn
  clear hd hr he
  generalize (10 ^ e.dec.toNat * 2 ^ (32846 - e.f.exp) : Nat) = a at *
  generalize (2 ^ (e.f.exp - 32846) * 10 ^ (-e.dec).toNat : Nat) = b at *
  generalize e.f.mant.toNat = q at *
  generalize ((e.f.exp : ℤ) - 0x7FFF - 79) = k at *
  have hk : (0 : ℚ) < 2 ^ k := by positivity
  have hbq : (0 : ℚ) < b := by exact_mod_cast hb
  have hx : (10 : ℚ) ^ e.dec = (a : ℚ) / b * 2 ^ k := by field_simp; linarith
  have q1 : (2 * q + 1) * (b : ℚ) < 2 * a := by exact_mod_cast hc
  have q2 : (a : ℚ) ≤ (q + 1) * b := by exact_mod_cast hc2
  have hr1 : (q : ℚ) + 1 / 2 < (a : ℚ) / b := by rw [lt_div_iff₀ hbq]; linarith
  have hr2 : (a : ℚ) / b ≤ q + 1 := by rw [div_le_iff₀ hbq]; linarith
  rw [hx, ← sub_mul, ← sub_mul, abs_mul, abs_mul, abs_of_pos hk] at hn
  have hn2 := le_of_mul_le_mul_right hn hk
  push_cast at hn2
  rw [abs_of_nonneg (by linarith), abs_of_nonpos (by linarith)] at hn2
  linarith

/-! ### Literals (C51) -/

/-- Every literal whose exponent fits `int` is read, with its sign: zero as zero, and anything else within
    2^-74 of its value if it has at most 19 significant digits, and within 2^-59 otherwise. -/
theorem literal_read (l : Literal) (hl : Readable l) :
    ∃ f, create l.text = some f ∧ f.sign = l.negative ∧
      (l.magnitude = 0 → f.isZero = true ∧ f.mant = 0 ∧ f.exp = 0) ∧
      (l.magnitude ≠ 0 → f.isZero = false ∧ 0 < l.magnitude ∧
        Result l.magnitude (if l.significant ≤ 19 then 1 / 2 ^ 74 else 1 / 2 ^ 59) f) :=
  create_spec l hl

/-- A zero literal, with whatever exponent, is emitted as a zero of its sign. -/
theorem literal_zero (l : Literal) (hl : Readable l) (h0 : l.magnitude = 0) (F : Format) (hF : F ∈ formats) :
    ∃ f bytes, create l.text = some f ∧ getSized f F.bytes = .ok bytes 0 ∧ bytes.length = F.bytes ∧
      signField F bytes = l.negative.toNat ∧ IsZero F bytes := by
  obtain ⟨f, h1, h2, h3, -⟩ := create_spec l hl
  obtain ⟨hz, hm, he⟩ := h3 h0
  obtain ⟨bytes, k1, k2, k3, k4⟩ := conversion_zero f hm he hz F hF
  exact ⟨f, bytes, h1, k1, k2, by rw [← h2]; exact k3, k4⟩

/-- What the emitted bytes of a literal are, up to an error `δ` in the choice of the nearest number. -/
def Emitted (F : Format) (l : Literal) (δ : ℚ) (bytes : List (BitVec 8)) (ret : Int) : Prop :=
  bytes.length = F.bytes ∧ signField F bytes = l.negative.toNat ∧
  -- too large: infinity and an overflow report
  ((2 : ℚ) ^ ((F.bias : ℤ) + 1) ≤ l.magnitude →
    ret = 1 ∧ expField F bytes = 2 ^ F.expBits - 1 ∧ mantField F bytes = 0) ∧
  -- too small: zero and an underflow report
  (l.magnitude ≤ (2 : ℚ) ^ (1 - (F.bias : ℤ)) * (1 - 1 / 2 ^ F.precision) → ret = -1 ∧ IsZero F bytes) ∧
  -- between the least normal and the greatest finite number: a nearest number of the format, up to `δ`
  ((2 : ℚ) ^ (1 - (F.bias : ℤ)) ≤ l.magnitude →
    l.magnitude ≤ (2 : ℚ) ^ ((F.bias : ℤ) + 1) * (1 - 1 / 2 ^ F.precision) →
    ret = 0 ∧ IsNormal F bytes ∧
    (∀ y, Representable F.precision y →
      |l.magnitude - decode F bytes| ≤ |l.magnitude - y| + l.magnitude * δ) ∧
    -- and a literal that is a number of the format is emitted exactly
    (Representable F.precision l.magnitude → decode F bytes = l.magnitude))

/-- Literals of at most 19 significant digits, in every format.
    Partial: nearest up to 2^-73 of the value only (`literal_not_nearest`). -/
theorem literal_emitted_partial (l : Literal) (hl : Readable l) (h0 : l.magnitude ≠ 0)
    (hs : l.significant ≤ 19) (F : Format) (hF : F ∈ formats) :
    ∃ f bytes ret, create l.text = some f ∧ getSized f F.bytes = .ok bytes ret ∧
      Emitted F l (1 / 2 ^ 73) bytes ret := by
  obtain ⟨f, h1, h2, -, h4⟩ := create_spec l hl
  obtain ⟨hz, hx, hr⟩ := h4 h0
  rw [if_pos hs] at hr
  have hp : F.precision ≤ 64 := by
    rcases mem_formats hF with rfl | rfl | rfl | rfl <;> decide
  obtain ⟨bytes, ret, k1, k2, k3, k4, k5, k6⟩ := emit_near (format_ok (mem_formats hF)) f _ _ hx hz (by norm_num)
    (lt_of_lt_of_le (show (4 : ℚ) * (1 / 2 ^ 74) < 1 / 2 ^ 64 by norm_num)
      (one_div_le_one_div_of_le (by positivity) (pow_le_pow_right₀ (by norm_num) hp))) hr
  refine ⟨f, bytes, ret, h1, (getSized_eq (mem_formats hF) f).trans k1, k2, by rw [← h2]; exact k3, k4, k5, ?_⟩
  intro g1 g2
  obtain ⟨m1, m2, m3, m4⟩ := k6 g1 g2
  refine ⟨m1, m2, fun y hy => ?_, m4⟩
  have := m3 y hy
  rwa [show (2 : ℚ) * (1 / 2 ^ 74) = 1 / 2 ^ 73 by norm_num] at this

/-- Literals of any number of digits, in half, single and double precision.
    Partial: nearest up to 2^-58 of the value only, and not in the 80-bit format
    (`literal_digits_dropped`). -/
theorem literal_emitted_long_partial (l : Literal) (hl : Readable l) (h0 : l.magnitude ≠ 0)
    (F : Format) (hF : F ∈ [half, single, double]) :
    ∃ f bytes ret, create l.text = some f ∧ getSized f F.bytes = .ok bytes ret ∧
      Emitted F l (1 / 2 ^ 58) bytes ret := by
  have hF' : F ∈ formats := by
    simp at hF; rcases hF with h | h | h <;> simp [h, formats]
  obtain ⟨f, h1, h2, -, h4⟩ := create_spec l hl
  obtain ⟨hz, hx, hr⟩ := h4 h0
  have hp : F.precision ≤ 53 := by
    simp at hF; rcases hF with rfl | rfl | rfl <;> decide
  have hr' : Result l.magnitude (1 / 2 ^ 59) f := by
    split at hr
    · cases hr with
      | near n1 n2 n3 =>
        exact .near n1 n2 (le_trans n3 (mul_le_mul_of_nonneg_left (by norm_num) (le_of_lt hx)))
      | over n1 n2 n3 => exact .over n1 n2 n3
      | under n1 n2 n3 => exact .under n1 n2 n3
    · exact hr
  obtain ⟨bytes, ret, k1, k2, k3, k4, k5, k6⟩ := emit_near (format_ok (mem_formats hF')) f _ _ hx hz (by norm_num)
    (lt_of_lt_of_le (show (4 : ℚ) * (1 / 2 ^ 59) < 1 / 2 ^ 53 by norm_num)
      (one_div_le_one_div_of_le (by positivity) (pow_le_pow_right₀ (by norm_num) hp))) hr'
  refine ⟨f, bytes, ret, h1, (getSized_eq (mem_formats hF') f).trans k1, k2, by rw [← h2]; exact k3, k4, k5, ?_⟩
  intro g1 g2
  obtain ⟨m1, m2, m3, m4⟩ := k6 g1 g2
  refine ⟨m1, m2, fun y hy => ?_, m4⟩
  have := m3 y hy
  rwa [show (2 : ℚ) * (1 / 2 ^ 59) = 1 / 2 ^ 58 by norm_num] at this

/-- -12.5e3: the hypotheses are met and the bytes are those of IEEE. -/
example :
    let l : Literal := ⟨some true, [1, 2], some [5], some (none, [3])⟩
    String.ofList l.text = "-12.5e3" ∧ Readable l ∧ l.significant ≤ 19 ∧ l.magnitude = 12500 ∧
    (create l.text).map (fun f => getSized f 4) = some (.ok [0x00, 0x50, 0x43, 0xC6] 0) := by
  refine ⟨by decide, by unfold Readable; decide, by decide, ?_, by with_unfolding_all decide +kernel⟩
  unfold Literal.magnitude Literal.expValue Literal.fracDigits natValue
  norm_num [show ¬ ((none : Option Bool) = some true) by decide]

set_option exponentiation.threshold 1000 in
/-- Disagreement with C51: 7970e-146 in the 80-bit format is not emitted as the nearest number, because one
    is added to the internal mantissa after scaling. -/
theorem literal_not_nearest :
    let l : Literal := ⟨none, [7, 9, 7, 0], none, some (some true, [1, 4, 6])⟩
    String.ofList l.text = "7970e-146" ∧ Readable l ∧ l.significant = 4 ∧
    ∃ f bytes y, create l.text = some f ∧ getSized f 10 = .ok bytes 0 ∧ Representable 64 y ∧
      |l.magnitude - y| < |l.magnitude - decode extended bytes| := by
  have hm : (⟨none, [7, 9, 7, 0], none, some (some true, [1, 4, 6])⟩ : Literal).magnitude = 7970 / 10 ^ 146 := by
    unfold Literal.magnitude Literal.expValue Literal.fracDigits natValue
    norm_num [zpow_neg]
  refine ⟨by decide, by unfold Readable; decide, by decide, ⟨0xf8cda8f7306ccc118000, 0x7e26, false, false⟩, [0x12, 0xcc, 0x6c, 0x30, 0xf7, 0xa8, 0xcd, 0xf8, 0x26, 0x3e], (17928171471254637585 : Nat) * 2 ^ (-536 : ℤ),
    by with_unfolding_all decide +kernel, by with_unfolding_all decide +kernel,
    ⟨17928171471254637585, -536, by norm_num, by norm_num, rfl⟩, ?_⟩
  rw [hm]
  have h1 : mantField extended [0x12, 0xcc, 0x6c, 0x30, 0xf7, 0xa8, 0xcd, 0xf8, 0x26, 0x3e] = 17928171471254637586 := by with_unfolding_all decide +kernel
  have h2 : expField extended [0x12, 0xcc, 0x6c, 0x30, 0xf7, 0xa8, 0xcd, 0xf8, 0x26, 0x3e] = 15910 := by with_unfolding_all decide +kernel
  unfold decode
  rw [h1, h2]
  rw [abs_of_pos (by norm_num [zpow_neg]),
    abs_of_neg (by norm_num [extended, Format.bias, Format.precision, zpow_neg])]
  norm_num [extended, Format.bias, Format.precision, zpow_neg]

/-- Disagreement with C51: fraction digits beyond the 19th are dropped, so a literal that is a number of the
    80-bit format, 1 + 2^-63, is emitted as 1. -/
theorem literal_digits_dropped :
    let l : Literal := ⟨none, [1], some [0, 0, 0, 0, 0, 0, 0, 0, 0, 0, 0, 0, 0, 0, 0, 0, 0, 0, 1, 0, 8, 4, 2, 0, 2, 1, 7, 2, 4, 8, 5, 5, 0, 4, 4, 3, 4, 0, 0, 7, 4, 5, 2, 8, 0, 0, 8, 6, 9, 9, 4, 1, 7, 1, 1, 4, 2, 5, 7, 8, 1, 2, 5], none⟩
    Readable l ∧ l.magnitude = 1 + 1 / 2 ^ 63 ∧ Representable 64 l.magnitude ∧
    ∃ f bytes, create l.text = some f ∧ getSized f 10 = .ok bytes 0 ∧ decode extended bytes = 1 := by
  have hm : (⟨none, [1], some [0, 0, 0, 0, 0, 0, 0, 0, 0, 0, 0, 0, 0, 0, 0, 0, 0, 0, 1, 0, 8, 4, 2, 0, 2, 1, 7, 2, 4, 8, 5, 5, 0, 4, 4, 3, 4, 0, 0, 7, 4, 5, 2, 8, 0, 0, 8, 6, 9, 9, 4, 1, 7, 1, 1, 4, 2, 5, 7, 8, 1, 2, 5], none⟩ : Literal).magnitude = 1 + 1 / 2 ^ 63 := by
    unfold Literal.magnitude Literal.expValue Literal.fracDigits natValue
    norm_num [zpow_neg]
  refine ⟨by unfold Readable; decide, hm, ?_,
    ⟨0x80000000000000000001, 0x7fff, false, false⟩, [0, 0, 0, 0, 0, 0, 0, 0x80, 0xFF, 0x3F],
    by with_unfolding_all decide +kernel, by with_unfolding_all decide +kernel, ?_⟩
  · rw [hm]
    exact ⟨2 ^ 63 + 1, -63, by norm_num, by norm_num, by norm_num [zpow_neg]⟩
  · have h1 : mantField extended [0, 0, 0, 0, 0, 0, 0, 0x80, 0xFF, 0x3F] = 2 ^ 63 := by
      with_unfolding_all decide +kernel
    have h2 : expField extended [0, 0, 0, 0, 0, 0, 0, 0x80, 0xFF, 0x3F] = 16383 := by
      with_unfolding_all decide +kernel
    unfold decode
    rw [h1, h2]
    norm_num [extended, Format.bias, Format.precision, zpow_neg]

/-- Disagreement with C51: for the same reason 1.0000000000000001110223024625157 (just above the middle of 1
    and the next double) is emitted as 1 in double precision, though the next double is nearer. -/
theorem literal_double_not_nearest :
    let l : Literal := ⟨none, [1], some [0, 0, 0, 0, 0, 0, 0, 0, 0, 0, 0, 0, 0, 0, 0, 1, 1, 1, 0, 2, 2, 3, 0, 2, 4, 6, 2, 5, 1, 5, 7], none⟩
    String.ofList l.text = "1.0000000000000001110223024625157" ∧ Readable l ∧
    ∃ f bytes, create l.text = some f ∧ getSized f 8 = .ok bytes 0 ∧ decode double bytes = 1 ∧
      Representable 53 (1 + 1 / 2 ^ 52) ∧
      |l.magnitude - (1 + 1 / 2 ^ 52)| < |l.magnitude - decode double bytes| := by
  have hm : (⟨none, [1], some [0, 0, 0, 0, 0, 0, 0, 0, 0, 0, 0, 0, 0, 0, 0, 1, 1, 1, 0, 2, 2, 3, 0, 2, 4, 6, 2, 5, 1, 5, 7], none⟩ : Literal).magnitude = 10000000000000001110223024625157 / 10 ^ 31 := by
    unfold Literal.magnitude Literal.expValue Literal.fracDigits natValue
    norm_num [zpow_neg]
  have hd : decode double [0, 0, 0, 0, 0, 0, 0xF0, 0x3F] = 1 := by
    have h1 : mantField double [0, 0, 0, 0, 0, 0, 0xF0, 0x3F] = 0 := by with_unfolding_all decide +kernel
    have h2 : expField double [0, 0, 0, 0, 0, 0, 0xF0, 0x3F] = 1023 := by with_unfolding_all decide +kernel
    unfold decode
    rw [h1, h2]
    norm_num [double, Format.bias, Format.precision, zpow_neg]
  refine ⟨by decide, by unfold Readable; decide, ⟨0x80000000000003ffcb58, 0x7fff, false, false⟩, [0, 0, 0, 0, 0, 0, 0xF0, 0x3F],
    by with_unfolding_all decide +kernel, by with_unfolding_all decide +kernel, hd,
    ⟨2 ^ 52 + 1, -52, by norm_num, by norm_num, by norm_num [zpow_neg]⟩, ?_⟩
  rw [hm, hd, abs_of_neg (by norm_num), abs_of_pos (by norm_num)]
  norm_num

end Verif.Floatnum
