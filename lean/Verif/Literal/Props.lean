import Verif.Literal.Dec
/-
Property theorems for numeric literals (C17) and for printing numbers (C45).
-/
namespace Verif.Literal
open Verif.Intnum

/-- The bytes of an ASCII string (for examples). -/
def str (s : String) : List (BitVec 8) := s.toList.map fun c => BitVec.ofNat 8 c.toNat

/-! ## C17 -/

theorem create_pow2 (s : List (BitVec 8)) (base : Nat) (ws : List Nat)
    (h : wsum ws = rval base s.reverse % 2 ^ 256) :
    val (frombv (ofWords ws)) = wrap (litVal base s) ∧ Canon (frombv (ofWords ws)) := by
  have hs := frombv_spec (ofWords ws)
  refine ⟨?_, hs.2⟩
  rw [hs.1, toInt_wrap, ofWords_toNat ws _ h, wrap_mod, litVal_eq]

/-- C17 (partial): a well-formed hexadecimal literal denotes its value modulo 2^256.  Missing: the
    diagnosis of larger values (`pow2_literal_overflow_silent`). -/
theorem hex_literal_partial (s : List (BitVec 8)) (h : ValidLit 16 s) :
    (createHex s).err = none ∧ val (createHex s).num = wrap (litVal 16 s) ∧ Canon (createHex s).num := by
  obtain ⟨h1, h2⟩ := words_valid 4 hexCls (by decide) (by decide) hexCls_spec 8 s.reverse (valid_reverse.2 h)
  have := create_pow2 s 16 _ h2
  exact ⟨by simp [createHex, fromHex, h1], this⟩

example : ValidLit 16 (str "dead_BEEF") ∧ litVal 16 (str "dead_BEEF") = 0xDEADBEEF := by
  constructor
  · intro c hc; revert c; decide
  · decide

/-- C17 (partial): octal literals. -/
theorem oct_literal_partial (s : List (BitVec 8)) (h : ValidLit 8 s) :
    (createOct s).err = none ∧ val (createOct s).num = wrap (litVal 8 s) ∧ Canon (createOct s).num := by
  obtain ⟨h1, h2⟩ := wordsOct_valid 8 s.reverse 0 0 0 (valid_reverse.2 h) (by decide) (by decide) (by decide)
  rw [show ((0 : Nat) : Int) = 0 from rfl] at h1 h2
  rw [Nat.pow_zero, Nat.zero_add, Nat.one_mul] at h2
  rw [show (2 : Nat) ^ 3 = 8 from rfl, show 32 * 8 = 256 from rfl] at h2
  have := create_pow2 s 8 _ h2
  refine ⟨?_, by simp only [createOct, fromOct]; exact this⟩
  simp only [createOct, fromOct, h1, if_true]

example : ValidLit 8 (str "7654_3210_1234") ∧ litVal 8 (str "7654_3210_1234") = 0o765432101234 := by
  constructor
  · intro c hc; revert c; decide
  · decide

/-- C17 (partial): binary literals. -/
theorem bin_literal_partial (s : List (BitVec 8)) (h : ValidLit 2 s) :
    (createBin s).err = none ∧ val (createBin s).num = wrap (litVal 2 s) ∧ Canon (createBin s).num := by
  obtain ⟨h1, h2⟩ := words_valid 1 binCls (by decide) (by decide) binCls_spec 8 s.reverse (valid_reverse.2 h)
  have := create_pow2 s 2 _ h2
  exact ⟨by simp [createBin, fromBin, h1], this⟩

example : ValidLit 2 (str "1011_0001") ∧ litVal 2 (str "1011_0001") = 177 := by
  constructor
  · intro c hc; revert c; decide
  · decide

/-- C17: malformed literals that fit into 256 bits are diagnosed. -/
theorem bad_literal_diagnosed (s : List (BitVec 8)) :
    (¬ ValidLit 16 s → numDigits s ≤ 64 → (createHex s).err = some .value) ∧
    (¬ ValidLit 8 s → numDigits s ≤ 86 → (createOct s).err = some .value) ∧
    (¬ ValidLit 2 s → numDigits s ≤ 256 → (createBin s).err = some .value) := by
  refine ⟨?_, ?_, ?_⟩
  · intro h hn
    have := words_invalid 4 hexCls (by decide) (by decide) hexCls_spec 8 s.reverse
      (fun hv => h (valid_reverse.1 hv)) (by rw [numDigits_reverse]; omega)
    simp [createHex, fromHex, this]
  · intro h hn
    have := wordsOct_invalid 8 s.reverse 0 0 0
      (fun hv => h (valid_reverse.1 hv)) (by decide) (by rw [numDigits_reverse]; omega)
    rw [show ((0 : Nat) : Int) = 0 from rfl] at this
    simp only [createOct, fromOct, this, Bool.false_eq_true, if_false]
  · intro h hn
    have := words_invalid 1 binCls (by decide) (by decide) binCls_spec 8 s.reverse
      (fun hv => h (valid_reverse.1 hv)) (by rw [numDigits_reverse]; omega)
    simp [createBin, fromBin, this]

example : ¬ ValidLit 8 (str "178") ∧ numDigits (str "178") ≤ 86 := by
  constructor
  · intro h; have := h 0x38#8 (by decide); revert this; decide
  · decide

/-- C17 fails: a hexadecimal literal of 65 digits is silently truncated, and garbage before its last 64
    digits is not noticed. -/
theorem pow2_literal_overflow_silent :
    createHex (49#8 :: List.replicate 64 48#8) = ⟨.L 0#64, none⟩ ∧
    litVal 16 (49#8 :: List.replicate 64 48#8) = 2 ^ 256 ∧
    createHex (122#8 :: List.replicate 64 48#8) = ⟨.L 0#64, none⟩ := by
  decide +kernel

/-- C17: an unsigned decimal literal is accepted exactly when it is a string of at most 81 digits whose
    value is below 2^256, and then denotes its value. -/
theorem dec_literal (old : BitVec 256) (c : BitVec 8) (cs : List (BitVec 8)) (hc : c ≠ 45#8) (hc' : c ≠ 43#8) :
    ((createDec old (c :: cs)).err = none ↔
      DecDigits (c :: cs) ∧ (c :: cs).length ≤ 81 ∧ decVal (c :: cs) < 2 ^ 256) ∧
    ((createDec old (c :: cs)).err = none →
      val (createDec old (c :: cs)).num = wrap (decVal (c :: cs)) ∧ Canon (createDec old (c :: cs)).num) := by
  have h45 : c.toNat ≠ 45 := fun h => hc (BitVec.eq_of_toNat_eq h)
  have h43 : c.toNat ≠ 43 := fun h => hc' (BitVec.eq_of_toNat_eq h)
  obtain ⟨h1, h2⟩ := decLoop_spec (c :: cs).length (c :: cs).reverse 0#256 0#256 false 0 (by simp) (by simp)
    (by decide) (Or.inl ⟨rfl, rfl⟩)
  simp only [Nat.mul_zero, Nat.pow_zero, Nat.one_mul, BitVec.toNat_zero, Nat.zero_add, ← decVal_eq,
    List.length_reverse, Nat.sub_zero] at h1 h2
  have hrev : DecDigits (c :: cs).reverse ↔ DecDigits (c :: cs) := by
    unfold DecDigits; simp only [List.mem_reverse]
  rw [hrev] at h1
  have e : fromDec old (c :: cs) = decLoop (c :: cs).length (c :: cs).reverse 0#256 0#256 false := by
    simp [fromDec, h45, h43]
  have herr : (createDec old (c :: cs)).err = none ↔
      (decLoop (c :: cs).length (c :: cs).reverse 0#256 0#256 false).2 = .ok := by
    rw [createDec, e]
    cases (decLoop (c :: cs).length (c :: cs).reverse 0#256 0#256 false).2 <;> simp
  refine ⟨by rw [herr, h1], ?_⟩
  intro h
  have hok := herr.1 h
  have hs := frombv_spec (decLoop (c :: cs).length (c :: cs).reverse 0#256 0#256 false).1
  have en : (createDec old (c :: cs)).num =
      frombv (decLoop (c :: cs).length (c :: cs).reverse 0#256 0#256 false).1 := by rw [createDec, e]
  rw [en]
  exact ⟨by rw [hs.1, toInt_wrap, h2 hok], hs.2⟩

example : (createDec 0#256 (str "340282366920938463463374607431768211456")).err = none ∧
    val (createDec 0#256 (str "340282366920938463463374607431768211456")).num = 2 ^ 128 := by decide +kernel

/-- C17: a negative decimal literal is accepted exactly when it denotes a number from -2^255 to -1. -/
theorem dec_literal_minus (old : BitVec 256) (s : List (BitVec 8)) (hs : s ≠ []) :
    ((createDec old (45#8 :: s)).err = none ↔
      DecDigits s ∧ s.length ≤ 81 ∧ 1 ≤ decVal s ∧ decVal s ≤ 2 ^ 255) ∧
    ((createDec old (45#8 :: s)).err = none →
      val (createDec old (45#8 :: s)).num = -(decVal s : Int) ∧ Canon (createDec old (45#8 :: s)).num) := by
  obtain ⟨h1, h2⟩ := decLoop_spec s.length s.reverse 0#256 0#256 false 0 (by simp) (by simpa using hs)
    (by decide) (Or.inl ⟨rfl, rfl⟩)
  simp only [Nat.mul_zero, Nat.pow_zero, Nat.one_mul, BitVec.toNat_zero, Nat.zero_add, ← decVal_eq,
    List.length_reverse, Nat.sub_zero] at h1 h2
  have hrev : DecDigits s.reverse ↔ DecDigits s := by simp [DecDigits]
  rw [hrev] at h1
  generalize hr : decLoop s.length s.reverse 0#256 0#256 false = r at *
  have e : fromDec old (45#8 :: s) = if r.2 = .ok then (-r.1, if (-r.1).msb then .ok else .ovfl) else r := by
    simp [fromDec, hs, hr]
  have hms : r.2 = .ok → ((-r.1).msb = true ↔ 1 ≤ decVal s ∧ decVal s ≤ 2 ^ 255) := by
    intro hok
    have hv := h2 hok
    rw [Verif.Bitvect.msb_iff, BitVec.toNat_neg, hv]
    have := (h1.1 hok).2.2
    simp only [decide_eq_true_eq]
    by_cases h0 : decVal s = 0
    · rw [h0]; simp
    · rw [Nat.mod_eq_of_lt (by omega)]; omega
  constructor
  · rw [createDec, e]
    by_cases hok : r.2 = .ok
    · simp only [hok, if_true]
      have h3 := hms hok
      have h4 := h1.1 hok
      by_cases hb : (-r.1).msb = true
      · have h5 := h3.1 hb
        simp only [hb, if_true]
        exact ⟨fun _ => ⟨h4.1, by omega, h5.1, h5.2⟩, fun _ => trivial⟩
      · simp only [hb, if_false]
        constructor
        · intro h; simp at h
        · rintro ⟨-, -, h5, h6⟩; exact absurd (h3.2 ⟨h5, h6⟩) hb
    · simp only [hok, if_false]
      constructor
      · intro h
        exfalso
        cases h2 : r.2
        · exact hok h2
        · rw [h2] at h; simp at h
        · rw [h2] at h; simp at h
      · rintro ⟨h3, h4, h5, h6⟩
        exact absurd (h1.2 ⟨h3, by omega, by omega⟩) hok
  · intro h
    have hok : r.2 = .ok := by
      by_contra hok
      rw [createDec, e] at h
      simp only [hok, if_false] at h
      cases h2 : r.2
      · exact hok h2
      · rw [h2] at h; simp at h
      · rw [h2] at h; simp at h
    have hb : (-r.1).msb = true := by
      by_contra hb
      rw [createDec, e] at h
      simp [hok, hb] at h
    have en : (createDec old (45#8 :: s)).num = frombv (-r.1) := by rw [createDec, e]; simp [hok]
    rw [en]
    have hs2 := frombv_spec (-r.1)
    have h5 := (hms hok).1 hb
    have ex := Verif.Bitvect.toInt_eq_toNat_sub (-r.1)
    rw [hb] at ex
    refine ⟨?_, hs2.2⟩
    rw [hs2.1, ex, BitVec.toNat_neg, h2 hok, Nat.mod_eq_of_lt (by omega)]
    simp only [if_true]
    omega

example : (createDec 0#256 (str "-2147483648")).err = none ∧
    val (createDec 0#256 (str "-2147483648")).num = -(2 ^ 31) := by decide +kernel

/-- C17 fails for decimals with many leading zeros and for "-0": both are called too large. -/
theorem dec_literal_wrong :
    (createDec 0#256 (List.replicate 82 48#8)).err = some .overflow ∧ decVal (List.replicate 82 48#8) = 0 ∧
    (createDec 0#256 (str "-0")).err = some .overflow := by
  decide +kernel

/-! ## C45: printing -/

theorem toDec_spec (v : BitVec 256) (hv : v.toInt ≠ 0) :
    ∃ ds, toDec v = (if v.toInt < 0 then 45#8 :: ds else ds) ∧ DecDigits ds ∧ decVal ds = v.toInt.natAbs ∧
      ds.length ≤ 77 ∧ ∀ c, ds.head? = some c → c ≠ 48#8 := by
  have hsgn := Verif.Bitvect.sign_spec v
  have hmag : (if Verif.Bitvect.sign v < 0 then -v else v).toNat = v.toInt.natAbs := by
    have ha := Verif.Bitvect.abs_toNat v
    have hneg := Verif.Bitvect.toInt_neg_iff v
    rw [← ha]
    congr 1
    by_cases h : v.toInt < 0
    · have e : Verif.Bitvect.sign v < 0 := by rw [hsgn, if_pos h]; decide
      rw [if_pos e, if_pos (hneg.2 h)]
    · have e : ¬ Verif.Bitvect.sign v < 0 := by rw [hsgn, if_neg h]; split <;> decide
      rw [if_neg e, if_neg (fun hh => h (hneg.1 hh))]
  have hr : v.toInt.natAbs < 10 ^ 77 := by
    have h1 : -(2 ^ 255) ≤ v.toInt := (val_range (.BV v)).1
    have h2 : v.toInt < 2 ^ 255 := (val_range (.BV v)).2
    have h3 : 2 ^ 255 < 10 ^ 77 := by decide +kernel
    omega
  have h77 : (10:Nat) ^ 77 ≤ 10 ^ (9 * 256) := Nat.pow_le_pow_right (by decide) (by decide)
  have hsgn0 : Verif.Bitvect.sign v ≠ 0 := by rw [hsgn, if_neg hv]; split <;> decide
  obtain ⟨d1, d2, d3⟩ := decDigits_spec 256 (if Verif.Bitvect.sign v < 0 then -v else v) 79 77
    (by rw [hmag]; omega) (by rw [hmag]; omega) (by rw [hmag]; exact hr) (by decide)
  rw [hmag] at d2
  refine ⟨(decDigits 256 (if Verif.Bitvect.sign v < 0 then -v else v) 79).reverse, ?_, ?_, ?_, ?_, ?_⟩
  · unfold toDec
    rw [if_neg hsgn0]
    by_cases h : v.toInt < 0
    · have e : Verif.Bitvect.sign v < 0 := by rw [hsgn, if_pos h]; decide
      simp only [e, true_and]
      simp only [e, if_true] at d1
      rw [if_pos (show List.length _ < 79 by simp only [if_true]; omega), if_pos h]
      simp
    · have e : ¬ Verif.Bitvect.sign v < 0 := by rw [hsgn, if_neg h]; split <;> decide
      simp [e, h]
  · intro c hc; exact d2.digits c (by simpa using hc)
  · rw [decVal_eq, List.reverse_reverse]; exact d2.value
  · simpa using d1
  · intro c hc; rw [List.head?_reverse] at hc; exact d3 c hc

/-- C45: the printed form of a number is its decimal representation: an optional minus sign and digits
    denoting the magnitude, without leading zeros. -/
theorem get_str_decimal (x : Intnum) (hx : Canon x) :
    ∃ ds, getStr x = some (if val x < 0 then 45#8 :: ds else ds) ∧ DecDigits ds ∧ ds ≠ [] ∧
      decVal ds = (val x).natAbs ∧ ds.length ≤ 77 ∧
      (val x ≠ 0 → ∀ c, ds.head? = some c → c ≠ 48#8) := by
  cases x with
  | L l =>
    have hl : -(2 ^ 31) < l.toInt ∧ l.toInt < 2 ^ 31 := hx
    obtain ⟨h1, h2, h3, h4, h5⟩ := ldDigits_spec 20 l.toInt.natAbs (by omega) (by decide)
    have h6 := h4 10 (by decide) (by omega)
    refine ⟨ldDigits 20 l.toInt.natAbs, ?_, h1, h3, h2, by omega, ?_⟩
    · have e1 : val (.L l) = l.toInt := rfl
      have e2 := slt_zero l
      by_cases h : l.toInt < 0
      · simp only [getStr, e2, h, decide_true, if_true, e1]
        rw [if_pos (by simp; omega)]
      · simp only [getStr, e2, h, decide_false, e1, if_false]
        simp only [Bool.false_eq_true, if_false]
        rw [if_pos (by omega)]
    · intro hn
      exact h5 (by simp only [val] at hn; omega)
  | BV v =>
    have hb : v.toInt ≤ -(2 ^ 31) ∨ 2 ^ 31 ≤ v.toInt := hx
    obtain ⟨ds, h1, h2, h3, h4, h5⟩ := toDec_spec v (by omega)
    refine ⟨ds, by rw [getStr, h1]; rfl, h2, ?_, h3, h4, fun _ => h5⟩
    intro hd
    subst hd
    simp [decVal] at h3
    omega

example : getStr (.BV (BitVec.ofInt 256 (-(2 ^ 100)))) = some (str "-1267650600228229401496703205376") := by
  decide +kernel

/-- C45: reading back what was printed gives the same number. -/
theorem print_read (x : Intnum) (old : BitVec 256) (hx : Canon x) :
    ∃ s, getStr x = some s ∧ (createDec old s).err = none ∧ val (createDec old s).num = val x := by
  obtain ⟨ds, h1, h2, h3, h4, h5, -⟩ := get_str_decimal x hx
  have hr := val_range x
  refine ⟨_, h1, ?_⟩
  by_cases h : val x < 0
  · rw [if_pos h]
    obtain ⟨m1, m2⟩ := dec_literal_minus old ds h3
    have hok := m1.2 ⟨h2, by omega, by omega, by omega⟩
    refine ⟨hok, ?_⟩
    rw [(m2 hok).1]; omega
  · rw [if_neg h]
    cases ds with
    | nil => exact absurd rfl h3
    | cons c cs =>
      have hc := h2 c List.mem_cons_self
      have n1 : c ≠ 45#8 := by intro hh; rw [hh] at hc; revert hc; decide
      have n2 : c ≠ 43#8 := by intro hh; rw [hh] at hc; revert hc; decide
      obtain ⟨m1, m2⟩ := dec_literal old c cs n1 n2
      have hok := m1.2 ⟨h2, by omega, by omega⟩
      refine ⟨hok, ?_⟩
      rw [(m2 hok).1, h4, wrap_of_range _ (by omega) (by omega)]; omega

/-- C45 fails for numbers created from large C `long`s: printing overruns its 16-byte buffer. -/
theorem get_str_overrun : getStr (createInt (BitVec.ofNat 64 (10 ^ 15))) = none := by decide +kernel

end Verif.Literal
