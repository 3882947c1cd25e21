import Verif.Intnum.Leb
/-
Property theorems for libyasm/intnum.c.  The statements use `Verif.Intnum.Spec` (`val`, `OpRel`,
`leb`, ...), the API functions of `Verif.Intnum.Model`, and nothing else of the model.
-/
namespace Verif.Intnum
open Verif.Bitvect (ibit)

/-! ## C10: arithmetic -/

/-- C10 (partial): every numeric operator computes the mathematical operation, reduced to 256-bit two's
    complement.  Missing: products of magnitude 2^255 and above (`mul_overflow_wrong`), arithmetic
    shifts of a negative number by a count that is stored as a bit vector (`shr_wide_count_wrong`),
    and operands created from C `long`s of magnitude 2^32 and above (`long_truncated`). -/
theorem calc_value_partial (stale : BitVec 256) (op : Op) (acc operand : Intnum)
    (hacc : Fits acc) (hoperand : Fits operand) (hop : Numeric op) (hdiv : IsDiv op → val operand ≠ 0)
    (hmul : op = .MUL → (val acc * val operand).natAbs < 2 ^ 255)
    (hshr : op = .SHR → 0 ≤ val acc ∨ ∃ l, operand = .L l) :
    ∃ r, intCalc stale acc op (some operand) = ⟨r, 0, none⟩ ∧
      OpRel op (val acc) (val operand) (val r) ∧ Canon r :=
  intCalc_value stale op acc operand hacc hoperand hop hdiv hmul hshr

example : ∃ r, intCalc 0#256 (.L 7#64) .MUL (some (.BV (5#256 <<< 100))) = ⟨r, 0, none⟩ ∧
    OpRel .MUL 7 (5 * 2 ^ 100) (val r) ∧ Canon r :=
  calc_value_partial 0#256 .MUL (.L 7#64) (.BV (5#256 <<< 100)) (by simp [Fits])
    (by simp only [Fits]; decide +kernel) (by simp [Numeric]) (by simp [IsDiv]) (by intro _; decide +kernel)
    (by simp)

/-- C10: the unary operators work without an operand. -/
theorem calc_unary (stale : BitVec 256) (op : Op) (acc : Intnum) (hacc : Fits acc)
    (hop : op = .NEG ∨ op = .NOT ∨ op = .LNOT) :
    ∃ r, intCalc stale acc op none = ⟨r, 0, none⟩ ∧ (∀ b, OpRel op (val acc) b (val r)) ∧ Canon r :=
  intCalc_unary stale op acc hacc hop

example : Fits (.L (-5#64)) := by simp [Fits]

/-- C10: all other operators without an operand are refused and leave the accumulator alone. -/
theorem calc_missing_operand (stale : BitVec 256) (op : Op) (acc : Intnum)
    (hop : op ≠ .NEG ∧ op ≠ .NOT ∧ op ≠ .LNOT) :
    intCalc stale acc op none = ⟨acc, 1, some .arithmetic⟩ := by
  cases op <;> simp [intCalc, unary] at hop ⊢

/-- C10 fails for large products: the multiplication stops at the first overflow and leaves a partial
    sum.  (2^255-1)*3 should be 2^255-3 in 256-bit arithmetic but comes out as 2^255-1, and 2^254 * -2
    = -2^255 is representable but comes out as 0. -/
theorem mul_overflow_wrong :
    (∃ r, intCalc 0#256 (.BV (BitVec.ofInt 256 (2 ^ 255 - 1))) .MUL (some (.L 3#64)) = ⟨r, 0, none⟩ ∧
      val r = 2 ^ 255 - 1 ∧ ¬ OpRel .MUL (2 ^ 255 - 1) 3 (val r)) ∧
    (∃ r, intCalc 0#256 (.BV (BitVec.ofInt 256 (2 ^ 254))) .MUL (some (.L (-2#64))) = ⟨r, 0, none⟩ ∧
      val r = 0 ∧ ¬ OpRel .MUL (2 ^ 254) (-2) (val r)) := by
  refine ⟨⟨_, rfl, ?_, ?_⟩, ⟨_, rfl, ?_, ?_⟩⟩
  · decide +kernel
  · simp only [OpRel, wrap]; decide +kernel
  · decide +kernel
  · simp only [OpRel, wrap]; decide +kernel

/-- C10 fails for arithmetic right shifts by 2^31 or more: -1 >> 2^31 gives 0, not -1. -/
theorem shr_wide_count_wrong :
    ∃ r, intCalc 0#256 (.L (-1#64)) .SHR (some (.BV (BitVec.ofNat 256 (2 ^ 31)))) = ⟨r, 0, none⟩ ∧
      val r = 0 ∧ (-1 : Int) / 2 ^ (2 ^ 31) = -1 := by
  refine ⟨_, rfl, ?_, ?_⟩
  · decide +kernel
  · generalize 2 ^ 31 = k
    have : (0:Int) < 2 ^ k := Int.pow_pos (by decide)
    have e0 : ((2 ^ k : Int) - 1) / 2 ^ k = 0 := Int.ediv_eq_zero_of_lt (by omega) (by omega)
    have h := Int.add_mul_ediv_left ((2 ^ k : Int) - 1) (-1) (show (2 ^ k : Int) ≠ 0 by omega)
    have e1 : ((2 ^ k : Int) - 1) + 2 ^ k * (-1) = -1 := by omega
    rw [e0, e1] at h
    omega

/-- C10 fails for numbers created from a C `long` outside 32 bits: 2^32 + 1 is computed as 1. -/
theorem long_truncated :
    val (createInt (BitVec.ofNat 64 (2 ^ 32))) = 2 ^ 32 ∧
    (intCalc 0#256 (createInt (BitVec.ofNat 64 (2 ^ 32))) .ADD (some (createInt 1#64))) =
      ⟨.L 1#64, 0, none⟩ := by
  decide +kernel

/-- C10: SEG, WRT and ':' report an error, but return success and overwrite the accumulator with
    whatever the last computation left behind. -/
theorem seg_stale (stale : BitVec 256) (acc operand : Intnum) (op : Op)
    (h : op = .SEG ∨ op = .WRT ∨ op = .SEGOFF) :
    ∃ r, intCalc stale acc op (some operand) = ⟨r, 0, some .arithmetic⟩ ∧ val r = stale.toInt := by
  rcases h with rfl | rfl | rfl <;> exact ⟨frombv stale, rfl, (frombv_spec stale).1⟩

/-! ## C11: division -/

/-- C11: dividing by zero, however the zero is represented, is an error that leaves the accumulator
    alone. -/
theorem div_by_zero (stale : BitVec 256) (op : Op) (acc operand : Intnum) (hop : IsDiv op)
    (h0 : val operand = 0) :
    intCalc stale acc op (some operand) = ⟨acc, 1, some .zeroDivision⟩ := by
  have hz := tobv_zero operand h0
  rcases hop with rfl | rfl | rfl | rfl <;> simp [intCalc, calcSwitch, divCase, hz]

example : val (.BV 0#256) = 0 ∧ val (.L 0#64) = 0 ∧ Intnum.BV 0#256 ≠ .L 0#64 := by decide

/-- C11: dividing by a non-zero number succeeds; quotient and remainder satisfy the division equation
    (modulo 2^256, which only matters for -2^255 / -1) with truncation toward zero. -/
theorem div_mod_spec (stale : BitVec 256) (acc operand : Intnum) (hacc : Fits acc)
    (hoperand : Fits operand) (h0 : val operand ≠ 0) (dop mop : Op)
    (hd : dop = .DIV ∨ dop = .SIGNDIV) (hm : mop = .MOD ∨ mop = .SIGNMOD) :
    ∃ q r, intCalc stale acc dop (some operand) = ⟨q, 0, none⟩ ∧
      intCalc stale acc mop (some operand) = ⟨r, 0, none⟩ ∧
      (val q * val operand + val r = val acc ∨ (val acc = -(2 ^ 255) ∧ val operand = -1)) ∧
      (val r).natAbs < (val operand).natAbs ∧
      (val r = 0 ∨ (val r < 0 ↔ val acc < 0)) := by
  obtain ⟨q, hq, hqr, -⟩ := intCalc_value stale dop acc operand hacc hoperand
    (by rcases hd with rfl | rfl <;> simp [Numeric]) (fun _ => h0)
    (by rcases hd with rfl | rfl <;> simp) (by rcases hd with rfl | rfl <;> simp)
  obtain ⟨r, hr, hrr, -⟩ := intCalc_value stale mop acc operand hacc hoperand
    (by rcases hm with rfl | rfl <;> simp [Numeric]) (fun _ => h0)
    (by rcases hm with rfl | rfl <;> simp) (by rcases hm with rfl | rfl <;> simp)
  have hqv : val q = wrap ((val acc).tdiv (val operand)) := by
    rcases hd with rfl | rfl <;> exact hqr
  have hrv : val r = (val acc).tmod (val operand) := by
    rcases hm with rfl | rfl <;> exact hrr
  have ha := val_range acc
  have hmul := Int.mul_tdiv_add_tmod (val acc) (val operand)
  refine ⟨q, r, hq, hr, ?_, ?_, ?_⟩
  · by_cases hov : (val acc).tdiv (val operand) < 2 ^ 255
    · left
      have hle := tdiv_range (val acc) (val operand)
      rw [hqv, hrv, wrap_of_range _ (by omega) hov, Int.mul_comm]; exact hmul
    · right
      have hle := tdiv_range (val acc) (val operand)
      have hacc' : val acc = -(2 ^ 255) := by
        omega
      refine ⟨hacc', ?_⟩
      have hn : ((val acc).tdiv (val operand)).natAbs = (val acc).natAbs / (val operand).natAbs :=
        Int.natAbs_tdiv _ _
      have hacn : (val acc).natAbs = 2 ^ 255 := by omega
      rw [hacn] at hn
      have h1 : (val operand).natAbs = 1 := by
        by_contra hne
        have h2 : 2 ≤ (val operand).natAbs := by omega
        have := Nat.div_le_div_left (a := 2 ^ 255) h2 (by decide)
        omega
      by_contra hne
      have : val operand = 1 := by omega
      rw [this, Int.tdiv_one] at hov
      omega
  · rw [hrv, Int.natAbs_tmod]; exact Nat.mod_lt _ (by omega)
  · by_cases hz : val r = 0
    · exact Or.inl hz
    · right
      rw [hrv] at hz ⊢
      constructor
      · intro h
        by_contra hn
        have := Int.tmod_nonneg (a := val acc) (val operand) (by omega)
        omega
      · intro h
        have := Int.tmod_nonneg (a := -val acc) (val operand) (by omega)
        rw [Int.neg_tmod] at this
        omega

example : Fits (.L (-7#64)) ∧ Fits (.L 2#64) ∧ val (.L 2#64) ≠ 0 := by simp only [Fits]; decide

/-- C11: a non-zero divisor created from a C `long` that is a multiple of 2^32 is reported as zero. -/
theorem div_by_long_wrong :
    val (createInt (BitVec.ofNat 64 (2 ^ 32))) ≠ 0 ∧
    intCalc 0#256 (createInt 1#64) .DIV (some (createInt (BitVec.ofNat 64 (2 ^ 32)))) =
      ⟨createInt 1#64, 1, some .zeroDivision⟩ := by
  decide +kernel

/-! ## C12: comparison -/

/-- C12: comparison is the order of the values, whatever the representation. -/
theorem compare_order (x y : Intnum) (hx : Fits x) (hy : Fits y) :
    (compareI x y < 0 ↔ val x < val y) ∧ (compareI x y = 0 ↔ val x = val y) ∧
    (compareI x y > 0 ↔ val x > val y) := by
  have key : compareI x y = if val x < val y then -1 else if val x = val y then 0 else 1 := by
    have hb : Verif.Bitvect.cmp (tobv x) (tobv y) = _ := Verif.Bitvect.cmp_spec _ _
    rw [tobv_toInt x hx, tobv_toInt y hy] at hb
    cases x with
    | BV v => exact hb
    | L a =>
      cases y with
      | BV v => exact hb
      | L b =>
        simp only [compareI, val, BitVec.slt]
        by_cases h1 : a.toInt < b.toInt
        · simp [h1]
        · by_cases h2 : b.toInt < a.toInt
          · have : a.toInt ≠ b.toInt := by omega
            simp [h1, h2, this]
          · have : a.toInt = b.toInt := by omega
            simp [this]
  rw [key]
  refine ⟨?_, ?_, ?_⟩ <;> (split <;> (try split) <;> constructor <;> intro h <;> omega)

example : compareI (.L (-3#64)) (.BV (BitVec.ofInt 256 (2 ^ 40))) < 0 := by decide +kernel

/-- C12: the sign test is exact for every representation. -/
theorem sign_correct (x : Intnum) :
    signI x = if val x < 0 then -1 else if val x = 0 then 0 else 1 := by
  cases x with
  | BV v => exact Verif.Bitvect.sign_spec v
  | L l =>
    simp only [signI, val, slt_zero]
    by_cases h0 : l = 0#64
    · subst h0; decide
    · have : l.toInt ≠ 0 := by
        intro h; apply h0; rw [← BitVec.toInt_inj]; simpa using h
      rw [if_neg h0]
      by_cases h : l.toInt < 0
      · simp [h]
      · simp [h, this]

/-- C12: the tests for 0, 1 and -1 are exact. -/
theorem small_tests (x : Intnum) (hx : Fits x) :
    (isZero x = true ↔ val x = 0) ∧ (isPos1 x = true ↔ val x = 1) ∧ (isNeg1 x = true ↔ val x = -1) := by
  cases x with
  | BV v => simp only [Fits] at hx; simp [isZero, isPos1, isNeg1, val]; omega
  | L l =>
    have e0 : (0#64).toInt = 0 := by decide
    have e1 : (1#64).toInt = 1 := by decide
    have e2 : (-1#64).toInt = -1 := by decide
    simp only [isZero, isPos1, isNeg1, val, beq_iff_eq]
    rw [← BitVec.toInt_inj, ← BitVec.toInt_inj, ← BitVec.toInt_inj, e0, e1, e2]
    exact ⟨Iff.rfl, Iff.rfl, Iff.rfl⟩

/-- C12 fails for `yasm_intnum_create_uint(2^63)`: the number denotes 0 and compares equal to 0, but the
    zero test denies it. -/
theorem create_uint_wrong :
    val (createUint (BitVec.ofNat 64 (2 ^ 63))) = 0 ∧ isZero (createUint (BitVec.ofNat 64 (2 ^ 63))) = false ∧
    compareI (createUint (BitVec.ofNat 64 (2 ^ 63))) (.L 0#64) = 0 := by
  decide +kernel

/-! ## C13: narrowing -/

/-- C13 (partial): `get_uint` saturates. Missing: 2^32 ≤ value < 2^33 (`get_uint_wrong`). -/
theorem get_uint_partial (x : Intnum) (hx : Canon x) (h : ¬ (2 ^ 32 ≤ val x ∧ val x < 2 ^ 33)) :
    ((getUint x).toNat : Int) =
      if val x < 0 then 0 else if val x < 2 ^ 32 then val x else 2 ^ 64 - 1 := by
  cases x with
  | L l =>
    change ((getUint (.L l)).toNat : Int) = if l.toInt < 0 then 0 else if l.toInt < 2 ^ 32 then l.toInt else 2 ^ 64 - 1
    change ¬ (2 ^ 32 ≤ l.toInt ∧ l.toInt < 2 ^ 33) at h
    simp only [Canon, getUint, slt_zero] at *
    by_cases hn : l.toInt < 0
    · simp [hn]
    · have := toNat_of_nonneg l hn
      rw [if_neg (by simpa using hn), if_neg hn, if_pos (by omega), this]
  | BV v =>
    change ((getUint (.BV v)).toNat : Int) = if v.toInt < 0 then 0 else if v.toInt < 2 ^ 32 then v.toInt else 2 ^ 64 - 1
    change ¬ (2 ^ 32 ≤ v.toInt ∧ v.toInt < 2 ^ 33) at h
    simp only [Canon, getUint] at *
    have hm := Verif.Bitvect.toInt_neg_iff v
    by_cases hn : v.toInt < 0
    · rw [if_pos (hm.2 hn), if_pos hn]; rfl
    · rw [if_neg (fun hh => hn (hm.1 hh)), if_neg hn]
      have hs := setMax_lt_toInt v hn 33
      have hmm : v.msb = false := by
        cases hb : v.msb
        · rfl
        · exact absurd (hm.1 hb) hn
      have ex := Verif.Bitvect.toInt_eq_toNat_sub v
      rw [hmm] at ex; simp at ex
      by_cases h32 : v.toInt < 2 ^ 32
      · rw [if_pos h32, if_neg (by have := hs.2 (by omega); omega), Verif.Bitvect.chunkRead_toNat, ex]
        rw [Nat.pow_zero, Nat.div_one, Nat.mod_eq_of_lt (by norm_num; omega)]
      · rw [if_neg h32, if_pos (by have := mt hs.1 (by omega); omega)]; decide

example : Canon (.BV (BitVec.ofInt 256 (2 ^ 31))) ∧
    ¬ (2 ^ 32 ≤ val (.BV (BitVec.ofInt 256 (2 ^ 31))) ∧ val (.BV (BitVec.ofInt 256 (2 ^ 31))) < 2 ^ 33) := by
  simp only [Canon]; decide +kernel

/-- C13 fails at 2^32, which narrows to 0 instead of the maximum. -/
theorem get_uint_wrong :
    Canon (.BV (BitVec.ofInt 256 (2 ^ 32))) ∧ val (.BV (BitVec.ofInt 256 (2 ^ 32))) = 2 ^ 32 ∧
    getUint (.BV (BitVec.ofInt 256 (2 ^ 32))) = 0#64 := by
  simp only [Canon]; decide +kernel

/-- C13 (partial): `get_int` gives the value when its magnitude is below 2^31 and the limits of `long`
    otherwise.  Missing: values of larger magnitude that a 64-bit `long` could hold (`get_int_wrong`). -/
theorem get_int_partial (x : Intnum) (hx : Canon x) :
    (getInt x).toInt =
      if val x ≤ -(2 ^ 31) then -(2 ^ 63) else if val x < 2 ^ 31 then val x else 2 ^ 63 - 1 := by
  cases x with
  | L l =>
    change (getInt (.L l)).toInt = if l.toInt ≤ -(2 ^ 31) then -(2 ^ 63) else if l.toInt < 2 ^ 31 then l.toInt else 2 ^ 63 - 1
    simp only [Canon, getInt] at *
    rw [if_neg (by omega), if_pos hx.2]
  | BV v =>
    change (getInt (.BV v)).toInt = if v.toInt ≤ -(2 ^ 31) then -(2 ^ 63) else if v.toInt < 2 ^ 31 then v.toInt else 2 ^ 63 - 1
    simp only [Canon, getInt] at *
    have hm := Verif.Bitvect.toInt_neg_iff v
    have emin : (BitVec.ofInt 64 Verif.Bitvect.longMin).toInt = -(2 ^ 63) := by decide
    have emax : (BitVec.ofInt 64 Verif.Bitvect.longMax).toInt = 2 ^ 63 - 1 := by decide
    by_cases hn : v.toInt < 0
    · rw [if_pos (hm.2 hn), if_pos (show v.toInt ≤ -(2 ^ 31) by omega)]
      have hneg := v.isLt
      have ex := Verif.Bitvect.toInt_eq_toNat_sub v
      rw [hm.2 hn] at ex; simp at ex
      have hrange : -(2 ^ 255) ≤ v.toInt := (val_range (.BV v)).1
      have hn' : (-v).toNat = 2 ^ 256 - v.toNat := by
        rw [BitVec.toNat_neg]
        exact Nat.mod_eq_of_lt (by omega)
      have h31 : v.toInt ≤ -(2 ^ 31) := by omega
      have hs := Verif.Bitvect.setMax_lt_iff (-v) 32
      by_cases h32 : Verif.Bitvect.setMax (-v) ≥ 32
      · rw [if_pos h32, emin]
      · rw [if_neg h32]
        have hlt := hs.1 (by omega)
        have hc : (Verif.Bitvect.chunkRead (-v) 32 0).toNat = (-v).toNat := by
          rw [Verif.Bitvect.chunkRead_toNat, Nat.pow_zero, Nat.div_one, show min 32 64 = 32 by rfl, Nat.mod_eq_of_lt hlt]
        rw [if_pos ((and_bit31 _ (by omega)).2 (by omega)), emin]
    · rw [if_neg (fun hh => hn (hm.1 hh)), if_neg (show ¬ v.toInt ≤ -(2 ^ 31) by omega),
        if_neg (show ¬ v.toInt < 2 ^ 31 by omega), emax]

example : Canon (.BV (BitVec.ofInt 256 (-(2 ^ 40)))) := by simp only [Canon]; decide +kernel

/-- C13 fails for 2^31 (representable in `long`, but `LONG_MAX` is returned) and for a four-character
    constant, whose value is below 2^31. -/
theorem get_int_wrong :
    (val (.BV (BitVec.ofInt 256 (2 ^ 31))) = 2 ^ 31 ∧ (getInt (.BV (BitVec.ofInt 256 (2 ^ 31)))).toInt = 2 ^ 63 - 1) ∧
    (val (charconstNasm [0x61#8, 0x62#8, 0x63#8, 0x64#8]).num = 0x64636261 ∧
      (getInt (charconstNasm [0x61#8, 0x62#8, 0x63#8, 0x64#8]).num).toInt = 2 ^ 63 - 1) := by
  decide +kernel

/-! ## C14: emitting a field -/

/-- C14: `get_sized` writes the low `valsize` bits of the (right-shifted) value at the (left) shift and
    preserves every other bit of the destination. -/
theorem get_sized_field (x : Intnum) (buf : List (BitVec 8)) (valsize : Nat) (shift warn : Int)
    (hx : Fits x) (hb : buf.length ≤ 32) :
    ∃ out, getSized x buf valsize shift false warn = some out ∧ out.buf.length = buf.length ∧
      ∀ i, i < 8 * buf.length → bufBit out.buf i =
        if shift.toNat ≤ i ∧ i < shift.toNat + valsize then
          ibit (val x / 2 ^ (-shift).toNat) (i - shift.toNat)
        else bufBit buf i := by
  unfold getSized
  rw [if_neg (by unfold native; omega), if_neg (by decide)]
  have hr : (if shift < 0 then (-shift).toNat else 0) = (-shift).toNat := by
    split <;> omega
  have hsh : (if (-shift).toNat > 0 then 0 else shift.toNat) = shift.toNat := by
    split <;> omega
  refine ⟨_, rfl, by simp [List.length_take, blockRead_length, hb], ?_⟩
  intro i hi
  simp only [hr, hsh]
  rw [blockRead_bit _ _ _ hi hb]
  have hs := shifted_toInt (tobv x) (-shift).toNat
  rw [tobv_toInt x hx] at hs
  rw [← hs]
  generalize (if (-shift).toNat > 0 then _ else tobv x) = w at *
  unfold Verif.Bitvect.intervalCopy
  rw [Verif.Bitvect.getLsbD_ofBits]
  have hi2 : i < 256 := by omega
  simp only [hi2, decide_true, Bool.true_and, Nat.zero_add]
  by_cases h : shift.toNat ≤ i ∧ i < shift.toNat + valsize
  · rw [if_pos ⟨h.1, h.2, by omega, by omega⟩, if_pos h,
      Verif.Bitvect.getLsbD_eq_ibit _ _ (by omega)]
  · rw [if_neg (fun hh => h ⟨hh.1, hh.2.1⟩), if_neg h, blockStore_bit _ _ hi2]

example : ∃ out, getSized (.L 0x1234#64) [0xFF#8, 0xFF#8, 0xFF#8] 8 4 false 0 = some out ∧
    out.buf = [0x4F#8, 0xF3#8, 0xFF#8] := by
  refine ⟨_, rfl, ?_⟩; decide +kernel

/-- C14: the warnings are raised exactly when the value does not fit the field or loses low bits. -/
theorem get_sized_warns (x : Intnum) (buf : List (BitVec 8)) (valsize : Nat) (shift warn : Int)
    (hx : Fits x) (hv : 1 ≤ valsize) (hv' : valsize < 256) (hs : -256 ≤ shift) (out : Sized)
    (ho : getSized x buf valsize shift false warn = some out) :
    (SizedWarn.signedField ∈ out.warns ↔ warn < 0 ∧
      ¬ (-(2 ^ (valsize - 1)) ≤ val x / 2 ^ (-shift).toNat ∧ val x / 2 ^ (-shift).toNat < 2 ^ (valsize - 1))) ∧
    (SizedWarn.field ∈ out.warns ↔ warn > 0 ∧
      ¬ (-(2 ^ (valsize - 1)) ≤ val x / 2 ^ (-shift).toNat ∧ val x / 2 ^ (-shift).toNat < 2 ^ valsize)) ∧
    (SizedWarn.misaligned ∈ out.warns ↔ warn ≠ 0 ∧ val x % 2 ^ (-shift).toNat ≠ 0) := by
  unfold getSized at ho
  by_cases hl : buf.length * 8 > native
  · rw [if_pos hl] at ho; cases ho
  rw [if_neg hl, if_neg (by decide)] at ho
  have hr : (if shift < 0 then (-shift).toNat else 0) = (-shift).toNat := by
    split <;> omega
  simp only [Option.some.injEq, hr] at ho
  subst ho
  have c1 := checkSize_spec x valsize (-shift).toNat 1 hx hv hv'
  have c2 := checkSize_spec x valsize (-shift).toNat 2 hx hv hv'
  simp only [show ¬ ((1:Int) ≤ 0) by decide, show ¬ ((2:Int) ≤ 0) by decide, if_true, if_false,
    show ¬ ((2:Int) = 1) by decide] at c1 c2
  have c1' : checkSize x valsize (-shift).toNat 1 = false ↔ ¬ (-(2 ^ (valsize - 1)) ≤ val x / 2 ^ (-shift).toNat ∧
      val x / 2 ^ (-shift).toNat < 2 ^ (valsize - 1)) := by rw [← c1]; simp
  have c2' : checkSize x valsize (-shift).toNat 2 = false ↔ ¬ (-(2 ^ (valsize - 1)) ≤ val x / 2 ^ (-shift).toNat ∧
      val x / 2 ^ (-shift).toNat < 2 ^ valsize) := by rw [← c2]; simp
  have c3 : ((-shift).toNat > 0 ∧
      (Verif.Bitvect.moveLeft (tobv x) ((2 ^ 32 + native - (-shift).toNat % 2 ^ 32) % 2 ^ 32)).toNat ≠ 0) ↔
      val x % 2 ^ (-shift).toNat ≠ 0 := by
    generalize hk : (-shift).toNat = k
    have hk256 : k ≤ 256 := by omega
    rw [show (2 ^ 32 + native - k % 2 ^ 32) % 2 ^ 32 = 256 - k by unfold native; omega,
      Verif.Bitvect.moveLeft_toNat]
    by_cases h0 : k = 0
    · subst h0; simp
    have ev : val x % 2 ^ k = (((tobv x).toNat % 2 ^ k : Nat) : Int) := by
      rw [← tobv_toInt x hx, Verif.Bitvect.toInt_eq_toNat_sub]
      have : (2:Int) ^ 256 = 2 ^ k * 2 ^ (256 - k) := by
        rw [← Int.pow_add]; congr 1; omega
      generalize (if (tobv x).msb = true then (1:Int) else 0) = s
      rw [this, Int.mul_assoc, Int.sub_mul_emod_self_left]
      push_cast; rfl
    have em : (tobv x).toNat * 2 ^ (256 - k) % 2 ^ 256 = ((tobv x).toNat % 2 ^ k) * 2 ^ (256 - k) := by
      have : 2 ^ 256 = 2 ^ k * 2 ^ (256 - k) := by rw [← Nat.pow_add]; congr 1; omega
      rw [this, Nat.mul_mod_mul_right]
    rw [ev, em]
    have hp : 0 < 2 ^ (256 - k) := Nat.two_pow_pos _
    constructor
    · rintro ⟨_, h⟩ h'
      have : (tobv x).toNat % 2 ^ k = 0 := by exact_mod_cast h'
      rw [this] at h; simp at h
    · intro h
      refine ⟨by omega, ?_⟩
      intro h'
      rcases Nat.mul_eq_zero.1 h' with h2 | h2
      · exact h (by rw [h2]; rfl)
      · omega
  refine ⟨?_, ?_, ?_⟩
  · rw [← c1']
    simp only [List.mem_append]
    constructor
    · rintro ((h | h) | h)
      · split at h
        · assumption
        · simp at h
      · split at h <;> simp at h
      · split at h <;> simp at h
    · intro h; left; left; rw [if_pos h]; simp
  · rw [← c2']
    simp only [List.mem_append]
    constructor
    · rintro ((h | h) | h)
      · split at h <;> simp at h
      · split at h
        · assumption
        · simp at h
      · split at h <;> simp at h
    · intro h; left; right; rw [if_pos h]; simp
  · rw [← c3]
    simp only [List.mem_append]
    constructor
    · rintro ((h | h) | h)
      · split at h <;> simp at h
      · split at h <;> simp at h
      · split at h
        · assumption
        · simp at h
    · intro h; right; rw [if_pos h]; simp

/-- C14: with a left shift the number itself is left alone. -/
theorem get_sized_const (x : Intnum) (buf : List (BitVec 8)) (valsize : Nat) (shift warn : Int)
    (hs : 0 ≤ shift) (out : Sized) (ho : getSized x buf valsize shift false warn = some out) :
    out.intn = x := by
  unfold getSized at ho
  split at ho
  · cases ho
  split at ho
  · cases ho
  · simp only [Option.some.injEq] at ho
    subst ho
    have : (if shift < 0 then (-shift).toNat else 0) = 0 := by split <;> omega
    rw [this]
    cases x <;> simp [tobv]

/-- C14 fails twice: a right shift changes a number that is stored as a bit vector, so that emitting the
    same number again gives different bytes; and big-endian output is not implemented. -/
theorem get_sized_mutates :
    (∃ out, getSized (.BV (BitVec.ofInt 256 (2 ^ 40))) [0#8, 0#8, 0#8, 0#8] 32 (-12) false 0 = some out ∧
      out.buf = [0#8, 0#8, 0#8, 0x10#8] ∧ out.intn ≠ .BV (BitVec.ofInt 256 (2 ^ 40)) ∧
      ∃ out2, getSized out.intn [0#8, 0#8, 0#8, 0#8] 32 (-12) false 0 = some out2 ∧
        out2.buf = [0#8, 0#8, 1#8, 0#8]) ∧
    (∀ x buf valsize shift warn, getSized x buf valsize shift true warn = none) := by
  refine ⟨⟨_, rfl, ?_, ?_, _, rfl, ?_⟩, ?_⟩
  · decide +kernel
  · decide +kernel
  · decide +kernel
  · intro x buf valsize shift warn
    unfold getSized; split <;> rfl

/-! ## C15: size checks -/

/-- C15: `check_size` accepts exactly the values whose (shifted) value lies in the range of the width:
    unsigned (rangetype 0), signed (1), or either (2). -/
theorem check_size_exact (x : Intnum) (size rshift : Nat) (rangetype : Int) (hx : Fits x)
    (h1 : 1 ≤ size) (h2 : size < 256) :
    checkSize x size rshift rangetype = true ↔
      (if rangetype ≤ 0 then 0 ≤ val x / 2 ^ rshift ∧ val x / 2 ^ rshift < 2 ^ size
       else if rangetype = 1 then
        -(2 ^ (size - 1)) ≤ val x / 2 ^ rshift ∧ val x / 2 ^ rshift < 2 ^ (size - 1)
       else -(2 ^ (size - 1)) ≤ val x / 2 ^ rshift ∧ val x / 2 ^ rshift < 2 ^ size) :=
  checkSize_spec x size rshift rangetype hx h1 h2

example : checkSize (.L (-128#64)) 8 0 1 = true ∧ checkSize (.L 255#64) 8 0 1 = false := by decide +kernel

/-- C15: widths of 256 and more accept everything, including negative numbers as unsigned. -/
theorem check_size_wide (x : Intnum) (size rshift : Nat) (rangetype : Int) (h : 256 ≤ size) :
    checkSize x size rshift rangetype = true := by
  unfold checkSize; rw [if_pos h]

/-- C15: a field of no bits is said to hold -1 as a signed value. -/
theorem check_size_zero_wrong : checkSize (.L (-1#64)) 0 0 1 = true := by decide +kernel

/-- C15: `in_range` is the closed interval test. -/
theorem in_range_exact (x : Intnum) (low high : BitVec 64) (hx : Fits x)
    (hl : -(2 ^ 32) < low.toInt ∧ low.toInt < 2 ^ 32) (hh : -(2 ^ 32) < high.toInt ∧ high.toInt < 2 ^ 32) :
    inRange x low high = true ↔ low.toInt ≤ val x ∧ val x ≤ high.toInt := by
  unfold inRange
  rw [Verif.Bitvect.cmp_spec, Verif.Bitvect.cmp_spec, longBv_toInt low hl, longBv_toInt high hh,
    tobv_toInt x hx]
  simp only [Bool.and_eq_true, decide_eq_true_eq]
  constructor
  · rintro ⟨ha, hb⟩
    constructor
    · split at ha <;> omega
    · split at hb <;> (try split at hb) <;> omega
  · rintro ⟨ha, hb⟩
    constructor
    · rw [if_neg (by omega)]; split <;> omega
    · split
      · omega
      · rw [if_pos (by omega)]

example : inRange (.L 5#64) (-10#64) 5#64 = true := by decide +kernel

/-- C15 fails for bounds outside 32 bits: 5 is said not to lie in [0, 2^32]. -/
theorem in_range_wrong : inRange (.L 5#64) 0#64 (BitVec.ofNat 64 (2 ^ 32)) = false := by decide +kernel

/-! ## C16: LEB128 -/

theorem leb_append (sgn : Bool) (bs rest : List (BitVec 8)) (r : Int × Nat) (h : leb sgn bs = some r) :
    leb sgn (bs ++ rest) = some r := by
  cases sgn
  · simp only [leb, Bool.false_eq_true, if_false] at *
    induction bs generalizing r with
    | nil => simp [uleb] at h
    | cons b bs ih =>
      rw [List.cons_append, uleb]
      rw [uleb] at h
      split at h
      · rename_i hb; rw [if_pos hb]; exact h
      · rename_i hb
        rw [if_neg hb]
        cases hu : uleb bs with
        | none => rw [hu] at h; simp at h
        | some r' => rw [ih r' hu]; rw [hu] at h; exact h
  · simp only [leb, if_true] at *
    induction bs generalizing r with
    | nil => simp [sleb] at h
    | cons b bs ih =>
      rw [List.cons_append, sleb]
      rw [sleb] at h
      split at h
      · rename_i hb; rw [if_pos hb]; exact h
      · rename_i hb
        rw [if_neg hb]
        split at h
        · rename_i hb2; rw [if_pos hb2]; exact h
        · rename_i hb2
          rw [if_neg hb2]
          cases hu : sleb bs with
          | none => rw [hu] at h; simp at h
          | some r' => rw [ih r' hu]; rw [hu] at h; exact h

/-- C16 (partial): what is written is the DWARF encoding of the value, and its length is the announced
    size.  Missing: negative numbers of magnitude 2^251 and above (`leb_negative_wrong`). -/
theorem leb_encode_partial (x : Intnum) (sgn : Bool) (hx : Fits x)
    (hu : sgn = false → 0 ≤ val x) (hs : sgn = true → -(2 ^ 251) < val x) :
    ∃ bs, getLeb128 x sgn = some bs ∧ bs.length = (sizeLeb128 x sgn).toNat ∧
      leb sgn bs = some (val x, bs.length) := by
  by_cases h0 : x = .L 0#64
  · subst h0
    refine ⟨[0#8], by simp [getLeb128], by simp [sizeLeb128], ?_⟩
    cases sgn <;> decide
  have hxt := tobv_toInt x hx
  have hnz : (tobv x).toNat ≠ 0 := by
    rw [Ne, ← Verif.Bitvect.toInt_ne_zero, hxt]
    intro hv
    have := ((small_tests x hx).1).2 hv
    cases x with
    | BV v => simp [isZero] at this
    | L l => simp [isZero] at this; exact h0 (by rw [this])
  obtain ⟨bs, hg, hlen, hdec⟩ := getLeb_spec (tobv x) sgn hnz
  have hsz := sizeLeb_eq (tobv x) sgn hnz
  refine ⟨bs, by rw [getLeb128, if_neg h0, hg], by rw [sizeLeb128, if_neg h0, hlen], ?_⟩
  rw [hdec]
  rw [hsz] at hlen
  cases sgn
  · have hv0 := hu rfl
    have hlt := lebN_unsigned (tobv x) hnz
    have hle : 2 ^ lebN (tobv x) false ≤ 2 ^ (7 * bs.length) :=
      Nat.pow_le_pow_right (by decide) (by omega)
    simp only [Bool.false_eq_true, if_false]
    rw [Nat.mod_eq_of_lt (by omega), ← hxt]
    have ex := Verif.Bitvect.toInt_eq_toNat_sub (tobv x)
    have hm : (tobv x).msb = false := by
      cases hb : (tobv x).msb
      · rfl
      · exact absurd ((Verif.Bitvect.toInt_neg_iff _).1 hb) (by rw [hxt]; omega)
    rw [hm] at ex; simp at ex
    rw [ex]
  · have hvs := hs rfl
    simp only [if_true]
    have hrange := lebN_signed (tobv x) hnz
    rw [hxt] at hrange
    have hN1 : 1 ≤ lebN (tobv x) true := (lebBits_eq (tobv x) true hnz).2.2
    have hmono : ∀ {a b : Nat}, a ≤ b → (2:Int) ^ a ≤ 2 ^ b := by
      intro a b hab
      have := Nat.pow_le_pow_right (n := 2) (by decide) hab
      exact_mod_cast this
    have hle := hmono (show lebN (tobv x) true - 1 ≤ 7 * bs.length - 1 by omega)
    by_cases h256 : 7 * bs.length ≤ 256
    · rw [bmod_toNat _ _ h256, hxt, bmod_pow_of_range _ _ (by omega) (by omega) (by omega)]
    · by_cases hneg : val x < 0
      · exfalso
        apply h256
        have hm := (Verif.Bitvect.toInt_neg_iff (tobv x)).2 (by rw [hxt]; exact hneg)
        have hlebN : lebN (tobv x) true = (Verif.Bitvect.setMax (-(tobv x))).toNat + 2 := by
          simp [lebN, hm]
        have hv := (tobv x).isLt
        have hneg' : (-(tobv x)).toNat = 2 ^ 256 - (tobv x).toNat := by
          rw [BitVec.toNat_neg, Nat.mod_eq_of_lt (by omega)]
        have ex := Verif.Bitvect.toInt_eq_toNat_sub (tobv x)
        rw [hm, hxt] at ex; simp at ex
        have h251 : (-(tobv x)).toNat < 2 ^ 251 := by omega
        have := (Verif.Bitvect.setMax_lt_iff (-(tobv x)) 251).2 h251
        omega
      · have ex := Verif.Bitvect.toInt_eq_toNat_sub (tobv x)
        have hm : (tobv x).msb = false := by
          cases hb : (tobv x).msb
          · rfl
          · exact absurd ((Verif.Bitvect.toInt_neg_iff _).1 hb) (by rw [hxt]; omega)
        rw [hm, hxt] at ex; simp at ex
        rw [← ex, bmod_pow_of_range _ _ (by omega) (by omega) (by omega)]

example : getLeb128 (.L (-129#64)) true = some [0xFF#8, 0x7E#8] ∧ leb true [0xFF#8, 0x7E#8] = some (-129, 2) := by
  decide +kernel

/-- C16 (partial): reading back what was written gives the value and consumes what was written.
    Missing: values that need 37 bytes (`leb_large_wrong`). -/
theorem leb_roundtrip_partial (x : Intnum) (sgn : Bool) (rest : List (BitVec 8)) (hx : Fits x)
    (hu : sgn = false → 0 ≤ val x ∧ val x < 2 ^ 252)
    (hs : sgn = true → -(2 ^ 251) < val x ∧ val x < 2 ^ 251) :
    ∃ bs r, getLeb128 x sgn = some bs ∧ createLeb128 (bs ++ rest) sgn = some (⟨r, none⟩, bs.length) ∧
      val r = val x := by
  obtain ⟨bs, hg, hlen, hdec⟩ := leb_encode_partial x sgn hx (fun h => (hu h).1) (fun h => (hs h).1)
  have h36 : 7 * bs.length ≤ 256 := by
    rw [hlen]
    by_cases h0 : x = .L 0#64
    · subst h0; simp [sizeLeb128]
    have hxt := tobv_toInt x hx
    have hnz : (tobv x).toNat ≠ 0 := by
      rw [Ne, ← Verif.Bitvect.toInt_ne_zero, hxt]
      intro hv
      have := ((small_tests x hx).1).2 hv
      cases x with
      | BV v => simp [isZero] at this
      | L l => simp [isZero] at this; exact h0 (by rw [this])
    rw [sizeLeb128, if_neg h0, sizeLeb_eq _ _ hnz]
    have ex := Verif.Bitvect.toInt_eq_toNat_sub (tobv x)
    have hr := setMax_range _ hnz
    have hr2 := setMax_range _ (neg_ne_zero _ hnz)
    have hv := (tobv x).isLt
    cases sgn
    · have hm : (tobv x).msb = false := by
        cases hb : (tobv x).msb
        · rfl
        · exact absurd ((Verif.Bitvect.toInt_neg_iff _).1 hb) (by rw [hxt]; have := hu rfl; omega)
      rw [hm, hxt] at ex; simp at ex
      have := (Verif.Bitvect.setMax_lt_iff (tobv x) 252).2 (by have := (hu rfl).2; omega)
      simp only [lebN, Bool.false_eq_true, if_false]; omega
    · have hs' := hs rfl
      cases hm : (tobv x).msb
      · rw [hm, hxt] at ex; simp at ex
        have := (Verif.Bitvect.setMax_lt_iff (tobv x) 251).2 (by omega)
        simp only [lebN, if_true, hm, Bool.false_eq_true, if_false]; omega
      · rw [hm, hxt] at ex; simp at ex
        have hneg' : (-(tobv x)).toNat = 2 ^ 256 - (tobv x).toNat := by
          rw [BitVec.toNat_neg, Nat.mod_eq_of_lt (by omega)]
        have := (Verif.Bitvect.setMax_lt_iff (-(tobv x)) 251).2 (by omega)
        simp only [lebN, if_true, hm]; omega
  obtain ⟨r, h1, h2, h3⟩ := createLeb_spec (bs ++ rest) sgn (val x) bs.length (leb_append _ _ _ _ hdec) h36
  refine ⟨bs, r, hg, h1, ?_⟩
  cases sgn
  · exact h3 rfl
  · exact h2 rfl

example : Fits (.L 300#64) ∧ val (.L 300#64) = 300 := by simp only [Fits]; decide

/-- C16: any terminated encoding of at most 36 bytes is read as the value DWARF assigns to it. -/
theorem leb_read (mem : List (BitVec 8)) (sgn : Bool) (n : Int) (k : Nat)
    (h : leb sgn mem = some (n, k)) (hk : k ≤ 36) :
    ∃ r, createLeb128 mem sgn = some (⟨r, none⟩, k) ∧ val r = n := by
  obtain ⟨r, h1, h2, h3⟩ := createLeb_spec mem sgn n k h (by omega)
  refine ⟨r, h1, ?_⟩
  cases sgn
  · exact h3 rfl
  · exact h2 rfl

example : leb true [0x80#8, 0x7F#8, 0x55#8] = some (-128, 2) := by decide

/-- C16 fails for -2^251: what is written decodes to a positive number. -/
theorem leb_negative_wrong :
    ∃ bs n, getLeb128 (.BV (BitVec.ofInt 256 (-(2 ^ 251)))) true = some bs ∧
      leb true bs = some (n, 37) ∧ n = 2 ^ 256 - 2 ^ 251 := by
  refine ⟨_, _, rfl, rfl, ?_⟩
  decide +kernel

/-- C16 fails for 2^252 (unsigned): the encoding is right, but reading it back reports an overflow. -/
theorem leb_large_wrong :
    ∃ bs r, getLeb128 (.BV (BitVec.ofInt 256 (2 ^ 252))) false = some bs ∧
      createLeb128 bs false = some (⟨r, some .overflow⟩, 37) := by
  refine ⟨_, _, rfl, rfl⟩

/-- C16 fails for a zero stored as a bit vector: the writer runs away. -/
theorem leb_zero_wrong :
    val (createUint (BitVec.ofNat 64 (2 ^ 63))) = 0 ∧
    getLeb128 (createUint (BitVec.ofNat 64 (2 ^ 63))) true = none := by
  decide +kernel

/-- C16: the `long` helpers agree with the general encoder, for values within 32 bits. -/
theorem sleb_uleb_long (v : BitVec 64) (hv : -(2 ^ 32) < v.toInt ∧ v.toInt < 2 ^ 32) :
    (∃ bs, getSleb v = some bs ∧ bs.length = (sizeSleb v).toNat ∧ leb true bs = some (v.toInt, bs.length)) ∧
    (0 ≤ v.toInt →
      ∃ bs, getUleb v = some bs ∧ bs.length = (sizeUleb v).toNat ∧ leb false bs = some (v.toInt, bs.length)) := by
  constructor
  · have := leb_encode_partial (.L v) true hv (by simp) (by simp only [val]; intro _; omega)
    simpa [getLeb128, sizeLeb128, getSleb, sizeSleb, tobv, val] using this
  · intro h0
    have := leb_encode_partial (.L v) false hv (by simp only [val]; intro _; omega) (by simp)
    have e : longBv v = Verif.Bitvect.chunkStore 0#256 32 0 v := by
      rw [longBv, slt_zero, if_neg (by simp; omega)]
    simpa [getLeb128, sizeLeb128, getUleb, sizeUleb, tobv, val, e] using this

example : getUleb 624485#64 = some [0xE5#8, 0x8E#8, 0x26#8] := by decide +kernel

/-! ## C18: character constants -/

/-- C18: a NASM character constant denotes the little-endian value of its bytes in 256 bits, and an
    overflow error is set exactly when it is longer than 32 bytes. -/
theorem charconst_nasm (str : List (BitVec 8)) :
    val (charconstNasm str).num = wrap (leVal str) ∧
    ((charconstNasm str).err = if str.length > 32 then some .overflow else none) := by
  have e : ∀ n : Nat, (n * 8 > native) = (n > 32) := by intro n; unfold native; simp only [gt_iff_lt, eq_iff_iff]; omega
  have z8 : ∀ c : BitVec 8, (c.zeroExtend 64).toNat = c.toNat := by
    intro c; have := c.isLt; simp [BitVec.toNat_setWidth]; omega
  match str with
  | [] => exact ⟨by decide +kernel, by simp [charconstNasm, e]⟩
  | [a] =>
    refine ⟨?_, by simp [charconstNasm, native]⟩
    have := a.isLt
    rw [wrap_of_range _ (by simp only [leVal]; omega) (by simp only [leVal]; omega)]
    simp only [charconstNasm, val, leVal]
    rw [BitVec.toInt_eq_toNat_of_lt (by rw [z8]; omega), z8]; simp
  | [a, b] =>
    refine ⟨?_, by simp [charconstNasm, native]⟩
    have := a.isLt; have := b.isLt
    rw [wrap_of_range _ (by simp only [leVal]; omega) (by simp only [leVal]; omega)]
    simp only [charconstNasm, val, leVal]
    rw [toInt_or2]; push_cast; ring
  | [a, b, c] =>
    refine ⟨?_, by simp [charconstNasm, native]⟩
    have := a.isLt; have := b.isLt; have := c.isLt
    rw [wrap_of_range _ (by simp only [leVal]; omega) (by simp only [leVal]; omega)]
    simp only [charconstNasm, val, leVal]
    rw [toInt_or3]; push_cast; ring
  | a :: b :: c :: d :: r =>
    refine ⟨?_, by simp only [charconstNasm, e]⟩
    simp only [charconstNasm, val]
    rw [toInt_wrap, nasmLoop_toNat, List.reverse_reverse, wrap_mod]
    simp

example : val (charconstNasm [0x61#8, 0x62#8]).num = 0x6261 := by decide +kernel

/-- C18: a TASM character constant denotes the big-endian value of its bytes. -/
theorem charconst_tasm (str : List (BitVec 8)) :
    val (charconstTasm str).num = wrap (beVal str) ∧
    ((charconstTasm str).err = if str.length > 32 then some .overflow else none) := by
  have e : ∀ n : Nat, (n * 8 > native) = (n > 32) := by intro n; unfold native; simp only [gt_iff_lt, eq_iff_iff]; omega
  have z8 : ∀ c : BitVec 8, (c.zeroExtend 64).toNat = c.toNat := by
    intro c; have := c.isLt; simp [BitVec.toNat_setWidth]; omega
  match str with
  | [] => exact ⟨by decide +kernel, by simp [charconstTasm, e]⟩
  | [a] =>
    refine ⟨?_, by simp [charconstTasm, native]⟩
    have := a.isLt
    rw [wrap_of_range _ (by simp only [beVal, List.reverse_cons, List.reverse_nil, List.nil_append, List.cons_append, leVal]; omega)
      (by simp only [beVal, List.reverse_cons, List.reverse_nil, List.nil_append, List.cons_append, leVal]; omega)]
    simp only [charconstTasm, val, beVal, List.reverse_cons, List.reverse_nil, List.nil_append, leVal]
    rw [BitVec.toInt_eq_toNat_of_lt (by rw [z8]; omega), z8]; simp
  | [a, b] =>
    refine ⟨?_, by simp [charconstTasm, native]⟩
    have := a.isLt; have := b.isLt
    rw [wrap_of_range _ (by simp only [beVal, List.reverse_cons, List.reverse_nil, List.nil_append, List.cons_append, leVal]; omega)
      (by simp only [beVal, List.reverse_cons, List.reverse_nil, List.nil_append, List.cons_append, leVal]; omega)]
    simp only [charconstTasm, val, beVal, List.reverse_cons, List.reverse_nil, List.nil_append, List.cons_append, leVal]
    rw [toInt_or2]; push_cast; ring
  | [a, b, c] =>
    refine ⟨?_, by simp [charconstTasm, native]⟩
    have := a.isLt; have := b.isLt; have := c.isLt
    rw [wrap_of_range _ (by simp only [beVal, List.reverse_cons, List.reverse_nil, List.nil_append, List.cons_append, leVal]; omega)
      (by simp only [beVal, List.reverse_cons, List.reverse_nil, List.nil_append, List.cons_append, leVal]; omega)]
    simp only [charconstTasm, val, beVal, List.reverse_cons, List.reverse_nil, List.nil_append, List.cons_append, leVal]
    rw [toInt_or3]; push_cast; ring
  | a :: b :: c :: d :: r =>
    refine ⟨?_, by simp only [charconstTasm, e]⟩
    simp only [charconstTasm, val]
    rw [toInt_wrap, tasmLoop_toNat _ _ 0 _ 0 (by simp) (by simp), wrap_mod]
    simp [beVal]

example : val (charconstTasm [0x61#8, 0x62#8, 0x63#8, 0x64#8, 0x65#8]).num = 0x6162636465 := by decide +kernel

/-! ## C44: reading a sized field -/

/-- C44: `create_sized` reads a little-endian field of 1 to 32 bytes, sign-extending it on request. -/
theorem create_sized_value (buf : List (BitVec 8)) (sgn : Bool) (h1 : 1 ≤ buf.length) (h2 : buf.length ≤ 32) :
    ∃ r, createSized buf sgn false = some ⟨r, none⟩ ∧ Canon r ∧
      val r = if sgn then Int.bmod (leVal buf) (2 ^ (8 * buf.length)) else wrap (leVal buf) := by
  have hlt := leVal_lt buf
  have hle : 256 ^ buf.length ≤ 2 ^ 256 := by
    rw [show 256 = 2 ^ 8 by rfl, ← Nat.pow_mul]; exact Nat.pow_le_pow_right (by decide) (by omega)
  have hr : (sizedRead buf 0 0#256).toNat = leVal buf := by
    rw [sizedRead_toNat buf 0 0 _ (by simp) (by simp)]
    rw [Nat.mod_eq_of_lt] <;> rw [Nat.pow_zero, Nat.zero_add, Nat.one_mul]
    exact Nat.lt_of_lt_of_le hlt hle
  have hw : (sizedRead buf 0 0#256).toInt = wrap (leVal buf) := by rw [toInt_wrap, hr]
  unfold createSized
  rw [if_neg (by decide), if_neg (show ¬ buf.length * 8 > native by unfold native; omega)]
  by_cases hc : buf.length * 8 < native ∧ sgn = true
  · rw [if_pos hc]
    obtain ⟨hl, rfl⟩ := hc
    have hl' : buf.length < 32 := by unfold native at hl; omega
    obtain ⟨init, last, rfl⟩ : ∃ init last, buf = init ++ [last] := by
      rcases List.eq_nil_or_concat buf with h | ⟨i, l, h⟩
      · subst h; simp at h1
      · exact ⟨i, l, by simpa using h⟩
    simp only [List.getLast?_append, List.getLast?_singleton, Option.some_or]
    have hlast := last.isLt
    have hv := leVal_append init [last]
    simp only [leVal, Nat.mul_zero, Nat.add_zero] at hv
    have hinit := leVal_lt init
    have hbit : (last &&& 0x80#8 = 0x80#8) ↔ 128 ≤ last.toNat := by
      have : ∀ b : BitVec 8, (b &&& 0x80#8 = 0x80#8) ↔ 128 ≤ b.toNat := by decide +kernel
      exact this last
    have e256 : 256 ^ (init ++ [last]).length = 2 ^ (8 * (init ++ [last]).length) := by
      rw [show 256 = 2 ^ 8 by rfl, ← Nat.pow_mul]
    have ehalf : 256 ^ (init ++ [last]).length = 256 ^ init.length * 256 := by
      rw [List.length_append, List.length_singleton, Nat.pow_succ]
    by_cases hb : last &&& 0x80#8 = 0x80#8
    · rw [if_pos hb]
      have hb' := hbit.1 hb
      have hs := frombv_spec (Verif.Bitvect.intervalFill (sizedRead (init ++ [last]) 0 0#256)
        ((init ++ [last]).length * 8) (native - 1))
      refine ⟨_, rfl, hs.2, ?_⟩
      rw [hs.1]
      rw [show native - 1 = 255 by rfl, intervalFill_toInt _ _ (by omega)
        (by rw [hr, Nat.mul_comm _ 8, ← e256]; exact hlt), hr]
      simp only [if_true]
      rw [Nat.mul_comm _ 8]
      generalize (init ++ [last]).length = L at *
      have hge : 256 ^ init.length * 128 ≤ leVal (init ++ [last]) := by
        rw [hv]; exact Nat.le_trans (Nat.mul_le_mul_left _ hb') (Nat.le_add_left _ _)
      rw [bmod_shift (leVal (init ++ [last])) (2 ^ (8 * L)) (by omega) (by omega)]
      push_cast; rfl
    · rw [if_neg hb]
      have hb' : last.toNat < 128 := by
        by_contra h; exact hb (hbit.2 (by omega))
      have hs := frombv_spec (sizedRead (init ++ [last]) 0 0#256)
      refine ⟨_, rfl, hs.2, ?_⟩
      rw [hs.1]
      simp only [if_true]
      have hup : leVal (init ++ [last]) < 256 ^ init.length * 128 := by
        rw [hv]
        have := Nat.mul_le_mul_left (256 ^ init.length) (show last.toNat ≤ 127 by omega)
        omega
      have hp : 256 ^ init.length ≤ 2 ^ 240 := by
        rw [show 256 = 2 ^ 8 by rfl, ← Nat.pow_mul]
        exact Nat.pow_le_pow_right (by decide) (by simp at hl'; omega)
      rw [hw, wrap_of_range _ (by omega) (by omega)]
      rw [Int.bmod_eq_of_le]
      · omega
      · rw [← e256, ehalf]; omega
  · rw [if_neg hc]
    have hs := frombv_spec (sizedRead buf 0 0#256)
    refine ⟨_, rfl, hs.2, ?_⟩
    rw [hs.1, hw]
    cases sgn
    · simp
    · simp only [and_true] at hc
      have : buf.length = 32 := by unfold native at hc; omega
      rw [this]; simp only [if_true]; rfl

example : createSized [0xFE#8, 0xFF#8] true false = some ⟨.L (-2#64), none⟩ := by decide +kernel

/-- C44: longer fields set an overflow error and wrap. -/
theorem create_sized_long (buf : List (BitVec 8)) (sgn : Bool) (h : 32 < buf.length) :
    ∃ r, createSized buf sgn false = some ⟨r, some .overflow⟩ ∧ val r = wrap (leVal buf) := by
  unfold createSized
  rw [if_neg (by decide), if_pos (show buf.length * 8 > native by unfold native; omega),
    if_neg (show ¬ (buf.length * 8 < native ∧ sgn = true) by unfold native; omega)]
  have hs := frombv_spec (sizedRead buf 0 0#256)
  refine ⟨_, rfl, ?_⟩
  rw [hs.1, toInt_wrap, sizedRead_toNat buf 0 0 _ (by simp) (by simp), wrap_mod]
  simp

/-- C44 fails for an empty signed field (which reads before the buffer) and for big endian. -/
theorem create_sized_wrong :
    createSized [] true false = none ∧ ∀ buf sgn, createSized buf sgn true = none := by
  constructor
  · decide +kernel
  · intros; rfl

/-- C14/C44: what `get_sized` emits into whole bytes, `create_sized` reads back, for values that fit. -/
theorem sized_roundtrip (x : Intnum) (n : Nat) (sgn : Bool) (warn : Int) (hx : Fits x) (h1 : 1 ≤ n)
    (h2 : n < 32)
    (hr : if sgn then -(2 ^ (8 * n - 1)) ≤ val x ∧ val x < 2 ^ (8 * n - 1) else 0 ≤ val x ∧ val x < 2 ^ (8 * n)) :
    ∃ out r, getSized x (List.replicate n 0#8) (8 * n) 0 false warn = some out ∧
      createSized out.buf sgn false = some ⟨r, none⟩ ∧ val r = val x := by
  obtain ⟨out, ho, hlen, hbits⟩ := get_sized_field x (List.replicate n 0#8) (8 * n) 0 warn hx (by simp; omega)
  rw [List.length_replicate] at hlen hbits
  obtain ⟨r, hc, -, hv⟩ := create_sized_value out.buf sgn (by omega) (by omega)
  refine ⟨out, r, ho, hc, ?_⟩
  have hle : (leVal out.buf : Int) = val x % 2 ^ (8 * n) := by
    rw [← hlen]
    apply leVal_of_bits
    intro i hi
    rw [hbits i (by omega)]
    simp; omega
  rw [hv, hlen, hle]
  have hp : (0:Int) < 2 ^ (8 * n) := Int.pow_pos (by decide)
  have hpe : (2:Int) ^ (8 * n) = 2 * 2 ^ (8 * n - 1) := by
    rw [← Int.pow_succ']; congr 1; omega
  have hcast : ((2 ^ (8 * n) : Nat) : Int) = 2 ^ (8 * n) := by push_cast; rfl
  cases sgn
  · simp only [Bool.false_eq_true, if_false] at hr ⊢
    rw [Int.emod_eq_of_lt hr.1 hr.2]
    have hm : (2:Int) ^ (8 * n) ≤ 2 ^ 248 := by
      exact_mod_cast Nat.pow_le_pow_right (n := 2) (by decide) (show 8 * n ≤ 248 by omega)
    exact wrap_of_range _ (by omega) (by omega)
  · simp only [if_true] at hr ⊢
    rw [← hcast, Int.emod_bmod, bmod_pow_of_range _ _ (by omega) (by omega) (by omega)]

example : Fits (.L (-2#64)) ∧ (-(2 ^ (8 * 2 - 1)) ≤ val (.L (-2#64)) ∧ val (.L (-2#64)) < 2 ^ (8 * 2 - 1)) := by
  simp only [Fits]; decide

end Verif.Intnum
