import Verif.Words.Copy
import Verif.Words.MulDiv
import Verif.Bitvect.Refuse
/-!
The bit vector library.  The statements are about numbers: `val ws` is the number whose digits to the base 2^32 are
the words, `signed n ws` the same number in two's complement, and `Vec n ws` says that `ws` is a vector of `n` bits,
for any `n`, also one that does not fill its last word.
-/
namespace Verif.Words
variable {n m : Nat}

theorem Vec.rep {ws : List W} (h : Vec n ws) : Rep n ws (BitVec.ofNat n (val ws)) :=
  ⟨by rw [h.1, size_eq], by rw [BitVec.toNat_ofNat, Nat.mod_eq_of_lt h.2]⟩

theorem Rep.vec {ws : List W} {x : BitVec n} (h : Rep n ws x) : Vec n ws := ⟨by rw [h.len, size_eq], h.lt⟩

theorem Rep.signed_eq {ws : List W} {x : BitVec n} (h : Rep n ws x) : signed n ws = x.toInt := by
  unfold signed
  rw [BitVec.toInt_eq_toNat_cond, h.val_eq]
  have := x.isLt
  by_cases c : 2 ^ n ≤ 2 * x.toNat
  · rw [if_pos c, if_neg (by omega)]; simp
  · rw [if_neg c, if_pos (by omega)]

theorem Rep.of_vec {ws : List W} (h : Vec n ws) : ∃ x : BitVec n, Rep n ws x ∧ val ws = x.toNat ∧ signed n ws = x.toInt :=
  ⟨_, h.rep, h.rep.val_eq, h.rep.signed_eq⟩

theorem pow_half (hn : 0 < n) : 2 ^ n = 2 * 2 ^ (n - 1) := by
  conv => lhs; rw [show n = (n - 1) + 1 by omega, Nat.pow_succ, Nat.mul_comm]

theorem fits_iff (hn : 0 < n) (z : Int) : Fits n z ↔ -(2 ^ (n - 1) : Nat) ≤ z ∧ z < (2 ^ (n - 1) : Nat) := by
  unfold Fits
  have hcast : (2 : Int) ^ n = ((2 ^ n : Nat) : Int) := by simp
  rw [hcast, pow_half hn]
  omega

theorem msb_half (hn : 0 < n) (x : BitVec n) : x.msb = decide (2 ^ (n - 1) ≤ x.toNat) := by
  rw [Bitvect.msb_iff, pow_half hn, decide_eq_decide]; omega

theorem toInt_half (hn : 0 < n) (x : BitVec n) :
    x.toInt = if 2 ^ (n - 1) ≤ x.toNat then (x.toNat : Int) - 2 * (2 ^ (n - 1) : Nat) else x.toNat := by
  rw [BitVec.toInt_eq_toNat_cond, pow_half hn]
  by_cases c : 2 ^ (n - 1) ≤ x.toNat
  · rw [if_neg (by omega), if_pos c]; omega
  · rw [if_pos (by omega), if_neg c]

theorem core_add (p X Y S C : Nat) (hX : X < 2 * p) (hY : Y < 2 * p) (hS : S < 2 * p) (hC : C ≤ 1)
    (hd : S = X + Y + C ∨ S + 2 * p = X + Y + C) :
    ((decide (p ≤ X) == decide (p ≤ Y)) && (decide (p ≤ S) != decide (p ≤ X))) = true ↔
      ¬ (-(p : Int) ≤ (if p ≤ X then (X : Int) - 2 * p else X) + (if p ≤ Y then (Y : Int) - 2 * p else Y) + C ∧
        (if p ≤ X then (X : Int) - 2 * p else X) + (if p ≤ Y then (Y : Int) - 2 * p else Y) + C < p) := by
  by_cases a : p ≤ X <;> by_cases b : p ≤ Y <;> by_cases d : p ≤ S <;> simp [a, b, d] <;> omega

theorem core_sub (p X Y S C : Nat) (hX : X < 2 * p) (hY : Y < 2 * p) (hS : S < 2 * p) (hC : C ≤ 1)
    (hd : S + Y + C = X ∨ S + Y + C = X + 2 * p) :
    ((decide (p ≤ X) != decide (p ≤ Y)) && (decide (p ≤ S) != decide (p ≤ X))) = true ↔
      ¬ (-(p : Int) ≤ (if p ≤ X then (X : Int) - 2 * p else X) - (if p ≤ Y then (Y : Int) - 2 * p else Y) - C ∧
        (if p ≤ X then (X : Int) - 2 * p else X) - (if p ≤ Y then (Y : Int) - 2 * p else Y) - C < p) := by
  by_cases a : p ≤ X <;> by_cases b : p ≤ Y <;> by_cases d : p ≤ S <;> simp [a, b, d] <;> omega

theorem sub_cases (x y : BitVec n) (c : Bool) (hn : 0 < n) :
    (x - y - BitVec.ofNat n c.toNat).toNat + y.toNat + c.toNat = x.toNat ∨
      (x - y - BitVec.ofNat n c.toNat).toNat + y.toNat + c.toNat = x.toNat + 2 ^ n := by
  have hx := x.isLt
  have hy := y.isLt
  have hcl := Bool.toNat_le c
  have h2 : 2 ^ 1 ≤ 2 ^ n := Nat.pow_le_pow_right (by decide) hn
  rw [BitVec.toNat_sub, BitVec.toNat_sub, BitVec.toNat_ofNat, Nat.mod_eq_of_lt (a := c.toNat) (by omega)]
  by_cases a : y.toNat ≤ x.toNat
  · have e1 : (2 ^ n - y.toNat + x.toNat) % 2 ^ n = x.toNat - y.toNat := by
      rw [show 2 ^ n - y.toNat + x.toNat = (x.toNat - y.toNat) + 2 ^ n by omega, Nat.add_mod_right, Nat.mod_eq_of_lt (by omega)]
    rw [e1]
    by_cases b : c.toNat ≤ x.toNat - y.toNat
    · rw [show 2 ^ n - c.toNat + (x.toNat - y.toNat) = (x.toNat - y.toNat - c.toNat) + 2 ^ n by omega, Nat.add_mod_right,
        Nat.mod_eq_of_lt (by omega)]
      omega
    · rw [Nat.mod_eq_of_lt (by omega)]; omega
  · have e1 : (2 ^ n - y.toNat + x.toNat) % 2 ^ n = 2 ^ n - y.toNat + x.toNat := Nat.mod_eq_of_lt (by omega)
    rw [e1, show 2 ^ n - c.toNat + (2 ^ n - y.toNat + x.toNat) = (2 ^ n - y.toNat + x.toNat - c.toNat) + 2 ^ n by omega,
      Nat.add_mod_right, Nat.mod_eq_of_lt (by omega)]
    omega

/-! ### Arithmetic -/

/-- Addition with a carry: the sum modulo 2^n; the carry that comes out; the return value tells whether the signed sum
    does not fit. -/
theorem add_exact (hn : 0 < n) {ys zs : List W} (hy : Vec n ys) (hz : Vec n zs) (c : Bool) :
    Vec n (compute n ys zs false c).words ∧
    val (compute n ys zs false c).words = (val ys + val zs + c.toNat) % 2 ^ n ∧
    ((compute n ys zs false c).carry = true ↔ 2 ^ n ≤ val ys + val zs + c.toNat) ∧
    ((compute n ys zs false c).overflow = true ↔ ¬ Fits n (signed n ys + signed n zs + c.toNat)) := by
  obtain ⟨y, ry, vy, sy⟩ := Rep.of_vec hy
  obtain ⟨z, rz, vz, sz⟩ := Rep.of_vec hz
  obtain ⟨h1, h2, h3⟩ := add_rep hn ry rz c
  have hs : (y + z + BitVec.ofNat n c.toNat).toNat = (y.toNat + z.toNat + c.toNat) % 2 ^ n := by
    rw [BitVec.toNat_add, BitVec.toNat_add, BitVec.toNat_ofNat, ← Nat.add_mod]
  have hyl := y.isLt
  have hzl := z.isLt
  have hsl := (y + z + BitVec.ofNat n c.toNat).isLt
  have hcl := Bool.toNat_le c
  refine ⟨h1.vec, ?_, ?_, ?_⟩
  · rw [h1.val_eq, vy, vz, hs]
  · rw [h2, vy, vz, decide_eq_true_eq]
  · rw [h3, sy, sz, fits_iff hn, msb_half hn, msb_half hn, msb_half hn, toInt_half hn, toInt_half hn]
    rw [pow_half hn] at hyl hzl hsl hs
    refine core_add _ _ _ _ _ hyl hzl hsl hcl ?_
    by_cases a : y.toNat + z.toNat + c.toNat < 2 * 2 ^ (n - 1)
    · rw [Nat.mod_eq_of_lt a] at hs; exact Or.inl hs
    · rw [Nat.mod_eq_sub_mod (by omega), Nat.mod_eq_of_lt (by omega)] at hs; omega

/-- Subtraction with a borrow: the difference modulo 2^n; the borrow that comes out; the return value tells whether the
    signed difference does not fit. -/
theorem sub_exact (hn : 0 < n) {ys zs : List W} (hy : Vec n ys) (hz : Vec n zs) (c : Bool) :
    Vec n (compute n ys zs true c).words ∧
    (val (compute n ys zs true c).words : Int) = ((val ys : Int) - val zs - c.toNat) % 2 ^ n ∧
    ((compute n ys zs true c).carry = true ↔ val ys < val zs + c.toNat) ∧
    ((compute n ys zs true c).overflow = true ↔ ¬ Fits n (signed n ys - signed n zs - c.toNat)) := by
  obtain ⟨y, ry, vy, sy⟩ := Rep.of_vec hy
  obtain ⟨z, rz, vz, sz⟩ := Rep.of_vec hz
  obtain ⟨h1, h2, h3⟩ := sub_rep hn ry rz c
  have hyl := y.isLt
  have hzl := z.isLt
  have hsl := (y - z - BitVec.ofNat n c.toNat).isLt
  have hcl := Bool.toNat_le c
  have hs := sub_cases y z c hn
  refine ⟨h1.vec, ?_, ?_, ?_⟩
  · rw [h1.val_eq, vy, vz]
    have hcast : (2 : Int) ^ n = ((2 ^ n : Nat) : Int) := by simp
    rw [hcast]
    rcases hs with e | e
    · rw [← e, show ((((y - z - BitVec.ofNat n c.toNat).toNat + z.toNat + c.toNat : Nat) : Int) - z.toNat - c.toNat) =
        ((y - z - BitVec.ofNat n c.toNat).toNat : Int) by omega, Int.emod_eq_of_lt (by omega) (by omega)]
    · rw [show ((y.toNat : Int) - z.toNat - c.toNat) = ((y - z - BitVec.ofNat n c.toNat).toNat : Int) + (2 ^ n : Nat) * (-1) by omega,
        Int.add_mul_emod_self_left, Int.emod_eq_of_lt (by omega) (by omega)]
  · rw [h2, vy, vz, decide_eq_true_eq]
  · rw [h3, sy, sz, fits_iff hn, msb_half hn, msb_half hn, msb_half hn, toInt_half hn, toInt_half hn]
    rw [pow_half hn] at hyl hzl hsl hs
    exact core_sub _ _ _ _ _ hyl hzl hsl hcl hs

/-- The negative of a number, modulo 2^n. -/
theorem negate_exact (hn : 0 < n) {ys : List W} (hy : Vec n ys) :
    Vec n (negate n ys) ∧ (val (negate n ys) : Int) = (-(val ys : Int)) % 2 ^ n := by
  obtain ⟨y, ry, vy, -⟩ := Rep.of_vec hy
  have h := negate_rep hn ry
  refine ⟨h.vec, ?_⟩
  rw [h.val_eq, vy, BitVec.toNat_neg]
  have hl := y.isLt
  have hcast : (2 : Int) ^ n = ((2 ^ n : Nat) : Int) := by simp
  rw [hcast, Int.natCast_emod, Int.natCast_sub (by omega)]
  rw [show (((2 ^ n : Nat) : Int) - y.toNat) = -(y.toNat : Int) + (2 ^ n : Nat) * 1 by omega, Int.add_mul_emod_self_left]

/-- One more, modulo 2^n; the return value tells whether it wrapped round. -/
theorem increment_exact (hn : 0 < n) {ws : List W} (h : Vec n ws) :
    Vec n (increment n ws).1 ∧ val (increment n ws).1 = (val ws + 1) % 2 ^ n ∧
      ((increment n ws).2 = true ↔ val ws + 1 = 2 ^ n) := by
  obtain ⟨x, rx, vx, -⟩ := Rep.of_vec h
  obtain ⟨h1, h2⟩ := increment_rep hn rx
  refine ⟨h1.vec, ?_, ?_⟩
  · rw [h1.val_eq, vx, BitVec.toNat_add, BitVec.toNat_ofNat, Nat.add_mod_mod]
  · rw [h2, vx, decide_eq_true_eq]

/-- Comparison of signed numbers, of numbers without sign, and with 0. -/
theorem compare_exact (hn : 0 < n) {xs ys : List W} (hx : Vec n xs) (hy : Vec n ys) :
    compare n xs ys = (if signed n xs < signed n ys then -1 else if signed n xs = signed n ys then 0 else 1) ∧
    lexicompare xs ys = (if val xs < val ys then -1 else if val xs = val ys then 0 else 1) ∧
    (equal xs ys = true ↔ val xs = val ys) ∧
    sign n xs = (if signed n xs < 0 then -1 else if signed n xs = 0 then 0 else 1) ∧
    (isEmpty xs = true ↔ val xs = 0) := by
  obtain ⟨x, rx, vx, sx⟩ := Rep.of_vec hx
  obtain ⟨y, ry, vy, sy⟩ := Rep.of_vec hy
  refine ⟨?_, ?_, ?_, ?_, ?_⟩
  · rw [compare_rep hn rx ry, Bitvect.cmp_spec, sx, sy]
  · rw [lexicompare_rep rx ry, vx, vy]
    by_cases a : x.toNat < y.toNat
    · rw [if_pos a, if_neg (by omega), if_pos a]
    · by_cases b : x.toNat = y.toNat
      · rw [if_pos b, if_neg a, if_pos b]
      · rw [if_neg b, if_neg a, if_neg a, if_neg b]
  · rw [equal_val xs ys (by rw [hx.1, hy.1]), decide_eq_true_eq]
  · rw [sign_rep hn rx, Bitvect.sign_spec, sx]
  · rw [isEmpty_rep rx, decide_eq_true_eq, vx]

theorem toInt_ofInt_fits (hn : 0 < n) (z : Int) (h : Fits n z) : (BitVec.ofInt n z).toInt = z := by
  rw [fits_iff hn] at h
  rw [BitVec.toInt_ofInt]
  apply Int.bmod_eq_of_le
  · rw [pow_half hn]; omega
  · rw [pow_half hn]; omega

/-- Multiplication: the product is exact when twice its magnitude is below 2^n, and refused when it is above; what
    happens when it is 2^n is shown by `multiply_edge`. -/
theorem multiply_exact_partial (hn : 0 < n) {ys zs : List W} (hy : Vec n ys) (hz : Vec n zs) :
    (2 * (signed n ys * signed n zs).natAbs < 2 ^ n → Vec n (multiply n ys zs).1 ∧
      signed n (multiply n ys zs).1 = signed n ys * signed n zs ∧ (multiply n ys zs).2 = true) ∧
    (2 ^ n < 2 * (signed n ys * signed n zs).natAbs → (multiply n ys zs).2 = false) := by
  obtain ⟨y, ry, vy, sy⟩ := Rep.of_vec hy
  obtain ⟨z, rz, vz, sz⟩ := Rep.of_vec hz
  obtain ⟨h1, h2⟩ := multiply_rep hn ry rz
  rw [sy, sz]
  constructor
  · intro h
    obtain ⟨m1, m2⟩ := Bitvect.multiply_spec y z h
    refine ⟨h1.vec, ?_, h2.trans m2⟩
    rw [h1.signed_eq, m1, toInt_ofInt_fits hn]
    rw [fits_iff hn]
    rw [pow_half hn] at h
    omega
  · intro h
    exact h2.trans (Bitvect.multiply_refuse y z h)

/-- Division: refused when the divisor is 0; otherwise the quotient is cut off towards 0 (except that -2^(n-1) / -1,
    which does not fit, gives -2^(n-1)), and the remainder has the sign of the dividend. -/
theorem divide_exact (hn : 0 < n) {xs ys : List W} (hx : Vec n xs) (hy : Vec n ys) :
    (val ys = 0 → divide n xs ys = none) ∧
    (val ys ≠ 0 → ∃ q r, divide n xs ys = some (q, r) ∧ Vec n q ∧ Vec n r ∧
      signed n q = (if Fits n ((signed n xs).tdiv (signed n ys)) then (signed n xs).tdiv (signed n ys) else -(2 ^ (n - 1))) ∧
      signed n r = (signed n xs).tmod (signed n ys)) := by
  obtain ⟨x, rx, vx, sx⟩ := Rep.of_vec hx
  obtain ⟨y, ry, vy, sy⟩ := Rep.of_vec hy
  have h := divide_rep hn rx ry
  constructor
  · intro h0
    rw [vy] at h0
    unfold divide
    rw [isEmpty_rep ry]; simp [h0]
  · intro h0
    rw [vy] at h0
    rw [Bitvect.divide_spec x y h0] at h
    rcases hd : divide n xs ys with _ | ⟨q, r⟩
    · rw [hd] at h; exact absurd h (by simp [RepPair])
    · rw [hd] at h
      obtain ⟨h1, h2⟩ := h
      have hy0 : y.toInt ≠ 0 := by rw [Ne, Bitvect.toInt_ne_zero]; exact h0
      have bx := Bitvect.natAbs_bound x
      have by_ := Bitvect.natAbs_bound y
      have b1 : (x.toInt.tdiv y.toInt).natAbs ≤ x.toInt.natAbs := by
        rw [Int.natAbs_tdiv]; exact Nat.div_le_self _ _
      have b2 : (x.toInt.tmod y.toInt).natAbs < y.toInt.natAbs := by
        rw [Int.natAbs_tmod]; exact Nat.mod_lt _ (by omega)
      rw [pow_half hn] at bx by_
      refine ⟨q, r, rfl, h1.vec, h2.vec, ?_, ?_⟩
      · rw [h1.signed_eq, sx, sy]
        by_cases f : Fits n (x.toInt.tdiv y.toInt)
        · rw [if_pos f, toInt_ofInt_fits hn _ f]
        · rw [if_neg f]
          rw [fits_iff hn] at f
          have e : x.toInt.tdiv y.toInt = ((2 ^ (n - 1) : Nat) : Int) := by omega
          simp only [e]
          rw [BitVec.toInt_ofInt, pow_half hn]
          have hp : 0 < 2 ^ (n - 1) := Nat.two_pow_pos _
          generalize hpp : 2 ^ (n - 1) = p at *
          have hcast : (2 : Int) ^ (n - 1) = (p : Int) := by rw [← hpp]; simp
          rw [hcast, Int.bmod_def]
          rw [Int.emod_eq_of_lt (by omega) (by omega), if_neg (by omega)]
          omega
      · rw [h2.signed_eq, sx, sy, toInt_ofInt_fits hn]
        rw [fits_iff hn]; omega

/-- At the edge: -2^(n-1) times -1 does not fit but is accepted, with the value -2^(n-1); -2^(n-2) times 2 fits but is
    refused; -2^(n-1) times 1 is accepted and right. -/
theorem multiply_edge :
    (multiply 80 [0, 0, 0x8000] [0xffffffff, 0xffffffff, 0xffff] = ([0, 0, 0x8000], true) ∧
      signed 80 [0, 0, 0x8000] = -(2 ^ 79) ∧ signed 80 [0xffffffff, 0xffffffff, 0xffff] = -1) ∧
    ((multiply 80 [0, 0, 0xc000] [2, 0, 0]).2 = false ∧ signed 80 [0, 0, 0xc000] * signed 80 [2, 0, 0] = -(2 ^ 79)) ∧
    (multiply 80 [0, 0, 0x8000] [1, 0, 0] = ([0, 0, 0x8000], true)) := by
  refine ⟨⟨?_, ?_, ?_⟩, ⟨?_, ?_⟩, ?_⟩ <;> with_unfolding_all decide +kernel

/-! ### Bits, fields and shifts -/

theorem Rep.testBit {ws : List W} {x : BitVec n} (h : Rep n ws x) (i : Nat) : (val ws).testBit i = x.getLsbD i := by
  rw [h.val_eq]; rfl

/-- One bit is read, set and cleared; a bit outside the vector is read as 0 and not written. -/
theorem bit_exact {ws : List W} (h : Vec n ws) (k : Nat) :
    bitTest n ws k = (val ws).testBit k ∧
    (Vec n (bitOn n ws k) ∧ ∀ i, (val (bitOn n ws k)).testBit i = if i = k ∧ k < n then true else (val ws).testBit i) ∧
    (Vec n (bitOff n ws k) ∧ ∀ i, (val (bitOff n ws k)).testBit i = if i = k ∧ k < n then false else (val ws).testBit i) := by
  obtain ⟨x, rx, -, -⟩ := Rep.of_vec h
  have h1 := bitOn_rep rx k
  have h2 := bitOff_rep rx k
  refine ⟨?_, ⟨h1.vec, fun i => ?_⟩, ⟨h2.vec, fun i => ?_⟩⟩
  · rw [bitTest_rep rx, rx.testBit]
  · rw [h1.testBit, rx.testBit, BitVec.getLsbD_or, BitVec.getLsbD_twoPow]
    by_cases a : i = k ∧ k < n
    · obtain ⟨rfl, a⟩ := a; simp [a]
    · rw [if_neg a]
      by_cases b : k = i
      · subst b; have : ¬ k < n := by omega
        simp [this]
      · simp [b]
  · rw [h2.testBit, rx.testBit, BitVec.getLsbD_and, BitVec.getLsbD_not, BitVec.getLsbD_twoPow]
    by_cases a : i = k ∧ k < n
    · obtain ⟨rfl, a⟩ := a; simp [a]
    · rw [if_neg a]
      by_cases b : k = i
      · subst b; have : ¬ k < n := by omega
        rw [BitVec.getLsbD_of_ge _ _ (by omega)]; simp
      · by_cases c : i < n
        · simp [b, c]
        · rw [BitVec.getLsbD_of_ge _ _ (by omega)]; simp

/-- The lowest and the highest bit are written, the highest is read. -/
theorem end_bits_exact (hn : 0 < n) {ws : List W} (h : Vec n ws) (b : Bool) :
    (Vec n (setLsb b ws) ∧ ∀ i, (val (setLsb b ws)).testBit i = if i = 0 then b else (val ws).testBit i) ∧
    (Vec n (setMsb n b ws) ∧ ∀ i, (val (setMsb n b ws)).testBit i = if i = n - 1 then b else (val ws).testBit i) ∧
    getMsb n ws = (val ws).testBit (n - 1) := by
  obtain ⟨x, rx, -, -⟩ := Rep.of_vec h
  obtain ⟨u1, u2, u3⟩ := used_spec hn
  refine ⟨⟨(setLsb_rep hn b rx).vec, fun i => ?_⟩, ⟨(setMsb_rep hn b rx).vec, fun i => ?_⟩, ?_⟩
  · rw [testBit_val, testBit_val, setLsb_bit b ws (rx.ne_nil hn)]
  · rw [testBit_val, testBit_val, setMsb_bit hn b ws (rx.ne_nil hn), rx.len]
    have : (i + 1 = 32 * (size n - 1) + used n) ↔ i = n - 1 := by omega
    simp only [this]
  · rw [getMsb_rep hn rx, rx.testBit, BitVec.msb_eq_getLsbD_last]

/-- Union, intersection, symmetric difference and complement. -/
theorem sets_exact (hn : 0 < n) {ys zs : List W} (hy : Vec n ys) (hz : Vec n zs) :
    (Vec n (setUnion n ys zs) ∧ val (setUnion n ys zs) = val ys ||| val zs) ∧
    (Vec n (setIntersection n ys zs) ∧ val (setIntersection n ys zs) = val ys &&& val zs) ∧
    (Vec n (setExclusiveOr n ys zs) ∧ val (setExclusiveOr n ys zs) = val ys ^^^ val zs) ∧
    (Vec n (setComplement n ys) ∧ val (setComplement n ys) = 2 ^ n - 1 - val ys) := by
  obtain ⟨y, ry, vy, -⟩ := Rep.of_vec hy
  obtain ⟨z, rz, vz, -⟩ := Rep.of_vec hz
  have h1 := setUnion_rep hn ry rz
  have h2 := setIntersection_rep hn ry rz
  have h3 := setExclusiveOr_rep hn ry rz
  have h4 := setComplement_rep hn ry
  refine ⟨⟨h1.vec, ?_⟩, ⟨h2.vec, ?_⟩, ⟨h3.vec, ?_⟩, ⟨h4.vec, ?_⟩⟩
  · rw [h1.val_eq, BitVec.toNat_or, vy, vz]
  · rw [h2.val_eq, BitVec.toNat_and, vy, vz]
  · rw [h3.val_eq, BitVec.toNat_xor, vy, vz]
  · rw [h4.val_eq, BitVec.toNat_not, vy]

/-- Shifts: by one place in either direction with a bit coming in and one going out, and by any number to the left. -/
theorem shift_exact (hn : 0 < n) {ws : List W} (h : Vec n ws) (c : Bool) (k : Nat) :
    (Vec n (shiftLeft n ws c).1 ∧ val (shiftLeft n ws c).1 = (2 * val ws + c.toNat) % 2 ^ n ∧
      (shiftLeft n ws c).2 = (val ws).testBit (n - 1)) ∧
    (Vec n (shiftRight n ws c).1 ∧ val (shiftRight n ws c).1 = val ws / 2 + 2 ^ (n - 1) * c.toNat ∧
      (shiftRight n ws c).2 = (val ws).testBit 0) ∧
    (Vec n (moveLeft n ws k) ∧ val (moveLeft n ws k) = val ws * 2 ^ k % 2 ^ n) := by
  obtain ⟨x, rx, vx, -⟩ := Rep.of_vec h
  obtain ⟨a1, a2⟩ := shiftLeft_rep hn rx c
  obtain ⟨b1, b2⟩ := shiftRight_rep hn rx c
  have c1 := moveLeft_rep hn rx k
  have hxl := x.isLt
  refine ⟨⟨a1.vec, ?_, ?_⟩, ⟨b1.vec, ?_, ?_⟩, ⟨c1.vec, ?_⟩⟩
  · rw [a1.val_eq, vx]
    apply Nat.eq_of_testBit_eq
    intro i
    rw [Nat.testBit_mod_two_pow]
    have e : (2 * x.toNat + c.toNat).testBit i = if i = 0 then c else x.getLsbD (i - 1) := by
      have hc := Bool.toNat_le c
      have := Nat.testBit_two_pow_mul_add (i := 1) x.toNat (b := c.toNat) (by omega) i
      rw [Nat.pow_one] at this
      rw [this]
      by_cases i0 : i = 0
      · subst i0; cases c <;> rfl
      · rw [if_neg (by omega), if_neg i0]; rfl
    rw [e]
    show (Bitvect.shl1 x c).getLsbD i = _
    unfold Bitvect.shl1
    rw [BitVec.getLsbD_or, BitVec.getLsbD_shiftLeft]
    by_cases hi : i < n
    · by_cases i0 : i = 0
      · subst i0; cases c <;> simp [hn]
      · have : ¬ i < 1 := by omega
        cases c <;> simp [hi, i0, this]
    · cases c <;> simp [hi, BitVec.getLsbD_one] <;> omega
  · rw [a2, rx.testBit, Bitvect.shl1Carry, BitVec.msb_eq_getLsbD_last]
  · rw [b1.val_eq, vx]
    have hlt : x.toNat / 2 < 2 ^ (n - 1) := by
      rw [pow_half hn] at hxl; omega
    rw [Nat.add_comm]
    apply Nat.eq_of_testBit_eq
    intro i
    rw [Nat.testBit_two_pow_mul_add _ hlt]
    show (Bitvect.shr1 x c).getLsbD i = _
    have hd : (x.toNat / 2).testBit i = x.getLsbD (i + 1) := by
      rw [Nat.testBit_div_two]; rfl
    by_cases hi : i < n
    · rw [Bitvect.getLsbD_shr1 _ _ _ hi]
      by_cases e : i = n - 1
      · rw [if_pos e, if_neg (by omega), show i - (n - 1) = 0 by omega]; cases c <;> rfl
      · rw [if_neg e, if_pos (by omega), hd]
    · rw [BitVec.getLsbD_of_ge _ _ (by omega), if_neg (by omega)]
      obtain ⟨j, hj⟩ : ∃ j, i - (n - 1) = j + 1 := ⟨i - (n - 1) - 1, by omega⟩
      rw [hj]
      cases c
      · simp
      · exact (Nat.testBit_lt_two_pow (x := 1) (Nat.one_lt_two_pow (by omega))).symm
  · rw [b2, rx.testBit]
  · rw [c1.val_eq, Bitvect.moveLeft_toNat, vx]

/-- The highest set bit: its place, or a negative number when there is none. -/
theorem max_exact {ws : List W} :
    (val ws = 0 → setMax ws < 0) ∧ (val ws ≠ 0 → ∃ k : Nat, setMax ws = k ∧ 2 ^ k ≤ val ws ∧ val ws < 2 ^ (k + 1)) := by
  have hv : Vec (32 * ws.length) ws := ⟨by omega, val_lt ws⟩
  obtain ⟨x, rx, vx, -⟩ := Rep.of_vec hv
  rw [setMax_rep rx, vx]
  constructor
  · intro h; rw [Bitvect.setMax_neg_iff]; exact h
  · intro h
    exact ⟨x.toNat.log2, Bitvect.setMax_nonneg x h, Nat.log2_self_le h, Nat.lt_log2_self⟩

/-- A vector copied to one of another size: the same signed number, cut off when it does not fit. -/
theorem copy_exact (hm : 0 < m) (hn : 0 < n) {ys : List W} (h : Vec n ys) :
    Vec m (copy m n ys) ∧ (val (copy m n ys) : Int) = signed n ys % 2 ^ m ∧
      (n ≤ m → signed m (copy m n ys) = signed n ys) := by
  obtain ⟨y, ry, vy, sy⟩ := Rep.of_vec h
  have h1 := copy_rep hm hn ry
  refine ⟨h1.vec, ?_, fun hle => ?_⟩
  · rw [h1.val_eq, sy, BitVec.signExtend, BitVec.toNat_ofInt]
    have : (0 : Int) < ((2 ^ m : Nat) : Int) := by have := Nat.two_pow_pos m; omega
    rw [Int.toNat_of_nonneg (Int.emod_nonneg _ (by omega))]; simp
  · rw [h1.signed_eq, sy, BitVec.toInt_signExtend_of_le hle]

/-- A field of up to 64 bits is written: its bits are those of the number, as far as they lie in the vector. -/
theorem field_written {ws : List W} (h : Vec n ws) (len off : Nat) (v : BitVec 64) :
    Vec n (chunkStore n ws len off v) ∧ ∀ i, i < n → (val (chunkStore n ws len off v)).testBit i =
      if off ≤ i ∧ i < off + min len 64 then v.toNat.testBit (i - off) else (val ws).testBit i := by
  obtain ⟨x, rx, -, -⟩ := Rep.of_vec h
  have h1 := chunkStore_rep len off v rx
  refine ⟨h1.vec, fun i hi => ?_⟩
  rw [h1.testBit, rx.testBit, Bitvect.getLsbD_chunkStore _ _ _ _ _ hi]; rfl

/-- A field of up to 64 bits is read: that part of the number. -/
theorem field_read {ws : List W} (h : Vec n ws) (len off : Nat) :
    (chunkRead n ws len off).toNat = val ws / 2 ^ off % 2 ^ min len 64 := by
  obtain ⟨x, rx, vx, -⟩ := Rep.of_vec h
  rw [chunkRead_rep len off rx, Bitvect.chunkRead_toNat, vx]

/-- A range of bits is set; nothing happens when the range is not in the vector. -/
theorem range_filled {ws : List W} (h : Vec n ws) (lo hi : Nat) :
    Vec n (intervalFill n ws lo hi) ∧ ∀ i, (val (intervalFill n ws lo hi)).testBit i =
      if lo ≤ i ∧ i ≤ hi ∧ hi < n then true else (val ws).testBit i := by
  obtain ⟨x, rx, -, -⟩ := Rep.of_vec h
  have h1 := intervalFill_rep lo hi rx
  refine ⟨h1.vec, fun i => ?_⟩
  rw [h1.testBit, rx.testBit, Bitvect.intervalFill, Bitvect.getLsbD_ofBits]
  by_cases c : lo ≤ i ∧ i ≤ hi ∧ hi < n
  · rw [if_pos c, if_pos (by omega)]
    have : i < n := by omega
    simp [this]
  · rw [if_neg c]
    by_cases a : i < n
    · rw [if_neg (by omega)]; simp [a]
    · rw [BitVec.getLsbD_of_ge x _ (by omega)]; simp [a]

/-- A range of bits is copied from one vector to another, of any two sizes and at any two places: as far as the range
    lies in both, its bits are those of the source; all others are left. -/
theorem range_copied {xs ys : List W} (hx : Vec n xs) (hy : Vec m ys) (xo yo len : Nat) :
    Vec n (intervalCopy n m xs ys xo yo len) ∧ ∀ i, i < n → (val (intervalCopy n m xs ys xo yo len)).testBit i =
      if xo ≤ i ∧ i < xo + len ∧ yo + (i - xo) < m then (val ys).testBit (yo + (i - xo)) else (val xs).testBit i := by
  obtain ⟨x, rx, -, -⟩ := Rep.of_vec hx
  obtain ⟨y, ry, -, -⟩ := Rep.of_vec hy
  have h1 := intervalCopy_rep xo yo len rx ry
  refine ⟨h1.vec, fun i hi => ?_⟩
  rw [h1.testBit, rx.testBit, ry.testBit, Bitvect.intervalCopy, Bitvect.getLsbD_ofBits]
  simp only [hi, decide_true, Bool.true_and]
  by_cases c : xo ≤ i ∧ i < xo + len ∧ yo + (i - xo) < m
  · rw [if_pos c, if_pos (by omega)]
  · rw [if_neg c, if_neg (by omega)]

/-- The number whose digits to the base 256 are the bytes, lowest first. -/
def bytesVal : List (BitVec 8) → Nat
  | [] => 0
  | b :: bs => b.toNat + 256 * bytesVal bs

theorem bytesVal_testBit (bs : List (BitVec 8)) (i : Nat) :
    (bytesVal bs).testBit i = (bs.getD (i / 8) 0#8).getLsbD (i % 8) := by
  induction bs generalizing i with
  | nil => simp [bytesVal]
  | cons b bs ih =>
    rw [bytesVal, Nat.add_comm, show 256 = 2 ^ 8 from rfl, Nat.testBit_two_pow_mul_add _ b.isLt]
    by_cases h : i < 8
    · rw [if_pos h, Nat.div_eq_of_lt h, Nat.mod_eq_of_lt h]; rfl
    · rw [if_neg h, ih, show i / 8 = (i - 8) / 8 + 1 by omega, show (i - 8) % 8 = i % 8 by omega]; rfl

theorem bytesVal_eq (N k : Nat) (h : N < 2 ^ (8 * k)) :
    bytesVal ((List.range k).map fun j => BitVec.ofNat 8 (N / 2 ^ (8 * j))) = N := by
  apply Nat.eq_of_testBit_eq
  intro i
  rw [bytesVal_testBit, List.getD_eq_getElem?_getD, List.getElem?_map]
  by_cases hi : i / 8 < k
  · rw [List.getElem?_range hi]
    simp only [Option.map_some, Option.getD_some, BitVec.getLsbD_ofNat, Nat.testBit_div_two_pow]
    have : i % 8 < 8 := Nat.mod_lt _ (by omega)
    rw [show i % 8 + 8 * (i / 8) = i by omega]; simp [this]
  · rw [List.getElem?_eq_none (by simpa using hi)]
    simp only [Option.map_none, Option.getD_none]
    rw [Nat.testBit_lt_two_pow (Nat.lt_of_lt_of_le h (Nat.pow_le_pow_right (by decide) (by omega)))]
    simp

/-- Bytes are stored, lowest first, as many as there is room for, and read back. -/
theorem bytes_exact (hn : 0 < n) (bs : List (BitVec 8)) :
    Vec n (blockStore n bs) ∧ val (blockStore n bs) = bytesVal bs % 2 ^ n ∧
    (∀ ws : List W, bytesVal (blockRead ws) = val ws ∧ (blockRead ws).length = 4 * ws.length) := by
  have h := blockStore_rep hn bs
  refine ⟨h.vec, ?_, fun ws => ⟨?_, ?_⟩⟩
  · apply Nat.eq_of_testBit_eq
    intro i
    rw [h.testBit, Nat.testBit_mod_two_pow, bytesVal_testBit, Bitvect.blockStore, Bitvect.getLsbD_ofBits]
  · rw [blockRead_val]
    refine bytesVal_eq _ _ ?_
    have := val_lt ws
    rwa [show 8 * (4 * ws.length) = 32 * ws.length by omega]
  · rw [blockRead_val]; simp

/-! ### Non-trivial cases: 80 bits, of which 16 are in the last of three words -/

example : Vec 80 [0xfffffff0, 0xffffffff, 0xffff] ∧ signed 80 [0xfffffff0, 0xffffffff, 0xffff] = -16 := by decide
example : compute 80 [0xffffffff, 0xffffffff, 0x7fff] [1, 0, 0] false false = ⟨[0, 0, 0x8000], false, true⟩ := by decide
example : compute 80 [0, 0, 0] [1, 0, 0] true false = ⟨[0xffffffff, 0xffffffff, 0xffff], true, false⟩ := by decide
example : multiply 80 [0xfffffff0, 0xffffffff, 0xffff] [0, 5, 0] = ([0, 0xffffffb0, 0xffff], true) := by
  with_unfolding_all decide +kernel
example : divide 80 [0xfffffff0, 0xffffffff, 0xffff] [7, 0, 0] =
    some ([0xfffffffe, 0xffffffff, 0xffff], [0xfffffffe, 0xffffffff, 0xffff]) := by with_unfolding_all decide +kernel
example : chunkStore 80 [0, 0, 0] 40 30 0x123456789a#64 = [0x80000000, 0x8d159e26, 4] := by
  with_unfolding_all decide +kernel
example : intervalCopy 80 64 [0, 0, 0] [0xdeadbeef, 0x12345678] 20 4 50 = [0xbee00000, 0x5678dead, 0x34] := by
  with_unfolding_all decide +kernel
example : intervalCopy 80 64 [0, 0, 0] [0xdeadbeef, 0x12345678] 4 20 50 = [0x5678dea0, 0x1234, 0] := by
  with_unfolding_all decide +kernel
example : intervalFill 80 [0, 0, 0] 20 70 = [0xfff00000, 0xffffffff, 0x7f] := by decide
example : blockStore 80 (List.replicate 11 0xab#8) = [0xabababab, 0xabababab, 0xabab] := by decide

end Verif.Words
