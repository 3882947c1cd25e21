import Verif.Intnum.Bytes
import Mathlib.Tactic.Linarith

set_option linter.unusedSimpArgs false
namespace Verif.Intnum
open Verif.Bitvect

theorem or80 (x : BitVec 8) (h : x.toNat < 128) : (x ||| 0x80#8).toNat = x.toNat + 128 := by
  rw [BitVec.toNat_or]
  have : x.toNat ||| 128 = 2 ^ 7 * 1 + x.toNat := by
    rw [Nat.or_comm]
    exact (Nat.two_pow_add_eq_or_of_lt (i := 7) h 1).symm
  show x.toNat ||| 128 = _
  omega

theorem and7f (x : BitVec 8) : (x &&& 0x7F#8).toNat = x.toNat % 128 := by
  rw [BitVec.toNat_and]
  exact Nat.and_two_pow_sub_one_eq_mod x.toNat 7

theorem lebByte_toNat (v : BitVec 256) (i : Nat) : (lebByte v i).toNat = v.toNat / 2 ^ i % 128 + 128 := by
  unfold lebByte
  have h : ((chunkRead v 7 i).truncate 8).toNat = v.toNat / 2 ^ i % 128 := by
    rw [BitVec.truncate, BitVec.toNat_setWidth, chunkRead_toNat]
    have : v.toNat / 2 ^ i % 2 ^ min 7 64 < 128 := Nat.mod_lt _ (by decide)
    rw [Nat.mod_eq_of_lt (by omega)]; rfl
  rw [or80 _ (by rw [h]; exact Nat.mod_lt _ (by decide)), h]

theorem lebLast_toNat (v : BitVec 256) (i : Nat) : (lebByte v i &&& 0x7F#8).toNat = v.toNat / 2 ^ i % 128 := by
  rw [and7f, lebByte_toNat]; omega

/-- The bytes for bit offsets 7s, 7(s+1), ..., 7(s+m). -/
def lebList (v : BitVec 256) (s m : Nat) : List (BitVec 8) :=
  (List.range m).map (fun j => lebByte v (7 * (s + j))) ++ [lebByte v (7 * (s + m)) &&& 0x7F#8]

theorem lebList_succ (v : BitVec 256) (s m : Nat) :
    lebList v s (m + 1) = lebByte v (7 * s) :: lebList v (s + 1) m := by
  unfold lebList
  rw [List.range_succ_eq_map]
  simp only [List.map_cons, List.map_map, List.cons_append, Nat.add_zero]
  congr 2
  · apply List.map_congr_left
    intro j _
    simp only [Function.comp]
    congr 2; omega
  · congr 3; omega

theorem div_pow7 (v s : Nat) : v / 2 ^ (7 * (s + 1)) = v / 2 ^ (7 * s) / 128 := by
  rw [Nat.div_div_eq_div_mul]; congr 1
  rw [show 7 * (s + 1) = 7 * s + 7 by ring, Nat.pow_add]

theorem uleb_lebList (v : BitVec 256) (s m : Nat) :
    uleb (lebList v s m) = some (((v.toNat / 2 ^ (7 * s) % 2 ^ (7 * (m + 1)) : Nat) : Int), m + 1) := by
  induction m generalizing s with
  | zero =>
    have h := lebLast_toNat v (7 * s)
    have hlt : v.toNat / 2 ^ (7 * s) % 128 < 128 := Nat.mod_lt _ (by decide)
    simp only [lebList, List.range_zero, List.map_nil, List.nil_append, Nat.add_zero, uleb, h]
    rw [if_pos hlt]
    norm_num
  | succ m ih =>
    rw [lebList_succ, uleb, lebByte_toNat, if_neg (by omega), ih (s + 1)]
    simp only [Option.map_some, Option.some.injEq, Prod.mk.injEq, and_true]
    have e : 2 ^ (7 * (m + 1 + 1)) = 128 * 2 ^ (7 * (m + 1)) := by
      rw [show 7 * (m + 1 + 1) = 7 + 7 * (m + 1) by ring, Nat.pow_add]
    rw [e, Nat.mod_mul, div_pow7]
    push_cast; ring

theorem bmod_step (x M : Nat) (hM : M % 2 = 0) (h0 : 0 < M) :
    Int.bmod (x : Int) (128 * M) = (x % 128 : Nat) + 128 * Int.bmod ((x / 128 : Nat) : Int) M := by
  rw [Int.bmod_def, Int.bmod_def]
  have e1 : ((x : Int) % ((128 * M : Nat) : Int)) = ((x % (128 * M) : Nat) : Int) := by push_cast; rfl
  have e2 : (((x / 128 : Nat) : Int) % (M : Int)) = ((x / 128 % M : Nat) : Int) := by push_cast; rfl
  rw [e1, e2]
  have hmm := Nat.mod_mul (x := x) (a := 128) (b := M)
  have hlt : x / 128 % M < M := Nat.mod_lt _ h0
  have hlt2 : x % 128 < 128 := Nat.mod_lt _ (by decide)
  rw [hmm]
  generalize x / 128 % M = q at *
  generalize x % 128 = r at *
  obtain ⟨K, rfl⟩ : ∃ K, M = 2 * K := ⟨M / 2, by omega⟩
  split <;> split <;> push_cast at * <;> omega

theorem sleb_lebList (v : BitVec 256) (s m : Nat) :
    sleb (lebList v s m) =
      some (Int.bmod ((v.toNat / 2 ^ (7 * s) : Nat) : Int) (2 ^ (7 * (m + 1))), m + 1) := by
  induction m generalizing s with
  | zero =>
    have h := lebLast_toNat v (7 * s)
    have hlt : v.toNat / 2 ^ (7 * s) % 128 < 128 := Nat.mod_lt _ (by decide)
    simp only [lebList, List.range_zero, List.map_nil, List.nil_append, Nat.add_zero, sleb, h]
    have e1 : ((v.toNat / 2 ^ (7 * s) : Nat) : Int) % ((2 ^ (7 * (0 + 1)) : Nat) : Int) =
        ((v.toNat / 2 ^ (7 * s) % 128 : Nat) : Int) := by
      norm_num
    rw [Int.bmod_def, e1]
    rw [show ((2 ^ (7 * (0 + 1)) : Nat) : Int) = 128 by norm_num]
    generalize v.toNat / 2 ^ (7 * s) % 128 = q at *
    by_cases h64 : q < 64
    · rw [if_pos h64, if_pos (by omega)]
    · rw [if_neg h64, if_pos hlt, if_neg (by omega)]
  | succ m ih =>
    rw [lebList_succ, sleb, lebByte_toNat, if_neg (by omega), if_neg (by omega), ih (s + 1)]
    simp only [Option.map_some, Option.some.injEq, Prod.mk.injEq, and_true]
    have e : 2 ^ (7 * (m + 1 + 1)) = 128 * 2 ^ (7 * (m + 1)) := by
      rw [show 7 * (m + 1 + 1) = 7 + 7 * (m + 1) by ring, Nat.pow_add]
    have hev : 2 ^ (7 * (m + 1)) % 2 = 0 := by
      rw [show 7 * (m + 1) = (7 * m + 6) + 1 by ring, Nat.pow_succ]; omega
    rw [e, bmod_step _ _ hev (Nat.two_pow_pos _), div_pow7]
    push_cast; ring

theorem getLeb_eq (v : BitVec 256) (sgn : Bool) (m : Nat) (h : ((lebBits v sgn).toNat + 6) / 7 = m + 1)
    (hm : m + 1 ≤ 2 ^ 32) : getLeb v sgn = some (lebList v 0 m) := by
  unfold getLeb
  simp only [h]
  rw [if_neg (by omega)]
  simp [lebList]

/-! ### sizes -/

theorem setMax_range (v : BitVec 256) (h : v.toNat ≠ 0) :
    0 ≤ setMax v ∧ setMax v < 256 ∧ 2 ^ (setMax v).toNat ≤ v.toNat ∧ v.toNat < 2 ^ ((setMax v).toNat + 1) := by
  rw [setMax_nonneg v h]
  have h1 : v.toNat.log2 < 256 := (Nat.log2_lt h).2 v.isLt
  exact ⟨by omega, by omega, by simpa using Nat.log2_self_le h, by simpa using Nat.lt_log2_self⟩

theorem ofInt64_toNat (z : Int) (h0 : 0 ≤ z) (h1 : z < 2 ^ 64) : (BitVec.ofInt 64 z).toNat = z.toNat := by
  rw [BitVec.toNat_ofInt]
  congr 1
  exact Int.emod_eq_of_lt h0 h1

/-- The number of significant bits `get_leb128` counts, for a non-zero vector. -/
def lebN (v : BitVec 256) (sgn : Bool) : Nat :=
  if sgn then (if v.msb then (setMax (-v)).toNat + 2 else (setMax v).toNat + 2) else (setMax v).toNat + 1

theorem neg_ne_zero (v : BitVec 256) (h : v.toNat ≠ 0) : (-v).toNat ≠ 0 := by
  rw [BitVec.toNat_neg]
  have := v.isLt
  rw [Nat.mod_eq_of_lt (by omega)]; omega

theorem lebBits_eq (v : BitVec 256) (sgn : Bool) (h : v.toNat ≠ 0) :
    (lebBits v sgn).toNat = lebN v sgn ∧ lebN v sgn ≤ 257 ∧ 1 ≤ lebN v sgn := by
  have h1 := setMax_range v h
  have h2 := setMax_range (-v) (neg_ne_zero v h)
  unfold lebBits lebN
  cases sgn
  · simp only [Bool.false_eq_true, if_false]
    rw [ofInt64_toNat _ (by omega) (by omega)]; omega
  · simp only [if_true]
    cases v.msb
    · simp only [Bool.false_eq_true, if_false]
      rw [ofInt64_toNat _ (by omega) (by omega)]; omega
    · simp only [if_true]
      rw [ofInt64_toNat _ (by omega) (by omega)]; omega

theorem sizeLeb_eq (v : BitVec 256) (sgn : Bool) (h : v.toNat ≠ 0) :
    (sizeLeb v sgn).toNat = (lebN v sgn + 6) / 7 := by
  have h1 := setMax_range v h
  have h2 := setMax_range (-v) (neg_ne_zero v h)
  unfold sizeLeb lebN
  have key : ∀ z : Int, 0 ≤ z → z < 300 → (BitVec.ofInt 64 (z.tdiv 7)).toNat = z.toNat / 7 := by
    intro z hz0 hz1
    have : z.tdiv 7 = ((z.toNat / 7 : Nat) : Int) := by
      rw [Int.tdiv_eq_ediv_of_nonneg hz0]; omega
    rw [this, ofInt64_toNat _ (by omega) (by omega), Int.toNat_natCast]
  cases sgn
  · simp only [Bool.false_eq_true, if_false]
    rw [key _ (by omega) (by omega)]; omega
  · simp only [if_true]
    cases v.msb
    · simp only [Bool.false_eq_true, if_false]
      rw [key _ (by omega) (by omega)]; omega
    · simp only [if_true]
      rw [key _ (by omega) (by omega)]; omega

/-- What is written, for every non-zero vector. -/
theorem getLeb_spec (v : BitVec 256) (sgn : Bool) (h : v.toNat ≠ 0) :
    ∃ bs, getLeb v sgn = some bs ∧ bs.length = (sizeLeb v sgn).toNat ∧
      leb sgn bs = some (if sgn then Int.bmod (v.toNat : Int) (2 ^ (7 * bs.length))
        else ((v.toNat % 2 ^ (7 * bs.length) : Nat) : Int), bs.length) := by
  have hb := lebBits_eq v sgn h
  have hs := sizeLeb_eq v sgn h
  obtain ⟨m, hm⟩ : ∃ m, (lebN v sgn + 6) / 7 = m + 1 := ⟨(lebN v sgn + 6) / 7 - 1, by omega⟩
  have hg := getLeb_eq v sgn m (by rw [hb.1]; exact hm) (by omega)
  have hlen : (lebList v 0 m).length = m + 1 := by simp [lebList]
  refine ⟨_, hg, by rw [hlen, hs, hm], ?_⟩
  rw [hlen]
  cases sgn
  · simp only [leb, Bool.false_eq_true, if_false]
    rw [uleb_lebList]; simp
  · simp only [leb, if_true]
    rw [sleb_lebList]; simp

/-- Unsigned encoding is exact for every vector. -/
theorem lebN_unsigned (v : BitVec 256) (h : v.toNat ≠ 0) : v.toNat < 2 ^ lebN v false := by
  have h1 := setMax_range v h
  simp only [lebN, Bool.false_eq_true, if_false]
  exact h1.2.2.2

theorem bmod_pow_of_range (z : Int) (N : Nat) (hN : 1 ≤ N) (h1 : -(2 ^ (N - 1)) ≤ z) (h2 : z < 2 ^ (N - 1)) :
    Int.bmod z (2 ^ N) = z := by
  have e : ((2 ^ N : Nat) : Int) = 2 * 2 ^ (N - 1) := by
    push_cast
    conv => lhs; rw [show N = (N - 1) + 1 by omega]
    rw [pow_succ]; ring
  have e2 : (2 ^ N : Nat) = 2 * 2 ^ (N - 1) := by
    conv => lhs; rw [show N = (N - 1) + 1 by omega]
    rw [pow_succ]; ring
  rw [Int.bmod_eq_of_le]
  · rw [e]; omega
  · rw [e]; omega

theorem bmod_toNat (v : BitVec 256) (N : Nat) (hN : N ≤ 256) :
    Int.bmod (v.toNat : Int) (2 ^ N) = Int.bmod v.toInt (2 ^ N) := by
  rw [toInt_eq_toNat_sub]
  have : (2:Int) ^ 256 = ((2 ^ N : Nat) : Int) * 2 ^ (256 - N) := by
    rw [Int.natCast_pow]
    show (2:Int) ^ 256 = 2 ^ N * 2 ^ (256 - N)
    rw [← Int.pow_add]; congr 1; omega
  generalize hk : (if v.msb = true then (1:Int) else 0) = k
  rw [this, Int.mul_assoc, Int.sub_mul_bmod_self_left]

/-- Signed encoding: the number of bits written suffices for the value. -/
theorem lebN_signed (v : BitVec 256) (h : v.toNat ≠ 0) :
    -(2 ^ (lebN v true - 1)) ≤ v.toInt ∧ v.toInt < 2 ^ (lebN v true - 1) := by
  have h1 := setMax_range v h
  have h2 := setMax_range (-v) (neg_ne_zero v h)
  have ex := toInt_eq_toNat_sub v
  have hv := v.isLt
  have hpos : ∀ k : Nat, (0:Int) < 2 ^ k := fun k => Int.pow_pos (by decide)
  simp only [lebN, if_true]
  cases hm : v.msb
  · rw [hm] at ex; simp at ex
    simp only [Bool.false_eq_true, if_false]
    have := h1.2.2.2
    rw [ex]
    have hc : (v.toNat : Int) < 2 ^ ((setMax v).toNat + 1) := by exact_mod_cast this
    have hp := hpos ((setMax v).toNat + 2 - 1)
    rw [show (setMax v).toNat + 2 - 1 = (setMax v).toNat + 1 by omega] at *
    constructor <;> omega
  · rw [hm] at ex; simp at ex
    simp only [if_true]
    have hneg : (-v).toNat = 2 ^ 256 - v.toNat := by
      rw [BitVec.toNat_neg, Nat.mod_eq_of_lt (by omega)]
    have := h2.2.2.2
    have hc : ((-v).toNat : Int) < 2 ^ ((setMax (-v)).toNat + 1) := by exact_mod_cast this
    have hp := hpos ((setMax (-v)).toNat + 2 - 1)
    rw [show (setMax (-v)).toNat + 2 - 1 = (setMax (-v)).toNat + 1 by omega] at *
    constructor <;> omega

/-! ### reading -/

theorem and80 (b : BitVec 8) : (b &&& 0x80#8 ≠ 0x80#8) ↔ b.toNat < 128 := by
  have := (by decide +kernel : ∀ b : Fin 256, (BitVec.ofFin (w := 8) b &&& 0x80#8 ≠ 0x80#8) ↔ b.val < 128)
  exact this b.toFin

theorem and40 (b : BitVec 8) (h : b.toNat < 128) : (b &&& 0x40#8 == 0x40#8) = decide (64 ≤ b.toNat) := by
  have := (by decide +kernel : ∀ b : Fin 256, b.val < 128 →
    (BitVec.ofFin (w := 8) b &&& 0x40#8 == 0x40#8) = decide (64 ≤ b.val))
  exact this b.toFin h

theorem lebRead_spec (mem : List (BitVec 8)) (i A cnt : Nat) (acc : BitVec 256) (n : Int) (k : Nat)
    (ha : acc.toNat = A % 2 ^ 256) (hA : A < 2 ^ i) (h : uleb mem = some (n, k)) :
    ∃ v last, lebRead mem i acc cnt = some (v, i + 7 * k, last, cnt + k) ∧
      (0 ≤ n ∧ n < 2 ^ (7 * k) ∧ 1 ≤ k) ∧ v.toNat = (A + 2 ^ i * n.toNat) % 2 ^ 256 ∧
      sleb mem = some (if (last &&& 0x40#8 == 0x40#8) = true then n - 2 ^ (7 * k) else n, k) := by
  induction mem generalizing i A cnt acc n k with
  | nil => simp [uleb] at h
  | cons b bs ih =>
    have hb8 := b.isLt
    have hst := chunkStore_append acc 7 i A (b.zeroExtend 64) (by decide) ha hA
    have hz : (b.zeroExtend 64).toNat % 2 ^ 7 = b.toNat % 128 := by
      simp
    rw [hz] at hst
    rw [uleb] at h
    rw [lebRead, sleb]
    by_cases hb : b.toNat < 128
    · rw [if_pos hb] at h
      simp only [Option.some.injEq, Prod.mk.injEq] at h
      obtain ⟨rfl, rfl⟩ := h
      refine ⟨chunkStore acc 7 i (b.zeroExtend 64), b, ?_, ⟨by omega, by norm_num; omega, by omega⟩, ?_, ?_⟩
      · rw [if_pos ((and80 b).2 hb)]
      · rw [hst, Nat.mod_eq_of_lt hb]; congr 1; simp; omega
      · rw [and40 b hb, if_pos hb]
        by_cases h64 : b.toNat < 64
        · rw [if_pos h64, if_neg (by simp; omega)]
        · rw [if_neg h64, if_pos (by simp; omega)]; norm_num
    · rw [if_neg hb] at h
      cases hu : uleb bs with
      | none => rw [hu] at h; simp at h
      | some r =>
        obtain ⟨n', k'⟩ := r
        rw [hu] at h
        simp only [Option.map_some, Option.some.injEq, Prod.mk.injEq] at h
        obtain ⟨rfl, rfl⟩ := h
        have hlt : 2 ^ i * (b.toNat % 128) + A < 2 ^ (i + 7) := by
          rw [Nat.pow_add]
          have : b.toNat % 128 + 1 ≤ 2 ^ 7 := by omega
          calc 2 ^ i * (b.toNat % 128) + A < 2 ^ i * (b.toNat % 128) + 2 ^ i := by omega
            _ = 2 ^ i * (b.toNat % 128 + 1) := by ring
            _ ≤ 2 ^ i * 2 ^ 7 := Nat.mul_le_mul_left _ this
        obtain ⟨v, last, h1, ⟨h2, h3, h3'⟩, h4, h5⟩ := ih (i + 7) _ (cnt + 1) _ n' k' hst hlt hu
        have hbm : b.toNat % 128 = b.toNat - 128 := by omega
        have hpow : (2:Int) ^ (7 * (k' + 1)) = 128 * 2 ^ (7 * k') := by
          rw [show 7 * (k' + 1) = 7 + 7 * k' by ring, pow_add]; norm_num
        refine ⟨v, last, ?_, ⟨by omega, by rw [hpow]; omega, by omega⟩, ?_, ?_⟩
        · rw [if_neg (fun hh => hb ((and80 b).1 hh)), h1]
          simp only [Option.some.injEq, Prod.mk.injEq, true_and]
          omega
        · rw [h4, hbm]
          congr 1
          have : ((b.toNat : Int) - 128 + 128 * n').toNat = (b.toNat - 128) + 128 * n'.toNat := by omega
          rw [this]; ring
        · rw [if_neg (by omega), if_neg hb, h5]
          simp only [Option.map_some, Option.some.injEq, Prod.mk.injEq, and_true]
          split
          · rw [hpow]; ring
          · rfl

theorem createLeb_spec (mem : List (BitVec 8)) (sgn : Bool) (n : Int) (k : Nat)
    (h : leb sgn mem = some (n, k)) (hk : 7 * k ≤ 256) :
    ∃ r, createLeb128 mem sgn = some (⟨r, none⟩, k) ∧ (sgn = true → val r = n) ∧
      (sgn = false → val r = n) := by
  have hu : ∃ m k', uleb mem = some (m, k') := by
    cases sgn
    · exact ⟨n, k, h⟩
    · simp only [leb, if_true] at h
      have : ∀ (l : List (BitVec 8)) n k, sleb l = some (n, k) → ∃ m k', uleb l = some (m, k') := by
        intro l
        induction l with
        | nil => intro n k h; simp [sleb] at h
        | cons b bs ih =>
          intro n k h
          rw [sleb] at h
          rw [uleb]
          by_cases hb : b.toNat < 128
          · rw [if_pos hb]; exact ⟨_, _, rfl⟩
          · rw [if_neg hb]
            rw [if_neg (by omega), if_neg hb] at h
            cases hs : sleb bs with
            | none => rw [hs] at h; simp at h
            | some r =>
              obtain ⟨m, k', hm⟩ := ih r.1 r.2 hs
              rw [hm]; exact ⟨_, _, rfl⟩
      exact this mem n k h
  obtain ⟨m, k', hm⟩ := hu
  obtain ⟨v, last, h1, ⟨h2, h3, h3'⟩, h4, h5⟩ := lebRead_spec mem 0 0 0 0#256 m k' (by simp) (by simp) hm
  have hkk : k' = k := by
    cases sgn
    · simp only [leb, Bool.false_eq_true, if_false] at h; rw [hm] at h; simp at h; exact h.2
    · simp only [leb, if_true] at h; rw [h5] at h; simp at h; exact h.2
  subst hkk
  have hlt : m.toNat < 2 ^ (7 * k') := by
    have : ((m.toNat : Nat) : Int) < ((2 ^ (7 * k') : Nat) : Int) := by push_cast; omega
    exact_mod_cast this
  have hp : 2 ^ (7 * k') ≤ 2 ^ 252 := Nat.pow_le_pow_right (by decide) (by omega)
  have hv : v.toNat = m.toNat := by
    rw [h4]; simp only [Nat.zero_add, Nat.pow_zero, Nat.one_mul]
    exact Nat.mod_eq_of_lt (by omega)
  have hvi : v.toInt = m := by
    rw [toInt_small _ (by rw [hv]; omega), hv]; omega
  unfold createLeb128
  rw [h1]
  simp only [Nat.zero_add]
  rw [if_neg (by unfold native; omega)]
  cases sgn
  · simp only [leb, Bool.false_eq_true, if_false] at h
    rw [hm] at h; simp only [Option.some.injEq, Prod.mk.injEq, and_true] at h
    refine ⟨frombv v, by simp, by simp, fun _ => ?_⟩
    rw [(frombv_spec v).1, hvi, h]
  · simp only [leb, if_true] at h
    rw [h5] at h; simp only [Option.some.injEq, Prod.mk.injEq, and_true] at h
    by_cases hs : (last &&& 0x40#8 == 0x40#8) = true
    · rw [if_pos hs] at h
      refine ⟨frombv (intervalFill v (7 * k') (native - 1)), by simp [hs], fun _ => ?_, by simp⟩
      rw [(frombv_spec _).1]
      have := intervalFill_toInt v (7 * k') (by omega) (by rw [hv]; exact hlt)
      rw [show native - 1 = 255 by decide, this, hv, ← h]
      omega
    · rw [if_neg hs] at h
      refine ⟨frombv v, by simp [hs], fun _ => ?_, by simp⟩
      rw [(frombv_spec v).1, hvi, h]

end Verif.Intnum
