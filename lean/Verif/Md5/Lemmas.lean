/-
Lemmas: the `W`-bit implementation against RFC 1321 on 32-bit words.
-/
import Verif.Md5.Model
import Verif.Md5.Spec

set_option linter.unusedSimpArgs false
set_option linter.unusedVariables false

namespace Verif.Md5

open Spec (State Word aux T index shift rotl op wordAt compress absorb le32 pad start digest)

variable {W : Nat}

/-- The low 32 bits. -/
def lo (x : BitVec W) : Word := x.setWidth 32

theorem lo_bit (x : BitVec W) (i : Nat) : (lo x).getLsbD i = (decide (i < 32) && x.getLsbD i) := by
  unfold lo; rw [BitVec.getLsbD_setWidth]

theorem mask_bit (hW : 32 ≤ W) (i : Nat) : (mask W).getLsbD i = decide (i < 32) := by
  unfold mask
  rw [BitVec.getLsbD_ofNat, show 0xffffffff = 2 ^ 32 - 1 by decide, Nat.testBit_two_pow_sub_one]
  by_cases h : i < 32
  · simp [h]; omega
  · simp [h]

theorem lo_add (hW : 32 ≤ W) (x y : BitVec W) : lo (x + y) = lo x + lo y := by
  unfold lo; exact BitVec.setWidth_add x y hW

theorem lo_mask (hW : 32 ≤ W) (x : BitVec W) : lo (x &&& mask W) = lo x := by
  apply BitVec.eq_of_getLsbD_eq
  intro i hi
  rw [lo_bit, lo_bit, BitVec.getLsbD_and, mask_bit hW]
  simp [hi]

theorem lo_ff (hW : 32 ≤ W) (f : Nat) (x y z : BitVec W) :
    lo (ff (f + 1) x y z) = aux f (lo x) (lo y) (lo z) := by
  apply BitVec.eq_of_getLsbD_eq
  intro i hi
  have hiW : i < W := by omega
  rw [lo_bit]
  match f with
  | 0 =>
    simp only [ff, aux, BitVec.getLsbD_xor, BitVec.getLsbD_and, BitVec.getLsbD_or, BitVec.getLsbD_not,
      lo_bit, hi, hiW, decide_true, Bool.true_and]
    cases x.getLsbD i <;> cases y.getLsbD i <;> cases z.getLsbD i <;> rfl
  | 1 =>
    simp only [ff, aux, BitVec.getLsbD_xor, BitVec.getLsbD_and, BitVec.getLsbD_or, BitVec.getLsbD_not,
      lo_bit, hi, hiW, decide_true, Bool.true_and]
    cases x.getLsbD i <;> cases y.getLsbD i <;> cases z.getLsbD i <;> rfl
  | 2 =>
    simp only [ff, aux, BitVec.getLsbD_xor, BitVec.getLsbD_and, BitVec.getLsbD_or, BitVec.getLsbD_not,
      lo_bit, hi, hiW, decide_true, Bool.true_and]
  | n + 3 =>
    simp only [ff, aux, BitVec.getLsbD_xor, BitVec.getLsbD_and, BitVec.getLsbD_or, BitVec.getLsbD_not,
      lo_bit, hi, hiW, decide_true, Bool.true_and]

theorem lo_rotl (hW : 32 ≤ W) (x : BitVec W) {s : Nat} (h0 : 0 < s) (h32 : s < 32) :
    lo (((x &&& mask W) <<< s) ||| ((x &&& mask W) >>> (32 - s))) = rotl (lo x) s := by
  apply BitVec.eq_of_getLsbD_eq
  intro i hi
  have hiW : i < W := by omega
  unfold rotl
  rw [lo_bit]
  simp only [BitVec.getLsbD_or, BitVec.getLsbD_shiftLeft, BitVec.getLsbD_ushiftRight, BitVec.getLsbD_and,
    lo_bit, mask_bit hW, hi, hiW, decide_true, Bool.true_and]
  have e1 : decide (i - s < 32) = true := by simp; omega
  rw [e1]
  simp only [Bool.and_true, Bool.true_and]
  rw [Bool.and_comm (x.getLsbD (32 - s + i))]

theorem lo_ofNat (hW : 32 ≤ W) (n : Nat) : lo (BitVec.ofNat W n) = BitVec.ofNat 32 n := by
  unfold lo
  rw [BitVec.setWidth_ofNat_of_le hW]

theorem lo_getu32 (hW : 32 ≤ W) (b0 b1 b2 b3 : Byte) :
    lo (getu32 W b0 b1 b2 b3) = b3 ++ b2 ++ b1 ++ b0 := by
  apply BitVec.eq_of_getLsbD_eq
  intro i hi
  rw [lo_bit]
  unfold getu32
  simp only [BitVec.getLsbD_or, BitVec.getLsbD_shiftLeft, BitVec.getLsbD_setWidth, BitVec.getLsbD_append]
  have hz : ∀ (b : Byte) (k : Nat), 8 ≤ k → b.getLsbD k = false := fun b k h => BitVec.getLsbD_of_ge b k h
  by_cases h8 : i < 8
  · simp [h8, hi, show i < W by omega]
  · by_cases h16 : i < 16
    · simp [h8, hi, show i < W by omega, show i - 8 < W by omega, show i - 8 < 8 by omega, hz b0 i (by omega)]
    · by_cases h24 : i < 24
      · simp [h8, hi, show i < W by omega, show i - 8 < W by omega, show ¬ i - 8 < 8 by omega,
          show i - 8 - 8 < W by omega, show i - 8 - 8 < 8 by omega, hz b0 i (by omega),
          hz b1 (i - 8) (by omega)]
      · simp [h8, hi, show i < W by omega, show i - 8 < W by omega, show ¬ i - 8 < 8 by omega,
          show i - 8 - 8 < W by omega, show ¬ i - 8 - 8 < 8 by omega, hz b0 i (by omega),
          hz b1 (i - 8) (by omega), hz b2 (i - 8 - 8) (by omega), show i - 8 - 8 - 8 < W by omega]

theorem putu32_eq (hW : 32 ≤ W) (d : BitVec W) : putu32 d = le32 (lo d) := by
  have h : ∀ k, k + 8 ≤ 32 → (d >>> k).setWidth 8 = (lo d).extractLsb' k 8 := by
    intro k hk
    apply BitVec.eq_of_getLsbD_eq
    intro i hi
    rw [BitVec.getLsbD_setWidth, BitVec.getLsbD_ushiftRight, BitVec.getLsbD_extractLsb', lo_bit]
    simp [hi, show k + i < 32 by omega]
  unfold putu32 le32
  rw [← h 0 (by omega), ← h 8 (by omega), ← h 16 (by omega), ← h 24 (by omega)]
  simp

/-- The arguments step `i` should have. -/
def stepOf (i : Nat) : StepArgs :=
  match i % 4 with
  | 0 => ⟨i / 16 + 1, 0, 1, 2, 3, index i, (T.getD i 0).toNat, shift i⟩
  | 1 => ⟨i / 16 + 1, 3, 0, 1, 2, index i, (T.getD i 0).toNat, shift i⟩
  | 2 => ⟨i / 16 + 1, 2, 3, 0, 1, index i, (T.getD i 0).toNat, shift i⟩
  | _ => ⟨i / 16 + 1, 1, 2, 3, 0, index i, (T.getD i 0).toNat, shift i⟩

/-- The table in the code is the one of the RFC. -/
theorem steps_eq : steps = (List.range 64).map stepOf := by decide +kernel

/-- The registers in the order step `i` uses them. -/
def view (i : Nat) (r : Regs W) : State :=
  match i % 4 with
  | 0 => ⟨lo r.a, lo r.b, lo r.c, lo r.d⟩
  | 1 => ⟨lo r.d, lo r.a, lo r.b, lo r.c⟩
  | 2 => ⟨lo r.c, lo r.d, lo r.a, lo r.b⟩
  | _ => ⟨lo r.b, lo r.c, lo r.d, lo r.a⟩

theorem shift_bounds (i : Nat) : 0 < shift i ∧ shift i < 32 := by
  unfold shift
  split <;> omega

theorem lo_T (hW : 32 ≤ W) (i : Nat) : lo (BitVec.ofNat W (T.getD i 0).toNat) = T.getD i 0 := by
  rw [lo_ofNat hW]; simp

/-- The word computed by a step. -/
theorem lo_new (hW : 32 ≤ W) (inw : Nat → BitVec W) (i : Nat) (w x y z : BitVec W) :
    lo (((w + (ff (i / 16 + 1) x y z + (inw (index i) + BitVec.ofNat W (T.getD i 0).toNat)) &&& mask W) <<<
        shift i |||
      (w + (ff (i / 16 + 1) x y z + (inw (index i) + BitVec.ofNat W (T.getD i 0).toNat)) &&& mask W) >>>
        (32 - shift i)) + x) =
    lo x + rotl (lo w + aux (i / 16) (lo x) (lo y) (lo z) + lo (inw (index i)) + T.getD i 0) (shift i) := by
  rw [lo_add hW, lo_rotl hW _ (shift_bounds i).1 (shift_bounds i).2, lo_add hW, lo_add hW, lo_add hW,
    lo_ff hW, lo_T hW, BitVec.add_comm]
  simp only [BitVec.add_assoc]

theorem step_view (hW : 32 ≤ W) (inw : Nat → BitVec W) (r : Regs W) (i : Nat) :
    view (i + 1) (md5step inw r (stepOf i)) = op (fun k => lo (inw k)) (view i r) i := by
  have h4 : i % 4 = 0 ∨ i % 4 = 1 ∨ i % 4 = 2 ∨ i % 4 = 3 := by omega
  rcases h4 with h | h | h | h
  · have h' : (i + 1) % 4 = 1 := by omega
    simp only [view, stepOf, h, h', md5step, Regs.get, Regs.put, op, lo_new hW]
  · have h' : (i + 1) % 4 = 2 := by omega
    simp only [view, stepOf, h, h', md5step, Regs.get, Regs.put, op, lo_new hW]
  · have h' : (i + 1) % 4 = 3 := by omega
    simp only [view, stepOf, h, h', md5step, Regs.get, Regs.put, op, lo_new hW]
  · have h' : (i + 1) % 4 = 0 := by omega
    simp only [view, stepOf, h, h', md5step, Regs.get, Regs.put, op, lo_new hW]

theorem fold_view (hW : 32 ≤ W) (inw : Nat → BitVec W) (r : Regs W) (n : Nat) :
    view n (((List.range n).map stepOf).foldl (md5step inw) r) =
      (List.range n).foldl (op (fun k => lo (inw k))) (view 0 r) := by
  induction n with
  | zero => rfl
  | succ n ih =>
    rw [List.range_succ, List.map_append, List.foldl_append, List.foldl_append]
    simp only [List.map_cons, List.map_nil, List.foldl_cons, List.foldl_nil]
    rw [step_view hW, ih]

theorem word_eq (hW : 32 ≤ W) (b : List Byte) (k : Nat) : lo (word W b k) = wordAt b k := by
  unfold word; rw [lo_getu32 hW]; rfl

/-- yasm_md5_transform is the compression function. -/
theorem transform_eq (hW : 32 ≤ W) (buf : Regs W) (b : List Byte) :
    view 0 (transform buf b) = compress (view 0 buf) b := by
  have h := fold_view hW (word W b) buf 64
  rw [← steps_eq] at h
  have hx : (fun k => lo (word W b k)) = wordAt b := by funext k; exact word_eq hW b k
  rw [hx] at h
  have h64 : ∀ r : Regs W, view 64 r = view 0 r := fun r => rfl
  rw [h64] at h
  unfold transform compress
  rw [← h]
  simp only [view, Nat.zero_mod, lo_add hW]

/-! ### Blocks -/

/-- The bytes after the last whole block. -/
def left (m : List Byte) : List Byte := m.drop (m.length / 64 * 64)

theorem left_length (m : List Byte) : (left m).length = m.length % 64 := by
  unfold left; rw [List.length_drop]; omega

theorem left_small {m : List Byte} (h : m.length < 64) : left m = m := by
  unfold left; rw [Nat.div_eq_of_lt h]; simp

theorem left_step {m : List Byte} (h : 64 ≤ m.length) : left m = left (m.drop 64) := by
  unfold left
  rw [List.length_drop, List.drop_drop]
  congr 1
  omega

theorem absorb_small {s : State} {m : List Byte} (h : m.length < 64) : absorb s m = s := by
  rw [absorb, if_neg (by omega)]

theorem absorb_step {s : State} {m : List Byte} (h : 64 ≤ m.length) :
    absorb s m = absorb (compress s (m.take 64)) (m.drop 64) := by
  rw [absorb, if_pos h]

theorem absorb_append (n : Nat) : ∀ (m : List Byte) (s : State) (d : List Byte), m.length ≤ n →
    absorb s (m ++ d) = absorb (absorb s m) (left m ++ d) ∧ left (m ++ d) = left (left m ++ d) := by
  induction n using Nat.strongRecOn with
  | _ n ih =>
    intro m s d hn
    by_cases h : 64 ≤ m.length
    · rw [absorb_step (m := m ++ d) (by simp; omega), absorb_step h, left_step h,
        left_step (m := m ++ d) (by simp; omega)]
      rw [List.take_append_of_le_length h, List.drop_append_of_le_length h]
      exact ih (m.drop 64).length (by rw [List.length_drop]; omega) _ _ _ (Nat.le_refl _)
    · rw [absorb_small (m := m) (by omega), left_small (m := m) (by omega)]
      exact ⟨rfl, rfl⟩

/-! ### The context -/

/-- The context has absorbed message `m`. -/
structure Absorbed (c : Ctx W) (m : List Byte) : Prop where
  state : view 0 c.buf = absorb start m
  bits0 : c.bits0 = 8 * m.length % 2 ^ 32
  bits1 : c.bits1 % 2 ^ 32 = 8 * m.length / 2 ^ 32 % 2 ^ 32
  size : c.inb.length = 64
  pending : c.inb.take (m.length % 64) = left m

theorem copyIn_ok {inb : List Byte} {off : Nat} {src : List Byte} (hl : inb.length = 64)
    (h : off + src.length ≤ 64) :
    ∃ r, copyIn inb off src = some r ∧ r.length = 64 ∧ r.take (off + src.length) = inb.take off ++ src := by
  refine ⟨_, by rw [copyIn, if_pos h], ?_, ?_⟩
  · simp; omega
  · rw [List.take_append_of_le_length (by simp; omega), List.take_of_length_le (by simp; omega)]

theorem init_absorbed (hW : 32 ≤ W) (inb : List Byte) (h : inb.length = 64) : Absorbed (init W inb) [] where
  state := by
    simp only [init, view, Nat.zero_mod, lo_ofNat hW]
    rw [absorb_small (by simp)]; rfl
  bits0 := rfl
  bits1 := rfl
  size := h
  pending := by simp [left]

theorem chunks_spec (hW : 32 ≤ W) (n : Nat) : ∀ (buf : Regs W) (inb d : List Byte), d.length ≤ n →
    inb.length = 64 → ∃ buf' inb', chunks buf inb d = some (buf', inb') ∧ inb'.length = 64 ∧
      view 0 buf' = absorb (view 0 buf) d ∧ inb'.take (d.length % 64) = left d := by
  induction n using Nat.strongRecOn with
  | _ n ih =>
    intro buf inb d hn hl
    rw [chunks]
    by_cases h : 64 ≤ d.length
    · rw [if_pos h]
      obtain ⟨r, h1, h2, h3⟩ := copyIn_ok (inb := inb) (off := 0) (src := d.take 64) hl (by simp; omega)
      rw [h1]
      dsimp only
      have h4 : r = d.take 64 := by
        have e : 0 + (d.take 64).length = 64 := by simp; omega
        rw [e, List.take_of_length_le (by omega)] at h3
        simpa using h3
      obtain ⟨b', i', g1, g2, g3, g4⟩ := ih (d.drop 64).length (by rw [List.length_drop]; omega)
        (transform buf r) r (d.drop 64) (Nat.le_refl _) h2
      refine ⟨b', i', g1, g2, ?_, ?_⟩
      · rw [g3, transform_eq hW, h4, absorb_step h]
      · rw [left_step h, ← g4, List.length_drop]
        congr 1; omega
    · rw [if_neg h]
      obtain ⟨r, h1, h2, h3⟩ := copyIn_ok (inb := inb) (off := 0) (src := d) hl (by omega)
      rw [h1]
      refine ⟨buf, r, rfl, h2, by rw [absorb_small (by omega)], ?_⟩
      rw [Nat.mod_eq_of_lt (by omega), left_small (by omega)]
      simpa using h3

/-- The new low word of the bit count. -/
theorem bits0_eq (hW : 32 ≤ W) (T len t : Nat) (ht : t = 8 * T % 2 ^ 32) :
    (t + len * 8 % 2 ^ W) % 2 ^ W % 2 ^ 32 = 8 * (T + len) % 2 ^ 32 := by
  rw [Nat.add_mod_mod, Nat.mod_mod_of_dvd _ (Nat.pow_dvd_pow 2 hW)]
  omega

theorem bits1_eq (hW : 32 ≤ W) (T len t b1 : Nat) (ht : t = 8 * T % 2 ^ 32)
    (hb : b1 % 2 ^ 32 = 8 * T / 2 ^ 32 % 2 ^ 32) :
    ((if 8 * (T + len) % 2 ^ 32 < t then (b1 + 1) % 2 ^ W else b1) + len / 2 ^ 29) % 2 ^ W % 2 ^ 32 =
      8 * (T + len) / 2 ^ 32 % 2 ^ 32 := by
  have hd : (2 : Nat) ^ 32 ∣ 2 ^ W := Nat.pow_dvd_pow 2 hW
  rw [Nat.mod_mod_of_dvd _ hd]
  by_cases h : 8 * (T + len) % 2 ^ 32 < t
  · rw [if_pos h, Nat.add_mod, Nat.mod_mod_of_dvd _ hd, ← Nat.add_mod]
    simp only [Nat.reducePow] at *
    omega
  · rw [if_neg h]
    simp only [Nat.reducePow] at *
    omega

theorem update_spec (hW : 32 ≤ W) {c : Ctx W} {m : List Byte} (h : Absorbed c m) (d : List Byte) :
    ∃ c', update c d = some c' ∧ Absorbed c' (m ++ d) := by
  have hT : c.bits0 / 8 % 64 = m.length % 64 := by
    rw [h.bits0]; simp only [Nat.reducePow]; omega
  have hb0 := bits0_eq hW m.length d.length c.bits0 h.bits0
  have hb1 := bits1_eq hW m.length d.length c.bits0 c.bits1 h.bits0 h.bits1
  have hab := absorb_append m.length m start d (Nat.le_refl _)
  have hll := left_length m
  have mk : ∀ (buf : Regs W) (inb : List Byte), view 0 buf = absorb start (m ++ d) → inb.length = 64 →
      inb.take ((m ++ d).length % 64) = left (m ++ d) →
      Absorbed ⟨buf, (c.bits0 + d.length * 8 % 2 ^ W) % 2 ^ W % 2 ^ 32,
        ((if (c.bits0 + d.length * 8 % 2 ^ W) % 2 ^ W % 2 ^ 32 < c.bits0 then (c.bits1 + 1) % 2 ^ W
          else c.bits1) + d.length / 2 ^ 29) % 2 ^ W, inb⟩ (m ++ d) := by
    intro buf inb h1 h2 h3
    refine ⟨h1, ?_, ?_, h2, h3⟩
    · dsimp only; rw [hb0, List.length_append]
    · dsimp only; rw [hb0, hb1, List.length_append]
  unfold update
  simp only [hT]
  by_cases ht : m.length % 64 ≠ 0
  · rw [if_pos ht]
    by_cases hs : d.length < 64 - m.length % 64
    · rw [if_pos hs]
      obtain ⟨r, h1, h2, h3⟩ := copyIn_ok (inb := c.inb) (off := m.length % 64) (src := d) h.size (by omega)
      rw [h1]
      refine ⟨_, rfl, mk _ _ ?_ h2 ?_⟩
      · rw [h.state, hab.1, absorb_small (m := left m ++ d) (by rw [List.length_append]; omega)]
      · have e : (m ++ d).length % 64 = m.length % 64 + d.length := by rw [List.length_append]; omega
        rw [e, h3, h.pending, hab.2, left_small (m := left m ++ d) (by rw [List.length_append]; omega)]
    · rw [if_neg hs]
      have hlt : (d.take (64 - m.length % 64)).length = 64 - m.length % 64 := by simp; omega
      obtain ⟨r, h1, h2, h3⟩ := copyIn_ok (inb := c.inb) (off := m.length % 64)
        (src := d.take (64 - m.length % 64)) h.size (by rw [hlt]; omega)
      rw [h1]
      dsimp only
      obtain ⟨b', i', g1, g2, g3, g4⟩ := chunks_spec hW (d.drop (64 - m.length % 64)).length
        (transform c.buf r) r (d.drop (64 - m.length % 64)) (Nat.le_refl _) h2
      rw [g1]
      have hr : r = (left m ++ d).take 64 := by
        have e : m.length % 64 + (d.take (64 - m.length % 64)).length = 64 := by rw [hlt]; omega
        rw [e, List.take_of_length_le (by omega), h.pending] at h3
        rw [h3, List.take_append, List.take_of_length_le (l := left m) (by omega), hll]
      have hdr : (left m ++ d).drop 64 = d.drop (64 - m.length % 64) := by
        rw [List.drop_append, List.drop_eq_nil_of_le (by omega), hll]; rfl
      have h64 : 64 ≤ (left m ++ d).length := by rw [List.length_append]; omega
      refine ⟨_, rfl, mk _ _ ?_ g2 ?_⟩
      · rw [g3, transform_eq hW, h.state, hab.1, absorb_step h64, ← hr, hdr]
      · rw [hab.2, left_step h64, hdr, ← g4]
        congr 1
        rw [List.length_append, List.length_drop]; omega
  · rw [if_neg ht]
    have ht0 : m.length % 64 = 0 := by omega
    have hl0 : left m = [] := List.eq_nil_of_length_eq_zero (by omega)
    obtain ⟨b', i', g1, g2, g3, g4⟩ := chunks_spec hW d.length c.buf c.inb d (Nat.le_refl _) h.size
    rw [g1]
    rw [hl0, List.nil_append] at hab
    refine ⟨_, rfl, mk _ _ ?_ g2 ?_⟩
    · rw [g3, h.state, hab.1]
    · rw [hab.2, ← g4]
      congr 1
      rw [List.length_append]; omega

theorem ofNat_mod {n k : Nat} (h : n % 2 ^ 32 = k % 2 ^ 32) : BitVec.ofNat 32 n = BitVec.ofNat 32 k := by
  apply BitVec.eq_of_toNat_eq
  rw [BitVec.toNat_ofNat, BitVec.toNat_ofNat, h]

theorem le32_length (w : Word) : (le32 w).length = 4 := rfl

theorem digest_eq (hW : 32 ≤ W) (r : Regs W) (s : State) (h : view 0 r = s) :
    putu32 r.a ++ putu32 r.b ++ putu32 r.c ++ putu32 r.d = le32 s.a ++ le32 s.b ++ le32 s.c ++ le32 s.d := by
  subst h
  simp only [putu32_eq hW]
  rfl

theorem final_spec (hW : 32 ≤ W) {c : Ctx W} {m : List Byte} (h : Absorbed c m) :
    final c = some (digest m) := by
  have hT : c.bits0 / 8 % 64 = m.length % 64 := by
    rw [h.bits0]; simp only [Nat.reducePow]; omega
  have hll := left_length m
  have hlt : m.length % 64 < 64 := Nat.mod_lt _ (by omega)
  generalize hk : m.length % 64 = k at *
  have hp0 : putu32 (BitVec.ofNat W c.bits0) = le32 (BitVec.ofNat 32 (8 * m.length)) := by
    rw [putu32_eq hW, lo_ofNat hW]
    congr 1
    apply ofNat_mod
    rw [h.bits0, Nat.mod_mod]
  have hp1 : putu32 (BitVec.ofNat W c.bits1) = le32 (BitVec.ofNat 32 (8 * m.length / 2 ^ 32)) := by
    rw [putu32_eq hW, lo_ofNat hW]
    congr 1
    exact ofNat_mod h.bits1
  unfold final
  simp only [hT]
  obtain ⟨r0, a1, a2, a3⟩ := copyIn_ok (inb := c.inb) (off := k) (src := [0x80]) h.size (by simp; omega)
  rw [a1]
  dsimp only
  simp only [List.length_singleton] at a3
  have hpend := h.pending
  rw [hk] at hpend
  rw [hpend] at a3
  generalize hL0 : le32 (BitVec.ofNat 32 (8 * m.length)) = L0 at *
  generalize hL1 : le32 (BitVec.ofNat 32 (8 * m.length / 2 ^ 32)) = L1 at *
  have l0 : L0.length = 4 := by rw [← hL0]; rfl
  have l1 : L1.length = 4 := by rw [← hL1]; rfl
  -- the end of the computation, from a block with 56 known bytes
  have tail : ∀ (buf : Regs W) (i1 B : List Byte) (s : State), i1.length = 64 → i1.take 56 = B →
      view 0 buf = s →
      (match copyIn i1 56 (putu32 (BitVec.ofNat W c.bits0)) with
        | none => none
        | some i2 =>
          match copyIn i2 60 (putu32 (BitVec.ofNat W c.bits1)) with
          | none => none
          | some i3 =>
            let b := transform buf i3
            some (putu32 b.a ++ putu32 b.b ++ putu32 b.c ++ putu32 b.d)) =
      some (le32 (compress s (B ++ L0 ++ L1)).a ++ le32 (compress s (B ++ L0 ++ L1)).b ++
        le32 (compress s (B ++ L0 ++ L1)).c ++ le32 (compress s (B ++ L0 ++ L1)).d) := by
    intro buf i1 B s hl hB hs
    rw [hp0, hp1]
    obtain ⟨r1, b1, b2, b3⟩ := copyIn_ok (inb := i1) (off := 56) (src := L0) hl (by omega)
    rw [b1]
    dsimp only
    obtain ⟨r2, c1, c2, c3⟩ := copyIn_ok (inb := r1) (off := 60) (src := L1) b2 (by omega)
    rw [c1]
    dsimp only
    rw [l0] at b3
    rw [l1, b3, hB, List.take_of_length_le (by omega)] at c3
    rw [digest_eq hW _ (compress s (B ++ L0 ++ L1))]
    rw [transform_eq hW, hs, c3]
  unfold digest
  have hpad : pad m = m ++ ([0x80] ++ List.replicate ((119 - k) % 64) 0 ++ L0 ++ L1) := by
    unfold pad; rw [hk, hL0, hL1]; simp only [List.append_assoc]
  have hab := (absorb_append m.length m start ([0x80] ++ List.replicate ((119 - k) % 64) 0 ++ L0 ++ L1)
    (Nat.le_refl _)).1
  rw [hpad, hab]
  unfold padTo56
  by_cases hc : 64 - 1 - k < 8
  · rw [if_pos hc]
    obtain ⟨r1, b1, b2, b3⟩ := copyIn_ok (inb := r0) (off := k + 1)
      (src := List.replicate (64 - 1 - k) 0) a2 (by simp; omega)
    rw [b1]
    dsimp only
    obtain ⟨r2, c1, c2, c3⟩ := copyIn_ok (inb := r1) (off := 0) (src := List.replicate 56 0) b2
      (by simp)
    rw [c1]
    dsimp only
    have hr1 : r1 = left m ++ [0x80] ++ List.replicate (64 - 1 - k) 0 := by
      rw [List.length_replicate, show k + 1 + (64 - 1 - k) = 64 by omega,
        List.take_of_length_le (by omega), a3] at b3
      exact b3
    have hr2 : r2.take 56 = List.replicate 56 0 := by simpa using c3
    have hz : (119 - k) % 64 = (64 - 1 - k) + 56 := by omega
    have hsplit : left m ++ ([0x80] ++ List.replicate ((119 - k) % 64) 0 ++ L0 ++ L1) =
        r1 ++ (List.replicate 56 0 ++ L0 ++ L1) := by
      rw [hz, ← List.replicate_append_replicate, hr1]; simp only [List.append_assoc]
    refine (tail (transform c.buf r1) r2 _ _ c2 hr2 (transform_eq hW c.buf r1)).trans ?_
    have e1 : absorb (absorb start m) (left m ++ ([0x80] ++ List.replicate ((119 - k) % 64) 0 ++ L0 ++ L1)) =
        compress (compress (absorb start m) r1) (List.replicate 56 0 ++ L0 ++ L1) := by
      rw [hsplit, absorb_step (by simp; omega), List.take_append_of_le_length (by omega),
        List.take_of_length_le (by omega), List.drop_append_of_le_length (by omega),
        List.drop_eq_nil_of_le (by omega), List.nil_append]
      rw [absorb_step (by simp; omega), List.take_of_length_le (by simp; omega),
        List.drop_eq_nil_of_le (by simp; omega), absorb_small (by simp)]
    rw [e1, h.state]
  · rw [if_neg hc]
    obtain ⟨r1, b1, b2, b3⟩ := copyIn_ok (inb := r0) (off := k + 1)
      (src := List.replicate (64 - 1 - k - 8) 0) a2 (by simp; omega)
    rw [b1]
    dsimp only
    have hr1 : r1.take 56 = left m ++ [0x80] ++ List.replicate (64 - 1 - k - 8) 0 := by
      rw [List.length_replicate, show k + 1 + (64 - 1 - k - 8) = 56 by omega, a3] at b3
      exact b3
    refine (tail c.buf r1 _ _ b2 hr1 h.state).trans ?_
    have hz : (119 - k) % 64 = 64 - 1 - k - 8 := by omega
    have e1 : absorb (absorb start m) (left m ++ ([0x80] ++ List.replicate ((119 - k) % 64) 0 ++ L0 ++ L1)) =
        compress (absorb start m) (left m ++ [0x80] ++ List.replicate (64 - 1 - k - 8) 0 ++ L0 ++ L1) := by
      rw [hz]
      rw [absorb_step (by simp; omega), List.take_of_length_le (by simp; omega),
        List.drop_eq_nil_of_le (by simp; omega), absorb_small (by simp)]
      simp only [List.append_assoc]
    rw [e1]

theorem updates_spec (hW : 32 ≤ W) (ds : List (List Byte)) : ∀ {c : Ctx W} {m : List Byte}, Absorbed c m →
    ∃ c', updates c ds = some c' ∧ Absorbed c' (m ++ ds.flatten) := by
  induction ds with
  | nil => intro c m h; exact ⟨c, rfl, by simpa using h⟩
  | cons d ds ih =>
    intro c m h
    obtain ⟨c1, h1, h2⟩ := update_spec hW h d
    obtain ⟨c2, h3, h4⟩ := ih h2
    refine ⟨c2, by rw [updates, h1]; exact h3, ?_⟩
    rw [List.flatten_cons, ← List.append_assoc]; exact h4

end Verif.Md5
