import Verif.Intnum.Lemmas

set_option linter.unusedSimpArgs false
namespace Verif.Intnum
open Verif.Bitvect

theorem toInt_not' (a : BitVec 256) : (~~~a).toInt = -a.toInt - 1 := by
  rw [toInt_eq_toNat_sub, toInt_eq_toNat_sub a, BitVec.toNat_not, BitVec.msb_not]
  have := a.isLt
  cases a.msb <;> simp <;> omega

theorem bits_ext (r a b : BitVec 256) (f : Bool → Bool → Bool)
    (h : ∀ i, i < 256 → r.getLsbD i = f (a.getLsbD i) (b.getLsbD i)) (i : Nat) :
    ibit r.toInt i = f (ibit a.toInt i) (ibit b.toInt i) := by
  rw [toInt_bits, toInt_bits, toInt_bits]
  by_cases hi : i < 256
  · simp only [if_pos hi]; exact h i hi
  · simp only [if_neg hi]
    rw [BitVec.msb_eq_getLsbD_last, BitVec.msb_eq_getLsbD_last, BitVec.msb_eq_getLsbD_last]
    exact h 255 (by decide)

theorem tdiv_range (x y : Int) : (x.tdiv y).natAbs ≤ x.natAbs := by
  rw [Int.natAbs_tdiv]; exact Nat.div_le_self _ _

theorem tmod_range (x y : Int) : (x.tmod y).natAbs ≤ x.natAbs := by
  rw [Int.natAbs_tmod]; exact Nat.mod_le _ _

theorem toInt_inj_iff (a b : BitVec 256) : (a == b) = decide (a.toInt = b.toInt) := by
  by_cases h : a = b
  · simp [h]
  · have : a.toInt ≠ b.toInt := fun hh => h (BitVec.toInt_inj.1 hh)
    simp [h, this]

/-- What the operand must look like for the shift operators. -/
def shiftVal : Intnum → Option (BitVec 64)
  | .L l => if l.slt 0#64 then none else some l
  | .BV _ => none

theorem calcSwitch_value (stale : BitVec 256) (op : Op) (a b : BitVec 256) (o : Intnum)
    (hn : Numeric op) (hs : op ≠ .SHL ∧ op ≠ .SHR) (hd : IsDiv op → b.toInt ≠ 0)
    (hm : op = .MUL → (a.toInt * b.toInt).natAbs < 2 ^ 255) :
    ∃ r, calcSwitch stale op a o b = .inr (r, none) ∧ OpRel op a.toInt b.toInt r.toInt := by
  have ha0 := toInt_ne_zero a
  have hb0 := toInt_ne_zero b
  have ha := val_range (.BV a)
  have hb := val_range (.BV b)
  simp only [val] at ha hb
  have hcmp := cmp_spec a b
  cases op
  case IDENT => exact ⟨a, rfl, rfl⟩
  case ADD => exact ⟨_, rfl, by simp only [OpRel]; rw [BitVec.toInt_add]; rfl⟩
  case SUB => exact ⟨_, rfl, by simp only [OpRel]; rw [BitVec.toInt_sub]; rfl⟩
  case MUL =>
    refine ⟨_, rfl, ?_⟩
    have := (multiply_spec a b (by have := hm rfl; omega)).1
    simp only [OpRel]; rw [this, ofInt_toInt]
  case DIV =>
    have hz : b.toNat ≠ 0 := fun h => hd (Or.inl rfl) (hb0.2 h)
    refine ⟨BitVec.ofInt 256 (a.toInt.tdiv b.toInt), ?_, by simp only [OpRel]; rw [ofInt_toInt]⟩
    simp [calcSwitch, divCase, hz, divide_spec a b hz]
  case SIGNDIV =>
    have hz : b.toNat ≠ 0 := fun h => hd (Or.inr (Or.inl rfl)) (hb0.2 h)
    refine ⟨BitVec.ofInt 256 (a.toInt.tdiv b.toInt), ?_, by simp only [OpRel]; rw [ofInt_toInt]⟩
    simp [calcSwitch, divCase, hz, divide_spec a b hz]
  case MOD =>
    have hz : b.toNat ≠ 0 := fun h => hd (Or.inr (Or.inr (Or.inl rfl))) (hb0.2 h)
    have hr := tmod_range a.toInt b.toInt
    have hnn : b.toInt.natAbs ≠ 0 := by have := hd (Or.inr (Or.inr (Or.inl rfl))); omega
    have hlt : (a.toInt.tmod b.toInt).natAbs < b.toInt.natAbs := by
      rw [Int.natAbs_tmod]; exact Nat.mod_lt _ (by omega)
    refine ⟨BitVec.ofInt 256 (a.toInt.tmod b.toInt), ?_, ?_⟩
    · simp [calcSwitch, divCase, hz, divide_spec a b hz]
    · simp only [OpRel]; rw [ofInt_toInt, wrap_of_range] <;> omega
  case SIGNMOD =>
    have hz : b.toNat ≠ 0 := fun h => hd (Or.inr (Or.inr (Or.inr rfl))) (hb0.2 h)
    have hr := tmod_range a.toInt b.toInt
    have hnn : b.toInt.natAbs ≠ 0 := by have := hd (Or.inr (Or.inr (Or.inr rfl))); omega
    have hlt : (a.toInt.tmod b.toInt).natAbs < b.toInt.natAbs := by
      rw [Int.natAbs_tmod]; exact Nat.mod_lt _ (by omega)
    refine ⟨BitVec.ofInt 256 (a.toInt.tmod b.toInt), ?_, ?_⟩
    · simp [calcSwitch, divCase, hz, divide_spec a b hz]
    · simp only [OpRel]; rw [ofInt_toInt, wrap_of_range] <;> omega
  case NEG => exact ⟨_, rfl, by simp only [OpRel]; rw [BitVec.toInt_neg]; rfl⟩
  case NOT => exact ⟨_, rfl, by simp only [OpRel]; rw [toInt_not']⟩
  case OR => exact ⟨_, rfl, bits_ext _ a b (fun x y => x || y) (fun i _ => BitVec.getLsbD_or)⟩
  case AND => exact ⟨_, rfl, bits_ext _ a b (fun x y => x && y) (fun i _ => BitVec.getLsbD_and)⟩
  case XOR => exact ⟨_, rfl, bits_ext _ a b (fun x y => x ^^ y) (fun i _ => BitVec.getLsbD_xor)⟩
  case XNOR =>
    exact ⟨_, rfl, bits_ext _ a b (fun x y => !(x ^^ y))
      (fun i hi => by rw [BitVec.getLsbD_not, BitVec.getLsbD_xor]; simp [hi])⟩
  case NOR =>
    exact ⟨_, rfl, bits_ext _ a b (fun x y => !(x || y))
      (fun i hi => by rw [BitVec.getLsbD_not, BitVec.getLsbD_or]; simp [hi])⟩
  case SHL => exact absurd rfl hs.1
  case SHR => exact absurd rfl hs.2
  case LOR => exact ⟨_, rfl, by simp only [OpRel]; rw [boolBv_toInt]; simp [ha0, hb0]⟩
  case LAND => exact ⟨_, rfl, by simp only [OpRel]; rw [boolBv_toInt]; simp [ha0, hb0]⟩
  case LNOT => exact ⟨_, rfl, by simp only [OpRel]; rw [boolBv_toInt]; simp [ha0, hb0]⟩
  case LXOR =>
    refine ⟨_, rfl, ?_⟩
    simp only [OpRel]; rw [boolBv_toInt]
    by_cases h1 : a.toInt = 0 <;> by_cases h2 : b.toInt = 0 <;> simp [← ha0, ← hb0, h1, h2]
  case LXNOR =>
    refine ⟨_, rfl, ?_⟩
    simp only [OpRel]; rw [boolBv_toInt]
    by_cases h1 : a.toInt = 0 <;> by_cases h2 : b.toInt = 0 <;> simp [← ha0, ← hb0, h1, h2]
  case LNOR => exact ⟨_, rfl, by simp only [OpRel]; rw [boolBv_toInt]; simp [ha0, hb0]⟩
  case LT =>
    refine ⟨_, rfl, ?_⟩
    simp only [OpRel]; rw [boolBv_toInt, hcmp]; congr 1
    split <;> (try split) <;> simp <;> omega
  case GT =>
    refine ⟨_, rfl, ?_⟩
    simp only [OpRel]; rw [boolBv_toInt, hcmp]; congr 1
    split <;> (try split) <;> simp <;> omega
  case EQ => exact ⟨_, rfl, by simp only [OpRel]; rw [boolBv_toInt, toInt_inj_iff]⟩
  case LE =>
    refine ⟨_, rfl, ?_⟩
    simp only [OpRel]; rw [boolBv_toInt, hcmp]; congr 1
    split <;> (try split) <;> simp <;> omega
  case GE =>
    refine ⟨_, rfl, ?_⟩
    simp only [OpRel]; rw [boolBv_toInt, hcmp]; congr 1
    split <;> (try split) <;> simp <;> omega
  case NE => exact ⟨_, rfl, by simp only [OpRel]; rw [boolBv_toInt, toInt_inj_iff]; simp⟩
  case NONNUM => exact absurd rfl hn.1
  case SEG => exact absurd rfl hn.2.1
  case WRT => exact absurd rfl hn.2.2.1
  case SEGOFF => exact absurd rfl hn.2.2.2

theorem bmod_mul_big (a : Int) (n k : Nat) (h : n ≤ k) : Int.bmod (a * 2 ^ k) (2 ^ n) = 0 := by
  have : (2:Int) ^ k = ((2 ^ n : Nat) : Int) * 2 ^ (k - n) := by
    rw [Int.natCast_pow]
    show (2:Int) ^ k = 2 ^ n * 2 ^ (k - n)
    rw [← Int.pow_add]; congr 1; omega
  rw [this, ← Int.mul_assoc, Int.mul_comm a, Int.mul_assoc, Int.mul_bmod_right]

theorem wrap_mul_big (a : Int) (k : Nat) (h : 256 ≤ k) : wrap (a * 2 ^ k) = 0 := bmod_mul_big a 256 k h

theorem ediv_pow_big (a : Int) (k : Nat) (h0 : 0 ≤ a) (h1 : a < 2 ^ 255) (h : 256 ≤ k) :
    a / 2 ^ k = 0 := by
  apply Int.ediv_eq_zero_of_lt h0
  have : (2:Int) ^ 255 ≤ 2 ^ k := by
    have := Nat.pow_le_pow_right (n := 2) (by decide) (show 255 ≤ k by omega)
    exact_mod_cast this
  omega

theorem toNat_of_nonneg (l : BitVec 64) (h : ¬ l.toInt < 0) : (l.toNat : Int) = l.toInt := by
  have ex := toInt_eq_toNat_sub l
  have hm : l.msb = false := by
    cases hm : l.msb
    · rfl
    · exact absurd ((toInt_neg_iff l).1 hm) h
  rw [hm] at ex; simp at ex; omega

theorem slt_zero (l : BitVec 64) : l.slt 0#64 = decide (l.toInt < 0) := by rw [BitVec.slt]; simp

theorem calcSwitch_shift (stale : BitVec 256) (op : Op) (a b : BitVec 256) (o : Intnum)
    (hs : op = .SHL ∨ op = .SHR) (hf : Fits o)
    (hr : op = .SHR → 0 ≤ a.toInt ∨ ∃ l, o = .L l) :
    ∃ r, calcSwitch stale op a o b = .inr (r, none) ∧ OpRel op a.toInt (val o) r.toInt := by
  have ha := val_range (.BV a)
  simp only [val] at ha
  cases o with
  | L l =>
    simp only [Fits, val] at *
    have hsl := slt_zero l
    by_cases hneg : l.toInt < 0
    · have hsl' : l.slt 0#64 = true := by rw [hsl]; simpa using hneg
      rcases hs with rfl | rfl
      · exact ⟨0#256, by simp [calcSwitch, hsl'], by simp [OpRel, hneg]⟩
      · exact ⟨0#256, by simp [calcSwitch, hsl'], by simp [OpRel, hneg]⟩
    · have hsl' : l.slt 0#64 = false := by rw [hsl]; simpa using hneg
      have hnat := toNat_of_nonneg l hneg
      have hlt : l.toNat < 2 ^ 32 := by omega
      have htn : l.toInt.toNat = l.toNat := by omega
      rcases hs with rfl | rfl
      · refine ⟨moveLeft a (l.toNat % 2 ^ 32), by simp [calcSwitch, hsl'], ?_⟩
        simp only [OpRel, if_neg hneg]
        rw [Nat.mod_eq_of_lt hlt, moveLeft_eq, ofInt_toInt, htn]
      · refine ⟨shrLoop a.msb (l.toNat % 2 ^ 32) a, by simp [calcSwitch, hsl'], ?_⟩
        simp only [OpRel, if_neg hneg]
        rw [Nat.mod_eq_of_lt hlt, shrLoop_toInt _ _ (by decide), htn]
  | BV v =>
    simp only [Fits, val] at *
    rcases hs with rfl | rfl
    · refine ⟨0#256, by simp [calcSwitch], ?_⟩
      simp only [OpRel]
      split
      · simp
      · rw [wrap_mul_big _ _ (by omega)]; simp
    · refine ⟨0#256, by simp [calcSwitch], ?_⟩
      have h0 : 0 ≤ a.toInt := by
        rcases hr rfl with h | ⟨l, h⟩
        · exact h
        · cases h
      simp only [OpRel]
      split
      · simp
      · rw [ediv_pow_big _ _ h0 ha.2 (by omega)]; simp

theorem intCalc_value (stale : BitVec 256) (op : Op) (acc o : Intnum)
    (hfa : Fits acc) (hfo : Fits o) (hn : Numeric op) (hd : IsDiv op → val o ≠ 0)
    (hm : op = .MUL → (val acc * val o).natAbs < 2 ^ 255)
    (hr : op = .SHR → 0 ≤ val acc ∨ ∃ l, o = .L l) :
    ∃ r, intCalc stale acc op (some o) = ⟨r, 0, none⟩ ∧ OpRel op (val acc) (val o) (val r) ∧ Canon r := by
  have ea := tobv_toInt acc hfa
  have eo := tobv_toInt o hfo
  have : ∃ r, calcSwitch stale op (tobv acc) o (tobv o) = .inr (r, none) ∧
      OpRel op (val acc) (val o) r.toInt := by
    by_cases hs : op = .SHL ∨ op = .SHR
    · have := calcSwitch_shift stale op (tobv acc) (tobv o) o hs hfo (by rw [ea]; exact hr)
      rwa [ea] at this
    · have := calcSwitch_value stale op (tobv acc) (tobv o) o hn
        ⟨fun h => hs (Or.inl h), fun h => hs (Or.inr h)⟩ (by rw [eo]; exact hd) (by rw [ea, eo]; exact hm)
      rwa [ea, eo] at this
  obtain ⟨r, h1, h2⟩ := this
  refine ⟨frombv r, by simp [intCalc, h1], ?_, (frombv_spec r).2⟩
  rw [(frombv_spec r).1]; exact h2

theorem intCalc_unary (stale : BitVec 256) (op : Op) (acc : Intnum) (hfa : Fits acc)
    (hu : op = .NEG ∨ op = .NOT ∨ op = .LNOT) :
    ∃ r, intCalc stale acc op none = ⟨r, 0, none⟩ ∧ (∀ b, OpRel op (val acc) b (val r)) ∧ Canon r := by
  have ea := tobv_toInt acc hfa
  have hsp := calcSwitch_value stale op (tobv acc) 0#256 (.L 0#64)
    (by rcases hu with h | h | h <;> subst h <;> simp [Numeric])
    (by rcases hu with h | h | h <;> subst h <;> simp)
    (by intro h; rcases hu with h' | h' | h' <;> subst h' <;> simp [IsDiv] at h)
    (by rcases hu with h | h | h <;> subst h <;> simp)
  obtain ⟨r, h1, h2⟩ := hsp
  rw [ea] at h2
  refine ⟨frombv r, ?_, ?_, (frombv_spec r).2⟩
  · rcases hu with h | h | h <;> subst h <;> simp [intCalc, unary, h1]
  · intro b
    rw [(frombv_spec r).1]
    rcases hu with h | h | h <;> subst h <;> exact h2

end Verif.Intnum
