/-
C52: the bytes of a memory operand denote the address that was written.
-/
import Verif.Ea.Address
import Verif.Ea.Kept
import Verif.Expr.Eq

namespace Verif.Ea

open Verif.Intnum
open Verif.Expr
open Verif.Value

/-- C52.  If the assembler accepts a memory operand, the processor, reading the ModRM and SIB bytes with the
    extension bits of the REX or VEX prefix, finds registers that together with the displacement give the
    address written, and as many displacement bytes as there are; the displacement is shortened to a byte or
    dropped only if that does not change it.
    Partial: multipliers must be small (`SmallUses`), and an address whose registers are in a sum that is
    multiplied is covered in 32-bit and 64-bit addresses only, and only if it does not multiply out to a
    lone product of three or more factors (`Written`). -/
theorem address_partial (ρ : Env) (rf : RegFile ρ) (c : Ctx) (base : Nat → Word) (ag : ρ.Agrees c base) (nequ absSym : Nat)
    (ea : Effaddr) (addrsize bits : Nat) (rex : BitVec 8) (r : Checked)
    (hbits : bits = 16 ∨ bits = 32 ∨ bits = 64) (ha : addrsize = 0 ∨ addrsize = 16 ∨ addrsize = 32 ∨ addrsize = 64)
    (h : (checkea c nequ absSym ea addrsize bits false rex).out = .ok r)
    (sound : ∀ k ∈ (checkea c nequ absSym ea addrsize bits false rex).log, k.Sound)
    (fresh : Fresh ea) (hp : PlainParts ea.disp.p) (hrex : RexFree rex)
    (hgood : ∀ e, ea.disp.abs = some e → Good ρ e.item ∧ Written c nequ ea.vsib bits r.addrsize e) :
    ∃ m, decoded r bits = some m ∧ Faithful ρ absSym ea r m := by
  unfold checkea at h sound
  obtain ⟨a, h1, h2, h3⟩ := Run.bind_out h
  rw [h3] at sound
  have sound' := fun k hk => sound k (List.mem_append_right _ hk)
  simp only [Run.of] at h1
  have hreg : (∀ t n, regSize t = some n → n = 16 ∨ n = 32 ∨ n = 64) ∧ (∀ ts n, regSizeL ts = some n → n = 16 ∨ n = 32 ∨ n = 64) := by
    apply item_ind
    · intro t ht n hn
      cases t
      case expr => exact absurd ht id
      case reg q =>
        simp only [regSize] at hn
        split at hn <;> simp at hn <;> omega
      all_goals simp [regSize] at hn
    · intro op ts ih n hn; simp only [regSize] at hn; exact ih n hn
    · intro n hn; simp [regSizeL] at hn
    · intro t ts ht hts n hn
      simp only [regSizeL] at hn
      split at hn
      · rename_i k hk
        simp only [Option.some.injEq] at hn
        subst hn; exact ht k hk
      · exact hts n hn
  have hA : a = 16 ∨ a = 32 ∨ a = 64 := by
    by_cases h0 : addrsize = 0
    · rw [if_pos h0] at h1
      unfold addrSize at h1
      extract_lets byRegs at h1
      have hby : byRegs = 16 ∨ byRegs = 32 ∨ byRegs = 64 := by
        simp only [byRegs]
        split
        · omega
        · split
          · exact hbits
          · rename_i e he
            cases hr : regSizeL e.terms with
            | none => simpa using hbits
            | some n => simpa using hreg.2 _ n hr
      clear_value byRegs
      split at h1
      · cases h1; simp
      · split at h1
        · split at h1
          · cases h1
          · cases h1; simp
        · split at h1
          · split at h1
            · cases h1; simp
            · cases h1; exact hby
          · cases h1; exact hby
    · rw [if_neg h0] at h1
      cases h1; omega
  by_cases h3264 : (a = 32 ∨ a = 64)
  · have hc : (a = 32 ∨ a = 64) ∧ ((ea.needModrm && !ea.validModrm) || (decide (ea.needSib ≠ 0) && !ea.validSib)) = true :=
      ⟨h3264, by rw [fresh.needModrm, fresh.validModrm]; simp⟩
    rw [if_pos hc] at h2 sound'
    have hra : r.addrsize = a := by
      unfold check3264 at h2
      split at h2
      · cases h2
      · obtain ⟨_, _, h2, _⟩ := Run.bind_out h2
        obtain ⟨_, _, h2, _⟩ := Run.bind_out h2
        obtain ⟨_, _, h2, _⟩ := Run.bind_out h2
        simp only [Run.of, Except.ok.injEq] at h2
        rw [← h2]
    rw [hra] at hgood
    exact (check3264_ok ρ rf c base ag nequ absSym ea a bits rex r h2 sound' fresh hp hrex h3264 hgood).2
  · have h16 : a = 16 := by omega
    rw [if_neg (fun h => h3264 h.1), if_pos ⟨h16, fresh.needModrm, fresh.validModrm⟩] at h2 sound'
    have hra : r.addrsize = 16 := by
      unfold check16 at h2
      split at h2
      · cases h2
      · obtain ⟨_, _, h2, _⟩ := Run.bind_out h2
        dsimp only at h2
        split at h2
        · cases h2
        · split at h2
          · cases h2
          · obtain ⟨_, _, h2, _⟩ := Run.bind_out h2
            simp only [Run.of, Except.ok.injEq] at h2
            rw [← h2]
    rw [hra] at hgood
    exact (check16_ok ρ c base ag nequ absSym ea bits rex r h2 sound' fresh hp hgood).2


/-! ### Cases that meet the hypotheses -/

/-- The bits of the other operand and of the operand size are left alone: the reg field of ModRM, and all of
    REX but the bits B and X (and the bit that makes it a REX byte). -/
theorem other_bits_kept (c : Ctx) (nequ absSym : Nat) (ea : Effaddr) (addrsize bits : Nat) (a16 : Bool) (rex : BitVec 8)
    (r : Checked) (h : (checkea c nequ absSym ea addrsize bits a16 rex).out = .ok r) :
    r.ea.modrm &&& 0x38#8 = ea.modrm &&& 0x38#8 ∧ r.rex &&& 0xBC#8 = rex &&& 0xBC#8 :=
  checkea_kept h


/-- A program without EQU symbols; labels 1 and 2 are 0x10 apart. -/
def ctx : Ctx where
  equ _ := none
  label s := if s = 1 then some 1 else if s = 2 then some 2 else none
  sect _ := 0
  next b := if b = 1 then 0x20 else if b = 2 then 0x30 else 0

/-- Registers have the values `f` gives them. -/
def env (f : Nat → Word) : Env where
  reg r := if r / 16 = 13 then f 0xD0 else f r
  subst _ := 0
  flt _ := 0
  sym s := if s = 1 then 0x20 else if s = 2 then 0x30 else if s = 9 then 0 else 0x1000
  precbc b := if b = 1 then 0x20 else if b = 2 then 0x30 else 0
  seg a := a
  wrt a _ := a
  segoff a _ := a

theorem env_agrees (f : Nat → Word) : (env f).Agrees ctx (fun _ => 0) where
  equ := by simp [ctx]
  label := by
    intro s b h
    simp only [ctx] at h
    split at h
    · rename_i hs; simp only [Option.some.injEq] at h; subst h; subst hs; rfl
    · split at h
      · rename_i hs; simp only [Option.some.injEq] at h; subst h; subst hs; rfl
      · cases h
  precbc := by
    intro b
    by_cases h1 : b = 1
    · subst h1; simp [env, ctx]
    · by_cases h2 : b = 2
      · subst h2; simp [env, ctx]
      · simp [env, ctx, h1, h2]
  small := by
    intro b
    by_cases h1 : b = 1
    · subst h1; simp [ctx]
    · by_cases h2 : b = 2
      · subst h2; simp [ctx]
      · simp [ctx, h1, h2]
  seg := by simp [env]

theorem env_regs (f : Nat → Word) : RegFile (env f) where
  rip := by intro r h; simp [env, h]
  wrtRip := by intro a r _; rfl

/-- The operand the parser makes of an expression. -/
def operand (e : Node) : Effaddr where
  disp := ⟨some e, ⟨none, none, false, 0, false⟩, false⟩
  ipRel := false
  size := 0
  needNonzero := false
  needDisp := true
  nosplit := false
  pcRel := false
  vsib := 0
  modrm := 0x08
  validModrm := false
  needModrm := true
  sib := 0
  validSib := false
  needSib := 255

theorem operand_fresh (e : Node) : Fresh (operand e) ∧ PlainParts (operand e).disp.p := by
  exact ⟨⟨show (0x08#8) &&& 0xC7#8 = 0#8 by decide, rfl, rfl, rfl, rfl, rfl, Nat.zero_le 2⟩, ⟨fun _ => rfl, rfl⟩⟩

/-- What is looked at in the examples: ModRM, SIB, REX, the displacement bytes and the displacement. -/
structure Shape where
  modrm : BitVec 8
  sib : BitVec 8
  rex : BitVec 8
  bytes : Nat
  disp : Option Node
  ipRel : Bool
deriving DecidableEq

/-- The same of a result. -/
def shape (r : Checked) : Shape := ⟨r.ea.modrm, r.ea.sib, r.rex, dispBytes r.ea, r.ea.disp.abs, r.ea.ipRel⟩

theorem small_of {c : Ctx} {nequ : Nat} {getReg : Nat → Option Nat} {want : Bool} {bits : Nat} {e : Node}
    {us : List (Nat × Intnum)} {pc : Bool}
    (h : ((getRegUsage c nequ getReg want bits e).out.map fun x => (x.2.1.uses, x.2.2)) = .ok (us, pc))
    (h1 : ∀ u ∈ us, Canon u.2) (h2 : total us < 2 ^ 31 - 1) (h3 : pc = true → ∀ u ∈ us, u.1 / 16 ≠ 13)
    (h4 : bits ≠ 64 → ∀ u ∈ us, u.1 % 16 < 8) : SmallUses c nequ getReg want bits e := by
  intro x hx
  rw [hx] at h
  simp only [Except.map, Except.ok.injEq, Prod.mk.injEq] at h
  rw [h.1, h.2]
  exact ⟨h1, h2, h3, h4⟩

/-- `[eax + ebx*4 + 8]`. -/
def sum : Node := ⟨.ADD, [.reg 0x40, .expr .ADD [.expr .MUL [.reg 0x43, .int (.L 4)], .int (.L 8)]]⟩
/-- `[(r13 + 1)*2]`, which has to be multiplied out. -/
def twice : Node := ⟨.MUL, [.expr .ADD [.reg 0x5D, .int (.L 1)], .int (.L 2)]⟩
/-- `[bx + si + 100]`. -/
def small : Node := ⟨.ADD, [.reg 0x33, .expr .ADD [.reg 0x36, .int (.L 100)]]⟩

/-- `[foo]` in `default rel` mode: the symbol is the relocatable part, the absolute part is empty. -/
def foo : Effaddr := { operand sum with disp := ⟨none, ⟨some 7, none, false, 0, false⟩, false⟩, pcRel := true }

-- the encodings: [ebx*4+eax+8]; REX 43: [r13*1+r13+2]; [bx+si+100]; [rip+...]
example : (checkea ctx 0 9 (operand sum) 0 32 false 0).out.map shape =
    .ok ⟨0x4C, 0x98, 0, 1, some ⟨.IDENT, [.int (.L 8)]⟩, false⟩ := by with_unfolding_all decide +kernel
example : (checkea ctx 0 9 (operand twice) 0 64 false 0).out.map shape =
    .ok ⟨0x4C, 0x2D, 0x43, 1, some ⟨.IDENT, [.int (.L 2)]⟩, false⟩ := by with_unfolding_all decide +kernel
example : (checkea ctx 0 9 (operand small) 0 16 false 0).out.map shape =
    .ok ⟨0x48, 0, 0, 1, some ⟨.IDENT, [.int (.L 100)]⟩, false⟩ := by with_unfolding_all decide +kernel
example : (checkea ctx 0 9 foo 0 64 false 0).out.map shape = .ok ⟨0x0D, 0, 0, 4, none, true⟩ := by
  with_unfolding_all decide +kernel

/-- The constant computations of the examples are sound. -/
theorem sound_calls (k : Call) (h : k ∈ [⟨.MUL, .L 1, .L 2⟩, ⟨.MUL, .L 0, .L 2⟩, ⟨.ADD, .L 0, .L 2⟩, ⟨.MUL, .L 0, .L 4⟩,
    ⟨.ADD, .L 0, .L 0⟩, ⟨.ADD, .L 0, .L 8⟩, (⟨.ADD, .L 0, .L 100⟩ : Call)]) : k.Sound := by
  simp only [List.mem_cons, List.not_mem_nil, or_false] at h
  rcases h with rfl | rfl | rfl | rfl | rfl | rfl | rfl
  all_goals first
    | (simp only [Call.Sound, IsDiv, reduceCtorEq, or_self, false_implies, and_true, true_implies]; decide)
    | simp [Call.Sound, IsDiv]

theorem sum_written : Written ctx 0 0 32 32 sum := by
  unfold Written
  rw [if_neg (by decide)]
  refine ⟨small_of (us := [(0x40, .L 1), (0x43, .L 4)]) (pc := false) (by with_unfolding_all decide +kernel) ?_ ?_ ?_ ?_, Or.inl ?_⟩
  · intro u hu
    simp only [List.mem_cons, List.not_mem_nil, or_false] at hu
    rcases hu with rfl | rfl <;> simp only [Canon] <;> decide
  · decide
  · simp
  · intro _ u hu
    simp only [List.mem_cons, List.not_mem_nil, or_false] at hu
    rcases hu with rfl | rfl <;> decide
  · intro e1 h1
    have e : (simplify ctx 0 false false sum).out =
        .ok ⟨.ADD, [.reg 0x40, .expr .MUL [.reg 0x43, .int (.L 4)], .int (.L 8)]⟩ := by with_unfolding_all decide +kernel
    rw [e] at h1
    simp only [Except.ok.injEq] at h1
    subst h1
    simp [NoProduct, NoProductL, Node.item]

theorem sum_good (f : Nat → Word) : Good (env f) sum.item := by
  simp only [sum, Node.item, Good, GoodL, Arity, Fits, reduceCtorEq, or_self, false_implies, and_true, true_and, List.length_cons,
    List.length_nil]
  decide

theorem sum_sound : ∀ k ∈ (checkea ctx 0 9 (operand sum) 0 32 false 0).log, k.Sound := by
  have e : (checkea ctx 0 9 (operand sum) 0 32 false 0).log = [⟨.MUL, .L 0, .L 4⟩, ⟨.ADD, .L 0, .L 0⟩, ⟨.ADD, .L 0, .L 8⟩] := by
    with_unfolding_all decide +kernel
  rw [e]
  intro k hk
  exact sound_calls k (by
    simp only [List.mem_cons, List.not_mem_nil, or_false] at hk
    rcases hk with rfl | rfl | rfl <;> simp)

/-- All hypotheses hold for `[eax + ebx*4 + 8]`. -/
example (f : Nat → Word) : RegFile (env f) ∧ (env f).Agrees ctx (fun _ => 0) ∧ Fresh (operand sum) ∧
    PlainParts (operand sum).disp.p ∧ RexFree 0 ∧ (∀ k ∈ (checkea ctx 0 9 (operand sum) 0 32 false 0).log, k.Sound) ∧
    Good (env f) sum.item ∧ Written ctx 0 0 32 32 sum :=
  ⟨env_regs f, env_agrees f, (operand_fresh sum).1, (operand_fresh sum).2, Or.inr (by decide), sum_sound, sum_good f, sum_written⟩

/-- ... and for `[(r13 + 1)*2]`. -/
example (f : Nat → Word) : Good (env f) twice.item ∧ Written ctx 0 0 64 64 twice ∧
    ∀ k ∈ (checkea ctx 0 9 (operand twice) 0 64 false 0).log, k.Sound := by
  refine ⟨?_, ?_, ?_⟩
  · simp only [twice, Node.item, Good, GoodL, Arity, Fits, reduceCtorEq, or_self, false_implies, and_true, true_and, List.length_cons,
      List.length_nil]
    decide
  · unfold Written
    rw [if_neg (by decide)]
    refine ⟨small_of (us := [(0x5D, .L 2)]) (pc := false) (by with_unfolding_all decide +kernel) ?_ ?_ ?_ ?_,
      Or.inr ⟨fun s d h => by simp [ctx] at h, ?_⟩⟩
    · intro u hu
      simp only [List.mem_cons, List.not_mem_nil, or_false] at hu
      subst hu; simp only [Canon]; decide
    · decide
    · simp
    · simp
    · intro e1 w e2 h1 h2 h3 us hus
      have e : (simplify ctx 0 false false twice).out = .ok twice := by with_unfolding_all decide +kernel
      rw [e] at h1
      simp only [Except.ok.injEq] at h1
      subst h1
      simp only [checkWrt, extractWrt, twice, Except.ok.injEq] at h2
      subst h2
      have e' : (distAll ctx 0 false twice).out = .ok ⟨.ADD, [.expr .MUL [.reg 0x5D, .int (.L 2)], .int (.L 2)]⟩ := by
        with_unfolding_all decide +kernel
      have h4 := e'.symm.trans h3
      simp only [Except.ok.injEq] at h4
      rw [← h4] at hus
      cases hus
  · have e : (checkea ctx 0 9 (operand twice) 0 64 false 0).log = [⟨.MUL, .L 1, .L 2⟩, ⟨.MUL, .L 0, .L 2⟩, ⟨.ADD, .L 0, .L 2⟩] := by
      with_unfolding_all decide +kernel
    rw [e]
    intro k hk
    exact sound_calls k (by
      simp only [List.mem_cons, List.not_mem_nil, or_false] at hk
      rcases hk with rfl | rfl | rfl <;> simp)

/-- ... and for `[bx + si + 100]`. -/
example (f : Nat → Word) : Good (env f) small.item ∧ Written ctx 0 0 16 16 small ∧
    ∀ k ∈ (checkea ctx 0 9 (operand small) 0 16 false 0).log, k.Sound := by
  refine ⟨?_, ?_, ?_⟩
  · simp only [small, Node.item, Good, GoodL, Arity, Fits, reduceCtorEq, or_self, false_implies, and_true, true_and, List.length_cons,
      List.length_nil]
    decide
  · unfold Written
    rw [if_pos rfl]
    refine ⟨small_of (us := [(0x33, .L 1), (0x36, .L 1)]) (pc := false) (by with_unfolding_all decide +kernel) ?_ ?_ ?_ ?_, ?_⟩
    · intro u hu
      simp only [List.mem_cons, List.not_mem_nil, or_false] at hu
      rcases hu with rfl | rfl <;> simp only [Canon] <;> decide
    · decide
    · simp
    · intro _ u hu
      simp only [List.mem_cons, List.not_mem_nil, or_false] at hu
      rcases hu with rfl | rfl <;> decide
    · intro e1 h1
      have e : (simplify ctx 0 true false small).out = .ok ⟨.ADD, [.reg 0x33, .reg 0x36, .int (.L 100)]⟩ := by
        with_unfolding_all decide +kernel
      rw [e] at h1
      simp only [Except.ok.injEq] at h1
      subst h1
      simp [NoProduct, NoProductL, Node.item]
  · have e : (checkea ctx 0 9 (operand small) 0 16 false 0).log = [⟨.ADD, .L 0, .L 0⟩, ⟨.ADD, .L 0, .L 100⟩] := by
      with_unfolding_all decide +kernel
    rw [e]
    intro k hk
    exact sound_calls k (by
      simp only [List.mem_cons, List.not_mem_nil, or_false] at hk
      rcases hk with rfl | rfl <;> simp)

/-! ### Where the full property fails -/

/-- `[eax*0x80000000 + eax*2]` is encoded as `[eax]`: the multiplier is read as LONG_MAX, of which the
    `int` is -1. -/
theorem multiplier_saturates : ∃ e : Node, (checkea ctx 0 9 (operand e) 0 32 false 0).out.map shape = .ok ⟨0x08, 0, 0, 0, none, false⟩ ∧
    decode3264 32 32 0 false false 0x08 0 = some ⟨some 0x40, none, 0, false⟩ ∧
    (env fun _ => 1).reg 0x40 = 1 ∧ e.eval (env fun _ => 1) = 0x80000002 := by
  refine ⟨⟨.ADD, [.expr .MUL [.reg 0x40, .int (.BV 0x80000000)], .expr .MUL [.reg 0x40, .int (.L 2)]]⟩, ?_, by decide, by decide, ?_⟩
  · with_unfolding_all decide +kernel
  · with_unfolding_all decide +kernel

/-- `[eax*0x7fffffff + eax*0x7fffffff + eax*3]` is too: the sum of the multipliers wraps around. -/
theorem multiplier_wraps : ∃ e : Node, (checkea ctx 0 9 (operand e) 0 32 false 0).out.map shape = .ok ⟨0x08, 0, 0, 0, none, false⟩ ∧
    e.eval (env fun _ => 1) = 0x100000001 := by
  refine ⟨⟨.ADD, [.expr .MUL [.reg 0x40, .int (.L 0x7fffffff)], .expr .ADD [.expr .MUL [.reg 0x40, .int (.L 0x7fffffff)],
    .expr .MUL [.reg 0x40, .int (.L 3)]]]⟩, ?_, ?_⟩
  · with_unfolding_all decide +kernel
  · with_unfolding_all decide +kernel

/-- The register in `[2*(eax+1) - 2]` is not found: the encoding has no register, and the register stays in
    the displacement (where it is rejected later); `[(eax+1)*2 - 2]` is encoded as `[eax+eax*1]`. -/
theorem register_missed :
    ((checkea ctx 0 9 (operand ⟨.SUB, [.expr .MUL [.int (.L 2), .expr .ADD [.reg 0x40, .int (.L 1)]], .int (.L 2)]⟩) 0 32 false 0).out.map shape =
      .ok ⟨0x0D, 0, 0, 4, some ⟨.MUL, [.int (.L 2), .reg 0x40]⟩, false⟩) ∧
    ((checkea ctx 0 9 (operand ⟨.SUB, [.expr .MUL [.expr .ADD [.reg 0x40, .int (.L 1)], .int (.L 2)], .int (.L 2)]⟩) 0 32 false 0).out.map shape =
      .ok ⟨0x0C, 0, 0, 0, none, false⟩) := by
  constructor <;> with_unfolding_all decide +kernel

/-- In a 16-bit address a sum that is multiplied is rejected even if the factor is 1: `[1*(bx+4)]`. -/
theorem product_rejected_16 :
    (checkea ctx 0 9 (operand ⟨.MUL, [.int (.L 1), .expr .ADD [.reg 0x33, .int (.L 4)]]⟩) 0 16 false 0).out.map shape = .error .reject ∧
    (checkea ctx 0 9 (operand ⟨.ADD, [.reg 0x33, .int (.L 4)]⟩) 0 16 false 0).out.map shape =
      .ok ⟨0x4F, 0, 0, 1, some ⟨.IDENT, [.int (.L 4)]⟩, false⟩ := by
  constructor <;> with_unfolding_all decide +kernel

/-- The assembler aborts with an internal error on `[(b-a)<<1]` with two labels of one section ... -/
theorem shifted_difference_aborts :
    (checkea ctx 0 9 (operand ⟨.SHL, [.expr .SUB [.sym 2, .sym 1], .int (.L 1)]⟩) 0 32 false 0).out.map shape = .error .internal := by
  with_unfolding_all decide +kernel

/-- ... and on a 64-bit displacement with an address size prefix: `[qword eax+4]`. -/
theorem qword_displacement_aborts :
    (checkea ctx 0 9 { operand ⟨.ADD, [.reg 0x40, .int (.L 4)]⟩ with size := 64 } 32 32 false 0).out.map shape = .error .internal := by
  with_unfolding_all decide +kernel

end Verif.Ea
