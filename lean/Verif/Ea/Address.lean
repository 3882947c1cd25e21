/-
The whole of yasm_x86__expr_checkea.
-/
import Verif.Ea.Encode

set_option linter.unusedSimpArgs false

namespace Verif.Ea

open Verif.Intnum
open Verif.Expr
open Verif.Value

theorem addUses_other (getReg : Nat → Option Nat) (n : Nat) : ∀ (us : List (Nat × Intnum)) (m : Nat → BitVec 32),
    (∀ u ∈ us, getReg u.1 ≠ some n) → addUses getReg m us n = m n := by
  intro us
  induction us with
  | nil => intro m _; rfl
  | cons x us ih =>
    obtain ⟨r, i⟩ := x
    intro m h
    simp only [addUses]
    rw [ih _ (fun u hu => h u (List.mem_cons_of_mem _ hu))]
    have h1 := h (r, i) (by simp)
    dsimp only at h1
    cases hr : getReg r with
    | none => rfl
    | some k =>
      rw [hr] at h1
      have : n ≠ k := fun he => h1 (by rw [he])
      simp [setMult, this]

/-- A register with a slot is the register of the slot. -/
theorem getReg3264_slot (ρ : Env) (rf : RegFile ρ) (vsib bits a : Nat) (ha : a = 32 ∨ a = 64) (hv : vsib ≤ 2) (r n : Nat)
    (h : getReg3264 vsib bits a r = some n) :
    n < slots vsib ∧ ρ.reg r = ρ.reg (slotReg a vsib n) ∧ (n = 16 ↔ r / 16 = 13) ∧
      (r % 16 < 8 → n < 8 ∨ n = 16 ∨ (17 ≤ n ∧ n < 25)) ∧ (n = 16 → bits = 64) := by
  unfold getReg3264 regClass at h
  have h17 : 17 ≤ slots vsib := by unfold slots; split <;> omega
  split at h
  · -- 32-bit
    rename_i hc
    have h4 : r / 16 = 4 := by
      by_contra hne
      revert hc
      repeat' split
      all_goals simp_all
    split at h
    · cases h
    · simp only [Option.some.injEq, regNum] at h
      subst h
      refine ⟨by omega, ?_, by omega, by omega, by omega⟩
      unfold slotReg
      rw [if_pos (by omega), if_neg (by omega)]
      congr 1; omega
  · rename_i hc
    have h5 : r / 16 = 5 := by
      by_contra hne
      revert hc
      repeat' split
      all_goals simp_all
    split at h
    · cases h
    · simp only [Option.some.injEq, regNum] at h
      subst h
      refine ⟨by omega, ?_, by omega, by omega, by omega⟩
      unfold slotReg
      rw [if_pos (by omega), if_pos (by omega)]
      congr 1; omega
  · rename_i hc
    have h8 : r / 16 = 8 := by
      by_contra hne
      revert hc
      repeat' split
      all_goals simp_all
    split at h
    · cases h
    · rename_i hv1
      split at h
      · cases h
      · simp only [Option.some.injEq, regNum] at h
        subst h
        have hv1' : vsib = 1 := by omega
        refine ⟨by unfold slots; rw [if_pos (by omega)]; omega, ?_, by omega, by omega, by omega⟩
        rw [slotReg_vec a vsib _ (by omega), if_pos hv1']
        congr 1; omega
  · rename_i hc
    have h9 : r / 16 = 9 := by
      by_contra hne
      revert hc
      repeat' split
      all_goals simp_all
    split at h
    · cases h
    · rename_i hv1
      split at h
      · cases h
      · simp only [Option.some.injEq, regNum] at h
        subst h
        have hv1' : vsib = 2 := by omega
        refine ⟨by unfold slots; rw [if_pos (by omega)]; omega, ?_, by omega, by omega, by omega⟩
        rw [slotReg_vec a vsib _ (by omega), if_neg (by omega)]
        congr 1; omega
  · rename_i hc
    have h13 : r / 16 = 13 := by
      by_contra hne
      revert hc
      repeat' split
      all_goals simp_all
    split at h
    · cases h
    · simp only [Option.some.injEq] at h
      subst h
      refine ⟨by omega, ?_, by simp [h13], by omega, by omega⟩
      rw [rf.rip r h13]; simp [slotReg]
  · cases h

theorem getReg16_slot (r n : Nat) (h : getReg16 r = some n) : r / 16 = 3 ∧ n = r % 8 ∧ (n = 3 ∨ n = 5 ∨ n = 6 ∨ n = 7) := by
  unfold getReg16 at h
  split at h
  · cases h
  · rename_i hc
    have h3 : r / 16 = 3 := by
      by_contra hne
      apply hc
      unfold regClass
      rw [if_neg hne]
      repeat' split
      all_goals simp
    dsimp only at h
    split at h
    · rename_i hn
      simp only [Option.some.injEq] at h
      exact ⟨h3, h.symm, by omega⟩
    · cases h

/-- The registers taken out of the displacement. -/
structure TookRegs (ρ : Env) (absSym : Nat) (getReg : Nat → Option Nat) (bits : Nat) (ea ea' : Effaddr) (u : Usage) (pcrel : Bool) : Prop where
  val : absVal ρ ea.disp.abs = usesVal ρ u.uses + absVal ρ ea'.disp.abs
  good : ∀ e, ea'.disp.abs = some e → Good ρ e.item
  some_ : ∀ x ∈ u.uses, (getReg x.1).isSome = true
  mult : u.mult = addUses getReg (startMult pcrel) u.uses
  bits64 : pcrel = true → bits = 64
  canon : (∀ x ∈ u.uses, Canon x.2) ∧ total u.uses < 2 ^ 31 - 1
  rip : pcrel = true → ∀ x ∈ u.uses, x.1 / 16 ≠ 13
  low : bits ≠ 64 → ∀ x ∈ u.uses, x.1 % 16 < 8
  keep : ∃ v, ea' = { ea with disp := v, ipRel := ea.ipRel || pcrel }
  parts : ea'.disp.p = if pcrel then (setCurposRel absSym ea.disp).p else ea.disp.p

theorem takeRegs_ok (ρ : Env) (c : Ctx) (base : Nat → Word) (ag : ρ.Agrees c base) (nequ absSym : Nat) (getReg : Nat → Option Nat)
    (want : Bool) (bits : Nat) (ea : Effaddr) (x : Effaddr × Usage) (h : (takeRegs c nequ absSym getReg want bits ea).out = .ok x)
    (hs : ∀ k ∈ (takeRegs c nequ absSym getReg want bits ea).log, k.Sound)
    (hw : ∀ a q, getReg q = some 16 → ρ.wrt a (ρ.reg q) = a)
    (hgood : ∀ e, ea.disp.abs = some e → Good ρ e.item ∧ SmallUses c nequ getReg want bits e ∧
      ((∀ e1, (simplify c nequ (!want) false e).out = .ok e1 → NoProduct e1.item) ∨
      (want = true ∧ (∀ s d, c.equ s = some d → hasReg d.item = false) ∧ NoLone c nequ (!want) getReg bits e))) :
    ∃ pcrel, TookRegs ρ absSym getReg bits ea x.1 x.2 pcrel := by
  unfold takeRegs at h hs
  cases he : ea.disp.abs with
  | none =>
    rw [he] at h
    simp only [Run.of, Except.ok.injEq] at h
    subst h
    refine ⟨false, ?_, ?_, ?_, ?_, ?_, ⟨?_, ?_⟩, ?_, ?_, ?_, ?_⟩
    · simp [absVal, he, Usage.init, usesVal]
    · intro e h; rw [he] at h; cases h
    · simp [Usage.init]
    · simp [Usage.init, addUses, startMult]
    · simp
    · simp [Usage.init]
    · simp [Usage.init, total]
    · simp
    · simp [Usage.init]
    · exact ⟨ea.disp, by simp⟩
    · rfl
  | some e =>
    rw [he] at h hs
    dsimp only at h hs
    obtain ⟨g, sm, hk⟩ := hgood e he
    obtain ⟨y, h1, h2, h3⟩ := Run.bind_out h
    rw [h3] at hs
    obtain ⟨k1, k2, k3, k4, k5⟩ := getRegUsage_ok ρ c base ag nequ getReg want bits e y h1 g
      (fun k hk => hs k (List.mem_append_left _ hk)) hw hk
    obtain ⟨s1, s2, s3, s4⟩ := sm y h1
    simp only [Run.of, Except.ok.injEq] at h2
    obtain ⟨e', u, pc⟩ := y
    dsimp only at *
    cases pc with
    | true =>
      simp only [if_true] at h2
      subst h2
      refine ⟨true, ?_, ?_, k3, k4, k5, ⟨s1, s2⟩, s3, s4, ⟨_, by simp; rfl⟩, rfl⟩
      · rw [he]; exact k1
      · intro e2 h; simp only [setCurposRel, Option.some.injEq] at h; subst h; exact k2
    | false =>
      simp only [Bool.false_eq_true, if_false] at h2
      subst h2
      refine ⟨false, ?_, ?_, k3, k4, k5, ⟨s1, s2⟩, s3, s4, ⟨_, by simp; rfl⟩, rfl⟩
      · rw [he]; exact k1
      · intro e2 h; simp only [Option.some.injEq] at h; subst h; exact k2

theorem check3264_ok (ρ : Env) (rf : RegFile ρ) (c : Ctx) (base : Nat → Word) (ag : ρ.Agrees c base) (nequ absSym : Nat)
    (ea : Effaddr) (a bits : Nat) (rex : BitVec 8) (r : Checked) (h : (check3264 c nequ absSym ea a bits rex).out = .ok r)
    (hs : ∀ k ∈ (check3264 c nequ absSym ea a bits rex).log, k.Sound) (fresh : Fresh ea) (hp : PlainParts ea.disp.p)
    (hrex : RexFree rex) (ha : a = 32 ∨ a = 64)
    (hgood : ∀ e, ea.disp.abs = some e → Good ρ e.item ∧ Written c nequ ea.vsib bits a e) :
    r.addrsize = a ∧ ∃ m, decoded r bits = some m ∧ Faithful ρ absSym ea r m := by
  unfold check3264 at h hs
  by_cases h64 : a = 64 ∧ bits ≠ 64
  · rw [if_pos h64] at h; cases h
  · rw [if_neg h64] at h hs
    extract_lets ea0 at h hs
    have hea0 : ∃ b, ea0 = { ea with pcRel := b } ∧ (b = true → bits = 64) := by
      by_cases hb : bits ≠ 64
      · exact ⟨false, if_pos hb, by simp⟩
      · exact ⟨ea.pcRel, if_neg hb, fun _ => by omega⟩
    clear_value ea0
    obtain ⟨pcb, rfl, hpcb⟩ := hea0
    obtain ⟨x, h1, h, hl⟩ := Run.bind_out h
    rw [hl] at hs
    have hs1 := fun k hk => hs k (List.mem_append_left _ hk)
    obtain ⟨rg, h2, h, hl2⟩ := Run.bind_out h
    rw [hl2] at hs
    obtain ⟨e, h3, h, hl3⟩ := Run.bind_out h
    rw [hl3] at hs
    have hs3 := fun k hk => hs k (List.mem_append_right _ (List.mem_append_right _ (List.mem_append_left _ hk)))
    simp only [Run.of, Except.ok.injEq] at h2 h
    subst h
    have hvs := fresh.vsib
    have hrip : ∀ q, getReg3264 ea.vsib bits a q = some 16 → q / 16 = 13 := fun q hq =>
      ((getReg3264_slot ρ rf ea.vsib bits a ha hvs q 16 hq).2.2.1).1 rfl
    obtain ⟨pc, T⟩ := takeRegs_ok ρ c base ag nequ absSym _ true bits _ x h1 hs1
      (fun w q hq => rf.wrtRip w q (hrip q hq))
      (by
        intro e' he'
        obtain ⟨g, hw⟩ := hgood e' he'
        unfold Written at hw
        rw [if_neg (by omega)] at hw
        refine ⟨g, hw.1, ?_⟩
        rcases hw.2 with h | h
        · exact Or.inl h
        · exact Or.inr ⟨rfl, h⟩)
    obtain ⟨v, hkeep⟩ := T.keep
    dsimp only at h2 hkeep
    rw [T.mult] at h2
    have hxv : x.1.vsib = ea.vsib := by rw [hkeep]
    obtain ⟨pk, used, hval⟩ := regs_agree ρ _ (fun n => ρ.reg (slotReg a ea.vsib n)) ea.vsib ea.nosplit pc _ _ rg
      (by
        intro y hy
        have := T.some_ y hy
        cases hn : getReg3264 ea.vsib bits a y.1 with
        | none => rw [hn] at this; cases this
        | some n =>
          obtain ⟨k1, k2, _⟩ := getReg3264_slot ρ rf ea.vsib bits a ha hvs y.1 n hn
          exact ⟨n, rfl, k1, k2⟩) T.canon.1 T.canon.2 h2
    have hparts : PlainParts x.1.disp.p := by
      rw [T.parts]
      cases pc with
      | true => exact ⟨fun hn => by simp [setCurposRel] at hn, hp.shift⟩
      | false => exact hp
    obtain ⟨m, E⟩ := encodeRegs_ok ρ c base ag nequ absSym x.1 e.1 bits a rex e.2 _ rg h3 hs3 hparts T.good
      (by rw [hxv]; exact pk) hrex (by rw [hkeep]; exact fresh.modrm) (by rw [hxv]; exact hvs)
      (by
        intro n hn
        rcases used n hn with ⟨hpc, _⟩ | ⟨u, hu, hn'⟩
        · exact Or.inl (T.bits64 hpc)
        · by_cases hb : bits = 64
          · exact Or.inl hb
          · obtain ⟨_, _, _, k4, k5⟩ := getReg3264_slot ρ rf ea.vsib bits a ha hvs u.1 n hn'
            rcases k4 (T.low hb u hu) with h | h | h
            · exact Or.inr (Or.inl h)
            · exact absurd (k5 h) hb
            · exact Or.inr (Or.inr h))
      (by rw [hkeep]; exact hpcb)
    -- RIP-relative once only
    have once : pc = true → rg.base = some 16 := by
      intro hpc
      have h16 : addUses (getReg3264 ea.vsib bits a) (startMult pc) x.2.uses 16 = 1#32 := by
        rw [addUses_other _ 16 _ _ (fun u hu he => T.rip hpc u hu (hrip u.1 he)), hpc]
        simp [startMult, setMult]
      have ht := pk.total 16 (by unfold slots; split <;> omega)
      rw [h16, if_neg pk.notRip] at ht
      by_contra hb
      rw [if_neg hb] at ht
      exact absurd ht (by decide)
    have notBoth : pc = true → ¬ ToRip x.1 rg := by
      intro hpc hT
      have := once hpc
      rw [hT.1] at this; cases this
    have hip : e.1.ipRel = (pc || decide (ToRip x.1 rg)) := by
      rw [E.ipRel, hkeep]; simp [fresh.ipRel]
    refine ⟨rfl, m, ?_, ?_, ?_, ?_, E.disp, fun h => ⟨E.sib.1 h, E.validSib h⟩, E.nosib, ⟨E.valid.2, E.valid.1⟩, ?_, ?_, ?_⟩
    · unfold decoded
      dsimp only
      rw [if_neg (by omega), E.vsib]
      exact E.decodes
    · -- the address
      have hv := T.val
      dsimp only at hv ⊢
      rw [hip, E.val, E.regs, hv]
      rw [hxv, ← hval]
      cases pc with
      | true =>
        rw [if_neg (notBoth rfl)]
        simp only [Bool.true_or, if_true]
        have : slotReg a ea.vsib 16 = 0xD0 := by simp [slotReg]
        rw [this]; grind
      | false =>
        by_cases hT : ToRip x.1 rg
        · simp only [hT, Bool.false_or, decide_true, if_true, Bool.false_eq_true, if_false]; grind
        · simp only [hT, Bool.false_or, decide_false, if_false, Bool.false_eq_true]; grind
    · -- the symbol
      intro hf
      dsimp only at hf ⊢
      rw [hip] at hf
      simp only [Bool.or_eq_false_iff, decide_eq_false_iff_not] at hf
      rw [E.parts, if_neg hf.2, T.parts, hf.1]; simp
    · intro ht
      dsimp only at ht ⊢
      rw [hip] at ht
      cases hpc : pc with
      | true =>
        refine ⟨E.rip (Or.inl (once hpc)), ?_⟩
        rw [E.parts, if_neg (notBoth hpc), T.parts, hpc]; rfl
      | false =>
        rw [hpc] at ht
        have hT : ToRip x.1 rg := by simpa using ht
        refine ⟨E.rip (Or.inr hT), ?_⟩
        rw [E.parts, if_pos hT]
        show { x.1.disp.p with curposRel := true, rel := some (x.1.disp.p.rel.getD absSym) } = _
        rw [T.parts, hpc]; rfl
    · -- byte
      intro h0 h8
      dsimp only at h8 ⊢
      obtain ⟨b1, b2⟩ := E.byte (by rw [hkeep]; exact h0) h8
      rw [E.val]
      exact ⟨b1, b2⟩
    · intro h0
      dsimp only
      obtain ⟨b1, b2⟩ := E.drop h0
      rw [E.val]
      exact ⟨b1, b2⟩
    · dsimp only
      refine E.need ?_
      rw [hkeep]; exact fresh.needDisp

theorem modrm16_table (mr : BitVec 8) (hm : mr &&& 0xC7#8 = 0#8) (b3 b5 b6 b7 : Bool) (k : Nat) (hk : k < 3)
    (hz : modrm16 ((if b3 then 1 else 0) + (if b6 then 2 else 0) + (if b7 then 4 else 0) + (if b5 then 8 else 0)) &&& 0x38 = 0#8)
    (h0 : (if b3 then 1 else 0) + (if b6 then 2 else 0) + (if b7 then 4 else 0) + (if b5 then 8 else 0) = 0 → k = 0)
    (h8 : (if b3 then 1 else 0) + (if b6 then 2 else 0) + (if b7 then 4 else 0) + (if b5 then 8 else 0) = 8 → k ≠ 0) :
    ∃ bs ix, decode16 (mr ||| modrm16 ((if b3 then 1 else 0) + (if b6 then 2 else 0) + (if b7 then 4 else 0) + (if b5 then 8 else 0)) |||
        BitVec.ofNat 8 (64 * k)) =
      some ⟨bs, ix, if (if b3 then 1 else 0) + (if b6 then 2 else 0) + (if b7 then 4 else 0) + (if b5 then 8 else 0) = 0 then 2 else k, false⟩ ∧
      ∀ ρ : Env, (⟨bs, ix, 0, false⟩ : Mem).val ρ = (if b3 then ρ.reg 0x33 else 0) + (if b5 then ρ.reg 0x35 else 0) +
        (if b6 then ρ.reg 0x36 else 0) + (if b7 then ρ.reg 0x37 else 0) := by
  have fields : ∀ b, b < 8 → (mr ||| BitVec.ofNat 8 b ||| BitVec.ofNat 8 (64 * k)).toNat % 8 = b ∧
      (mr ||| BitVec.ofNat 8 b ||| BitVec.ofNat 8 (64 * k)).toNat / 64 = k := fun b hb => modrm_fields mr hm b k hb (by omega)
  have hk' : k = 0 ∨ k = 1 ∨ k = 2 := by omega
  have dec : ∀ b, b < 8 → ∀ md, decode16 (mr ||| BitVec.ofNat 8 b ||| BitVec.ofNat 8 (64 * k)) = some md ↔
      decode16 (BitVec.ofNat 8 (64 * k + b)) = some md := by
    intro b hb md
    obtain ⟨f1, f2⟩ := fields b hb
    have e : (BitVec.ofNat 8 (64 * k + b)).toNat = 64 * k + b := by
      rw [BitVec.toNat_ofNat]; omega
    have e1 : (64 * k + b) % 8 = b := by omega
    have e2 : (64 * k + b) / 64 = k := by omega
    unfold decode16
    rw [f1, f2, e, e1, e2]
  cases b3 <;> cases b5 <;> cases b6 <;> cases b7 <;>
    simp only [Bool.false_eq_true, if_false, if_true, Nat.zero_add, Nat.add_zero] at hz h0 h8 ⊢ <;>
    first
    | exact absurd hz (by decide)
    | skip
  · exact ⟨none, none, (dec 6 (by decide) _).2 (by have := h0 trivial; subst this; decide), fun ρ => by simp [Mem.val]⟩
  · exact ⟨(some 0x37), none, (dec 5 (by decide) _).2 (by rcases hk' with h | h | h <;> subst h <;> decide), fun ρ => by simp [Mem.val]⟩
  · exact ⟨(some 0x36), none, (dec 4 (by decide) _).2 (by rcases hk' with h | h | h <;> subst h <;> decide), fun ρ => by simp [Mem.val]⟩
  · exact ⟨(some 0x35), none, (dec 6 (by decide) _).2 (by have := h8 trivial; rcases hk' with h | h | h <;> first | exact absurd h this | (subst h; decide)), fun ρ => by simp [Mem.val]⟩
  · exact ⟨(some 0x35), (some (0x37, 1)), (dec 3 (by decide) _).2 (by rcases hk' with h | h | h <;> subst h <;> decide), fun ρ => by simp [Mem.val]⟩
  · exact ⟨(some 0x35), (some (0x36, 1)), (dec 2 (by decide) _).2 (by rcases hk' with h | h | h <;> subst h <;> decide), fun ρ => by simp [Mem.val]⟩
  · exact ⟨(some 0x33), none, (dec 7 (by decide) _).2 (by rcases hk' with h | h | h <;> subst h <;> decide), fun ρ => by simp [Mem.val]⟩
  · exact ⟨(some 0x33), (some (0x37, 1)), (dec 1 (by decide) _).2 (by rcases hk' with h | h | h <;> subst h <;> decide), fun ρ => by simp [Mem.val]⟩
  · exact ⟨(some 0x33), (some (0x36, 1)), (dec 0 (by decide) _).2 (by rcases hk' with h | h | h <;> subst h <;> decide), fun ρ => by simp [Mem.val]⟩

theorem bit01 (m : BitVec 32) (h : ¬ (m &&& ~~~1#32 ≠ 0#32)) : m = 0#32 ∨ m = 1#32 := by
  simp only [ne_eq, not_not] at h
  by_cases h0 : m.getLsbD 0
  · right
    apply BitVec.eq_of_getLsbD_eq
    intro i hi
    by_cases hi0 : i = 0
    · subst hi0; rw [h0]; decide
    · have := congrArg (fun v => v.getLsbD i) h
      simp only [BitVec.getLsbD_and, BitVec.getLsbD_not, BitVec.getLsbD_zero] at this
      have e : (1#32).getLsbD i = false := by simp [BitVec.getLsbD_one, hi0]
      rw [e] at this ⊢
      simpa [hi] using this
  · left
    apply BitVec.eq_of_getLsbD_eq
    intro i hi
    by_cases hi0 : i = 0
    · subst hi0; simpa using h0
    · have := congrArg (fun v => v.getLsbD i) h
      simp only [BitVec.getLsbD_and, BitVec.getLsbD_not, BitVec.getLsbD_zero] at this
      have e : (1#32).getLsbD i = false := by simp [BitVec.getLsbD_one, hi0]
      rw [e] at this
      simpa [hi] using this

theorem check16_ok (ρ : Env) (c : Ctx) (base : Nat → Word) (ag : ρ.Agrees c base) (nequ absSym : Nat)
    (ea : Effaddr) (bits : Nat) (rex : BitVec 8) (r : Checked) (h : (check16 c nequ absSym ea bits false rex).out = .ok r)
    (hs : ∀ k ∈ (check16 c nequ absSym ea bits false rex).log, k.Sound) (fresh : Fresh ea) (hp : PlainParts ea.disp.p)
    (hgood : ∀ e, ea.disp.abs = some e → Good ρ e.item ∧ Written c nequ ea.vsib bits 16 e) :
    r.addrsize = 16 ∧ ∃ m, decoded r bits = some m ∧ Faithful ρ absSym ea r m := by
  unfold check16 at h hs
  by_cases h64 : bits = 64
  · rw [if_pos ⟨h64, rfl⟩] at h; cases h
  · rw [if_neg (fun h => h64 h.1)] at h hs
    extract_lets ea0 at h hs
    obtain ⟨x, h1, h, hl⟩ := Run.bind_out h
    rw [hl] at hs
    have hs1 := fun k hk => hs k (List.mem_append_left _ hk)
    have hs2 := fun k hk => hs k (List.mem_append_right _ hk)
    clear hs hl
    obtain ⟨pc, T⟩ := takeRegs_ok ρ c base ag nequ absSym getReg16 false bits ea0 x h1 hs1
      (fun w q hq => by have := (getReg16_slot q 16 hq).2.2; omega)
      (by
        intro e' he'
        obtain ⟨g, hw⟩ := hgood e' he'
        unfold Written at hw
        rw [if_pos rfl] at hw
        exact ⟨g, hw.1, Or.inl hw.2⟩)
    have hpc : pc = false := by
      cases hp : pc with
      | false => rfl
      | true => exact absurd (T.bits64 hp) h64
    subst hpc
    obtain ⟨v, hkeep⟩ := T.keep
    have hxd : x.1.disp = v := by rw [hkeep]
    dsimp only at h hs2
    by_cases hbad : x.2.mult 3 &&& ~~~1#32 ≠ 0#32 ∨ x.2.mult 6 &&& ~~~1#32 ≠ 0#32 ∨ x.2.mult 7 &&& ~~~1#32 ≠ 0#32 ∨
        x.2.mult 5 &&& ~~~1#32 ≠ 0#32
    · rw [if_pos hbad] at h; cases h
    · rw [if_neg hbad] at h hs2
      simp only [not_or] at hbad
      by_cases hrm : modrm16 (havereg x.2.mult) &&& 0x38 ≠ 0#8
      · rw [if_pos hrm] at h; cases h
      · rw [if_neg hrm] at h hs2
        obtain ⟨z, h2, h, hl⟩ := Run.bind_out h
        rw [hl] at hs2
        simp only [Run.of, Except.ok.injEq] at h
        subst h
        have hparts : PlainParts x.1.disp.p := by rw [T.parts]; exact hp
        obtain ⟨k, D⟩ := calcDisplen_ok ρ c base ag nequ _ z 16 (Or.inl rfl) _ _ h2
          (fun q hq => hs2 q (List.mem_append_left _ hq)) hparts T.good
        have hbit : ∀ n, x.2.mult n = 0#32 ∨ x.2.mult n = 1#32 →
            (x.2.mult n).toInt = if (0#32).slt (x.2.mult n) then 1 else 0 := by
          intro n hn
          rcases hn with hn | hn <;> rw [hn] <;> decide
        have m3 := hbit 3 (bit01 _ hbad.1)
        have m6 := hbit 6 (bit01 _ hbad.2.1)
        have m7 := hbit 7 (bit01 _ hbad.2.2.1)
        have m5 := hbit 5 (bit01 _ hbad.2.2.2)
        -- the registers
        have hcoef : ∀ n, (x.2.mult n).toInt = coef getReg16 n x.2.uses := by
          intro n
          rw [T.mult, addUses_coef getReg16 _ T.canon.1 _ n (by have := T.canon.2; omega)]
          simp only [startMult, Bool.false_eq_true, if_false]
          rw [show (0 : BitVec 32) + BitVec.ofInt 32 (coef getReg16 n x.2.uses) = BitVec.ofInt 32 (coef getReg16 n x.2.uses) from BitVec.zero_add _,
            BitVec.toInt_ofInt]
          have := coef_bound getReg16 n x.2.uses
          have := T.canon.2
          apply Int.bmod_eq_of_le <;> omega
        have hcoef0 : ∀ n, n ≠ 3 → n ≠ 5 → n ≠ 6 → n ≠ 7 → coef getReg16 n x.2.uses = 0 := by
          intro n n3 n5 n6 n7
          rw [← hcoef, T.mult, addUses_other getReg16 n _ _ (fun u _ he => by
            have := (getReg16_slot u.1 n he).2.2; omega)]
          rfl
        have hval : usesVal ρ x.2.uses = (if (0#32).slt (x.2.mult 3) then ρ.reg 0x33 else 0) +
            (if (0#32).slt (x.2.mult 5) then ρ.reg 0x35 else 0) + (if (0#32).slt (x.2.mult 6) then ρ.reg 0x36 else 0) +
            (if (0#32).slt (x.2.mult 7) then ρ.reg 0x37 else 0) := by
          rw [usesVal_slots ρ getReg16 (fun n => ρ.reg (0x30 + n)) 8 x.2.uses (by
            intro y hy
            have := T.some_ y hy
            cases hn : getReg16 y.1 with
            | none => rw [hn] at this; cases this
            | some n =>
              obtain ⟨k1, k2, k3⟩ := getReg16_slot y.1 n hn
              have := T.low h64 y hy
              exact ⟨n, rfl, by omega, by congr 1; omega⟩)]
          simp only [slotSum]
          rw [hcoef0 0 (by decide) (by decide) (by decide) (by decide), hcoef0 1 (by decide) (by decide) (by decide) (by decide),
            hcoef0 2 (by decide) (by decide) (by decide) (by decide), hcoef0 4 (by decide) (by decide) (by decide) (by decide),
            ← hcoef 3, ← hcoef 5, ← hcoef 6, ← hcoef 7, m3, m5, m6, m7]
          have e1 : (BitVec.ofInt 256 1 : Word) = 1 := by decide
          have e0 : (BitVec.ofInt 256 0 : Word) = 0 := by decide
          cases (0#32).slt (x.2.mult 3) <;> cases (0#32).slt (x.2.mult 5) <;> cases (0#32).slt (x.2.mult 6) <;>
            cases (0#32).slt (x.2.mult 7) <;> simp only [e0, e1, Bool.false_eq_true, if_false, if_true] <;> grind
        have hne : (decide (havereg x.2.mult = 0) = true) ↔ havereg x.2.mult = 0 := decide_eq_true_iff
        obtain ⟨bs, ix, htab, hmval⟩ := modrm16_table ea.modrm fresh.modrm ((0#32).slt (x.2.mult 3)) ((0#32).slt (x.2.mult 5))
          ((0#32).slt (x.2.mult 6)) ((0#32).slt (x.2.mult 7)) k D.lt (not_not.1 hrm)
          (fun h0 => (D.noRegs (hne.2 h0)).1) (fun h8 hk0 => by
            have hn : decide (havereg x.2.mult = 0) = false := by
              rw [decide_eq_false_iff_not]; unfold havereg; omega
            have := (D.mod0 hn hk0).2.2
            rw [decide_eq_false_iff_not] at this
            exact this h8)
        have hmodrm : z.modrm = ea.modrm ||| modrm16 (havereg x.2.mult) ||| BitVec.ofNat 8 (64 * k) := by
          rw [D.modrm, hkeep]
        obtain ⟨d1, d2, d3, d4, d5, d6⟩ := D.keep
        dsimp only at d1 d2 d3 d4 d5 d6
        have hsize : x.1.size = ea.size := by rw [hkeep]
        have hdisp : (if havereg x.2.mult = 0 then 2 else k) = dispBytes z := by
          by_cases h0 : havereg x.2.mult = 0
          · rw [if_pos h0]
            have := (D.noRegs (hne.2 h0)).2
            simp [dispBytes, this]
          · rw [if_neg h0]
            have hn : decide (havereg x.2.mult = 0) = false := decide_eq_false_iff_not.2 h0
            have hk3 := D.lt
            have hk' : k = 0 ∨ k = 1 ∨ k = 2 := by omega
            rcases hk' with hk | hk | hk
            · obtain ⟨a, b, _⟩ := D.mod0 hn hk
              simp [dispBytes, a, b, hk]
            · rw [D.mod1 hn hk]; exact hk
            · have := D.mod2 hn hk
              simp [dispBytes, this, hk]
        have hip : z.ipRel = false := by rw [d5, hkeep]; simp [ea0, fresh.ipRel]
        refine ⟨rfl, ⟨bs, ix, if havereg x.2.mult = 0 then 2 else k, false⟩, ?_, ?_, ?_, ?_, hdisp, fun h => (by cases h), fun _ => ?_,
          ⟨?_, D.valid⟩, ?_, ?_, ?_⟩
        · unfold decoded
          rw [if_pos rfl]
          dsimp only
          rw [hmodrm]
          exact htab
        · dsimp only
          have hv := T.val
          rw [hip, D.val]
          dsimp only at hv ⊢
          rw [show ea0.disp.abs = ea.disp.abs from rfl] at hv
          rw [hv, hval, show (⟨bs, ix, if havereg x.2.mult = 0 then 2 else k, false⟩ : Mem).val ρ = (⟨bs, ix, 0, false⟩ : Mem).val ρ from rfl,
            hmval ρ]
          simp
        · intro _
          dsimp only
          rw [D.parts]; exact T.parts
        · intro hf; dsimp only at hf; rw [hip] at hf; cases hf
        · dsimp only; rw [d2, hkeep]
        · dsimp only; rw [d6, hkeep]; exact fresh.needModrm
        · intro h0 h8
          dsimp only
          rw [D.val, D.parts]
          exact D.byte (by rw [← hsize] at h0; exact h0) h8
        · intro h0
          dsimp only at h0 ⊢
          rw [D.val, D.parts]
          by_cases hh : havereg x.2.mult = 0
          · rw [if_pos hh] at h0; cases h0
          · rw [if_neg hh] at h0
            exact D.drop (decide_eq_false_iff_not.2 hh) h0
        · dsimp only
          rw [hdisp]
          exact D.need (by rw [hkeep]; exact fresh.needDisp)

end Verif.Ea
