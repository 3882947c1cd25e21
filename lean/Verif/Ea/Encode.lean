/-
The ModRM, SIB and REX bytes, decoded, give base, index and the length of the displacement.
-/
import Verif.Ea.Pick
import Verif.Value.Props

set_option linter.unusedSimpArgs false

namespace Verif.Ea

open Verif.Intnum
open Verif.Expr
open Verif.Value

/-! ### Bits of bytes -/

theorem sib_fields (b i s : Nat) (hb : b < 8) (hi : i < 8) (hs : s < 4) :
    (BitVec.ofNat 8 b ||| (BitVec.ofNat 8 i <<< 3) ||| BitVec.ofNat 8 (64 * s)).toNat % 8 = b ∧
    (BitVec.ofNat 8 b ||| (BitVec.ofNat 8 i <<< 3) ||| BitVec.ofNat 8 (64 * s)).toNat / 8 % 8 = i ∧
    (BitVec.ofNat 8 b ||| (BitVec.ofNat 8 i <<< 3) ||| BitVec.ofNat 8 (64 * s)).toNat / 64 = s := by
  have key : ∀ b i : Fin 8, ∀ s : Fin 4,
      (BitVec.ofNat 8 b ||| (BitVec.ofNat 8 i <<< 3) ||| BitVec.ofNat 8 (64 * s)).toNat % 8 = b ∧
      (BitVec.ofNat 8 b ||| (BitVec.ofNat 8 i <<< 3) ||| BitVec.ofNat 8 (64 * s)).toNat / 8 % 8 = i ∧
      (BitVec.ofNat 8 b ||| (BitVec.ofNat 8 i <<< 3) ||| BitVec.ofNat 8 (64 * s)).toNat / 64 = s := by decide +kernel
  exact key ⟨b, hb⟩ ⟨i, hi⟩ ⟨s, hs⟩

theorem modrm_fields (m : BitVec 8) (h : m &&& 0xC7#8 = 0#8) (b k : Nat) (hb : b < 8) (hk : k < 4) :
    (m ||| BitVec.ofNat 8 b ||| BitVec.ofNat 8 (64 * k)).toNat % 8 = b ∧
    (m ||| BitVec.ofNat 8 b ||| BitVec.ofNat 8 (64 * k)).toNat / 64 = k := by
  have key : ∀ m : Fin 256, BitVec.ofFin m &&& 0xC7#8 = 0#8 → ∀ b : Fin 8, ∀ k : Fin 4,
      (BitVec.ofFin m ||| BitVec.ofNat 8 b ||| BitVec.ofNat 8 (64 * k)).toNat % 8 = b.val ∧
      (BitVec.ofFin m ||| BitVec.ofNat 8 b ||| BitVec.ofNat 8 (64 * k)).toNat / 64 = k.val := by decide +kernel
  exact key m.toFin h ⟨b, hb⟩ ⟨k, hk⟩

/-- The REX byte while base and index are put in. -/
def RexOk (rex : BitVec 8) : Prop := rex = 0xff#8 ∨ rex &&& 0xB0#8 = 0#8

theorem RexFree.ok {rex : BitVec 8} (h : RexFree rex) : RexOk rex ∧ rexBit rex 0 = false ∧ rexBit rex 1 = false := by
  have key : ∀ m : Fin 256, (BitVec.ofFin m = 0xff#8 ∨ BitVec.ofFin m &&& 0xB3#8 = 0#8) →
      (BitVec.ofFin m = 0xff#8 ∨ BitVec.ofFin m &&& 0xB0#8 = 0#8) ∧ rexBit (BitVec.ofFin m) 0 = false ∧
        rexBit (BitVec.ofFin m) 1 = false := by decide +kernel
  exact key rex.toFin h

/-- The fourth bit of a register number, in 64-bit mode. -/
def hi (bits n : Nat) : Bool := decide (bits = 64 ∧ n % 16 ≥ 8)

theorem setRex_ok (rex rex' low3 : BitVec 8) (n bits pos : Nat) (hp : pos < 2) (h : setRex rex n bits pos = .ok (rex', low3))
    (hr : RexOk rex) :
    low3 = BitVec.ofNat 8 (n % 8) ∧ RexOk rex' ∧ rexBit rex' pos = (rexBit rex pos || hi bits n) ∧
      rexBit rex' (1 - pos) = rexBit rex (1 - pos) := by
  have key : ∀ m : Fin 256, ∀ p : Fin 2, BitVec.ofFin m &&& 0xB0#8 = 0#8 →
      ((BitVec.ofFin m ||| 0x40 ||| (1#8 <<< p.val)) &&& 0xB0#8 = 0#8) ∧
      rexBit (BitVec.ofFin m ||| 0x40 ||| (1#8 <<< p.val)) p = true ∧
      rexBit (BitVec.ofFin m ||| 0x40 ||| (1#8 <<< p.val)) (1 - p.val) = rexBit (BitVec.ofFin m) (1 - p.val) := by decide +kernel
  unfold setRex at h
  dsimp only at h
  split at h
  · rename_i hc
    split at h
    · cases h
    · rename_i hff
      simp only [Except.ok.injEq, Prod.mk.injEq] at h
      obtain ⟨rfl, rfl⟩ := h
      obtain ⟨k1, k2, k3⟩ := key rex.toFin ⟨pos, hp⟩ (hr.resolve_left hff)
      refine ⟨rfl, Or.inr k1, ?_, k3⟩
      have : hi bits n = true := by simp [hi, hc.1]; omega
      rw [this, Bool.or_true]; exact k2
  · rename_i hc
    simp only [Except.ok.injEq, Prod.mk.injEq] at h
    obtain ⟨rfl, rfl⟩ := h
    have : hi bits n = false := by unfold hi; rw [decide_eq_false_iff_not]; exact hc
    exact ⟨rfl, hr, by rw [this, Bool.or_false], rfl⟩

/-- The number of a slot in the index field. -/
def fieldNum (n : Nat) : Nat := if n ≥ 17 then n - 17 else n

theorem scaleBits_ok (m : BitVec 32) (h : m = 1#32 ∨ m = 2#32 ∨ m = 4#32 ∨ m = 8#32) :
    ∃ s, s < 4 ∧ scaleBits m = BitVec.ofNat 8 (64 * s) ∧ (m.toInt : Int) = ((2 ^ s : Nat) : Int) := by
  rcases h with h | h | h | h <;> subst h
  · exact ⟨0, by decide, by decide, by decide⟩
  · exact ⟨1, by decide, by decide, by decide⟩
  · exact ⟨2, by decide, by decide, by decide⟩
  · exact ⟨3, by decide, by decide, by decide⟩

/-- What the SIB byte says. -/
structure SibSays (bits : Nat) (rex0 rex : BitVec 8) (sib : BitVec 8) (r : Regs) : Prop where
  base : sib.toNat % 8 = (match r.base with | some n => n % 8 | none => 5)
  index : sib.toNat / 8 % 8 = (match r.index with | some n => fieldNum n % 8 | none => 4)
  scale : ∀ n, r.index = some n → (r.mult n).toInt = ((2 ^ (sib.toNat / 64) : Nat) : Int)
  rexB : rexBit rex 0 = (rexBit rex0 0 || (match r.base with | some n => hi bits n | none => false))
  rexX : rexBit rex 1 = (rexBit rex0 1 || (match r.index with | some n => hi bits (fieldNum n) | none => false))

theorem makeSib_ok (bits : Nat) (rex rex' sib : BitVec 8) (r : Regs) (h : makeSib bits rex r = .ok (rex', sib)) (hr : RexOk rex)
    (hs : ∀ i, r.index = some i → r.mult i = 1#32 ∨ r.mult i = 2#32 ∨ r.mult i = 4#32 ∨ r.mult i = 8#32) :
    SibSays bits rex rex' sib r := by
  obtain ⟨b, i, mu⟩ := r
  have fin : ∀ rexb bl, bl < 8 → bl = (match b with | some n => n % 8 | none => 5) → RexOk rexb →
      rexBit rexb 0 = (rexBit rex 0 || (match b with | some n => hi bits n | none => false)) → rexBit rexb 1 = rexBit rex 1 →
      (match i with
      | none => (.ok (rexb, BitVec.ofNat 8 bl ||| 0x20) : Except Stop (BitVec 8 × BitVec 8))
      | some n =>
        match setRex rexb (if n ≥ 17 then n - 17 else n) bits 1 with
        | .error e => .error e
        | .ok (rex, low3) => .ok (rex, BitVec.ofNat 8 bl ||| (low3 <<< 3) ||| scaleBits (mu n))) = .ok (rex', sib) →
      SibSays bits rex rex' sib ⟨b, i, mu⟩ := by
    intro rexb bl hbl hb hrb h0 h1 h
    cases i with
    | none =>
      simp only [Except.ok.injEq, Prod.mk.injEq] at h
      obtain ⟨rfl, rfl⟩ := h
      obtain ⟨f1, f2, f3⟩ := sib_fields bl 4 0 hbl (by decide) (by decide)
      have e : BitVec.ofNat 8 bl ||| (BitVec.ofNat 8 4 <<< 3) ||| BitVec.ofNat 8 (64 * 0) = BitVec.ofNat 8 bl ||| 0x20 := by
        have : (BitVec.ofNat 8 (64 * 0)) = 0#8 := rfl
        rw [this, BitVec.or_zero]; rfl
      rw [e] at f1 f2 f3
      exact ⟨by rw [f1]; exact hb, f2, fun n hn => (by cases hn), h0, by rw [h1]; simp⟩
    | some n =>
      dsimp only at h
      cases hset : setRex rexb (if n ≥ 17 then n - 17 else n) bits 1 with
      | error e => rw [hset] at h; cases h
      | ok x =>
        obtain ⟨rx, low3⟩ := x
        rw [hset] at h
        simp only [Except.ok.injEq, Prod.mk.injEq] at h
        obtain ⟨rfl, rfl⟩ := h
        obtain ⟨k1, k2, k3, k4⟩ := setRex_ok _ _ _ _ _ 1 (by decide) hset hrb
        obtain ⟨s, hs4, hsb, hsm⟩ := scaleBits_ok (mu n) (hs n rfl)
        obtain ⟨f1, f2, f3⟩ := sib_fields bl (fieldNum n % 8) s hbl (by omega) hs4
        rw [k1, hsb]
        refine ⟨by rw [← hb]; exact f1, f2, fun q hq => ?_, ?_, ?_⟩
        · simp only [Option.some.injEq] at hq
          subst hq
          rw [hsm]
          have : (BitVec.ofNat 8 bl ||| BitVec.ofNat 8 ((if n ≥ 17 then n - 17 else n) % 8) <<< 3 ||| BitVec.ofNat 8 (64 * s)).toNat / 64 = s := f3
          rw [this]
        · rw [← h0]; exact k4
        · dsimp only
          rw [← h1]; exact k3
  unfold makeSib at h
  cases b with
  | none =>
    exact fin rex 5 (by decide) rfl hr (by simp) rfl h
  | some n =>
    dsimp only at h
    cases hset : setRex rex n bits 0 with
    | error e => rw [hset] at h; cases h
    | ok x =>
      obtain ⟨rx, low3⟩ := x
      rw [hset] at h
      obtain ⟨k1, k2, k3, k4⟩ := setRex_ok _ _ _ _ _ 0 (by decide) hset hr
      subst k1
      exact fin rx (n % 8) (by omega) rfl k2 k3 k4 h

/-! ### The displacement -/

/-- What is done to the displacement: the mod field is `k`. -/
structure Displen (ρ : Env) (ws : Nat) (noreg dispreq : Bool) (ea ea' : Effaddr) (k : Nat) : Prop where
  modrm : ea'.modrm = ea.modrm ||| BitVec.ofNat 8 (64 * k)
  lt : k < 3
  noRegs : noreg = true → k = 0 ∧ ea'.size = ws
  mod0 : noreg = false → k = 0 → ea'.size = 0 ∧ ea'.needNonzero = false ∧ dispreq = false
  mod1 : noreg = false → k = 1 → dispBytes ea' = 1
  mod2 : noreg = false → k = 2 → ea'.size = ws
  valid : ea'.validModrm = true
  keep : ea'.sib = ea.sib ∧ ea'.needSib = ea.needSib ∧ ea'.validSib = ea.validSib ∧ ea'.vsib = ea.vsib ∧
    ea'.ipRel = ea.ipRel ∧ ea'.needModrm = ea.needModrm
  val : absVal ρ ea'.disp.abs = absVal ρ ea.disp.abs
  parts : ea'.disp.p = ea.disp.p
  byte : ea.size = 0 → ea'.size = 8 → ea.disp.p.rel = none ∧ -128 ≤ (absVal ρ ea.disp.abs).toInt ∧ (absVal ρ ea.disp.abs).toInt ≤ 127
  drop : noreg = false → k = 0 → ea.disp.p.rel = none ∧ absVal ρ ea.disp.abs = 0
  need : ea.needDisp = true → (ea'.needDisp = false ↔ dispBytes ea' = 0)

theorem calcDisplen_ok (ρ : Env) (c : Ctx) (base : Nat → Word) (ag : ρ.Agrees c base) (nequ : Nat) (ea ea' : Effaddr)
    (ws : Nat) (hws : ws = 16 ∨ ws = 32) (noreg dispreq : Bool) (h : (calcDisplen c nequ ea ws noreg dispreq).out = .ok ea')
    (hs : ∀ k ∈ (calcDisplen c nequ ea ws noreg dispreq).log, k.Sound) (hp : PlainParts ea.disp.p)
    (g : ∀ e, ea.disp.abs = some e → Good ρ e.item) :
    ∃ k, Displen ρ ws noreg dispreq ea ea' k := by
  have zero_or : ∀ m : BitVec 8, m = m ||| BitVec.ofNat 8 (64 * 0) := by intro m; simp
  unfold calcDisplen at h hs
  dsimp only at h hs
  by_cases h8 : ea.size = 8
  · rw [if_pos h8] at h
    cases noreg with
    | true =>
      simp only [Run.of, if_true, Except.ok.injEq] at h
      subst h
      refine ⟨0, zero_or _, by decide, fun _ => ⟨rfl, rfl⟩, fun h => (by cases h), fun h => (by cases h), fun h => (by cases h), rfl,
        ⟨rfl, rfl, rfl, rfl, rfl, rfl⟩, rfl, rfl, fun h => (by omega), fun h => (by cases h), fun hn => ?_⟩
      rcases hws with h | h <;> simp [dispBytes, h, hn]
    | false =>
      simp only [Run.of, Bool.false_eq_true, if_false, Except.ok.injEq] at h
      subst h
      refine ⟨1, rfl, by decide, fun h => (by cases h), fun _ h => (by cases h), fun _ _ => by simp [dispBytes, h8], fun _ h => (by cases h), rfl,
        ⟨rfl, rfl, rfl, rfl, rfl, rfl⟩, rfl, rfl, fun h => (by omega), fun _ h => (by cases h), fun hn => ?_⟩
      simp [dispBytes, h8, hn]
  · rw [if_neg h8] at h hs
    by_cases h16 : ea.size = 16 ∨ ea.size = 32
    · rw [if_pos h16] at h
      by_cases hne : ws ≠ ea.size
      · rw [if_pos hne] at h; cases h
      · rw [if_neg hne] at h
        simp only [Run.of, Except.ok.injEq] at h
        subst h
        simp only [ne_eq, not_not] at hne
        cases noreg with
        | true =>
          refine ⟨0, zero_or _, by decide, fun _ => ⟨rfl, hne.symm⟩, fun h => (by cases h), fun h => (by cases h), fun h => (by cases h), rfl,
            ⟨rfl, rfl, rfl, rfl, rfl, rfl⟩, rfl, rfl, fun h => (by omega), fun h => (by cases h), fun hn => ?_⟩
          rcases h16 with h | h <;> simp [dispBytes, h, hn]
        | false =>
          refine ⟨2, rfl, by decide, fun h => (by cases h), fun _ h => (by cases h), fun _ h => (by cases h), fun _ _ => hne.symm, rfl,
            ⟨rfl, rfl, rfl, rfl, rfl, rfl⟩, rfl, rfl, fun h => (by omega), fun _ h => (by cases h), fun hn => ?_⟩
          rcases h16 with h | h <;> simp [dispBytes, h, hn]
    · rw [if_neg h16] at h hs
      by_cases h0 : ea.size ≠ 0
      · rw [if_pos h0] at h; cases h
      · rw [if_neg h0] at h hs
        simp only [ne_eq, not_not] at h0
        cases noreg with
        | true =>
          simp only [Run.of, if_true, Except.ok.injEq] at h
          subst h
          refine ⟨0, zero_or _, by decide, fun _ => ⟨rfl, rfl⟩, fun h => (by cases h), fun h => (by cases h), fun h => (by cases h), rfl,
            ⟨rfl, rfl, rfl, rfl, rfl, rfl⟩, rfl, rfl, fun _ h => ?_, fun h => (by cases h), fun hn => ?_⟩
          · dsimp only at h; omega
          · rcases hws with h | h <;> simp [dispBytes, h, hn]
        | false =>
          simp only [Bool.false_eq_true, if_false] at h hs
          by_cases hrel : ea.disp.p.rel.isSome = true
          · rw [if_pos hrel] at h
            simp only [Run.of, Except.ok.injEq] at h
            subst h
            refine ⟨2, rfl, by decide, fun h => (by cases h), fun _ h => (by cases h), fun _ h => (by cases h), fun _ _ => rfl, rfl,
              ⟨rfl, rfl, rfl, rfl, rfl, rfl⟩, rfl, rfl, fun _ h => ?_, fun _ h => (by cases h), fun hn => ?_⟩
            · dsimp only at h; omega
            · rcases hws with h | h <;> simp [dispBytes, h, hn]
          · rw [if_neg hrel] at h hs
            have hrel0 : ea.disp.p.rel = none := by
              cases hh : ea.disp.p.rel with
              | none => rfl
              | some s => rw [hh] at hrel; simp at hrel
            obtain ⟨num, hnum, h2, hlog⟩ := Run.bind_out h
            rw [hlog] at hs
            have hnum' := lift_out hnum
            simp only [Run.of, Except.ok.injEq] at h2
            cases num with
            | none =>
              dsimp only at h2
              subst h2
              refine ⟨1, rfl, by decide, fun h => (by cases h), fun _ h => (by cases h), fun _ _ => by simp [dispBytes, h0], fun _ h => (by cases h), rfl,
                ⟨rfl, rfl, rfl, rfl, rfl, rfl⟩, rfl, rfl, fun _ h => ?_, fun _ h => (by cases h), fun hn => ?_⟩
              · dsimp only at h; omega
              · simp [dispBytes, h0, hn]
            | some n =>
              have hv := valueIntnum_ok ρ c base ag ⟨0, fun _ => 0⟩ nequ false ea.disp none false (by simp) g
                (by rw [hp.shift]; decide) hp.wrt
                (fun k hk => hs k (List.mem_append_left _ (by simpa [lift] using hk))) n hnum'
              have hmean : meaning ρ ⟨0, fun _ => 0⟩ ea.disp = absVal ρ ea.disp.abs := by
                simp [meaning, relVal, wrtVal, hrel0, hp.wrt hrel0]
              rw [hmean] at hv
              dsimp only at h2
              split at h2
              · rename_i hz
                subst h2
                have hz' : isZero n = true ∧ ea.needNonzero = false ∧ dispreq = false := by
                  simpa [Bool.and_eq_true] using hz
                have hn0 : bv n = 0 := by
                  exact isZero_bv hv.2 hz'.1
                refine ⟨0, zero_or _, by decide, fun h => (by cases h), fun _ _ => ⟨h0, by simp [hz'.2.1, hz'.2.2], hz'.2.2⟩,
                  fun _ h => (by cases h), fun _ h => (by cases h), rfl, ⟨rfl, rfl, rfl, rfl, rfl, rfl⟩, ?_, rfl, fun _ h => ?_,
                  fun _ _ => ⟨hrel0, by rw [← hv.1]; exact hn0⟩, fun hn => ?_⟩
                · show (0 : Word) = absVal ρ ea.disp.abs
                  rw [← hv.1, hn0]
                · dsimp only at h; omega
                · simp [dispBytes, h0, hz'.2.1, hz'.2.2]
              · split at h2
                · rename_i hr
                  subst h2
                  have hr' := (in_range_exact n (-128#64) 127#64 hv.2 (by decide) (by decide)).1 hr
                  have e1 : (-128#64).toInt = -128 := by decide
                  have e2 : (127#64).toInt = 127 := by decide
                  rw [e1, e2] at hr'
                  have hti : (absVal ρ ea.disp.abs).toInt = val n := by
                    rw [← hv.1]
                    simp only [bv, BitVec.toInt_ofInt]
                    apply Int.bmod_eq_of_le <;> omega
                  refine ⟨1, rfl, by decide, fun h => (by cases h), fun _ h => (by cases h), fun _ _ => by simp [dispBytes], fun _ h => (by cases h), rfl,
                    ⟨rfl, rfl, rfl, rfl, rfl, rfl⟩, rfl, rfl, fun _ _ => ⟨hrel0, ?_⟩, fun _ h => (by cases h), fun hn => ?_⟩
                  · rw [hti]; exact hr'
                  · simp [dispBytes, hn]
                · subst h2
                  refine ⟨2, rfl, by decide, fun h => (by cases h), fun _ h => (by cases h), fun _ h => (by cases h), fun _ _ => rfl, rfl,
                    ⟨rfl, rfl, rfl, rfl, rfl, rfl⟩, rfl, rfl, fun _ h => ?_, fun _ h => (by cases h), fun hn => ?_⟩
                  · dsimp only at h; omega
                  · rcases hws with h | h <;> simp [dispBytes, h, hn]

/-! ### Both together -/

/-- The register a slot stands for. -/
def slotReg (a vsib n : Nat) : Nat :=
  if n < 16 then (if a = 64 then 0x50 else 0x40) + n
  else if n = 16 then 0xD0
  else (if vsib = 1 then 0x80 else 0x90) + (n - 17)

theorem slotReg_vec (a vsib n : Nat) (h : 17 ≤ n) : slotReg a vsib n = (if vsib = 1 then 0x80 else 0x90) + (n - 17) := by
  unfold slotReg
  rw [if_neg (by omega), if_neg (by omega)]

/-- Is the address made relative to RIP because there are no registers? -/
def ToRip (ea : Effaddr) (r : Regs) : Prop := r.base = none ∧ r.index = none ∧ ea.pcRel = true

instance (ea : Effaddr) (r : Regs) : Decidable (ToRip ea r) := by unfold ToRip; infer_instance

theorem gpr_slot (a vsib bits n : Nat) (hn : n < 16) (hlow : bits = 64 ∨ n < 8) :
    gpr a (hi bits n) (n % 8) = slotReg a vsib n := by
  unfold gpr slotReg hi
  rw [if_pos hn]
  by_cases h : bits = 64 ∧ n % 16 ≥ 8
  · rw [decide_eq_true h]; simp only [if_true]; omega
  · rw [decide_eq_false h]; simp only [Bool.false_eq_true, if_false]; omega

/-- What R/M field and SIB byte say. -/
structure Bytes (bits : Nat) (ea ea' : Effaddr) (rex' : BitVec 8) (r : Regs) (rm : Nat) : Prop where
  modrm : ea'.modrm = ea.modrm ||| BitVec.ofNat 8 rm
  lt : rm < 8
  keep : ea'.disp = ea.disp ∧ ea'.size = ea.size ∧ ea'.needNonzero = ea.needNonzero ∧ ea'.needDisp = ea.needDisp ∧
    ea'.vsib = ea.vsib ∧ ea'.ipRel = ea.ipRel ∧ ea'.needModrm = ea.needModrm
  cases : ea'.needSib = 1 ∧ rm = 4 ∧ ea'.validSib = true ∧
      (∃ rex0, SibSays bits rex0 rex' ea'.sib r ∧ rexBit rex0 1 = false ∧
        (rexBit rex0 0 = true → ∃ b, r.base = some b ∧ hi bits b = true)) ∨
    ea'.needSib = 0 ∧ r.index = none ∧ r.base = none ∧ bits ≠ 64 ∧ rm = 5 ∨
    ea'.needSib = 0 ∧ r.index = none ∧ ∃ b, r.base = some b ∧ rm = b % 8 ∧ b ≠ 4 ∧ b ≠ 12 ∧ rexBit rex' 0 = hi bits b

theorem bytes_ok (bits : Nat) (ea : Effaddr) (rex : BitVec 8) (r : Regs) (x y : Effaddr × BitVec 8)
    (h1 : rmField ea bits rex r = .ok x) (h2 : addSib bits r x = .ok y) (hrex : RexFree rex)
    (hs : ∀ i, r.index = some i → r.mult i = 1#32 ∨ r.mult i = 2#32 ∨ r.mult i = 4#32 ∨ r.mult i = 8#32) :
    ∃ rm, Bytes bits ea y.1 y.2 r rm := by
  obtain ⟨hrok, hr0, hr1⟩ := hrex.ok
  have sibCase : ∀ rx, x = ({ ea with modrm := ea.modrm ||| BitVec.ofNat 8 4, needSib := 1 }, rx) → RexOk rx → rexBit rx 1 = false →
      (rexBit rx 0 = true → ∃ b, r.base = some b ∧ hi bits b = true) → ∃ rm, Bytes bits ea y.1 y.2 r rm := by
    intro rx hx hok hx1 hx0
    subst hx
    unfold addSib at h2
    rw [if_pos rfl] at h2
    dsimp only at h2
    cases hk : makeSib bits rx r with
    | error e => rw [hk] at h2; cases h2
    | ok z =>
      obtain ⟨rex', sib⟩ := z
      rw [hk] at h2
      simp only [Except.ok.injEq] at h2
      subst h2
      exact ⟨4, rfl, by decide, ⟨rfl, rfl, rfl, rfl, rfl, rfl, rfl⟩,
        Or.inl ⟨rfl, rfl, rfl, rx, makeSib_ok bits rx rex' sib r hk hok hs, hx1, hx0⟩⟩
  have noSib : x.1.needSib = 0 → y = x := by
    intro h0
    unfold addSib at h2
    rw [if_neg (by omega)] at h2
    simp only [Except.ok.injEq] at h2
    exact h2.symm
  unfold rmField at h1
  split at h1
  · rename_i hb hi
    split at h1
    · simp only [Except.ok.injEq] at h1
      exact sibCase rex h1.symm hrok hr1 (by rw [hr0]; simp)
    · rename_i h64
      simp only [Except.ok.injEq] at h1
      have := noSib (by rw [← h1])
      subst this h1
      exact ⟨5, rfl, by decide, ⟨rfl, rfl, rfl, rfl, rfl, rfl, rfl⟩, Or.inr (Or.inl ⟨rfl, hi, hb, h64, rfl⟩)⟩
  · rename_i b hb hix
    cases hset : setRex rex b bits 0 with
    | error e => rw [hset] at h1; cases h1
    | ok z =>
      obtain ⟨rx, low3⟩ := z
      rw [hset] at h1
      dsimp only at h1
      obtain ⟨k1, k2, k3, k4⟩ := setRex_ok _ _ _ _ _ 0 (by decide) hset hrok
      rw [hr0, Bool.false_or] at k3
      subst k1
      split at h1
      · rename_i hb4
        simp only [Except.ok.injEq] at h1
        have e4 : b % 8 = 4 := by omega
        rw [e4] at h1
        exact sibCase rx h1.symm k2 (by rw [← hr1]; exact k4) (fun ht => ⟨b, hb, by rw [← k3]; exact ht⟩)
      · rename_i hb4
        simp only [Except.ok.injEq] at h1
        have := noSib (by rw [← h1])
        subst this h1
        exact ⟨b % 8, rfl, by omega, ⟨rfl, rfl, rfl, rfl, rfl, rfl, rfl⟩,
          Or.inr (Or.inr ⟨rfl, hix, b, hb, rfl, by omega, by omega, k3⟩)⟩
  · simp only [Except.ok.injEq] at h1
    exact sibCase rex h1.symm hrok hr1 (by rw [hr0]; simp)

/-- What is claimed of the encoded address. -/
structure Encoded (ρ : Env) (absSym : Nat) (bits a : Nat) (ea ea' : Effaddr) (rex' : BitVec 8) (r : Regs) (m : Mem) : Prop where
  decodes : decode3264 bits a ea.vsib (rexBit rex' 1) (rexBit rex' 0) ea'.modrm ea'.sib = some m
  regs : m.val ρ = regsVal (fun n => ρ.reg (slotReg a ea.vsib n)) r + (if ToRip ea r then ρ.reg 0xD0 else 0)
  disp : m.disp = dispBytes ea'
  sib : m.sib = true ↔ ea'.needSib = 1
  nosib : m.sib = false → ea'.needSib = 0
  validSib : m.sib = true → ea'.validSib = true
  valid : ea'.validModrm = true ∧ ea'.needModrm = true
  vsib : ea'.vsib = ea.vsib
  val : absVal ρ ea'.disp.abs = absVal ρ ea.disp.abs
  parts : ea'.disp.p = if ToRip ea r then (setCurposRel absSym ea.disp).p else ea.disp.p
  ipRel : ea'.ipRel = (ea.ipRel || decide (ToRip ea r))
  byte : ea.size = 0 → ea'.size = 8 → ea'.disp.p.rel = none ∧ -128 ≤ (absVal ρ ea.disp.abs).toInt ∧ (absVal ρ ea.disp.abs).toInt ≤ 127
  drop : m.disp = 0 → ea'.disp.p.rel = none ∧ absVal ρ ea.disp.abs = 0
  need : ea.needDisp = true → (ea'.needDisp = false ↔ m.disp = 0)
  rip : r.base = some 16 ∨ ToRip ea r → m.base = some 0xD0

theorem dispBytes_mod {ρ : Env} {noreg dispreq : Bool} {ea ea' : Effaddr} {k : Nat} (hd : Displen ρ 32 noreg dispreq ea ea' k)
    (hn : noreg = false) : dispBytes ea' = if k = 0 then 0 else if k = 1 then 1 else 4 := by
  have := hd.lt
  by_cases h0 : k = 0
  · obtain ⟨a, b, _⟩ := hd.mod0 hn h0
    simp [dispBytes, a, b, h0]
  · by_cases h1 : k = 1
    · rw [hd.mod1 hn h1, h1]; rfl
    · rw [if_neg h0, if_neg h1]
      have := hd.mod2 hn (by omega)
      simp [dispBytes, this]

theorem encodeRegs_ok (ρ : Env) (c : Ctx) (cb : Nat → Word) (ag : ρ.Agrees c cb) (nequ absSym : Nat) (ea ea' : Effaddr)
    (bits a : Nat) (rex rex' : BitVec 8) (m : Nat → BitVec 32) (r : Regs)
    (h : (encodeRegs c nequ absSym ea bits rex r).out = .ok (ea', rex'))
    (hs : ∀ k ∈ (encodeRegs c nequ absSym ea bits rex r).log, k.Sound) (hp : PlainParts ea.disp.p)
    (g : ∀ e, ea.disp.abs = some e → Good ρ e.item) (pk : Picked ea.vsib m r) (hrex : RexFree rex)
    (hm : ea.modrm &&& 0xC7#8 = 0#8) (hvs : ea.vsib ≤ 2)
    (hlow : ∀ n, r.base = some n ∨ r.index = some n → bits = 64 ∨ n < 8 ∨ (17 ≤ n ∧ n < 25))
    (hpc : ea.pcRel = true → bits = 64) :
    ∃ mem, Encoded ρ absSym bits a ea ea' rex' r mem := by
  obtain ⟨hrok, hr0, hr1⟩ := hrex.ok
  have zero_or : ∀ m : BitVec 8, m ||| BitVec.ofNat 8 (64 * 0) = m := by intro m; simp
  unfold encodeRegs at h hs
  extract_lets toRip r1 ea1 ea2 at h hs
  have htr : toRip = ToRip ea r := rfl
  by_cases hT : ToRip ea r
  · -- no registers, but RIP-relative
    have hr1' : r1 = { r with base := some 16 } := if_pos hT
    have hea1 : ea1 = { ea with disp := setCurposRel absSym ea.disp, ipRel := true } := if_pos hT
    rw [if_pos (by rw [hr1'])] at h
    simp only [Run.of, Except.ok.injEq, Prod.mk.injEq] at h
    obtain ⟨rfl, rfl⟩ := h
    have hv0 : ea.vsib = 0 := by
      by_contra hne
      obtain ⟨_, i, hi, _⟩ := pk.vec hne
      rw [hT.2.1] at hi; cases hi
    have hb := hpc hT.2.2
    obtain ⟨f1, f2⟩ := modrm_fields ea.modrm hm 5 0 (by decide) (by decide)
    rw [zero_or] at f1 f2
    have hmod : ea2.modrm = ea.modrm := by simp only [ea2, hea1]
    refine ⟨⟨some 0xD0, none, 4, false⟩, ?_, ?_, by simp [dispBytes], by simp, by simp, by simp, ⟨rfl, by simp [ea2]⟩, by simp [ea2, hea1], ?_, ?_, ?_, ?_,
      by simp, ?_, ?_⟩
    · dsimp only
      rw [hmod]
      simp only [decode3264]
      have e5 : (5 : BitVec 8) = BitVec.ofNat 8 5 := rfl
      rw [e5, f1, f2]
      simp [hv0, hb]
    · simp only [Mem.val, regsVal, hT.1, hT.2.1, if_pos hT]; grind
    · dsimp only [ea2]; rw [hea1]; rfl
    · rw [if_pos hT]; dsimp only [ea2]; rw [hea1]
    · dsimp only [ea2]; rw [hea1]; simp [hT]
    · intro _ h8; dsimp only at h8; omega
    · intro hn; dsimp only [ea2]; rw [hea1]; simp [hn]
    · exact fun _ => rfl
  · have hr1' : r1 = r := if_neg hT
    have hea1 : ea1 = ea := if_neg hT
    have hmod : ea2.modrm = ea.modrm := by simp only [ea2, hea1]
    have hea2 : ea2 = { ea with needModrm := true } := by simp only [ea2, hea1]
    clear_value ea2 r1 ea1
    subst hr1' hea1
    by_cases h16 : r1.base = some 16
    · rw [if_pos h16] at h
      simp only [Run.of, Except.ok.injEq, Prod.mk.injEq] at h
      obtain ⟨rfl, rfl⟩ := h
      have hb : bits = 64 := by
        rcases hlow 16 (Or.inl h16) with h | h | h <;> omega
      have hv0 : ea1.vsib = 0 := by
        by_contra hne
        have := (pk.vec hne).1 16 h16
        omega
      have hi := pk.ripAlone h16
      obtain ⟨f1, f2⟩ := modrm_fields ea1.modrm hm 5 0 (by decide) (by decide)
      rw [zero_or] at f1 f2
      subst hea2
      refine ⟨⟨some 0xD0, none, 4, false⟩, ?_, ?_, by simp [dispBytes], by simp, by simp, by simp, ⟨rfl, rfl⟩, rfl, rfl, ?_, ?_, ?_, by simp, ?_, fun _ => rfl⟩
      · simp only [decode3264]
        have e5 : (5 : BitVec 8) = BitVec.ofNat 8 5 := rfl
        rw [e5, f1, f2]
        simp [hv0, hb]
      · simp only [Mem.val, regsVal, h16, hi, if_neg hT]
        simp [slotReg]
      · rw [if_neg hT]
      · simp [hT]
      · intro _ h8; dsimp only at h8; omega
      · intro hn; simp [hn]
    · rw [if_neg h16] at h hs
      obtain ⟨x, hx, h, hl⟩ := Run.bind_out h
      rw [hl] at hs
      replace hs : ∀ k ∈ (Run.bind (.of (addSib bits r1 x)) fun x =>
        Run.bind (calcDisplen c nequ x.1 32 (decide (r1.base = none)) (decide (r1.base = some 5 ∨ r1.base = some 13))) fun ea =>
          .of (.ok (ea, x.2))).log, k.Sound := fun k hk => hs k (List.mem_append_right _ hk)
      obtain ⟨y, hy, h, hl⟩ := Run.bind_out h
      rw [hl] at hs
      replace hs : ∀ k ∈ (Run.bind (calcDisplen c nequ y.1 32 (decide (r1.base = none)) (decide (r1.base = some 5 ∨ r1.base = some 13))) fun ea =>
          .of (.ok (ea, y.2))).log, k.Sound := fun k hk => hs k (List.mem_append_right _ hk)
      obtain ⟨z, hz, h, hl⟩ := Run.bind_out h
      rw [hl] at hs
      simp only [Run.of, Except.ok.injEq, Prod.mk.injEq] at h
      obtain ⟨rfl, rfl⟩ := h
      obtain ⟨rm, B⟩ := bytes_ok bits ea2 rex r1 x y hx hy hrex pk.scale
      have kd : y.1.disp = ea1.disp := by rw [B.keep.1, hea2]
      have ksz : y.1.size = ea1.size := by rw [B.keep.2.1, hea2]
      have knd : y.1.needDisp = ea1.needDisp := by rw [B.keep.2.2.2.1, hea2]
      have kvs : y.1.vsib = ea1.vsib := by rw [B.keep.2.2.2.2.1, hea2]
      have kip : y.1.ipRel = ea1.ipRel := by rw [B.keep.2.2.2.2.2.1, hea2]
      have knm : y.1.needModrm = true := by rw [B.keep.2.2.2.2.2.2, hea2]
      obtain ⟨k, D⟩ := calcDisplen_ok ρ c cb ag nequ y.1 z 32 (Or.inr rfl) _ _ hz
        (fun q hq => hs q (List.mem_append_left _ hq)) (by rw [kd]; exact hp) (by rw [kd]; exact g)
      obtain ⟨d1, d2, d3, d4, d5, d6⟩ := D.keep
      obtain ⟨f1, f2⟩ := modrm_fields ea1.modrm hm rm k B.lt (by have := D.lt; omega)
      have hmodrm : z.modrm = ea1.modrm ||| BitVec.ofNat 8 rm ||| BitVec.ofNat 8 (64 * k) := by rw [D.modrm, B.modrm, hmod]
      rw [← hmodrm] at f1 f2
      have hk3 : k ≠ 3 := by have := D.lt; omega
      have hbase : ∀ b, r1.base = some b → b < 16 ∧ (bits = 64 ∨ b < 8) := by
        intro b hb
        have h1 := pk.below.1 b hb
        have hne : b ≠ 16 := fun he => h16 (he ▸ hb)
        have hlt : b < 16 := by
          by_cases hv : ea1.vsib = 0
          · simp [slots, hv] at h1; omega
          · exact (pk.vec hv).1 b hb
        refine ⟨hlt, ?_⟩
        rcases hlow b (Or.inl hb) with h | h | h <;> omega
      -- what follows from the decoded operand
      have finish : ∀ mem : Mem, decode3264 bits a ea1.vsib (rexBit y.2 1) (rexBit y.2 0) z.modrm z.sib = some mem →
          mem.val ρ = regsVal (fun n => ρ.reg (slotReg a ea1.vsib n)) r1 → mem.disp = dispBytes z →
          (mem.sib = true → z.needSib = 1 ∧ z.validSib = true) → (mem.sib = false → z.needSib = 0) →
          ∃ mem, Encoded ρ absSym bits a ea1 z y.2 r1 mem := by
        intro mem q1 q2 q3 q4 q5
        refine ⟨mem, q1, by rw [q2, if_neg hT]; simp, q3, ⟨fun h => (q4 h).1, fun h => ?_⟩, q5, fun h => (q4 h).2,
          ⟨D.valid, by rw [d6, knm]⟩, by rw [d4, kvs], by rw [D.val, kd], by rw [if_neg hT, D.parts, kd],
          by rw [d5, kip]; simp [hT], ?_, fun h => ?_, ?_, fun h => ?_⟩
        · by_contra hf
          have := q5 (by simpa using hf)
          omega
        · rw [D.parts, ← kd, ← ksz]; exact D.byte
        · rw [q3] at h
          rw [D.parts, ← kd]
          cases hn : decide (r1.base = none) with
          | true =>
            have := (D.noRegs hn).2
            simp [dispBytes, this] at h
          | false =>
            have e := dispBytes_mod D hn
            rw [h] at e
            refine D.drop hn ?_
            by_contra hk
            rw [if_neg hk] at e
            split at e <;> cases e
        · rw [q3, ← knd]; exact D.need
        · rcases h with h | h
          · exact absurd h h16
          · exact absurd h hT
      rcases B.cases with ⟨s1, s2, s3, rex0, S, s4, s5⟩ | ⟨s1, s2, s3, s4, s5⟩ | ⟨s1, s2, b, s3, s4, s5, s6, s7⟩
      · -- SIB
        have hzs : z.sib = y.1.sib := d1
        have hindex : ∀ i, r1.index = some i → (if ea1.vsib = 1 then some (0x80 + (if rexBit y.2 1 then 8 else 0) + z.sib.toNat / 8 % 8, 2 ^ (z.sib.toNat / 64))
            else if ea1.vsib = 2 then some (0x90 + (if rexBit y.2 1 then 8 else 0) + z.sib.toNat / 8 % 8, 2 ^ (z.sib.toNat / 64))
            else if z.sib.toNat / 8 % 8 = 4 ∧ rexBit y.2 1 = false then none
            else some (gpr a (rexBit y.2 1) (z.sib.toNat / 8 % 8), 2 ^ (z.sib.toNat / 64))) =
            some (slotReg a ea1.vsib i, 2 ^ (z.sib.toNat / 64)) := by
          intro i hi'
          have hx := S.rexX
          have hf := S.index
          rw [hi'] at hx hf
          dsimp only at hx hf
          rw [s4, Bool.false_or] at hx
          rw [hzs, hf, hx]
          have hlt := pk.below.2 i hi'
          have hl := hlow i (Or.inr hi')
          have vec : ea1.vsib ≠ 0 → (if hi bits (fieldNum i) = true then 8 else 0) + fieldNum i % 8 = i - 17 ∧ 17 ≤ i := by
            intro hv
            obtain ⟨_, j, hj, h17⟩ := pk.vec hv
            rw [hi'] at hj
            simp only [Option.some.injEq] at hj
            subst hj
            simp only [slots, hv, ne_eq, not_false_eq_true, if_true] at hlt
            have hfn : fieldNum i = i - 17 := by unfold fieldNum; rw [if_pos h17]
            refine ⟨?_, h17⟩
            rw [hfn]
            unfold hi
            by_cases hc : bits = 64 ∧ (i - 17) % 16 ≥ 8
            · rw [decide_eq_true hc]; simp only [if_true]; omega
            · rw [decide_eq_false hc]; simp only [Bool.false_eq_true, if_false]; omega
          by_cases hv1 : ea1.vsib = 1
          · obtain ⟨v1, v2⟩ := vec (by omega)
            rw [if_pos hv1, slotReg_vec a ea1.vsib i v2, if_pos hv1, Nat.add_assoc, v1]
          · by_cases hv2 : ea1.vsib = 2
            · obtain ⟨v1, v2⟩ := vec (by omega)
              rw [if_neg hv1, if_pos hv2, slotReg_vec a ea1.vsib i v2, if_neg hv1, Nat.add_assoc, v1]
            · have hv0 : ea1.vsib = 0 := by omega
              simp only [slots, hv0, ne_eq, not_true_eq_false, if_false] at hlt
              have hi16 : i ≠ 16 := fun he => pk.notRip (he ▸ hi')
              have hi4 : i ≠ 4 := fun he => pk.notSp (he ▸ hi')
              have hfn : fieldNum i = i := by unfold fieldNum; rw [if_neg (by omega)]
              rw [if_neg hv1, if_neg hv2, hfn, if_neg, gpr_slot a ea1.vsib bits i (by omega) (by omega)]
              rintro ⟨h4, hh⟩
              have h12 : i = 12 := by omega
              subst h12
              have h64 : bits = 64 := by omega
              simp [hi, h64] at hh
        have hnoindex : r1.index = none → ea1.vsib = 0 ∧ z.sib.toNat / 8 % 8 = 4 ∧ rexBit y.2 1 = false := by
          intro hi'
          have hx := S.rexX
          have hf := S.index
          rw [hi'] at hx hf
          dsimp only at hx hf
          rw [s4, Bool.false_or] at hx
          refine ⟨?_, by rw [hzs]; exact hf, hx⟩
          by_contra hv
          obtain ⟨_, j, hj, _⟩ := pk.vec hv
          rw [hi'] at hj; cases hj
        have hdec : ∀ ix, (if ea1.vsib = 1 then some (0x80 + (if rexBit y.2 1 then 8 else 0) + z.sib.toNat / 8 % 8, 2 ^ (z.sib.toNat / 64))
            else if ea1.vsib = 2 then some (0x90 + (if rexBit y.2 1 then 8 else 0) + z.sib.toNat / 8 % 8, 2 ^ (z.sib.toNat / 64))
            else if z.sib.toNat / 8 % 8 = 4 ∧ rexBit y.2 1 = false then none
            else some (gpr a (rexBit y.2 1) (z.sib.toNat / 8 % 8), 2 ^ (z.sib.toNat / 64))) = ix →
            (ix = none ∧ r1.index = none ∨ ∃ i, r1.index = some i ∧ ix = some (slotReg a ea1.vsib i, 2 ^ (z.sib.toNat / 64))) →
            ∃ mem, Encoded ρ absSym bits a ea1 z y.2 r1 mem := by
          intro ix hix hcase
          have hixv : (match ix with | some (r, s) => BitVec.ofNat 256 s * ρ.reg r | none => (0 : Word)) =
              (match r1.index with | some i => BitVec.ofInt 256 (r1.mult i).toInt * ρ.reg (slotReg a ea1.vsib i) | none => 0) := by
            rcases hcase with ⟨c1, c2⟩ | ⟨i, c1, c2⟩
            · rw [c1, c2]
            · rw [c1, c2]
              dsimp only
              rw [S.scale i c1, ← hzs, BitVec.ofInt_natCast]
          cases hb : r1.base with
          | none =>
            have hn : decide (r1.base = none) = true := by rw [hb]; rfl
            obtain ⟨k0, ksize⟩ := D.noRegs hn
            have hsb := S.base
            rw [hb] at hsb
            dsimp only at hsb
            refine finish ⟨none, ix, 4, true⟩ ?_ ?_ (by simp [dispBytes, ksize]) (fun _ => ⟨by rw [d2, s1], by rw [d3, s3]⟩) (fun h => by cases h)
            · simp only [decode3264, f1, f2, s2, k0, hix]
              rw [hzs, hsb]
              simp
            · simp only [Mem.val, regsVal, hb]
              exact congrArg (fun w : Word => 0 + w) hixv
          | some b =>
            have hn : decide (r1.base = none) = false := by rw [hb]; rfl
            obtain ⟨b1, b2⟩ := hbase b hb
            have hsb := S.base
            have hrb := S.rexB
            rw [hb] at hsb hrb
            dsimp only at hsb hrb
            have hrb' : rexBit y.2 0 = hi bits b := by
              rw [hrb]
              cases h0 : rexBit rex0 0 with
              | false => simp
              | true =>
                obtain ⟨b', hb', hh⟩ := s5 h0
                rw [hb] at hb'
                simp only [Option.some.injEq] at hb'
                subst hb'
                rw [hh]; rfl
            have hno : ¬ (b % 8 = 5 ∧ k = 0) := by
              rintro ⟨h5, hk0⟩
              have := (D.mod0 hn hk0).2.2
              simp only [hb, Option.some.injEq, decide_eq_false_iff_not] at this
              omega
            refine finish ⟨some (slotReg a ea1.vsib b), ix, dispBytes z, true⟩ ?_ ?_ rfl (fun _ => ⟨by rw [d2, s1], by rw [d3, s3]⟩) (fun h => by cases h)
            · simp only [decode3264, f1, f2, s2, hix]
              rw [if_neg hk3, if_pos trivial, hzs, hsb, if_neg hno, hrb', gpr_slot a ea1.vsib bits b b1 b2, dispBytes_mod D hn]
            · simp only [Mem.val, regsVal, hb]
              exact congrArg (fun w : Word => ρ.reg (slotReg a ea1.vsib b) + w) hixv
        cases hi' : r1.index with
        | none =>
          obtain ⟨v0, v4, vx⟩ := hnoindex hi'
          exact hdec none (by rw [if_neg (by omega), if_neg (by omega), if_pos ⟨v4, vx⟩]) (Or.inl ⟨rfl, hi'⟩)
        | some i => exact hdec _ (hindex i hi') (Or.inr ⟨i, hi', rfl⟩)
      · -- displacement only
        have hn : decide (r1.base = none) = true := by rw [s3]; rfl
        obtain ⟨k0, ksize⟩ := D.noRegs hn
        have hv0 : ea1.vsib = 0 := by
          by_contra hv
          obtain ⟨_, j, hj, _⟩ := pk.vec hv
          rw [s2] at hj; cases hj
        refine finish ⟨none, none, 4, false⟩ ?_ ?_ (by simp [dispBytes, ksize]) (fun h => by cases h) (fun _ => by rw [d2, s1])
        · simp only [decode3264, f1, f2, s5, k0]
          simp [hv0, s4]
        · simp only [Mem.val, regsVal, s2, s3]
      · -- base only
        have hn : decide (r1.base = none) = false := by rw [s3]; rfl
        obtain ⟨b1, b2⟩ := hbase b s3
        have hv0 : ea1.vsib = 0 := by
          by_contra hv
          obtain ⟨_, j, hj, _⟩ := pk.vec hv
          rw [s2] at hj; cases hj
        have hno : ¬ (b % 8 = 5 ∧ k = 0) := by
          rintro ⟨h5, hk0⟩
          have := (D.mod0 hn hk0).2.2
          simp only [s3, Option.some.injEq, decide_eq_false_iff_not] at this
          omega
        refine finish ⟨some (slotReg a ea1.vsib b), none, dispBytes z, false⟩ ?_ ?_ rfl (fun h => by cases h) (fun _ => by rw [d2, s1])
        · simp only [decode3264, f1, f2, s4]
          rw [if_neg hk3, if_neg (by omega), if_neg (by simp [hv0]), if_neg hno, s7, gpr_slot a ea1.vsib bits b b1 b2, dispBytes_mod D hn]
        · simp only [Mem.val, regsVal, s2, s3]

end Verif.Ea
