/-
The reg field of ModRM and the W and R bits of REX are left alone.
-/
import Verif.Ea.Usage

namespace Verif.Ea

open Verif.Intnum
open Verif.Expr
open Verif.Value

/-- The same reg field. -/
def SameReg (a b : BitVec 8) : Prop := a &&& 0x38#8 = b &&& 0x38#8
/-- The same REX byte, but for the bits B and X and the bit that makes it a REX byte. -/
def SameRex (a b : BitVec 8) : Prop := a &&& 0xBC#8 = b &&& 0xBC#8

theorem SameReg.rfl' (a : BitVec 8) : SameReg a a := rfl
theorem SameRex.rfl' (a : BitVec 8) : SameRex a a := rfl

theorem or_and (a b m : BitVec 8) : (a ||| b) &&& m = (a &&& m) ||| (b &&& m) := by
  ext i hi
  simp only [BitVec.getElem_and, BitVec.getElem_or]
  exact Bool.and_or_distrib_right _ _ _

theorem same_or {a b c : BitVec 8} (h : SameReg a b) (hc : c &&& 0x38#8 = 0#8) : SameReg (a ||| c) b := by
  unfold SameReg at *
  rw [or_and, hc, h]; simp

theorem low3_reg (n : Nat) : BitVec.ofNat 8 (n % 8) &&& 0x38#8 = 0#8 := by
  have key : ∀ k : Fin 8, BitVec.ofNat 8 k.val &&& 0x38#8 = 0#8 := by decide
  exact key ⟨n % 8, Nat.mod_lt _ (by decide)⟩

theorem setRex_kept {rex : BitVec 8} {n bits pos : Nat} {x : BitVec 8 × BitVec 8} (hp : pos < 2)
    (h : setRex rex n bits pos = .ok x) : SameRex x.1 rex ∧ x.2 &&& 0x38#8 = 0#8 := by
  unfold setRex at h
  dsimp only at h
  split at h
  · split at h
    · cases h
    · cases h
      refine ⟨?_, low3_reg n⟩
      have : pos = 0 ∨ pos = 1 := by omega
      unfold SameRex
      rw [or_and, or_and]
      rcases this with rfl | rfl
      · rw [show (0x40 : BitVec 8) &&& 0xBC#8 = 0#8 by decide, show (1#8 <<< 0) &&& 0xBC#8 = 0#8 by decide]; simp
      · rw [show (0x40 : BitVec 8) &&& 0xBC#8 = 0#8 by decide, show (1#8 <<< 1) &&& 0xBC#8 = 0#8 by decide]; simp
  · cases h
    exact ⟨rfl, low3_reg n⟩

theorem makeSib_kept {bits : Nat} {rex : BitVec 8} {r : Regs} {x : BitVec 8 × BitVec 8}
    (h : makeSib bits rex r = .ok x) : SameRex x.1 rex := by
  unfold makeSib at h
  extract_lets b at h
  have hb : ∀ y, b = .ok y → SameRex y.1 rex := by
    intro y hy
    simp only [b] at hy
    split at hy
    · cases hy; rfl
    · exact (setRex_kept (by decide) hy).1
  clear_value b
  split at h
  · cases h
  · rename_i rex' s
    have h1 := hb _ rfl
    split at h
    · cases h; exact h1
    · split at h
      · cases h
      · rename_i hs
        cases h
        exact (setRex_kept (by decide) hs).1.trans h1

theorem rmField_kept {ea : Effaddr} {bits : Nat} {rex : BitVec 8} {r : Regs} {x : Effaddr × BitVec 8}
    (h : rmField ea bits rex r = .ok x) : SameReg x.1.modrm ea.modrm ∧ SameRex x.2 rex := by
  unfold rmField at h
  split at h
  · split at h <;> cases h <;> exact ⟨same_or rfl (by decide), rfl⟩
  · split at h
    · cases h
    · rename_i hs
      have := setRex_kept (by decide) hs
      split at h <;> cases h <;> exact ⟨same_or rfl this.2, this.1⟩
  · cases h; exact ⟨same_or rfl (by decide), rfl⟩

theorem addSib_kept {bits : Nat} {r : Regs} {y x : Effaddr × BitVec 8} (h : addSib bits r y = .ok x) :
    SameReg x.1.modrm y.1.modrm ∧ SameRex x.2 y.2 := by
  unfold addSib at h
  split at h
  · split at h
    · cases h
    · rename_i hs
      cases h
      exact ⟨rfl, makeSib_kept hs⟩
  · cases h; exact ⟨rfl, rfl⟩

theorem calcDisplen_kept {c : Ctx} {nequ : Nat} {ea : Effaddr} {w : Nat} {n d : Bool} {x : Effaddr}
    (h : (calcDisplen c nequ ea w n d).out = .ok x) : SameReg x.modrm ea.modrm := by
  unfold calcDisplen at h
  extract_lets ea1 ea2 d at h
  have h1 : ea1.modrm = ea.modrm := rfl
  have h2 : ea2.modrm = ea.modrm := rfl
  clear_value ea2
  split at h
  · simp only [Run.of, Except.ok.injEq] at h
    split at h <;> subst h
    · exact h1 ▸ rfl
    · exact h1 ▸ same_or rfl (by decide)
  · split at h
    · split at h
      · cases h
      · simp only [Run.of, Except.ok.injEq] at h
        subst h
        dsimp only
        split
        · exact h1 ▸ rfl
        · exact h1 ▸ same_or rfl (by decide)
    · split at h
      · cases h
      · split at h
        · simp only [Run.of, Except.ok.injEq] at h
          subst h; exact h1 ▸ rfl
        · split at h
          · simp only [Run.of, Except.ok.injEq] at h
            subst h
            exact h2 ▸ same_or rfl (by decide)
          · obtain ⟨num, _, h, _⟩ := Run.bind_out h
            simp only [Run.of, Except.ok.injEq] at h
            split at h
            · subst h; exact h2 ▸ same_or rfl (by decide)
            · split at h
              · subst h; exact h2 ▸ rfl
              · split at h <;> subst h <;> exact h2 ▸ same_or rfl (by decide)

theorem encodeRegs_kept {c : Ctx} {nequ absSym : Nat} {ea : Effaddr} {bits : Nat} {rex : BitVec 8} {r : Regs}
    {x : Effaddr × BitVec 8} (h : (encodeRegs c nequ absSym ea bits rex r).out = .ok x) :
    SameReg x.1.modrm ea.modrm ∧ SameRex x.2 rex := by
  unfold encodeRegs at h
  extract_lets t r1 e1 e2 at h
  have h2 : e2.modrm = ea.modrm := by
    simp only [e2, e1]
    split <;> rfl
  clear_value r1 e2
  split at h
  · cases h
    exact ⟨h2 ▸ same_or rfl (by decide), rfl⟩
  · obtain ⟨a, ha, h, _⟩ := Run.bind_out h
    obtain ⟨b, hb, h, _⟩ := Run.bind_out h
    obtain ⟨d, hd, h, _⟩ := Run.bind_out h
    simp only [Run.of, Except.ok.injEq] at ha hb h
    subst h
    have ka := rmField_kept ha
    have kb := addSib_kept hb
    have kd := calcDisplen_kept hd
    exact ⟨h2 ▸ (kd.trans kb.1).trans ka.1, kb.2.trans ka.2⟩

theorem takeRegs_kept {c : Ctx} {nequ absSym : Nat} {g : Nat → Option Nat} {want : Bool} {bits : Nat} {ea : Effaddr}
    {x : Effaddr × Usage} (h : (takeRegs c nequ absSym g want bits ea).out = .ok x) : x.1.modrm = ea.modrm := by
  unfold takeRegs at h
  split at h
  · cases h; rfl
  · obtain ⟨y, _, h, _⟩ := Run.bind_out h
    simp only [Run.of, Except.ok.injEq] at h
    subst h
    dsimp only
    split <;> rfl

theorem checkea_kept {c : Ctx} {nequ absSym : Nat} {ea : Effaddr} {addrsize bits : Nat} {a16 : Bool} {rex : BitVec 8}
    {r : Checked} (h : (checkea c nequ absSym ea addrsize bits a16 rex).out = .ok r) :
    SameReg r.ea.modrm ea.modrm ∧ SameRex r.rex rex := by
  unfold checkea at h
  obtain ⟨a, _, h, _⟩ := Run.bind_out h
  split at h
  · unfold check3264 at h
    split at h
    · cases h
    · extract_lets e1 at h
      have h1 : e1.modrm = ea.modrm := by simp only [e1]; split <;> rfl
      clear_value e1
      obtain ⟨x, hx, h, _⟩ := Run.bind_out h
      obtain ⟨y, _, h, _⟩ := Run.bind_out h
      obtain ⟨z, hz, h, _⟩ := Run.bind_out h
      cases h
      have k := encodeRegs_kept hz
      rw [takeRegs_kept hx, h1] at k
      exact k
  · split at h
    · unfold check16 at h
      split at h
      · cases h
      · extract_lets e1 at h
        have h1 : e1.modrm = ea.modrm := rfl
        clear_value e1
        obtain ⟨x, hx, h, _⟩ := Run.bind_out h
        dsimp only at h
        split at h
        · cases h
        · split at h
          · cases h
          · rename_i hm
            obtain ⟨z, hz, h, _⟩ := Run.bind_out h
            cases h
            have k := calcDisplen_kept hz
            dsimp only at k ⊢
            rw [takeRegs_kept hx, h1] at k
            refine ⟨k.trans (same_or rfl ?_), rfl⟩
            exact Decidable.not_not.mp hm
    · split at h
      · simp only [Run.of] at h
        unfold checkMoffs at h
        (repeat' split at h) <;> cases h <;> exact ⟨rfl, rfl⟩
      · cases h; exact ⟨rfl, rfl⟩

end Verif.Ea
