/-
No instruction is counted as more than 32 bytes.
-/
import Verif.Insn.Length

namespace Verif.Insn

open Verif.Intnum
open Verif.Expr
open Verif.Value
open Verif.Ea

/-- Displacement and immediate have up to 64 bits. -/
structure Narrow (i : Insn) : Prop where
  ea : ∀ ea, i.ea = some ea → ea.size ≤ 64
  imm : ∀ f, i.imm = some f → f.size ≤ 64

theorem calcDisplen_narrow {c : Ctx} {nequ : Nat} {ea : Effaddr} {w : Nat} {n d : Bool} {x : Effaddr}
    (h : (calcDisplen c nequ ea w n d).out = .ok x) (hw : w ≤ 64) : x.size ≤ 64 := by
  unfold calcDisplen at h
  extract_lets ea1 ea2 d at h
  have h2z : ea2.size = ea1.size := rfl
  clear_value ea2
  split at h
  · simp only [Run.of, Except.ok.injEq] at h
    split at h <;> subst h
    · exact hw
    · show ea1.size ≤ 64
      omega
  · split at h
    · split at h
      · cases h
      · simp only [Run.of, Except.ok.injEq] at h
        subst h
        show ea1.size ≤ 64
        omega
    · split at h
      · cases h
      · have hz : ea1.size = 0 := by omega
        split at h
        · cases h; exact hw
        · split at h
          · cases h; exact hw
          · obtain ⟨num, _, h, _⟩ := Run.bind_out h
            cases h
            split
            · show ea2.size ≤ 64
              omega
            · split
              · show ea2.size ≤ 64
                omega
              · split
                · exact (by omega : 8 ≤ 64)
                · exact hw

theorem encodeRegs_narrow {c : Ctx} {nequ absSym : Nat} {ea : Effaddr} {bits : Nat} {rex : BitVec 8} {r : Regs}
    {x : Effaddr × BitVec 8} (h : (encodeRegs c nequ absSym ea bits rex r).out = .ok x) : x.1.size ≤ 64 := by
  unfold encodeRegs at h
  extract_lets t r1 e1 e2 at h
  clear_value r1 e2
  split at h
  · cases h
    exact (by omega : 32 ≤ 64)
  · obtain ⟨a, _, h, _⟩ := Run.bind_out h
    obtain ⟨b, _, h, _⟩ := Run.bind_out h
    obtain ⟨d, hd, h, _⟩ := Run.bind_out h
    cases h
    exact calcDisplen_narrow hd (by omega)

theorem checkea_narrow {c : Ctx} {nequ absSym : Nat} {ea : Effaddr} {addrsize bits : Nat} {a16 : Bool} {rex : BitVec 8}
    {r : Checked} (h : (checkea c nequ absSym ea addrsize bits a16 rex).out = .ok r) (hk : Kind ea)
    (hbits : bits = 16 ∨ bits = 32 ∨ bits = 64) (ha : addrsize = 0 ∨ addrsize = 16 ∨ addrsize = 32 ∨ addrsize = 64) :
    r.ea.size ≤ 64 := by
  unfold checkea at h
  obtain ⟨a, h1, h, _⟩ := Run.bind_out h
  have hA : a = 16 ∨ a = 32 ∨ a = 64 := by
    simp only [Run.of] at h1
    split at h1
    · exact addrSize_size hbits h1
    · cases h1; omega
  split at h
  · unfold check3264 at h
    split at h
    · cases h
    · obtain ⟨x, _, h, _⟩ := Run.bind_out h
      obtain ⟨y, _, h, _⟩ := Run.bind_out h
      obtain ⟨z, hz, h, _⟩ := Run.bind_out h
      cases h
      exact encodeRegs_narrow hz
  · split at h
    · unfold check16 at h
      split at h
      · cases h
      · obtain ⟨x, _, h, _⟩ := Run.bind_out h
        dsimp only at h
        split at h
        · cases h
        · split at h
          · cases h
          · obtain ⟨z, hz, h, _⟩ := Run.bind_out h
            cases h
            exact calcDisplen_narrow hz (by omega)
    · rename_i hc1 hc2
      split at h
      · simp only [Run.of] at h
        unfold checkMoffs at h
        split at h
        · split at h
          · cases h
          · cases h; exact Nat.le_refl 64
        · split at h
          · cases h; exact (by omega : 32 ≤ 64)
          · split at h
            · split at h
              · cases h
              · cases h; exact (by omega : 16 ≤ 64)
            · omega
      · rename_i hc3
        cases h
        rcases hk with k | k | k
        · exfalso
          rcases hA with rfl | rfl | rfl
          · exact hc2 ⟨rfl, k.1, k.2.1⟩
          · exact hc1 ⟨Or.inl rfl, by simp [k.1, k.2.1]⟩
          · exact hc1 ⟨Or.inr rfl, by simp [k.1, k.2.1]⟩
        · exact k.2.2.2.2
        · exact absurd ⟨k.1, k.2.1⟩ hc3

/-- Counting makes it so. -/
theorem calcLen_narrow {c : Ctx} {nequ absSym : Nat} {i : Insn} {r : Count Insn} (s : Start i)
    (h : (calcLen c nequ absSym i).out = .ok r) : Narrow r.insn := by
  unfold calcLen at h
  obtain ⟨a, ha, h, _⟩ := Run.bind_out h
  obtain ⟨b, hb, h, _⟩ := Run.bind_out h
  have ka : Narrow a.insn := by
    unfold countEa at ha
    split at ha
    · rename_i he
      cases ha
      exact ⟨fun ea h => (by rw [he] at h; cases h), s.imm⟩
    · rename_i ea he
      obtain ⟨x, hx, ha, _⟩ := Run.bind_out ha
      cases ha
      have k := checkea_narrow hx (s.ea ea he) s.mode s.addrsize
      refine ⟨fun e h' => ?_, s.imm⟩
      simp only [Option.some.injEq] at h'
      subst h'
      unfold dispSpan
      split
      · exact (by omega : 8 ≤ 64)
      · exact k
  have kb : Narrow b.insn := by
    unfold countImm at hb
    split at hb
    · cases hb; exact ka
    · rename_i imm hi
      split at hb
      · obtain ⟨num, _, hb, _⟩ := Run.bind_out hb
        split at hb
        · cases hb; exact ka
        · split at hb
          · cases hb
            exact ⟨ka.ea, fun f h => by cases h; exact (by omega : 8 ≤ 64)⟩
          · simp only [Run.of] at hb
            obtain ⟨i', h1, rfl⟩ := map_ok hb
            obtain ⟨_, _, k3, k4, _⟩ := wordOpcode_ok h1
            exact ⟨by rw [k4]; exact ka.ea, by rw [k3]; exact ka.imm⟩
      · cases hb; exact ka
  cases h
  dsimp only
  unfold countVex
  split
  · split
    · exact ⟨kb.ea, kb.imm⟩
    · exact ⟨kb.ea, kb.imm⟩
  · split <;> exact ⟨kb.ea, kb.imm⟩

theorem expand_narrow {i i' : Insn} {len len' span : Nat} (k : Narrow i) (h : expand i len span = .ok (i', len')) : Narrow i' := by
  unfold expand at h
  split at h
  · simp only [Except.ok.injEq] at h
    unfold expandDisp at h
    split at h
    · cases h; exact k
    · split at h
      · dsimp only at h
        cases h
        refine ⟨fun e h' => ?_, k.imm⟩
        simp only [Option.some.injEq] at h'
        subst h'
        dsimp only
        split <;> omega
      · cases h; exact k
  · split at h
    · unfold expandImm at h
      split at h
      · cases h; exact k
      · split at h
        · obtain ⟨i2, h1, h2⟩ := map_ok h
          cases h2
          obtain ⟨_, _, k3, k4, _⟩ := wordOpcode_ok h1
          exact ⟨by rw [k4]; exact k.ea, by rw [k3]; exact k.imm⟩
        · cases h; exact k
    · cases h; exact k

theorem Narrow.short {i : Insn} {len : Nat} (k : Narrow i) (c : Counted i len) : len ≤ 32 := by
  have h1 : eaBytesLen i ≤ 11 := by
    unfold eaBytesLen
    cases he : i.ea with
    | none => simp
    | some ea =>
      have := k.ea ea he
      dsimp only
      unfold eaLen
      (repeat' split) <;> omega
  have h2 : immLen i ≤ 8 := by
    unfold immLen
    cases hi : i.imm with
    | none => simp
    | some f =>
      have := k.imm f hi
      dsimp only
      split <;> omega
  have h3 : commonLen i.common ≤ 4 := by
    unfold commonLen
    (repeat' split) <;> omega
  have h4 : rexLen i ≤ 1 := by unfold rexLen; split <;> omega
  have h5 := c.len
  have h6 := c.opcode
  have h7 : (if i.special ≠ 0 then 1 else 0) ≤ 1 := by split <;> omega
  omega

end Verif.Insn
