/-
C69 for the forms of MOV that look for a shorter form at the end, and what is wrong with these and other instructions.
-/
import Verif.Match.Late
import Verif.Match.OperandProps
import Verif.Intnum.Props

namespace Verif.Match

open Verif.Intnum
open Verif.Expr
open Verif.Value
open Verif.Ea
open Verif.Insn

theorem early_once (f : Form) : f.early.once = true ↔ f.once = true := by
  have ht : ∀ g, takesB (early g) = takesB g := by
    intro g
    unfold takesB
    rw [(early_action g).1, (early_action g).2.1]
  have hp : ∀ g : OpInfo, ((early g).post ≠ .simm8) ↔ g.post ≠ .simm8 := by
    intro g
    unfold early
    split
    · next h => rcases h with h | h <;> rw [h] <;> simp
    · rfl
  unfold Form.once Form.early
  simp only [List.countP_map, Function.comp_def, ht, (early_action _).1, List.all_map, Bool.and_eq_true, decide_eq_true_eq,
    List.all_eq_true, Bool.or_eq_true, hp]

theorem early_settled (f : Form) : f.early.settled = true := by
  unfold Form.settled Form.early
  simp only [List.all_map, List.all_eq_true, Function.comp_def, decide_eq_true_eq]
  intro g _
  unfold early
  split
  · exact ⟨by simp, by simp⟩
  · next h => exact ⟨fun e => h (.inl e), fun e => h (.inr e)⟩

/-! ### C69: the accumulator and memory -/

/-- C69: MOV between the accumulator and memory is made like any other instruction (`f.early`, to which the theorems on operands
    apply); only in 64-bit mode with 32-bit addresses, and without registers in the address, it gets the form without ModRM. -/
theorem mov_accumulator {y : Syms} {x : IdInsn} {f : Form} {i : Insn} (hl : lateOf f.ops .none = .shortMov) (hv : vexByte x f = 0#8)
    (hc : f.ops.length ≤ (inOrder x f).length) (ok : (makeInsn y x f).out = .ok i) :
    ∃ i0, (makeInsn y x f.early).out = .ok i0 ∧ i.common = i0.common ∧ i.rex = i0.rex ∧ i.seg = i0.seg ∧ i.imm = i0.imm ∧
      i.special = i0.special ∧ i.postop = i0.postop ∧
      ((i.ea = i0.ea ∧ i.opcode = { i0.opcode with b1 := 0 }) ∨
        (x.defaultRel = false ∧ i.common.mode = 64 ∧ i.common.addrsize = 32 ∧ ∃ ea, i0.ea = some ea ∧
          (∀ e, ea.disp.abs = some e → ∀ r, ¬ Occurs r e.item) ∧
          i.ea = some { ea with validModrm := false, needModrm := false, validSib := false, needSib := 0 } ∧
          i.opcode = { i0.opcode with b0 := i0.opcode.b1, b1 := 0 })) := by
  rw [makeInsn_late y x f hc ((base_vex x f).1.trans hv)] at ok
  obtain ⟨i0, h1, h2, _⟩ := Run.bind_out ok
  refine ⟨i0, h1, ?_⟩
  unfold finishLate at h2
  rw [hl] at h2
  dsimp only [Run.of] at h2
  unfold shortMov at h2
  cases hea : i0.ea with
  | none =>
    rw [hea] at h2
    dsimp only at h2
    split at h2
    · cases h2
    · cases h2
      exact ⟨rfl, rfl, rfl, rfl, rfl, rfl, .inl ⟨rfl, rfl⟩⟩
  | some ea =>
    rw [hea] at h2
    dsimp only at h2
    generalize hb : (!x.defaultRel && decide (i0.common.mode = 64) && decide (i0.common.addrsize = 32) &&
        !(match ea.disp.abs with | none => false | some e => hasReg e.item)) = cond at h2
    cases cond with
    | true =>
      have c := hb
      rw [if_pos rfl] at h2
      cases h2
      simp only [Bool.and_eq_true, Bool.not_eq_true', decide_eq_true_eq] at c
      obtain ⟨⟨⟨c1, c2⟩, c3⟩, c4⟩ := c
      refine ⟨rfl, rfl, rfl, rfl, rfl, rfl, .inr ⟨c1, c2, c3, ea, rfl, ?_, rfl, rfl⟩⟩
      intro e he r hr
      rw [he] at c4
      dsimp only at c4
      rw [(hasReg_iff _).2 ⟨r, hr⟩] at c4
      cases c4
    | false =>
      rw [if_neg (by simp)] at h2
      cases h2
      exact ⟨rfl, rfl, rfl, rfl, rfl, rfl, .inl ⟨rfl, rfl⟩⟩

/-- C69: so the registers of such a MOV are where they belong, unless that form without ModRM is taken. -/
theorem mov_registers {y : Syms} {x : IdInsn} {f : Form} {i : Insn} (hl : lateOf f.ops .none = .shortMov) (hv : vexByte x f = 0#8)
    (hc : f.ops.length ≤ (inOrder x f).length) (once : f.once = true) (clean : LeavesRex x.prefixes)
    (imms : ImmsFit f.ops (inOrder x f)) (ok : (makeInsn y x f).out = .ok i)
    (plain : i.ea.any (·.needModrm) = true) {k : Nat} {g : OpInfo} {op : Operand} {r : Nat}
    (hg : f.ops[k]? = some g) (ho : (inOrder x f)[k]? = some op) (hr : op.data = .reg r) (he : Exists x.mode r) :
    (g.action = .ea → InRm i r) ∧ (g.action = .spare → InReg i r) := by
  obtain ⟨i0, h1, e1, e2, e3, e4, e5, e6, h2⟩ := mov_accumulator hl hv hc ok
  have hea : i.ea = i0.ea := by
    rcases h2 with h2 | ⟨_, _, _, ea, _, _, h, _⟩
    · exact h2.1
    · rw [h] at plain; cases plain
  have hm : f.early.ops[k]? = some (early g) := by
    unfold Form.early
    rw [List.getElem?_map, hg]
    rfl
  have him : ImmsFit f.early.ops (inOrder x f.early) := by
    intro j g' op' hg' ho' ht
    unfold Form.early at hg'
    rw [List.getElem?_map] at hg'
    cases hj : f.ops[j]? with
    | none => rw [hj] at hg'; cases hg'
    | some q =>
      rw [hj] at hg'
      cases hg'
      exact imms j q op' hj ho' ((early_action q).2.1 ▸ ht)
  have found := register_operands ((early_once f).2 once) (early_settled f) clean him h1 hm ho hr he
  rw [(early_action g).1] at found
  unfold InRm InReg
  rw [hea, e2]
  constructor
  · intro ha
    rw [ha] at found
    exact found
  · intro ha
    rw [ha] at found
    exact found

/-! ### C69: MOV of an immediate to a 64-bit register -/

/-- C69: MOV of an immediate to a 64-bit register names the register, in the opcode or, if a 32-bit field holds the number (or the
    value is a symbol), in ModRM. -/
theorem mov_immediate {y : Syms} {x : IdInsn} {f : Form} {i : Insn} (hl : lateOf f.ops .none = .simm32Avail) (hv : vexByte x f = 0#8)
    (hb : firstByte x f = 0xB8#8)
    (hc : f.ops.length ≤ (inOrder x f).length) (once : f.once = true) (clean : LeavesRex x.prefixes)
    (imms : ImmsFit f.ops (inOrder x f)) (ok : (makeInsn y x f).out = .ok i) {k : Nat} {g : OpInfo} {op : Operand} {r : Nat}
    (hg : f.ops[k]? = some g) (ho : (inOrder x f)[k]? = some op) (hr : op.data = .reg r) (he : Exists x.mode r) (ha : g.action = .op0Add) :
    ∃ i0 fld, (makeInsn y x f.early).out = .ok i0 ∧ i0.imm = some fld ∧ i.common = i0.common ∧ i.rex = i0.rex ∧
      ((i.imm = some fld ∧ InOpcode i.opcode.b0 i.rex r ∧ i.opcode.b0.toNat / 8 = 0xB8 / 8 ∧ i.ea = i0.ea) ∨
       (i.imm = some { fld with size := 32 } ∧ InRm i r ∧ i.opcode.b0 = i0.opcode.b1 ∧ (∀ ea, i.ea = some ea → regField ea.modrm = 0) ∧
        (fld.v.abs = none ∨ ∃ e n, fld.v.abs = some e ∧ (getIntnum y.ctx y.nequ false e).out = .ok (some n) ∧
          (Intnum.Fits n → -(2 ^ 31) ≤ val n ∧ val n < 2 ^ 31)))) := by
  rw [makeInsn_late y x f hc ((base_vex x f).1.trans hv)] at ok
  obtain ⟨i0, h1, h2, _⟩ := Run.bind_out ok
  have hm : f.early.ops[k]? = some (early g) := by
    unfold Form.early
    rw [List.getElem?_map, hg]
    rfl
  have him : ImmsFit f.early.ops (inOrder x f.early) := by
    intro j g' op' hg' ho' ht
    unfold Form.early at hg'
    rw [List.getElem?_map] at hg'
    cases hj : f.ops[j]? with
    | none => rw [hj] at hg'; cases hg'
    | some q =>
      rw [hj] at hg'
      cases hg'
      exact imms j q op' hj ho' ((early_action q).2.1 ▸ ht)
  have found := register_operands ((early_once f).2 once) (early_settled f) clean him h1 hm ho hr he
  rw [(early_action g).1, ha] at found
  have inOp : InOpcode i0.opcode.b0 i0.rex r := found hv (by rw [show firstByte x f.early = firstByte x f from rfl, hb]; decide)
  have hbyte : ∃ n : Fin 8, i0.opcode.b0 = 0xB8#8 + BitVec.ofNat 8 n.val := by
    obtain ⟨b, hp, fin, _, hvx, _, _, _⟩ := makeInsn_out (early_settled f) h1
    obtain ⟨p1, p2, _⟩ := base_open x f.early
    obtain ⟨v1, v2, _⟩ := base_vex x f.early
    obtain ⟨o1, _, _, o5⟩ := once_parts ((early_once f).2 once)
    obtain ⟨o6, hpost⟩ := o5 (early g) (List.mem_of_getElem? hm) (.inl ((early_action g).1.trans ha))
    have hact : (early g).action = .op0Add := (early_action g).1.trans ha
    obtain ⟨_, _, q3⟩ := op_placed (second := false) (base := addByte false (base x f.early).opcode)
      (only_of_count o6 hm (by rw [hact]; rfl)) hm ho hact hpost hr hp ⟨p1, p2, rfl⟩
    refine ⟨⟨r % 8, by omega⟩, ?_⟩
    rw [(fin.plain (by rw [hvx, v1]; exact hv)).1]
    have : addByte false b.opcode = b.opcode.b0 := rfl
    rw [← this, q3]
    have e2 : addByte false (base x f.early).opcode = firstByte x f.early := v2
    rw [e2, show firstByte x f.early = firstByte x f from rfl, hb]
  unfold finishLate at h2
  rw [hl] at h2
  dsimp only at h2
  unfold simm32 at h2
  cases himm : i0.imm with
  | none => rw [himm] at h2; cases h2
  | some fld =>
    rw [himm] at h2
    dsimp only at h2
    obtain ⟨fit, h3, h4, _⟩ := Run.bind_out h2
    cases fit with
    | false =>
      simp only [Bool.false_eq_true, if_false] at h4
      cases h4
      refine ⟨i0, fld, h1, himm, rfl, rfl, .inl ⟨rfl, inOp, ?_, rfl⟩⟩
      obtain ⟨n, hn⟩ := hbyte
      dsimp only
      rw [hn]
      exact (by decide : ∀ n : Fin 8, (0xB8#8 + BitVec.ofNat 8 n.val).toNat / 8 = 0xB8 / 8) n
    | true =>
      rw [if_pos rfl] at h4
      obtain ⟨n, hn⟩ := hbyte
      have hsub : (i0.opcode.b0 - 0xB8#8).toNat = n.val := by
        rw [hn]
        exact (by decide : ∀ n : Fin 8, (0xB8#8 + BitVec.ofNat 8 n.val - 0xB8#8).toNat = n.val) n
      have hea : eaReg i0.ea (i0.opcode.b0 - 0xB8#8).toNat 0 64 =
          .ok ({ i0.ea.getD eaCreate with modrm := 0xC0 ||| BitVec.ofNat 8 n.val, validModrm := true, needModrm := true }, 0) := by
        rw [hsub]
        unfold eaReg setRexFrom
        have := n.isLt
        rw [if_pos rfl, if_neg (by omega), if_neg (by omega), Nat.mod_eq_of_lt this]
      rw [hea] at h4
      cases h4
      refine ⟨i0, fld, h1, himm, rfl, rfl, .inr ⟨rfl, ?_, rfl, ?_, ?_⟩⟩
      · refine ⟨_, rfl, rfl, rfl, ?_, ?_⟩
        · exact (by decide : ∀ n : Fin 8, modField (0xC0 ||| BitVec.ofNat 8 n.val) = 3) n
        · unfold InOpcode at inOp
          rw [hn, (by decide : ∀ n : Fin 8, (0xB8#8 + BitVec.ofNat 8 n.val).toNat % 8 = n.val) n] at inOp
          refine (congrArg (readReg (r / 16) i0.rex 0) ?_).trans inOp
          exact (by decide : ∀ n : Fin 8, rmField (0xC0 ||| BitVec.ofNat 8 n.val) = n.val) n
      · intro ea h
        cases h
        exact (by decide : ∀ n : Fin 8, regField (0xC0 ||| BitVec.ofNat 8 n.val) = 0) n
      · unfold fits32 at h3
        cases habs : fld.v.abs with
        | none => exact .inl rfl
        | some e =>
          rw [habs] at h3
          dsimp only at h3
          obtain ⟨o, h5, h6, _⟩ := Run.bind_out h3
          have h5' := lift_out h5
          cases o with
          | none => cases h6
          | some m =>
            refine .inr ⟨e, m, rfl, h5', fun hf => ?_⟩
            simp only [Run.of, Except.ok.injEq] at h6
            have := (Verif.Intnum.check_size_exact m 32 0 1 hf (by decide) (by decide)).1 h6
            simpa using this

/-! ### Cases -/

/-- Like `seen`, with the form of the two theorems above. -/
def seenMov (x : IdInsn) : Option Seen :=
  match findMatch noSyms 1 0 x with
  | .ok (some f) =>
    if f.once && !f.settled && decide (vexByte x f = 0#8) && decide (f.ops.length = (inOrder x f).length) then
      match (makeInsn noY x f).out with
      | .ok i => some ⟨i.rex, i.special, opcodeBytes i.opcode, if i.ea.any (·.needModrm) then i.ea.map (·.modrm) else none, i.imm.map (·.size)⟩
      | .error _ => none
    else none
  | _ => none

/-- `mov [rbx], eax`, `mov r9, 5`; `a32 mov [5], eax` has no ModRM. -/
example : seenMov (nasm mov_insn 64 [] [memOp 0 ⟨.IDENT, [.reg 0x53]⟩, regOp 0x40]) = some ⟨0, 0, [0x89], some 0, none⟩ ∧
    seenMov (nasm mov_insn 64 [] [regOp 0x59, numOp 0 5]) = some ⟨0x49, 0, [0xC7], some 0xC1, some 32⟩ ∧
    seenMov { nasm mov_insn 64 [] [memOp 0 ⟨.IDENT, [.int (.L 5)]⟩, regOp 0x40] with prefixes := [.addrsize 32] } =
      some ⟨0, 0, [0xA3], none, none⟩ := by
  with_unfolding_all decide +kernel

/-! ### What is wrong -/

/-- C69 fails for `a32 mov ebx, eax` in 64-bit mode: the destination is taken for an address without registers, and the instruction
    becomes A3, to an address that is not there. -/
theorem mov_register_lost :
    seenMov { nasm mov_insn 64 [] [regOp 0x43, regOp 0x40] with prefixes := [.addrsize 32] } = some ⟨0, 0, [0xA3], none, none⟩ ∧
    Exists 64 0x43 := by
  constructor
  · with_unfolding_all decide +kernel
  · unfold Exists; decide

/-- The address of an instruction: whether it is to be relative, and has a ModRM byte. -/
def address (x : IdInsn) : Option (Bool × Bool) :=
  match findMatch noSyms 1 0 x with
  | .ok (some f) =>
    match (makeInsn noY x f).out with
    | .ok i => i.ea.map fun ea => (ea.pcRel, ea.needModrm)
    | .error _ => none
  | _ => none

/-- C69 fails for `a32 mov [rel 5], eax`: relative addresses need ModRM, but the instruction gets the form with an absolute one. -/
theorem mov_relative_lost :
    address { nasm mov_insn 64 [] [⟨.mem ⟨⟨.IDENT, [.int (.L 5)]⟩, 0, false, false, true, false, 0⟩, none, .none, 0, false, false⟩, regOp 0x40]
      with prefixes := [.addrsize 32] } = some (true, false) ∧
    address (nasm mov_insn 64 [] [⟨.mem ⟨⟨.IDENT, [.int (.L 5)]⟩, 0, false, false, true, false, 0⟩, none, .none, 0, false, false⟩, regOp 0x40])
      = some (true, true) := by
  with_unfolding_all decide +kernel

/-- C69 fails with the prefix `o64`: in `o64 add rbx, r9` REX is written over, and the processor reads RCX. -/
theorem o64_loses_register :
    seen { nasm arith_insn 64 [0, 0] [regOp 0x53, regOp 0x59] with prefixes := [.opersize 64] } = some ⟨0x48, 0, [0x01], some 0xCB, none⟩ ∧
    readReg 5 0x48 2 (regField 0xCB) = 0x51 ∧
    seen (nasm arith_insn 64 [0, 0] [regOp 0x53, regOp 0x59]) = some ⟨0x4C, 0, [0x01], some 0xCB, none⟩ ∧
    readReg 5 0x4C 2 (regField 0xCB) = 0x59 := by
  with_unfolding_all decide +kernel

/-- Does making the instruction end in an internal error? -/
def stops (x : IdInsn) : Bool :=
  match (idFinalize noY 0 x).out with
  | .error .internal => true
  | _ => false

/-- `cs pause` and `cs vzeroupper` are internal errors: the place of the segment prefix is taken. -/
theorem segment_prefix_stops :
    stops { nasm (groups.getD 3 []) 32 [0xF3, 0x90] [] with segregs := [0x2e01] } = true ∧
    stops { nasm (groups.getD 167 []) 32 [0xC0] [] with avx := true, segregs := [0x2e01] } = true ∧
    stops (nasm (groups.getD 3 []) 32 [0xF3, 0x90] []) = false ∧
    stops { nasm (groups.getD 167 []) 32 [0xC0] [] with avx := true } = false := by
  with_unfolding_all decide +kernel

/-- In the syntax of GAS `loop %ecx, 5` is an internal error: the operands are matched in reverse, but the target is taken from the
    first that was written. -/
theorem gas_loop_stops :
    stops { nasm (groups.getD 36 []) 32 [2] [regOp 0x41, numOp 0 5] with parser := .gas } = true ∧
    stops { nasm (groups.getD 36 []) 32 [2] [numOp 0 5] with parser := .gas } = false := by
  with_unfolding_all decide +kernel

/-- In the syntax of GAS a relative jump with five operands reads behind the array of operands. -/
theorem gas_five_operands_stops :
    stops { nasm (groups.getD 36 []) 32 [2] [numOp 0 5, numOp 0 5, numOp 0 5, numOp 0 5, numOp 0 5] with parser := .gas } = true := by
  with_unfolding_all decide +kernel

/-- The address size of a jump. -/
def jumpAddrsize (x : IdInsn) : Option Nat :=
  match (idFinalize noY 0 x).out with
  | .ok (.jmp j) => some j.common.addrsize
  | _ => none

/-- In 64-bit mode `loop short 5, cx` is accepted, though there are no 16-bit addresses: with the prefix it gets, the processor counts
    with ECX. -/
theorem loop_cx_accepted :
    jumpAddrsize (nasm (groups.getD 36 []) 64 [2] [{ numOp 0 5 with tmod := .short }, regOp 0x31]) = some 16 := by
  with_unfolding_all decide +kernel

end Verif.Match
