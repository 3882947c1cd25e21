/-
C69: where the operands of an instruction are.
-/
import Verif.Match.Finish
import Verif.Match.Props
import Verif.Match.Table
import Verif.Insn.Props

namespace Verif.Match

open Verif.Intnum
open Verif.Expr
open Verif.Value
open Verif.Ea
open Verif.Insn

theorem modrm_reg : ∀ low s : Fin 8, modField (((0xC0#8 ||| BitVec.ofNat 8 low.val) &&& 0xC7#8) ||| ((BitVec.ofNat 8 s.val <<< 3) &&& 0x38#8)) = 3 ∧
    rmField (((0xC0#8 ||| BitVec.ofNat 8 low.val) &&& 0xC7#8) ||| ((BitVec.ofNat 8 s.val <<< 3) &&& 0x38#8)) = low.val := by
  decide +kernel

theorem modrm_rm (low : Nat) (hl : low < 8) (s : Byte) :
    modField (((0xC0#8 ||| BitVec.ofNat 8 low) &&& 0xC7#8) ||| ((s <<< 3) &&& 0x38#8)) = 3 ∧
    rmField (((0xC0#8 ||| BitVec.ofNat 8 low) &&& 0xC7#8) ||| ((s <<< 3) &&& 0x38#8)) = low := by
  have h : (s <<< 3) &&& 0x38#8 = ((BitVec.ofNat 8 (s.toNat % 8) <<< 3) &&& 0x38#8) := by
    revert s; decide +kernel
  rw [h]
  exact modrm_reg ⟨low, hl⟩ ⟨s.toNat % 8, by omega⟩

theorem modrm_spare : ∀ (m : Byte) (s : Fin 8), regField ((m &&& 0xC7#8) ||| ((BitVec.ofNat 8 s.val <<< 3) &&& 0x38#8)) = s.val := by
  decide +kernel

theorem add_low (b : Byte) (n : Nat) (hn : n < 8) (hb : b.toNat % 8 = 0) : (b + BitVec.ofNat 8 n).toNat % 8 = n := by
  rw [BitVec.toNat_add, BitVec.toNat_ofNat]
  omega

theorem useOps_eq (x : IdInsn) (f : Form) : useOps x f = inOrder x f := rfl

theorem base_vex (x : IdInsn) (f : Form) : (base x f).vexdata = vexByte x f ∧ (base x f).opcode.b0 = firstByte x f ∧
    (base x f).opcode.b1 = secondByte x f := by
  have m := modifyAll_modified f.modifiers x.modData (start x f)
  rw [(base_rex x f).2]
  refine ⟨m.vexdata.trans ?_, m.b0, m.b1⟩
  unfold vexByte start
  congr 1
  dsimp only
  simp only [decide_eq_true_eq]

theorem once_parts {f : Form} (h : f.once = true) :
    f.ops.countP takesB ≤ 1 ∧ f.ops.countP (fun g => g.action.writesR) ≤ 1 ∧ f.ops.countP (fun g => g.action.writesImm) ≤ 1 ∧
    ∀ g ∈ f.ops, (g.action = .op0Add ∨ g.action = .op1Add) →
      f.ops.countP (fun g => g.action.writesB) ≤ 1 ∧ ∀ g ∈ f.ops, g.post ≠ .simm8 := by
  unfold Form.once at h
  simp only [Bool.and_eq_true, decide_eq_true_eq, List.all_eq_true, Bool.or_eq_true] at h
  obtain ⟨⟨⟨h1, h2⟩, h4⟩, h5⟩ := h
  refine ⟨h1, h2, h4, fun g hg ha => ?_⟩
  rcases h5 g hg with h | h
  · rcases ha with ha | ha
    · exact absurd ha h.1
    · exact absurd ha h.2
  · exact h

/-- What C68 says of a form that is chosen. -/
theorem imms_of_fits {leave : Leave} {c : Ctx} {nequ : Nat} {x : IdInsn} {f : Form} (h : Fits leave c nequ x f) :
    ImmsFit f.ops (inOrder x f) := by
  intro j g op hg ho ht
  have := (h.operands j g op hg ho).type
  unfold HasType at this
  rwa [ht] at this

/-! ### C69: registers -/

/-- Where a register is, by what the form says about the operand. -/
def Found (x : IdInsn) (f : Form) (i : Insn) (k : Nat) (a : Action) (r : Nat) : Prop :=
  match a with
  | .ea => InRm i r
  | .spare => InReg i r
  | .spareEA => InRm i r ∧ InReg i r
  | .eaVEX => InRm i r ∧ (vexByte x f ≠ 0#8 → LastVex f k → InVex i r)
  | .spareVEX => InReg i r ∧ (vexByte x f ≠ 0#8 → LastVex f k → InVex i r)
  | .vex => vexByte x f ≠ 0#8 → LastVex f k → InVex i r
  | .op0Add => vexByte x f = 0#8 → (firstByte x f).toNat % 8 = 0 → InOpcode i.opcode.b0 i.rex r
  | .op1Add => vexByte x f = 0#8 → (secondByte x f).toNat % 8 = 0 → InOpcode i.opcode.b1 i.rex r
  | _ => True

/-- C69: the processor finds every register operand where the form of the instruction says, and reads it as that register, with the
    REX byte (or the bits of VEX that stand for it) the instruction gets; in every mode, whatever the other operands are. -/
theorem register_operands {y : Syms} {x : IdInsn} {f : Form} {i : Insn} (once : f.once = true) (settled : f.settled = true)
    (clean : LeavesRex x.prefixes) (imms : ImmsFit f.ops (inOrder x f)) (ok : (makeInsn y x f).out = .ok i) {k : Nat} {g : OpInfo} {op : Operand} {r : Nat}
    (hg : f.ops[k]? = some g) (ho : (inOrder x f)[k]? = some op) (hr : op.data = .reg r) (he : Exists x.mode r) :
    Found x f i k g.action r := by
  obtain ⟨b, hp, fin, hm, hv, hs, hd, _⟩ := makeInsn_out settled ok
  obtain ⟨o1, o2, o4, o5⟩ := once_parts once
  obtain ⟨p1, p2, p3⟩ := base_open x f
  obtain ⟨v1, v2, v3⟩ := base_vex x f
  rw [useOps_eq] at hp
  have hrex : i.rex = b.rex := by
    rw [fin.rex, (applyPrefixes_rex x.prefixes b.common (some b.rex) clean).1]
    rfl
  have zero : ∀ rex, RexIn x.mode rex → x.mode ≠ 64 → rex = 0#8 := by
    intro rex h hm
    unfold RexIn at h
    rwa [if_neg hm] at h
  have inRm : (g.action = .ea ∨ g.action = .eaVEX ∨ g.action = .spareEA) → InRm i r := by
    intro ha
    have ht : takesB g = true := by
      unfold takesB
      rcases ha with ha | ha | ha
      · have : g.type ≠ .imm := fun ht => by obtain ⟨e, he⟩ := imms k g op hg ho ht; rw [hr] at he; cases he
        rw [ha]; simp [this, Action.writesB]
      · rw [ha]; rfl
      · rw [ha]; rfl
    obtain ⟨q1, q2, ea, q3, q4, q5, q6⟩ := rm_placed (only_of_count o1 hg ht) imms hg ho ha hr hp ⟨p1, p2⟩
    obtain ⟨v, _, e, _⟩ := fin.ea _ q3
    rw [q4] at e
    obtain ⟨m1, m2⟩ := modrm_rm (r % 8) (by omega) b.spare
    refine ⟨_, e, q5, q6, m1, ?_⟩
    refine (congrArg (readReg (r / 16) i.rex 0) m2).trans ?_
    rw [hrex]
    exact suits_reads he q2 (zero _ q1)
  have inReg : (g.action = .spare ∨ g.action = .spareVEX ∨ g.action = .spareEA) → InReg i r := by
    intro ha ea hea
    obtain ⟨q1, q2, q3⟩ := reg_placed (only_of_count o2 hg (by rcases ha with h | h | h <;> rw [h] <;> rfl)) hg ho ha hr hp ⟨p1, p3⟩
    cases hb : b.ea with
    | none => rw [(fin.noEa hb).1] at hea; cases hea
    | some ea0 =>
      obtain ⟨v, _, e, _⟩ := fin.ea _ hb
      rw [e] at hea
      cases hea
      rw [q3, modrm_spare ea0.modrm ⟨r % 8, by omega⟩, hrex]
      exact suits_reads he q2 (zero _ q1)
  have inVex : (g.action = .vex ∨ g.action = .eaVEX ∨ g.action = .spareVEX) → vexByte x f ≠ 0#8 → LastVex f k → InVex i r := by
    intro ha hne hl
    have q := vex_placed hl hg ho ha hr hp
    obtain ⟨sp, w, _⟩ := fin.vex (by rw [hv, v1]; exact hne)
    obtain ⟨_, _, _, w4⟩ := vexOpcode_says w i.rex
    unfold InVex
    rw [w4]
    dsimp only
    rw [q]
    simp [BitVec.extractLsb'_toNat]
  have inOp : ∀ second : Bool, g.action = (if second then .op1Add else .op0Add) → vexByte x f = 0#8 →
      (addByte second (base x f).opcode).toNat % 8 = 0 → InOpcode (addByte second i.opcode) i.rex r := by
    intro second ha hz hb
    obtain ⟨o6, hpost⟩ := o5 g (List.mem_of_getElem? hg) (by rw [ha]; cases second <;> simp)
    obtain ⟨q1, q2, q3⟩ := op_placed (second := second) (base := addByte second (base x f).opcode) (only_of_count o6 hg (by rw [ha]; cases second <;> rfl)) hg ho ha hpost hr hp ⟨p1, p2, rfl⟩
    rw [(fin.plain (by rw [hv, v1]; exact hz)).1, q3, hrex]
    unfold InOpcode
    rw [add_low _ _ (by omega) hb]
    exact suits_reads he q2 (zero _ q1)
  unfold Found
  cases ha : g.action <;> dsimp only
  · exact inRm (by rw [ha]; simp)
  · exact inReg (by rw [ha]; simp)
  · intro h1 h2
    rw [← v2] at h2
    exact inOp false (by rw [ha]; rfl) h1 h2
  · intro h1 h2
    rw [← v3] at h2
    exact inOp true (by rw [ha]; rfl) h1 h2
  · exact ⟨inRm (by rw [ha]; simp), inReg (by rw [ha]; simp)⟩
  · exact inVex (by rw [ha]; simp)
  · exact ⟨inRm (by rw [ha]; simp), inVex (by rw [ha]; simp)⟩
  · exact ⟨inReg (by rw [ha]; simp), inVex (by rw [ha]; simp)⟩

/-- C69: a segment register is in the ModRM byte. -/
theorem segment_operand {y : Syms} {x : IdInsn} {f : Form} {i : Insn} (once : f.once = true) (settled : f.settled = true)
    (ok : (makeInsn y x f).out = .ok i) {k : Nat} {g : OpInfo} {op : Operand} {r : Nat}
    (hg : f.ops[k]? = some g) (ho : (inOrder x f)[k]? = some op) (hr : op.data = .segreg r) (ha : g.action = .spare) :
    ∀ ea, i.ea = some ea → regField ea.modrm = r % 8 := by
  obtain ⟨b, hp, fin, _⟩ := makeInsn_out settled ok
  have q := seg_placed (only_of_count (once_parts once).2.1 hg (by rw [ha]; rfl)) hg ho ha hr hp
  intro ea hea
  cases hb : b.ea with
  | none => rw [(fin.noEa hb).1] at hea; cases hea
  | some ea0 =>
    obtain ⟨v, _, e, _⟩ := fin.ea _ hb
    rw [e] at hea
    cases hea
    rw [q]
    exact modrm_spare ea0.modrm ⟨r % 8, by omega⟩

/-- C69: REX.W is set exactly for operations on 64 bits that do not have this size anyway. -/
theorem rex_w {y : Syms} {x : IdInsn} {f : Form} {i : Insn} (settled : f.settled = true)
    (clean : LeavesRex x.prefixes) (ok : (makeInsn y x f).out = .ok i) (hm : x.mode = 64) :
    (i.rex ≠ 0xff#8 ∧ i.rex.getLsbD 3 = true) ↔ operSize x f = 64 ∧ natural64 x f ≠ 64 := by
  obtain ⟨b, hp, fin, _⟩ := makeInsn_out settled ok
  have hrex : i.rex = b.rex := by
    rw [fin.rex, (applyPrefixes_rex x.prefixes b.common (some b.rex) clean).1]
    rfl
  have m := modifyAll_modified f.modifiers x.modData (start x f)
  have hw : wide x f = decide (operSize x f = 64 ∧ natural64 x f ≠ 64) := by
    unfold wide operSize natural64
    rw [m.opersize, m.def64]
    simp only [hm, true_and]
    rfl
  rw [hrex]
  obtain ⟨p1, _, _⟩ := base_open x f
  have hval : RexVal (base x f).rex := by
    unfold RexIn at p1
    rwa [if_pos hm] at p1
  have hb := (base_rex x f).1
  by_cases hd : operSize x f = 64 ∧ natural64 x f ≠ 64
  · rw [hw, decide_eq_true hd, if_pos rfl] at hb
    have key := placeAll_inv (x := x) (P := fun b => RexVal b.rex ∧ b.rex ≠ 0#8 ∧ b.rex ≠ 0xff#8 ∧ b.rex.getLsbD 3 = true) (W := fun _ _ => True)
      (by
        rintro g op c c' _ hs ⟨c1, c2, c3, c4⟩
        have k := step_wide hm hs
        obtain ⟨k1, k2⟩ := k.present c1 c2 c3
        exact ⟨k.val c1, k1, k2, by rw [k.bit c1 c3 k2, c4]⟩) f.ops _ (base x f) b (fun _ _ _ => trivial) hp
      ⟨hval, by rw [hb]; decide, by rw [hb]; decide, by rw [hb]; decide⟩
    exact ⟨fun _ => hd, fun _ => ⟨key.2.2.1, key.2.2.2⟩⟩
  · rw [hw, decide_eq_false hd, if_neg (by decide)] at hb
    have key := placeAll_inv (x := x) (P := fun b => RexVal b.rex ∧ Clear 3 b.rex) (W := fun _ _ => True)
      (by
        rintro g op c c' _ hs ⟨c1, c2⟩
        have k := step_wide hm hs
        exact ⟨k.val c1, k.clear c1 c2⟩) f.ops _ (base x f) b (fun _ _ _ => trivial) hp
      ⟨hval, by rw [hb]; unfold Clear; decide⟩
    refine ⟨fun h => ?_, fun h => absurd h hd⟩
    rw [key.2 h.1] at h
    cases h.2

/-! ### C69: immediates -/

/-- C69: an immediate operand is the immediate of the instruction, in a field of the size and signedness the form gives; what is
    kept of the expression has its value, in as many bits. -/
theorem immediate_operand {y : Syms} {x : IdInsn} {f : Form} {i : Insn} (once : f.once = true) (settled : f.settled = true)
    (ok : (makeInsn y x f).out = .ok i) {k : Nat} {g : OpInfo} {op : Operand} {e : Node}
    (hg : f.ops[k]? = some g) (ho : (inOrder x f)[k]? = some op) (hd : op.data = .imm e) (ha : g.action = .imm ∨ g.action = .simm) :
    op.seg = none ∧ ∃ fld, i.imm = some fld ∧ fld.size = sizeVal x.mode g.size ∧ (fld.sign = true ↔ g.action = .simm) ∧ fld.ipRel = false ∧
      ∀ (ρ : Env) (w : Place) (base : Nat → Word), ρ.Agrees y.ctx base → (∀ a b, ρ.wrt a b = a - w.frame b) → fld.size < 256 →
        Good ρ e.item → OnlyOps Plain y.ctx e → ρ.sym y.here = w.cur →
        (∀ s, Mentions y.ctx e s → y.isCurpos s = true → ρ.sym s = w.cur) → (∀ k ∈ (makeInsn y x f).log, k.Sound) →
        (meaning ρ w fld.v).setWidth fld.size = (e.eval ρ).setWidth fld.size ∧ (fld.v.noWarn = false → meaning ρ w fld.v = e.eval ρ) := by
  obtain ⟨b, hp, fin, _, _, _, _, hlog⟩ := makeInsn_out settled ok
  obtain ⟨q1, q2, q3, q4⟩ := imm_placed (only_of_count (once_parts once).2.2.1 hg (by rcases ha with h | h <;> rw [h] <;> rfl)) hg ho ha hd hp (base_began x f).2.2.1
  obtain ⟨v, v1, v2⟩ := fin.imm e q1
  refine ⟨q4, _, v2, q2, by simp only; rw [q3]; simp, rfl, ?_⟩
  intro ρ w base ag wrt hs good plain here cur sound
  exact Value.Props.finalize_plain_value ρ w y base ag wrt b.imLen hs e good plain here cur v
    (fun k hk => sound k (hlog k (fin.immLog e q1 k hk))) v1

/-- C69: a register that goes into the immediate is the upper half of its byte. -/
theorem register_in_immediate {y : Syms} {x : IdInsn} {f : Form} {i : Insn} (once : f.once = true) (settled : f.settled = true)
    (ok : (makeInsn y x f).out = .ok i) {k : Nat} {g : OpInfo} {op : Operand} {r : Nat}
    (hg : f.ops[k]? = some g) (ho : (inOrder x f)[k]? = some op) (hd : op.data = .reg r) (ha : g.action = .vexImmSrc) (hi : .imm8 ∉ f.modifiers)
    (ρ : Env) (w : Place) (base : Nat → Word) (ag : ρ.Agrees y.ctx base) (wrt : ∀ a b, ρ.wrt a b = a - w.frame b)
    (here : ρ.sym y.here = w.cur) (equs : ∀ s d, y.ctx.equ s = some d → Allowed Plain (fun _ => True) d.item)
    (sound : ∀ k ∈ (makeInsn y x f).log, k.Sound) : InImm ρ w i r := by
  obtain ⟨b, hp, fin, _, _, _, _, hlog⟩ := makeInsn_out settled ok
  obtain ⟨q1, q2⟩ := immSrc_placed (only_of_count (once_parts once).2.2.1 hg (by rw [ha]; rfl)) hg ho ha hd hp ((base_began x f).2.2.2.2.1 hi)
  obtain ⟨v, v1, v2⟩ := fin.imm _ q1
  rw [q2] at v1
  have small : r % 16 * 16 < 2 ^ 64 := by omega
  have hc : highNibble r = .int (.L (BitVec.ofNat 64 (r % 16 * 16))) := by
    unfold highNibble createUint
    rw [if_neg (by rw [BitVec.toNat_ofNat, Nat.mod_eq_of_lt small]; omega)]
  have fits : ∀ n : Fin 16, -(2 ^ 32) < (BitVec.ofNat 64 (n.val * 16)).toInt ∧ (BitVec.ofNat 64 (n.val * 16)).toInt < 2 ^ 32 := by decide +kernel
  have h := Value.Props.finalize_plain_value ρ w y base ag wrt 8 (by omega) ⟨.IDENT, [highNibble r]⟩
    (by rw [hc]; simp only [Node.item, Good, GoodL, Arity, Intnum.Fits, and_true]; exact ⟨rfl, by simp, fits ⟨r % 16, by omega⟩⟩) ⟨by rw [hc]; simp [Node.item, Allowed, AllowedL, Plain], equs⟩ here
    (by rw [hc]; simp [Mentions, Node.item, syms, symsL]) v
    (fun k hk => sound k (hlog k (fin.immLog _ q1 k (by rw [q2]; exact hk)))) v1
  refine ⟨_, v2, q2, h.1.trans ?_⟩
  rw [hc]
  simp only [Node.eval, Node.item, eval, evalL, opVal, val]
  have key : ∀ n : Fin 16, BitVec.setWidth 8 (BitVec.ofInt 256 (BitVec.ofNat 64 (n.val * 16)).toInt) = BitVec.ofNat 8 n.val <<< 4 := by
    decide +kernel
  exact key ⟨r % 16, by omega⟩

/-! ### C69: memory -/

/-- What a memory operand becomes: the effective address of the instruction, with the segment that was written (a prefix of the
    instruction counts more), the size and the flags that were written, and with an address that has the value of what was written. -/
theorem memory_operand {y : Syms} {x : IdInsn} {f : Form} {i : Insn} (one : f.ops.countP (fun g => g.action.writesEa) ≤ 1) (settled : f.settled = true)
    (ok : (makeInsn y x f).out = .ok i) {k : Nat} {g : OpInfo} {op : Operand} {m : MemArg}
    (hg : f.ops[k]? = some g) (ho : (inOrder x f)[k]? = some op) (hd : op.data = .mem m) (ha : g.action = .ea) :
    op.seg = none ∧ i.seg = x.segregs.getLastD m.seg ∧ ∃ ea, i.ea = some ea ∧
      ea.size = m.size ∧ ea.nosplit = m.nosplit ∧ ea.needDisp = true ∧ ea.validModrm = false ∧ ea.validSib = false ∧
      (ea.needModrm = true ↔ g.type ≠ .memOffs) ∧
      (ea.vsib = if g.type = .memXMMIndex then 1 else if g.type = .memYMMIndex then 2 else 0) ∧
      (ea.pcRel = true ↔ m.pcRel = true ∨ g.type ∉ [.memOffs, .memXMMIndex, .memYMMIndex] ∧ x.defaultRel = true ∧ m.notPcRel = false ∧
        m.seg ≠ 0x6404#16 ∧ m.seg ≠ 0x6505#16 ∧ ∀ r, ¬ Occurs r m.addr.item) ∧
      ∀ (ρ : Env) (w : Place) (base : Nat → Word), ρ.Agrees y.ctx base → (∀ a b, ρ.wrt a b = a - w.frame b) → m.size < 256 →
        Good ρ m.addr.item → OnlyOps Plain y.ctx m.addr → ρ.sym y.here = w.cur →
        (∀ s, Mentions y.ctx m.addr s → y.isCurpos s = true → ρ.sym s = w.cur) → (∀ k ∈ (makeInsn y x f).log, k.Sound) →
        (meaning ρ w ea.disp).setWidth m.size = (m.addr.eval ρ).setWidth m.size ∧
          (ea.disp.noWarn = false → meaning ρ w ea.disp = m.addr.eval ρ) := by
  obtain ⟨b, hp, fin, _, _, _, _, hlog⟩ := makeInsn_out settled ok
  obtain ⟨q1, q2, q3⟩ := mem_placed (only_of_count one hg (by rw [ha]; rfl)) hg ho ha hd hp
  obtain ⟨v, v1, v2, v3⟩ := fin.ea _ q1
  have hmem : (placeMem x g m).size = m.size ∧ (placeMem x g m).disp = rawValue (some m.addr) ∧ (placeMem x g m).nosplit = m.nosplit ∧
      (placeMem x g m).needDisp = true ∧ (placeMem x g m).validModrm = false ∧ (placeMem x g m).validSib = false ∧
      ((placeMem x g m).needModrm = true ↔ g.type ≠ .memOffs) ∧
      ((placeMem x g m).vsib = if g.type = .memXMMIndex then 1 else if g.type = .memYMMIndex then 2 else 0) ∧
      ((placeMem x g m).pcRel = true ↔ m.pcRel = true ∨ g.type ∉ [.memOffs, .memXMMIndex, .memYMMIndex] ∧ x.defaultRel = true ∧ m.notPcRel = false ∧
        m.seg ≠ 0x6404#16 ∧ m.seg ≠ 0x6505#16 ∧ ∀ r, ¬ Occurs r m.addr.item) := by
    unfold placeMem
    dsimp only
    split
    · next h => rw [h]; simp [dispOnly, eaMem, eaCreate]
    · next h => rw [h]; simp [eaMem, eaCreate]
    · next h => rw [h]; simp [eaMem, eaCreate]
    · next h1 h2 h3 =>
      split
      · next c =>
        simp only [Bool.and_eq_true, Bool.not_eq_true', decide_eq_true_eq] at c
        obtain ⟨⟨⟨⟨c1, c2⟩, c3⟩, c4⟩, c5⟩ := c
        refine ⟨rfl, rfl, rfl, rfl, rfl, rfl, by simp [eaMem]; exact h1, by simp [h2, h3, eaMem, eaCreate], ?_⟩
        simp only [true_iff]
        exact .inr ⟨by simp only [List.mem_cons, List.not_mem_nil, or_false, not_or]; exact ⟨h1, h2, h3⟩, c1, c2, c3, c4, fun r hr => by rw [(hasReg_iff _).2 ⟨r, hr⟩] at c5; cases c5⟩
      · next c =>
        refine ⟨rfl, rfl, rfl, rfl, rfl, rfl, by simp [eaMem]; exact h1, by simp [h2, h3, eaMem, eaCreate], ?_⟩
        refine ⟨fun h => .inl h, fun h => h.elim id fun h => absurd ?_ c⟩
        obtain ⟨_, c1, c2, c3, c4, c5⟩ := h
        have hn : hasReg m.addr.item = false := by
          cases h : hasReg m.addr.item with
          | false => rfl
          | true => obtain ⟨r, hr⟩ := (hasReg_iff _).1 h; exact absurd hr (c5 r)
        rw [c1, c2, decide_eq_true c3, decide_eq_true c4, hn]
        rfl
  obtain ⟨e1, e2, e3, e4, e5, e6, e7, e8, e9⟩ := hmem
  rw [e1, e2] at v1
  refine ⟨q3, by rw [v3, q2], _, v2, e1, e3, e4, e5, e6, e7, e8, e9, ?_⟩
  intro ρ w base ag wrt hs good plain here cur sound
  refine Value.Props.finalize_plain_value ρ w y base ag wrt m.size hs m.addr good plain here cur v ?_ v1
  intro k hk
  refine sound k (hlog k (fin.eaLog _ q1 k ?_))
  rw [e1, e2]
  exact hk

/-! ### Cases -/

/-- No symbols. -/
def noY : Syms := ⟨noSyms, 1, fun _ => false, fun _ => false, 0, none⟩

/-- What can be seen of an instruction: REX, the prefix, the opcode, ModRM and the size of the immediate. -/
structure Seen where
  rex : Byte
  special : Byte
  opcode : List Byte
  modrm : Option Byte
  imm : Option Nat
deriving DecidableEq, Repr

/-- The bytes of an opcode. -/
def opcodeBytes (o : Opcode) : List Byte := [o.b0, o.b1, o.b2].take o.len

/-- An instruction with a form of the theorems above (`once`, `settled`), made from what was written. -/
def seen (x : IdInsn) : Option Seen :=
  match findMatch noSyms 1 0 x with
  | .ok (some f) =>
    if f.once && f.settled then
      match (makeInsn noY x f).out with
      | .ok i => some ⟨i.rex, i.special, opcodeBytes i.opcode, if i.ea.any (·.needModrm) then i.ea.map (·.modrm) else none, i.imm.map (·.size)⟩
      | .error _ => none
    else none
  | _ => none

/-- `add r9, rbx` is 49 01 D9; `mov ah, bl` in 32-bit mode is 88 DC; in 64-bit mode `mov spl, bl` is 40 88 DC, and `mov ah, r8b`
    does not exist. -/
example : seen (nasm arith_insn 64 [0, 0] [regOp 0x59, regOp 0x53]) = some ⟨0x49, 0, [0x01], some 0xD9, none⟩ ∧
    seen (nasm mov_insn 32 [] [regOp 0x14, regOp 0x13]) = some ⟨0, 0, [0x88], some 0xDC, none⟩ ∧
    seen (nasm mov_insn 64 [] [regOp 0x24, regOp 0x13]) = some ⟨0x40, 0, [0x88], some 0xDC, none⟩ ∧
    seen (nasm mov_insn 64 [] [regOp 0x14, regOp 0x18]) = none := by
  with_unfolding_all decide +kernel

/-- `mov r9d, 5` has the register in the opcode, and an immediate of 32 bits; `mov ebx, [rbx]` an address that is not known yet;
    `mov ds, ax` a segment register. -/
example : seen (nasm mov_insn 64 [] [regOp 0x49, numOp 0 5]) = some ⟨0x41, 0, [0xB9], none, some 32⟩ ∧
    seen (nasm mov_insn 64 [] [regOp 0x43, memOp 0 ⟨.IDENT, [.reg 0x53]⟩]) = some ⟨0, 0, [0x8B], some 0x18, none⟩ ∧
    (∀ f ∈ forms mov_insn, f.ops.countP (fun g => g.action.writesEa) ≤ 1) ∧
    seen (nasm mov_insn 32 [] [⟨.segreg 0x3e03, none, .none, 0, false, false⟩, regOp 0x30]) = some ⟨0, 0, [0x8E], some 0xD8, none⟩ := by
  with_unfolding_all decide +kernel

/-- `vaddps xmm9, xmm10, xmm3`, `vblendvps xmm1, xmm2, xmm3, xmm12` with a register in the immediate, `extrq xmm9, 1, 2` with a
    register and a number in its place, and `vpinsrb xmm1, xmm2, eax, 3`. -/
example : seen { nasm (groups.getD 81 []) 64 [0, 0x58, 0xC0] [regOp 0x89, regOp 0x8a, regOp 0x83] with avx := true } =
      some ⟨0x44, 0xC4, [0xE1, 0x28, 0x58], some 0xCB, none⟩ ∧
    seen { nasm (groups.getD 132 []) 64 [0x4A] [regOp 0x81, regOp 0x82, regOp 0x83, regOp 0x8c] with avx := true } =
      some ⟨0, 0xC4, [0xE3, 0x69, 0x4A], some 0xCB, some 8⟩ ∧
    seen (nasm (groups.getD 202 []) 64 [] [regOp 0x89, numOp 0 1, numOp 0 2]) = some ⟨0x41, 0x66, [0x0F, 0x78], some 0xC1, some 8⟩ ∧
    seen { nasm (groups.getD 142 []) 64 [0xC0] [regOp 0x81, regOp 0x82, regOp 0x40, numOp 0 3] with avx := true } =
      some ⟨0, 0xC4, [0xE3, 0x69, 0x20], some 0xC8, some 8⟩ := by
  with_unfolding_all decide +kernel

end Verif.Match
