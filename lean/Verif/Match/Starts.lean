/-
Lemmas for C73: what is made of a line is what the computation of lengths starts from.
-/
import Verif.Match.StartTable
import Verif.Match.Line

namespace Verif.Match

open Verif.Intnum
open Verif.Expr
open Verif.Value
open Verif.Ea
open Verif.Insn

/-- A segment register has its prefix in the high byte. -/
def SegOk (s : BitVec 16) : Prop := s = 0#16 ∨ (s >>> 8).truncate 8 ≠ (0#8 : Byte)

/-- The sizes of addresses, with none. -/
def AddrOk (n : Nat) : Prop := n = 0 ∨ n = 16 ∨ n = 32 ∨ n = 64

/-! ### The operands -/

/-- What placing operands keeps. -/
structure Ready (x : IdInsn) (f : Form) (b : Build) : Prop where
  mode : b.common.mode = x.mode
  addrsize : AddrOk b.common.addrsize
  noAddr : (∀ g ∈ f.ops, g.action ≠ .adSizeEA) → b.common.addrsize = 0
  opcode : b.opcode.len ≤ 3
  word : byteWord f = true → b.opcode.len ≤ 2
  postop : b.postop = .signextImm8 → byteWord f = true
  seg : SegOk b.seg
  rex : RexIn x.mode b.rex
  late : b.late = .none ∨ ∃ g ∈ f.ops, g.post = b.late
  vexdata : b.vexdata = (base x f).vexdata
  special : b.special = (base x f).special

theorem adSize_out {x : IdInsn} {op : Operand} {b c : Build} (h : placeAdSize x op b = .ok c) :
    ∃ n, AddrOk n ∧ c = { b with common := { b.common with addrsize := n } } := by
  unfold placeAdSize at h
  split at h
  · split at h
    · cases h
    · split at h
      · cases h
      · split at h
        · cases h; exact ⟨16, by unfold AddrOk; omega, rfl⟩
        · split at h
          · cases h; exact ⟨32, by unfold AddrOk; omega, rfl⟩
          · split at h
            · cases h; exact ⟨64, by unfold AddrOk; omega, rfl⟩
            · cases h
  · cases h

/-- What placing one operand keeps. -/
structure Kept (g : OpInfo) (op : Operand) (b c : Build) : Prop where
  addr : c.common.addrsize = b.common.addrsize ∨ g.action = .adSizeEA ∧ AddrOk c.common.addrsize
  len : c.opcode.len = b.opcode.len
  postop : c.postop = b.postop
  late : c.late = b.late
  seg : c.seg = b.seg ∨ ∃ m, op.data = .mem m ∧ c.seg = m.seg

theorem place_kept {x : IdInsn} {g : OpInfo} {op : Operand} {b c : Build} (h : (place x g op b).out = .ok c) : Kept g op b c := by
  have plain : ∀ {c : Build}, c.common = b.common → c.opcode.len = b.opcode.len → c.postop = b.postop → c.late = b.late → c.seg = b.seg →
      Kept g op b c := fun h1 h2 h3 h4 h5 => ⟨.inl (by rw [h1]), h2, h3, h4, .inl h5⟩
  unfold place at h
  cases ha : g.action <;> rw [ha] at h <;> dsimp only at h
  case none => cases h; exact plain rfl rfl rfl rfl rfl
  case ea =>
    simp only [Run.of] at h
    unfold placeEa at h
    split at h
    · split at h
      · cases h
      · cases h; exact plain rfl rfl rfl rfl rfl
    · cases h
    · next m hm =>
      split at h
      · cases h
      · cases h; exact ⟨.inl rfl, rfl, rfl, rfl, .inr ⟨m, hm, rfl⟩⟩
    · cases h; exact plain rfl rfl rfl rfl rfl
  case eaVEX =>
    simp only [Run.of] at h
    unfold placeEaVex at h
    split at h
    · cases h
    · split at h
      · cases h
      · cases h; exact plain rfl rfl rfl rfl rfl
  case imm =>
    simp only [Run.of] at h
    unfold placeImm at h
    split at h
    · cases h
    · split at h
      · cases h; exact plain rfl rfl rfl rfl rfl
      · cases h
  case simm =>
    simp only [Run.of] at h
    unfold placeImm at h
    split at h
    · cases h
    · split at h
      · cases h; exact plain rfl rfl rfl rfl rfl
      · cases h
  case spare =>
    simp only [Run.of] at h
    unfold placeSpare at h
    split at h
    · cases h; exact plain rfl rfl rfl rfl rfl
    · split at h
      · cases h
      · cases h; exact plain rfl rfl rfl rfl rfl
    · cases h
  case spareVEX =>
    simp only [Run.of] at h
    unfold placeSpareVex at h
    split at h
    · cases h
    · split at h
      · cases h
      · cases h; exact plain rfl rfl rfl rfl rfl
  case op0Add =>
    simp only [Run.of] at h
    unfold placeOpAdd at h
    split at h
    · cases h
    · split at h
      · cases h
      · cases h; exact plain rfl rfl rfl rfl rfl
  case op1Add =>
    simp only [Run.of] at h
    unfold placeOpAdd at h
    split at h
    · cases h
    · split at h
      · cases h
      · cases h; exact plain rfl rfl rfl rfl rfl
  case spareEA =>
    simp only [Run.of] at h
    unfold placeSpareEa at h
    split at h
    · cases h
    · split at h
      · cases h
      · split at h
        · cases h
        · cases h; exact plain rfl rfl rfl rfl rfl
  case adSizeEA =>
    simp only [Run.of] at h
    obtain ⟨n, hn, e⟩ := adSize_out h
    subst e
    exact ⟨.inr ⟨ha, hn⟩, rfl, rfl, rfl, .inl rfl⟩
  case vex =>
    simp only [Run.of] at h
    unfold placeVex at h
    split at h
    · cases h
    · cases h; exact plain rfl rfl rfl rfl rfl
  case vexImmSrc =>
    unfold placeImmSrc at h
    split at h
    · cases h
    · split at h
      · cases h; exact plain rfl rfl rfl rfl rfl
      · obtain ⟨_, _, h, _⟩ := Run.bind_out h
        obtain ⟨_, _, h, _⟩ := Run.bind_out h
        cases h; exact plain rfl rfl rfl rfl rfl
  case vexImm =>
    unfold placeVexImm at h
    split at h
    · split at h
      · cases h; exact plain rfl rfl rfl rfl rfl
      · obtain ⟨_, _, h, _⟩ := Run.bind_out h
        obtain ⟨_, _, h, _⟩ := Run.bind_out h
        obtain ⟨_, _, h, _⟩ := Run.bind_out h
        cases h; exact plain rfl rfl rfl rfl rfl
    · cases h
  all_goals cases h

theorem after_kept {x : IdInsn} {g : OpInfo} {op : Operand} {b c : Build} (h : after x g op b = .ok c) :
    c.common.addrsize = b.common.addrsize ∧ c.seg = b.seg ∧ (c.late = b.late ∨ c.late = g.post) ∧
    (g.post ≠ .simm8 → c.opcode = b.opcode ∧ (c.postop = .signextImm8 → b.postop = .signextImm8)) ∧
    (g.post = .simm8 → c.opcode.len = b.opcode.len ∨ c.opcode.len = 1) := by
  unfold after at h
  extract_lets b0 b1 at h
  have e : b1.common.addrsize = b.common.addrsize ∧ b1.seg = b.seg ∧ b1.late = b.late ∧ b1.opcode = b.opcode ∧ b1.postop = b.postop := by
    simp only [b1, b0]; split <;> exact ⟨rfl, rfl, rfl, rfl, rfl⟩
  clear_value b1 b0
  obtain ⟨e1, e2, e3, e4, e5⟩ := e
  cases hp : g.post <;> rw [hp] at h <;> dsimp only at h
  case none => cases h; exact ⟨e1, e2, .inl e3, fun _ => ⟨e4, fun h => e5 ▸ h⟩, fun h => by cases h⟩
  case shortMov => cases h; exact ⟨e1, e2, .inr rfl, fun _ => ⟨e4, fun h => e5 ▸ h⟩, fun h => by cases h⟩
  case simm32Avail => cases h; exact ⟨e1, e2, .inr rfl, fun _ => ⟨e4, fun h => e5 ▸ h⟩, fun h => by cases h⟩
  case a16 => cases h; exact ⟨e1, e2, .inl e3, fun _ => ⟨e4, fun h => by cases h⟩, fun h => by cases h⟩
  case simm8 =>
    unfold postSimm8 at h
    split at h
    · cases h; exact ⟨e1, e2, .inl e3, fun h => absurd rfl h, fun _ => .inl (by rw [← e4])⟩
    · split at h
      · split at h
        · cases h
        · cases h; exact ⟨e1, e2, .inl e3, fun h => absurd rfl h, fun _ => .inr rfl⟩
      · cases h; exact ⟨e1, e2, .inl e3, fun h => absurd rfl h, fun _ => .inl (by rw [← e4])⟩

theorem step_ready {x : IdInsn} {f : Form} {g : OpInfo} {op : Operand} {b b' : Build} (hg : g ∈ f.ops) (hm : ∀ m, op.data = .mem m → SegOk m.seg)
    (h : (step x g op b).out = .ok b') (r : Ready x f b) : Ready x f b' := by
  have same := step_same h
  have rx := step_rexIn h r.rex
  obtain ⟨c, h1, h2⟩ := step_out h
  have p := place_kept h1
  obtain ⟨a1, a2, a3, a4, a5⟩ := after_kept h2
  have bw : g.post = .simm8 → byteWord f = true := fun h => List.any_eq_true.2 ⟨g, hg, decide_eq_true h⟩
  refine
    { mode := same.mode.trans r.mode, addrsize := ?_, noAddr := ?_, opcode := ?_, word := ?_, postop := ?_, seg := ?_, rex := rx, late := ?_,
      vexdata := same.vexdata.trans r.vexdata, special := same.special.trans r.special }
  · rw [a1]
    rcases p.addr with h | h
    · rw [h]; exact r.addrsize
    · exact h.2
  · intro hn
    rw [a1]
    rcases p.addr with h | h
    · rw [h]; exact r.noAddr hn
    · exact absurd h.1 (hn g hg)
  · by_cases hs : g.post = .simm8
    · rcases a5 hs with h | h
      · rw [h, p.len]; exact r.opcode
      · rw [h]; decide
    · rw [(a4 hs).1, p.len]; exact r.opcode
  · intro hb
    by_cases hs : g.post = .simm8
    · rcases a5 hs with h | h
      · rw [h, p.len]; exact r.word hb
      · rw [h]; decide
    · rw [(a4 hs).1, p.len]; exact r.word hb
  · intro hp
    by_cases hs : g.post = .simm8
    · exact bw hs
    · exact r.postop (p.postop ▸ (a4 hs).2 hp)
  · rw [a2]
    rcases p.seg with h | ⟨m, h, e⟩
    · rw [h]; exact r.seg
    · rw [e]; exact hm m h
  · rcases a3 with h | h
    · rw [h, p.late]; exact r.late
    · exact .inr ⟨g, hg, h.symm⟩

theorem base_special (x : IdInsn) (f : Form) : (base x f).special = specialOf x.modData f ∧ (base x f).vexdata = vexOf x.modData f := by
  have m := modifyAll_modified f.modifiers x.modData (start x f)
  rw [(base_rex x f).2]
  refine ⟨m.special.trans ?_, m.vexdata.trans ?_⟩ <;> unfold start <;> dsimp only <;> simp only [decide_eq_true_eq] <;> rfl

theorem base_ready (x : IdInsn) (f : Form) (h : startSound x.modData f = true) (hj : isJump f = false) : Ready x f (base x f) := by
  obtain ⟨b1, _, _, b4, _, b6, b7, b8, b9⟩ := base_began x f
  unfold startSound at h
  rw [hj] at h
  simp only [Bool.false_or, Bool.and_eq_true, decide_eq_true_eq, Bool.or_eq_true, Bool.not_eq_true'] at h
  refine
    { mode := b1, addrsize := .inl b9, noAddr := fun _ => b9, opcode := by rw [b6]; exact h.1, word := ?_, postop := ?_, seg := .inl b7,
      rex := (base_open x f).1, late := .inl b4, vexdata := rfl, special := rfl }
  · intro hb
    rw [b6]
    rcases h.2.1.1.1.1 with h | h
    · rw [hb] at h; cases h
    · exact h.1
  · rw [b8]; intro h; cases h

/-! ### The effective address -/

/-- An address with registers and immediates alone. -/
def Direct (ea : Effaddr) : Prop :=
  ea.needModrm = ea.validModrm ∧ ea.needSib = 0 ∧ (ea.needDisp = true ∨ ea.size = 0 ∧ ea.needNonzero = false) ∧
    (ea.needModrm = false → ea.needDisp = true) ∧ ea.size ≤ 64

theorem Direct.kind {ea : Effaddr} (h : Direct ea) : Kind ea := by
  obtain ⟨h1, h2, h3, h4, h5⟩ := h
  cases hm : ea.needModrm with
  | false => exact .inr (.inr ⟨hm, h2, h4 hm⟩)
  | true => exact .inr (.inl ⟨hm, h1 ▸ hm, h2, h3, h5⟩)

theorem placeMem_kind (x : IdInsn) (g : OpInfo) (m : MemArg) : Kind (placeMem x g m) ∧ (placeMem x g m).needDisp = true := by
  have first : Kind (eaMem m) := .inl ⟨rfl, rfl, rfl, rfl⟩
  unfold placeMem
  dsimp only
  split
  · exact ⟨.inr (.inr ⟨rfl, rfl, rfl⟩), rfl⟩
  · exact ⟨.inl ⟨rfl, rfl, rfl, rfl⟩, rfl⟩
  · exact ⟨.inl ⟨rfl, rfl, rfl, rfl⟩, rfl⟩
  · split
    · exact ⟨.inl ⟨rfl, rfl, rfl, rfl⟩, rfl⟩
    · exact ⟨first, rfl⟩

theorem eaReg_direct {ea : Option Effaddr} {r : Nat} {rex rex' : Byte} {mode : Nat} {ea' : Effaddr} (h : eaReg ea r rex mode = .ok (ea', rex'))
    (hd : ∀ e, ea = some e → Direct e) : Direct ea' := by
  unfold eaReg at h
  split at h
  · cases h
  · cases h
    cases ea with
    | none => exact ⟨rfl, rfl, .inr ⟨rfl, rfl⟩, fun h => (by cases h), Nat.zero_le 64⟩
    | some e =>
      obtain ⟨_, h2, h3, _, h5⟩ := hd e rfl
      exact ⟨rfl, h2, h3, fun h => (by cases h), h5⟩

theorem eaImm_direct {ea : Option Effaddr} {e : Node} {n : Nat} (hn : n ≤ 64) (hd : ∀ e, ea = some e → Direct e) : Direct (eaImm ea e n) := by
  cases ea with
  | none => exact ⟨rfl, rfl, .inl rfl, fun _ => rfl, hn⟩
  | some e =>
    obtain ⟨h1, h2, _, _⟩ := hd e rfl
    exact ⟨h1, h2, .inl rfl, fun _ => rfl, hn⟩

/-- An immediate in the effective address has up to 64 bits. -/
def FewBits (x : IdInsn) (g : OpInfo) (op : Operand) : Prop := g.action = .ea → ∀ e, op.data = .imm e → sizeVal x.mode g.size ≤ 64

/-- What one operand does to the effective address. -/
theorem step_ea {x : IdInsn} {g : OpInfo} {op : Operand} {b b' : Build} (hz : FewBits x g op) (h : (step x g op b).out = .ok b') :
    (g.action.writesEa = false ∧ b'.ea = b.ea) ∨
    (g.action = .ea ∧ ∃ m, op.data = .mem m ∧ b'.ea = some (placeMem x g m)) ∨
    (g.action.writesEa = true ∧ (∀ m, op.data ≠ .mem m) ∧ ((∀ ea, b.ea = some ea → Direct ea) → ∀ ea, b'.ea = some ea → Direct ea)) := by
  cases hw : g.action.writesEa with
  | false => exact .inl ⟨rfl, ((step_same h).ea hw).1⟩
  | true =>
    right
    obtain ⟨c, h1, h2⟩ := step_out h
    rw [show b'.ea = c.ea from (after_same h2).2.2.2.2.1]
    unfold place at h1
    cases ha : g.action <;> rw [ha] at h1 hw <;> (try (cases hw; done)) <;> dsimp only at h1 <;> simp only [Run.of] at h1
    case ea =>
      unfold placeEa at h1
      split at h1
      · next r hr =>
        split at h1
        · cases h1
        · next he =>
          cases h1
          exact .inr ⟨rfl, fun m h => (by rw [hr] at h; cases h), fun hd ea h => by cases h; exact eaReg_direct he hd⟩
      · cases h1
      · next m hm =>
        split at h1
        · cases h1
        · cases h1; exact .inl ⟨rfl, m, hm, rfl⟩
      · next e hi =>
        cases h1
        exact .inr ⟨rfl, fun m h => (by rw [hi] at h; cases h), fun hd ea h => by cases h; exact eaImm_direct (hz ha e hi) hd⟩
    case eaVEX =>
      unfold placeEaVex at h1
      split at h1
      · cases h1
      · next r hr =>
        split at h1
        · cases h1
        · next he =>
          cases h1
          exact .inr ⟨rfl, fun m h => (by rw [needReg_ok hr] at h; cases h), fun hd ea h => by cases h; exact eaReg_direct he hd⟩
    case spareEA =>
      unfold placeSpareEa at h1
      split at h1
      · cases h1
      · next r hr =>
        split at h1
        · cases h1
        · next he =>
          split at h1
          · cases h1
          · cases h1
            exact .inr ⟨rfl, fun m h => (by rw [needReg_ok hr] at h; cases h), fun hd ea h => by cases h; exact eaReg_direct he hd⟩

/-- If there is no memory, any number of operands may be in the effective address. -/
theorem ea_direct {x : IdInsn} {gs : List OpInfo} {ops : List Operand} {b b' : Build}
    (hz : ∀ g op, (g, op) ∈ gs.zip ops → FewBits x g op)
    (hw : ∀ g op, (g, op) ∈ gs.zip ops → g.action = .ea → ∀ m, op.data ≠ .mem m) (h : (placeAll x gs ops b).out = .ok b')
    (hb : ∀ ea, b.ea = some ea → Direct ea) : ∀ ea, b'.ea = some ea → Direct ea := by
  refine placeAll_inv (P := fun b => ∀ ea, b.ea = some ea → Direct ea) (W := fun g op => FewBits x g op ∧ (g.action = .ea → ∀ m, op.data ≠ .mem m))
    (fun g op b b' w h hb => ?_) gs ops b b' (fun g op hp => ⟨hz g op hp, hw g op hp⟩) h hb
  rcases step_ea w.1 h with ⟨_, e⟩ | ⟨ha, m, hm, _⟩ | ⟨_, _, e⟩
  · rw [e]; exact hb
  · exact absurd hm (w.2 ha m)
  · exact e hb

/-- If there is only one, it may be in memory. -/
theorem ea_once {x : IdInsn} : ∀ (gs : List OpInfo) (ops : List Operand) (b b' : Build),
    (∀ g op, (g, op) ∈ gs.zip ops → FewBits x g op) → gs.countP (fun g => g.action.writesEa) ≤ 1 → (b.ea = none ∨ gs.countP (fun g => g.action.writesEa) = 0) →
    (placeAll x gs ops b).out = .ok b' → (∀ ea, b.ea = some ea → Kind ea) → ∀ ea, b'.ea = some ea → Kind ea := by
  intro gs
  induction gs with
  | nil => intro ops b b' _ _ _ h hb; unfold placeAll at h; cases h; exact hb
  | cons g gs ih =>
    intro ops b b' hz hc ho h hb
    cases ops with
    | nil => unfold placeAll at h; cases h; exact hb
    | cons op ops =>
      obtain ⟨b1, h1, h2⟩ := placeAll_cons h
      rw [List.countP_cons] at hc ho
      have ht : ∀ g op, (g, op) ∈ gs.zip ops → FewBits x g op := fun g op h => hz g op (by simp [h])
      rcases step_ea (hz g op (by simp)) h1 with ⟨hf, e⟩ | ⟨ha, m, _, e⟩ | ⟨hw, _, e⟩
      · rw [hf] at hc ho
        simp only [Bool.false_eq_true, if_false, Nat.add_zero] at hc ho
        exact ih ops b1 b' ht hc (by rw [e]; exact ho) h2 (by rw [e]; exact hb)
      · rw [if_pos (by rw [ha]; rfl)] at hc
        exact ih ops b1 b' ht (by omega) (.inr (by omega)) h2 (by rw [e]; intro ea h; cases h; exact (placeMem_kind x g m).1)
      · rw [if_pos hw] at hc ho
        have hn : b.ea = none := by rcases ho with h | h; · exact h
                                    · omega
        exact ih ops b1 b' ht (by omega) (.inr (by omega)) h2 (fun ea h => (e (by rw [hn]; intro _ h; cases h) ea h).kind)

/-- If all of them are in memory, there is a displacement. -/
theorem ea_disp {x : IdInsn} {gs : List OpInfo} {ops : List Operand} {b b' : Build}
    (hz : ∀ g op, (g, op) ∈ gs.zip ops → FewBits x g op)
    (hw : ∀ g op, (g, op) ∈ gs.zip ops → g.action.writesEa = true → ∃ m, op.data = .mem m) (h : (placeAll x gs ops b).out = .ok b')
    (hb : ∀ ea, b.ea = some ea → ea.needDisp = true) : ∀ ea, b'.ea = some ea → ea.needDisp = true := by
  refine placeAll_inv (P := fun b => ∀ ea, b.ea = some ea → ea.needDisp = true) (W := fun g op => FewBits x g op ∧ (g.action.writesEa = true → ∃ m, op.data = .mem m))
    (fun g op b b' w h hb => ?_) gs ops b b' (fun g op hp => ⟨hz g op hp, hw g op hp⟩) h hb
  rcases step_ea w.1 h with ⟨_, e⟩ | ⟨_, m, _, e⟩ | ⟨ha, hn, _⟩
  · rw [e]; exact hb
  · rw [e]; intro ea h; cases h; exact (placeMem_kind x g m).2
  · obtain ⟨m, hm⟩ := w.2 ha
    exact absurd hm (hn m)

/-- If there is none, there is no effective address. -/
theorem ea_never {x : IdInsn} {gs : List OpInfo} {ops : List Operand} {b b' : Build}
    (hw : ∀ g ∈ gs, g.action.writesEa = false) (h : (placeAll x gs ops b).out = .ok b') : b'.ea = b.ea := by
  refine placeAll_inv (P := fun c => c.ea = b.ea) (W := fun g _ => g.action.writesEa = false)
    (fun g op c c' w h hb => ((step_same h).ea w).1.trans hb) gs ops b b' (fun g op hz => hw g (List.of_mem_zip hz).1) h rfl

/-! ### The immediate -/

theorem step_imLen {x : IdInsn} {g : OpInfo} {op : Operand} {b b' : Build} (hg : g.action = .imm ∨ g.action = .simm → sizeVal x.mode g.size ≤ 64)
    (h : (step x g op b).out = .ok b') (hb : b.imLen ≤ 64) : b'.imLen ≤ 64 := by
  cases hw : g.action.writesImm with
  | false => rw [((step_same h).imm hw).2.1]; exact hb
  | true =>
    obtain ⟨c, h1, h2⟩ := step_out h
    obtain ⟨_, _, _, _, _, _, _, _, _, a10, _⟩ := after_same h2
    rw [a10]
    have key : ∀ s, placeImm x g op s b = .ok c → sizeVal x.mode g.size ≤ 64 → c.imLen ≤ 64 := by
      intro s hc hs
      unfold placeImm at hc
      split at hc
      · cases hc
      · split at hc
        · cases hc; exact hs
        · cases hc
    unfold place at h1
    cases ha : g.action <;> rw [ha] at h1 hw hg <;> (try (cases hw; done)) <;> dsimp only at h1
    case imm => exact key _ h1 (hg (.inl rfl))
    case simm => exact key _ h1 (hg (.inr rfl))
    case vexImmSrc =>
      unfold placeImmSrc at h1
      split at h1
      · cases h1
      · split at h1
        · cases h1; exact (by omega : 8 ≤ 64)
        · obtain ⟨_, _, h1, _⟩ := Run.bind_out h1
          obtain ⟨_, _, h1, _⟩ := Run.bind_out h1
          cases h1; exact (by omega : 8 ≤ 64)
    case vexImm =>
      unfold placeVexImm at h1
      split at h1
      · split at h1
        · cases h1; exact (by omega : 8 ≤ 64)
        · obtain ⟨_, _, h1, _⟩ := Run.bind_out h1
          obtain ⟨_, _, h1, _⟩ := Run.bind_out h1
          obtain ⟨_, _, h1, _⟩ := Run.bind_out h1
          cases h1; exact (by omega : 8 ≤ 64)
      · cases h1

theorem modify_imLen : ∀ (ms : List Modifier) (vs : List Byte) (b : Build), b.imLen ≤ 64 → (modifyAll b ms vs).imLen ≤ 64 := by
  intro ms
  induction ms with
  | nil => intro vs b h; exact h
  | cons m ms ih =>
    intro vs b h
    unfold modifyAll
    apply ih
    unfold modify
    cases m <;> first | exact h | exact (by omega : 8 ≤ 64)

theorem base_imLen (x : IdInsn) (f : Form) : (base x f).imLen ≤ 64 := by
  rw [(base_rex x f).2]
  exact modify_imLen f.modifiers x.modData (start x f) (Nat.zero_le 64)

theorem finish_imm {y : Syms} {x : IdInsn} {b : Build} {i : Insn} (hn : b.imLen ≤ 64) (h : (finishInsn y x b).out = .ok i) :
    ∀ f, i.imm = some f → f.size ≤ 64 := by
  unfold finishInsn at h
  obtain ⟨c, h1, h, _⟩ := Run.bind_out h
  obtain ⟨imm, h2, h, _⟩ := Run.bind_out h
  obtain ⟨j, h3, h4, _⟩ := Run.bind_out h
  obtain ⟨g1, g2⟩ := finishEa_out h1
  have hc : c.imLen = b.imLen := by
    cases hea : b.ea with
    | none => obtain ⟨_, e, _⟩ := g2 hea; rw [e]
    | some ea => obtain ⟨_, _, e⟩ := g1 ea hea; rw [e]
  have hi : ∀ f, imm = some f → f.size ≤ 64 := by
    obtain ⟨m1, m2⟩ := finishImm_out h2
    intro f hf
    cases hb : c.imm with
    | none => rw [m2 hb] at hf; cases hf
    | some e =>
      obtain ⟨v, _, e⟩ := m1 e hb
      rw [e] at hf
      cases hf
      show c.imLen ≤ 64
      omega
  rw [(finishVex_out h4).2.2.2.2.2.1]
  unfold finishLate at h3
  cases hl : c.late <;> rw [hl] at h3 <;> dsimp only at h3
  case shortMov =>
    simp only [Run.of] at h3
    unfold shortMov at h3
    split at h3
    · split at h3
      · cases h3
      · cases h3; exact hi
    · (repeat' split at h3) <;> cases h3 <;> exact hi
  case simm32Avail =>
    unfold simm32 at h3
    split at h3
    · cases h3
    · obtain ⟨ok, _, h3, _⟩ := Run.bind_out h3
      split at h3
      · split at h3
        · cases h3
        · cases h3
          intro f hf
          cases hf
          exact (by omega : 32 ≤ 64)
      · cases h3; exact hi
  all_goals
    cases h3
    exact hi

/-! ### The prefixes -/

/-- What prefixes there are. -/
def prefixSound (w : PrefixWord) : Bool :=
  match w.value with
  | .addrsize n => decide (n = 16 ∨ n = 32 ∨ n = 64)
  | .rex _ => w.only64
  | _ => true

theorem prefixes_sound : prefixWords.all prefixSound = true := by decide +kernel

theorem Proper.fine {mode : Nat} {p : Prefix} (h : Proper mode p) :
    (∀ n, p = .addrsize n → AddrOk n) ∧ (∀ v, p = .rex v → mode = 64) := by
  obtain ⟨w, hw, h⟩ := h
  have s := List.all_eq_true.1 prefixes_sound w hw
  unfold PrefixWord.check at h
  split at h
  · cases h
  · split at h
    · cases h
    · split at h
      · cases h
      · next h3 =>
        injection h with h
        unfold prefixSound at s
        rw [h] at s
        constructor
        · intro n e
          subst e
          simp only [decide_eq_true_eq] at s
          unfold AddrOk; omega
        · intro v e
          subst e
          dsimp only at s
          by_contra hc
          exact h3 ⟨hc, s⟩

theorem prefixes_ok {d mode : Nat} : ∀ (ps : List Prefix) (c : Common) (r : Option Byte), (∀ p ∈ ps, Proper mode p) → c.mode = mode → AddrOk c.addrsize →
    (applyPrefixes d c r ps).1.mode = mode ∧ AddrOk (applyPrefixes d c r ps).1.addrsize ∧ (mode ≠ 64 → (applyPrefixes d c r ps).2 = r) ∧
    ((applyPrefixes d c r ps).1.addrsize = c.addrsize ∨ Prefix.addrsize (applyPrefixes d c r ps).1.addrsize ∈ ps) := by
  intro ps
  induction ps with
  | nil => intro c r _ hm ha; exact ⟨hm, ha, fun _ => rfl, .inl rfl⟩
  | cons p ps ih =>
    intro c r hp hm ha
    have key : (applyPrefix d (c, r) p).1.mode = mode ∧ AddrOk (applyPrefix d (c, r) p).1.addrsize ∧
        (mode ≠ 64 → (applyPrefix d (c, r) p).2 = r) ∧
        ((applyPrefix d (c, r) p).1.addrsize = c.addrsize ∨ Prefix.addrsize (applyPrefix d (c, r) p).1.addrsize = p) := by
      have pf := (hp p (by simp)).fine
      unfold applyPrefix
      cases p with
      | lockrep v => exact ⟨hm, ha, fun _ => rfl, .inl rfl⟩
      | acqrel v => exact ⟨hm, ha, fun _ => rfl, .inl rfl⟩
      | segreg v => exact ⟨hm, ha, fun _ => rfl, .inl rfl⟩
      | addrsize n => exact ⟨hm, pf.1 n rfl, fun _ => rfl, .inr rfl⟩
      | opersize n =>
        dsimp only
        refine ⟨hm, ha, fun h => ?_, .inl rfl⟩
        rw [if_neg (fun hc => h (hm ▸ hc.1))]
      | rex v =>
        dsimp only
        have h64 := pf.2 v rfl
        cases r with
        | none => exact ⟨hm, ha, fun _ => rfl, .inl rfl⟩
        | some b =>
          dsimp only
          split
          · exact ⟨hm, ha, fun _ => rfl, .inl rfl⟩
          · exact ⟨h64.symm, ha, fun h => absurd h64 h, .inl rfl⟩
    obtain ⟨k1, k2, k3, k4⟩ := key
    have := ih (applyPrefix d (c, r) p).1 (applyPrefix d (c, r) p).2 (fun q hq => hp q (by simp [hq])) k1 k2
    obtain ⟨i1, i2, i3, i4⟩ := this
    have e : applyPrefixes d c r (p :: ps) = applyPrefixes d (applyPrefix d (c, r) p).1 (applyPrefix d (c, r) p).2 ps := rfl
    rw [e]
    refine ⟨i1, i2, fun h => (i3 h).trans (k3 h), ?_⟩
    rcases i4 with h | h
    · rw [h]
      rcases k4 with h | h
      · exact .inl h
      · right; rw [h]; simp
    · right; simp [h]

/-! ### The end -/

theorem vexOpcode_ok {vd vr sp sp' : Byte} {o o' : Opcode} (h : vexOpcode vd vr sp o = .ok (sp', o')) : o'.len ≤ 3 ∧ sp' ≠ 0xC5#8 := by
  unfold vexOpcode at h
  split at h
  · injection h with h
    injection h with h1 h2
    subst h1; subst h2
    refine ⟨Nat.le_refl 3, ?_⟩
    split <;> decide
  · cases h
  · cases h

/-- Like `Start`, with what is needed before VEX. -/
structure Almost (i : Insn) : Prop where
  mode : i.common.mode = 16 ∨ i.common.mode = 32 ∨ i.common.mode = 64
  addrsize : AddrOk i.common.addrsize
  opcode : i.opcode.len ≤ 3
  word : i.postop = .signextImm8 → i.opcode.len ≤ 2
  ea : ∀ ea, i.ea = some ea → Kind ea
  seg : SegOk i.seg
  rex : i.common.mode ≠ 64 → i.rex = 0#8
  special : i.special ≠ 0xC5#8

theorem Almost.start {i : Insn} (hi : ∀ f, i.imm = some f → f.size ≤ 64) (h : Almost i) : Start i :=
  ⟨h.mode, h.addrsize, h.opcode, fun _ => h.word, h.ea, h.seg, fun hm => .inl (h.rex hm), h.special, hi⟩

theorem finishEa_special {y : Syms} {x : IdInsn} {b c : Build} (h : (finishEa y x b).out = .ok c) :
    c.special = b.special ∨ ∃ s ∈ x.segregs, c.special = (s >>> 8).truncate 8 := by
  unfold finishEa at h
  split at h
  · obtain ⟨ea, _, h, _⟩ := Run.bind_out h
    cases h; exact .inl rfl
  · split at h
    · cases h; exact .inl rfl
    · next s hs =>
      split at h
      · cases h; exact .inr ⟨s, List.mem_of_getLast? hs, rfl⟩
      · cases h

theorem getLastD_mem {α : Type} (l : List α) (d : α) : l.getLastD d = d ∨ l.getLastD d ∈ l := by
  cases l with
  | nil => exact .inl rfl
  | cons a l => right; simp [List.getLastD]

theorem prefixed_almost {y : Syms} {x : IdInsn} {f : Form} {b c : Build} {imm : Option Field} (r : Ready x f b)
    (hs : specialOf x.modData f ≠ 0xC5#8) (mode : x.mode = 16 ∨ x.mode = 32 ∨ x.mode = 64) (hk : ∀ ea, b.ea = some ea → Kind ea)
    (segs : ∀ s ∈ x.segregs, SegOk s ∧ (s >>> 8).truncate 8 ≠ (0xC5#8 : Byte)) (ps : ∀ p ∈ x.prefixes, Proper x.mode p)
    (h : (finishEa y x b).out = .ok c) : Almost (prefixed x c imm) := by
  obtain ⟨g1, g2⟩ := finishEa_out h
  have sp : c.special ≠ 0xC5#8 := by
    rcases finishEa_special h with e | ⟨s, m, e⟩
    · rw [e, r.special, (base_special x f).1]; exact hs
    · rw [e]; exact (segs s m).2
  have main : c.common = b.common ∧ c.opcode = b.opcode ∧ c.postop = b.postop ∧ c.rex = b.rex ∧ c.def64 = b.def64 ∧
      (∀ ea, c.ea = some ea → Kind ea) ∧ SegOk c.seg := by
    cases hea : b.ea with
    | none =>
      obtain ⟨s, e, _⟩ := g2 hea
      subst e
      exact ⟨rfl, rfl, rfl, rfl, rfl, fun ea h => (by rw [hea] at h; cases h), r.seg⟩
    | some ea =>
      obtain ⟨v, _, e⟩ := g1 ea hea
      subst e
      refine ⟨rfl, rfl, rfl, rfl, rfl, fun ea' h => ?_, ?_⟩
      · cases h; exact hk ea hea
      · show SegOk (x.segregs.getLastD b.seg)
        rcases getLastD_mem x.segregs b.seg with h | h
        · rw [h]; exact r.seg
        · exact (segs _ h).1
  obtain ⟨m1, m2, m3, m4, m5, m6, m7⟩ := main
  obtain ⟨p1, p2, p3, _⟩ := prefixes_ok (d := c.def64) x.prefixes c.common (some c.rex) ps (by rw [m1]; exact r.mode) (by rw [m1]; exact r.addrsize)
  refine
    { mode := ?_, addrsize := ?_, opcode := ?_, word := ?_, ea := m6, seg := m7, rex := ?_, special := sp }
  · unfold prefixed
    dsimp only
    split <;> simp only [p1] <;> exact mode
  · unfold prefixed
    dsimp only
    split
    · exact .inl rfl
    · exact p2
  · show c.opcode.len ≤ 3
    rw [m2]; exact r.opcode
  · show c.postop = _ → c.opcode.len ≤ 2
    rw [m2, m3]
    exact fun h => r.word (r.postop h)
  · intro hm
    have hm' : x.mode ≠ 64 := by
      unfold prefixed at hm
      dsimp only at hm
      split at hm <;> simp only [p1] at hm <;> exact hm
    show (applyPrefixes c.def64 c.common (some c.rex) x.prefixes).2.getD 0 = 0#8
    rw [p3 hm']
    have := r.rex
    unfold RexIn at this
    rw [if_neg hm'] at this
    rw [m4]
    exact this

theorem shortMov_almost {x : IdInsn} {i j : Insn} (h : shortMov x i = .ok j) (a : Almost i)
    (hd : i.common.mode = 64 → i.common.addrsize = 32 → ∀ ea, i.ea = some ea → ea.needDisp = true) : Almost j ∧ j.postop = i.postop := by
  unfold shortMov at h
  split at h
  · split at h
    · cases h
    · cases h
      exact ⟨⟨a.mode, a.addrsize, a.opcode, a.word, a.ea, a.seg, a.rex, a.special⟩, rfl⟩
  · next ea he =>
    have key : ∀ q : Bool, (if (!x.defaultRel && decide (i.common.mode = 64) && decide (i.common.addrsize = 32) && !q) = true then
        Except.ok (ε := Stop) { i with ea := some (dispOnly ea), opcode := { i.opcode with b0 := i.opcode.b1, b1 := 0 } }
      else .ok { i with opcode := { i.opcode with b1 := 0 } }) = .ok j → Almost j ∧ j.postop = i.postop := by
      intro q h
      split at h
      · next hc =>
        cases h
        simp only [Bool.and_eq_true, decide_eq_true_eq] at hc
        exact ⟨⟨a.mode, a.addrsize, a.opcode, a.word,
          fun e h => (by cases h; exact .inr (.inr ⟨rfl, rfl, hd hc.1.1.2 hc.1.2 ea he⟩)), a.seg, a.rex, a.special⟩, rfl⟩
      · cases h
        exact ⟨⟨a.mode, a.addrsize, a.opcode, a.word, a.ea, a.seg, a.rex, a.special⟩, rfl⟩
    exact key _ h

theorem simm32_almost {c : Ctx} {nequ : Nat} {i j : Insn} (h : (simm32 c nequ i).out = .ok j) (a : Almost i) (hn : i.ea = none) :
    Almost j ∧ j.postop = i.postop := by
  unfold simm32 at h
  split at h
  · cases h
  · obtain ⟨ok, _, h, _⟩ := Run.bind_out h
    split at h
    · split at h
      · cases h
      · next ea rex he =>
        cases h
        exact ⟨⟨a.mode, a.addrsize, a.opcode, a.word,
          fun e h => (by cases h; exact (eaReg_direct he (by rw [hn]; intro _ h; cases h)).kind), a.seg, a.rex, a.special⟩, rfl⟩
    · cases h
      exact ⟨⟨a.mode, a.addrsize, a.opcode, a.word, a.ea, a.seg, a.rex, a.special⟩, rfl⟩

theorem finish_start {y : Syms} {x : IdInsn} {f : Form} {b : Build} {i : Insn} (r : Ready x f b) (hs : startSound x.modData f = true)
    (hj : isJump f = false) (mode : x.mode = 16 ∨ x.mode = 32 ∨ x.mode = 64) (hk : ∀ ea, b.ea = some ea → Kind ea)
    (segs : ∀ s ∈ x.segregs, SegOk s ∧ (s >>> 8).truncate 8 ≠ (0xC5#8 : Byte)) (ps : ∀ p ∈ x.prefixes, Proper x.mode p)
    (mov : b.late = .shortMov → b.common.addrsize = 0 ∧ (x.mode = 64 → Prefix.addrsize 32 ∈ x.prefixes → ∀ ea, b.ea = some ea → ea.needDisp = true))
    (simm : b.late = .simm32Avail → b.ea = none) (hn : b.imLen ≤ 64) (h : (finishInsn y x b).out = .ok i) : Start i := by
  have h0 := h
  unfold startSound at hs
  rw [hj] at hs
  simp only [Bool.false_or, Bool.and_eq_true, decide_eq_true_eq, Bool.or_eq_true, Bool.not_eq_true'] at hs
  obtain ⟨_, ⟨⟨⟨s1, s2⟩, _⟩, _⟩, _⟩ := hs
  unfold finishInsn at h
  obtain ⟨c, h1, h, _⟩ := Run.bind_out h
  obtain ⟨imm, h2, h, _⟩ := Run.bind_out h
  obtain ⟨j, h3, h4, _⟩ := Run.bind_out h
  have al := prefixed_almost (imm := imm) r s2 mode hk segs ps h1
  obtain ⟨g1, g2⟩ := finishEa_out h1
  have ce : c.late = b.late ∧ c.common = b.common ∧ c.vexdata = b.vexdata ∧ c.postop = b.postop ∧ (b.ea = none → c.ea = none) ∧
      ((∀ ea, b.ea = some ea → ea.needDisp = true) → ∀ ea, c.ea = some ea → ea.needDisp = true) := by
    cases hea : b.ea with
    | none =>
      obtain ⟨s, e, _⟩ := g2 hea
      subst e
      exact ⟨rfl, rfl, rfl, rfl, fun _ => hea, fun _ ea h => by rw [hea] at h; cases h⟩
    | some ea =>
      obtain ⟨v, _, e⟩ := g1 ea hea
      subst e
      exact ⟨rfl, rfl, rfl, rfl, fun h => (by cases h), fun hd ea' h => by cases h; exact hd ea rfl⟩
  obtain ⟨c1, c2, c3, c4, c5, c6⟩ := ce
  have late : Almost j ∧ j.postop = b.postop := by
    unfold finishLate at h3
    rw [c1] at h3
    cases hl : b.late <;> rw [hl] at h3 <;> dsimp only at h3
    case shortMov =>
      obtain ⟨m1, m2⟩ := mov hl
      obtain ⟨a, e⟩ := shortMov_almost h3 al (by
        intro hm ha
        obtain ⟨p1, _, _, p4⟩ := prefixes_ok (d := c.def64) x.prefixes c.common (some c.rex) ps (by rw [c2]; exact r.mode)
          (by rw [c2]; exact r.addrsize)
        have hm' : x.mode = 64 := by
          unfold prefixed at hm
          dsimp only at hm
          split at hm <;> simp only [p1] at hm <;> exact hm
        refine c6 (m2 hm' ?_)
        unfold prefixed at ha
        dsimp only at ha
        split at ha
        · cases ha
        · rw [ha] at p4
          rcases p4 with h | h
          · rw [c2, m1] at h; cases h
          · exact h)
      exact ⟨a, e.trans c4⟩
    case simm32Avail =>
      obtain ⟨a, e⟩ := simm32_almost h3 al (c5 (simm hl))
      exact ⟨a, e.trans c4⟩
    all_goals
      cases h3
      exact ⟨al, c4⟩
  obtain ⟨a, ep⟩ := late
  obtain ⟨f1, f2, f3, f4, f5, f6, f7, f8⟩ := finishVex_out h4
  by_cases hv : c.vexdata = 0#8
  · obtain ⟨v1, v2⟩ := f7 hv
    refine Almost.start (finish_imm hn h0) ⟨?_, ?_, ?_, ?_, ?_, ?_, ?_, ?_⟩
    · rw [f2]; exact a.mode
    · rw [f2]; exact a.addrsize
    · rw [v1]; exact a.opcode
    · rw [f3, v1]; exact a.word
    · rw [f4]; exact a.ea
    · rw [f5]; exact a.seg
    · rw [f1, f2]; exact a.rex
    · rw [v2]; exact a.special
  · obtain ⟨v1, v2⟩ := vexOpcode_ok (f8 hv)
    refine Almost.start (finish_imm hn h0) ⟨?_, ?_, v1, ?_, ?_, ?_, ?_, v2⟩
    · rw [f2]; exact a.mode
    · rw [f2]; exact a.addrsize
    · intro hp
      exfalso
      rw [f3, ep] at hp
      have hb := r.postop hp
      rcases s1 with h | h
      · rw [hb] at h; cases h
      · rw [c3, r.vexdata, (base_special x f).2] at hv
        exact hv h.2
    · rw [f4]; exact a.ea
    · rw [f5]; exact a.seg
    · rw [f1, f2]; exact a.rex

end Verif.Match
