/-
Lemmas for C69: from the operands placed to the instruction.
-/
import Verif.Match.Fields

namespace Verif.Match

open Verif.Intnum
open Verif.Expr
open Verif.Value
open Verif.Ea
open Verif.Insn

/-! ### The beginning -/

/-- What the form and the name give. -/
def base (x : IdInsn) (f : Form) : Build := forceRex (modifyAll (start x f) f.modifiers x.modData)

/-- What modifiers do not change. -/
structure Began (x : IdInsn) (b : Build) : Prop where
  mode : b.common.mode = x.mode
  addrsize : b.common.addrsize = 0
  locks : b.common.lockrep = 0 ∧ b.common.acqrel = 0
  rex : b.rex = 0
  ea : b.ea = none
  seg : b.seg = 0
  imSign : b.imSign = false
  vexreg : b.vexreg = 0
  postop : b.postop = .none
  late : b.late = .none

theorem start_began (x : IdInsn) (f : Form) : Began x (start x f) :=
  ⟨rfl, rfl, ⟨rfl, rfl⟩, rfl, rfl, rfl, rfl, rfl, rfl, rfl⟩

theorem modify_began {x : IdInsn} {b : Build} (h : Began x b) (m : Modifier) (v : Byte) :
    Began x (modify b m v) ∧ (m ≠ .imm8 → (modify b m v).imm = b.imm) ∧ (modify b m v).opcode.len = b.opcode.len := by
  cases m <;> exact ⟨⟨h.mode, h.addrsize, h.locks, h.rex, h.ea, h.seg, h.imSign, h.vexreg, h.postop, h.late⟩, fun h => (by first | rfl | exact absurd rfl h), rfl⟩

theorem modifyAll_began {x : IdInsn} : ∀ (ms : List Modifier) (vs : List Byte) {b : Build}, Began x b →
    Began x (modifyAll b ms vs) ∧ (.imm8 ∉ ms → (modifyAll b ms vs).imm = b.imm) ∧ (modifyAll b ms vs).opcode.len = b.opcode.len := by
  intro ms
  induction ms with
  | nil => intro vs b h; exact ⟨h, fun _ => rfl, rfl⟩
  | cons m ms ih =>
    intro vs b h
    obtain ⟨h1, h2, h3⟩ := modify_began h m (vs.headD 0)
    obtain ⟨g1, g2, g3⟩ := ih vs.tail h1
    unfold modifyAll
    refine ⟨g1, fun hn => ?_, g3.trans h3⟩
    simp only [List.mem_cons, not_or] at hn
    exact (g2 hn.2).trans (h2 (fun e => hn.1 e.symm))

/-- REX.W. -/
def wide (x : IdInsn) (f : Form) : Bool :=
  decide (x.mode = 64 ∧ (modifyAll (start x f) f.modifiers x.modData).common.opersize = 64 ∧
    (modifyAll (start x f) f.modifiers x.modData).def64 ≠ 64)

theorem base_rex (x : IdInsn) (f : Form) :
    (base x f).rex = (if wide x f = true then 0x48 else 0) ∧
    base x f = { modifyAll (start x f) f.modifiers x.modData with rex := (base x f).rex } := by
  have hb := (modifyAll_began (x := x) f.modifiers x.modData (start_began x f)).1
  unfold base forceRex wide
  rw [hb.mode]
  by_cases h : x.mode = 64 ∧ (modifyAll (start x f) f.modifiers x.modData).common.opersize = 64 ∧
      (modifyAll (start x f) f.modifiers x.modData).def64 ≠ 64
  · rw [decide_eq_true h, if_pos h, if_pos rfl]; exact ⟨rfl, rfl⟩
  · rw [decide_eq_false h, if_neg h, if_neg (by decide)]; exact ⟨hb.rex, rfl⟩

theorem base_began (x : IdInsn) (f : Form) : (base x f).common.mode = x.mode ∧ (base x f).ea = none ∧ (base x f).imSign = false ∧
    (base x f).late = .none ∧ (.imm8 ∉ f.modifiers → (base x f).imm = none) ∧ (base x f).opcode.len = f.opcode.len ∧
    (base x f).seg = 0 ∧ (base x f).postop = .none ∧ (base x f).common.addrsize = 0 := by
  obtain ⟨hb, h2, h3⟩ := modifyAll_began (x := x) f.modifiers x.modData (start_began x f)
  rw [(base_rex x f).2]
  exact ⟨hb.mode, hb.ea, hb.imSign, hb.late, fun hn => h2 hn, h3, hb.seg, hb.postop, hb.addrsize⟩

theorem base_open (x : IdInsn) (f : Form) : RexIn x.mode (base x f).rex ∧ Clear' x.mode 0 (base x f).rex ∧ Clear' x.mode 2 (base x f).rex := by
  rw [(base_rex x f).1]
  unfold RexIn Clear' Clear RexVal
  by_cases hm : x.mode = 64
  · rw [if_pos hm]
    cases wide x f <;> simp
  · have : wide x f = false := by
      unfold wide
      exact decide_eq_false fun h => hm h.1
    rw [if_neg hm, this]
    simp

/-! ### What the modifiers do -/

theorem getLastD_cons {α : Type} (v : α) (l : List α) (d : α) : (v :: l).getLastD d = l.getLastD v := by
  cases l <;> rfl

/-- The numbers that modifiers set, from the parameters. -/
structure Modified (b b' : Build) (ms : List Modifier) (vs : List Byte) : Prop where
  vexdata : b'.vexdata = (paramsOf .setVEX ms vs).getLastD b.vexdata
  b0 : b'.opcode.b0 = (paramsOf .op0Add ms vs).foldl (· + ·) b.opcode.b0
  b1 : b'.opcode.b1 = (paramsOf .op1Add ms vs).foldl (· + ·) b.opcode.b1 + eightfold (paramsOf .op1AddSp ms vs)
  opersize : b'.common.opersize = ((paramsOf .opSizeR ms vs).map BitVec.toNat).getLastD b.common.opersize
  def64 : b'.def64 = ((paramsOf .dOpS64R ms vs).map BitVec.toNat).getLastD b.def64
  special : b'.special = (paramsOf .preAdd ms vs).foldl (· + ·) b.special

theorem foldl_add (g : Byte → Byte) (l : List Byte) (a b : Byte) :
    l.foldl (fun s v => s + g v) (a + b) = a + l.foldl (fun s v => s + g v) b := by
  induction l generalizing b with
  | nil => rfl
  | cons v l ih => simp only [List.foldl_cons]; rw [BitVec.add_assoc, ih]

theorem eightfold_cons (v : Byte) (l : List Byte) : eightfold (v :: l) = (v <<< 3) + eightfold l := by
  unfold eightfold
  rw [List.foldl_cons, ← foldl_add (fun v => v <<< 3)]
  simp

theorem modifyAll_modified : ∀ (ms : List Modifier) (vs : List Byte) (b : Build), Modified b (modifyAll b ms vs) ms vs := by
  intro ms
  induction ms with
  | nil => intro vs b; exact ⟨rfl, rfl, by simp [modifyAll, paramsOf, eightfold], rfl, rfl, rfl⟩
  | cons m ms ih =>
    intro vs b
    have h := ih vs.tail (modify b m (vs.headD 0))
    unfold modifyAll
    cases m <;> refine ⟨?_, ?_, ?_, ?_, ?_, ?_⟩ <;>
      simp only [paramsOf, reduceCtorEq, if_true, if_false, List.nil_append, List.singleton_append, List.map_cons, getLastD_cons, List.foldl_cons] <;>
      first
        | exact h.vexdata
        | exact h.b0
        | exact h.b1
        | exact h.opersize
        | exact h.def64
        | exact h.special
        | skip
    · rw [h.b1]
      simp only [modify]
      rw [eightfold_cons, BitVec.add_comm b.opcode.b1, foldl_add (fun v => v), ← BitVec.add_assoc]
      congr 1
      exact BitVec.add_comm _ _

/-! ### The end -/

/-- Prefixes that do not set REX leave it alone. -/
theorem applyPrefixes_rex {d : Nat} : ∀ (ps : List Prefix) (c : Common) (r : Option Byte), LeavesRex ps →
    (applyPrefixes d c r ps).2 = r ∧ (applyPrefixes d c r ps).1.mode = c.mode := by
  intro ps
  induction ps with
  | nil => intro c r _; exact ⟨rfl, rfl⟩
  | cons p ps ih =>
    intro c r h
    have hp := h p (by simp)
    have ht : LeavesRex ps := fun q hq => h q (by simp [hq])
    have key : (applyPrefix d (c, r) p).2 = r ∧ (applyPrefix d (c, r) p).1.mode = c.mode := by
      cases p with
      | lockrep v => exact ⟨rfl, rfl⟩
      | addrsize n => exact ⟨rfl, rfl⟩
      | opersize n =>
        unfold applyPrefix
        dsimp only
        rw [if_neg (fun hc => hp hc.2.1)]
        exact ⟨rfl, rfl⟩
      | segreg v => exact ⟨rfl, rfl⟩
      | rex v => exact absurd hp id
      | acqrel v => exact ⟨rfl, rfl⟩
    unfold applyPrefixes
    rw [List.foldl_cons]
    have := ih (applyPrefix d (c, r) p).1 (applyPrefix d (c, r) p).2 ht
    unfold applyPrefixes at this
    rw [key.1, key.2] at this
    have e : applyPrefix d (c, r) p = ((applyPrefix d (c, r) p).1, r) := Prod.ext rfl key.1
    rw [e]
    exact this

/-- What becomes of the operands placed, if no other form is to be tried. -/
structure Finished (y : Syms) (x : IdInsn) (b : Build) (i : Insn) : Prop where
  rex : i.rex = (applyPrefixes b.def64 b.common (some b.rex) x.prefixes).2.getD 0
  common : i.common = if b.postop = .address16 then { (applyPrefixes b.def64 b.common (some b.rex) x.prefixes).1 with addrsize := 0 }
    else (applyPrefixes b.def64 b.common (some b.rex) x.prefixes).1
  postop : i.postop = b.postop
  ea : ∀ ea, b.ea = some ea → ∃ v, (finalizeOpt y ea.size ea.disp).out = .ok v ∧
    i.ea = some { ea with disp := v, modrm := (ea.modrm &&& 0xC7#8) ||| ((b.spare <<< 3) &&& 0x38#8) } ∧ i.seg = x.segregs.getLastD b.seg
  noEa : b.ea = none → i.ea = none ∧ i.seg = b.seg
  imm : ∀ e, b.imm = some e → ∃ v, (finalize y b.imLen e).out = .ok v ∧ i.imm = some ⟨v, b.imLen, b.imSign, false⟩
  noImm : b.imm = none → i.imm = none
  plain : b.vexdata = 0#8 → i.opcode = b.opcode ∧ (b.ea.isSome = true ∨ x.segregs = [] → i.special = b.special)
  vex : b.vexdata ≠ 0#8 → ∃ sp, vexOpcode b.vexdata b.vexreg sp b.opcode = .ok (i.special, i.opcode) ∧
    (b.ea.isSome = true ∨ x.segregs = [] → sp = b.special)
  eaLog : ∀ ea, b.ea = some ea → ∀ k ∈ (finalizeOpt y ea.size ea.disp).log, k ∈ (finishInsn y x b).log
  immLog : ∀ e, b.imm = some e → ∀ k ∈ (finalize y b.imLen e).log, k ∈ (finishInsn y x b).log

theorem finishEa_log {y : Syms} {x : IdInsn} {b c : Build} (h : (finishEa y x b).out = .ok c) :
    ∀ ea, b.ea = some ea → ∀ k ∈ (finalizeOpt y ea.size ea.disp).log, k ∈ (finishEa y x b).log := by
  intro ea hea k hk
  unfold finishEa at h ⊢
  rw [hea] at h ⊢
  dsimp only at h ⊢
  obtain ⟨ea2, h1, h2, h3⟩ := Run.bind_out h
  rw [h3]
  refine List.mem_append_left _ ?_
  unfold eaInit at h1 ⊢
  obtain ⟨v, g1, g2, g3⟩ := Run.bind_out h1
  rw [g3]
  exact List.mem_append_left _ hk

theorem finishImm_log {y : Syms} {b : Build} {r : Option Field} (h : (finishImm y b).out = .ok r) :
    ∀ e, b.imm = some e → ∀ k ∈ (finalize y b.imLen e).log, k ∈ (finishImm y b).log := by
  intro e he k hk
  unfold finishImm at h ⊢
  rw [he] at h ⊢
  dsimp only at h ⊢
  obtain ⟨v, g1, g2, g3⟩ := Run.bind_out h
  rw [g3]
  exact List.mem_append_left _ hk

theorem finishEa_out {y : Syms} {x : IdInsn} {b c : Build} (h : (finishEa y x b).out = .ok c) :
    (∀ ea, b.ea = some ea → ∃ v, (finalizeOpt y ea.size ea.disp).out = .ok v ∧
      c = { b with
        ea := some { ea with disp := v, modrm := (ea.modrm &&& 0xC7#8) ||| ((b.spare <<< 3) &&& 0x38#8) },
        seg := x.segregs.getLastD b.seg }) ∧
    (b.ea = none → ∃ sp, c = { b with special := sp } ∧ (x.segregs = [] → sp = b.special)) := by
  unfold finishEa at h
  cases hea : b.ea with
  | none =>
    rw [hea] at h
    dsimp only at h
    refine ⟨fun ea he => (by cases he), fun _ => ?_⟩
    cases hs : x.segregs.getLast? with
    | none =>
      rw [hs] at h
      cases h
      exact ⟨b.special, by rw [← hea], fun _ => rfl⟩
    | some s =>
      rw [hs] at h
      dsimp only at h
      split at h
      · cases h
        refine ⟨_, by rw [← hea], fun he => ?_⟩
        rw [he] at hs
        simp at hs
      · cases h
  | some ea =>
    rw [hea] at h
    dsimp only at h
    refine ⟨fun ea' he => ?_, fun h => (by cases h)⟩
    cases he
    obtain ⟨ea2, h1, h2, _⟩ := Run.bind_out h
    unfold eaInit at h1
    obtain ⟨v, h3, h4, _⟩ := Run.bind_out h1
    cases h4
    cases h2
    exact ⟨v, h3, rfl⟩

theorem finishImm_out {y : Syms} {b : Build} {r : Option Field} (h : (finishImm y b).out = .ok r) :
    (∀ e, b.imm = some e → ∃ v, (finalize y b.imLen e).out = .ok v ∧ r = some ⟨v, b.imLen, b.imSign, false⟩) ∧ (b.imm = none → r = none) := by
  unfold finishImm at h
  cases hi : b.imm with
  | none =>
    rw [hi] at h
    cases h
    exact ⟨fun e he => (by cases he), fun _ => rfl⟩
  | some e =>
    rw [hi] at h
    dsimp only at h
    obtain ⟨v, h1, h2, _⟩ := Run.bind_out h
    cases h2
    exact ⟨fun e' he => (by cases he; exact ⟨v, h1, rfl⟩), fun h => (by cases h)⟩

theorem finishVex_out {vd vr : Byte} {i j : Insn} (h : finishVex vd vr i = .ok j) :
    j.rex = i.rex ∧ j.common = i.common ∧ j.postop = i.postop ∧ j.ea = i.ea ∧ j.seg = i.seg ∧ j.imm = i.imm ∧
    (vd = 0#8 → j.opcode = i.opcode ∧ j.special = i.special) ∧ (vd ≠ 0#8 → vexOpcode vd vr i.special i.opcode = .ok (j.special, j.opcode)) := by
  unfold finishVex at h
  split at h
  · next h0 =>
    cases h
    exact ⟨rfl, rfl, rfl, rfl, rfl, rfl, fun _ => ⟨rfl, rfl⟩, fun hn => absurd h0 hn⟩
  · next h0 =>
    split at h
    · cases h
    · next sp op hv =>
      cases h
      exact ⟨rfl, rfl, rfl, rfl, rfl, rfl, fun h => absurd h h0, fun _ => hv⟩

theorem finishInsn_out {y : Syms} {x : IdInsn} {b : Build} {i : Insn} (hl : b.late = .none) (h : (finishInsn y x b).out = .ok i) :
    Finished y x b i := by
  have hlog : (finishInsn y x b).log = (Run.bind (finishEa y x b) fun b =>
    Run.bind (finishImm y b) fun imm =>
    Run.bind (finishLate y.ctx y.nequ x b.late (prefixed x b imm)) fun i =>
    .of (finishVex b.vexdata b.vexreg i)).log := rfl
  unfold finishInsn at h
  obtain ⟨c, h1, h, l1⟩ := Run.bind_out h
  obtain ⟨imm, h2, h, l2⟩ := Run.bind_out h
  obtain ⟨j, h3, h4, l3⟩ := Run.bind_out h
  rw [l1, l2] at hlog
  obtain ⟨g1, g2⟩ := finishEa_out h1
  obtain ⟨m1, m2⟩ := finishImm_out h2
  have hc : c.late = .none ∧ c.rex = b.rex ∧ c.common = b.common ∧ c.def64 = b.def64 ∧ c.postop = b.postop ∧ c.opcode = b.opcode ∧
      c.imm = b.imm ∧ c.imLen = b.imLen ∧ c.imSign = b.imSign ∧ c.vexdata = b.vexdata ∧ c.vexreg = b.vexreg ∧
      (b.ea.isSome = true ∨ x.segregs = [] → c.special = b.special) := by
    cases hea : b.ea with
    | none =>
      obtain ⟨sp, e, e2⟩ := g2 hea
      subst e
      exact ⟨hl, rfl, rfl, rfl, rfl, rfl, rfl, rfl, rfl, rfl, rfl, fun h => e2 (by rcases h with h | h; · cases h
                                                                                   · exact h)⟩
    | some ea =>
      obtain ⟨v, _, e⟩ := g1 ea hea
      subst e
      exact ⟨hl, rfl, rfl, rfl, rfl, rfl, rfl, rfl, rfl, rfl, rfl, fun _ => rfl⟩
  obtain ⟨c1, c2, c3, c4, c5, c6, c7, c8, c9, c10, c11, c12⟩ := hc
  unfold finishLate at h3
  rw [c1] at h3
  cases h3
  obtain ⟨f1, f2, f3, f4, f5, f6, f7, f8⟩ := finishVex_out h4
  refine
    { rex := ?_, common := ?_, postop := ?_, ea := ?_, noEa := ?_, imm := ?_, noImm := ?_, plain := ?_, vex := ?_, eaLog := ?_, immLog := ?_ }
  · rw [f1]; simp only [prefixed]; rw [c2, c3, c4]
  · rw [f2]; simp only [prefixed]; rw [c2, c3, c4, c5]
  · rw [f3]; simp only [prefixed]; rw [c5]
  · intro ea hea
    obtain ⟨v, v1, e⟩ := g1 ea hea
    refine ⟨v, v1, ?_, ?_⟩
    · rw [f4]; simp only [prefixed]; rw [e]
    · rw [f5]; simp only [prefixed]; rw [e]
  · intro hea
    obtain ⟨sp, e, _⟩ := g2 hea
    rw [f4, f5]; simp only [prefixed]; rw [e]
    exact ⟨hea, rfl⟩
  · intro e he
    obtain ⟨v, v1, v2⟩ := m1 e (by rw [c7]; exact he)
    rw [c8] at v1
    rw [c8, c9] at v2
    exact ⟨v, v1, by rw [f6]; exact v2⟩
  · intro he
    rw [f6]
    exact m2 (by rw [c7]; exact he)
  · intro h0
    obtain ⟨k1, k2⟩ := f7 (by rw [c10]; exact h0)
    refine ⟨by rw [k1]; exact c6, fun h => by rw [k2]; exact c12 h⟩
  · intro h0
    have := f8 (by rw [c10]; exact h0)
    rw [c10, c11] at this
    exact ⟨c.special, by rw [← c6]; exact this, fun h => c12 h⟩
  · intro ea hea k hk
    rw [hlog]
    exact List.mem_append_left _ (finishEa_log h1 ea hea k hk)
  · intro e he k hk
    rw [hlog]
    refine List.mem_append_right _ (List.mem_append_left _ (finishImm_log h2 e (by rw [c7]; exact he) k ?_))
    rw [c8]; exact hk

/-- The operands ask for no other form. -/
theorem placeAll_late {x : IdInsn} {gs : List OpInfo} {ops : List Operand} {b b' : Build}
    (hs : (gs.all fun g => decide (g.post ≠ .shortMov ∧ g.post ≠ .simm32Avail)) = true) (h : (placeAll x gs ops b).out = .ok b') :
    b'.late = b.late ∧ b'.common.mode = b.common.mode ∧ b'.vexdata = b.vexdata ∧ b'.special = b.special ∧ b'.def64 = b.def64 := by
  refine placeAll_inv (P := fun c => c.late = b.late ∧ c.common.mode = b.common.mode ∧ c.vexdata = b.vexdata ∧ c.special = b.special ∧
    c.def64 = b.def64) (W := fun g _ => g.post ≠ .shortMov ∧ g.post ≠ .simm32Avail) ?_ gs ops b b' ?_ h ⟨rfl, rfl, rfl, rfl, rfl⟩
  · rintro g op b b' ⟨w1, w2⟩ hs ⟨p1, p2, p3, p4, p5⟩
    have s := step_same hs
    exact ⟨(s.late w1 w2).trans p1, s.mode.trans p2, s.vexdata.trans p3, s.special.trans p4, s.def64.trans p5⟩
  · intro g op hg
    rw [List.all_eq_true] at hs
    simpa using hs g (List.of_mem_zip hg).1

/-- The two halves of an instruction being made. -/
theorem makeInsn_out {y : Syms} {x : IdInsn} {f : Form} {i : Insn} (hs : f.settled = true) (h : (makeInsn y x f).out = .ok i) :
    ∃ b, (placeAll x f.ops (useOps x f) (base x f)).out = .ok b ∧ Finished y x b i ∧ b.common.mode = x.mode ∧
      b.vexdata = (base x f).vexdata ∧ b.special = (base x f).special ∧ b.def64 = (base x f).def64 ∧
      ∀ k ∈ (finishInsn y x b).log, k ∈ (makeInsn y x f).log := by
  have hlog : (makeInsn y x f).log = (Run.bind (placeAll x f.ops (useOps x f) (base x f)) fun b => finishInsn y x b).log := rfl
  unfold makeInsn at h
  obtain ⟨b, h1, h2, h3⟩ := Run.bind_out h
  rw [show (Run.bind (placeAll x f.ops (useOps x f) (base x f)) fun b => finishInsn y x b).log = _ from h3] at hlog
  obtain ⟨l, m, v, s, d⟩ := placeAll_late hs h1
  have hb := base_began x f
  exact ⟨b, h1, finishInsn_out (by rw [l]; exact hb.2.2.2.1) h2, by rw [m]; exact hb.1, v, s, d,
    fun k hk => by rw [hlog]; exact List.mem_append_right _ hk⟩

end Verif.Match
