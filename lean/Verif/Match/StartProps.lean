/-
C73: every line that is accepted is output as long as it was counted.
-/
import Verif.Match.Starts
import Verif.Insn.Props

namespace Verif.Match

open Verif.Intnum
open Verif.Expr
open Verif.Value
open Verif.Ea
open Verif.Insn
open Verif.Insn.Props

/-! ### From the operands as written to those that are matched -/

/-- Two operands of the same kind. -/
def SameKind (p q : Operand) : Prop :=
  match p.data with
  | .mem m => (∃ m', q.data = .mem m' ∧ m'.seg = m.seg) ∨ ∃ e, q.data = .imm e
  | _ => ∀ m, q.data ≠ .mem m

theorem prepare_kind {y : Syms} {p q : Operand} (h : (prepare y p).out = .ok q) :
    SameKind p q ∧ ∀ m, p.data = .mem m → ∃ m', q.data = .mem m' ∧ m'.seg = m.seg := by
  unfold prepare at h
  unfold SameKind
  cases hd : p.data with
  | mem m =>
    rw [hd] at h
    dsimp only at h
    obtain ⟨e, _, h, _⟩ := Run.bind_out h
    split at h
    · cases h
    · cases h
      exact ⟨.inl ⟨_, rfl, rfl⟩, fun m' hm => by cases hm; exact ⟨_, rfl, rfl⟩⟩
  | imm e =>
    rw [hd] at h
    dsimp only at h
    obtain ⟨e', _, h, _⟩ := Run.bind_out h
    split at h
    · cases h
    · cases h
      exact ⟨fun m hm => (by cases hm), fun m hm => (by cases hm)⟩
  | reg r =>
    rw [hd] at h
    cases h
    exact ⟨fun m hm => (by rw [hd] at hm; cases hm), fun m hm => (by cases hm)⟩
  | segreg r =>
    rw [hd] at h
    cases h
    exact ⟨fun m hm => (by rw [hd] at hm; cases hm), fun m hm => (by cases hm)⟩

theorem prepareAll_kind {y : Syms} : ∀ {ps qs : List Operand}, (prepareAll y ps).out = .ok qs →
    (∀ q ∈ qs, ∀ m, q.data = .mem m → ∃ p ∈ ps, ∃ m', p.data = .mem m' ∧ m'.seg = m.seg) ∧
    ((∃ p ∈ ps, ∃ m, p.data = .mem m) → ∃ q ∈ qs, ∃ m, q.data = .mem m) := by
  intro ps
  induction ps with
  | nil => intro qs h; unfold prepareAll at h; cases h; exact ⟨fun q hq => by simp at hq, fun ⟨p, hp, _⟩ => by simp at hp⟩
  | cons p ps ih =>
    intro qs h
    unfold prepareAll at h
    obtain ⟨q, h1, h, _⟩ := Run.bind_out h
    obtain ⟨qs', h2, h, _⟩ := Run.bind_out h
    cases h
    obtain ⟨k1, k2⟩ := prepare_kind h1
    obtain ⟨i1, i2⟩ := ih h2
    refine ⟨fun r hr m hm => ?_, fun ⟨r, hr, m, hm⟩ => ?_⟩
    · rcases List.mem_cons.1 hr with e | hr
      · subst e
        cases hp : p.data with
        | mem m' =>
          obtain ⟨m2, e1, e2⟩ := k2 m' hp
          rw [hm] at e1
          cases e1
          exact ⟨p, by simp, m', hp, e2.symm⟩
        | _ =>
          unfold SameKind at k1
          rw [hp] at k1
          exact absurd hm (k1 m)
      · obtain ⟨p', hp', m', e⟩ := i1 r hr m hm
        exact ⟨p', by simp [hp'], m', e⟩
    · rcases List.mem_cons.1 hr with e | hr
      · subst e
        obtain ⟨m', e1, _⟩ := k2 m hm
        exact ⟨q, by simp, m', e1⟩
      · obtain ⟨q', hq', m', e⟩ := i2 ⟨r, hr, m, hm⟩
        exact ⟨q', by simp [hq'], m', e⟩

theorem undoMem_kind {p : Operand} {m : MemArg} (h : (undoMem p).data = .mem m) : p.data = .mem m := by
  unfold undoMem at h
  split at h
  · split at h
    · cases h
    · exact h
  · exact h

/-- Only the operands change, and memory stays memory unless the instruction is a jump. -/
theorem ready_kind {y : Syms} {x x' : IdInsn} (h : (ready y x).out = .ok x') :
    x' = { x with ops := x'.ops } ∧ (∀ q ∈ x'.ops, ∀ m, q.data = .mem m → ∃ p ∈ x.ops, ∃ m', p.data = .mem m' ∧ m'.seg = m.seg) ∧
    (x.group.head?.bind Form.firstAction ≠ some .jmpRel → (∃ p ∈ x.ops, ∃ m, p.data = .mem m) → ∃ q ∈ x'.ops, ∃ m, q.data = .mem m) := by
  unfold ready at h
  obtain ⟨ops, h1, h, _⟩ := Run.bind_out h
  obtain ⟨k1, k2⟩ := prepareAll_kind h1
  split at h
  · cases h
  · simp only [Run.of] at h
    unfold gasJump at h
    split at h
    · next hj =>
      split at h
      · cases h
      · cases h
        refine ⟨rfl, fun q hq m hm => ?_, fun hn => absurd hj.2 hn⟩
        obtain ⟨q', hq', e⟩ := List.mem_map.1 hq
        subst e
        exact k1 q' hq' m (undoMem_kind hm)
    · cases h
      exact ⟨rfl, k1, fun _ => k2⟩

/-! ### Jumps -/

theorem scan_len (x : IdInsn) (opersize : Nat) : ∀ (fs : List Form) (s : Opcode × Opcode), (∀ f ∈ fs, f.opcode.len ≤ 3) → s.1.len ≤ 3 → s.2.len ≤ 3 →
    (scanJmp x opersize fs s).1.len ≤ 3 ∧ (scanJmp x opersize fs s).2.len ≤ 3 := by
  intro fs
  induction fs with
  | nil => intro s _ h1 h2; exact ⟨h1, h2⟩
  | cons f fs ih =>
    intro s hf h1 h2
    have ht : ∀ g ∈ fs, g.opcode.len ≤ 3 := fun g hg => hf g (by simp [hg])
    have h3 : f.opcode.len ≤ 3 := hf f (by simp)
    unfold scanJmp
    split
    · exact ⟨h1, h2⟩
    · split
      · split
        · exact ih _ ht h3 h2
        · exact ih _ ht h1 h3
        · exact ih _ ht h1 h2
      · exact ih _ ht h1 h2

theorem jmp_start {y : Syms} {absSym : Nat} {x : IdInsn} {f : Form} {j : Jmp} (hf : ∀ f ∈ x.group, f.opcode.len ≤ 3)
    (h : (makeJmp y absSym x f).out = .ok j) : StartJmp j := by
  unfold makeJmp at h
  split at h
  · cases h
  · split at h
    · cases h
    · obtain ⟨t, _, h, _⟩ := Run.bind_out h
      dsimp only at h
      obtain ⟨sel, hs, h, _⟩ := Run.bind_out h
      cases h
      obtain ⟨l1, l2⟩ := scan_len x f.opersize x.group (noOpcode, noOpcode) hf (by decide) (by decide)
      refine ⟨l1, l2, ?_⟩
      simp only [Run.of] at hs
      unfold jmpSel at hs
      (repeat' split at hs) <;> cases hs <;> simp

theorem farOpcode_len : ∀ (ms : List Modifier) (vs : List Byte) (o : Opcode), (farOpcode o ms vs).len = o.len := by
  intro ms
  induction ms with
  | nil => intro vs o; rfl
  | cons m ms ih => intro vs o; unfold farOpcode; dsimp only; rw [ih]; cases m <;> rfl

theorem far_start {y : Syms} {x : IdInsn} {f : Form} {j : Jmpfar} (hf : f.opcode.len ≤ 3) (h : (makeJmpfar y x f).out = .ok j) : j.opcode.len ≤ 3 := by
  unfold makeJmpfar at h
  obtain ⟨t, _, h, _⟩ := Run.bind_out h
  cases h
  show (farOpcode f.opcode f.modifiers x.modData).len ≤ 3
  rw [farOpcode_len]
  exact hf

/-! ### Instructions -/

theorem segmentRegs_ok : ∀ s ∈ segmentRegs, SegOk s ∧ (s >>> 8).truncate 8 ≠ (0xC5#8 : Byte) := by
  intro s hs
  simp only [segmentRegs, List.mem_cons, List.not_mem_nil, or_false] at hs
  unfold SegOk
  rcases hs with rfl | rfl | rfl | rfl | rfl | rfl <;> decide

theorem not_jump {f : Form} (h1 : f.firstAction ≠ some .jmpRel) (h2 : f.firstAction ≠ some .jmpFar) : isJump f = false := by
  unfold isJump; simp [h1, h2]

theorem mov_head : (mov_insn.filterMap RawForm.form).head?.bind Form.firstAction ≠ some .jmpRel := by decide +kernel

/-- Only registers and memory fit such an operand. -/
theorem areg_mem {c : Ctx} {nequ : Nat} {d : Bool} {g : OpInfo} {op : Operand} {m : MemArg} (h : HasType c nequ d g op) (ht : g.type = .areg)
    (hm : op.data = .mem m) : False := by
  unfold HasType at h
  rw [ht] at h
  obtain ⟨r, hr, _⟩ := h
  rw [hm] at hr
  cases hr

theorem mem_type {c : Ctx} {nequ : Nat} {d : Bool} {g : OpInfo} {op : Operand} {m : MemArg} (h : HasType c nequ d g op)
    (ha : g.action = .ea → g.type ∈ memoryTypes ∨ g.type ∈ registerTypes ∨ g.type = .imm) (he : g.action = .ea) (hm : op.data = .mem m)
    (hn : g.type ∉ memoryTypes) : False := by
  unfold HasType at h
  rcases (ha he) with h1 | h1 | h1
  · exact hn h1
  · simp only [registerTypes, List.mem_cons, List.not_mem_nil, or_false] at h1
    simp only [memoryTypes, List.mem_cons, List.not_mem_nil, or_false, not_or] at hn
    rcases h1 with e | e | e | e | e | e | e | e | e | e | e | e | e <;> rw [e] at h hn <;> dsimp only at h <;>
      first
        | (obtain ⟨r, hr, _⟩ := h; rw [hm] at hr; cases hr; done)
        | (simp at hn)
  · rw [h1] at h
    obtain ⟨e, he⟩ := h
    rw [hm] at he
    cases he

/-- Nothing that takes registers or memory takes a number. -/
theorem imm_type {c : Ctx} {nequ : Nat} {d : Bool} {g : OpInfo} {op : Operand} {e : Node} (h : HasType c nequ d g op)
    (ha : g.type ∈ memoryTypes ∨ g.type ∈ registerTypes) (he : op.data = .imm e) : False := by
  unfold HasType at h
  rcases ha with h1 | h1
  · simp only [memoryTypes, List.mem_cons, List.not_mem_nil, or_false] at h1
    rcases h1 with q | q | q | q | q | q <;> rw [q] at h <;> dsimp only at h <;> simp [IsReg, IsMem, he] at h
  · simp only [registerTypes, List.mem_cons, List.not_mem_nil, or_false] at h1
    rcases h1 with q | q | q | q | q | q | q | q | q | q | q | q | q <;> rw [q] at h <;> dsimp only at h <;> simp [IsReg, IsMem, he] at h

theorem made_start {n : RawInsn} {x : IdInsn} {f : Form} {y : Syms} {c : Ctx} {nequ : Nat} {i : Insn} (hs : startSound x.modData f = true)
    (hv : movSound n f = true) (hw : narrowSound f = true) (hj : isJump f = false) (hf : Fits .nothing c nequ x f)
    (mode : x.mode = 16 ∨ x.mode = 32 ∨ x.mode = 64) (segs : ∀ s ∈ x.segregs, s ∈ segmentRegs)
    (mems : ∀ op ∈ x.ops, ∀ m, op.data = .mem m → SegOk m.seg) (ps : ∀ p ∈ x.prefixes, Proper x.mode p)
    (plain : n.group = 8 → x.mode = 64 → Prefix.addrsize 32 ∈ x.prefixes → ∃ op ∈ x.ops, ∃ m, op.data = .mem m)
    (h : (makeInsn y x f).out = .ok i) : Start i := by
  unfold makeInsn at h
  obtain ⟨b, h1, h2, _⟩ := Run.bind_out h
  change (placeAll x f.ops (inOrder x f) (base x f)).out = .ok b at h1
  have inops : ∀ op ∈ inOrder x f, op ∈ x.ops := by
    intro op ho
    unfold inOrder at ho
    split at ho
    · exact List.mem_reverse.1 ho
    · exact ho
  have zipped : ∀ g op, (g, op) ∈ f.ops.zip (inOrder x f) → ∃ k : Nat, f.ops[k]? = some g ∧ (inOrder x f)[k]? = some op := by
    intro g op hz
    obtain ⟨k, hk⟩ := List.mem_iff_getElem?.1 hz
    obtain ⟨h1, h2⟩ := List.getElem?_zip_eq_some.1 hk
    exact ⟨k, h1, h2⟩
  have typed : ∀ g op, (g, op) ∈ f.ops.zip (inOrder x f) → HasType c nequ x.defaultRel g op := by
    intro g op hz
    obtain ⟨k, h1, h2⟩ := zipped g op hz
    exact (hf.operands k g op h1 h2).type
  have r : Ready x f b := placeAll_inv (P := Ready x f) (W := fun g op => g ∈ f.ops ∧ ∀ m, op.data = .mem m → SegOk m.seg)
    (fun g op b b' w h r => step_ready w.1 w.2 h r) f.ops (inOrder x f) (base x f) b
    (fun g op hz => ⟨(List.of_mem_zip hz).1, mems op (inops op (List.of_mem_zip hz).2)⟩) h1 (base_ready x f hs hj)
  have sizes : ∀ s, narrowSize s = true → sizeVal x.mode s ≤ 64 := by
    intro s hs
    cases s <;> first | (cases hs; done) | (unfold sizeVal; dsimp only; omega)
  have narrow : ∀ g ∈ f.ops, g.action = .imm ∨ g.action = .simm ∨ g.action = .ea ∧ g.type = .imm → sizeVal x.mode g.size ≤ 64 := by
    intro g hg ha
    have := List.all_eq_true.1 hw g hg
    simp only [Bool.or_eq_true, Bool.not_eq_true', Bool.or_eq_false_iff, Bool.and_eq_false_iff, decide_eq_false_iff_not] at this
    rcases this with ⟨⟨h1, h2⟩, h3⟩ | h
    · rcases ha with h | h | h
      · exact absurd h h1
      · exact absurd h h2
      · rcases h3 with h3 | h3
        · exact absurd h.1 h3
        · exact absurd h.2 h3
    · exact sizes _ h
  have imLen : b.imLen ≤ 64 := placeAll_inv (P := fun b => b.imLen ≤ 64) (W := fun g _ => g ∈ f.ops)
    (fun g op b b' w h r => step_imLen (fun ha => narrow g w (by rcases ha with h | h <;> simp [h])) h r) f.ops (inOrder x f) (base x f) b
    (fun g op hz => (List.of_mem_zip hz).1) h1 (base_imLen x f)
  have bea : (base x f).ea = none := (base_began x f).2.1
  have hs' := hs
  unfold startSound at hs'
  rw [hj] at hs'
  simp only [Bool.false_or, Bool.and_eq_true, decide_eq_true_eq, Bool.or_eq_true, Bool.not_eq_true'] at hs'
  obtain ⟨_, ⟨⟨⟨_, _⟩, s3⟩, s4⟩, s5⟩ := hs'
  have few : ∀ g op, (g, op) ∈ f.ops.zip (inOrder x f) → FewBits x g op := by
    intro g op hz ha e he
    have hg := (List.of_mem_zip hz).1
    have := List.all_eq_true.1 s5 g hg
    simp only [decide_eq_true_eq] at this
    refine narrow g hg (.inr (.inr ⟨ha, ?_⟩))
    by_contra hn
    exact imm_type (typed g op hz) ((this ha).imp_right fun h => h.resolve_right hn) he
  have kind : ∀ ea, b.ea = some ea → Kind ea := by
    unfold eaSound at s3
    simp only [Bool.or_eq_true, decide_eq_true_eq] at s3
    rcases s3 with s3 | s3
    · exact ea_once f.ops (inOrder x f) (base x f) b few s3 (.inl bea) h1 (by rw [bea]; intro _ h; cases h)
    · refine fun ea h => (ea_direct few ?_ h1 (by rw [bea]; intro _ h; cases h) ea h).kind
      intro g op hz ha m hm
      have hg := (List.of_mem_zip hz).1
      have := List.all_eq_true.1 s5 g hg
      have hn := List.all_eq_true.1 s3 g hg
      simp only [decide_eq_true_eq, Bool.not_eq_true', List.contains_eq_mem, decide_eq_false_iff_not] at this hn
      exact mem_type (typed g op hz) this ha hm hn
  have movs : b.late = .shortMov → b.common.addrsize = 0 ∧
      (x.mode = 64 → Prefix.addrsize 32 ∈ x.prefixes → ∀ ea, b.ea = some ea → ea.needDisp = true) := by
    intro hl
    have hany : (f.ops.any fun g => decide (g.post = .shortMov)) = true := by
      rcases r.late with h | ⟨g, hg, h⟩
      · rw [hl] at h; cases h
      · exact List.any_eq_true.2 ⟨g, hg, decide_eq_true (h.trans hl)⟩
    unfold movSound at hv
    rw [hany] at hv
    simp only [Bool.not_true, Bool.false_or, Bool.and_eq_true, decide_eq_true_eq] at hv
    obtain ⟨hgrp, hp⟩ := hv
    unfold movPair at hp
    simp only [Bool.and_eq_true, decide_eq_true_eq] at hp
    have each : ∀ g ∈ f.ops, (g.action = .ea ∧ g.type = .rm) ∨ (g.action = .spare ∧ g.type = .areg) := by
      intro g hg
      have := List.all_eq_true.1 hp.2 g hg
      simpa only [Bool.or_eq_true, decide_eq_true_eq] using this
    refine ⟨r.noAddr fun g hg => ?_, fun h64 hpre => ?_⟩
    · rcases each g hg with h | h <;> rw [h.1] <;> decide
    · obtain ⟨op, ho, m, hm⟩ := plain hgrp h64 hpre
      have hmem : op ∈ inOrder x f := by
        unfold inOrder
        split
        · exact List.mem_reverse.2 ho
        · exact ho
      obtain ⟨k, hk⟩ := List.mem_iff_getElem?.1 hmem
      have hlen : k < f.ops.length := by
        have := (List.getElem?_eq_some_iff.1 hk).1
        rw [order_length, hf.count] at this
        exact this
      have hgk : f.ops[k]? = some f.ops[k] := List.getElem?_eq_getElem hlen
      have hty := (hf.operands k f.ops[k] op hgk hk).type
      have hea : f.ops[k].action = .ea := by
        rcases each f.ops[k] (List.getElem_mem hlen) with h | h
        · exact h.1
        · exact (areg_mem hty h.2 hm).elim
      have only := only_of_count hp.1 hgk (by rw [hea]; rfl)
      refine ea_disp few (fun g op' hz hw => ?_) h1 (by rw [bea]; intro _ h; cases h)
      obtain ⟨k', e1, e2⟩ := zipped g op' hz
      by_cases he : k' = k
      · subst he
        rw [hk] at e2
        cases e2
        exact ⟨m, hm⟩
      · have := only k' g he e1
        simp only at this
        rw [this] at hw
        cases hw
  have simm : b.late = .simm32Avail → b.ea = none := by
    intro hl
    have hany : (f.ops.any fun g => decide (g.post = .simm32Avail)) = true := by
      rcases r.late with h | ⟨g, hg, h⟩
      · rw [hl] at h; cases h
      · exact List.any_eq_true.2 ⟨g, hg, decide_eq_true (h.trans hl)⟩
    rcases s4 with h | h
    · rw [hany] at h; cases h
    · rw [ea_never (fun g hg => by simpa using List.all_eq_true.1 h g hg) h1]
      exact bea
  exact finish_start r hs hj mode kind (fun s h => segmentRegs_ok s (segs s h)) ps movs simm imLen h2

/-! ### C73 -/

/-- C73: what is made of a line that is accepted is something the computation of lengths can start from. -/
theorem line_starts {n : RawInsn} {a : Setting} {x : IdInsn} (line : Line n a x) (odd : ¬ OddMov n a x) {y : Syms} {absSym : Nat} {r : Made}
    (ok : (idFinalize y absSym x).out = .ok r) :
    match r with
    | .insn i => Start i
    | .jmp j => StartJmp j
    | .jmpfar j => j.opcode.len ≤ 3 := by
  obtain ⟨k, hk, hx⟩ := line.started
  unfold idFinalize at ok
  obtain ⟨x', h1, ok, _⟩ := Run.bind_out ok
  obtain ⟨fo, h2, ok, _⟩ := Run.bind_out ok
  obtain ⟨e, mem, back⟩ := ready_kind h1
  have hx' : StartedBy k a x' := by
    rw [e, hx]
    rfl
  have hmode : x'.mode = a.mode := by rw [hx']; rfl
  have hpre : x'.prefixes = x.prefixes := by rw [e]
  have hseg : x'.segregs = x.segregs := by rw [e]
  have hgrp : x'.group = x.group := by rw [e]
  cases fo with
  | none => cases ok
  | some f =>
    dsimp only at ok
    obtain ⟨bf, bh, hsplit, fits, _⟩ := first_fitting_form h2
    have hmem : f ∈ x'.group := by rw [hsplit]; simp
    have snd : ∀ g ∈ x'.group, startSound x'.modData g = true ∧ movSound n g = true ∧ narrowSound g = true := fun g hg => group_start line.name hk hx' hg
    have len : ∀ g ∈ x'.group, g.opcode.len ≤ 3 := by
      intro g hg
      have := (snd g hg).1
      unfold startSound at this
      simp only [Bool.and_eq_true, decide_eq_true_eq] at this
      exact this.1
    unfold make at ok
    split at ok
    · obtain ⟨j, h3, ok, _⟩ := Run.bind_out ok
      cases ok
      exact jmp_start len h3
    · obtain ⟨j, h3, ok, _⟩ := Run.bind_out ok
      cases ok
      exact far_start (len f hmem) h3
    · next n1 n2 =>
      obtain ⟨i, h3, ok, _⟩ := Run.bind_out ok
      cases ok
      refine made_start (n := n) (snd f hmem).1 (snd f hmem).2.1 (snd f hmem).2.2 (not_jump n1 n2) fits (by rw [hmode]; exact line.mode)
        (by rw [hseg]; exact line.overrides) ?_ (by rw [hpre, hmode]; exact line.prefixes) ?_ h3
      · intro op ho m hm
        obtain ⟨p, hp, m', e1, e2⟩ := mem op ho m hm
        rw [← e2]
        rcases line.memory p hp m' e1 with h | h
        · exact .inl h
        · exact (segmentRegs_ok _ h).1
      · intro hg h64 hp
        rw [hpre] at hp
        rw [hmode] at h64
        have hgr : groups.getD n.group [] = mov_insn := by rw [hg]; rfl
        have hxg : x.group = mov_insn.filterMap RawForm.form := by
          rw [hx, ← hgr, ← (keyword_of hk).1]; rfl
        refine back (by rw [hxg]; exact mov_head) ?_
        by_contra hc
        exact odd ⟨hgr, h64, hp, fun op ho m hm => hc ⟨op, ho, m, hm⟩⟩

/-- C73: an instruction that is accepted is output as long as it was counted, however often it was widened: not a byte more or less, and
    without an internal error. -/
theorem line_length_partial {n : RawInsn} {a : Setting} {x : IdInsn} (line : Line n a x) (odd : ¬ OddMov n a x) {y : Syms} {absSym : Nat} {i : Insn}
    (ok : (idFinalize y absSym x).out = .ok (.insn i)) {j : Insn} {len : Nat} (life : Life y.ctx y.nequ absSym i j len)
    (out : OutputValue) (contract : Contract out) (safe : NoInternal out) (times pos : Nat) :
    (copies (fun i pos => insnBytes out i len pos) len times pos j).out ≠ .error .internal ∧
    (∀ r, (copies (fun i pos => insnBytes out i len pos) len times pos j).out = .ok r → r.bytes.length = times * len) ∧
    ∀ span, expand j len span ≠ .error .internal :=
  have start : Start i := line_starts line odd ok
  ⟨(insn_length _ _ _ i j len start life out contract safe times pos).1,
    (insn_length _ _ _ i j len start life out contract safe times pos).2, insn_widen_safe _ _ _ i j len start life⟩

/-- C73 for relative jumps. -/
theorem line_jump_length {n : RawInsn} {a : Setting} {x : IdInsn} (line : Line n a x) (odd : ¬ OddMov n a x) {y : Syms} {absSym : Nat} {j0 : Jmp}
    (ok : (idFinalize y absSym x).out = .ok (.jmp j0)) {bc : At} {r0 : Count Jmp} (counted : jmpLen y.ctx bc j0 = .ok r0)
    {j : Jmp} {len : Nat} (done : (j = r0.insn ∧ len = r0.len) ∨ ∃ s ∈ r0.spans, jmpExpand r0.insn r0.len s.id = .ok (j, len))
    (out : OutputValue) (contract : Contract out) (safe : NoInternal out) (times pos : Nat) :
    (copies (fun j pos => jmpBytes out j len pos) len times pos j).out ≠ .error .internal ∧
    (∀ r, (copies (fun j pos => jmpBytes out j len pos) len times pos j).out = .ok r → r.bytes.length = times * len) := by
  have start : StartJmp j0 := line_starts line odd ok
  have first : LifeJmp y.ctx bc r0.insn r0.len r0.spans := .count start counted
  rcases done with ⟨e1, e2⟩ | ⟨s, hs, h⟩
  · subst e1; subst e2
    exact jmp_length _ _ _ _ _ first out contract safe times pos
  · exact jmp_length _ _ _ _ _ (.widen s first hs h) out contract safe times pos

/-- C73 for far jumps. -/
theorem line_far_length {n : RawInsn} {a : Setting} {x : IdInsn} (line : Line n a x) (odd : ¬ OddMov n a x) {y : Syms} {absSym : Nat} {j : Jmpfar}
    (ok : (idFinalize y absSym x).out = .ok (.jmpfar j)) (out : OutputValue) (contract : Contract out) (safe : NoInternal out) (times pos : Nat) :
    (copies (fun j pos => jmpfarBytes out j pos) (jmpfarLen j) times pos j).out ≠ .error .internal ∧
    ∀ r, (copies (fun j pos => jmpfarBytes out j pos) (jmpfarLen j) times pos j).out = .ok r → r.bytes.length = times * jmpfarLen j :=
  far_length j (line_starts line odd ok) out contract safe times pos

/-! ### Cases -/

/-- What is counted for an instruction, and the bytes that are written. -/
def assembled (x : IdInsn) : Option (Nat × List Byte) :=
  match (idFinalize noY 9 x).out with
  | .ok (.insn i) =>
    match (calcLen noSyms 1 9 i).out with
    | .ok r =>
      match (insnBytes (basic noSyms 1 ⟨0, 0⟩) r.insn r.len 0).out with
      | .ok e => some (r.len, e.bytes)
      | .error _ => none
    | .error _ => none
  | _ => none

/-- The instruction a name of NASM starts, with operands and prefixes. -/
def writtenAfter (n : RawInsn) (mode : Nat) (ps : List Prefix) (ops : List Operand) : Option IdInsn :=
  (written n mode ops).map fun x => { x with prefixes := ps }

theorem writtenAfter_line {n : RawInsn} (hn : n ∈ names) {mode : Nat} (hm : mode = 16 ∨ mode = 32 ∨ mode = 64) {ps : List Prefix}
    (hp : ∀ p ∈ ps, Proper mode p) {ops : List Operand} (ho : ∀ op ∈ ops, ∀ m, op.data = .mem m → m.seg = 0) {x : IdInsn}
    (h : writtenAfter n mode ps ops = some x) : Line n (plainly mode) x := by
  unfold writtenAfter at h
  cases hw : written n mode ops with
  | none => rw [hw] at h; cases h
  | some x' =>
    rw [hw] at h
    injection h with h
    obtain ⟨k, hk, hx⟩ := written_started hw
    have e : x'.ops = ops ∧ x'.segregs = [] := by
      unfold written at hw
      split at hw
      · cases hw
      · injection hw with hw
        subst hw
        exact ⟨rfl, rfl⟩
    subst h
    refine ⟨hn, ⟨k, hk, ?_⟩, hm, hp, ?_, ?_⟩
    · rw [hx]; rfl
    · intro s hs
      rw [show ({ x' with prefixes := ps } : IdInsn).segregs = [] from e.2] at hs
      cases hs
    · intro op hop m hmem
      rw [show ({ x' with prefixes := ps } : IdInsn).ops = ops from e.1] at hop
      exact .inl (ho op hop m hmem)

theorem a32_proper : Proper 64 (.addrsize 32) := ⟨_, List.mem_of_getElem? (i := 13) rfl, rfl⟩

set_option maxRecDepth 100000 in
/-- `add r9, [rbx + 5]` has four bytes, and `a32 mov [5], eax` six, as counted; both are lines that are not the odd one. -/
example : (∃ n x, names[55]? = some n ∧ writtenAfter n 64 [] [regOp 0x59, memOp 0 ⟨.ADD, [.reg 0x53, .int (.L 5)]⟩] = some x ∧
      Line n (plainly 64) x ∧ ¬ OddMov n (plainly 64) x ∧ assembled x = some (4, [0x4C, 0x03, 0x4B, 0x05])) ∧
    (∃ n x, names[0]? = some n ∧ writtenAfter n 64 [.addrsize 32] [memOp 0 ⟨.IDENT, [.int (.L 5)]⟩, regOp 0x40] = some x ∧
      Line n (plainly 64) x ∧ ¬ OddMov n (plainly 64) x ∧ assembled x = some (6, [0x67, 0xA3, 5, 0, 0, 0])) := by
  refine ⟨⟨_, _, rfl, rfl, ?_, ?_, ?_⟩, ⟨_, _, rfl, rfl, ?_, ?_, ?_⟩⟩
  · exact writtenAfter_line (List.mem_of_getElem? (i := 55) rfl) (by decide) (by simp) (by intro op ho m hm; simp [regOp, memOp] at ho; rcases ho with rfl | rfl <;> cases hm; rfl) rfl
  · exact fun h => absurd h.2.2.1 (by simp)
  · with_unfolding_all decide +kernel
  · exact writtenAfter_line (List.mem_of_getElem? (i := 0) rfl) (by decide) (by intro p hp; simp at hp; subst hp; exact a32_proper) (by intro op ho m hm; simp [regOp, memOp] at ho; rcases ho with rfl | rfl <;> cases hm; rfl) rfl
  · exact fun h => h.2.2.2 _ (List.mem_cons_self ..) _ rfl
  · with_unfolding_all decide +kernel

set_option maxRecDepth 100000 in
/-- C73 fails for `a32 mov ebx, eax` in 64-bit mode: six bytes are counted, but only two are written ("written length does not match
    optimized length", bytecode.c:340-347). -/
theorem odd_mov_shorter : ∃ n x, names[0]? = some n ∧ writtenAfter n 64 [.addrsize 32] [regOp 0x43, regOp 0x40] = some x ∧
    Line n (plainly 64) x ∧ assembled x = some (6, [0x67, 0xA3]) := by
  refine ⟨_, _, rfl, rfl, ?_, ?_⟩
  · exact writtenAfter_line (List.mem_of_getElem? (i := 0) rfl) (by decide) (by intro p hp; simp at hp; subst hp; exact a32_proper) (by intro op ho m hm; simp [regOp] at ho; rcases ho with rfl | rfl <;> cases hm) rfl
  · with_unfolding_all decide +kernel

set_option maxRecDepth 100000 in
/-- `mov eax, [tword ebx]` is accepted by the parser (nasm-parse.c:1102-1110 takes any size word) and by the matching, but counting its
    bytes ends in an internal error ("strange EA displacement size", x86expr.c:478-480). -/
theorem strange_size_internal : ∃ n x i, names[0]? = some n ∧
    writtenAfter n 32 [] [regOp 0x40, { memOp 0 ⟨.IDENT, [.reg 0x43]⟩ with data := .mem ⟨⟨.IDENT, [.reg 0x43]⟩, 80, false, false, false, false, 0⟩ }] = some x ∧
    Line n (plainly 32) x ∧ ¬ OddMov n (plainly 32) x ∧ (idFinalize noY 9 x).out = .ok (.insn i) ∧
    (calcLen noSyms 1 9 i).out = .error .internal := by
  have key : (match (idFinalize noY 9 ((writtenAfter (names[0]'(by decide)) 32 [] [regOp 0x40, { memOp 0 ⟨.IDENT, [.reg 0x43]⟩ with data := .mem ⟨⟨.IDENT, [.reg 0x43]⟩, 80, false, false, false, false, 0⟩ }]).get (by rfl))).out with
      | .ok (.insn i) => (match (calcLen noSyms 1 9 i).out with | .error .internal => true | _ => false)
      | _ => false) = true := by with_unfolding_all decide +kernel
  revert key
  cases he : (idFinalize noY 9 ((writtenAfter (names[0]'(by decide)) 32 [] [regOp 0x40, { memOp 0 ⟨.IDENT, [.reg 0x43]⟩ with data := .mem ⟨⟨.IDENT, [.reg 0x43]⟩, 80, false, false, false, false, 0⟩ }]).get (by rfl))).out with
  | error e => intro h; cases h
  | ok m =>
    cases m with
    | insn i =>
      dsimp only
      intro h
      refine ⟨_, _, i, rfl, rfl, ?_, ?_, he, ?_⟩
      · exact writtenAfter_line (List.mem_of_getElem? (i := 0) rfl) (by decide) (by simp) (by intro op ho m hm; simp [regOp, memOp] at ho; rcases ho with rfl | rfl <;> cases hm; rfl) rfl
      · exact fun h => absurd h.2.1 (by decide)
      · revert h
        split
        · next h1 => exact fun _ => h1
        · intro h; cases h
    | jmp j => intro h; cases h
    | jmpfar j => intro h; cases h

end Verif.Match
