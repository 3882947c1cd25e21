/-
Lemmas for C69: after all operands have been placed, each one is where its action says.
-/
import Verif.Match.Place

namespace Verif.Match

open Verif.Intnum
open Verif.Expr
open Verif.Value
open Verif.Ea
open Verif.Insn

/-! ### All operands -/

theorem placeAll_inv {x : IdInsn} {P : Build → Prop} {W : OpInfo → Operand → Prop}
    (hs : ∀ g op b b', W g op → (step x g op b).out = .ok b' → P b → P b') :
    ∀ (gs : List OpInfo) (ops : List Operand) (b b' : Build), (∀ g op, (g, op) ∈ gs.zip ops → W g op) →
      (placeAll x gs ops b).out = .ok b' → P b → P b' := by
  intro gs
  induction gs with
  | nil => intro ops b b' _ h hp; unfold placeAll at h; cases h; exact hp
  | cons g gs ih =>
    intro ops b b' hw h hp
    cases ops with
    | nil => unfold placeAll at h; cases h; exact hp
    | cons op ops =>
      obtain ⟨b1, h1, h2⟩ := placeAll_cons h
      exact ih ops b1 b' (fun g op hg => hw g op (by simp [hg])) h2 (hs g op b b1 (hw g op (by simp)) h1 hp)

theorem placeAll_split {x : IdInsn} : ∀ (k : Nat) (gs : List OpInfo) (ops : List Operand) (b b' : Build) (g : OpInfo) (op : Operand),
    gs[k]? = some g → ops[k]? = some op → (placeAll x gs ops b).out = .ok b' →
    ∃ b1 b2, (placeAll x (gs.take k) (ops.take k) b).out = .ok b1 ∧ (step x g op b1).out = .ok b2 ∧
      (placeAll x (gs.drop (k + 1)) (ops.drop (k + 1)) b2).out = .ok b' := by
  intro k
  induction k with
  | zero =>
    intro gs ops b b' g op hg ho h
    cases gs with
    | nil => simp at hg
    | cons g' gs =>
      cases ops with
      | nil => simp at ho
      | cons op' ops =>
        simp only [List.getElem?_cons_zero, Option.some.injEq] at hg ho
        subst hg; subst ho
        obtain ⟨b1, h1, h2⟩ := placeAll_cons h
        exact ⟨b, b1, rfl, h1, by simpa using h2⟩
  | succ k ih =>
    intro gs ops b b' g op hg ho h
    cases gs with
    | nil => simp at hg
    | cons g' gs =>
      cases ops with
      | nil => simp at ho
      | cons op' ops =>
        simp only [List.getElem?_cons_succ] at hg ho
        obtain ⟨b0, h1, h2⟩ := placeAll_cons h
        obtain ⟨b1, b2, e1, e2, e3⟩ := ih gs ops b0 b' g op hg ho h2
        refine ⟨b1, b2, ?_, e2, by simpa using e3⟩
        simp only [List.take_succ_cons]
        unfold placeAll
        unfold step at h1
        obtain ⟨c, c1, c2, _⟩ := Run.bind_out h1
        unfold Run.bind
        rw [c1]
        dsimp only
        rw [c2]
        exact e1

/-- One operand writes a field, the others leave it alone. -/
theorem placed {x : IdInsn} {P Q : Build → Prop} (W V : OpInfo → Operand → Prop) {gs : List OpInfo} {ops : List Operand} {b b' : Build}
    {k : Nat} {g : OpInfo} {op : Operand} (hg : gs[k]? = some g) (ho : ops[k]? = some op)
    (hW : ∀ j h p, j < k → gs[j]? = some h → ops[j]? = some p → W h p) (hV : ∀ j h p, k < j → gs[j]? = some h → ops[j]? = some p → V h p)
    (keepP : ∀ g op b b', W g op → (step x g op b).out = .ok b' → P b → P b')
    (write : ∀ b b', (step x g op b).out = .ok b' → P b → Q b')
    (keepQ : ∀ g op b b', V g op → (step x g op b).out = .ok b' → Q b → Q b')
    (h : (placeAll x gs ops b).out = .ok b') (hb : P b) : Q b' := by
  obtain ⟨b1, b2, h1, h2, h3⟩ := placeAll_split k gs ops b b' g op hg ho h
  have p1 : P b1 := by
    refine placeAll_inv keepP _ _ _ _ ?_ h1 hb
    intro h p hm
    obtain ⟨j, hj, e⟩ := List.getElem_of_mem hm
    simp only [List.length_zip, List.length_take] at hj
    rw [List.getElem_zip, List.getElem_take, List.getElem_take] at e
    injection e with e1 e2
    exact hW j h p (by omega) (by rw [← e1]; exact List.getElem?_eq_getElem (by omega)) (by rw [← e2]; exact List.getElem?_eq_getElem (by omega))
  refine placeAll_inv keepQ _ _ _ _ ?_ h3 (write b1 b2 h2 p1)
  intro h p hm
  obtain ⟨j, hj, e⟩ := List.getElem_of_mem hm
  simp only [List.length_zip, List.length_drop] at hj
  rw [List.getElem_zip, List.getElem_drop, List.getElem_drop] at e
  injection e with e1 e2
  exact hV (k + 1 + j) h p (by omega) (by rw [← e1]; exact List.getElem?_eq_getElem (by omega)) (by rw [← e2]; exact List.getElem?_eq_getElem (by omega))

/-- An operand stands alone: no other of the kind. -/
def Only (p : OpInfo → Bool) (gs : List OpInfo) (k : Nat) : Prop := ∀ j h, j ≠ k → gs[j]? = some h → p h = false

theorem only_of_count {p : OpInfo → Bool} {gs : List OpInfo} (h : gs.countP p ≤ 1) {k : Nat} {g : OpInfo} (hg : gs[k]? = some g) (hp : p g = true) :
    Only p gs k := by
  have hk : k < gs.length := by
    by_contra hc
    rw [List.getElem?_eq_none (by omega)] at hg
    cases hg
  have e : gs = gs.take k ++ g :: gs.drop (k + 1) := by
    rw [List.getElem?_eq_getElem hk] at hg
    injection hg with hg
    rw [← hg, List.getElem_cons_drop, List.take_append_drop]
  have h' := h
  rw [e, List.countP_append, List.countP_cons, if_pos hp] at h'
  have h1 : (gs.take k).countP p = 0 := by omega
  have h2 : (gs.drop (k + 1)).countP p = 0 := by omega
  rw [List.countP_eq_zero] at h1 h2
  intro j q hj hq
  by_cases hlt : j < k
  · have : q ∈ gs.take k := by
      have : (gs.take k)[j]? = some q := by rw [List.getElem?_take, if_pos hlt]; exact hq
      exact List.mem_of_getElem? this
    simpa using h1 q this
  · have : q ∈ gs.drop (k + 1) := by
      have : (gs.drop (k + 1))[j - (k + 1)]? = some q := by rw [List.getElem?_drop]; rw [show k + 1 + (j - (k + 1)) = j by omega]; exact hq
      exact List.mem_of_getElem? this
    simpa using h2 q this

/-- A number next to a register leaves the register alone. -/
theorem number_step {x : IdInsn} {g : OpInfo} {op : Operand} {b b' : Build} {e : Node} (ha : g.action = .ea) (hd : op.data = .imm e)
    (h : (step x g op b).out = .ok b') : b'.ea = some (eaImm b.ea e (sizeVal x.mode g.size)) ∧ b'.rex = b.rex := by
  obtain ⟨c, h1, h2⟩ := step_out h
  obtain ⟨_, _, _, _, a5, _, _, _, _, _, _, a12, _, _⟩ := after_same h2
  rw [a5, a12]
  unfold place at h1
  rw [ha] at h1
  dsimp only [Run.of] at h1
  unfold placeEa at h1
  rw [hd] at h1
  cases h1
  exact ⟨rfl, rfl⟩

/-! ### REX in all operands -/

/-- The values REX can have in a mode. -/
def RexIn (mode : Nat) (rex : Byte) : Prop := if mode = 64 then RexVal rex else rex = 0#8

theorem Keeps'.rexIn {mode pos : Nat} {rex rex' : Byte} (h : Keeps' mode pos rex rex') (hr : RexIn mode rex) : RexIn mode rex' := by
  unfold Keeps' at h
  unfold RexIn at hr ⊢
  split <;> rename_i hm
  · rw [if_pos hm] at h hr
    exact h.val hr
  · rw [if_neg hm] at h hr
    exact h.trans hr

/-- Bit `pos` says nothing yet, in 64-bit mode. -/
def Clear' (mode pos : Nat) (rex : Byte) : Prop := mode = 64 → Clear pos rex
/-- REX suits the register, in 64-bit mode. -/
def Suits' (mode pos r : Nat) (rex : Byte) : Prop := mode = 64 → Suits pos r rex

theorem Keeps'.clear {mode pos : Nat} {rex rex' : Byte} (h : Keeps' mode pos rex rex') (hr : RexIn mode rex) (hc : Clear' mode pos rex) :
    Clear' mode pos rex' := by
  intro hm
  unfold Keeps' at h
  unfold RexIn at hr
  rw [if_pos hm] at h hr
  exact h.clear hr (hc hm)

theorem Keeps'.suits {mode pos r : Nat} {rex rex' : Byte} (h : Keeps' mode pos rex rex') (hr : RexIn mode rex) (hc : Suits' mode pos r rex) :
    Suits' mode pos r rex' := by
  intro hm
  unfold Keeps' at h
  unfold RexIn at hr
  rw [if_pos hm] at h hr
  exact h.suits hr (hc hm)

theorem setRexFrom_suits {rex rex' low : Byte} {r mode pos : Nat} (hp : pos < 3) (h : setRexFrom rex r mode pos = .ok (rex', low))
    (hr : RexIn mode rex) (hc : Clear' mode pos rex) : Suits' mode pos r rex' ∧ RexIn mode rex' := by
  by_cases hm : mode = 64
  · subst hm
    have s := setRexFrom_step hp h
    exact ⟨fun _ => s.found hr (hc rfl), s.val hr⟩
  · refine ⟨fun h => absurd h hm, ?_⟩
    rw [(setRexFrom_low h).2 hm]
    exact hr

theorem needReg_ok {op : Operand} {r : Nat} (h : needReg op = .ok r) : op.data = .reg r := by
  unfold needReg at h
  split at h
  · next e => cases h; exact e
  · cases h

theorem needReg_of {op : Operand} {r : Nat} (h : op.data = .reg r) : needReg op = .ok r := by
  unfold needReg
  rw [h]

/-- The two steps of an operand that is for both fields. -/
theorem spareEa_steps {x : IdInsn} {op : Operand} {b c : Build} (h : placeSpareEa x op b = .ok c) :
    ∃ r rex, op.data = .reg r ∧ setRexFrom b.rex r x.mode 0 = .ok (rex, BitVec.ofNat 8 (r % 8)) ∧
      setRexFrom rex r x.mode 2 = .ok (c.rex, BitVec.ofNat 8 (r % 8)) ∧ c.spare = BitVec.ofNat 8 (r % 8) ∧
      c.ea = some { b.ea.getD eaCreate with modrm := 0xC0 ||| BitVec.ofNat 8 (r % 8), validModrm := true, needModrm := true } := by
  unfold placeSpareEa at h
  split at h
  · cases h
  · next r hr =>
    split at h
    · cases h
    · next ea rex he =>
      split at h
      · cases h
      · next rex2 low hs =>
        obtain ⟨e1, e2⟩ := eaReg_some he
        have := (setRexFrom_low hs).1
        subst this
        subst e1
        cases h
        exact ⟨r, rex, needReg_ok hr, e2, hs, rfl, rfl⟩

theorem step_rexIn {x : IdInsn} {g : OpInfo} {op : Operand} {b b' : Build} (h : (step x g op b).out = .ok b') (hr : RexIn x.mode b.rex) :
    RexIn x.mode b'.rex := by
  by_cases hb : g.action.writesB = false
  · exact ((step_same h).rexB hb 0 (by omega) (by omega)).rexIn hr
  · by_cases hR : g.action.writesR = false
    · exact ((step_same h).rexR hR 2 (by omega) (by omega)).rexIn hr
    · have ha : g.action = .spareEA := by
        revert hb hR
        cases g.action <;> decide
      obtain ⟨c, h1, h2⟩ := step_out h
      unfold place at h1
      rw [ha] at h1
      obtain ⟨r, rex, _, e1, e2, _, _⟩ := spareEa_steps h1
      rw [(after_same h2).2.2.2.2.2.2.2.2.2.2.2.1]
      by_cases hm : x.mode = 64
      · rw [hm] at e1 e2
        unfold RexIn at hr ⊢
        rw [if_pos hm] at hr ⊢
        exact (setRexFrom_step (by omega) e2).val ((setRexFrom_step (by omega) e1).val hr)
      · rw [(setRexFrom_low e2).2 hm, (setRexFrom_low e1).2 hm]
        exact hr

/-- REX.W is left alone by all operands. -/
theorem step_wide {x : IdInsn} {g : OpInfo} {op : Operand} {b b' : Build} (hm : x.mode = 64) (h : (step x g op b).out = .ok b') :
    RexKeeps 3 b.rex b'.rex := by
  have of : Keeps' x.mode 3 b.rex b'.rex → RexKeeps 3 b.rex b'.rex := by
    intro h
    unfold Keeps' at h
    rwa [if_pos hm] at h
  by_cases hb : g.action.writesB = false
  · exact of ((step_same h).rexB hb 3 (by omega) (by omega))
  · by_cases hR : g.action.writesR = false
    · exact of ((step_same h).rexR hR 3 (by omega) (by omega))
    · have ha : g.action = .spareEA := by
        revert hb hR
        cases g.action <;> decide
      obtain ⟨c, h1, h2⟩ := step_out h
      unfold place at h1
      rw [ha] at h1
      obtain ⟨r, rex, _, e1, e2, _, _⟩ := spareEa_steps h1
      rw [(after_same h2).2.2.2.2.2.2.2.2.2.2.2.1]
      rw [hm] at e1 e2
      have k1 := (setRexFrom_step (by omega) e1).keeps (q := 3) (by omega) (by omega)
      have k2 := (setRexFrom_step (by omega) e2).keeps (q := 3) (by omega) (by omega)
      refine ⟨fun h => k2.val (k1.val h), fun h => k2.high (k1.high h), fun hv h0 h1 => ?_, fun hv h0 h1 => ?_⟩
      · obtain ⟨g1, g2⟩ := k1.present hv h0 h1
        exact k2.present (k1.val hv) g1 g2
      · have hf : rex ≠ 0xff#8 := fun e => h1 (k2.high e)
        rw [k2.bit (k1.val hv) hf h1, k1.bit hv h0 hf]

/-! ### The register in ModRM.rm -/

/-- What has been written for a register in the effective address. -/
def RmDone (x : IdInsn) (r : Nat) (b : Build) : Prop :=
  RexIn x.mode b.rex ∧ Suits' x.mode 0 r b.rex ∧
    ∃ ea, b.ea = some ea ∧ ea.modrm = 0xC0 ||| BitVec.ofNat 8 (r % 8) ∧ ea.validModrm = true ∧ ea.needModrm = true

/-- Before that. -/
def RmOpen (x : IdInsn) (b : Build) : Prop := RexIn x.mode b.rex ∧ Clear' x.mode 0 b.rex

theorem writesB_ea {a : Action} (h : a.writesB = false) : a.writesEa = false ∧ a ≠ .op0Add ∧ a ≠ .op1Add := by
  cases a <;> revert h <;> decide

theorem rm_step {x : IdInsn} {g : OpInfo} {op : Operand} {r : Nat} {b b' : Build} (ha : g.action = .ea ∨ g.action = .eaVEX ∨ g.action = .spareEA)
    (hd : op.data = .reg r) (h : (step x g op b).out = .ok b') (hb : RmOpen x b) : RmDone x r b' := by
  obtain ⟨c, h1, h2⟩ := step_out h
  obtain ⟨b1, b2⟩ := hb
  obtain ⟨_, _, _, _, a5, _, _, _, _, _, _, a12, _, _⟩ := after_same h2
  unfold RmDone
  rw [a5, a12]
  unfold place at h1
  rcases ha with ha | ha | ha <;> rw [ha] at h1 <;> dsimp only [Run.of] at h1
  · unfold placeEa at h1
    rw [hd] at h1
    dsimp only at h1
    split at h1
    · cases h1
    · next ea rex he =>
      obtain ⟨e1, e2⟩ := eaReg_some he
      obtain ⟨s1, s2⟩ := setRexFrom_suits (by omega) e2 b1 b2
      cases h1
      exact ⟨s2, s1, ea, rfl, by rw [e1], by rw [e1], by rw [e1]⟩
  · unfold placeEaVex at h1
    rw [needReg_of hd] at h1
    dsimp only at h1
    split at h1
    · cases h1
    · next ea rex he =>
      obtain ⟨e1, e2⟩ := eaReg_some he
      obtain ⟨s1, s2⟩ := setRexFrom_suits (by omega) e2 b1 b2
      cases h1
      exact ⟨s2, s1, ea, rfl, by rw [e1], by rw [e1], by rw [e1]⟩
  · obtain ⟨r', rex, d, e1, e2, e3, e4⟩ := spareEa_steps h1
    rw [hd] at d
    cases d
    obtain ⟨s1, s2⟩ := setRexFrom_suits (by omega) e1 b1 b2
    have k := setRexFrom_keeps (q := 0) (by omega) (by omega) (by omega) e2
    exact ⟨k.rexIn s2, k.suits s2 s1, _, e4, rfl, rfl, rfl⟩

/-- The others, for a register or memory operand. -/
def Beside (g : OpInfo) (op : Operand) : Prop := g.action.writesB = false ∨ g.action = .ea ∧ ∃ e, op.data = .imm e

theorem beside_of {gs : List OpInfo} {ops : List Operand} {k : Nat} (hn : Only takesB gs k) (hf : ImmsFit gs ops) (j : Nat) (h : OpInfo) (p : Operand)
    (hj : j ≠ k) (h1 : gs[j]? = some h) (h2 : ops[j]? = some p) : Beside h p := by
  have hb := hn j h hj h1
  unfold takesB at hb
  cases hw : h.action.writesB with
  | false => exact .inl hw
  | true =>
    rw [hw] at hb
    simp only [Bool.true_and, Bool.not_eq_false', decide_eq_true_eq] at hb
    exact .inr ⟨hb.1, hf j h p h1 h2 hb.2⟩

theorem rm_placed {x : IdInsn} {gs : List OpInfo} {ops : List Operand} {b b' : Build} {k : Nat} {g : OpInfo} {op : Operand} {r : Nat}
    (hn : Only takesB gs k) (hf : ImmsFit gs ops) (hg : gs[k]? = some g) (ho : ops[k]? = some op)
    (ha : g.action = .ea ∨ g.action = .eaVEX ∨ g.action = .spareEA) (hd : op.data = .reg r)
    (h : (placeAll x gs ops b).out = .ok b') (hb : RmOpen x b) : RmDone x r b' := by
  refine placed (P := RmOpen x) Beside Beside hg ho (fun j h p hj => beside_of hn hf j h p (by omega)) (fun j h p hj => beside_of hn hf j h p (by omega))
    ?_ (fun b b' h hb => rm_step ha hd h hb) ?_ h hb
  · rintro g op b b' (hw | ⟨hw, e, he⟩) hs ⟨p1, p2⟩
    · have s := step_same hs
      exact ⟨(s.rexB hw 0 (by omega) (by omega)).rexIn p1, (s.rexB hw 0 (by omega) (by omega)).clear p1 p2⟩
    · unfold RmOpen
      rw [(number_step hw he hs).2]
      exact ⟨p1, p2⟩
  · rintro g op b b' (hw | ⟨hw, e, he⟩) hs ⟨p1, p2, p3⟩
    · have s := step_same hs
      exact ⟨(s.rexB hw 0 (by omega) (by omega)).rexIn p1, (s.rexB hw 0 (by omega) (by omega)).suits p1 p2,
        by rw [(s.ea (writesB_ea hw).1).1]; exact p3⟩
    · obtain ⟨q1, q2⟩ := number_step hw he hs
      obtain ⟨ea, q3, q4, q5, q6⟩ := p3
      unfold RmDone
      rw [q1, q2, q3]
      exact ⟨p1, p2, _, rfl, q4, q5, q6⟩

/-! ### The register in ModRM.reg -/

def RegDone (x : IdInsn) (r : Nat) (b : Build) : Prop :=
  RexIn x.mode b.rex ∧ Suits' x.mode 2 r b.rex ∧ b.spare = BitVec.ofNat 8 (r % 8)
def RegOpen (x : IdInsn) (b : Build) : Prop := RexIn x.mode b.rex ∧ Clear' x.mode 2 b.rex

theorem reg_step {x : IdInsn} {g : OpInfo} {op : Operand} {r : Nat} {b b' : Build}
    (ha : g.action = .spare ∨ g.action = .spareVEX ∨ g.action = .spareEA)
    (hd : op.data = .reg r) (h : (step x g op b).out = .ok b') (hb : RegOpen x b) : RegDone x r b' := by
  obtain ⟨c, h1, h2⟩ := step_out h
  obtain ⟨b1, b2⟩ := hb
  obtain ⟨_, _, _, _, _, _, a7, _, _, _, _, a12, _, _⟩ := after_same h2
  unfold RegDone
  rw [a7, a12]
  unfold place at h1
  rcases ha with ha | ha | ha <;> rw [ha] at h1 <;> dsimp only [Run.of] at h1
  · unfold placeSpare at h1
    rw [hd] at h1
    dsimp only at h1
    split at h1
    · cases h1
    · next rex low he =>
      obtain ⟨s1, s2⟩ := setRexFrom_suits (by omega) he b1 b2
      have := (setRexFrom_low he).1
      cases h1
      exact ⟨s2, s1, this⟩
  · unfold placeSpareVex at h1
    rw [needReg_of hd] at h1
    dsimp only at h1
    split at h1
    · cases h1
    · next rex low he =>
      obtain ⟨s1, s2⟩ := setRexFrom_suits (by omega) he b1 b2
      have := (setRexFrom_low he).1
      cases h1
      exact ⟨s2, s1, this⟩
  · obtain ⟨r', rex, d, e1, e2, e3, e4⟩ := spareEa_steps h1
    rw [hd] at d
    cases d
    have k := setRexFrom_keeps (q := 2) (by omega) (by omega) (by omega) e1
    obtain ⟨s1, s2⟩ := setRexFrom_suits (by omega) e2 (k.rexIn b1) (k.clear b1 b2)
    exact ⟨s2, s1, e3⟩

theorem reg_placed {x : IdInsn} {gs : List OpInfo} {ops : List Operand} {b b' : Build} {k : Nat} {g : OpInfo} {op : Operand} {r : Nat}
    (hn : Only (fun g => g.action.writesR) gs k) (hg : gs[k]? = some g) (ho : ops[k]? = some op)
    (ha : g.action = .spare ∨ g.action = .spareVEX ∨ g.action = .spareEA) (hd : op.data = .reg r)
    (h : (placeAll x gs ops b).out = .ok b') (hb : RegOpen x b) : RegDone x r b' := by
  refine placed (P := RegOpen x) (fun g _ => g.action.writesR = false) (fun g _ => g.action.writesR = false) hg ho
    (fun j h p hj h1 _ => hn j h (by omega) h1) (fun j h p hj h1 _ => hn j h (by omega) h1) ?_
    (fun b b' h hb => reg_step ha hd h hb) ?_ h hb
  · rintro g op b b' hw hs ⟨p1, p2⟩
    have s := step_same hs
    exact ⟨(s.rexR hw 2 (by omega) (by omega)).rexIn p1, (s.rexR hw 2 (by omega) (by omega)).clear p1 p2⟩
  · rintro g op b b' hw hs ⟨p1, p2, p3⟩
    have s := step_same hs
    exact ⟨(s.rexR hw 2 (by omega) (by omega)).rexIn p1, (s.rexR hw 2 (by omega) (by omega)).suits p1 p2, (s.spare hw).trans p3⟩

/-- A segment register. -/
theorem seg_placed {x : IdInsn} {gs : List OpInfo} {ops : List Operand} {b b' : Build} {k : Nat} {g : OpInfo} {op : Operand} {r : Nat}
    (hn : Only (fun g => g.action.writesR) gs k) (hg : gs[k]? = some g) (ho : ops[k]? = some op)
    (ha : g.action = .spare) (hd : op.data = .segreg r)
    (h : (placeAll x gs ops b).out = .ok b') : b'.spare = BitVec.ofNat 8 (r % 8) := by
  refine placed (P := fun _ => True) (Q := fun b => b.spare = BitVec.ofNat 8 (r % 8)) (fun _ _ => True) (fun g _ => g.action.writesR = false) hg ho
    (fun _ _ _ _ _ _ => trivial) (fun j h p hj h1 _ => hn j h (by omega) h1) (fun _ _ _ _ _ _ _ => trivial) ?_ ?_ h trivial
  · intro b b' h _
    obtain ⟨c, h1, h2⟩ := step_out h
    rw [(after_same h2).2.2.2.2.2.2.1]
    unfold place at h1
    rw [ha] at h1
    dsimp only [Run.of] at h1
    unfold placeSpare at h1
    rw [hd] at h1
    cases h1
    rfl
  · rintro g op b b' hw hs p
    exact ((step_same hs).spare hw).trans p

/-! ### The extra register of VEX -/

theorem vex_placed {x : IdInsn} {gs : List OpInfo} {ops : List Operand} {b b' : Build} {k : Nat} {g : OpInfo} {op : Operand} {r : Nat}
    (hn : ∀ j h, k < j → gs[j]? = some h → h.action.writesV = false) (hg : gs[k]? = some g) (ho : ops[k]? = some op)
    (ha : g.action = .vex ∨ g.action = .eaVEX ∨ g.action = .spareVEX) (hd : op.data = .reg r)
    (h : (placeAll x gs ops b).out = .ok b') : b'.vexreg = BitVec.ofNat 8 (r % 16) := by
  refine placed (P := fun _ => True) (Q := fun b => b.vexreg = BitVec.ofNat 8 (r % 16)) (fun _ _ => True) (fun g _ => g.action.writesV = false) hg ho
    (fun _ _ _ _ _ _ => trivial) (fun j h p hj h1 _ => hn j h hj h1) (fun _ _ _ _ _ _ _ => trivial) ?_ ?_ h trivial
  · intro b b' h _
    obtain ⟨c, h1, h2⟩ := step_out h
    rw [(after_same h2).2.2.2.2.2.2.2.1]
    unfold place at h1
    rcases ha with ha | ha | ha <;> rw [ha] at h1 <;> dsimp only [Run.of] at h1
    · unfold placeVex at h1
      rw [needReg_of hd] at h1
      cases h1
      rfl
    · unfold placeEaVex at h1
      rw [needReg_of hd] at h1
      dsimp only at h1
      split at h1
      · cases h1
      · cases h1; rfl
    · unfold placeSpareVex at h1
      rw [needReg_of hd] at h1
      dsimp only at h1
      split at h1
      · cases h1
      · cases h1; rfl
  · rintro g op b b' hw hs p
    exact ((step_same hs).vexreg hw).trans p

/-! ### The register in the opcode -/

/-- The byte of the opcode a register is added to. -/
def addByte (second : Bool) (o : Opcode) : Byte := if second then o.b1 else o.b0

def OpDone (x : IdInsn) (second : Bool) (base : Byte) (r : Nat) (b : Build) : Prop :=
  RexIn x.mode b.rex ∧ Suits' x.mode 0 r b.rex ∧ addByte second b.opcode = base + BitVec.ofNat 8 (r % 8)
def OpOpen (x : IdInsn) (second : Bool) (base : Byte) (b : Build) : Prop :=
  RexIn x.mode b.rex ∧ Clear' x.mode 0 b.rex ∧ addByte second b.opcode = base

theorem op_step {x : IdInsn} {g : OpInfo} {op : Operand} {r : Nat} {b b' : Build} {second : Bool} {base : Byte}
    (ha : g.action = if second then .op1Add else .op0Add) (hp : g.post ≠ .simm8)
    (hd : op.data = .reg r) (h : (step x g op b).out = .ok b') (hb : OpOpen x second base b) : OpDone x second base r b' := by
  obtain ⟨c, h1, h2⟩ := step_out h
  obtain ⟨b1, b2, b3⟩ := hb
  obtain ⟨_, _, _, _, _, _, _, _, _, _, _, a12, a13, _⟩ := after_same h2
  unfold OpDone
  rw [a13 hp, a12]
  have h1 : placeOpAdd x op second b = .ok c := by
    unfold place at h1
    rw [ha] at h1
    cases second <;> exact h1
  unfold placeOpAdd at h1
  rw [needReg_of hd] at h1
  dsimp only at h1
  split at h1
  · cases h1
  · next rex low he =>
    obtain ⟨s1, s2⟩ := setRexFrom_suits (by omega) he b1 b2
    have hl := (setRexFrom_low he).1
    cases h1
    refine ⟨s2, s1, ?_⟩
    rw [← b3, ← hl]
    cases second <;> rfl

theorem op_placed {x : IdInsn} {gs : List OpInfo} {ops : List Operand} {b b' : Build} {k : Nat} {g : OpInfo} {op : Operand} {r : Nat}
    {second : Bool} {base : Byte}
    (hn : Only (fun g => g.action.writesB) gs k) (hg : gs[k]? = some g) (ho : ops[k]? = some op)
    (ha : g.action = if second then .op1Add else .op0Add) (hp : ∀ g ∈ gs, g.post ≠ .simm8) (hd : op.data = .reg r)
    (h : (placeAll x gs ops b).out = .ok b') (hb : OpOpen x second base b) : OpDone x second base r b' := by
  refine placed (P := OpOpen x second base) (fun g _ => g.action.writesB = false ∧ g.post ≠ .simm8)
    (fun g _ => g.action.writesB = false ∧ g.post ≠ .simm8) hg ho
    (fun j h p hj h1 _ => ⟨hn j h (by omega) h1, hp h (List.mem_of_getElem? h1)⟩)
    (fun j h p hj h1 _ => ⟨hn j h (by omega) h1, hp h (List.mem_of_getElem? h1)⟩) ?_
    (fun b b' h hb => op_step ha (hp g (List.mem_of_getElem? hg)) hd h hb) ?_ h hb
  · rintro g op b b' ⟨hw, hp⟩ hs ⟨p1, p2, p3⟩
    have s := step_same hs
    exact ⟨(s.rexB hw 0 (by omega) (by omega)).rexIn p1, (s.rexB hw 0 (by omega) (by omega)).clear p1 p2, by rw [s.opcode (writesB_ea hw).2.1 (writesB_ea hw).2.2 hp]; exact p3⟩
  · rintro g op b b' ⟨hw, hp⟩ hs ⟨p1, p2, p3⟩
    have s := step_same hs
    exact ⟨(s.rexB hw 0 (by omega) (by omega)).rexIn p1, (s.rexB hw 0 (by omega) (by omega)).suits p1 p2, by rw [s.opcode (writesB_ea hw).2.1 (writesB_ea hw).2.2 hp]; exact p3⟩

/-! ### Immediates -/

theorem imm_placed {x : IdInsn} {gs : List OpInfo} {ops : List Operand} {b b' : Build} {k : Nat} {g : OpInfo} {op : Operand} {e : Node}
    (hn : Only (fun g => g.action.writesImm) gs k) (hg : gs[k]? = some g) (ho : ops[k]? = some op)
    (ha : g.action = .imm ∨ g.action = .simm) (hd : op.data = .imm e)
    (h : (placeAll x gs ops b).out = .ok b') (hb : b.imSign = false) :
    b'.imm = some e ∧ b'.imLen = sizeVal x.mode g.size ∧ b'.imSign = decide (g.action = .simm) ∧ op.seg = none := by
  refine placed (P := fun b => b.imSign = false)
    (Q := fun b => b.imm = some e ∧ b.imLen = sizeVal x.mode g.size ∧ b.imSign = decide (g.action = .simm) ∧ op.seg = none)
    (fun g _ => g.action.writesImm = false) (fun g _ => g.action.writesImm = false) hg ho
    (fun j h p hj h1 _ => hn j h (by omega) h1) (fun j h p hj h1 _ => hn j h (by omega) h1) ?_ ?_ ?_ h hb
  · rintro g op b b' hw hs p
    exact ((step_same hs).imm hw).2.2.trans p
  · intro b b' h hb
    obtain ⟨c, h1, h2⟩ := step_out h
    obtain ⟨_, _, _, _, _, _, _, _, a9, a10, a11, _, _, _⟩ := after_same h2
    rw [a9, a10, a11]
    have key : ∀ s, placeImm x g op s b = .ok c → s = decide (g.action = .simm) →
        c.imm = some e ∧ c.imLen = sizeVal x.mode g.size ∧ c.imSign = decide (g.action = .simm) ∧ op.seg = none := by
      intro s hc hs
      unfold placeImm at hc
      split at hc
      · cases hc
      · next hseg =>
        rw [hd] at hc
        cases hc
        exact ⟨rfl, rfl, by simp only; rw [hb, hs]; simp, by simpa using hseg⟩
    unfold place at h1
    rcases ha with ha | ha <;> rw [ha] at h1 <;> dsimp only [Run.of] at h1
    · exact key false h1 (by rw [ha]; rfl)
    · exact key true h1 (by rw [ha]; rfl)
  · rintro g' op' b b' hw hs ⟨p1, p2, p3, p4⟩
    obtain ⟨s1, s2, s3⟩ := (step_same hs).imm hw
    exact ⟨s1.trans p1, s2.trans p2, s3.trans p3, p4⟩

/-- A register in the immediate. -/
theorem immSrc_placed {x : IdInsn} {gs : List OpInfo} {ops : List Operand} {b b' : Build} {k : Nat} {g : OpInfo} {op : Operand} {r : Nat}
    (hn : Only (fun g => g.action.writesImm) gs k) (hg : gs[k]? = some g) (ho : ops[k]? = some op)
    (ha : g.action = .vexImmSrc) (hd : op.data = .reg r)
    (h : (placeAll x gs ops b).out = .ok b') (hb : b.imm = none) : b'.imm = some ⟨.IDENT, [highNibble r]⟩ ∧ b'.imLen = 8 := by
  refine placed (P := fun b => b.imm = none) (Q := fun b => b.imm = some ⟨.IDENT, [highNibble r]⟩ ∧ b.imLen = 8)
    (fun g _ => g.action.writesImm = false) (fun g _ => g.action.writesImm = false) hg ho
    (fun j h p hj h1 _ => hn j h (by omega) h1) (fun j h p hj h1 _ => hn j h (by omega) h1) ?_ ?_ ?_ h hb
  · rintro g op b b' hw hs p
    exact ((step_same hs).imm hw).1.trans p
  · intro b b' h hb
    obtain ⟨c, h1, h2⟩ := step_out h
    obtain ⟨_, _, _, _, _, _, _, _, a9, a10, a11, _, _, _⟩ := after_same h2
    rw [a9, a10]
    unfold place at h1
    rw [ha] at h1
    dsimp only at h1
    unfold placeImmSrc at h1
    rw [needReg_of hd] at h1
    dsimp only at h1
    rw [hb] at h1
    cases h1
    exact ⟨rfl, rfl⟩
  · rintro g' op' b b' hw hs ⟨p1, p2⟩
    obtain ⟨s1, s2, s3⟩ := (step_same hs).imm hw
    exact ⟨s1.trans p1, s2.trans p2⟩

/-! ### Memory -/

theorem mem_placed {x : IdInsn} {gs : List OpInfo} {ops : List Operand} {b b' : Build} {k : Nat} {g : OpInfo} {op : Operand} {m : MemArg}
    (hn : Only (fun g => g.action.writesEa) gs k) (hg : gs[k]? = some g) (ho : ops[k]? = some op)
    (ha : g.action = .ea) (hd : op.data = .mem m)
    (h : (placeAll x gs ops b).out = .ok b') : b'.ea = some (placeMem x g m) ∧ b'.seg = m.seg ∧ op.seg = none := by
  refine placed (P := fun _ => True) (Q := fun b => b.ea = some (placeMem x g m) ∧ b.seg = m.seg ∧ op.seg = none)
    (fun _ _ => True) (fun g _ => g.action.writesEa = false) hg ho
    (fun _ _ _ _ _ _ => trivial) (fun j h p hj h1 _ => hn j h (by omega) h1) (fun _ _ _ _ _ _ _ => trivial) ?_ ?_ h trivial
  · intro b b' h _
    obtain ⟨c, h1, h2⟩ := step_out h
    obtain ⟨_, _, _, _, a5, a6, _, _, _, _, _, _, _, _⟩ := after_same h2
    rw [a5, a6]
    unfold place at h1
    rw [ha] at h1
    dsimp only [Run.of] at h1
    unfold placeEa at h1
    rw [hd] at h1
    dsimp only at h1
    split at h1
    · cases h1
    · next hs => cases h1; exact ⟨rfl, rfl, by simpa using hs⟩
  · rintro g' op' b b' hw hs ⟨p1, p2, p3⟩
    obtain ⟨s1, s2⟩ := (step_same hs).ea hw
    exact ⟨s1.trans p1, s2.trans p2, p3⟩

end Verif.Match
