/-
Forms of MOV that look for a shorter form at the end: what they do before is what a form without this does.
-/
import Verif.Match.Finish

namespace Verif.Match

open Verif.Intnum
open Verif.Expr
open Verif.Value
open Verif.Ea
open Verif.Insn

theorem run_ext {α : Type} {a b : Run α} (h1 : a.out = b.out) (h2 : a.log = b.log) : a = b := by
  cases a; cases b; cases h1; cases h2; rfl

theorem bind_of {α β : Type} (a : α) (f : α → Run β) : Run.bind (.of (.ok a)) f = f a := by
  apply run_ext
  · rfl
  · simp [Run.bind, Run.of]

theorem bind_err {α β : Type} (s : Stop) (f : α → Run β) : Run.bind (.of (.error s)) f = .of (.error s) := by
  apply run_ext
  · rfl
  · simp [Run.bind, Run.of]

theorem bind_assoc {α β γ : Type} (a : Run α) (f : α → Run β) (g : β → Run γ) :
    Run.bind (Run.bind a f) g = Run.bind a fun v => Run.bind (f v) g := by
  unfold Run.bind
  cases h : a.out with
  | error s => simp [h]
  | ok v =>
    dsimp only
    cases h2 : (f v).out with
    | error s => simp [h, h2]
    | ok w => simp [h, h2, List.append_assoc]

/-- A build that will look for another form. -/
def withLate (l : Post) (b : Build) : Build := { b with late := l }

/-- The same at the end of a step. -/
def mapLate (l : Post) (r : Run Build) : Run Build := Run.bind r fun b => .of (.ok (withLate l b))

theorem mapLate_ok (l : Post) (b : Build) : mapLate l (.of (.ok b)) = .of (.ok (withLate l b)) := bind_of _ _
theorem mapLate_err (l : Post) (s : Stop) : mapLate l (.of (.error s)) = .of (.error s) := bind_err _ _

theorem placeEa_late (l : Post) (x : IdInsn) (g : OpInfo) (op : Operand) (b : Build) :
    Run.of (placeEa x g op (withLate l b)) = mapLate l (.of (placeEa x g op b)) := by
  unfold placeEa
  cases op.data with
  | reg r =>
    dsimp only [withLate]
    cases eaReg b.ea r b.rex x.mode with
    | error s => (unfold mapLate; rw [bind_err])
    | ok p => (unfold mapLate; rw [bind_of]; rfl)
  | segreg r => (unfold mapLate; rw [bind_err])
  | mem m =>
    dsimp only
    split
    · (unfold mapLate; rw [bind_err])
    · (unfold mapLate; rw [bind_of]; rfl)
  | imm e => (unfold mapLate; rw [bind_of]; rfl)

theorem placeEaVex_late (l : Post) (x : IdInsn) (op : Operand) (b : Build) :
    Run.of (placeEaVex x op (withLate l b)) = mapLate l (.of (placeEaVex x op b)) := by
  unfold placeEaVex
  cases needReg op with
  | error s => (unfold mapLate; rw [bind_err])
  | ok r =>
    dsimp only [withLate]
    cases eaReg b.ea r b.rex x.mode with
    | error s => (unfold mapLate; rw [bind_err])
    | ok p => (unfold mapLate; rw [bind_of]; rfl)

theorem placeImm_late (l : Post) (x : IdInsn) (g : OpInfo) (op : Operand) (sign : Bool) (b : Build) :
    Run.of (placeImm x g op sign (withLate l b)) = mapLate l (.of (placeImm x g op sign b)) := by
  unfold placeImm
  split
  · (unfold mapLate; rw [bind_err])
  · cases op.data with
    | imm e => (unfold mapLate; rw [bind_of]; rfl)
    | _ => (unfold mapLate; rw [bind_err])

theorem placeSpare_late (l : Post) (x : IdInsn) (op : Operand) (b : Build) :
    Run.of (placeSpare x op (withLate l b)) = mapLate l (.of (placeSpare x op b)) := by
  unfold placeSpare
  cases op.data with
  | segreg r => (unfold mapLate; rw [bind_of]; rfl)
  | reg r =>
    dsimp only [withLate]
    cases setRexFrom b.rex r x.mode 2 with
    | error s => (unfold mapLate; rw [bind_err])
    | ok p => (unfold mapLate; rw [bind_of]; rfl)
  | _ => (unfold mapLate; rw [bind_err])

theorem placeSpareVex_late (l : Post) (x : IdInsn) (op : Operand) (b : Build) :
    Run.of (placeSpareVex x op (withLate l b)) = mapLate l (.of (placeSpareVex x op b)) := by
  unfold placeSpareVex
  cases needReg op with
  | error s => (unfold mapLate; rw [bind_err])
  | ok r =>
    dsimp only [withLate]
    cases setRexFrom b.rex r x.mode 2 with
    | error s => (unfold mapLate; rw [bind_err])
    | ok p => (unfold mapLate; rw [bind_of]; rfl)

theorem placeOpAdd_late (l : Post) (x : IdInsn) (op : Operand) (second : Bool) (b : Build) :
    Run.of (placeOpAdd x op second (withLate l b)) = mapLate l (.of (placeOpAdd x op second b)) := by
  unfold placeOpAdd
  cases needReg op with
  | error s => (unfold mapLate; rw [bind_err])
  | ok r =>
    dsimp only [withLate]
    cases setRexFrom b.rex r x.mode 0 with
    | error s => (unfold mapLate; rw [bind_err])
    | ok p => (unfold mapLate; rw [bind_of]; rfl)

theorem placeSpareEa_late (l : Post) (x : IdInsn) (op : Operand) (b : Build) :
    Run.of (placeSpareEa x op (withLate l b)) = mapLate l (.of (placeSpareEa x op b)) := by
  unfold placeSpareEa
  cases needReg op with
  | error s => (unfold mapLate; rw [bind_err])
  | ok r =>
    dsimp only [withLate]
    cases eaReg b.ea r b.rex x.mode with
    | error s => (unfold mapLate; rw [bind_err])
    | ok p =>
      obtain ⟨ea, rex⟩ := p
      dsimp only
      cases setRexFrom rex r x.mode 2 with
      | error s => (unfold mapLate; rw [bind_err])
      | ok p => (unfold mapLate; rw [bind_of]; rfl)

theorem placeAdSize_late (l : Post) (x : IdInsn) (op : Operand) (b : Build) :
    Run.of (placeAdSize x op (withLate l b)) = mapLate l (.of (placeAdSize x op b)) := by
  unfold placeAdSize
  cases op.data with
  | mem m =>
    dsimp only
    cases getReg m.addr with
    | none => (unfold mapLate; rw [bind_err])
    | some r =>
      dsimp only
      repeat' split
      all_goals first | (unfold mapLate; rw [bind_of]; rfl) | (unfold mapLate; rw [bind_err])
  | _ => (unfold mapLate; rw [bind_err])

theorem placeVex_late (l : Post) (op : Operand) (b : Build) :
    Run.of (placeVex op (withLate l b)) = mapLate l (.of (placeVex op b)) := by
  unfold placeVex
  cases needReg op with
  | error s => (unfold mapLate; rw [bind_err])
  | ok r => (unfold mapLate; rw [bind_of]; rfl)

theorem placeImmSrc_late (l : Post) (op : Operand) (b : Build) :
    placeImmSrc op (withLate l b) = mapLate l (placeImmSrc op b) := by
  unfold placeImmSrc
  cases needReg op with
  | error s => (unfold mapLate; rw [bind_err])
  | ok r =>
    dsimp only [withLate]
    cases b.imm with
    | none => (unfold mapLate; rw [bind_of]; rfl)
    | some e =>
      dsimp only
      unfold mapLate
      rw [bind_assoc]
      congr 1; funext a
      rw [bind_assoc]
      congr 1


theorem placeVexImm_late (l : Post) (op : Operand) (b : Build) :
    placeVexImm op (withLate l b) = mapLate l (placeVexImm op b) := by
  unfold placeVexImm
  cases op.data with
  | imm v =>
    dsimp only [withLate]
    cases b.imm with
    | none => (unfold mapLate; rw [bind_of]; rfl)
    | some e =>
      dsimp only
      unfold mapLate
      rw [bind_assoc]
      congr 1; funext a
      rw [bind_assoc]
      congr 1; funext a
      rw [bind_assoc]
      congr 1

  | _ => (unfold mapLate; rw [bind_err])

theorem place_late (l : Post) (x : IdInsn) (g : OpInfo) (op : Operand) (b : Build) :
    place x g op (withLate l b) = mapLate l (place x g op b) := by
  unfold place
  cases g.action <;> dsimp only
  all_goals first
    | exact placeEa_late _ _ _ _ _ | exact placeEaVex_late _ _ _ _ | exact placeImm_late _ _ _ _ _ _ | exact placeSpare_late _ _ _ _
    | exact placeSpareVex_late _ _ _ _ | exact placeOpAdd_late _ _ _ _ _ | exact placeSpareEa_late _ _ _ _ | exact placeAdSize_late _ _ _ _
    | exact placeVex_late _ _ _ | exact placeImmSrc_late _ _ _ | exact placeVexImm_late _ _ _
    | (unfold mapLate; rw [bind_of]; done) | (unfold mapLate; rw [bind_of]; rfl) | (unfold mapLate; rw [bind_err])

/-- An operand that asks for another form at the end, without this. -/
def early (g : OpInfo) : OpInfo := if g.post = .shortMov ∨ g.post = .simm32Avail then { g with post := .none } else g

/-- What was asked for last. -/
def lateOf (gs : List OpInfo) (l : Post) : Post :=
  gs.foldl (fun l g => if g.post = .shortMov ∨ g.post = .simm32Avail then g.post else l) l

theorem after_late (l : Post) (x : IdInsn) (g : OpInfo) (op : Operand) (b : Build) :
    Run.of (after x g op (withLate l b)) =
      mapLate (if g.post = .shortMov ∨ g.post = .simm32Avail then g.post else l) (.of (after x (early g) op b)) := by
  unfold after
  have hs : (early g).size = g.size := by unfold early; split <;> rfl
  have e : (if g.size = .bits then { withLate l b with common := { (withLate l b).common with opersize := x.mode } } else withLate l b) =
      withLate l (if g.size = .bits then { b with common := { b.common with opersize := x.mode } } else b) := by
    split <;> rfl
  dsimp only
  rw [e, hs]
  generalize (if g.size = .bits then { b with common := { b.common with opersize := x.mode } } else b) = c
  cases hp : g.post with
  | none => unfold early; rw [hp]; simp only [reduceCtorEq, or_self, if_false, hp]; (unfold mapLate; rw [bind_of])
  | a16 => unfold early; rw [hp]; simp only [reduceCtorEq, or_self, if_false, hp]; (unfold mapLate; rw [bind_of]; rfl)
  | shortMov => unfold early; rw [hp]; simp only [true_or, if_true]; (unfold mapLate; rw [bind_of]; rfl)
  | simm32Avail => unfold early; rw [hp]; simp only [or_true, if_true]; (unfold mapLate; rw [bind_of]; rfl)
  | simm8 =>
    unfold early; rw [hp]; simp only [reduceCtorEq, or_self, if_false, hp]
    unfold postSimm8
    split
    · (unfold mapLate; rw [bind_of]; rfl)
    · split
      · dsimp only [withLate]
        cases c.opcode.at c.opcode.len with
        | error s => (unfold mapLate; rw [bind_err])
        | ok v => (unfold mapLate; rw [bind_of]; rfl)
      · (unfold mapLate; rw [bind_of])

theorem early_action (g : OpInfo) : (early g).action = g.action ∧ (early g).type = g.type ∧ (early g).size = g.size := by
  unfold early; split <;> exact ⟨rfl, rfl, rfl⟩

theorem place_early (x : IdInsn) (g : OpInfo) (op : Operand) (b : Build) : place x (early g) op b = place x g op b := by
  unfold early; split <;> rfl

theorem placeAll_latest (x : IdInsn) : ∀ (gs : List OpInfo) (ops : List Operand) (l : Post) (b : Build), gs.length ≤ ops.length →
    placeAll x gs ops (withLate l b) = mapLate (lateOf gs l) (placeAll x (gs.map early) ops b) := by
  intro gs
  induction gs with
  | nil => intro ops l b _; exact (mapLate_ok l b).symm
  | cons g gs ih =>
    intro ops l b hl
    cases ops with
    | nil => simp at hl
    | cons op ops =>
      simp only [List.length_cons] at hl
      rw [List.map_cons, placeAll, placeAll, place_late, place_early]
      unfold mapLate
      rw [bind_assoc, bind_assoc]
      congr 1; funext c
      rw [bind_of, bind_assoc, after_late]
      unfold mapLate
      rw [bind_assoc]
      congr 1; funext d
      rw [bind_of, ih ops _ d (by omega)]
      rfl

theorem finishEa_late (y : Syms) (x : IdInsn) (l : Post) (b : Build) :
    finishEa y x (withLate l b) = mapLate l (finishEa y x b) := by
  unfold finishEa
  have hw : (withLate l b).ea = b.ea := rfl
  rw [hw]
  cases hea : b.ea with
  | some ea =>
    dsimp only
    unfold mapLate
    rw [bind_assoc]
    congr 1
  | none =>
    dsimp only
    cases hs : x.segregs.getLast? with
    | none => (unfold mapLate; rw [bind_of])
    | some s =>
      dsimp only
      have hs : (withLate l b).special = b.special := rfl
      rw [hs]
      by_cases h : b.special = 0#8
      · rw [if_pos h, if_pos h]; unfold mapLate; rw [bind_of]; rfl
      · rw [if_neg h, if_neg h]; unfold mapLate; rw [bind_err]

/-- The instruction without VEX, and the last step apart. -/
theorem finishInsn_late (y : Syms) (x : IdInsn) (l : Post) (b : Build) (hl : b.late = .none) (hv : b.vexdata = 0#8) :
    finishInsn y x (withLate l b) = Run.bind (finishInsn y x b) fun i => finishLate y.ctx y.nequ x l i := by
  unfold finishInsn
  rw [finishEa_late]
  unfold mapLate
  rw [bind_assoc, bind_assoc]
  have key : ∀ c, (finishEa y x b).out = .ok c → c.late = .none ∧ c.vexdata = 0#8 := by
    intro c hc
    obtain ⟨h1, h2⟩ := finishEa_out hc
    cases he : b.ea with
    | none => obtain ⟨sp, e, _⟩ := h2 he; rw [e]; exact ⟨hl, hv⟩
    | some ea => obtain ⟨v, _, e⟩ := h1 ea he; rw [e]; exact ⟨hl, hv⟩
  have bind_congr : ∀ {α β : Type} (a : Run α) (f g : α → Run β), (∀ v, a.out = .ok v → f v = g v) → Run.bind a f = Run.bind a g := by
    intro α β a f g h
    unfold Run.bind
    cases ha : a.out with
    | error s => rfl
    | ok v => dsimp only; rw [h v ha]
  apply bind_congr
  intro c hc
  obtain ⟨c1, c2⟩ := key c hc
  rw [bind_of, bind_assoc]
  have e : finishImm y (withLate l c) = finishImm y c := rfl
  rw [e]
  congr 1; funext imm
  dsimp only [withLate]
  rw [c1]
  have fv : ∀ i : Insn, finishVex c.vexdata c.vexreg i = .ok i := by
    intro i
    unfold finishVex
    rw [if_pos c2]
  have e0 : finishLate y.ctx y.nequ x .none (prefixed x c imm) = .of (.ok (prefixed x c imm)) := rfl
  have e1 : prefixed x { c with late := l } imm = prefixed x c imm := rfl
  rw [e0, bind_of, fv, bind_of, e1]
  generalize finishLate y.ctx y.nequ x l (prefixed x c imm) = r
  apply run_ext
  · unfold Run.bind
    cases h : r.out with
    | error s => simp
    | ok i => simp only [fv]; rfl
  · unfold Run.bind
    cases h : r.out with
    | error s => simp
    | ok i => simp [Run.of]

/-- A form without the search for another form at the end. -/
def Form.early (f : Form) : Form := { f with ops := f.ops.map Match.early }

/-- A form that looks for another form at the end is one that does not, with that step behind it. -/
theorem makeInsn_late (y : Syms) (x : IdInsn) (f : Form) (hc : f.ops.length ≤ (useOps x f).length) (hv : (base x f).vexdata = 0#8) :
    makeInsn y x f = Run.bind (makeInsn y x f.early) fun i => finishLate y.ctx y.nequ x (lateOf f.ops .none) i := by
  have hb : base x f = withLate .none (base x f) := by
    have := (base_began x f).2.2.2.1
    unfold withLate
    rw [← this]
  have e1 : makeInsn y x f = Run.bind (placeAll x f.ops (useOps x f) (base x f)) fun b => finishInsn y x b := rfl
  have e2 : makeInsn y x f.early = Run.bind (placeAll x (f.ops.map early) (useOps x f) (base x f)) fun b => finishInsn y x b := rfl
  rw [e1, e2, hb, placeAll_latest x f.ops _ _ _ hc, ← hb]
  unfold mapLate
  rw [bind_assoc, bind_assoc]
  have bind_congr : ∀ {α β : Type} (a : Run α) (f g : α → Run β), (∀ v, a.out = .ok v → f v = g v) → Run.bind a f = Run.bind a g := by
    intro α β a f g h
    unfold Run.bind
    cases ha : a.out with
    | error s => rfl
    | ok v => dsimp only; rw [h v ha]
  apply bind_congr
  intro b hb2
  rw [bind_of]
  have hs : ((f.ops.map early).all fun g => decide (g.post ≠ .shortMov ∧ g.post ≠ .simm32Avail)) = true := by
    rw [List.all_map, List.all_eq_true]
    intro g _
    simp only [Function.comp, decide_eq_true_eq]
    unfold early
    split
    · exact ⟨by simp, by simp⟩
    · next h => exact ⟨fun e => h (.inl e), fun e => h (.inr e)⟩
  obtain ⟨l1, _, l3, _⟩ := placeAll_late hs hb2
  exact finishInsn_late y x _ b (by rw [l1]; exact (base_began x f).2.2.2.1) (by rw [l3]; exact hv)

end Verif.Match
