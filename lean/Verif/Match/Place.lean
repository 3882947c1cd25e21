/-
Lemmas for C69: what each operand changes of the instruction being built, and what it leaves alone.
-/
import Verif.Match.Spec
import Verif.Ea.Usage

namespace Verif.Match

open Verif.Intnum
open Verif.Expr
open Verif.Value
open Verif.Ea
open Verif.Insn

/-! ### REX -/

/-- The values of REX while operands are placed. -/
def RexVal (rex : Byte) : Prop := rex = 0#8 ∨ rex = 0xff#8 ∨ rex &&& 0xF0#8 = 0x40#8

/-- Bit `pos` still says nothing. -/
def Clear (pos : Nat) (rex : Byte) : Prop := rex ≠ 0xff#8 → rex.getLsbD pos = false

/-- REX and the class of a register are what the register needs. -/
def Suits (pos r : Nat) (rex : Byte) : Prop :=
  if r / 16 = 2 ∨ r % 16 ≥ 8 then rex ≠ 0xff#8 ∧ rex ≠ 0#8 ∧ rex.getLsbD pos = decide (r / 8 % 2 = 1)
  else if r / 16 = 1 ∧ r % 8 ≥ 4 then rex = 0xff#8
  else Clear pos rex

theorem or_bits : ∀ rex : Byte, ∀ b : Fin 2, ∀ pos : Fin 3, ∀ q : Fin 4, rex ≠ 0xff#8 → RexVal rex →
    RexVal (rex ||| 0x40 ||| (BitVec.ofNat 8 b.val <<< pos.val)) ∧ (rex ||| 0x40 ||| (BitVec.ofNat 8 b.val <<< pos.val)) ≠ 0xff#8 ∧
    (rex ||| 0x40 ||| (BitVec.ofNat 8 b.val <<< pos.val)) ≠ 0#8 ∧
    (q.val ≠ pos.val → (rex ||| 0x40 ||| (BitVec.ofNat 8 b.val <<< pos.val)).getLsbD q.val = rex.getLsbD q.val) ∧
    (rex.getLsbD pos.val = false → (rex ||| 0x40 ||| (BitVec.ofNat 8 b.val <<< pos.val)).getLsbD pos.val = decide (b.val = 1)) := by
  unfold RexVal
  decide +kernel

/-- What `setRexFrom` does. -/
structure RexStep (pos r : Nat) (rex rex' : Byte) : Prop where
  val : RexVal rex → RexVal rex'
  high : rex = 0xff#8 → rex' = 0xff#8
  present : RexVal rex → rex ≠ 0#8 → rex ≠ 0xff#8 → rex' ≠ 0#8 ∧ rex' ≠ 0xff#8
  other : RexVal rex → ∀ q < 4, q ≠ pos → rex ≠ 0xff#8 → rex' ≠ 0xff#8 → rex'.getLsbD q = rex.getLsbD q
  found : RexVal rex → Clear pos rex → Suits pos r rex'

theorem RexStep.refl {pos r : Nat} {rex : Byte} (h : RexVal rex → Clear pos rex → Suits pos r rex) : RexStep pos r rex rex :=
  ⟨fun h => h, fun h => h, fun _ h1 h2 => ⟨h1, h2⟩, fun _ _ _ _ _ _ => rfl, h⟩

theorem setRexFrom_step {rex rex' low : Byte} {r pos : Nat} (hp : pos < 3) (h : setRexFrom rex r 64 pos = .ok (rex', low)) :
    RexStep pos r rex rex' := by
  unfold setRexFrom at h
  simp only [if_true] at h
  by_cases c1 : r / 16 = 2 ∨ r % 16 ≥ 8
  · rw [if_pos c1] at h
    by_cases c2 : rex = 0xff#8
    · rw [if_pos c2] at h; cases h
    · rw [if_neg c2] at h
      injection h with h
      injection h with h1 h2
      have hb := fun hv q => or_bits rex ⟨r / 8 % 2, by omega⟩ ⟨pos, hp⟩ q c2 hv
      simp only at hb
      rw [h1] at hb
      refine ⟨fun hv => (hb hv 0).1, fun h => absurd h c2, fun hv _ _ => ⟨(hb hv 0).2.2.1, (hb hv 0).2.1⟩, fun hv q hq hne _ _ => ?_,
        fun hv hc => ?_⟩
      · exact (hb hv ⟨q, hq⟩).2.2.2.1 hne
      · unfold Suits
        rw [if_pos c1]
        exact ⟨(hb hv 0).2.1, (hb hv 0).2.2.1, (hb hv 0).2.2.2.2 (hc c2)⟩
  · rw [if_neg c1] at h
    by_cases c2 : r / 16 = 1 ∧ r % 8 ≥ 4
    · rw [if_pos c2] at h
      by_cases c3 : rex ≠ 0#8 ∧ rex ≠ 0xff#8
      · rw [if_pos c3] at h; cases h
      · rw [if_neg c3] at h
        injection h with h
        injection h with h1 h2
        subst h1
        refine ⟨fun _ => .inr (.inl rfl), fun _ => rfl, fun _ h0 h1 => absurd ⟨h0, h1⟩ c3, fun _ _ _ _ _ h => absurd rfl h, fun _ _ => ?_⟩
        unfold Suits
        rw [if_neg c1, if_pos c2]
        rfl
    · rw [if_neg c2] at h
      injection h with h
      injection h with h1 h2
      subst h1
      refine .refl fun _ hc => ?_
      unfold Suits
      rw [if_neg c1, if_neg c2]
      exact hc

/-- Bit `pos` of REX is left alone. -/
structure RexKeeps (pos : Nat) (rex rex' : Byte) : Prop where
  val : RexVal rex → RexVal rex'
  high : rex = 0xff#8 → rex' = 0xff#8
  present : RexVal rex → rex ≠ 0#8 → rex ≠ 0xff#8 → rex' ≠ 0#8 ∧ rex' ≠ 0xff#8
  bit : RexVal rex → rex ≠ 0xff#8 → rex' ≠ 0xff#8 → rex'.getLsbD pos = rex.getLsbD pos

theorem RexKeeps.refl (pos : Nat) (rex : Byte) : RexKeeps pos rex rex :=
  ⟨fun h => h, fun h => h, fun _ h1 h2 => ⟨h1, h2⟩, fun _ _ _ => rfl⟩

theorem RexStep.keeps {pos r : Nat} {rex rex' : Byte} (h : RexStep pos r rex rex') {q : Nat} (hq : q < 4) (hne : q ≠ pos) : RexKeeps q rex rex' :=
  ⟨h.val, h.high, h.present, fun hv h1 h2 => h.other hv q hq hne h1 h2⟩

theorem RexKeeps.clear {pos : Nat} {rex rex' : Byte} (h : RexKeeps pos rex rex') (hv : RexVal rex) (hc : Clear pos rex) : Clear pos rex' := by
  intro h1
  have h0 : rex ≠ 0xff#8 := fun e => h1 (h.high e)
  rw [h.bit hv h0 h1]
  exact hc h0

theorem RexKeeps.suits {pos r : Nat} {rex rex' : Byte} (h : RexKeeps pos rex rex') (hv : RexVal rex) (hs : Suits pos r rex) : Suits pos r rex' := by
  unfold Suits at hs ⊢
  split
  · next c =>
    rw [if_pos c] at hs
    obtain ⟨h1, h2, h3⟩ := hs
    obtain ⟨g1, g2⟩ := h.present hv h2 h1
    exact ⟨g2, g1, by rw [h.bit hv h1 g2, h3]⟩
  · next c =>
    rw [if_neg c] at hs
    split
    · next d =>
      rw [if_pos d] at hs
      exact h.high hs
    · next d =>
      rw [if_neg d] at hs
      exact h.clear hv hs

/-- The processor reads the register back. -/
theorem suits_reads {mode pos r : Nat} {rex : Byte} (he : Exists mode r) (hs : mode = 64 → Suits pos r rex) (hz : mode ≠ 64 → rex = 0#8) :
    readReg (r / 16) rex pos (r % 8) = r := by
  obtain ⟨h1, h2⟩ := he
  have hsplit : r / 16 * 16 + r % 16 = r := by omega
  by_cases hm : mode = 64
  · have hs := hs hm
    unfold Suits at hs
    unfold readReg
    dsimp only
    by_cases c1 : r / 16 = 2 ∨ r % 16 ≥ 8
    · rw [if_pos c1] at hs
      obtain ⟨s1, s2, s3⟩ := hs
      rw [s3, show decide (rex ≠ 0#8 ∧ rex ≠ 0xff#8) = true from decide_eq_true ⟨s2, s1⟩]
      simp only [Bool.true_and, decide_eq_true_eq]
      split <;> split <;> (try split) <;> omega
    · rw [if_neg c1] at hs
      by_cases c2 : r / 16 = 1 ∧ r % 8 ≥ 4
      · rw [if_pos c2] at hs
        rw [hs]
        simp
        split <;> omega
      · rw [if_neg c2] at hs
        have : (decide (rex ≠ 0#8 ∧ rex ≠ 0xff#8) && rex.getLsbD pos) = false := by
          by_cases h : rex = 0xff#8
          · simp [h]
          · rw [hs h]; simp
        rw [this]
        simp only [Bool.and_eq_true, decide_eq_true_eq, Bool.false_eq_true, if_false]
        split <;> (try split) <;> omega
  · rw [hz hm]
    unfold readReg
    simp
    split <;> omega

/-! ### One operand -/

/-- One operand placed, with what follows it. -/
def step (x : IdInsn) (g : OpInfo) (op : Operand) (b : Build) : Run Build :=
  Run.bind (place x g op b) fun b => .of (after x g op b)

theorem placeAll_cons {x : IdInsn} {g : OpInfo} {gs : List OpInfo} {op : Operand} {ops : List Operand} {b b' : Build}
    (h : (placeAll x (g :: gs) (op :: ops) b).out = .ok b') :
    ∃ b1, (step x g op b).out = .ok b1 ∧ (placeAll x gs ops b1).out = .ok b' := by
  unfold placeAll at h
  obtain ⟨b0, h0, h, _⟩ := Run.bind_out h
  obtain ⟨b1, h1, h, _⟩ := Run.bind_out h
  refine ⟨b1, ?_, h⟩
  unfold step Run.bind
  rw [h0]
  exact h1

/-- How REX may change, in a mode. -/
def Keeps' (mode pos : Nat) (rex rex' : Byte) : Prop := if mode = 64 then RexKeeps pos rex rex' else rex' = rex

theorem Keeps'.refl (mode pos : Nat) (rex : Byte) : Keeps' mode pos rex rex := by
  unfold Keeps'
  split
  · exact .refl pos rex
  · rfl

/-- What an operand leaves alone. -/
structure Same (x : IdInsn) (g : OpInfo) (b b' : Build) : Prop where
  mode : b'.common.mode = b.common.mode
  vexdata : b'.vexdata = b.vexdata
  special : b'.special = b.special
  def64 : b'.def64 = b.def64
  ea : g.action.writesEa = false → b'.ea = b.ea ∧ b'.seg = b.seg
  spare : g.action.writesR = false → b'.spare = b.spare
  vexreg : g.action.writesV = false → b'.vexreg = b.vexreg
  imm : g.action.writesImm = false → b'.imm = b.imm ∧ b'.imLen = b.imLen ∧ b'.imSign = b.imSign
  opcode : g.action ≠ .op0Add → g.action ≠ .op1Add → g.post ≠ .simm8 → b'.opcode = b.opcode
  late : g.post ≠ .shortMov → g.post ≠ .simm32Avail → b'.late = b.late
  rexB : g.action.writesB = false → ∀ q < 4, q ≠ 2 → Keeps' x.mode q b.rex b'.rex
  rexR : g.action.writesR = false → ∀ q < 4, q ≠ 0 → Keeps' x.mode q b.rex b'.rex

theorem setRexFrom_low {rex rex' low : Byte} {r mode pos : Nat} (h : setRexFrom rex r mode pos = .ok (rex', low)) :
    low = BitVec.ofNat 8 (r % 8) ∧ (mode ≠ 64 → rex' = rex) := by
  unfold setRexFrom at h
  dsimp only at h
  split at h
  · next hm =>
    refine ⟨?_, fun h => absurd hm h⟩
    split at h
    · split at h <;> cases h <;> rfl
    · split at h
      · split at h <;> cases h <;> rfl
      · cases h; rfl
  · cases h
    exact ⟨rfl, fun _ => rfl⟩

theorem setRexFrom_keeps {rex rex' low : Byte} {r mode pos q : Nat} (hp : pos < 3) (hq : q < 4) (hne : q ≠ pos)
    (h : setRexFrom rex r mode pos = .ok (rex', low)) : Keeps' mode q rex rex' := by
  unfold Keeps'
  split
  · next hm =>
    subst hm
    exact (setRexFrom_step hp h).keeps hq hne
  · next hm => exact (setRexFrom_low h).2 hm

theorem after_same {x : IdInsn} {g : OpInfo} {op : Operand} {b b' : Build} (h : after x g op b = .ok b') :
    b'.common.mode = b.common.mode ∧ b'.vexdata = b.vexdata ∧ b'.special = b.special ∧ b'.def64 = b.def64 ∧ b'.ea = b.ea ∧
    b'.seg = b.seg ∧ b'.spare = b.spare ∧ b'.vexreg = b.vexreg ∧ b'.imm = b.imm ∧ b'.imLen = b.imLen ∧ b'.imSign = b.imSign ∧
    b'.rex = b.rex ∧ (g.post ≠ .simm8 → b'.opcode = b.opcode) ∧ (g.post ≠ .shortMov → g.post ≠ .simm32Avail → b'.late = b.late) := by
  unfold after at h
  dsimp only at h
  generalize hb : (if g.size = OpSize.bits then { b with common := { b.common with opersize := x.mode } } else b) = c at h
  have hc : c.common.mode = b.common.mode ∧ c = { b with common := c.common } := by
    rw [← hb]; split <;> exact ⟨rfl, rfl⟩
  obtain ⟨c1, c2⟩ := hc
  generalize c.common = cm at c1 c2 h
  subst c2
  cases hp : g.post <;> rw [hp] at h
  · cases h; simp [c1]
  · dsimp only at h
    unfold postSimm8 at h
    split at h
    · cases h; simp [c1]
    · split at h
      · split at h
        · cases h
        · cases h; simp [c1]
      · cases h; simp [c1]
  · cases h; simp [c1]
  · cases h; simp [c1]
  · cases h; simp [c1]

theorem eaReg_some {ea : Option Effaddr} {r : Nat} {rex rex' : Byte} {mode : Nat} {ea' : Effaddr} (h : eaReg ea r rex mode = .ok (ea', rex')) :
    ea' = { ea.getD eaCreate with modrm := 0xC0 ||| BitVec.ofNat 8 (r % 8), validModrm := true, needModrm := true } ∧
      setRexFrom rex r mode 0 = .ok (rex', BitVec.ofNat 8 (r % 8)) := by
  unfold eaReg at h
  cases hs : setRexFrom rex r mode 0 with
  | error e => rw [hs] at h; cases h
  | ok p =>
    obtain ⟨p1, p2⟩ := p
    rw [hs] at h
    have := (setRexFrom_low hs).1
    cases h
    rw [this]
    exact ⟨rfl, rfl⟩

/-- What the placement itself leaves alone. -/
structure Untouched (x : IdInsn) (a : Action) (b b' : Build) : Prop where
  common : b'.common.mode = b.common.mode
  vexdata : b'.vexdata = b.vexdata
  special : b'.special = b.special
  def64 : b'.def64 = b.def64
  late : b'.late = b.late
  ea : a.writesEa = false → b'.ea = b.ea ∧ b'.seg = b.seg
  spare : a.writesR = false → b'.spare = b.spare
  vexreg : a.writesV = false → b'.vexreg = b.vexreg
  imm : a.writesImm = false → b'.imm = b.imm ∧ b'.imLen = b.imLen ∧ b'.imSign = b.imSign
  opcode : a ≠ .op0Add → a ≠ .op1Add → b'.opcode = b.opcode
  rexB : a.writesB = false → ∀ q < 4, q ≠ 2 → Keeps' x.mode q b.rex b'.rex
  rexR : a.writesR = false → ∀ q < 4, q ≠ 0 → Keeps' x.mode q b.rex b'.rex

theorem Untouched.refl (x : IdInsn) (a : Action) (b : Build) : Untouched x a b b :=
  ⟨rfl, rfl, rfl, rfl, rfl, fun _ => ⟨rfl, rfl⟩, fun _ => rfl, fun _ => rfl, fun _ => ⟨rfl, rfl, rfl⟩, fun _ _ => rfl,
    fun _ _ _ _ => .refl _ _ _, fun _ _ _ _ => .refl _ _ _⟩

theorem place_same {x : IdInsn} {g : OpInfo} {op : Operand} {b b' : Build} (h : (place x g op b).out = .ok b') :
    Untouched x g.action b b' := by
  unfold place at h
  cases ha : g.action <;> rw [ha] at h <;> dsimp only [Run.of] at h
  · cases h; exact .refl _ _ _
  · -- ea
    unfold placeEa at h
    split at h
    · next r _ =>
      split at h
      · cases h
      · next ea rex he =>
        have := (eaReg_some he).2
        cases h
        exact ⟨rfl, rfl, rfl, rfl, rfl, fun h => (by cases h), fun _ => rfl, fun _ => rfl, fun _ => ⟨rfl, rfl, rfl⟩, fun _ _ => rfl,
          fun h => (by cases h), fun _ _ hq hne => setRexFrom_keeps (by omega) hq hne this⟩
    · cases h
    · split at h
      · cases h
      · cases h
        exact ⟨rfl, rfl, rfl, rfl, rfl, fun h => (by cases h), fun _ => rfl, fun _ => rfl, fun _ => ⟨rfl, rfl, rfl⟩, fun _ _ => rfl,
          fun h => (by cases h), fun _ _ _ _ => .refl _ _ _⟩
    · cases h
      exact ⟨rfl, rfl, rfl, rfl, rfl, fun h => (by cases h), fun _ => rfl, fun _ => rfl, fun _ => ⟨rfl, rfl, rfl⟩, fun _ _ => rfl,
          fun h => (by cases h), fun _ _ _ _ => .refl _ _ _⟩
  · -- imm
    unfold placeImm at h
    split at h
    · cases h
    · split at h
      · cases h
        exact ⟨rfl, rfl, rfl, rfl, rfl, fun _ => ⟨rfl, rfl⟩, fun _ => rfl, fun _ => rfl, fun h => (by cases h), fun _ _ => rfl,
          fun _ _ _ _ => .refl _ _ _, fun _ _ _ _ => .refl _ _ _⟩
      · cases h
  · unfold placeImm at h
    split at h
    · cases h
    · split at h
      · cases h
        exact ⟨rfl, rfl, rfl, rfl, rfl, fun _ => ⟨rfl, rfl⟩, fun _ => rfl, fun _ => rfl, fun h => (by cases h), fun _ _ => rfl,
          fun _ _ _ _ => .refl _ _ _, fun _ _ _ _ => .refl _ _ _⟩
      · cases h
  · -- spare
    unfold placeSpare at h
    split at h
    · cases h
      exact ⟨rfl, rfl, rfl, rfl, rfl, fun _ => ⟨rfl, rfl⟩, fun h => (by cases h), fun _ => rfl, fun _ => ⟨rfl, rfl, rfl⟩, fun _ _ => rfl,
          fun _ _ _ _ => .refl _ _ _, fun _ _ _ _ => .refl _ _ _⟩
    · split at h
      · cases h
      · next rex low he =>
        cases h
        exact ⟨rfl, rfl, rfl, rfl, rfl, fun _ => ⟨rfl, rfl⟩, fun h => (by cases h), fun _ => rfl, fun _ => ⟨rfl, rfl, rfl⟩, fun _ _ => rfl,
          fun _ _ hq hne => setRexFrom_keeps (by omega) hq hne he, fun h => (by cases h)⟩
    · cases h
  · -- op0Add
    unfold placeOpAdd at h
    split at h
    · cases h
    · split at h
      · cases h
      · next rex low he =>
        cases h
        exact ⟨rfl, rfl, rfl, rfl, rfl, fun _ => ⟨rfl, rfl⟩, fun _ => rfl, fun _ => rfl, fun _ => ⟨rfl, rfl, rfl⟩, fun h => absurd rfl h,
          fun h => (by cases h), fun _ _ hq hne => setRexFrom_keeps (by omega) hq hne he⟩
  · unfold placeOpAdd at h
    split at h
    · cases h
    · split at h
      · cases h
      · next rex low he =>
        cases h
        exact ⟨rfl, rfl, rfl, rfl, rfl, fun _ => ⟨rfl, rfl⟩, fun _ => rfl, fun _ => rfl, fun _ => ⟨rfl, rfl, rfl⟩, fun _ h => absurd rfl h,
          fun h => (by cases h), fun _ _ hq hne => setRexFrom_keeps (by omega) hq hne he⟩
  · -- spareEA
    unfold placeSpareEa at h
    split at h
    · cases h
    · split at h
      · cases h
      · split at h
        · cases h
        · cases h
          exact ⟨rfl, rfl, rfl, rfl, rfl, fun h => (by cases h), fun h => (by cases h), fun _ => rfl, fun _ => ⟨rfl, rfl, rfl⟩, fun _ _ => rfl,
            fun h => (by cases h), fun h => (by cases h)⟩
  · cases h
  · cases h
  · cases h
  · -- adSizeEA
    unfold placeAdSize at h
    split at h
    · split at h
      · cases h
      · split at h
        · cases h
        · split at h
          · cases h
            exact ⟨rfl, rfl, rfl, rfl, rfl, fun _ => ⟨rfl, rfl⟩, fun _ => rfl, fun _ => rfl, fun _ => ⟨rfl, rfl, rfl⟩, fun _ _ => rfl,
              fun _ _ _ _ => .refl _ _ _, fun _ _ _ _ => .refl _ _ _⟩
          · split at h
            · cases h
              exact ⟨rfl, rfl, rfl, rfl, rfl, fun _ => ⟨rfl, rfl⟩, fun _ => rfl, fun _ => rfl, fun _ => ⟨rfl, rfl, rfl⟩, fun _ _ => rfl,
                fun _ _ _ _ => .refl _ _ _, fun _ _ _ _ => .refl _ _ _⟩
            · split at h
              · cases h
                exact ⟨rfl, rfl, rfl, rfl, rfl, fun _ => ⟨rfl, rfl⟩, fun _ => rfl, fun _ => rfl, fun _ => ⟨rfl, rfl, rfl⟩, fun _ _ => rfl,
                  fun _ _ _ _ => .refl _ _ _, fun _ _ _ _ => .refl _ _ _⟩
              · cases h
    · cases h
  · -- vex
    unfold placeVex at h
    split at h
    · cases h
    · cases h
      exact ⟨rfl, rfl, rfl, rfl, rfl, fun _ => ⟨rfl, rfl⟩, fun _ => rfl, fun h => (by cases h), fun _ => ⟨rfl, rfl, rfl⟩, fun _ _ => rfl,
        fun _ _ _ _ => .refl _ _ _, fun _ _ _ _ => .refl _ _ _⟩
  · -- eaVEX
    unfold placeEaVex at h
    split at h
    · cases h
    · split at h
      · cases h
      · next ea rex he =>
        have := (eaReg_some he).2
        cases h
        exact ⟨rfl, rfl, rfl, rfl, rfl, fun h => (by cases h), fun _ => rfl, fun h => (by cases h), fun _ => ⟨rfl, rfl, rfl⟩, fun _ _ => rfl,
          fun h => (by cases h), fun _ _ hq hne => setRexFrom_keeps (by omega) hq hne this⟩
  · -- spareVEX
    unfold placeSpareVex at h
    split at h
    · cases h
    · split at h
      · cases h
      · next rex low he =>
        cases h
        exact ⟨rfl, rfl, rfl, rfl, rfl, fun _ => ⟨rfl, rfl⟩, fun h => (by cases h), fun h => (by cases h), fun _ => ⟨rfl, rfl, rfl⟩, fun _ _ => rfl,
          fun _ _ hq hne => setRexFrom_keeps (by omega) hq hne he, fun h => (by cases h)⟩
  · -- vexImmSrc
    unfold placeImmSrc at h
    split at h
    · cases h
    · split at h
      · cases h
        exact ⟨rfl, rfl, rfl, rfl, rfl, fun _ => ⟨rfl, rfl⟩, fun _ => rfl, fun _ => rfl, fun h => (by cases h), fun _ _ => rfl,
          fun _ _ _ _ => .refl _ _ _, fun _ _ _ _ => .refl _ _ _⟩
      · obtain ⟨_, _, h, _⟩ := Run.bind_out h
        obtain ⟨_, _, h, _⟩ := Run.bind_out h
        cases h
        exact ⟨rfl, rfl, rfl, rfl, rfl, fun _ => ⟨rfl, rfl⟩, fun _ => rfl, fun _ => rfl, fun h => (by cases h), fun _ _ => rfl,
          fun _ _ _ _ => .refl _ _ _, fun _ _ _ _ => .refl _ _ _⟩
  · -- vexImm
    unfold placeVexImm at h
    split at h
    · split at h
      · cases h
        exact ⟨rfl, rfl, rfl, rfl, rfl, fun _ => ⟨rfl, rfl⟩, fun _ => rfl, fun _ => rfl, fun h => (by cases h), fun _ _ => rfl,
          fun _ _ _ _ => .refl _ _ _, fun _ _ _ _ => .refl _ _ _⟩
      · obtain ⟨_, _, h, _⟩ := Run.bind_out h
        obtain ⟨_, _, h, _⟩ := Run.bind_out h
        obtain ⟨_, _, h, _⟩ := Run.bind_out h
        cases h
        exact ⟨rfl, rfl, rfl, rfl, rfl, fun _ => ⟨rfl, rfl⟩, fun _ => rfl, fun _ => rfl, fun h => (by cases h), fun _ _ => rfl,
          fun _ _ _ _ => .refl _ _ _, fun _ _ _ _ => .refl _ _ _⟩
    · cases h

theorem step_out {x : IdInsn} {g : OpInfo} {op : Operand} {b b' : Build} (h : (step x g op b).out = .ok b') :
    ∃ c, (place x g op b).out = .ok c ∧ after x g op c = .ok b' := by
  unfold step at h
  obtain ⟨c, h1, h2, _⟩ := Run.bind_out h
  exact ⟨c, h1, h2⟩

theorem step_same {x : IdInsn} {g : OpInfo} {op : Operand} {b b' : Build} (h : (step x g op b).out = .ok b') : Same x g b b' := by
  obtain ⟨c, h1, h2⟩ := step_out h
  have p := place_same h1
  obtain ⟨a1, a2, a3, a4, a5, a6, a7, a8, a9, a10, a11, a12, a13, a14⟩ := after_same h2
  exact
    { mode := a1.trans p.common, vexdata := a2.trans p.vexdata, special := a3.trans p.special, def64 := a4.trans p.def64,
      ea := fun h => ⟨a5.trans (p.ea h).1, a6.trans (p.ea h).2⟩, spare := fun h => a7.trans (p.spare h),
      vexreg := fun h => a8.trans (p.vexreg h),
      imm := fun h => ⟨a9.trans (p.imm h).1, a10.trans (p.imm h).2.1, a11.trans (p.imm h).2.2⟩,
      opcode := fun h0 h1 h2 => (a13 h2).trans (p.opcode h0 h1), late := fun h0 h1 => (a14 h0 h1).trans p.late,
      rexB := fun h => by rw [a12]; exact p.rexB h, rexR := fun h => by rw [a12]; exact p.rexR h }

end Verif.Match
