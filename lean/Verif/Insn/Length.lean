/-
The bytes of an instruction are as many as were counted.
-/
import Verif.Insn.Spec
import Verif.Ea.Usage

set_option linter.unusedSimpArgs false

namespace Verif.Insn

open Verif.Intnum
open Verif.Expr
open Verif.Value
open Verif.Ea

/-! ### Running -/

theorem bind_internal {α β : Type} {x : Run α} {f : α → Run β} (h : (x.bind f).out = .error .internal) :
    x.out = .error .internal ∨ ∃ a, x.out = .ok a ∧ (f a).out = .error .internal := by
  unfold Run.bind at h
  cases hx : x.out with
  | error e => rw [hx] at h; dsimp only at h; cases h; exact Or.inl rfl
  | ok a => rw [hx] at h; exact Or.inr ⟨a, rfl, h⟩

/-! ### The effective address is ready to be written -/

/-- The ModRM and SIB bytes are there if they are needed; a displacement that is not needed is not counted. -/
structure Settled (ea : Effaddr) : Prop where
  modrm : ea.needModrm = true → ea.validModrm = true
  sib : ea.needSib ≠ 0 → ea.validSib = true
  disp : ea.needDisp = false → ea.size = 0 ∧ ea.needNonzero = false

theorem calcDisplen_settled {c : Ctx} {nequ : Nat} {ea : Effaddr} {w : Nat} {n d : Bool} {x : Effaddr}
    (h : (calcDisplen c nequ ea w n d).out = .ok x) (hd : ea.needDisp = true) :
    x.validModrm = true ∧ x.needSib = ea.needSib ∧ x.validSib = ea.validSib ∧
      (x.needDisp = false → x.size = 0 ∧ x.needNonzero = false) := by
  unfold calcDisplen at h
  extract_lets ea1 ea2 d at h
  have h1 : ea1.needDisp = true := hd
  have h1s : ea1.needSib = ea.needSib ∧ ea1.validSib = ea.validSib := ⟨rfl, rfl⟩
  have h2 : ea2.needDisp = true := hd
  have h2s : ea2.needSib = ea.needSib ∧ ea2.validSib = ea.validSib := ⟨rfl, rfl⟩
  have h2z : ea2.size = ea1.size := rfl
  clear_value ea2
  split at h
  · simp only [Run.of, Except.ok.injEq] at h
    split at h <;> subst h <;> simp_all
  · split at h
    · split at h
      · cases h
      · simp only [Run.of, Except.ok.injEq] at h
        subst h; simp_all
    · split at h
      · cases h
      · rename_i hz
        have hz : ea1.size = 0 := by omega
        split at h
        · simp only [Run.of, Except.ok.injEq] at h
          subst h; simp_all
        · split at h
          · simp only [Run.of, Except.ok.injEq] at h
            subst h; simp_all
          · obtain ⟨num, _, h, _⟩ := Run.bind_out h
            simp only [Run.of, Except.ok.injEq] at h
            split at h
            · subst h; simp_all
            · split at h
              · rename_i hb
                simp only [Bool.and_eq_true, Bool.not_eq_true'] at hb
                subst h
                exact ⟨rfl, h2s.1, h2s.2, fun _ => ⟨by rw [h2z]; exact hz, hb.2⟩⟩
              · split at h <;> subst h <;> simp_all

theorem takeRegs_need {c : Ctx} {nequ absSym : Nat} {g : Nat → Option Nat} {want : Bool} {bits : Nat} {ea : Effaddr}
    {x : Effaddr × Usage} (h : (takeRegs c nequ absSym g want bits ea).out = .ok x) :
    x.1.needDisp = ea.needDisp ∧ x.1.needSib = ea.needSib ∧ x.1.needModrm = ea.needModrm := by
  unfold takeRegs at h
  split at h
  · cases h; simp
  · obtain ⟨y, _, h, _⟩ := Run.bind_out h
    simp only [Run.of, Except.ok.injEq] at h
    subst h
    dsimp only
    split <;> simp

theorem setRex_mode {rex : BitVec 8} {n bits pos : Nat} {x : BitVec 8 × BitVec 8} (hb : bits ≠ 64)
    (h : setRex rex n bits pos = .ok x) : x.1 = rex := by
  unfold setRex at h
  dsimp only at h
  rw [if_neg (fun h => hb h.1)] at h
  cases h; rfl

theorem makeSib_mode {bits : Nat} {rex : BitVec 8} {r : Regs} {x : BitVec 8 × BitVec 8} (hb : bits ≠ 64)
    (h : makeSib bits rex r = .ok x) : x.1 = rex := by
  unfold makeSib at h
  extract_lets b at h
  have hb' : ∀ y, b = .ok y → y.1 = rex := by
    intro y hy
    simp only [b] at hy
    split at hy
    · cases hy; rfl
    · exact setRex_mode hb hy
  clear_value b
  split at h
  · cases h
  · rename_i rex' s
    have h1 := hb' _ rfl
    dsimp only at h1
    split at h
    · cases h; exact h1
    · split at h
      · cases h
      · rename_i hs
        cases h
        exact (setRex_mode hb hs).trans h1

theorem rmField_settled {ea : Effaddr} {bits : Nat} {rex : BitVec 8} {r : Regs} {x : Effaddr × BitVec 8}
    (h : rmField ea bits rex r = .ok x) :
    x.1.needDisp = ea.needDisp ∧ (x.1.needSib = 0 ∨ x.1.needSib = 1) ∧ (bits ≠ 64 → x.2 = rex) := by
  unfold rmField at h
  split at h
  · split at h <;> cases h <;> simp
  · split at h
    · cases h
    · rename_i hs
      split at h <;> cases h <;> simp <;> intro hb <;> exact setRex_mode hb hs
  · cases h; simp

theorem addSib_settled {bits : Nat} {r : Regs} {y x : Effaddr × BitVec 8} (h : addSib bits r y = .ok x)
    (hn : y.1.needSib = 0 ∨ y.1.needSib = 1) :
    x.1.needDisp = y.1.needDisp ∧ (x.1.needSib ≠ 0 → x.1.validSib = true) ∧ (bits ≠ 64 → x.2 = y.2) := by
  unfold addSib at h
  split at h
  · split at h
    · cases h
    · rename_i hs
      cases h
      exact ⟨rfl, fun _ => rfl, fun hb => makeSib_mode hb hs⟩
  · cases h
    exact ⟨rfl, fun h => by omega, fun _ => rfl⟩

theorem encodeRegs_settled {c : Ctx} {nequ absSym : Nat} {ea : Effaddr} {bits : Nat} {rex : BitVec 8} {r : Regs}
    {x : Effaddr × BitVec 8} (h : (encodeRegs c nequ absSym ea bits rex r).out = .ok x) (hd : ea.needDisp = true) :
    Settled x.1 ∧ (bits ≠ 64 → x.2 = rex) := by
  unfold encodeRegs at h
  extract_lets t r1 e1 e2 at h
  have h2 : e2.needDisp = true := by
    simp only [e2, e1]
    split <;> exact hd
  clear_value r1 e2
  split at h
  · cases h
    exact ⟨⟨fun _ => rfl, fun h => absurd rfl h, fun h => by simp_all⟩, fun _ => rfl⟩
  · obtain ⟨a, ha, h, _⟩ := Run.bind_out h
    obtain ⟨b, hb, h, _⟩ := Run.bind_out h
    obtain ⟨d, hd, h, _⟩ := Run.bind_out h
    simp only [Run.of, Except.ok.injEq] at ha hb h
    subst h
    have ka := rmField_settled ha
    have kb := addSib_settled hb ka.2.1
    have kd := calcDisplen_settled hd (by rw [kb.1, ka.1]; exact h2)
    exact ⟨⟨fun _ => kd.1, fun hs => by rw [kd.2.2.1]; exact kb.2.1 (by rw [← kd.2.1]; exact hs), kd.2.2.2⟩,
      fun hb => by dsimp only; rw [kb.2.2 hb, ka.2.2 hb]⟩

theorem regSize_size : (∀ t n, regSize t = some n → n = 16 ∨ n = 32 ∨ n = 64) ∧
    (∀ ts n, regSizeL ts = some n → n = 16 ∨ n = 32 ∨ n = 64) := by
  apply item_ind
  · intro t ht n hn
    cases t
    case expr => exact absurd ht id
    case reg q =>
      simp only [regSize] at hn
      split at hn <;> simp at hn <;> omega
    all_goals simp [regSize] at hn
  · intro op ts ih n hn; simp only [regSize] at hn; exact ih n hn
  · intro n hn; simp [regSizeL] at hn
  · intro t ts ht hts n hn
    simp only [regSizeL] at hn
    split at hn
    · rename_i k hk
      simp only [Option.some.injEq] at hn
      subst hn; exact ht k hk
    · exact hts n hn

theorem addrSize_size {ea : Effaddr} {bits a : Nat} (hbits : bits = 16 ∨ bits = 32 ∨ bits = 64)
    (h1 : addrSize ea bits = .ok a) : a = 16 ∨ a = 32 ∨ a = 64 := by
  unfold addrSize at h1
  extract_lets byRegs at h1
  have hby : byRegs = 16 ∨ byRegs = 32 ∨ byRegs = 64 := by
    simp only [byRegs]
    split
    · omega
    · split
      · exact hbits
      · rename_i e he
        cases hr : regSizeL e.terms with
        | none => simpa using hbits
        | some n => simpa using regSize_size.2 _ n hr
  clear_value byRegs
  split at h1
  · cases h1; simp
  · split at h1
    · split at h1
      · cases h1
      · cases h1; simp
    · split at h1
      · split at h1
        · cases h1; simp
        · cases h1; exact hby
      · cases h1; exact hby

theorem checkea_settled {c : Ctx} {nequ absSym : Nat} {ea : Effaddr} {addrsize bits : Nat} {a16 : Bool} {rex : BitVec 8}
    {r : Checked} (h : (checkea c nequ absSym ea addrsize bits a16 rex).out = .ok r) (hk : Kind ea)
    (hbits : bits = 16 ∨ bits = 32 ∨ bits = 64) (ha : addrsize = 0 ∨ addrsize = 16 ∨ addrsize = 32 ∨ addrsize = 64) :
    Settled r.ea ∧ (bits ≠ 64 → r.rex = rex) := by
  unfold checkea at h
  obtain ⟨a, h1, h, _⟩ := Run.bind_out h
  have hA : a = 16 ∨ a = 32 ∨ a = 64 := by
    simp only [Run.of] at h1
    split at h1
    · exact addrSize_size hbits h1
    · cases h1; omega
  split at h
  · rename_i hc
    have hd : ea.needDisp = true := by
      rcases hk with k | k | k
      · exact k.2.2.1
      · exact absurd hc.2 (by simp [k.1, k.2.1, k.2.2.1])
      · exact k.2.2
    unfold check3264 at h
    split at h
    · cases h
    · extract_lets e1 at h
      have h1 : e1.needDisp = true := by simp only [e1]; split <;> exact hd
      clear_value e1
      obtain ⟨x, hx, h, _⟩ := Run.bind_out h
      obtain ⟨y, _, h, _⟩ := Run.bind_out h
      obtain ⟨z, hz, h, _⟩ := Run.bind_out h
      cases h
      exact encodeRegs_settled hz (by rw [(takeRegs_need hx).1]; exact h1)
  · split at h
    · rename_i hc
      have hd : ea.needDisp = true := by
        rcases hk with k | k | k
        · exact k.2.2.1
        · exact absurd hc.2.2 (by simp [k.2.1])
        · exact k.2.2
      unfold check16 at h
      split at h
      · cases h
      · extract_lets e1 at h
        have h1 : e1.needDisp = true ∧ e1.needSib = 0 := ⟨hd, rfl⟩
        clear_value e1
        obtain ⟨x, hx, h, _⟩ := Run.bind_out h
        dsimp only at h
        split at h
        · cases h
        · split at h
          · cases h
          · obtain ⟨z, hz, h, _⟩ := Run.bind_out h
            cases h
            have k := calcDisplen_settled hz (by dsimp only; rw [(takeRegs_need hx).1]; exact h1.1)
            dsimp only at k ⊢
            refine ⟨⟨fun _ => k.1, fun hs => absurd ?_ hs, k.2.2.2⟩, fun _ => rfl⟩
            rw [k.2.1, (takeRegs_need hx).2.1]; exact h1.2
    · rename_i hc1 hc2
      split at h
      · rename_i hc3
        have hd : ea.needDisp = true := by
          rcases hk with k | k | k
          · exact k.2.2.1
          · exact absurd hc3.1 (by simp [k.1])
          · exact k.2.2
        simp only [Run.of] at h
        have hs : ∀ z, Settled { ea with size := z } :=
          fun z => ⟨fun h => by simp_all, fun h => absurd hc3.2 h, fun h => by simp_all⟩
        unfold checkMoffs at h
        (repeat' split at h) <;> cases h <;> exact ⟨hs _, fun _ => rfl⟩
      · cases h
        rename_i hc3
        refine ⟨?_, fun _ => rfl⟩
        rcases hk with k | k | k
        · exfalso
          rcases hA with rfl | rfl | rfl
          · exact hc2 ⟨rfl, k.1, k.2.1⟩
          · exact hc1 ⟨Or.inl rfl, by simp [k.1, k.2.1]⟩
          · exact hc1 ⟨Or.inr rfl, by simp [k.1, k.2.1]⟩
        · exact ⟨fun _ => k.2.1, fun h => absurd k.2.2.1 h, fun hd => k.2.2.2.1.resolve_left (by rw [hd]; simp)⟩
        · exact absurd ⟨k.1, k.2.1⟩ hc3

/-- Once the unknown displacements have their byte. -/
structure Sized (ea : Effaddr) : Prop where
  modrm : ea.needModrm = true → ea.validModrm = true
  sib : ea.needSib ≠ 0 → ea.validSib = true
  disp : ea.needDisp = false → ea.size = 0

theorem dispSpan_sized {ea : Effaddr} (h : Settled ea) : Sized (dispSpan ea).1 := by
  unfold dispSpan
  split
  · rename_i hc
    refine ⟨h.modrm, h.sib, fun hd => ?_⟩
    have := (h.disp hd).2
    rw [hc.2] at this; cases this
  · exact ⟨h.modrm, h.sib, fun hd => (h.disp hd).1⟩

/-! ### The invariant of an instruction that has been counted -/

/-- The bytes the immediate will take. -/
def immLen (i : Insn) : Nat :=
  match i.imm with
  | none => 0
  | some imm => if i.postop = .signextImm8 then 1 else imm.size / 8

/-- The bytes the effective address will take. -/
def eaBytesLen (i : Insn) : Nat :=
  match i.ea with
  | none => 0
  | some ea => eaLen ea i.seg

/-- Is there a REX byte? -/
def rexLen (i : Insn) : Nat :=
  if i.special ≠ 0xC4#8 ∧ i.special ≠ 0x8F#8 ∧ i.special ≠ 0xC5#8 ∧ i.rex ≠ 0xff#8 ∧ i.rex ≠ 0#8 then 1 else 0

/-- What holds between counting and writing. -/
structure Counted (i : Insn) (len : Nat) : Prop where
  len : len = commonLen i.common + (if i.special ≠ 0 then 1 else 0) + rexLen i + i.opcode.len + eaBytesLen i + immLen i
  opcode : i.opcode.len ≤ 3
  word : i.imm.isSome = true → i.postop = .signextImm8 → i.opcode.len ≤ 2
  ea : ∀ ea, i.ea = some ea → Sized ea
  seg : i.seg = 0#16 ∨ (i.seg >>> 8).truncate 8 ≠ (0#8 : Byte)
  rex : i.common.mode ≠ 64 → rexLen i = 0
  vex2 : i.special = 0xC5#8 → i.rex = 0xff#8 ∨ i.rex &&& 0x0B#8 = 0#8

theorem at_ok {o : Opcode} {k : Nat} (h : k ≤ 2) : ∃ b, o.at k = .ok b := by
  unfold Opcode.at
  match k, h with
  | 0, _ => exact ⟨_, rfl⟩
  | 1, _ => exact ⟨_, rfl⟩
  | 2, _ => exact ⟨_, rfl⟩

/-- What holds once the effective address has been counted. -/
structure EaDone (i : Insn) (n : Nat) : Prop where
  len : n = eaBytesLen i
  ea : ∀ ea, i.ea = some ea → Sized ea
  rex : i.common.mode ≠ 64 → i.rex = 0#8 ∨ i.rex = 0xff#8

theorem countEa_done {c : Ctx} {nequ absSym : Nat} {i : Insn} {r : Count Insn} (s : Start i)
    (h : (countEa c nequ absSym i).out = .ok r) :
    EaDone r.insn r.len ∧ r.insn.opcode = i.opcode ∧ r.insn.special = i.special ∧ r.insn.postop = i.postop ∧
      r.insn.seg = i.seg ∧ r.insn.imm = i.imm ∧ r.insn.common.mode = i.common.mode := by
  unfold countEa at h
  split at h
  · rename_i he
    cases h
    exact ⟨⟨by simp [eaBytesLen, he], by simp [he], s.rex⟩, rfl, rfl, rfl, rfl, rfl, rfl⟩
  · rename_i ea he
    obtain ⟨x, hx, h, _⟩ := Run.bind_out h
    cases h
    obtain ⟨k1, k2⟩ := checkea_settled hx (s.ea ea he) s.mode s.addrsize
    refine ⟨⟨rfl, ?_, ?_⟩, rfl, rfl, rfl, rfl, rfl, rfl⟩
    · intro e h'
      simp only [Option.some.injEq] at h'
      subst h'
      exact dispSpan_sized k1
    · intro hm
      dsimp only at hm ⊢
      rw [k2 hm]; exact s.rex hm

theorem wordOpcode_ok {i i' : Insn} (h : wordOpcode i = .ok i') :
    i'.opcode.len = 1 ∧ i'.postop = .none ∧ i'.imm = i.imm ∧ i'.ea = i.ea ∧ i'.seg = i.seg ∧ i'.special = i.special ∧
      i'.rex = i.rex ∧ i'.common = i.common ∧ i.opcode.at i.opcode.len = .ok i'.opcode.b0 := by
  unfold wordOpcode at h
  split at h
  · cases h
  · rename_i hb; cases h; exact ⟨rfl, rfl, rfl, rfl, rfl, rfl, rfl, rfl, hb⟩

theorem eaBytesLen_congr {i j : Insn} (h1 : j.ea = i.ea) (h2 : j.seg = i.seg) : eaBytesLen j = eaBytesLen i := by
  unfold eaBytesLen; rw [h1, h2]

theorem countImm_done {c : Ctx} {nequ : Nat} {i : Insn} {r : Count Insn} (h : (countImm c nequ i).out = .ok r)
    (ho : i.opcode.len ≤ 3) (hw : i.imm.isSome = true → i.postop = .signextImm8 → i.opcode.len ≤ 2) :
    r.len = immLen r.insn ∧ r.insn.opcode.len ≤ 3 ∧
      (r.insn.imm.isSome = true → r.insn.postop = .signextImm8 → r.insn.opcode.len ≤ 2) ∧
      r.insn.ea = i.ea ∧ r.insn.seg = i.seg ∧ r.insn.special = i.special ∧ r.insn.rex = i.rex ∧
      r.insn.common = i.common := by
  unfold countImm at h
  split at h
  · rename_i hi
    cases h
    exact ⟨by simp [immLen, hi], ho, hw, rfl, rfl, rfl, rfl, rfl⟩
  · rename_i imm hi
    split at h
    · rename_i hp
      obtain ⟨num, _, h, _⟩ := Run.bind_out h
      split at h
      · cases h
        exact ⟨by simp [immLen, hi, hp], ho, hw, rfl, rfl, rfl, rfl, rfl⟩
      · split at h
        · cases h
          exact ⟨by simp [immLen], ho, (by intro _ h; cases h), rfl, rfl, rfl, rfl, rfl⟩
        · simp only [Run.of] at h
          obtain ⟨i', h1, rfl⟩ := map_ok h
          obtain ⟨k1, k2, k3, k4, k5, k6, k7, k8, _⟩ := wordOpcode_ok h1
          dsimp only
          exact ⟨by simp [immLen, k3, hi, k2], by omega, fun _ _ => by omega, k4, k5, k6, k7, k8⟩
    · rename_i hp
      cases h
      exact ⟨by simp [immLen, hi, hp], ho, hw, rfl, rfl, rfl, rfl, rfl⟩

/-- Counting establishes the invariant. -/
theorem calcLen_counted {c : Ctx} {nequ absSym : Nat} {i : Insn} {r : Count Insn} (s : Start i)
    (h : (calcLen c nequ absSym i).out = .ok r) : Counted r.insn r.len := by
  unfold calcLen at h
  obtain ⟨a, ha, h, _⟩ := Run.bind_out h
  obtain ⟨b, hb, h, _⟩ := Run.bind_out h
  obtain ⟨ka, k1, k2, k3, k4, k5, k6⟩ := countEa_done s ha
  obtain ⟨m1, m2, m3, m4, m5, m6, m7, m8⟩ := countImm_done hb (by rw [k1]; exact s.opcode)
    (by rw [k1, k3, k5]; exact s.word)
  have hm : b.insn.common.mode ≠ 64 → b.insn.rex = 0#8 ∨ b.insn.rex = 0xff#8 := by
    rw [m7, m8]; exact ka.rex
  have hsp : b.insn.special ≠ 0xC5#8 := by rw [m6, k2]; exact s.special
  have hseg : b.insn.seg = 0#16 ∨ (b.insn.seg >>> 8).truncate 8 ≠ (0#8 : Byte) := by rw [m5, k4]; exact s.seg
  have hea : ∀ ea, b.insn.ea = some ea → Sized ea := by rw [m4]; exact ka.ea
  have hlen : a.len = eaBytesLen b.insn := ka.len.trans (eaBytesLen_congr m4 m5).symm
  obtain ⟨i, lb, sb⟩ := b
  dsimp only at *
  cases h
  dsimp only
  unfold countVex
  split
  · rename_i h4
    split
    · rename_i hv
      unfold shortVex at hv
      have hv := of_decide_eq_true hv
      refine ⟨?_, by simp, fun _ _ => by simp, hea, hseg, fun _ => by simp [rexLen], fun _ => hv.2.2⟩
      simp only [rexLen, eaBytesLen, immLen] at *
      rw [hlen, m1]
      simp
      omega
    · refine ⟨?_, m2, m3, hea, hseg, fun _ => by simp [rexLen, h4], fun h => absurd h hsp⟩
      simp only [rexLen, h4] at *
      rw [hlen, m1]
      simp
      omega
  · rename_i h4
    have hrex : i.common.mode ≠ 64 → rexLen i = 0 := by
      intro h
      unfold rexLen
      rw [if_neg]
      rintro ⟨_, _, _, q1, q2⟩
      rcases hm h with h | h
      · exact q2 h
      · exact q1 h
    split
    · rename_i hr
      refine ⟨?_, m2, m3, hea, hseg, hrex, fun h => absurd h hsp⟩
      have : rexLen i = 1 := by
        unfold rexLen; rw [if_pos ⟨h4, hr.2.2.2, hr.2.2.1, hr.1, hr.2.1⟩]
      rw [this]
      dsimp only
      omega
    · rename_i hr
      refine ⟨?_, m2, m3, hea, hseg, hrex, fun h => absurd h hsp⟩
      have : rexLen i = 0 := by
        unfold rexLen; rw [if_neg]
        rintro ⟨q1, q2, q3, q4, q5⟩
        exact hr ⟨q4, q5, q3, q2⟩
      rw [this]
      dsimp only
      omega

/-- Widening keeps it. -/
theorem expand_counted {i i' : Insn} {len len' span : Nat} (k : Counted i len) (h : expand i len span = .ok (i', len')) :
    Counted i' len' := by
  unfold expand at h
  split at h
  · simp only [Except.ok.injEq] at h
    unfold expandDisp at h
    split at h
    · cases h; exact k
    · rename_i ea he
      split at h
      · rename_i h8
        dsimp only at h
        cases h
        have hz := k.ea ea he
        refine ⟨?_, k.opcode, k.word, ?_, k.seg, k.rex, k.vex2⟩
        · have := k.len
          simp only [rexLen, eaBytesLen, immLen, he, eaLen, h8] at this ⊢
          omega
        · intro e h'
          simp only [Option.some.injEq] at h'
          subst h'
          refine ⟨hz.modrm, hz.sib, fun hd => ?_⟩
          have := hz.disp hd
          omega
      · cases h; exact k
  · split at h
    · unfold expandImm at h
      split at h
      · cases h; exact k
      · rename_i imm hi
        split at h
        · rename_i hp
          obtain ⟨i2, h1, h2⟩ := map_ok h
          cases h2
          obtain ⟨k1, k2, k3, k4, k5, k6, k7, k8, _⟩ := wordOpcode_ok h1
          have hr : rexLen i' = rexLen i := by unfold rexLen; rw [k6, k7]
          refine ⟨?_, by omega, fun _ _ => by omega, by rw [k4]; exact k.ea, by rw [k5]; exact k.seg, ?_,
            by rw [k6, k7]; exact k.vex2⟩
          · have := k.len
            rw [hr, k8, k6, eaBytesLen_congr k4 k5, k1]
            simp only [immLen, k3, hi, k2, hp] at this ⊢
            simp only [if_true, reduceCtorEq, if_false] at this ⊢
            omega
          · rw [hr, k8]; exact k.rex
        · cases h; exact k
    · cases h; exact k

theorem expand_no_internal {i : Insn} {len span : Nat} (k : Counted i len) : expand i len span ≠ .error .internal := by
  unfold expand
  split
  · simp
  · split
    · unfold expandImm
      split
      · simp
      · rename_i imm hi
        split
        · rename_i hp
          obtain ⟨b, hb⟩ := at_ok (o := i.opcode) (k.word (by simp [hi]) hp)
          unfold wordOpcode
          rw [hb]
          simp [Except.map]
        · simp
    · simp

/-! ### Writing -/

theorem commonBytes_len (c : Common) (seg : Byte) :
    (commonBytes c seg).length = commonLen c + (if seg ≠ 0 then 1 else 0) := by
  unfold commonBytes commonLen
  simp only [List.length_append]
  (repeat' split) <;> simp

theorem opcodeBytes_len {o : Opcode} (h : o.len ≤ 3) : ∃ bs, opcodeBytes o = .ok bs ∧ bs.length = o.len := by
  unfold opcodeBytes
  rw [if_pos h]
  exact ⟨_, rfl, by simp; omega⟩

/-- What writing does not change. -/
structure SameShape (i j : Insn) : Prop where
  common : j.common = i.common
  len : j.opcode.len = i.opcode.len
  seg : j.seg = i.seg
  special : j.special = i.special
  rex : j.rex = i.rex
  postop : j.postop = i.postop

theorem prefixBytes_ok {i : Insn} {len : Nat} (k : Counted i len) :
    ∃ p, prefixBytes i = .ok p ∧ p.1.length = (if i.special ≠ 0 then 1 else 0) + rexLen i ∧ SameShape i p.2 ∧
      p.2.ea = i.ea ∧ p.2.imm = i.imm := by
  unfold prefixBytes
  extract_lets sp
  have hsp : sp.length = if i.special ≠ 0 then 1 else 0 := by simp only [sp]; split <;> rfl
  clear_value sp
  split
  · rename_i h
    refine ⟨_, rfl, ?_, ⟨rfl, rfl, rfl, rfl, rfl, rfl⟩, rfl, rfl⟩
    have : rexLen i = 0 := by
      unfold rexLen; rw [if_neg]; rintro ⟨q1, q2, _⟩; exact h.elim q1 q2
    rw [this, hsp]; rfl
  · rename_i h
    split
    · rename_i h5
      rw [if_neg]
      · refine ⟨_, rfl, ?_, ⟨rfl, rfl, rfl, rfl, rfl, rfl⟩, rfl, rfl⟩
        have : rexLen i = 0 := by
          unfold rexLen; rw [if_neg]; rintro ⟨_, _, q3, _⟩; exact q3 h5
        rw [this, hsp]; rfl
      · rintro ⟨q1, q2⟩
        exact (k.vex2 h5).elim q1 q2
    · rename_i h5
      split
      · rename_i hr
        have : rexLen i = 1 := by
          unfold rexLen; rw [if_pos ⟨fun q => h (Or.inl q), fun q => h (Or.inr q), h5, hr.1, hr.2⟩]
        split
        · rename_i hm
          rw [k.rex hm] at this; cases this
        · exact ⟨_, rfl, by simp [hsp, this], ⟨rfl, rfl, rfl, rfl, rfl, rfl⟩, rfl, rfl⟩
      · rename_i hr
        have : rexLen i = 0 := by
          unfold rexLen; rw [if_neg]; rintro ⟨_, _, _, q4, q5⟩; exact hr ⟨q4, q5⟩
        exact ⟨_, rfl, by simp [hsp, this], ⟨rfl, rfl, rfl, rfl, rfl, rfl⟩, rfl, rfl⟩

theorem modrmBytes_ok {ea : Effaddr} (h : Sized ea) :
    ∃ m, modrmBytes ea = .ok m ∧ m.length = (if ea.needModrm then 1 else 0) + (if ea.needSib ≠ 0 then 1 else 0) := by
  unfold modrmBytes
  rw [if_neg (by rintro ⟨a, b⟩; rw [h.modrm a] at b; cases b), if_neg (by rintro ⟨a, b⟩; rw [h.sib a] at b; cases b)]
  refine ⟨_, rfl, ?_⟩
  simp only [List.length_append]
  (repeat' split) <;> simp

theorem eaBytes_len {out : OutputValue} (hout : Contract out) {ea : Effaddr} {len pos : Nat} (h : Sized ea)
    {e : Emitted Effaddr} (ho : (eaBytes out ea len pos).out = .ok e) :
    e.bytes.length = ea.size / 8 + (if ea.needModrm then 1 else 0) + (if ea.needSib ≠ 0 then 1 else 0) ∧
      Sized e.after ∧ e.after.size = ea.size ∧ e.after.needModrm = ea.needModrm ∧ e.after.needSib = ea.needSib := by
  unfold eaBytes at ho
  obtain ⟨m, hm, hml⟩ := modrmBytes_ok h
  obtain ⟨m', hm', ho, _⟩ := Run.bind_out ho
  have : m' = m := by
    have : Except.ok (ε := Stop) m' = .ok m := by rw [← hm, ← hm']; rfl
    cases this; rfl
  subst this
  split at ho
  · rename_i hd
    obtain ⟨w, hw, ho, _⟩ := Run.bind_out ho
    cases ho
    obtain ⟨q1, q2⟩ := hout _ _ _ _ hw
    have q2 : w.field.size = ea.size := q2.trans (by unfold endField; split <;> rfl)
    refine ⟨?_, ⟨h.modrm, h.sib, fun hd' => ?_⟩, q2, rfl, rfl⟩
    · simp only [List.length_append, hml, q1]; omega
    · simp only [setDisp] at hd'; rw [hd] at hd'; cases hd'
  · rename_i hd
    cases ho
    have hd : ea.needDisp = false := by simpa using hd
    refine ⟨?_, h, rfl, rfl, rfl⟩
    rw [hml, h.disp hd]; omega

theorem eaBytes_no_internal {out : OutputValue} (hi : NoInternal out) {ea : Effaddr} {len pos : Nat} (h : Sized ea)
    (hz : ea.size / 8 ≤ 32) : (eaBytes out ea len pos).out ≠ .error .internal := by
  intro ho
  unfold eaBytes at ho
  obtain ⟨m, hm, hml⟩ := modrmBytes_ok h
  rcases bind_internal ho with h1 | ⟨m', h1, h2⟩
  · simp only [Run.of, hm] at h1; cases h1
  · split at h2
    · rcases bind_internal h2 with h3 | ⟨w, _, h3⟩
      · exact hi _ _ _ hz h3
      · cases h3
    · cases h2

theorem eaPart_len {out : OutputValue} (hout : Contract out) {i : Insn} {len pos : Nat} (h : ∀ ea, i.ea = some ea → Sized ea)
    {e : Emitted Insn} (ho : (eaPart out i len pos).out = .ok e) :
    SameShape i e.after ∧ (∀ ea, e.after.ea = some ea → Sized ea) ∧ e.after.imm = i.imm ∧
      eaBytesLen e.after = eaBytesLen i ∧
      e.bytes.length + (if i.ea.isSome = true ∧ i.seg ≠ 0 then 1 else 0) = eaBytesLen i := by
  unfold eaPart at ho
  split at ho
  · rename_i hi
    cases ho
    exact ⟨⟨rfl, rfl, rfl, rfl, rfl, rfl⟩, h, rfl, rfl, by simp [eaBytesLen, hi]⟩
  · rename_i ea hi
    obtain ⟨x, hx, ho, _⟩ := Run.bind_out ho
    cases ho
    obtain ⟨q1, q2, q3, q4, q5⟩ := eaBytes_len hout (h ea hi) hx
    refine ⟨⟨rfl, rfl, rfl, rfl, rfl, rfl⟩, ?_, rfl, ?_, ?_⟩
    · intro e he; simp only [Option.some.injEq] at he; subst he; exact q2
    · simp only [eaBytesLen, hi, eaLen, q3, q4, q5]
    · simp only [eaBytesLen, hi, eaLen, q1, Option.isSome_some, true_and]

theorem eaPart_no_internal {out : OutputValue} (hi : NoInternal out) {i : Insn} {len pos : Nat}
    (h : ∀ ea, i.ea = some ea → Sized ea) (hz : eaBytesLen i ≤ 32) : (eaPart out i len pos).out ≠ .error .internal := by
  intro ho
  unfold eaPart at ho
  split at ho
  · cases ho
  · rename_i ea he
    rcases bind_internal ho with h1 | ⟨m', h1, h2⟩
    · refine eaBytes_no_internal hi (h ea he) ?_ h1
      simp only [eaBytesLen, he, eaLen] at hz
      omega
    · cases h2

theorem immPart_len {out : OutputValue} (hout : Contract out) {i : Insn} {pos : Nat} {e : Emitted Insn}
    (ho : (immPart out i pos).out = .ok e) :
    SameShape i e.after ∧ e.after.ea = i.ea ∧ e.bytes.length = immLen i ∧ immLen e.after = immLen i ∧
      e.after.imm.isSome = i.imm.isSome := by
  unfold immPart at ho
  split at ho
  · rename_i hi
    cases ho
    exact ⟨⟨rfl, rfl, rfl, rfl, rfl, rfl⟩, rfl, by simp [immLen, hi], rfl, rfl⟩
  · rename_i imm hi
    obtain ⟨w, hw, ho, _⟩ := Run.bind_out ho
    cases ho
    obtain ⟨q1, q2⟩ := hout _ _ _ _ hw
    refine ⟨⟨rfl, rfl, rfl, rfl, rfl, rfl⟩, rfl, ?_, ?_, by simp [hi]⟩
    · rw [q1]
      simp only [immLen, hi]
      split <;> simp
    · simp only [immLen, hi, q2]
      split <;> simp

theorem immPart_no_internal {out : OutputValue} (hi : NoInternal out) {i : Insn} {pos : Nat} (hz : immLen i ≤ 32) :
    (immPart out i pos).out ≠ .error .internal := by
  intro ho
  unfold immPart at ho
  split at ho
  · cases ho
  · rename_i imm he
    rcases bind_internal ho with h1 | ⟨m', h1, h2⟩
    · refine hi _ _ _ ?_ h1
      simp only [immLen, he] at hz
      split <;> simp_all
    · cases h2

theorem SameShape.trans {i j k : Insn} (h1 : SameShape i j) (h2 : SameShape j k) : SameShape i k :=
  ⟨h2.common.trans h1.common, h2.len.trans h1.len, h2.seg.trans h1.seg, h2.special.trans h1.special,
    h2.rex.trans h1.rex, h2.postop.trans h1.postop⟩

/-- The bytes are as many as counted, and the instruction can be written again. -/
theorem insnBytes_len {out : OutputValue} (hout : Contract out) {i : Insn} {len pos : Nat} (k : Counted i len)
    {e : Emitted Insn} (ho : (insnBytes out i len pos).out = .ok e) : e.bytes.length = len ∧ Counted e.after len := by
  unfold insnBytes at ho
  extract_lets pre at ho
  obtain ⟨p, hp, hpl, hps, hpe, hpi⟩ := prefixBytes_ok k
  obtain ⟨p', hp', ho, _⟩ := Run.bind_out ho
  have : p' = p := by
    have : Except.ok (ε := Stop) p' = .ok p := by rw [← hp, ← hp']; rfl
    cases this; rfl
  subst this
  obtain ⟨o, ho1, hol⟩ := opcodeBytes_len (o := p'.2.opcode) (by rw [hps.len]; exact k.opcode)
  obtain ⟨o', ho', ho, _⟩ := Run.bind_out ho
  have : o' = o := by
    have : Except.ok (ε := Stop) o' = .ok o := by rw [← ho1, ← ho']; rfl
    cases this; rfl
  subst this
  extract_lets head at ho
  obtain ⟨a, ha, ho, _⟩ := Run.bind_out ho
  obtain ⟨b, hb, ho, _⟩ := Run.bind_out ho
  cases ho
  obtain ⟨a1, a2, a3, a4, a5⟩ := eaPart_len hout (by rw [hpe]; exact k.ea) ha
  obtain ⟨b1, b2, b3, b4, b5⟩ := immPart_len hout hb
  have hE : eaBytesLen p'.2 = eaBytesLen i := eaBytesLen_congr hpe hps.seg
  have hsh := (hps.trans a1).trans b1
  have hM : immLen a.after = immLen i := by
    unfold immLen; rw [a3, hpi, a1.postop, hps.postop]
  have hseg : (if segByte i ≠ 0 then 1 else 0) = (if i.ea.isSome = true ∧ i.seg ≠ 0 then 1 else 0) := by
    unfold segByte
    cases he : i.ea with
    | none => simp
    | some ea =>
      simp only [Option.isSome_some, if_true, true_and]
      rcases k.seg with h | h
      · rw [h]; simp
      · rw [if_pos (show BitVec.truncate 8 (i.seg >>> 8) ≠ 0 from h), if_pos]
        intro h0
        rw [h0] at h
        exact h (by decide)
  rw [hpe, hps.seg] at a5
  constructor
  · have hk := k.len
    simp only [List.length_append, head, pre, commonBytes_len]
    rw [b3, hM, hpl, hol, hps.len, hseg]
    rw [hE] at a5
    generalize (if i.ea.isSome = true ∧ i.seg ≠ 0 then 1 else 0) = x at *
    generalize (if i.special ≠ 0 then 1 else 0) = y at *
    omega
  · have hr : rexLen b.after = rexLen i := by unfold rexLen; rw [hsh.special, hsh.rex]
    refine ⟨?_, by rw [hsh.len]; exact k.opcode, ?_, by rw [b2]; exact a2, by rw [hsh.seg]; exact k.seg,
      by rw [hr, hsh.common]; exact k.rex, by rw [hsh.special, hsh.rex]; exact k.vex2⟩
    · have hk := k.len
      have : eaBytesLen b.after = eaBytesLen i := by
        rw [eaBytesLen_congr b2 b1.seg, a4, hE]
      rw [hsh.common, hsh.special, hr, hsh.len, this, b4, hM]
      exact hk
    · rw [hsh.len, hsh.postop, b5, a3, hpi]; exact k.word

theorem insnBytes_no_internal {out : OutputValue} (hout : Contract out) (hi : NoInternal out) {i : Insn} {len pos : Nat}
    (k : Counted i len) (hz : len ≤ 32) : (insnBytes out i len pos).out ≠ .error .internal := by
  intro ho
  have hlen := k.len
  unfold insnBytes at ho
  extract_lets pre at ho
  obtain ⟨p, hp, hpl, hps, hpe, hpi⟩ := prefixBytes_ok k
  obtain ⟨o, ho1, hol⟩ := opcodeBytes_len (o := p.2.opcode) (by rw [hps.len]; exact k.opcode)
  rcases bind_internal ho with h1 | ⟨p', h1, h2⟩
  · simp only [Run.of, hp] at h1; cases h1
  · have : p' = p := by
      have : Except.ok (ε := Stop) p' = .ok p := by rw [← hp, ← h1]; rfl
      cases this; rfl
    subst this
    rcases bind_internal h2 with h3 | ⟨o', h3, h4⟩
    · simp only [Run.of, ho1] at h3; cases h3
    · rcases bind_internal h4 with h5 | ⟨a, h5, h6⟩
      · exact eaPart_no_internal hi (by rw [hpe]; exact k.ea) (by rw [eaBytesLen_congr hpe hps.seg]; omega) h5
      · rcases bind_internal h6 with h7 | ⟨b, h7, h8⟩
        · obtain ⟨a1, _, a3, _⟩ := eaPart_len hout (by rw [hpe]; exact k.ea) h5
          refine immPart_no_internal hi ?_ h7
          have hM : immLen a.after = immLen i := by
            unfold immLen; rw [a3, hpi, a1.postop, hps.postop]
          omega
        · cases h8

/-! ### Copies -/

theorem copies_ok {α : Type} {emit : α → Nat → Run (Emitted α)} {len : Nat} {P : α → Prop}
    (h1 : ∀ a pos e, P a → (emit a pos).out = .ok e → e.bytes.length = len ∧ P e.after)
    (h2 : ∀ a pos, P a → (emit a pos).out ≠ .error .internal) :
    ∀ (n pos : Nat) (a : α), P a →
      (copies emit len n pos a).out ≠ .error .internal ∧
      ∀ e, (copies emit len n pos a).out = .ok e → e.bytes.length = n * len ∧ P e.after := by
  intro n
  induction n with
  | zero =>
    intro pos a ha
    refine ⟨by simp [copies, Run.of], fun e he => ?_⟩
    simp only [copies, Run.of] at he
    cases he
    exact ⟨by simp, ha⟩
  | succ n ih =>
    intro pos a ha
    constructor
    · intro h
      unfold copies at h
      rcases bind_internal h with h' | ⟨e, h', h''⟩
      · exact h2 a pos ha h'
      · obtain ⟨k1, k2⟩ := h1 a pos e ha h'
        rw [if_neg (by omega)] at h''
        rcases bind_internal h'' with g | ⟨r, g, g'⟩
        · exact (ih (pos + len) e.after k2).1 g
        · cases g'
    · intro e he
      unfold copies at he
      obtain ⟨x, hx, he, _⟩ := Run.bind_out he
      obtain ⟨k1, k2⟩ := h1 a pos x ha hx
      rw [if_neg (by omega)] at he
      obtain ⟨r, hr, he, _⟩ := Run.bind_out he
      cases he
      obtain ⟨m1, m2⟩ := (ih (pos + len) x.after k2).2 r hr
      refine ⟨?_, m2⟩
      simp only [List.length_append, k1, m1]
      rw [Nat.succ_mul]; omega

end Verif.Insn
