/-
All copies of an instruction.
-/
import Verif.Insn.Operand

set_option linter.unusedSimpArgs false

namespace Verif.Insn

open Verif.Intnum
open Verif.Expr
open Verif.Value
open Verif.Ea

/-! ### Prefixes can be written again -/

theorem keep_low (x y : Byte) : ((x &&& 0x1F#8) ||| ((y &&& 0x07#8) <<< 5)) &&& 0x1F#8 = x &&& 0x1F#8 := by
  apply BitVec.eq_of_getLsbD_eq
  intro i hi
  have : i = 0 ∨ i = 1 ∨ i = 2 ∨ i = 3 ∨ i = 4 ∨ i = 5 ∨ i = 6 ∨ i = 7 := by omega
  rcases this with rfl | rfl | rfl | rfl | rfl | rfl | rfl | rfl <;> simp

theorem mergeVex_again (i j : Insn) (ho : j.opcode = mergeVex i) (hr : j.rex = i.rex) : mergeVex j = mergeVex i := by
  have e : mergeVex j = mergeVex { i with opcode := mergeVex i } := by
    unfold mergeVex
    rw [ho, hr]
    rfl
  rw [e]
  unfold mergeVex
  by_cases h : i.rex ≠ 0xff#8
  · simp only [h, ne_eq, not_false_eq_true, if_true, true_and, keep_low]
    by_cases h8 : i.rex &&& 0x08#8 = 0#8
    · simp [h8]
    · simp [h8, BitVec.or_assoc]
  · simp only [h, if_false, false_and, BitVec.and_assoc, BitVec.and_self]

theorem mergeVex2_again (i j : Insn) (ho : j.opcode = mergeVex2 i) (hr : j.rex = i.rex) : mergeVex2 j = mergeVex2 i := by
  have e : mergeVex2 j = mergeVex2 { i with opcode := mergeVex2 i } := by
    unfold mergeVex2
    rw [ho, hr]
    rfl
  rw [e]
  unfold mergeVex2
  have k : ∀ x : Byte, (x &&& 0x7F#8 ||| 0x80#8) &&& 0x7F#8 = x &&& 0x7F#8 := by decide +kernel
  by_cases h : i.rex ≠ 0xff#8 ∧ i.rex &&& 0x04#8 = 0#8
  · simp only [if_pos h, k]
  · simp only [if_neg h, BitVec.and_assoc, BitVec.and_self]

/-- The prefix bytes and the opcode, without the rest. -/
def heading (i : Insn) : Option (List Byte × Opcode) :=
  match prefixBytes i with
  | .ok p => some (p.1, p.2.opcode)
  | .error _ => none

theorem heading_again {i j : Insn} {p : List Byte × Insn} (h : prefixBytes i = .ok p) (ho : j.opcode = p.2.opcode)
    (hr : j.rex = i.rex) (hs : j.special = i.special) (hc : j.common = i.common) : heading j = heading i := by
  unfold heading
  unfold prefixBytes at h ⊢
  rw [hs, hr, hc]
  dsimp only at h ⊢
  split
  · rename_i q hq
    split at hq
    · rename_i h1
      rw [if_pos h1] at h
      cases h; cases hq
      rw [if_pos h1]
      dsimp only
      rw [mergeVex_again i j ho hr]
    · rename_i h1
      rw [if_neg h1] at h
      rw [if_neg h1]
      split at hq
      · rename_i h5
        rw [if_pos h5] at h
        rw [if_pos h5]
        split at hq
        · cases hq
        · rename_i h6
          rw [if_neg h6] at h
          rw [if_neg h6]
          cases h; cases hq
          dsimp only
          rw [mergeVex2_again i j ho hr]
      · rename_i h5
        rw [if_neg h5] at h
        rw [if_neg h5]
        split at hq
        · rename_i h6
          rw [if_pos h6] at h
          rw [if_pos h6]
          split at hq
          · cases hq
          · rename_i h7
            rw [if_neg h7] at h
            rw [if_neg h7]
            cases h; cases hq
            dsimp only
            rw [ho]
        · rename_i h6
          rw [if_neg h6] at h
          rw [if_neg h6]
          cases h; cases hq
          dsimp only
          rw [ho]
  · rename_i q hq
    split at hq
    · cases hq
    · rename_i h1
      rw [if_neg h1] at h ⊢
      split at hq
      · rename_i h5
        rw [if_pos h5] at h ⊢
        split at hq
        · rename_i h6; rw [if_pos h6]
        · cases hq
      · rename_i h5
        rw [if_neg h5] at h ⊢
        split at hq
        · rename_i h6
          rw [if_pos h6] at h ⊢
          split at hq
          · rename_i h7; rw [if_pos h7]
          · cases hq
        · cases hq

/-! ### The parts -/

theorem insnBytes_parts {out : OutputValue} {i : Insn} {len pos : Nat} {e : Emitted Insn}
    (h : (insnBytes out i len pos).out = .ok e) (sound : ∀ k ∈ (insnBytes out i len pos).log, k.Sound) :
    ∃ p o q1 q2 a b, prefixBytes i = .ok p ∧ opcodeBytes p.2.opcode = .ok o ∧ (eaPart out p.2 len q1).out = .ok a ∧
      (immPart out a.after q2).out = .ok b ∧ (∀ k ∈ (eaPart out p.2 len q1).log, k.Sound) ∧
      (∀ k ∈ (immPart out a.after q2).log, k.Sound) ∧
      e.bytes = commonBytes i.common (segByte i) ++ p.1 ++ o ++ a.bytes ++ b.bytes ∧ e.warns = a.warns ++ b.warns ∧ e.after = b.after := by
  unfold insnBytes at h sound
  obtain ⟨p, hp, h, l1⟩ := Run.bind_out h
  rw [l1] at sound
  obtain ⟨o, ho, h, l2⟩ := Run.bind_out h
  rw [l2] at sound
  obtain ⟨a, ha, h, l3⟩ := Run.bind_out h
  rw [l3] at sound
  obtain ⟨b, hb, h, l4⟩ := Run.bind_out h
  rw [l4] at sound
  cases h
  refine ⟨p, o, _, _, a, b, hp, ho, ha, hb, ?_, ?_, rfl, rfl, rfl⟩
  · intro k hk
    exact sound k (List.mem_append_right _ (List.mem_append_right _ (List.mem_append_left _ hk)))
  · intro k hk
    exact sound k (List.mem_append_right _ (List.mem_append_right _ (List.mem_append_right _ (List.mem_append_left _ hk))))

theorem prefixBytes_kept {i : Insn} {p : List Byte × Insn} (h : prefixBytes i = .ok p) :
    p.2.common = i.common ∧ p.2.seg = i.seg ∧ p.2.special = i.special ∧ p.2.rex = i.rex ∧ p.2.postop = i.postop ∧ p.2.ea = i.ea ∧
      p.2.imm = i.imm := by
  unfold prefixBytes at h
  dsimp only at h
  (repeat' split at h) <;> cases h <;> exact ⟨rfl, rfl, rfl, rfl, rfl, rfl, rfl⟩

/-- The immediate as it is written. -/
def immField (i : Insn) (imm : Field) : Field := if i.postop = .signextImm8 then { imm with size := 8, sign := true } else imm

/-- An immediate that can be written: a whole number of bytes, one to eight. -/
structure ImmOk (ρ : Env) (i : Insn) (imm : Field) : Prop where
  fine : Fine ρ imm.v
  size : ∃ n, (immField i imm).size = 8 * n ∧ 1 ≤ n ∧ n ≤ 8

theorem immPart_value {out : OutputValue} {ρ : Env} {w : Place} (writes : Writes out ρ w) {i : Insn} {pos : Nat} {e : Emitted Insn}
    {imm : Field} (hi : i.imm = some imm) (ok : ImmOk ρ i imm) (he : (immPart out i pos).out = .ok e)
    (sound : ∀ k ∈ (immPart out i pos).log, k.Sound) :
    e.bytes.length = (immField i imm).size / 8 ∧
      (leVal e.bytes : Int) = (meaning ρ w imm.v).toInt % 2 ^ (8 * e.bytes.length) ∧
      (e.warns = [] ↔ imm.v.noWarn = true ∨ Takes (immField i imm).sign e.bytes.length (meaning ρ w imm.v).toInt) ∧
      ∃ g, e.after = { i with imm := some g } ∧ ImmOk ρ i g ∧ (immField i g).size = (immField i imm).size ∧
        (immField i g).sign = (immField i imm).sign ∧ meaning ρ w g.v = meaning ρ w imm.v ∧ g.v.noWarn = imm.v.noWarn := by
  unfold immPart at he sound
  rw [hi] at he sound
  dsimp only at he sound
  obtain ⟨f, hf⟩ : ∃ f, immField i imm = f := ⟨_, rfl⟩
  obtain ⟨fine, n, hn, h1, h8⟩ := ok
  rw [show (if i.postop = .signextImm8 then { imm with size := 8, sign := true } else imm) = f from hf] at he sound
  rw [hf] at hn ⊢
  obtain ⟨x, hx, he, l1⟩ := Run.bind_out he
  rw [l1] at sound
  cases he
  have hv : f.v = imm.v := by rw [← hf]; unfold immField; split <;> rfl
  have hd : f.size / 8 = n := by omega
  obtain ⟨w1, w2, w3, w4, w5, w6, w7, w8⟩ := writes f n _ x (by rw [hv]; exact fine) hn h1 h8 (by rw [← hd]; exact hx)
    (fun k hk => sound k (List.mem_append_left _ (by rw [hd]; exact hk)))
  rw [hv] at w2 w3 w5 w8
  have hg : immField i x.field = { x.field with size := f.size, sign := f.sign } := by
    unfold immField
    split
    · rename_i hp
      have : f = { imm with size := 8, sign := true } := by rw [← hf]; unfold immField; rw [if_pos hp]
      rw [this]
    · rw [← w6, ← w7]
  refine ⟨by rw [hd]; exact w1, by rw [w1]; exact w2, by rw [w1]; exact w3, x.field, rfl, ⟨w4, n, by rw [hg]; exact hn, h1, h8⟩,
    by rw [hg], by rw [hg], w5, w8⟩

/-! ### Copies -/

/-- One copy after another: what holds of copy `k` if each step keeps it. -/
theorem copies_split {α : Type} {emit : α → Nat → Run (Emitted α)} {len : Nat} {P : Nat → α → Prop}
    (step : ∀ k a pos e, P k a → (emit a pos).out = .ok e → (∀ c ∈ (emit a pos).log, c.Sound) → P (k + 1) e.after) (n : Nat) :
    ∀ (k0 pos : Nat) (a : α) (r : Emitted α), P k0 a → (copies emit len n pos a).out = .ok r →
      (∀ c ∈ (copies emit len n pos a).log, c.Sound) →
      ∀ k, k < n → ∃ a' pos' e, P (k0 + k) a' ∧ (emit a' pos').out = .ok e ∧ (∀ c ∈ (emit a' pos').log, c.Sound) ∧
        copy r.bytes len k = e.bytes ∧ (r.warns = [] → e.warns = []) := by
  induction n with
  | zero => intro k0 pos a r _ _ _ k hk; omega
  | succ n ih =>
    intro k0 pos a r hP hr sound k hk
    unfold copies at hr sound
    obtain ⟨e, he, hr, l1⟩ := Run.bind_out hr
    rw [l1] at sound
    split at hr
    · cases hr
    rename_i hlen
    rw [if_neg hlen] at sound
    obtain ⟨q, hq, hr, l2⟩ := Run.bind_out hr
    rw [l2] at sound
    cases hr
    have hlen : e.bytes.length = len := by omega
    have se := fun c hc => sound c (List.mem_append_left _ hc)
    cases k with
    | zero =>
      refine ⟨a, pos, e, hP, he, se, copy_zero hlen, fun h => ?_⟩
      simp only [List.append_eq_nil_iff] at h
      exact h.1
    | succ k =>
      obtain ⟨a', pos', e', h1, h2, h3, h4, h5⟩ := ih (k0 + 1) (pos + len) e.after q (step k0 a pos e hP he se) hq
        (fun c hc => sound c (List.mem_append_right _ (List.mem_append_left _ hc))) k (by omega)
      refine ⟨a', pos', e', by rw [show k0 + (k + 1) = k0 + 1 + k by omega]; exact h1, h2, h3, by rw [copy_succ hlen]; exact h4, fun h => ?_⟩
      simp only [List.append_eq_nil_iff] at h
      exact h5 h.2

/-- An instruction that may have been written before: same prefixes and opcode. -/
structure SameHead (i j : Insn) : Prop where
  common : j.common = i.common
  seg : j.seg = i.seg
  special : j.special = i.special
  rex : j.rex = i.rex
  postop : j.postop = i.postop
  some : j.ea.isSome = i.ea.isSome
  head : heading j = heading i

theorem eaPart_after {out : OutputValue} {i : Insn} {len pos : Nat} {a : Emitted Insn} (h : (eaPart out i len pos).out = .ok a) :
    ∃ x, a.after = { i with ea := x } ∧ x.isSome = i.ea.isSome := by
  unfold eaPart at h
  split at h
  · rename_i he; cases h; exact ⟨i.ea, rfl, rfl⟩
  · rename_i ea he
    obtain ⟨x, _, h, _⟩ := Run.bind_out h
    cases h
    exact ⟨_, rfl, by rw [he]; rfl⟩

theorem immPart_after {out : OutputValue} {i : Insn} {pos : Nat} {a : Emitted Insn} (h : (immPart out i pos).out = .ok a) :
    ∃ x, a.after = { i with imm := x } ∧ x.isSome = i.imm.isSome := by
  unfold immPart at h
  split at h
  · rename_i he; cases h; exact ⟨i.imm, rfl, rfl⟩
  · rename_i ea he
    obtain ⟨x, _, h, _⟩ := Run.bind_out h
    cases h
    exact ⟨_, rfl, by rw [he]; rfl⟩

theorem sameHead_step {out : OutputValue} {i0 i : Insn} {len pos : Nat} {e : Emitted Insn} (h : SameHead i0 i)
    (he : (insnBytes out i len pos).out = .ok e) (sound : ∀ k ∈ (insnBytes out i len pos).log, k.Sound) : SameHead i0 e.after := by
  obtain ⟨p, o, q1, q2, a, b, hp, ho, ha, hb, _, _, _, _, hf⟩ := insnBytes_parts he sound
  obtain ⟨k1, k2, k3, k4, k5, k6, k7⟩ := prefixBytes_kept hp
  obtain ⟨x, hx, hxs⟩ := eaPart_after ha
  obtain ⟨y, hy, _⟩ := immPart_after hb
  rw [hf, hy, hx]
  refine ⟨k1.trans h.common, k2.trans h.seg, k3.trans h.special, k4.trans h.rex, k5.trans h.postop, ?_, ?_⟩
  · show x.isSome = _
    rw [hxs, k6]; exact h.some
  · rw [← h.head]
    exact heading_again hp rfl k4 k3 k1

/-! ### The operand and the immediate of each copy -/

/-- The operand of copy `k`, of an instruction of `len` bytes whose first copy has the operand `ea`. -/
structure OperandAt (ρ : Env) (w : Place) (len : Nat) (i : Insn) (ea : Effaddr) (k : Nat) (j : Insn) : Prop where
  head : SameHead i j
  ea : ∃ f : Field, j.ea = some (setDisp ea f) ∧ f.size = ea.size ∧ Fine ρ f.v ∧ f.v.noWarn = ea.disp.noWarn ∧ f.ipRel = ea.ipRel ∧
    (ea.needDisp = true → meaning ρ w f.v = meaning ρ w ea.disp - BitVec.ofNat 256 k * back ea len)

/-- The immediate of a copy. -/
def ImmAt (ρ : Env) (w : Place) (i : Insn) (imm : Field) (j : Insn) : Prop :=
  j.postop = i.postop ∧ ∃ g, j.imm = some g ∧ ImmOk ρ j g ∧ (immField j g).size = (immField i imm).size ∧
    (immField j g).sign = (immField i imm).sign ∧ meaning ρ w g.v = meaning ρ w imm.v ∧ g.v.noWarn = imm.v.noWarn

theorem heading_some {i : Insn} {p : List Byte × Insn} (h : prefixBytes i = .ok p) : heading i = some (p.1, p.2.opcode) := by
  unfold heading; rw [h]

/-- What one copy consists of. -/
theorem operand_step {out : OutputValue} {ρ : Env} {w : Place} (writes : Writes out ρ w) {i : Insn} {ea : Effaddr} {len k : Nat}
    (hl : len < 2 ^ 32) (hs : DispSize ea.size) (hm : ea.needModrm = true) (hz : ea.needDisp = true → ea.size ≠ 0)
    {j : Insn} {pos : Nat} {e : Emitted Insn} (at_ : OperandAt ρ w len i ea k j) (he : (insnBytes out j len pos).out = .ok e)
    (sound : ∀ c ∈ (insnBytes out j len pos).log, c.Sound) :
    (∃ p o d im, heading i = some p ∧ opcodeBytes p.2 = .ok o ∧
      e.bytes = (commonBytes i.common (segByte i) ++ p.1 ++ o) ++ ea.modrm :: ((if ea.needSib ≠ 0 then [ea.sib] else []) ++ d ++ im) ∧
      (ea.needDisp = false → d = []) ∧
      (ea.needDisp = true → d.length = ea.size / 8 ∧
        (leVal d : Int) = (meaning ρ w ea.disp - BitVec.ofNat 256 (k + 1) * back ea len).toInt % 2 ^ (8 * (ea.size / 8)) ∧
        (e.warns = [] → ea.disp.noWarn = true ∨
          Takes false (ea.size / 8) (meaning ρ w ea.disp - BitVec.ofNat 256 (k + 1) * back ea len).toInt))) ∧
    (Keeps out ∨ (Stays out ∧ ea.ipRel = false) → OperandAt ρ w len i ea (k + 1) e.after) := by
  have hsame := sameHead_step at_.head he sound
  obtain ⟨p, o, q1, q2, a, b, hp, ho, ha, hb, sa, sb, hbytes, hwarns, hafter⟩ := insnBytes_parts he sound
  obtain ⟨k1, k2, k3, k4, k5, k6, k7⟩ := prefixBytes_kept hp
  obtain ⟨f, hf, fs, ffine, fnw, fip, fmean⟩ := at_.ea
  have hpe : p.2.ea = some (setDisp ea f) := k6.trans hf
  unfold eaPart at ha sa
  rw [hpe] at ha sa
  dsimp only at ha sa
  obtain ⟨x, hx, ha, l1⟩ := Run.bind_out ha
  rw [l1] at sa
  cases ha
  have hback : back (setDisp ea f) len = back ea len := by unfold back setDisp; dsimp only; rw [fip]
  have hmul : ∀ z : Word, z - BitVec.ofNat 256 k * back ea len - back ea len = z - BitVec.ofNat 256 (k + 1) * back ea len := by
    intro z
    have : BitVec.ofNat 256 (k + 1) = BitVec.ofNat 256 k + 1 := by rw [BitVec.ofNat_add]; rfl
    rw [this]
    grind
  obtain ⟨d, hd1, hd2, hd3, g, hg1, hg2⟩ := eaBytes_disp writes (ea := setDisp ea f) (len := len) ffine hl (by show DispSize f.size; rw [fs]; exact hs)
    hm (fun h => by show f.size ≠ 0; rw [fs]; exact hz h) hx (fun c hc => sa c (List.mem_append_left _ hc))
  rw [hback] at hd3 hg2
  have hd1 : x.bytes = ea.modrm :: ((if ea.needSib ≠ 0 then [ea.sib] else []) ++ d) := hd1
  have hd3 : ea.needDisp = true → d.length = f.size / 8 ∧
        (leVal d : Int) = (meaning ρ w f.v - back ea len).toInt % 2 ^ (8 * (f.size / 8)) ∧
        (x.warns = [] ↔ f.v.noWarn = true ∨ Takes false (f.size / 8) (meaning ρ w f.v - back ea len).toInt) := hd3
  rw [fs] at hd3
  refine ⟨⟨(p.1, p.2.opcode), o, d, b.bytes, at_.head.head ▸ heading_some hp, ho, ?_, fun h => (hd2 h).1, ?_⟩, ?_⟩
  · have hsg : segByte j = segByte i := by unfold segByte; rw [at_.head.some, at_.head.seg]
    rw [hbytes, at_.head.common, hsg, hd1]
    simp
  · intro h
    obtain ⟨m1, m2, m3⟩ := hd3 h
    rw [fmean h, hmul] at m2 m3
    refine ⟨m1, m2, fun hw => ?_⟩
    rw [← fnw]
    refine m3.mp ?_
    rw [hwarns] at hw
    simp only [List.append_eq_nil_iff] at hw
    exact hw.1
  · intro hkeep
    refine ⟨hsame, ?_⟩
    obtain ⟨y, hy, _⟩ := immPart_after hb
    rw [hafter, hy]
    by_cases h : ea.needDisp = true
    · have hg1 : x.after = setDisp ea g := by rw [hg1, if_pos (show (setDisp ea f).needDisp = true from h)]; rfl
      obtain ⟨g1, g2, g3, g4, u, n', p', z, hz', hu, hgz⟩ := hg2 h
      refine ⟨g, by show some x.after = _; rw [hg1], g2.trans fs, g1, g4.trans fnw, ?_, fun h => ?_⟩
      · have hu : u.ipRel = f.ipRel := hu
        rcases hkeep with hk | ⟨hst, h0⟩
        · rw [hgz, hk _ _ _ _ hz', hu, fip]
        · rw [hgz, h0, hst _ _ _ _ hz' (by rw [hu, fip, h0])]
      · rw [g3]
        have := fmean h
        rw [show (setDisp ea f).disp = f.v from rfl, this, hmul]
    · have h' : ea.needDisp = false := by simpa using h
      refine ⟨f, by show some x.after = _; rw [(hd2 h').2], fs, ffine, fnw, fip, fun hh => absurd hh h⟩

theorem imm_step {out : OutputValue} {ρ : Env} {w : Place} (writes : Writes out ρ w) {i : Insn} {imm : Field} {len : Nat}
    {j : Insn} {pos : Nat} {e : Emitted Insn} (at_ : ImmAt ρ w i imm j) (he : (insnBytes out j len pos).out = .ok e)
    (sound : ∀ c ∈ (insnBytes out j len pos).log, c.Sound) :
    (∃ front im, e.bytes = front ++ im ∧ im.length = (immField i imm).size / 8 ∧
      (leVal im : Int) = (meaning ρ w imm.v).toInt % 2 ^ (8 * im.length) ∧
      (e.warns = [] → imm.v.noWarn = true ∨ Takes (immField i imm).sign im.length (meaning ρ w imm.v).toInt)) ∧
    ImmAt ρ w i imm e.after := by
  obtain ⟨p, o, q1, q2, a, b, hp, ho, ha, hb, sa, sb, hbytes, hwarns, hafter⟩ := insnBytes_parts he sound
  obtain ⟨k1, k2, k3, k4, k5, k6, k7⟩ := prefixBytes_kept hp
  obtain ⟨x, hx, _⟩ := eaPart_after ha
  obtain ⟨hpost, g, hg, gok, gsize, gsign, gmean, gnw⟩ := at_
  have hai : a.after.imm = some g := by rw [hx]; exact k7.trans hg
  have hap : a.after.postop = j.postop := by rw [hx]; exact k5
  have hfld : ∀ u, immField a.after u = immField j u := fun u => by unfold immField; rw [hap]
  have hok : ∀ {u}, ImmOk ρ j u → ImmOk ρ a.after u := fun h => ⟨h.fine, by rw [hfld]; exact h.size⟩
  obtain ⟨m1, m2, m3, v, hv, vok, v1, v2, v3, v4⟩ := immPart_value writes hai (hok gok) hb sb
  rw [hfld] at m1 m3
  rw [gsize] at m1
  rw [gsign, gmean, gnw] at m3
  rw [gmean] at m2
  have hep : e.after.postop = j.postop := by rw [hafter, hv]; exact hap
  have hef : ∀ u, immField e.after u = immField j u := fun u => by unfold immField; rw [hep]
  refine ⟨⟨_, b.bytes, hbytes, m1, m2, fun h => m3.mp ?_⟩, hep.trans hpost, v, by rw [hafter, hv], ⟨vok.fine, ?_⟩, ?_, ?_, v3.trans gmean, v4.trans gnw⟩
  · rw [hwarns] at h
    simp only [List.append_eq_nil_iff] at h
    exact h.2
  · rw [hef, ← hfld]; exact vok.size
  · rw [hef, ← gsize, ← hfld, ← hfld]; exact v1
  · rw [hef, ← gsign, ← hfld, ← hfld]; exact v2

/-- Each copy of an instruction with a memory operand. -/
theorem operand_copies {out : OutputValue} {ρ : Env} {w : Place} (writes : Writes out ρ w) (stays : Stays out) {i : Insn} {ea : Effaddr}
    {len n pos : Nat} (hl : len < 2 ^ 32) (hs : DispSize ea.size) (hm : ea.needModrm = true) (hz : ea.needDisp = true → ea.size ≠ 0)
    (has : i.ea = some ea) (fine : Fine ρ ea.disp) (once : n ≤ 1 ∨ Keeps out ∨ ea.ipRel = false) {r : Emitted Insn}
    (hr : (copies (fun i pos => insnBytes out i len pos) len n pos i).out = .ok r)
    (sound : ∀ c ∈ (copies (fun i pos => insnBytes out i len pos) len n pos i).log, c.Sound) (k : Nat) (hk : k < n) :
    ∃ p o d im, heading i = some p ∧ opcodeBytes p.2 = .ok o ∧
      copy r.bytes len k = (commonBytes i.common (segByte i) ++ p.1 ++ o) ++
        ea.modrm :: ((if ea.needSib ≠ 0 then [ea.sib] else []) ++ d ++ im) ∧
      (ea.needDisp = false → d = []) ∧
      (ea.needDisp = true → d.length = ea.size / 8 ∧
        (leVal d : Int) = (meaning ρ w ea.disp - BitVec.ofNat 256 (k + 1) * back ea len).toInt % 2 ^ (8 * (ea.size / 8)) ∧
        (r.warns = [] → ea.disp.noWarn = true ∨
          Takes false (ea.size / 8) (meaning ρ w ea.disp - BitVec.ofNat 256 (k + 1) * back ea len).toInt)) := by
  have start : OperandAt ρ w len i ea 0 i :=
    ⟨⟨rfl, rfl, rfl, rfl, rfl, rfl, rfl⟩, dispField ea, by rw [has]; rfl, rfl, fine, rfl, rfl, fun _ => by
      show meaning ρ w ea.disp = _
      simp⟩
  obtain ⟨a', pos', e, hP, he, hse, hc, hw⟩ := copies_split
    (P := fun k j => (0 < k → Keeps out ∨ (Stays out ∧ ea.ipRel = false)) → OperandAt ρ w len i ea k j)
    (fun k a pos e hP he hse hk => (operand_step writes hl hs hm hz (hP fun _ => hk (Nat.succ_pos _)) he hse).2 (hk (Nat.succ_pos _)))
    n 0 pos i r (fun _ => start) hr sound k hk
  rw [Nat.zero_add] at hP
  have hP := hP (fun h0 => by
    rcases once with h | h | h
    · omega
    · exact Or.inl h
    · exact Or.inr ⟨stays, h⟩)
  obtain ⟨⟨p, o, d, im, h1, h2, h3, h4, h5⟩, _⟩ := operand_step writes hl hs hm hz hP he hse
  refine ⟨p, o, d, im, h1, h2, hc.trans h3, h4, fun h => ?_⟩
  obtain ⟨g1, g2, g3⟩ := h5 h
  exact ⟨g1, g2, fun h => g3 (hw h)⟩

/-- Each copy of an instruction with an immediate. -/
theorem imm_copies {out : OutputValue} {ρ : Env} {w : Place} (writes : Writes out ρ w) {i : Insn} {imm : Field} {len n pos : Nat}
    (has : i.imm = some imm) (ok : ImmOk ρ i imm) {r : Emitted Insn}
    (hr : (copies (fun i pos => insnBytes out i len pos) len n pos i).out = .ok r)
    (sound : ∀ c ∈ (copies (fun i pos => insnBytes out i len pos) len n pos i).log, c.Sound) (k : Nat) (hk : k < n) :
    ∃ front im, copy r.bytes len k = front ++ im ∧ im.length = (immField i imm).size / 8 ∧
      (leVal im : Int) = (meaning ρ w imm.v).toInt % 2 ^ (8 * im.length) ∧
      (r.warns = [] → imm.v.noWarn = true ∨ Takes (immField i imm).sign im.length (meaning ρ w imm.v).toInt) := by
  obtain ⟨a', pos', e, hP, he, hse, hc, hw⟩ := copies_split (P := fun _ j => ImmAt ρ w i imm j)
    (fun k a pos e hP he hse => (imm_step writes hP he hse).2) n 0 pos i r ⟨rfl, imm, has, ok, rfl, rfl, rfl, rfl⟩ hr sound k hk
  obtain ⟨⟨front, im, h1, h2, h3, h4⟩, _⟩ := imm_step writes hP he hse
  exact ⟨front, im, hc.trans h1, h2, h3, fun h => h4 (hw h)⟩

end Verif.Insn
