/-
Prefixes and opcodes; far jumps; output without relocation.
-/
import Verif.Insn.Whole

set_option linter.unusedSimpArgs false

namespace Verif.Insn

open Verif.Intnum
open Verif.Expr
open Verif.Value
open Verif.Ea

/-! ### The head of each copy -/

theorem head_copies {out : OutputValue} {i : Insn} {len n pos : Nat} {r : Emitted Insn}
    (hr : (copies (fun i pos => insnBytes out i len pos) len n pos i).out = .ok r)
    (sound : ∀ c ∈ (copies (fun i pos => insnBytes out i len pos) len n pos i).log, c.Sound) (k : Nat) (hk : k < n) :
    ∃ p o rest, heading i = some p ∧ opcodeBytes p.2 = .ok o ∧
      copy r.bytes len k = commonBytes i.common (segByte i) ++ (p.1 ++ o ++ rest) := by
  obtain ⟨j, pos', e, hP, he, hse, hc, _⟩ := copies_split (P := fun _ j => SameHead i j)
    (fun k a pos e hP he hse => sameHead_step hP he hse) n 0 pos i r ⟨rfl, rfl, rfl, rfl, rfl, rfl, rfl⟩ hr sound k hk
  obtain ⟨p, o, q1, q2, a, b, hp, ho, ha, hb, sa, sb, hbytes, _, _⟩ := insnBytes_parts he hse
  refine ⟨(p.1, p.2.opcode), o, a.bytes ++ b.bytes, hP.head ▸ heading_some hp, ho, ?_⟩
  have hsg : segByte j = segByte i := by unfold segByte; rw [hP.some, hP.seg]
  rw [hc, hbytes, hP.common, hsg]
  simp

/-! ### VEX and XOP -/

/-- An instruction with a VEX prefix, shortened or not. -/
structure VexLife (i j : Insn) : Prop where
  postop : j.postop ≠ .signextImm8
  form : (j.special = i.special ∧ j.opcode = i.opcode) ∨
    (i.special = 0xC4#8 ∧ j.special = 0xC5#8 ∧ j.opcode = ⟨i.opcode.b1, i.opcode.b2, 0, 2⟩ ∧ i.opcode.b0 &&& 0x1F#8 = 1#8 ∧
      i.opcode.b1 &&& 0x80#8 = 0#8 ∧ (j.rex = 0xff#8 ∨ j.rex &&& 0x0B#8 = 0#8))

theorem countEa_head {c : Ctx} {nequ absSym : Nat} {i : Insn} {r : Count Insn} (h : (countEa c nequ absSym i).out = .ok r) :
    r.insn.opcode = i.opcode ∧ r.insn.special = i.special ∧ r.insn.postop = i.postop := by
  unfold countEa at h
  split at h
  · cases h; exact ⟨rfl, rfl, rfl⟩
  · obtain ⟨x, _, h, _⟩ := Run.bind_out h
    cases h; exact ⟨rfl, rfl, rfl⟩

theorem countImm_head {c : Ctx} {nequ : Nat} {i : Insn} {r : Count Insn} (h : (countImm c nequ i).out = .ok r)
    (hp : i.postop ≠ .signextImm8) : r.insn = i := by
  unfold countImm at h
  split at h
  · cases h; rfl
  · rw [if_neg hp] at h
    cases h; rfl

theorem calcLen_vex {c : Ctx} {nequ absSym : Nat} {i : Insn} {r : Count Insn} (hp : i.postop ≠ .signextImm8)
    (h : (calcLen c nequ absSym i).out = .ok r) : VexLife i r.insn := by
  unfold calcLen at h
  obtain ⟨a, ha, h, _⟩ := Run.bind_out h
  obtain ⟨b, hb, h, _⟩ := Run.bind_out h
  obtain ⟨k1, k2, k3⟩ := countEa_head ha
  have k4 := countImm_head hb (by rw [k3]; exact hp)
  cases h
  dsimp only
  rw [k4]
  unfold countVex
  split
  · rename_i h4
    split
    · rename_i hv
      unfold shortVex at hv
      have hv := of_decide_eq_true hv
      rw [k1] at hv
      refine ⟨by dsimp only; rw [k3]; exact hp, Or.inr ⟨by rw [← k2]; exact h4, rfl, by dsimp only; rw [k1], hv.1, hv.2.1, hv.2.2⟩⟩
    · exact ⟨by rw [k3]; exact hp, Or.inl ⟨k2, k1⟩⟩
  · split
    · exact ⟨by rw [k3]; exact hp, Or.inl ⟨k2, k1⟩⟩
    · exact ⟨by rw [k3]; exact hp, Or.inl ⟨k2, k1⟩⟩

theorem expand_vex {i j j' : Insn} {len len' span : Nat} (v : VexLife i j) (h : expand j len span = .ok (j', len')) : VexLife i j' := by
  unfold expand at h
  split at h
  · simp only [Except.ok.injEq] at h
    unfold expandDisp at h
    split at h
    · cases h; exact v
    · split at h
      · cases h; exact ⟨v.postop, v.form⟩
      · cases h; exact v
  · split at h
    · unfold expandImm at h
      split at h
      · cases h; exact v
      · rw [if_neg v.postop] at h
        cases h; exact v
    · cases h; exact v

theorem life_vex {c : Ctx} {nequ absSym : Nat} {i j : Insn} {len : Nat} (h : Life c nequ absSym i j len)
    (hp : i.postop ≠ .signextImm8) : VexLife i j := by
  induction h with
  | count hr => exact calcLen_vex hp hr
  | widen span _ he ih => exact expand_vex ih he

theorem vex_three (op : Opcode) (rex : Byte) (hr : rex ≠ 0xff#8) (p : Byte) (hp : p = 0xC4#8 ∨ p = 0x8F#8) (i : Insn) (hi : i.opcode = op)
    (hx : i.rex = rex) (rest : List Byte) :
    decodeVex (p :: (mergeVex i).b0 :: (mergeVex i).b1 :: rest) = some (wanted op rex, rest) := by
  have h5 : p ≠ 0xC5#8 := by rcases hp with rfl | rfl <;> decide
  have e0 : (mergeVex i).b0 = (op.b0 &&& 0x1F#8) ||| (((~~~rex) &&& 0x07#8) <<< 5) := by
    unfold mergeVex; rw [hi, hx]; simp [hr]
  have e1 : (mergeVex i).b1 = if rex &&& 0x08#8 ≠ 0#8 then op.b1 ||| 0x80#8 else op.b1 := by
    unfold mergeVex; rw [hi, hx]; simp [hr]
  unfold decodeVex
  simp only [if_neg h5, if_pos hp, Option.some.injEq, Prod.mk.injEq, and_true]
  rw [e0, e1]
  clear e0 e1 hi hx
  obtain ⟨b0, b1, b2, ln⟩ := op
  have hbit : (rex &&& 0x08#8 ≠ 0#8) ↔ rex.getLsbD 3 = true := by
    have : ∀ x : Byte, (x &&& 0x08#8 ≠ 0#8) ↔ x.getLsbD 3 = true := by decide +kernel
    exact this rex
  unfold wanted
  simp only [Vex.mk.injEq]
  refine ⟨by simp, by simp, by simp, ?_, ?_, ?_, ?_, ?_⟩
  · by_cases h : rex.getLsbD 3 = true
    · rw [if_pos (hbit.mpr h), h]; simp
    · rw [if_neg (by rw [hbit]; exact h), show rex.getLsbD 3 = false by simpa using h, Bool.or_false]
  · apply BitVec.eq_of_getLsbD_eq
    intro j hj
    have : j = 0 ∨ j = 1 ∨ j = 2 ∨ j = 3 ∨ j = 4 := by omega
    rcases this with rfl | rfl | rfl | rfl | rfl <;> simp
  all_goals
    by_cases h : rex.getLsbD 3 = true
    · rw [if_pos (hbit.mpr h)]
      first
        | (congr 1
           apply BitVec.eq_of_getLsbD_eq
           intro j hj
           have : j = 0 ∨ j = 1 ∨ j = 2 ∨ j = 3 := by omega
           rcases this with rfl | rfl | rfl | rfl <;> simp)
        | (apply BitVec.eq_of_getLsbD_eq
           intro j hj
           have : j = 0 ∨ j = 1 := by omega
           rcases this with rfl | rfl <;> simp)
        | simp
    · rw [if_neg (by rw [hbit]; exact h)]

theorem vex_two (op : Opcode) (rex : Byte) (hr : rex ≠ 0xff#8) (h0 : op.b0 &&& 0x1F#8 = 1#8) (h1 : op.b1 &&& 0x80#8 = 0#8)
    (hx : rex &&& 0x0B#8 = 0#8) (i : Insn) (hi : i.opcode = ⟨op.b1, op.b2, 0, 2⟩) (hrx : i.rex = rex) (rest : List Byte) :
    decodeVex (0xC5#8 :: (mergeVex2 i).b0 :: rest) = some (wanted op rex, rest) := by
  have e0 : (mergeVex2 i).b0 = if rex &&& 0x04#8 = 0#8 then (op.b1 &&& 0x7F#8) ||| 0x80#8 else op.b1 &&& 0x7F#8 := by
    unfold mergeVex2; rw [hi, hrx]; simp [hr]
  unfold decodeVex
  simp only [if_true, Option.some.injEq, Prod.mk.injEq, and_true]
  rw [e0]
  clear e0 hi hrx
  obtain ⟨b0, b1, b2, ln⟩ := op
  dsimp only at h0 h1 ⊢
  have f3 : ∀ x : Byte, x &&& 0x0B#8 = 0#8 → x.getLsbD 0 = false ∧ x.getLsbD 1 = false ∧ x.getLsbD 3 = false := by decide +kernel
  have f0 : ∀ x : Byte, x &&& 0x1F#8 = 1#8 → x.extractLsb' 0 5 = 1#5 := by decide +kernel
  have f1 : ∀ x : Byte, x &&& 0x80#8 = 0#8 → x.getLsbD 7 = false := by decide +kernel
  have f2 : ∀ x : Byte, (x &&& 0x04#8 = 0#8) ↔ x.getLsbD 2 = false := by decide +kernel
  have g : ∀ x : Byte, ((x &&& 0x7F#8) ||| 0x80#8).getLsbD 7 = true ∧ (x &&& 0x7F#8).getLsbD 7 = false ∧
      ((x &&& 0x7F#8) ||| 0x80#8).extractLsb' 3 4 = x.extractLsb' 3 4 ∧ (x &&& 0x7F#8).extractLsb' 3 4 = x.extractLsb' 3 4 ∧
      ((x &&& 0x7F#8) ||| 0x80#8).getLsbD 2 = x.getLsbD 2 ∧ (x &&& 0x7F#8).getLsbD 2 = x.getLsbD 2 ∧
      ((x &&& 0x7F#8) ||| 0x80#8).extractLsb' 0 2 = x.extractLsb' 0 2 ∧ (x &&& 0x7F#8).extractLsb' 0 2 = x.extractLsb' 0 2 := by
    decide +kernel
  obtain ⟨a0, a1, a3⟩ := f3 rex hx
  obtain ⟨g1, g2, g3, g4, g5, g6, g7, g8⟩ := g b1
  unfold wanted
  simp only [a0, a1, a3, f0 b0 h0, f1 b1 h1, Bool.or_false]
  by_cases h : rex.getLsbD 2 = false
  · rw [if_pos ((f2 rex).mpr h), g1, g3, g5, g7, h]; rfl
  · rw [if_neg (by rw [f2]; exact h), g2, g4, g6, g8, show rex.getLsbD 2 = true by simpa using h]; rfl

/-- What the instruction table says becomes what the prefix says. -/
theorem vexOpcode_says {vexdata vexreg special : Byte} {op : Opcode} {r : Byte × Opcode} (h : vexOpcode vexdata vexreg special op = .ok r)
    (rex : Byte) : (r.1 = 0xC4#8 ∨ r.1 = 0x8F#8) ∧ r.2.len = 3 ∧
      r.2.b2 = (mapped (decide (vexdata &&& 0xF0#8 = 0x80#8)) op).2 ∧
      wanted r.2 rex = ⟨rex.getLsbD 2, rex.getLsbD 1, rex.getLsbD 0, vexdata.getLsbD 3 || rex.getLsbD 3,
        (mapped (decide (vexdata &&& 0xF0#8 = 0x80#8)) op).1, vexreg.extractLsb' 0 4, vexdata.getLsbD 2,
        implied special (vexdata.extractLsb' 0 2)⟩ := by
  unfold vexOpcode at h
  split at h
  · rename_i m d hm hd
    cases h
    have hmap : m.1.extractLsb' 0 5 = (mapped (decide (vexdata &&& 0xF0#8 = 0x80#8)) op).1 ∧
        m.2 = (mapped (decide (vexdata &&& 0xF0#8 = 0x80#8)) op).2 := by
      unfold vexMap at hm
      unfold mapped
      by_cases hx : vexdata &&& 0xF0#8 = 0x80#8
      · rw [if_pos hx] at hm
        rw [decide_eq_true hx]
        split at hm
        · cases hm
        · cases hm
          refine ⟨?_, rfl⟩
          have : ∀ x : Byte, (0xE0#8 ||| x).extractLsb' 0 5 = x.truncate 5 := by decide +kernel
          exact this op.b0
      · rw [if_neg hx] at hm
        rw [decide_eq_false hx]
        simp only [Bool.false_eq_true, if_false]
        split at hm
        · cases hm
        · split at hm
          · rename_i h38; cases hm; rw [if_pos h38]; exact ⟨(by decide : BitVec.extractLsb' 0 5 (226 : Byte) = (2 : BitVec 5)), rfl⟩
          · rename_i h38
            rw [if_neg h38]
            split at hm
            · rename_i h3A; cases hm; rw [if_pos h3A]; exact ⟨(by decide : BitVec.extractLsb' 0 5 (227 : Byte) = (3 : BitVec 5)), rfl⟩
            · rename_i h3A; cases hm; rw [if_neg h3A]; exact ⟨(by decide : BitVec.extractLsb' 0 5 (225 : Byte) = (1 : BitVec 5)), rfl⟩
    have hpre : d.getLsbD 3 = vexdata.getLsbD 3 ∧ d.getLsbD 2 = vexdata.getLsbD 2 ∧
        d.extractLsb' 0 2 = implied special (vexdata.extractLsb' 0 2) := by
      have k : ∀ x : Byte, ((x &&& 0xFC#8) ||| 1).getLsbD 3 = x.getLsbD 3 ∧ ((x &&& 0xFC#8) ||| 1).getLsbD 2 = x.getLsbD 2 ∧
          ((x &&& 0xFC#8) ||| 1).extractLsb' 0 2 = 1#2 ∧
          ((x &&& 0xFC#8) ||| 2).getLsbD 3 = x.getLsbD 3 ∧ ((x &&& 0xFC#8) ||| 2).getLsbD 2 = x.getLsbD 2 ∧
          ((x &&& 0xFC#8) ||| 2).extractLsb' 0 2 = 2#2 ∧
          ((x &&& 0xFC#8) ||| 3).getLsbD 3 = x.getLsbD 3 ∧ ((x &&& 0xFC#8) ||| 3).getLsbD 2 = x.getLsbD 2 ∧
          ((x &&& 0xFC#8) ||| 3).extractLsb' 0 2 = 3#2 := by decide +kernel
      obtain ⟨a1, a2, a3, a4, a5, a6, a7, a8, a9⟩ := k vexdata
      unfold vexPrefix at hd
      unfold implied
      split at hd
      · rename_i h0; cases hd; rw [h0]; exact ⟨rfl, rfl, rfl⟩
      · split at hd
        · rename_i h; cases hd; rw [if_pos h]; exact ⟨a1, a2, a3⟩
        · rename_i h
          rw [if_neg h]
          split at hd
          · rename_i h; cases hd; rw [if_pos h]; exact ⟨a4, a5, a6⟩
          · rename_i h
            rw [if_neg h]
            split at hd
            · rename_i h; cases hd; rw [if_pos h]; exact ⟨a7, a8, a9⟩
            · cases hd
    refine ⟨by split <;> simp, rfl, hmap.2, ?_⟩
    have f : ∀ y z : Byte, y.toNat < 16 → z.toNat < 16 →
        (((z &&& 0x8#8) <<< 4) ||| ((15#8 - y) <<< 3) ||| (z &&& 0x7#8)).getLsbD 7 = z.getLsbD 3 ∧
        ~~~((((z &&& 0x8#8) <<< 4) ||| ((15#8 - y) <<< 3) ||| (z &&& 0x7#8)).extractLsb' 3 4) = y.extractLsb' 0 4 ∧
        (((z &&& 0x8#8) <<< 4) ||| ((15#8 - y) <<< 3) ||| (z &&& 0x7#8)).getLsbD 2 = z.getLsbD 2 ∧
        (((z &&& 0x8#8) <<< 4) ||| ((15#8 - y) <<< 3) ||| (z &&& 0x7#8)).extractLsb' 0 2 = z.extractLsb' 0 2 := by
      have : ∀ y z : Fin 16, let y := BitVec.ofNat 8 y.val; let z := BitVec.ofNat 8 z.val
          (((z &&& 0x8#8) <<< 4) ||| ((15#8 - y) <<< 3) ||| (z &&& 0x7#8)).getLsbD 7 = z.getLsbD 3 ∧
          ~~~((((z &&& 0x8#8) <<< 4) ||| ((15#8 - y) <<< 3) ||| (z &&& 0x7#8)).extractLsb' 3 4) = y.extractLsb' 0 4 ∧
          (((z &&& 0x8#8) <<< 4) ||| ((15#8 - y) <<< 3) ||| (z &&& 0x7#8)).getLsbD 2 = z.getLsbD 2 ∧
          (((z &&& 0x8#8) <<< 4) ||| ((15#8 - y) <<< 3) ||| (z &&& 0x7#8)).extractLsb' 0 2 = z.extractLsb' 0 2 := by decide +kernel
      intro y z hy hz
      have := this ⟨y.toNat, hy⟩ ⟨z.toNat, hz⟩
      simpa only [BitVec.ofNat_toNat, BitVec.setWidth_eq] using this
    have low : ∀ x : Byte, (x &&& 0xF#8).toNat < 16 ∧ (x &&& 0xF#8).extractLsb' 0 4 = x.extractLsb' 0 4 ∧ (x &&& 0xF#8) &&& 8#8 = x &&& 8#8 ∧
        (x &&& 0xF#8) &&& 7#8 = x &&& 7#8 ∧ (x &&& 0xF#8).getLsbD 3 = x.getLsbD 3 ∧ (x &&& 0xF#8).getLsbD 2 = x.getLsbD 2 ∧
        (x &&& 0xF#8).extractLsb' 0 2 = x.extractLsb' 0 2 := by decide +kernel
    obtain ⟨l1, _, l3, l4, l5, l6, l7⟩ := low d
    obtain ⟨r1, r2, _⟩ := low vexreg
    obtain ⟨f1, f2, f3, f4⟩ := f (vexreg &&& 0xF#8) (d &&& 0xF#8) r1 l1
    rw [l3, l4] at f1 f2 f3 f4
    rw [l5] at f1
    rw [l6] at f3
    rw [l7] at f4
    rw [r2] at f2
    unfold wanted
    simp only [f1, f2, f3, f4, hmap.1, hpre]
  · cases h
  · cases h

/-! ### Far jumps -/

/-- The length of a far jump, which depends on its opcode and sizes only. -/
theorem jmpfar_step {out : OutputValue} (contract : Contract out) {j : Jmpfar} {pos : Nat} {e : Emitted Jmpfar} (ho : j.opcode.len ≤ 3)
    (he : (jmpfarBytes out j pos).out = .ok e) :
    e.bytes.length = jmpfarLen j ∧ e.after.opcode = j.opcode ∧ e.after.common = j.common := by
  unfold jmpfarBytes at he
  obtain ⟨o, h1, h2⟩ := opcodeBytes_len ho
  obtain ⟨o', h1', he, _⟩ := Run.bind_out he
  have : Except.ok (ε := Stop) o' = .ok o := by rw [← h1, ← h1']; rfl
  cases this
  dsimp only at he
  obtain ⟨w, hw, he, _⟩ := Run.bind_out he
  obtain ⟨s, hs, he, _⟩ := Run.bind_out he
  cases he
  refine ⟨?_, rfl, rfl⟩
  simp only [List.length_append, (contract _ _ _ _ hw).1, (contract _ _ _ _ hs).1, h2, commonBytes_len, jmpfarLen]
  simp
  omega

theorem jmpfar_safe {out : OutputValue} (safe : NoInternal out) {j : Jmpfar} {pos : Nat} (ho : j.opcode.len ≤ 3) :
    (jmpfarBytes out j pos).out ≠ .error .internal := by
  intro he
  unfold jmpfarBytes at he
  obtain ⟨o, h1, h2⟩ := opcodeBytes_len ho
  rcases bind_internal he with h | ⟨o', _, h⟩
  · simp only [Run.of, h1] at h; cases h
  · rcases bind_internal h with h | ⟨w, _, h⟩
    · refine safe _ _ _ ?_ h
      unfold nearBytes; split <;> decide
    · rcases bind_internal h with h | ⟨s, _, h⟩
      · exact safe _ _ _ (by decide) h
      · cases h

/-- What the state of a far jump keeps from copy to copy. -/
structure FarAt (ρ : Env) (w : Place) (j k : Jmpfar) : Prop where
  opcode : k.opcode = j.opcode
  common : k.common = j.common
  offset : Fine ρ k.offset.v ∧ meaning ρ w k.offset.v = meaning ρ w j.offset.v ∧ k.offset.v.noWarn = j.offset.v.noWarn ∧ k.offset.sign = j.offset.sign
  segment : Fine ρ k.segment.v ∧ meaning ρ w k.segment.v = meaning ρ w j.segment.v ∧ k.segment.v.noWarn = j.segment.v.noWarn ∧
    k.segment.sign = j.segment.sign

theorem jmpfar_value {out : OutputValue} {ρ : Env} {w : Place} (writes : Writes out ρ w) {j k : Jmpfar} {pos : Nat} {e : Emitted Jmpfar}
    (h : FarAt ρ w j k) (he : (jmpfarBytes out k pos).out = .ok e) (sound : ∀ c ∈ (jmpfarBytes out k pos).log, c.Sound) :
    (∃ o a s, opcodeBytes j.opcode = .ok o ∧ e.bytes = commonBytes j.common 0 ++ o ++ a ++ s ∧ a.length = nearBytes j.common ∧ s.length = 2 ∧
      (leVal a : Int) = (meaning ρ w j.offset.v).toInt % 2 ^ (8 * nearBytes j.common) ∧
      (leVal s : Int) = (meaning ρ w j.segment.v).toInt % 2 ^ 16 ∧
      (e.warns = [] → (j.offset.v.noWarn = true ∨ Takes j.offset.sign (nearBytes j.common) (meaning ρ w j.offset.v).toInt) ∧
        (j.segment.v.noWarn = true ∨ Takes j.segment.sign 2 (meaning ρ w j.segment.v).toInt))) ∧
    FarAt ρ w j e.after := by
  unfold jmpfarBytes at he sound
  obtain ⟨o, h1, he, l1⟩ := Run.bind_out he
  rw [l1] at sound
  dsimp only at he sound
  obtain ⟨x, hx, he, l2⟩ := Run.bind_out he
  rw [l2] at sound
  obtain ⟨y, hy, he, l3⟩ := Run.bind_out he
  rw [l3] at sound
  cases he
  have hn : 1 ≤ nearBytes k.common ∧ nearBytes k.common ≤ 8 := by unfold nearBytes; split <;> decide
  obtain ⟨a1, a2, a3, a4, a5, a6, a7, a8⟩ := writes { k.offset with size := nearBytes k.common * 8 } _ _ _ h.offset.1 (by dsimp only; omega) hn.1 hn.2 hx
    (fun c hc => sound c (List.mem_append_right _ (List.mem_append_left _ hc)))
  obtain ⟨s1, s2, s3, s4, s5, s6, s7, s8⟩ := writes { k.segment with size := 16 } 2 _ _ h.segment.1 rfl (by decide) (by decide) hy
    (fun c hc => sound c (List.mem_append_right _ (List.mem_append_right _ (List.mem_append_left _ hc))))
  dsimp only at a2 a3 a5 a8 s2 s3 s5 s8 a7 s7
  rw [h.offset.2.1] at a2 a3 a5
  rw [h.offset.2.2.1] at a3 a8
  rw [h.offset.2.2.2] at a3 a7
  rw [h.segment.2.1] at s2 s3 s5
  rw [h.segment.2.2.1] at s3 s8
  rw [h.segment.2.2.2] at s3 s7
  rw [h.common] at a1 a2 a3
  refine ⟨⟨o, x.bytes, y.bytes, by rw [← h.opcode]; exact h1, by rw [h.common], a1, s1, a2, s2, fun hw => ?_⟩,
    ⟨h.opcode, h.common, ⟨a4, a5, a8, a7⟩, ⟨s4, s5, s8, s7⟩⟩⟩
  simp only [List.append_eq_nil_iff] at hw
  exact ⟨a3.mp hw.1, s3.mp hw.2⟩

/-! ### Output without relocation -/

theorem getSized_len {x : Intnum} {buf : List Byte} {valsize : Nat} {warn : Int} {r : Verif.Intnum.Sized}
    (h : getSized x buf valsize 0 false warn = some r) : r.buf.length = buf.length := by
  unfold getSized at h
  split at h
  · cases h
  · rename_i hb
    rw [if_neg (by decide)] at h
    cases h
    simp only [List.length_take, blockRead_length]
    unfold native at hb
    omega

theorem numBytes_len {f : Field} {i : Intnum} {n : Nat} {b : List Byte × List SizedWarn} (h : numBytes f i n = .ok b) : b.1.length = n := by
  unfold numBytes at h
  split at h
  · rename_i r hr
    cases h
    have := getSized_len hr
    simpa using this
  · cases h

theorem basic_contract (c : Ctx) (nequ : Nat) (bc : At) : Contract (basic c nequ bc) := by
  intro f n pos w h
  unfold basic at h
  obtain ⟨a, _, h, _⟩ := Run.bind_out h
  split at h
  · cases h
  · dsimp only at h
    split at h
    · obtain ⟨b, hb, h, _⟩ := Run.bind_out h
      cases h
      exact ⟨numBytes_len hb, rfl⟩
    · cases h

theorem basic_keeps (c : Ctx) (nequ : Nat) (bc : At) : Keeps (basic c nequ bc) := by
  intro f n pos w h
  unfold basic at h
  obtain ⟨a, _, h, _⟩ := Run.bind_out h
  split at h
  · cases h
  · dsimp only at h
    split at h
    · obtain ⟨b, hb, h, _⟩ := Run.bind_out h
      cases h; rfl
    · cases h

theorem basic_no_internal (c : Ctx) (nequ : Nat) (bc : At) : NoInternal (basic c nequ bc) := by
  intro f n pos hn h
  unfold basic at h
  rcases bind_internal h with h | ⟨a, _, h⟩
  · unfold lift at h
    dsimp only at h
    split at h <;> cases h
  · split at h
    · cases h
    · dsimp only at h
      split at h
      · rcases bind_internal h with h | ⟨b, _, h⟩
        · simp only [numBytes, getSized] at h
          rw [if_neg (by unfold native; simp; omega), if_neg (by decide)] at h
          cases h
        · cases h
      · cases h

theorem fold_size (b : BinCtx) (f : Field) : (b.fold f).size = f.size := by
  unfold BinCtx.fold; split <;> rfl

theorem bin_contract (b : BinCtx) (nequ : Nat) (bc : At) : Contract (bin b nequ bc) := by
  intro f n pos w h
  obtain ⟨h1, h2⟩ := basic_contract _ _ _ _ _ _ _ h
  exact ⟨h1, h2.trans (fold_size b f)⟩

theorem bin_stays (b : BinCtx) (nequ : Nat) (bc : At) : Stays (bin b nequ bc) := by
  intro f n pos w h hf
  rw [basic_keeps _ _ _ _ _ _ _ h]
  unfold BinCtx.fold
  split
  · exact hf
  · dsimp only; split
    · rfl
    · exact hf

theorem bin_no_internal (b : BinCtx) (nequ : Nat) (bc : At) : NoInternal (bin b nequ bc) :=
  fun f n pos hn => basic_no_internal _ _ _ _ _ _ hn

end Verif.Insn
