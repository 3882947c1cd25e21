/-
Memory operands from counting to the bytes.
-/
import Verif.Insn.Jumps
import Verif.Ea.Props

set_option linter.unusedSimpArgs false

namespace Verif.Insn

open Verif.Intnum
open Verif.Expr
open Verif.Value
open Verif.Ea

/-! ### Sizes -/

/-- The sizes a displacement can have. -/
def DispSize (n : Nat) : Prop := n = 0 ∨ n = 8 ∨ n = 16 ∨ n = 32

theorem calcDisplen_size {c : Ctx} {nequ : Nat} {ea : Effaddr} {w : Nat} {n d : Bool} {x : Effaddr}
    (h : (calcDisplen c nequ ea w n d).out = .ok x) (hw : w = 16 ∨ w = 32) : DispSize x.size := by
  have hww : DispSize w := by unfold DispSize; omega
  unfold calcDisplen at h
  extract_lets ea1 ea2 d at h
  have h2z : ea2.size = ea1.size := rfl
  clear_value ea2
  split at h
  · rename_i h8
    simp only [Run.of, Except.ok.injEq] at h
    split at h <;> subst h
    · exact hww
    · exact Or.inr (Or.inl h8)
  · split at h
    · rename_i h16
      split at h
      · cases h
      · simp only [Run.of, Except.ok.injEq] at h
        subst h
        exact Or.inr (Or.inr h16)
    · split at h
      · cases h
      · rename_i hz
        have hz : ea1.size = 0 := by omega
        split at h
        · simp only [Run.of, Except.ok.injEq] at h
          subst h; exact hww
        · split at h
          · simp only [Run.of, Except.ok.injEq] at h
            subst h; exact hww
          · obtain ⟨num, _, h, _⟩ := Run.bind_out h
            simp only [Run.of, Except.ok.injEq] at h
            split at h
            · subst h; exact Or.inl (h2z.trans hz)
            · split at h
              · subst h; exact Or.inl (h2z.trans hz)
              · split at h <;> subst h
                · exact Or.inr (Or.inl rfl)
                · exact hww

theorem encodeRegs_size {c : Ctx} {nequ absSym : Nat} {ea : Effaddr} {bits : Nat} {rex : BitVec 8} {r : Regs}
    {x : Effaddr × BitVec 8} (h : (encodeRegs c nequ absSym ea bits rex r).out = .ok x) : DispSize x.1.size := by
  unfold encodeRegs at h
  extract_lets t r1 e1 e2 at h
  clear_value r1 e2
  split at h
  · cases h
    exact Or.inr (Or.inr (Or.inr rfl))
  · obtain ⟨a, ha, h, _⟩ := Run.bind_out h
    obtain ⟨b, hb, h, _⟩ := Run.bind_out h
    obtain ⟨d, hd, h, _⟩ := Run.bind_out h
    simp only [Run.of, Except.ok.injEq] at h
    subst h
    exact calcDisplen_size hd (Or.inr rfl)

theorem checkea_size {c : Ctx} {nequ absSym : Nat} {ea : Effaddr} {addrsize bits : Nat} {a16 : Bool} {rex : BitVec 8}
    {r : Checked} (h : (checkea c nequ absSym ea addrsize bits a16 rex).out = .ok r) (hk : ea.needModrm = true ∧ ea.validModrm = false)
    (hbits : bits = 16 ∨ bits = 32 ∨ bits = 64) (ha : addrsize = 0 ∨ addrsize = 16 ∨ addrsize = 32 ∨ addrsize = 64) :
    DispSize r.ea.size ∧ (r.addrsize = 16 ∨ r.addrsize = 32 ∨ r.addrsize = 64) := by
  unfold checkea at h
  obtain ⟨a, h1, h, _⟩ := Run.bind_out h
  have hA : a = 16 ∨ a = 32 ∨ a = 64 := by
    simp only [Run.of] at h1
    split at h1
    · exact addrSize_size hbits h1
    · cases h1; omega
  split at h
  · unfold check3264 at h
    split at h
    · cases h
    · extract_lets e1 at h
      clear_value e1
      obtain ⟨x, hx, h, _⟩ := Run.bind_out h
      obtain ⟨y, _, h, _⟩ := Run.bind_out h
      obtain ⟨z, hz, h, _⟩ := Run.bind_out h
      cases h
      exact ⟨encodeRegs_size hz, hA⟩
  · rename_i hc1
    split at h
    · unfold check16 at h
      split at h
      · cases h
      · extract_lets e1 at h
        clear_value e1
        obtain ⟨x, hx, h, _⟩ := Run.bind_out h
        dsimp only at h
        split at h
        · cases h
        · split at h
          · cases h
          · obtain ⟨z, hz, h, _⟩ := Run.bind_out h
            cases h
            exact ⟨calcDisplen_size hz (Or.inl rfl), Or.inl rfl⟩
    · rename_i hc2
      exfalso
      rcases hA with rfl | rfl | rfl
      · exact hc2 ⟨rfl, hk⟩
      · exact hc1 ⟨Or.inl rfl, by simp [hk]⟩
      · exact hc1 ⟨Or.inr rfl, by simp [hk]⟩

/-! ### The decoder -/

theorem decode_disp {bits a vsib : Nat} {rex m s : Byte} {mem : Mem} (h : readOperand bits a vsib rex m s = some mem) :
    mem.disp = 0 ∨ mem.disp = 1 ∨ mem.disp = 2 ∨ mem.disp = 4 := by
  unfold readOperand at h
  split at h
  · unfold decode16 at h
    dsimp only at h
    split at h
    · cases h
    · split at h
      · cases h; simp
      · split at h <;> cases h <;> dsimp only <;> (repeat' split) <;> simp
  · unfold decode3264 at h
    dsimp only at h
    split at h
    · cases h
    · split at h
      · split at h
        · cases h; simp
        · cases h; dsimp only; (repeat' split) <;> simp
      · split at h
        · cases h
        · split at h
          · cases h; simp
          · cases h; dsimp only; (repeat' split) <;> simp

theorem decode_nosib {bits a vsib : Nat} {rex m s : Byte} {mem : Mem} (h : readOperand bits a vsib rex m s = some mem)
    (hs : mem.sib = false) (s' : Byte) : readOperand bits a vsib rex m s' = some mem := by
  unfold readOperand at h ⊢
  split
  · rename_i ha; rw [if_pos ha] at h; exact h
  · rename_i ha
    rw [if_neg ha] at h
    unfold decode3264 at h ⊢
    dsimp only at h ⊢
    split
    · rename_i h3; rw [if_pos h3] at h; exact h
    · rename_i h3
      rw [if_neg h3] at h
      split
      · rename_i h4
        rw [if_pos h4] at h
        exfalso
        split at h <;> cases h <;> cases hs
      · rename_i h4
        rw [if_neg h4] at h
        exact h

theorem widen_byte : ∀ b : Byte, b.toNat / 64 = 1 →
    ((b &&& ~~~0xC0#8) ||| 0x80#8).toNat / 64 = 2 ∧ ((b &&& ~~~0xC0#8) ||| 0x80#8).toNat % 8 = b.toNat % 8 := by
  decide +kernel

/-- Widening the displacement changes nothing else. -/
theorem decode_widen {bits a vsib : Nat} {rex m s : Byte} {mem : Mem} (h : readOperand bits a vsib rex m s = some mem)
    (hd : mem.disp = 1) :
    readOperand bits a vsib rex ((m &&& ~~~0xC0#8) ||| 0x80#8) s = some { mem with disp := if a = 16 then 2 else 4 } := by
  unfold readOperand at h ⊢
  split
  · rename_i ha
    rw [if_pos ha] at h
    have hm : m.toNat / 64 = 1 := by
      unfold decode16 at h
      dsimp only at h
      split at h
      · cases h
      · split at h
        · cases h; cases hd
        · by_contra hne
          split at h <;> cases h <;> dsimp only at hd <;> (split at hd) <;> first | cases hd | (rw [if_neg hne] at hd; cases hd)
    obtain ⟨w1, w2⟩ := widen_byte m hm
    unfold decode16 at h ⊢
    dsimp only at h ⊢
    rw [w1, w2]
    rw [hm] at h
    simp only [show ¬(1 = 3) by decide, show ¬(1 = 0) by decide, show ¬ (2 = 3) by decide, show ¬ (2 = 0) by decide,
      show ¬ (2 = 1) by decide, if_false, if_true, false_and] at h ⊢
    split at h <;> cases h <;> simp_all
  · rename_i ha
    rw [if_neg ha] at h
    have hm : m.toNat / 64 = 1 := by
      unfold decode3264 at h
      dsimp only at h
      by_contra hne
      split at h
      · cases h
      · split at h
        · split at h
          · cases h; cases hd
          · cases h; dsimp only at hd; split at hd <;> first | cases hd | (split at hd <;> first | cases hd | exact hne (by assumption))
        · split at h
          · cases h
          · split at h
            · cases h; cases hd
            · cases h; dsimp only at hd; split at hd <;> first | cases hd | (split at hd <;> first | cases hd | exact hne (by assumption))
    obtain ⟨w1, w2⟩ := widen_byte m hm
    unfold decode3264 at h ⊢
    dsimp only at h ⊢
    rw [w1, w2]
    rw [hm] at h
    simp only [show ¬(1 = 3) by decide, show ¬(1 = 0) by decide, show ¬ (2 = 3) by decide, show ¬ (2 = 0) by decide,
      show ¬ (2 = 1) by decide, if_false, if_true, false_and, and_false] at h ⊢
    split
    · rename_i h4
      rw [if_pos h4] at h
      cases h
      rfl
    · rename_i h4
      rw [if_neg h4] at h
      split
      · rename_i h5; rw [if_pos h5] at h; cases h
      · rename_i h5
        rw [if_neg h5] at h
        cases h
        rfl

/-! ### From counting to writing -/

/-- What is known of the memory operand of an instruction, as written in `ea0`, from counting on. -/
structure Held (ρ : Env) (absSym : Nat) (ea0 : Effaddr) (i : Insn) (ea : Effaddr) (m : Mem) : Prop where
  has : i.ea = some ea
  decode : readOperand i.common.mode i.common.addrsize ea.vsib i.rex ea.modrm ea.sib = some m
  address : absVal ρ ea0.disp.abs = m.val ρ + absVal ρ ea.disp.abs - (if ea.ipRel then ρ.reg 0xD0 else 0)
  symbol : ea.ipRel = false → ea.disp.p = ea0.disp.p
  rip : ea.ipRel = true → ea.disp.p = { ea0.disp.p with curposRel := true, rel := some (ea0.disp.p.rel.getD absSym) }
  size : DispSize ea.size
  bytes : m.disp = ea.size / 8
  sib : m.sib = decide (ea.needSib ≠ 0)
  valid : ea.needSib ≠ 0 → ea.validSib = true
  modrm : ea.needModrm = true ∧ ea.validModrm = true
  drop : m.disp = 0 → ea.disp.p.rel = none ∧ absVal ρ ea.disp.abs = 0
  need : ea.needDisp = false ↔ m.disp = 0
  addrsize : i.common.addrsize = 16 ∨ i.common.addrsize = 32 ∨ i.common.addrsize = 64

theorem held_congr {ρ : Env} {absSym : Nat} {ea0 ea : Effaddr} {i j : Insn} {m : Mem} (h : Held ρ absSym ea0 i ea m)
    (h1 : j.ea = i.ea) (h2 : j.common = i.common) (h3 : j.rex = i.rex) : Held ρ absSym ea0 j ea m :=
  ⟨h1.trans h.has, by rw [h2, h3]; exact h.decode, h.address, h.symbol, h.rip, h.size, h.bytes, h.sib, h.valid, h.modrm, h.drop, h.need,
    by rw [h2]; exact h.addrsize⟩

theorem countVex_kept (i : Insn) : (countVex i).1.ea = i.ea ∧ (countVex i).1.common = i.common ∧ (countVex i).1.rex = i.rex ∧
    (countVex i).1.imm = i.imm ∧ (countVex i).1.postop = i.postop := by
  unfold countVex
  split
  · split <;> exact ⟨rfl, rfl, rfl, rfl, rfl⟩
  · split <;> exact ⟨rfl, rfl, rfl, rfl, rfl⟩

/-- Counting. -/
theorem calcLen_held (ρ : Env) (rf : RegFile ρ) (c : Ctx) (base : Nat → Word) (ag : ρ.Agrees c base) (nequ absSym : Nat)
    (i : Insn) (ea : Effaddr) (ok : OperandOk ρ c nequ absSym i ea) (r : Count Insn) (h : (calcLen c nequ absSym i).out = .ok r)
    (sound : ∀ k ∈ (calcLen c nequ absSym i).log, k.Sound) : ∃ ea' m, Held ρ absSym ea r.insn ea' m := by
  unfold calcLen at h sound
  obtain ⟨a, ha, h, l1⟩ := Run.bind_out h
  obtain ⟨b, hb, h, _⟩ := Run.bind_out h
  rw [l1] at sound
  have sa := fun k hk => sound k (List.mem_append_left _ hk)
  cases h
  unfold countEa at ha sa
  rw [ok.has] at ha sa
  dsimp only at ha sa
  rw [decide_eq_false ok.postop] at ha sa
  obtain ⟨x, hx, ha, l2⟩ := Run.bind_out ha
  rw [l2] at sa
  cases ha
  obtain ⟨m, hm, f⟩ := address_partial ρ rf c base ag nequ absSym ea i.common.addrsize i.common.mode i.rex x ok.mode ok.size hx
    (fun k hk => sa k (List.mem_append_left _ hk)) ok.fresh ok.plain ok.rex (fun e he => ⟨(ok.good e he).1, (ok.good e he).2 x hx⟩)
  obtain ⟨z1, z2⟩ := checkea_size hx ⟨ok.fresh.needModrm, ok.fresh.validModrm⟩ ok.mode ok.size
  have hdec : readOperand i.common.mode x.addrsize x.ea.vsib x.rex x.ea.modrm x.ea.sib = some m := hm
  have key : ∃ ea', ∃ m, Held ρ absSym ea { i with ea := some (dispSpan x.ea).1, common := { i.common with addrsize := x.addrsize }, rex := x.rex } ea' m := by
    unfold dispSpan
    have hneed := f.need
    have hsib : m.sib = decide (x.ea.needSib ≠ 0) := by
      cases hs : m.sib with
      | true => have := (f.sib hs).1; rw [this]; rfl
      | false => have := f.noSib hs; rw [this]; rfl
    have hval : x.ea.needSib ≠ 0 → x.ea.validSib = true := by
      intro hn
      cases hs : m.sib with
      | true => exact (f.sib hs).2
      | false => exact absurd (f.noSib hs) hn
    have hb := f.bytes
    unfold dispBytes at hb
    split
    · rename_i hc
      rw [if_pos hc.1, if_pos hc.2] at hb
      exact ⟨_, m, rfl, hdec, f.address, f.symbol, fun h => (f.rip h).2, Or.inr (Or.inl rfl), hb.trans (show 1 = 8 / 8 from rfl), hsib, hval, f.modrm, f.drop, f.need, z2⟩
    · rename_i hc
      refine ⟨_, m, rfl, hdec, f.address, f.symbol, fun h => (f.rip h).2, z1, ?_, hsib, hval, f.modrm, f.drop, f.need, z2⟩
      rw [hb]
      by_cases h0 : x.ea.size = 0
      · have : x.ea.needNonzero = false := by
          by_contra hne
          exact hc ⟨h0, by simpa using hne⟩
        rw [if_pos h0, this, h0]; rfl
      · rw [if_neg h0]
  obtain ⟨ea', m', hh⟩ := key
  refine ⟨ea', m', ?_⟩
  rw [if_neg ok.postop] at hb
  have hi : ∀ {j : Insn} {s : Count Insn}, (countImm c nequ j).out = .ok s → s.insn.ea = j.ea ∧ s.insn.common = j.common ∧ s.insn.rex = j.rex := by
    intro j s hs
    unfold countImm at hs
    split at hs
    · cases hs; exact ⟨rfl, rfl, rfl⟩
    · split at hs
      · obtain ⟨num, _, hs, _⟩ := Run.bind_out hs
        split at hs
        · cases hs; exact ⟨rfl, rfl, rfl⟩
        · split at hs
          · cases hs; exact ⟨rfl, rfl, rfl⟩
          · simp only [Run.of] at hs
            obtain ⟨i', h1, rfl⟩ := map_ok hs
            obtain ⟨_, _, _, k4, _, _, k7, k8, _⟩ := wordOpcode_ok h1
            exact ⟨k4, k8, k7⟩
      · cases hs; exact ⟨rfl, rfl, rfl⟩
  obtain ⟨q1, q2, q3⟩ := hi hb
  obtain ⟨v1, v2, v3, _, _⟩ := countVex_kept b.insn
  exact held_congr hh (v1.trans q1) (v2.trans q2) (v3.trans q3)

theorem mem_val_disp (ρ : Env) (m : Mem) (n : Nat) : Mem.val ρ { m with disp := n } = m.val ρ := rfl

/-- Widening. -/
theorem expand_held {ρ : Env} {absSym : Nat} {ea0 ea : Effaddr} {i i' : Insn} {len len' span : Nat} {m : Mem}
    (hh : Held ρ absSym ea0 i ea m) (h : expand i len span = .ok (i', len')) : ∃ ea' m', Held ρ absSym ea0 i' ea' m' := by
  unfold expand at h
  split at h
  · simp only [Except.ok.injEq] at h
    unfold expandDisp at h
    rw [hh.has] at h
    dsimp only at h
    split at h
    · rename_i h8
      cases h
      have hb := hh.bytes
      rw [h8] at hb
      have hb : m.disp = 1 := hb
      have hd := decode_widen hh.decode hb
      have hn : ¬ ea.needDisp = false := by rw [hh.need, hb]; decide
      refine ⟨_, _, rfl, hd, hh.address, hh.symbol, hh.rip, ?_, ?_, hh.sib, hh.valid, hh.modrm, ?_, ?_, hh.addrsize⟩
      · dsimp only; split
        · exact Or.inr (Or.inr (Or.inl rfl))
        · exact Or.inr (Or.inr (Or.inr rfl))
      · dsimp only; split <;> rfl
      · intro h; dsimp only at h; split at h <;> cases h
      · constructor
        · intro h; exact absurd h hn
        · intro h; dsimp only at h; split at h <;> cases h
    · cases h
      exact ⟨ea, m, hh⟩
  · split at h
    · unfold expandImm at h
      split at h
      · cases h; exact ⟨ea, m, hh⟩
      · split at h
        · obtain ⟨j, h1, h2⟩ := map_ok h
          cases h2
          obtain ⟨_, _, _, k4, _, _, k7, k8, _⟩ := wordOpcode_ok h1
          exact ⟨ea, m, held_congr hh k4 k8 k7⟩
        · cases h; exact ⟨ea, m, hh⟩
    · cases h; exact ⟨ea, m, hh⟩

theorem life_held (ρ : Env) (rf : RegFile ρ) (c : Ctx) (base : Nat → Word) (ag : ρ.Agrees c base) (nequ absSym : Nat)
    (i : Insn) (ea : Effaddr) (ok : OperandOk ρ c nequ absSym i ea) {j : Insn} {len : Nat} (h : Life c nequ absSym i j len)
    (sound : ∀ k ∈ (calcLen c nequ absSym i).log, k.Sound) : ∃ ea' m, Held ρ absSym ea j ea' m := by
  induction h with
  | count hr => exact calcLen_held ρ rf c base ag nequ absSym i ea ok _ hr sound
  | widen span _ he ih =>
    obtain ⟨ea', m, hh⟩ := ih
    exact expand_held hh he

/-! ### The bytes of the operand -/

/-- What the displacement is counted from. -/
def back (ea : Effaddr) (len : Nat) : Word := if ea.ipRel then BitVec.ofNat 256 len else 0

theorem eaBytes_disp {out : OutputValue} {ρ : Env} {w : Place} (writes : Writes out ρ w) {ea : Effaddr} {len pos : Nat} {e : Emitted Effaddr}
    (fine : Fine ρ ea.disp) (hl : len < 2 ^ 32) (hs : DispSize ea.size) (hm : ea.needModrm = true)
    (hz : ea.needDisp = true → ea.size ≠ 0)
    (he : (eaBytes out ea len pos).out = .ok e) (sound : ∀ k ∈ (eaBytes out ea len pos).log, k.Sound) :
    ∃ d, e.bytes = ea.modrm :: ((if ea.needSib ≠ 0 then [ea.sib] else []) ++ d) ∧
      (ea.needDisp = false → d = [] ∧ e.after = ea) ∧
      (ea.needDisp = true → d.length = ea.size / 8 ∧
        (leVal d : Int) = (meaning ρ w ea.disp - back ea len).toInt % 2 ^ (8 * (ea.size / 8)) ∧
        (e.warns = [] ↔ ea.disp.noWarn = true ∨ Takes false (ea.size / 8) (meaning ρ w ea.disp - back ea len).toInt)) ∧
      (∃ f : Field, e.after = (if ea.needDisp then setDisp ea f else ea) ∧
        (ea.needDisp = true → Fine ρ f.v ∧ f.size = ea.size ∧ meaning ρ w f.v = meaning ρ w ea.disp - back ea len ∧
          f.v.noWarn = ea.disp.noWarn ∧ ∃ g n p x, (out g n p).out = .ok x ∧ g.ipRel = ea.ipRel ∧ f = x.field)) := by
  unfold eaBytes at he sound
  obtain ⟨b, hb, he, l1⟩ := Run.bind_out he
  rw [l1] at sound
  have hb' : b = (if ea.needModrm then [ea.modrm] else []) ++ (if ea.needSib ≠ 0 then [ea.sib] else []) := by
    simp only [Run.of, modrmBytes] at hb
    split at hb
    · cases hb
    · split at hb
      · cases hb
      · simp only [Except.ok.injEq] at hb; rw [if_pos hm]; exact hb.symm
  rw [if_pos hm] at hb'
  by_cases hd : ea.needDisp = true
  · rw [if_pos hd] at he sound
    obtain ⟨f, hf⟩ : ∃ f, endField ea len = f := ⟨_, rfl⟩
    rw [hf] at he sound
    obtain ⟨x, hx, he, l2⟩ := Run.bind_out he
    rw [l2] at sound
    cases he
    have hf : f = { dispField ea with v := if ea.ipRel then fromEnd ea.disp len else ea.disp } := by
      rw [← hf]; unfold endField; split <;> rfl
    have hfine : Fine ρ f.v := by
      rw [hf]; dsimp only; split
      · exact fromEnd_fine fine hl
      · exact fine
    have hmean : meaning ρ w f.v = meaning ρ w ea.disp - back ea len := by
      rw [hf]; dsimp only [back]; split
      · exact fromEnd_meaning ρ w _ hl
      · grind
    have hnw : f.v.noWarn = ea.disp.noWarn := by
      rw [hf]; dsimp only; split
      · unfold fromEnd; dsimp only; split <;> rfl
      · rfl
    have hfs : f.size = ea.size := by rw [hf]; rfl
    have hfsg : f.sign = false := by rw [hf]; rfl
    have hfip : f.ipRel = ea.ipRel := by rw [hf]; rfl
    have hz := hz hd
    have h8 : ea.size = 8 * (ea.size / 8) ∧ 1 ≤ ea.size / 8 ∧ ea.size / 8 ≤ 8 := by unfold DispSize at hs; omega
    obtain ⟨w1, w2, w3, w4, w5, w6, w7, w8⟩ := writes f _ _ x hfine (hfs.trans h8.1) h8.2.1 h8.2.2 hx
      (fun k hk => sound k (List.mem_append_right _ (List.mem_append_left _ hk)))
    rw [hmean] at w2 w3 w5
    rw [hnw] at w3 w8
    rw [hfsg] at w3
    refine ⟨x.bytes, by rw [hb']; simp, fun (h : ea.needDisp = false) => absurd (h.symm.trans hd) (by decide), fun _ => ⟨w1, w2, w3⟩,
      x.field, ?_, fun _ => ⟨w4, w6.trans hfs, w5, w8, f, _, _, x, hx, hfip, rfl⟩⟩
    · rw [if_pos hd]
  · rw [if_neg hd] at he
    cases he
    refine ⟨[], by rw [hb']; simp, fun _ => ⟨rfl, rfl⟩, fun h => absurd h hd, dispField ea, by rw [if_neg hd], fun h => absurd h hd⟩

end Verif.Insn
