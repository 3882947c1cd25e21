/-
Output without relocation writes the value.
-/
import Verif.Insn.Spec
import Verif.Ea.Usage
import Verif.Value.OutLemmas
import Verif.Intnum.Props

set_option linter.unusedSimpArgs false

namespace Verif.Insn

open Verif.Intnum
open Verif.Expr
open Verif.Value
open Verif.Ea

theorem signedLE_range (bs : List Byte) (h : bs ≠ []) :
    -(2 ^ (8 * bs.length - 1)) ≤ signedLE bs ∧ signedLE bs < 2 ^ (8 * bs.length - 1) := by
  have hn : 0 < bs.length := List.length_pos_of_ne_nil h
  have h1 := leVal_lt bs
  have e : (256 : Nat) ^ bs.length = 2 ^ (8 * bs.length) := by
    rw [show 256 = 2 ^ 8 by rfl, ← Nat.pow_mul]
  rw [e] at h1
  have e2 : (2 : Nat) ^ (8 * bs.length) = 2 * 2 ^ (8 * bs.length - 1) := by
    rw [← Nat.pow_succ']; congr 1; omega
  have e3 : ((2 : Int) ^ (8 * bs.length)) = ((2 ^ (8 * bs.length) : Nat) : Int) := by push_cast; rfl
  have e4 : ((2 : Int) ^ (8 * bs.length - 1)) = ((2 ^ (8 * bs.length - 1) : Nat) : Int) := by push_cast; rfl
  unfold signedLE
  rw [e3, e4]
  generalize (2 : Nat) ^ (8 * bs.length - 1) = p at *
  split <;> omega

theorem signedLE_mod (bs : List Byte) : signedLE bs % 2 ^ (8 * bs.length) = (leVal bs : Int) % 2 ^ (8 * bs.length) := by
  unfold signedLE
  split
  · rfl
  · rw [Int.sub_emod, Int.emod_self]; simp

theorem mod_unique {m a b : Int} (h : a % (2 * m) = b % (2 * m)) (h1 : -m ≤ a) (h2 : a < m) (h3 : -m ≤ b) (h4 : b < m) : a = b := by
  have : (2 * m) ∣ (a - b) := Int.dvd_of_emod_eq_zero (Int.emod_eq_emod_iff_emod_sub_eq_zero.mp h)
  obtain ⟨k, hk⟩ := this
  have hk0 : k = 0 := by
    by_contra hne
    rcases Int.lt_or_gt_of_ne hne with hlt | hgt
    · nlinarith
    · nlinarith
  rw [hk0] at hk; omega

/-- A number that fits is read back. -/
theorem signedLE_exact {bs : List Byte} {z : Int} (hb : bs ≠ []) (h : (leVal bs : Int) = z % 2 ^ (8 * bs.length))
    (h1 : -(2 ^ (8 * bs.length - 1)) ≤ z) (h2 : z < 2 ^ (8 * bs.length - 1)) : signedLE bs = z := by
  have hr := signedLE_range bs hb
  have hn : 0 < bs.length := List.length_pos_of_ne_nil hb
  have e2 : (2 : Int) ^ (8 * bs.length) = 2 * 2 ^ (8 * bs.length - 1) := by
    rw [← Int.pow_succ']; congr 1; omega
  refine mod_unique (m := 2 ^ (8 * bs.length - 1)) ?_ hr.1 hr.2 h1 h2
  rw [← e2, signedLE_mod, h, Int.emod_emod]

theorem no_warns {l : List SizedWarn} (h1 : SizedWarn.signedField ∉ l) (h2 : SizedWarn.field ∉ l) (h3 : SizedWarn.misaligned ∉ l) :
    l = [] := by
  cases l with
  | nil => rfl
  | cons a l => cases a <;> simp_all

theorem numBytes_ok {f : Field} {i : Intnum} {n : Nat} {b : List Byte × List SizedWarn} (h : numBytes f i n = .ok b)
    (hi : Fits i) (hs : f.size = 8 * n) (h1 : 1 ≤ n) (h8 : n ≤ 8) :
    b.1.length = n ∧ (leVal b.1 : Int) = val i % 2 ^ (8 * n) ∧
      (b.2 = [] ↔ f.v.noWarn = true ∨ Takes f.sign n (val i)) := by
  unfold numBytes at h
  obtain ⟨o, ho, hl, hb⟩ := get_sized_field i (List.replicate n 0) f.size 0 f.warn hi (by simp; omega)
  rw [ho] at h
  dsimp only at h
  cases h
  simp only [List.length_replicate] at hl hb
  refine ⟨hl, ?_, ?_⟩
  · rw [← hl]
    apply leVal_of_bits
    intro k hk
    rw [hl] at hk
    have := hb k hk
    rw [this, if_pos ⟨by simp, by rw [hs]; simpa using hk⟩]
    simp
  · obtain ⟨w1, w2, w3⟩ := get_sized_warns i (List.replicate n 0) f.size 0 f.warn hi (by omega) (by omega) (by omega) o ho
    simp only [Int.neg_zero, Int.toNat_zero, Int.pow_zero, Int.ediv_one, Int.emod_one, ne_eq, not_true_eq_false, and_false,
      iff_false] at w1 w2 w3
    rw [hs] at w1 w2
    unfold Field.warn at w1 w2
    constructor
    · intro he
      dsimp only at he
      rw [he] at w1 w2
      simp only [List.not_mem_nil, false_iff, not_and, not_not] at w1 w2
      by_cases hn : f.v.noWarn = true
      · exact Or.inl hn
      · right
        rw [if_neg hn] at w1 w2
        unfold Takes
        by_cases hsg : f.sign = true
        · rw [if_pos hsg] at w1 w2 ⊢
          have q := w1 (by decide)
          by_contra hh
          exact q fun x y => hh ⟨x, y⟩
        · rw [if_neg hsg] at w1 w2 ⊢
          have q := w2 (by decide)
          by_contra hh
          exact q fun x y => hh ⟨x, y⟩
    · intro hc
      apply no_warns
      · rw [w1]
        rintro ⟨a, b⟩
        by_cases hn : f.v.noWarn = true
        · rw [if_pos hn] at a; exact absurd a (by decide)
        · rw [if_neg hn] at a
          by_cases hsg : f.sign = true
          · rcases hc with hc | hc
            · exact hn hc
            · unfold Takes at hc; rw [if_pos hsg] at hc; exact b hc
          · rw [if_neg hsg] at a; exact absurd a (by decide)
      · rw [w2]
        rintro ⟨a, b⟩
        by_cases hn : f.v.noWarn = true
        · rw [if_pos hn] at a; exact absurd a (by decide)
        · rw [if_neg hn] at a
          by_cases hsg : f.sign = true
          · rw [if_pos hsg] at a; exact absurd a (by decide)
          · rcases hc with hc | hc
            · exact hn hc
            · unfold Takes at hc; rw [if_neg hsg] at hc; exact b hc
      · exact w3

theorem ident_int_good (ρ : Env) (i : Intnum) (h : Fits i) : Good ρ (Node.item ⟨.IDENT, [.int i]⟩) := by
  simp only [Node.item, Good, GoodL, Arity, List.length_cons, List.length_nil]
  simp [h]

theorem ident_int_eval (ρ : Env) (i : Intnum) : Node.eval ρ ⟨.IDENT, [.int i]⟩ = bv i := by
  simp [Node.eval, Node.item, eval, evalL, opVal, bv]

/-- `yasm_value_output_basic` as an output function. -/
theorem basic_writes (ρ : Env) (c : Ctx) (base : Nat → Word) (ag : ρ.Agrees c base)
    (hc : EquAllowed NoSegoff (fun _ => True) c) (w : Place) (nequ : Nat) (bc : At) (hw : w.cur = bc.addr base)
    (ho : bc.offset.toNat < 2 ^ 32) : Writes (basic c nequ bc) ρ w := by
  intro f n pos r fine hs h1 h8 h sound
  unfold basic at h sound
  obtain ⟨a, ha, h, hl⟩ := Run.bind_out h
  rw [hl] at sound
  have ha' := lift_out ha
  split at h
  · cases h
  · rename_i i
    extract_lets o at h
    split at h
    · rename_i k hk
      obtain ⟨b, hb, h, hl2⟩ := Run.bind_out h
      cases h
      have absIs := outAbs_ok ρ c base ag hc nequ f.v.abs fine.good fine.ops
        (fun k hk => sound k (List.mem_append_left _ hk)) i ha'
      have key : bv k = meaning ρ w f.v ∧ Fits k := by
        simp only [o, outRel] at hk
        cases hr : f.v.p.rel with
        | none =>
          rw [hr] at hk
          dsimp only at hk
          split at hk
          · cases hk
          · simp only [Output.int.injEq] at hk
            subst hk
            exact noRel_ok ρ w f.v hr fine.wrt i absIs
        | some s =>
          rw [hr] at hk
          dsimp only at hk
          cases hq : relHere c false f.v.p s bc with
          | none => rw [hq] at hk; cases hk
          | some q =>
            rw [hq] at hk
            simp only [Output.int.injEq] at hk
            subst hk
            exact resolved_ok ρ c base ag w bc hw ho false f.v s q hr fine.shift hq i absIs
      obtain ⟨q1, q2, q3⟩ := numBytes_ok hb key.2 hs h1 h8
      have ev : val k = (meaning ρ w f.v).toInt := by rw [← key.1, bv_toInt]
      rw [ev] at q2 q3
      refine ⟨q1, q2, q3, ⟨?_, ?_, fine.shift, fine.wrt⟩, ?_, rfl, rfl, rfl⟩
      · intro e he
        cases i with
        | none => cases he
        | some j =>
          simp only [Option.map_some, Option.some.injEq] at he
          subst he
          exact ident_int_good ρ j (absIs.2 j rfl)
      · intro e he
        cases i with
        | none => cases he
        | some j =>
          simp only [Option.map_some, Option.some.injEq] at he
          subst he
          simp [Node.item, Allowed, AllowedL, NoSegoff]
      · have : absVal ρ (i.map fun k => ⟨.IDENT, [.int k]⟩) = absVal ρ f.v.abs := by
          rw [← absIs.1]
          cases i with
          | none => rfl
          | some j => exact ident_int_eval ρ j
        unfold meaning
        rw [this]
    · cases h

/-! ### Flat binary output -/

theorem flat_agrees {ρ : Env} {b : BinCtx} {w : Place} {base : Nat → Word} (ag : ρ.Agrees b.ctx base) (right : b.Right ρ w) :
    ρ.Agrees b.flat base := by
  refine ⟨?_, ag.label, ag.precbc, ag.small, ag.seg⟩
  intro s d h
  unfold BinCtx.flat at h
  dsimp only at h
  split at h
  · rename_i e he
    cases h
    exact ag.equ s _ he
  · split at h
    · rename_i q hq
      cases h
      rw [ident_int_eval, ag.label s q hq]
      exact ⟨(right.vaddr q).2.symm, ident_int_good ρ _ (right.vaddr q).1⟩
    · simp only [Option.map_eq_some_iff] at h
      obtain ⟨i, hi, rfl⟩ := h
      rw [ident_int_eval]
      exact ⟨(right.special s i hi).2.symm, ident_int_good ρ _ (right.special s i hi).1⟩

theorem flat_allowed {b : BinCtx} (hc : EquAllowed NoSegoff (fun _ => True) b.ctx) : EquAllowed NoSegoff (fun _ => True) b.flat := by
  intro s d hs h
  unfold BinCtx.flat at h
  dsimp only at h
  split at h
  · rename_i e he
    cases h
    exact hc s _ hs he
  · split at h
    · cases h
      simp [Node.item, Allowed, AllowedL, NoSegoff]
    · simp only [Option.map_eq_some_iff] at h
      obtain ⟨i, hi, rfl⟩ := h
      simp [Node.item, Allowed, AllowedL, NoSegoff]

/-- A term that can be used in an expression: it is a proper one, without SEG:OFF, and has this value. -/
structure Term (ρ : Env) (t : Item) (x : Word) : Prop where
  good : Good ρ t
  ops : Allowed NoSegoff (fun _ => True) t
  value : eval ρ t = x

theorem base_term {ρ : Env} {b : BinCtx} {w : Place} (right : b.Right ρ w) {s : Nat} {t : Item} (h : b.base s = some t) :
    Term ρ t (ρ.sym s) := by
  unfold BinCtx.base at h
  split at h
  · rename_i ha
    cases h
    have := createUint_fits 0 (by decide)
    refine ⟨this.1, trivial, ?_⟩
    rw [right.abs s ha]
    exact this.2
  · split at h
    · cases h
      exact ⟨trivial, trivial, rfl⟩
    · simp only [Option.map_eq_some_iff] at h
      obtain ⟨i, hi, rfl⟩ := h
      exact ⟨(right.special s i hi).1, trivial, (right.special s i hi).2⟩

theorem rel_term {ρ : Env} {b : BinCtx} {w : Place} (right : b.Right ρ w) {p : Parts} {t : Item} {x : Word} (ht : Term ρ t x)
    (hs : p.rshift ≤ 127) : Term ρ (b.relItem p t) ((if p.curposRel then x - w.cur else x).sshiftRight p.rshift) := by
  unfold BinCtx.relItem
  have h1 : Term ρ (if p.curposRel then .expr .SUB [t, .int b.here] else t) (if p.curposRel then x - w.cur else x) := by
    split
    · refine ⟨?_, ?_, ?_⟩
      · simp only [Good, GoodL, Arity]
        exact ⟨by simp, by simp, ht.good, right.here.1, trivial⟩
      · simp only [Allowed, AllowedL]
        exact ⟨by simp [NoSegoff], ht.ops, trivial, trivial⟩
      · simp only [eval, evalL, opVal, ht.value, right.here.2]
    · exact ht
  extract_lets u
  change Term ρ u _ at h1
  split
  · have hz : (BitVec.ofNat 64 p.rshift).toNat = p.rshift := by rw [BitVec.toNat_ofNat]; omega
    obtain ⟨f1, f2⟩ := createUint_fits (BitVec.ofNat 64 p.rshift) (by omega)
    rw [hz] at f2
    refine ⟨?_, ?_, ?_⟩
    · simp only [Good, GoodL, Arity]
      exact ⟨by simp, by simp, h1.good, f1, trivial⟩
    · simp only [Allowed, AllowedL]
      exact ⟨by simp [NoSegoff], h1.ops, trivial, trivial⟩
    · unfold bv at f2
      simp only [eval, evalL, opVal, h1.value, f2]
      have e1 : (BitVec.ofNat 256 p.rshift).toNat = p.rshift := by
        rw [BitVec.toNat_ofNat]; exact Nat.mod_eq_of_lt (by omega)
      have e2 : ¬ (BitVec.ofNat 256 p.rshift).toInt < 0 := by
        rw [BitVec.toInt_eq_toNat_cond, e1, if_pos (by omega)]
        omega
      rw [if_neg e2, e1]
  · rename_i hz
    have hz : p.rshift = 0 := by omega
    rw [hz, BitVec.sshiftRight_zero]
    exact h1

theorem plus_ok {ρ : Env} {a : Option Node} {u : Item} {x : Word} (good : ∀ e, a = some e → Good ρ e.item)
    (ops : ∀ e, a = some e → Allowed NoSegoff (fun _ => True) e.item) (hu : Term ρ u x) :
    Term ρ (plus a u).item (absVal ρ a + x) := by
  unfold plus
  cases a with
  | none =>
    dsimp only [Node.item, absVal]
    refine ⟨?_, ?_, ?_⟩
    · simp only [Good, GoodL, Arity]
      exact ⟨by simp, by simp, hu.good, trivial⟩
    · simp only [Allowed, AllowedL]
      exact ⟨by simp [NoSegoff], hu.ops, trivial⟩
    · simp [eval, evalL, opVal, hu.value]
  | some e =>
    have g := good e rfl
    have o := ops e rfl
    show Term ρ (.expr .ADD [e.item, u]) (e.eval ρ + x)
    refine ⟨?_, ?_, ?_⟩
    · simp only [Good, GoodL, Arity]
      exact ⟨by simp, by simp, g, hu.good, trivial⟩
    · simp only [Allowed, AllowedL]
      exact ⟨by simp [NoSegoff], o, hu.ops, trivial⟩
    · simp [eval, evalL, opVal, hu.value, Node.eval]

/-- Folding the relative part into the absolute one keeps the value. -/
theorem fold_ok {ρ : Env} {b : BinCtx} {w : Place} (right : b.Right ρ w) {f : Field} (fine : Fine ρ f.v) :
    Fine ρ (b.fold f).v ∧ (f.v.p.segOf = false → meaning ρ w (b.fold f).v = meaning ρ w f.v) ∧ (b.fold f).size = f.size ∧
      (b.fold f).sign = f.sign ∧ (b.fold f).v.noWarn = f.v.noWarn ∧ (b.fold f).v.p.segOf = f.v.p.segOf ∧
      ((b.fold f).v.p.rel = none ∨ b.fold f = f) := by
  unfold BinCtx.fold
  cases hr : f.v.p.rel with
  | none => exact ⟨fine, fun _ => rfl, rfl, rfl, rfl, rfl, Or.inr rfl⟩
  | some s =>
    simp only [Option.bind_some]
    cases hb : b.base s with
    | none => exact ⟨fine, fun _ => rfl, rfl, rfl, rfl, rfl, Or.inr rfl⟩
    | some t =>
      dsimp only
      have hp := plus_ok fine.good fine.ops (rel_term right (base_term right hb) fine.shift (p := f.v.p))
      refine ⟨⟨?_, ?_, Nat.zero_le _, fine.wrt⟩, ?_, rfl, rfl, rfl, rfl, Or.inl rfl⟩
      · intro e he; cases he; exact hp.good
      · intro e he; cases he; exact hp.ops
      · intro hso
        simp only [meaning, absVal, relVal, wrtVal, hr, fine.wrt, hso, Bool.false_eq_true, if_false]
        rw [show Node.eval ρ (plus f.v.abs (b.relItem f.v.p t)) = _ from hp.value]
        unfold absVal
        grind

theorem basic_not_seg {c : Ctx} {nequ : Nat} {bc : At} {f : Field} {n pos : Nat} {r : Written} (hr : f.v.p.rel = none)
    (h : (basic c nequ bc f n pos).out = .ok r) : f.v.p.segOf = false := by
  unfold basic at h
  obtain ⟨a, ha, h, _⟩ := Run.bind_out h
  split at h
  · cases h
  · rename_i i
    extract_lets o at h
    split at h
    · rename_i k hk
      simp only [o, outRel, hr] at hk
      by_contra hs
      simp only [Bool.not_eq_false] at hs
      rw [hs] at hk
      simp at hk
    · cases h

theorem basic_rel_seg {c : Ctx} {nequ : Nat} {bc : At} {f : Field} {n pos : Nat} {r : Written}
    (h : (basic c nequ bc f n pos).out = .ok r) : f.v.p.segOf = false := by
  cases hr : f.v.p.rel with
  | none => exact basic_not_seg hr h
  | some s =>
    unfold basic at h
    obtain ⟨a, ha, h, _⟩ := Run.bind_out h
    split at h
    · cases h
    · rename_i i
      extract_lets o at h
      split at h
      · rename_i k hk
        simp only [o, outRel, hr] at hk
        cases hq : relHere c false f.v.p s bc with
        | none => rw [hq] at hk; cases hk
        | some q =>
          obtain ⟨_, _, h2, _⟩ := relHere_some hq
          exact h2
      · cases h

/-- `bin_objfmt_output_value` as an output function. -/
theorem bin_writes (ρ : Env) (b : BinCtx) (base : Nat → Word) (ag : ρ.Agrees b.ctx base)
    (hc : EquAllowed NoSegoff (fun _ => True) b.ctx) (w : Place) (right : b.Right ρ w) (nequ : Nat) (bc : At) (hw : w.cur = bc.addr base)
    (ho : bc.offset.toNat < 2 ^ 32) : Writes (bin b nequ bc) ρ w := by
  intro f n pos r fine hs h1 h8 h sound
  obtain ⟨k1, k2, k3, k4, k5, k6, _⟩ := fold_ok right fine
  unfold bin at h sound
  have hseg := basic_rel_seg h
  rw [k6] at hseg
  obtain ⟨q1, q2, q3, q4, q5, q6, q7, q8⟩ := basic_writes ρ b.flat base (flat_agrees ag right) (flat_allowed hc) w nequ bc hw ho _ n pos r k1
    (k3.trans hs) h1 h8 h sound
  rw [k2 hseg] at q2 q3 q5
  rw [k5, k4] at q3
  exact ⟨q1, q2, q3, q4, q5, q6.trans k3, q7.trans k4, q8.trans k5⟩

/-! ### Counting from the end of the instruction -/

theorem delta_val {len : Nat} (h : len < 2 ^ 32) : val (.L (-(BitVec.ofNat 64 len))) = -(len : Int) ∧
    Fits (.L (-(BitVec.ofNat 64 len))) := by
  have : (-(BitVec.ofNat 64 len)).toInt = -(len : Int) := by
    have h1 : (BitVec.ofNat 64 len).toInt = len := by
      rw [BitVec.toInt_eq_toNat_cond, BitVec.toNat_ofNat]
      rw [Nat.mod_eq_of_lt (by omega), if_pos (by omega)]
    rw [BitVec.toInt_neg, h1]
    simp only [Int.bmod_def]
    omega
  refine ⟨this, ?_⟩
  simp only [Fits, this]
  omega

theorem fromEnd_fine {ρ : Env} {v : Value} {len : Nat} (h : Fine ρ v) (hl : len < 2 ^ 32) : Fine ρ (fromEnd v len) := by
  obtain ⟨_, d2⟩ := delta_val hl
  unfold fromEnd
  extract_lets d
  split
  · refine ⟨?_, ?_, h.shift, h.wrt⟩
    · intro e he; simp only [Option.some.injEq] at he; subst he; exact ident_int_good ρ d d2
    · intro e he; simp only [Option.some.injEq] at he; subst he; simp [Node.item, Allowed, AllowedL, NoSegoff]
  · rename_i a ha
    have g := h.good a ha
    have o := h.ops a ha
    refine ⟨?_, ?_, h.shift, h.wrt⟩
    · intro e he; simp only [Option.some.injEq] at he; subst he
      show Good ρ (.expr .ADD [a.item, .int d])
      simp only [Good, GoodL, Arity]
      exact ⟨by simp, by simp, g, d2, trivial⟩
    · intro e he; simp only [Option.some.injEq] at he; subst he
      show Allowed NoSegoff (fun _ => True) (.expr .ADD [a.item, .int d])
      simp only [Allowed, AllowedL]
      exact ⟨by simp [NoSegoff], o, trivial, trivial⟩

theorem fromEnd_meaning (ρ : Env) (w : Place) (v : Value) {len : Nat} (hl : len < 2 ^ 32) :
    meaning ρ w (fromEnd v len) = meaning ρ w v - BitVec.ofNat 256 len := by
  obtain ⟨d1, d2⟩ := delta_val hl
  have hd : bv (.L (-(BitVec.ofNat 64 len))) = - BitVec.ofNat 256 len := by
    unfold bv
    rw [d1, BitVec.ofInt_neg, BitVec.ofInt_natCast]
  unfold fromEnd
  extract_lets d
  split
  · rename_i ha
    simp only [meaning, absVal, ha]
    rw [ident_int_eval]
    simp only [d, hd]
    grind
  · rename_i a ha
    have : Node.eval ρ ⟨.ADD, [a.item, .int d]⟩ = a.eval ρ + bv d := by
      simp [Node.eval, Node.item, eval, evalL, opVal, bv]
    simp only [meaning, absVal, ha]
    rw [this]
    simp only [d, hd]
    grind

end Verif.Insn
