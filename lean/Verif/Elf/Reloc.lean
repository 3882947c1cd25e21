import Verif.Elf.Table
import Verif.Elf.Link
import Mathlib.Tactic.Positivity
import Mathlib.Tactic.Ring
import Mathlib.Algebra.Order.Ring.Int
/-
Reading back the relocations of the file, and what a linker makes of them.
-/
set_option linter.unusedSimpArgs false
set_option linter.unusedSectionVars false
namespace Verif.Elf

theorem SameField.refl (n : Nat) (a : Int) : SameField n a a := ⟨0, by simp⟩
theorem SameField.add {n : Nat} {a b c d : Int} (h : SameField n a b) (g : SameField n c d) : SameField n (a + c) (b + d) := by
  obtain ⟨x, hx⟩ := h
  obtain ⟨y, hy⟩ := g
  refine ⟨x + y, ?_⟩
  have : (2 ^ n : Int) * (x + y) = 2 ^ n * x + 2 ^ n * y := by ring
  rw [this, ← hx, ← hy]; ring
theorem SameField.sub {n : Nat} {a b c d : Int} (h : SameField n a b) (g : SameField n c d) : SameField n (a - c) (b - d) := by
  obtain ⟨x, hx⟩ := h
  obtain ⟨y, hy⟩ := g
  refine ⟨x - y, ?_⟩
  have : (2 ^ n : Int) * (x - y) = 2 ^ n * x - 2 ^ n * y := by ring
  rw [this, ← hx, ← hy]; ring
theorem SameField.trans {n : Nat} {a b c : Int} (h : SameField n a b) (g : SameField n b c) : SameField n a c := by
  have := Int.dvd_add h g
  unfold SameField
  rwa [show a - b + (b - c) = a - c by ring] at this

theorem stored_same (m : Machine) (v : Int) {n : Nat} (h : n ≤ 8 * width m.wide) : SameField n (m.stored v) v := by
  unfold SameField Machine.stored
  have hp : (0 : Int) < 2 ^ (8 * width m.wide) := by positivity
  rw [Int.toNat_of_nonneg (Int.emod_nonneg _ hp.ne')]
  have h1 : ((2 : Int) ^ n) ∣ 2 ^ (8 * width m.wide) := pow_dvd_pow 2 h
  refine h1.trans ?_
  have := Int.dvd_sub_self_of_emod_eq (a := v) (b := 2 ^ (8 * width m.wide)) rfl
  have h2 := (Int.dvd_neg).mpr this
  rwa [neg_sub] at h2

theorem size_of_accepts {m : Machine} {val : Nat} (h : m.accepts val none = true) :
    val = 8 ∨ val = 16 ∨ val = 32 ∨ (val = 64 ∧ m.wide = true) := by
  unfold Machine.accepts at h
  simp only at h
  split at h
  · cases h
  · rename_i h1
    have h1 : val &&& (val - 1) = 0 := by simpa using h1
    have h0 : val ≠ 0 := by rintro rfl; simp at h
    obtain ⟨k, rfl⟩ := (Nat.and_sub_one_eq_zero_iff_isPowerOfTwo h0).mp h1
    obtain ⟨M, hM, hw⟩ : ∃ M, M < 2 ^ 7 ∧ M = if m.wide then 8 ||| 16 ||| 32 ||| 64 else 8 ||| 16 ||| 32 :=
      ⟨_, by split <;> decide, rfl⟩
    rw [← hw] at h
    have hk : k < 7 := by
      by_contra hk
      have : ∀ b, b < 2 ^ 7 → 2 ^ k &&& b = 0 := by
        intro b hb
        apply Nat.eq_of_testBit_eq
        intro i
        rw [Nat.testBit_and, Nat.testBit_two_pow, Nat.zero_testBit]
        by_cases hi : k = i
        · subst hi
          rw [Nat.testBit_lt_two_pow (lt_of_lt_of_le hb (Nat.pow_le_pow_right (by decide) (by omega)))]
          simp
        · simp [hi]
      have h2 := this M hM
      simp [h2] at h
    rcases (by decide : ∀ b : Bool, b = false ∨ b = true) m.wide with hm | hm
    · rw [hm] at hw ⊢
      subst hw
      have : ∀ k : Fin 7, (2 ^ k.val &&& (if false = true then 8 ||| 16 ||| 32 ||| 64 else 8 ||| 16 ||| 32) != 0) = true →
        2 ^ k.val = 8 ∨ 2 ^ k.val = 16 ∨ 2 ^ k.val = 32 ∨ (2 ^ k.val = 64 ∧ false = true) := by decide
      exact this ⟨k, hk⟩ h
    · rw [hm] at hw ⊢
      subst hw
      have : ∀ k : Fin 7, (2 ^ k.val &&& (if true = true then 8 ||| 16 ||| 32 ||| 64 else 8 ||| 16 ||| 32) != 0) = true →
        2 ^ k.val = 8 ∨ 2 ^ k.val = 16 ∨ 2 ^ k.val = 32 ∨ (2 ^ k.val = 64 ∧ true = true) := by decide
      exact this ⟨k, hk⟩ h

theorem size_le_width {m : Machine} {val : Nat} (h : m.accepts val none = true) : val ≤ 8 * width m.wide := by
  rcases size_of_accepts h with rfl | rfl | rfl | ⟨rfl, hw⟩
  · unfold width; split <;> decide
  · unfold width; split <;> decide
  · unfold width; split <;> decide
  · rw [hw]; decide

theorem plain_formula {m : Machine} {val : Nat} (h : m.accepts val none = true) (rel : Bool) :
    ∃ t, m.plainType rel val = some t ∧ t < 256 ∧ m.formula t = some ⟨.symbol, rel, val⟩ := by
  rcases size_of_accepts h with rfl | rfl | rfl | ⟨rfl, hw⟩
  · cases m <;> cases rel <;> exact ⟨_, rfl, by decide, rfl⟩
  · cases m <;> cases rel <;> exact ⟨_, rfl, by decide, rfl⟩
  · cases m <;> cases rel <;> exact ⟨_, rfl, by decide, rfl⟩
  · cases m
    · cases hw
    · cases rel <;> exact ⟨_, rfl, by decide, rfl⟩
    · cases hw

/-- The whole table of special symbols, for both kinds of value. -/
def specialOk (m : Machine) (rel : Bool) (k : Nat) : Bool :=
  match m.ssyms[k]? with
  | none => true
  | some x =>
    if x.name = "gotpc" then !x.symRel && x.curpos && decide (m = .x86) && decide (x.reloc = 10) && decide (x.size = 32)
    else
      let t := if m ≠ .x86 ∧ rel = true ∧ x.reloc = 3 then 9 else x.reloc
      let fine := fun (q : Quantity) (pc : Bool) =>
        decide (t < 256) && decide (m.formula t = some ⟨q, pc, x.size⟩) && (x.symRel || decide (q = .gotOff)) && !x.curpos &&
          decide (x.size ≤ 8 * width m.wide)
      match asks m x.name rel with
      | some q => fine q rel
      | none => if rel then true else match asksFromField m x.name with | none => true | some q => fine q true

theorem specialOk_all (m : Machine) (rel : Bool) (k : Nat) : specialOk m rel k = true := by
  by_cases hk : k < 14
  · revert k
    cases m <;> cases rel <;> decide +kernel
  · have : m.ssyms[k]? = none := by
      rw [List.getElem?_eq_none_iff]
      have : m.ssyms.length ≤ 14 := by cases m <;> decide
      omega
    unfold specialOk
    rw [this]

/-- What is asked of an object whose relocations are to be linked. -/
structure RefOk (o : Obj) : Prop where
  /-- the file does not define `_GLOBAL_OFFSET_TABLE_` -/
  got : ∀ (n : Nat) (s : Sym), o.syms[n]? = some s → s.name = nGot → s.kind = .other
  /-- the symbol of a section is at its start -/
  start : ∀ (n : Nat) (s : Sym) (k off : Nat), o.syms[n]? = some s → o.isSection s = true → s.kind = .label k off → off = 0

theorem addAbs_eq {i j : Int} {a : Option Num} (h : addAbs i a = some j) : j = i + Num.get a := by
  unfold addAbs at h
  split at h
  · cases h; simp [Num.get]
  · cases h; rfl
  · cases h

theorem value_same {o : Obj} (hg : ObjOk o) (hr : RefOk o) (k : Linker) {n : Nat} {s : Sym} (hs : o.syms[n]? = some s)
    (hk : ∀ v a, s.kind ≠ .equ v a) {bits : Nat} (hb : bits ≤ 8 * width o.machine.wide) :
    SameField bits (k.value (o.wantSym n s)) (o.address k n s) := by
  unfold Linker.value Obj.address Obj.wantSym Obj.wantShndx Obj.wantValue
  simp only
  rcases hkk : s.kind with ⟨j, off⟩ | ⟨v, a⟩ | _
  · have hj := (hg.syms n s hs).sect j off hkk
    have h1 := before_le o.sects (List.getElem?_eq_getElem hj)
    have h2 := hg.count
    have h3 : o.sectIndex j < 0xff00 := by unfold Obj.sectIndex; split at h1 <;> omega
    have h4 : 4 ≤ o.sectIndex j := by unfold Obj.sectIndex; omega
    simp only
    rw [if_neg (by omega), if_neg (by omega)]
    refine (SameField.refl _ _).add ?_
    by_cases hsec : o.isSection s = true
    · rw [hr.start n s j off hs hsec hkk]
      simpa using stored_same o.machine 0 hb
    · rw [if_neg hsec]
      exact stored_same o.machine _ hb
  · exact absurd hkk (hk v a)
  · simp only
    rw [if_pos (by split <;> simp)]
    exact SameField.refl _ _

/-- The two ways to name the target of a relocation. -/
def localTarget (o : Obj) (n : Nat) : Nat × Int :=
  match o.scope.sectSym n with
  | some (q, off) => (q, off)
  | none => (n, 0)

theorem localTarget_same {o : Obj} (hg : ObjOk o) (hr : RefOk o) (k : Linker) {n : Nat} {s : Sym} (hs : o.syms[n]? = some s)
    (hk : ∀ v a, s.kind ≠ .equ v a) {bits : Nat} (hb : bits ≤ 8 * width o.machine.wide) :
    ∃ x, o.syms[(localTarget o n).1]? = some x ∧ ((localTarget o n).1 = n ∨ o.listed (localTarget o n).1 x = true) ∧
      (x.name = nGot → (localTarget o n).1 = n) ∧
      SameField bits (k.value (o.wantSym (localTarget o n).1 x) + (localTarget o n).2) (o.address k n s) := by
  rcases hsc : o.scope.sectSym n with _ | ⟨q, off⟩
  · have : localTarget o n = (n, 0) := by unfold localTarget; rw [hsc]
    rw [this]
    exact ⟨s, hs, Or.inl rfl, fun _ => rfl, by simpa using value_same hg hr k hs hk hb⟩
  · have : localTarget o n = (q, (off : Int)) := by unfold localTarget; rw [hsc]
    rw [this]
    unfold Obj.scope at hsc
    simp only [hs] at hsc
    split at hsc
    · cases hsc
    · rcases hkk : s.kind with ⟨j, off'⟩ | ⟨v, a⟩ | _
      · rw [hkk] at hsc
        simp only [Option.map_eq_some_iff, Prod.mk.injEq] at hsc
        obtain ⟨q', hq, rfl, rfl⟩ := hsc
        unfold Obj.sectionSym at hq
        rw [List.findIdx?_eq_some_iff_getElem] at hq
        obtain ⟨hlt, hp, _⟩ := hq
        simp only [Bool.and_eq_true, decide_eq_true_eq] at hp
        have hx : o.syms[q']? = some o.syms[q'] := List.getElem?_eq_getElem hlt
        refine ⟨_, hx, Or.inr (by unfold Obj.listed; rw [hp.1]; simp), ?_, ?_⟩
        · intro hn
          have := hr.got q' _ hx hn
          rw [hp.1] at this; cases this
        · have := value_same hg hr k hx (by intro v a; rw [hp.1]; simp) hb
          have h2 := this.add (SameField.refl bits (off' : Int))
          unfold Obj.address at h2 ⊢
          rw [hp.1] at h2
          rw [hkk]
          simpa using h2
      · rw [hkk] at hsc; cases hsc
      · rw [hkk] at hsc; cases hsc

/-- What comes out for a value with a symbol. -/
theorem outputValue_eq {m : Machine} {sc : Scope} {v : Val} {l : Loc} {n : Nat} {stored : Int} {rl : Reloc} (hn : v.rel = some n)
    (h : outputValue m sc v l = .ok stored (some rl)) :
    m.accepts v.size (wrtOf v.wrt) = true ∧ ∃ i, i = (target m sc v n l).2 + (if v.curposRel then (l.offset : Int) else 0) + Num.get v.abs ∧
      stored = (m.handleAddend i ⟨(target m sc v n l).1, l.bc + l.offset, v.curposRel, v.size, none, (wrtOf v.wrt).bind id,
        sc.isGot (target m sc v n l).1⟩ l.offset).1 ∧
      rl = (m.handleAddend i ⟨(target m sc v n l).1, l.bc + l.offset, v.curposRel, v.size, none, (wrtOf v.wrt).bind id,
        sc.isGot (target m sc v n l).1⟩ l.offset).2 := by
  unfold outputValue at h
  split at h
  · cases h
  · rw [hn] at h
    simp only at h
    split at h
    · cases h
    · rename_i ha
      have ha : m.accepts v.size (wrtOf v.wrt) = true := by simpa using ha
      refine ⟨ha, ?_⟩
      rcases hi : addAbs (if v.curposRel = true then (target m sc v n l).2 + ↑l.offset else (target m sc v n l).2) v.abs with _ | i
      · rw [hi] at h; cases h
      · rw [hi] at h
        simp only [Out.ok.injEq, Option.some.injEq] at h
        refine ⟨i, ?_, h.1.symm, h.2.symm⟩
        rw [addAbs_eq hi]
        split <;> simp

theorem handleAddend_fields (m : Machine) (i : Int) (r : Reloc) (off : Nat) :
    (m.handleAddend i r off).2.sym = r.sym ∧ (m.handleAddend i r off).2.addr = r.addr ∧
    m.relocType (m.handleAddend i r off).2 = m.relocType r := by
  cases m <;> exact ⟨rfl, rfl, rfl⟩

/-- The addend a linker finds. -/
theorem addend_same {m : Machine} {i : Int} {r : Reloc} {off : Nat} {bits : Nat} (hb : bits ≤ 8 * width m.wide) {q : Rel} {field : Int}
    (hq : q.addend = m.wantAddend (m.handleAddend i r off).2.addend)
    (hf : SameField bits field (m.handleAddend i r off).1) (hgot : (r.wrt.isNone && r.isGot && r.valsize == 32) = false) :
    SameField bits (q.addendIn field) i := by
  unfold Rel.addendIn
  rw [hq]
  cases m
  · simp only [Machine.wantAddend, if_true]
    simp only [Machine.handleAddend, hgot, Bool.false_and, Bool.false_eq_true, if_false] at hf
    exact hf
  · simp only [Machine.wantAddend, Machine.handleAddend, reduceCtorEq, if_false, Option.getD_some]
    exact stored_same .amd64 i hb
  · simp only [Machine.wantAddend, Machine.handleAddend, reduceCtorEq, if_false, Option.getD_some]
    exact stored_same .x32 i hb

end Verif.Elf
