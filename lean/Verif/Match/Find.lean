/-
Lemmas for C68: the tests of the program are those of the specification.
-/
import Verif.Match.Spec
import Mathlib.Tactic.Tauto
import Mathlib.Tactic.ByContra

namespace Verif.Match

open Verif.Intnum
open Verif.Expr
open Verif.Value
open Verif.Ea
open Verif.Insn

/-! ### Registers in expressions -/

theorem occurs_expr {r : Nat} {op : Op} {ts : List Item} : Occurs r (.expr op ts) ↔ ∃ t ∈ ts, Occurs r t := by
  constructor
  · intro h
    cases h with
    | sub ht h => exact ⟨_, ht, h⟩
  · rintro ⟨t, ht, h⟩
    exact .sub ht h

mutual
theorem hasReg_iff : ∀ t : Item, hasReg t = true ↔ ∃ r, Occurs r t
  | .reg r => by simp only [hasReg, true_iff]; exact ⟨r, .here⟩
  | .expr op ts => by
    rw [hasReg, hasRegL_iff ts]
    constructor
    · rintro ⟨r, t, ht, h⟩; exact ⟨r, .sub ht h⟩
    · rintro ⟨r, h⟩; exact ⟨r, occurs_expr.1 h⟩
  | .none => by simp only [hasReg, Bool.false_eq_true, false_iff]; rintro ⟨r, h⟩; cases h
  | .int _ => by simp only [hasReg, Bool.false_eq_true, false_iff]; rintro ⟨r, h⟩; cases h
  | .subst _ => by simp only [hasReg, Bool.false_eq_true, false_iff]; rintro ⟨r, h⟩; cases h
  | .flt _ _ => by simp only [hasReg, Bool.false_eq_true, false_iff]; rintro ⟨r, h⟩; cases h
  | .sym _ => by simp only [hasReg, Bool.false_eq_true, false_iff]; rintro ⟨r, h⟩; cases h
  | .precbc _ => by simp only [hasReg, Bool.false_eq_true, false_iff]; rintro ⟨r, h⟩; cases h
theorem hasRegL_iff : ∀ ts : List Item, hasRegL ts = true ↔ ∃ r, ∃ t ∈ ts, Occurs r t
  | [] => by simp [hasRegL]
  | t :: ts => by
    rw [hasRegL, Bool.or_eq_true, hasReg_iff t, hasRegL_iff ts]
    constructor
    · rintro (⟨r, h⟩ | ⟨r, u, hu, h⟩)
      · exact ⟨r, t, List.mem_cons_self, h⟩
      · exact ⟨r, u, List.mem_cons_of_mem _ hu, h⟩
    · rintro ⟨r, u, hu, h⟩
      rcases List.mem_cons.1 hu with rfl | hu
      · exact .inl ⟨r, h⟩
      · exact .inr ⟨r, u, hu, h⟩
end

mutual
theorem hasSimd_iff (y : Bool) : ∀ t : Item, hasSimd y t = true ↔ ∃ r, r / 16 = (if y then 9 else 8) ∧ Occurs r t
  | .reg r => by
    simp only [hasSimd, beq_iff_eq]
    constructor
    · intro h; exact ⟨r, h, .here⟩
    · rintro ⟨_, h, h'⟩; cases h'; exact h
  | .expr op ts => by
    rw [hasSimd, hasSimdL_iff y ts]
    constructor
    · rintro ⟨r, e, t, ht, h⟩; exact ⟨r, e, .sub ht h⟩
    · rintro ⟨r, e, h⟩; exact ⟨r, e, occurs_expr.1 h⟩
  | .none => by simp only [hasSimd, Bool.false_eq_true, false_iff]; rintro ⟨r, _, h⟩; cases h
  | .int _ => by simp only [hasSimd, Bool.false_eq_true, false_iff]; rintro ⟨r, _, h⟩; cases h
  | .subst _ => by simp only [hasSimd, Bool.false_eq_true, false_iff]; rintro ⟨r, _, h⟩; cases h
  | .flt _ _ => by simp only [hasSimd, Bool.false_eq_true, false_iff]; rintro ⟨r, _, h⟩; cases h
  | .sym _ => by simp only [hasSimd, Bool.false_eq_true, false_iff]; rintro ⟨r, _, h⟩; cases h
  | .precbc _ => by simp only [hasSimd, Bool.false_eq_true, false_iff]; rintro ⟨r, _, h⟩; cases h
theorem hasSimdL_iff (y : Bool) : ∀ ts : List Item, hasSimdL y ts = true ↔ ∃ r, r / 16 = (if y then 9 else 8) ∧ ∃ t ∈ ts, Occurs r t
  | [] => by simp [hasSimdL]
  | t :: ts => by
    rw [hasSimdL, Bool.or_eq_true, hasSimd_iff y t, hasSimdL_iff y ts]
    constructor
    · rintro (⟨r, e, h⟩ | ⟨r, e, u, hu, h⟩)
      · exact ⟨r, e, t, List.mem_cons_self, h⟩
      · exact ⟨r, e, u, List.mem_cons_of_mem _ hu, h⟩
    · rintro ⟨r, e, u, hu, h⟩
      rcases List.mem_cons.1 hu with rfl | hu
      · exact .inl ⟨r, e, h⟩
      · exact .inr ⟨r, e, u, hu, h⟩
end

/-! ### Types -/

theorem regIs_iff {op : Operand} {p : Nat → Bool} {q : Nat → Prop} (h : ∀ r, p r = true ↔ q r) : op.regIs p = true ↔ IsReg op q := by
  unfold Operand.regIs IsReg
  rcases hd : op.data with r | r | m | e <;> simp [h]

theorem segIs_iff {op : Operand} {n : Nat} : op.segIs (fun r => r % 16 == n) = true ↔ IsSeg op n := by
  unfold Operand.segIs IsSeg
  rcases hd : op.data with r | r | m | e <;> simp

theorem segAny_iff {op : Operand} : op.segIs (fun _ => true) = true ↔ ∃ n, IsSeg op n := by
  unfold Operand.segIs IsSeg
  rcases hd : op.data with r | r | m | e <;> simp

theorem memIs_iff {op : Operand} {p : MemArg → Bool} {q : MemArg → Prop} (h : ∀ m, p m = true ↔ q m) :
    op.memIs p = true ↔ IsMem op q := by
  unfold Operand.memIs IsMem
  rcases hd : op.data with r | r | m | e <;> simp [h]

theorem isImm_iff {op : Operand} : op.isImm = true ↔ IsImm op := by
  unfold Operand.isImm IsImm
  rcases hd : op.data with r | r | m | e <;> simp

theorem generalClass_iff (r : Nat) : generalClass r = true ↔ General r := by
  unfold generalClass General
  simp only [decide_eq_true_iff, List.mem_cons, List.not_mem_nil, or_false]
  omega

theorem simdClass_iff (r : Nat) : simdClass r = true ↔ Simd r := by
  unfold simdClass Simd
  simp only [decide_eq_true_iff, List.mem_cons, List.not_mem_nil, or_false]
  omega

theorem fixedReg_iff (n : Nat) (s : OpSize) (r : Nat) : fixedReg n s r = true ↔ Numbered n s r := by
  cases s <;> simp [fixedReg, Numbered]

theorem getReg_iff (m : MemArg) (r : Nat) : getReg m.addr = some r ↔ Alone m r := by
  unfold getReg Alone
  rcases m.addr with ⟨op, ts⟩
  rcases ts with _ | ⟨t, ts⟩
  · cases op <;> simp
  · cases op <;> cases t <;> simp

theorem memOffs_iff (d : Bool) (m : MemArg) : memOffs d m = true ↔
    (∀ r, ¬ Occurs r m.addr.item) ∧ m.pcRel = false ∧ (d = true → m.notPcRel = true ∨ m.size = 64) := by
  unfold memOffs
  have e : (!hasReg m.addr.item) = true ↔ ∀ r, ¬ Occurs r m.addr.item := by
    rw [Bool.not_eq_true', ← Bool.not_eq_true, hasReg_iff, not_exists]
  rw [Bool.and_eq_true, Bool.and_eq_true, e, and_assoc]
  refine and_congr_right fun _ => ?_
  rcases m with ⟨a, s, ns, st, p, np, sg⟩
  cases p <;> cases np <;> cases d <;> simp

theorem isOne_iff {c : Ctx} {nequ : Nat} {op : Operand} {b : Bool} (h : isOne c nequ op = .ok b) :
    b = true ↔ ∃ e, op.data = .imm e ∧ (getIntnum c nequ false e).out = .ok (some (.L 1)) := by
  unfold isOne lift at h
  rcases hd : op.data with r | r | m | e
  all_goals rw [hd] at h; simp only at h
  · cases h; simp
  · cases h; simp
  · cases h; simp
  · rcases ho : (getIntnum c nequ false e).out with f | o
    · rw [ho] at h; simp at h
    · rw [ho] at h
      rcases o with _ | i
      · simp only [Except.ok.injEq] at h
        subst h
        constructor
        · intro h; cases h
        · rintro ⟨e', he, h⟩
          cases he
          rw [ho] at h; simp at h
      · simp only [Except.ok.injEq] at h
        subst h
        constructor
        · intro h
          refine ⟨e, rfl, ?_⟩
          rw [ho]
          cases i with
          | L l => simp only [isPos1, beq_iff_eq] at h; rw [h]; rfl
          | BV v => simp [isPos1] at h
        · rintro ⟨e', he, h⟩
          cases he
          rw [ho] at h
          cases h
          rfl

theorem typeOk_iff {c : Ctx} {nequ : Nat} {x : IdInsn} {f : OpInfo} {op : Operand} {b : Bool}
    (h : typeOk c nequ x f op = .ok b) : b = true ↔ HasType c nequ x.defaultRel f op := by
  unfold typeOk at h
  unfold HasType
  cases ht : f.type
  all_goals rw [ht] at h; simp only [Except.ok.injEq] at h ⊢
  case imm1 => exact isOne_iff h
  all_goals subst h
  case imm => exact isImm_iff
  case reg => exact regIs_iff generalClass_iff
  case mem => exact memIs_iff (fun _ => by simp)
  case rm => rw [Bool.or_eq_true, or_comm]; exact or_congr (regIs_iff generalClass_iff) (memIs_iff (fun _ => by simp))
  case simdReg => exact regIs_iff simdClass_iff
  case simdRM => rw [Bool.or_eq_true, or_comm]; exact or_congr (regIs_iff simdClass_iff) (memIs_iff (fun _ => by simp))
  case segReg => exact segAny_iff
  case crReg => exact regIs_iff (fun _ => by simp)
  case drReg => exact regIs_iff (fun _ => by simp)
  case trReg => exact regIs_iff (fun _ => by simp)
  case st0 => exact regIs_iff (fun _ => by simp)
  case areg => exact regIs_iff (fixedReg_iff 0 f.size)
  case creg => exact regIs_iff (fixedReg_iff 1 f.size)
  case dreg => exact regIs_iff (fixedReg_iff 2 f.size)
  case cs => exact segIs_iff
  case ds => exact segIs_iff
  case es => exact segIs_iff
  case fs => exact segIs_iff
  case gs => exact segIs_iff
  case ss => exact segIs_iff
  case cr4 => exact regIs_iff (fun _ => by simp)
  case memOffs => exact memIs_iff (memOffs_iff x.defaultRel)
  case immNotSegOff => rw [Bool.and_eq_true, Bool.and_eq_true, isImm_iff, decide_eq_true_iff, Option.isNone_iff_eq_none, and_assoc]
  case xmm0 => exact regIs_iff (fun _ => by simp)
  case memrAX =>
    exact memIs_iff fun m => by simp only [Bool.or_eq_true, beq_iff_eq, getReg_iff, or_assoc]
  case memEAX => exact memIs_iff fun m => by simp only [beq_iff_eq, getReg_iff]
  case memXMMIndex => exact memIs_iff fun m => hasSimd_iff false _
  case memYMMIndex => exact memIs_iff fun m => hasSimd_iff true _

/-! ### Sizes -/

theorem regSize_iff {r s n : Nat} (h : regSize r = .ok s) : s = n ↔ widthOf r = some n := by
  unfold regSize at h
  unfold widthOf
  generalize r / 16 = k at h ⊢
  rcases (by omega : k = 0 ∨ k = 1 ∨ k = 2 ∨ k = 3 ∨ k = 4 ∨ k = 5 ∨ k = 6 ∨ k = 7 ∨ k = 8 ∨ k = 9 ∨ k = 10 ∨ k = 11 ∨
    k = 12 ∨ 13 ≤ k) with rfl | rfl | rfl | rfl | rfl | rfl | rfl | rfl | rfl | rfl | rfl | rfl | rfl | hk
  case _ => simp at h
  all_goals first
    | (simp only [Except.ok.injEq] at h; subst h; simp)
    | (rcases k with _ | _ | _ | _ | _ | _ | _ | _ | _ | _ | _ | _ | _ | k
       all_goals first | omega | simp at h)

theorem regSize_error {r : Nat} {s : Stop} (h : regSize r = .error s) : s = .reject ∧ widthOf r = none := by
  unfold regSize at h
  unfold widthOf
  generalize r / 16 = k at h ⊢
  rcases k with _ | _ | _ | _ | _ | _ | _ | _ | _ | _ | _ | _ | _ | k
  all_goals first | (simp at h; done) | (simp at h; subst h; simp)

/-- The number that stands for a test in the program. -/
def code : Leave → Nat
  | .nothing => 0
  | .otherSize k => if k = 1 then 1 else if k = 2 then 2 else if k = 3 then 3 else 0
  | .registerSize k => if k = 1 then 4 else if k = 2 then 5 else if k = 3 then 6 else 0
  | .processor => 8

theorem bareReg_iff {op : Operand} {r : Nat} : bareReg op = some r ↔ op.data = .reg r ∧ op.size = 0 := by
  unfold bareReg
  rcases hd : op.data with q | q | m | e <;> simp
  constructor
  · rintro ⟨h1, h2⟩; exact ⟨h2, h1⟩
  · rintro ⟨h1, h2⟩; exact ⟨h2, h1⟩

theorem bareReg_none {op : Operand} : bareReg op = none ↔ ¬ (IsReg op (fun _ => True) ∧ op.size = 0) := by
  unfold bareReg IsReg
  rcases hd : op.data with q | q | m | e <;> simp

/-- Only these are left out by the program. -/
def Real (leave : Leave) : Prop := leave = .nothing ∨ leave ∈ suspects

theorem bypass_other {leave : Leave} (hl : Real leave) (i : Nat) :
    (code leave = 1 ∧ i = 0 ∨ code leave = 2 ∧ i = 1 ∨ code leave = 3 ∧ i = 2) ↔ leave = .otherSize (i + 1) := by
  unfold Real suspects at hl
  simp only [List.mem_cons, List.not_mem_nil, or_false] at hl
  rcases hl with rfl | rfl | rfl | rfl | rfl | rfl | rfl | rfl <;> simp [code] <;> omega

theorem bypass_register {leave : Leave} (hl : Real leave) (i : Nat) :
    (code leave = 4 ∧ i = 0 ∨ code leave = 5 ∧ i = 1 ∨ code leave = 6 ∧ i = 2) ↔ leave = .registerSize (i + 1) := by
  unfold Real suspects at hl
  simp only [List.mem_cons, List.not_mem_nil, or_false] at hl
  rcases hl with rfl | rfl | rfl | rfl | rfl | rfl | rfl | rfl <;> simp [code] <;> omega

theorem gasImm_iff {f : OpInfo} : (!gasImm f) = true ↔ (f.type ∈ [OpType.imm, .immNotSegOff, .imm1] → f.relaxed = true ∨ f.action = .jmpRel) := by
  unfold gasImm
  rcases f with ⟨t, s, rl, e, tm, a, p⟩
  simp only [List.mem_cons, List.not_mem_nil, or_false]
  cases rl <;> by_cases h1 : (t = OpType.imm ∨ t = .immNotSegOff ∨ t = .imm1) <;> by_cases h2 : a = .jmpRel <;> simp [h1, h2]

theorem sizeOk_iff {leave : Leave} (hl : Real leave) {x : IdInsn} {i : Nat} {f : OpInfo} {op : Operand} {b : Bool}
    (h : sizeOk (code leave) x i f op = .ok b) : b = true ↔ HasSize leave x (i + 1) f op := by
  unfold sizeOk at h
  unfold HasSize
  simp only [bypass_other hl, bypass_register hl] at h
  rcases hb : bareReg op with _ | r
  · rw [hb] at h
    simp only at h
    rw [← bareReg_none]
    have no : ¬ ∃ r, op.data = .reg r ∧ op.size = 0 ∧ (widthOf r = some (sizeVal x.mode f.size) ∨ x.parser ≠ .gas ∧ leave = .registerSize (i + 1)) := by
      rintro ⟨r, h1, h2, _⟩
      rw [bareReg_iff.2 ⟨h1, h2⟩] at hb; cases hb
    rw [or_iff_right no, and_iff_right hb]
    by_cases hg : x.parser = .gas
    · rw [if_pos hg] at h ⊢
      simp only [Except.ok.injEq] at h
      rw [← h]; exact gasImm_iff
    · rw [if_neg hg] at h ⊢
      by_cases ho : leave = .otherSize (i + 1)
      · rw [if_pos ho] at h
        simp only [Except.ok.injEq] at h
        rw [← h]; simp [ho]
      · rw [if_neg ho] at h
        by_cases hr : f.relaxed = true
        · rw [if_pos hr] at h
          simp only [Except.ok.injEq] at h
          rw [← h, decide_eq_true_iff]
          simp only [hr, ho, true_and, or_false]
          tauto
        · rw [if_neg hr] at h
          simp only [Except.ok.injEq] at h
          rw [← h, decide_eq_true_iff]
          simp [hr, ho]
  · rw [hb] at h
    simp only at h
    have hd := bareReg_iff.1 hb
    have no : ¬ (¬ (IsReg op (fun _ => True) ∧ op.size = 0) ∧
        if x.parser = .gas then (f.type ∈ [OpType.imm, .immNotSegOff, .imm1] → f.relaxed = true ∨ f.action = .jmpRel)
        else op.size = sizeVal x.mode f.size ∨ f.relaxed = true ∧ (op.size = 0 ∨ sizeVal x.mode f.size = 0) ∨ leave = .otherSize (i + 1)) := by
      rintro ⟨h1, _⟩
      exact h1 ⟨⟨r, hd.1, trivial⟩, hd.2⟩
    rw [or_iff_left no]
    have one : (∃ r, op.data = .reg r ∧ op.size = 0 ∧ (widthOf r = some (sizeVal x.mode f.size) ∨ x.parser ≠ .gas ∧ leave = .registerSize (i + 1))) ↔
        (widthOf r = some (sizeVal x.mode f.size) ∨ x.parser ≠ .gas ∧ leave = .registerSize (i + 1)) := by
      constructor
      · rintro ⟨r', h1, _, h3⟩
        rw [hd.1] at h1; cases h1; exact h3
      · intro h3; exact ⟨r, hd.1, hd.2, h3⟩
    rw [one]
    by_cases hp : x.parser ≠ .gas ∧ leave = .registerSize (i + 1)
    · rw [if_pos hp] at h
      simp only [Except.ok.injEq] at h
      rw [← h]; simp [hp]
    · rw [if_neg hp] at h
      rw [or_iff_left hp]
      rcases hs : regSize r with e | s
      · rw [hs] at h; simp [Except.map] at h
      · rw [hs] at h
        simp only [Except.map, Except.ok.injEq] at h
        rw [← h, decide_eq_true_iff]
        exact regSize_iff hs

/-! ### One operand, all operands -/

theorem easOk_iff {x : IdInsn} {f : OpInfo} {op : Operand} :
    easOk x f op = true ↔ ∀ m, op.data = .mem m → x.parser ≠ .gas → (m.size = 64 ↔ f.eas64 = true) := by
  unfold easOk
  rcases hd : op.data with q | q | m | e
  · simp
  · simp
  · simp only [Bool.or_eq_true, decide_eq_true_iff, Data.mem.injEq, forall_eq']
    by_cases hp : x.parser = .gas
    · simp [hp]
    · by_cases hm : m.size = 64 <;> cases he : f.eas64 <;> simp [hp, hm]
  · simp

theorem operandOk_iff {leave : Leave} (hl : Real leave) {c : Ctx} {nequ : Nat} {x : IdInsn} {i : Nat} {f : OpInfo} {op : Operand} {b : Bool}
    (h : operandOk c nequ (code leave) x i f op = .ok b) : b = true ↔ OperandFits leave c nequ x (i + 1) f op := by
  unfold operandOk at h
  rcases ht : typeOk c nequ x f op with e | t
  · rw [ht] at h; simp at h
  · rw [ht] at h
    have t1 := typeOk_iff ht
    cases t
    · simp only [Except.ok.injEq] at h
      subst h
      constructor
      · intro h; cases h
      · intro h; exact (t1.2 h.type)
    · simp only at h
      rcases hs : sizeOk (code leave) x i f op with e | s
      · rw [hs] at h; simp at h
      · rw [hs] at h
        simp only [Except.ok.injEq] at h
        rw [← h, Bool.and_eq_true, Bool.and_eq_true, sizeOk_iff hl hs, easOk_iff]
        have e : tmodOk f op = true ↔ op.tmod = f.tmod := by simp [tmodOk]
        rw [e]
        constructor
        · rintro ⟨⟨h1, h2⟩, h3⟩; exact ⟨t1.1 rfl, h1, h2, h3⟩
        · rintro ⟨_, h1, h2, h3⟩; exact ⟨⟨h1, h2⟩, h3⟩

theorem operandsOk_iff {leave : Leave} (hl : Real leave) {c : Ctx} {nequ : Nat} {x : IdInsn} :
    ∀ (fs : List OpInfo) (ops : List Operand) (i : Nat) (b : Bool), operandsOk c nequ (code leave) x i fs ops = .ok b →
      (b = true ↔ ∀ k g op, fs[k]? = some g → ops[k]? = some op → OperandFits leave c nequ x (i + k + 1) g op) := by
  intro fs
  induction fs with
  | nil =>
    intro ops i b h
    simp only [operandsOk, Except.ok.injEq] at h
    subst h
    simp
  | cons f fs ih =>
    intro ops i b h
    cases ops with
    | nil =>
      simp only [operandsOk, Except.ok.injEq] at h
      subst h
      simp
    | cons op ops =>
      rw [operandsOk] at h
      rcases ho : operandOk c nequ (code leave) x i f op with e | t
      · rw [ho] at h; simp at h
      · rw [ho] at h
        have t1 := operandOk_iff hl ho
        cases t
        · simp only [Except.ok.injEq] at h
          subst h
          constructor
          · intro h; cases h
          · intro h; exact t1.2 (h 0 f op rfl rfl)
        · simp only at h
          rw [ih ops (i + 1) b h]
          constructor
          · intro h k g op' hg hop
            cases k with
            | zero =>
              simp only [List.getElem?_cons_zero, Option.some.injEq] at hg hop
              subst hg; subst hop
              exact t1.1 rfl
            | succ k =>
              have := h k g op' (by simpa using hg) (by simpa using hop)
              rw [show i + (k + 1) + 1 = i + 1 + k + 1 by omega]
              exact this
          · intro h k g op' hg hop
            have := h (k + 1) g op' (by simpa using hg) (by simpa using hop)
            rw [show i + 1 + k + 1 = i + (k + 1) + 1 by omega]
            exact this

/-! ### The form -/

theorem and_ne_zero_iff (a b : BitVec 6) : ¬ (a &&& b = 0#6) ↔ ∃ k, a.getLsbD k = true ∧ b.getLsbD k = true := by
  constructor
  · intro h
    by_contra hn
    apply h
    apply BitVec.eq_of_getLsbD_eq
    intro k _
    rw [BitVec.getLsbD_and, BitVec.getLsbD_zero, Bool.and_eq_false_iff]
    by_contra hc
    rw [not_or, Bool.not_eq_false, Bool.not_eq_false] at hc
    exact hn ⟨k, hc⟩
  · rintro ⟨k, h1, h2⟩ h
    have : (a &&& b).getLsbD k = true := by rw [BitVec.getLsbD_and, h1, h2]; rfl
    rw [h] at this
    simp at this

/-- The part of `Fits` without the operands. -/
structure FitsForm (leave : Leave) (x : IdInsn) (f : Form) : Prop where
  mode : if x.mode = 64 then f.not64 = false else f.only64 = false
  processor : leave = .processor ∨ ∀ k ∈ f.cpu, x.cpu k = true
  count : x.ops.length = f.ops.length
  avx : if x.avx then f.notAvx = false else f.onlyAvx = false
  parser : if x.parser = .gas then f.gasIllegal = false ∧ ∃ k, x.suffix.getLsbD k = true ∧ f.suffixes.getLsbD k = true
    else f.gasOnly = false

theorem code_processor {leave : Leave} (hl : Real leave) : code leave = 8 ↔ leave = .processor := by
  unfold Real suspects at hl
  simp only [List.mem_cons, List.not_mem_nil, or_false] at hl
  rcases hl with rfl | rfl | rfl | rfl | rfl | rfl | rfl | rfl <;> simp [code]

theorem formOk_iff {leave : Leave} (hl : Real leave) {x : IdInsn} {f : Form} : formOk (code leave) x f = true ↔ FitsForm leave x f := by
  unfold formOk
  simp only [Bool.and_eq_true]
  have e1 : ((!(decide (x.mode ≠ 64) && f.only64)) = true ∧ (!(decide (x.mode = 64) && f.not64)) = true) ↔
      (if x.mode = 64 then f.not64 = false else f.only64 = false) := by
    by_cases hm : x.mode = 64 <;> simp [hm]
  have e2 : (decide (code leave = 8) || cpuOk x f) = true ↔ (leave = .processor ∨ ∀ k ∈ f.cpu, x.cpu k = true) := by
    rw [Bool.or_eq_true, decide_eq_true_iff, code_processor hl, cpuOk, List.all_eq_true]
  have e3 : ((!(!x.avx && f.onlyAvx)) = true ∧ (!(x.avx && f.notAvx)) = true) ↔
      (if x.avx then f.notAvx = false else f.onlyAvx = false) := by
    cases x.avx <;> simp
  have e4 : (((!(f.gasOnly && decide (x.parser ≠ .gas))) = true ∧ (!(f.gasIllegal && decide (x.parser = .gas))) = true) ∧
      (!(decide (x.parser = .gas) && decide (x.suffix &&& f.suffixes = 0#6))) = true) ↔
      (if x.parser = .gas then f.gasIllegal = false ∧ ∃ k, x.suffix.getLsbD k = true ∧ f.suffixes.getLsbD k = true
        else f.gasOnly = false) := by
    by_cases hp : x.parser = .gas
    · rw [if_pos hp, ← and_ne_zero_iff]
      simp [hp]
    · rw [if_neg hp]
      simp [hp]
  constructor
  · rintro ⟨⟨⟨⟨⟨⟨⟨⟨a1, a2⟩, a3⟩, a4⟩, a5⟩, a6⟩, a7⟩, a8⟩, a9⟩
    exact ⟨e1.1 ⟨a1, a2⟩, e2.1 a3, by simpa using a4, e3.1 ⟨a5, a6⟩, e4.1 ⟨⟨a7, a8⟩, a9⟩⟩
  · rintro ⟨b1, b2, b3, b4, b5⟩
    have a1 := e1.2 b1
    have a3 := e3.2 b4
    have a4 := e4.2 b5
    exact ⟨⟨⟨⟨⟨⟨⟨⟨a1.1, a1.2⟩, e2.2 b2⟩, by simpa using b3⟩, a3.1⟩, a3.2⟩, a4.1.1⟩, a4.1.2⟩, a4.2⟩

theorem matches_iff {leave : Leave} (hl : Real leave) {c : Ctx} {nequ : Nat} {x : IdInsn} {f : Form} {b : Bool}
    (h : matches_ c nequ (code leave) x f = .ok b) : b = true ↔ Fits leave c nequ x f := by
  unfold matches_ at h
  by_cases hf : formOk (code leave) x f = true
  · rw [if_pos hf] at h
    have t := formOk_iff hl |>.1 hf
    have o := operandsOk_iff hl f.ops (useOps x f) 0 b h
    rw [o]
    constructor
    · intro h
      refine ⟨t.mode, t.processor, t.count, t.avx, t.parser, ?_⟩
      intro k g op hg hop
      have := h k g op hg hop
      rw [Nat.zero_add] at this
      exact this
    · intro h k g op hg hop
      rw [Nat.zero_add]
      exact h.operands k g op hg hop
  · rw [if_neg hf] at h
    cases h
    constructor
    · intro h; cases h
    · intro h
      exact absurd (formOk_iff hl |>.2 ⟨h.mode, h.processor, h.count, h.avx, h.parser⟩) hf

/-- The first of a list to fit. -/
def FirstIn (leave : Leave) (c : Ctx) (nequ : Nat) (x : IdInsn) (fs : List Form) (f : Form) : Prop :=
  ∃ before behind, fs = before ++ f :: behind ∧ Fits leave c nequ x f ∧ ∀ g ∈ before, ¬ Fits leave c nequ x g

theorem findIn_some {leave : Leave} (hl : Real leave) {c : Ctx} {nequ : Nat} {x : IdInsn} :
    ∀ (fs : List Form) (r : Option Form), findIn c nequ (code leave) x fs = .ok r →
      (∀ f, r = some f → FirstIn leave c nequ x fs f) ∧ (r = none → ∀ f ∈ fs, ¬ Fits leave c nequ x f) := by
  intro fs
  induction fs with
  | nil =>
    intro r h
    simp only [findIn, Except.ok.injEq] at h
    subst h
    simp
  | cons g fs ih =>
    intro r h
    rw [findIn] at h
    rcases hm : matches_ c nequ (code leave) x g with e | t
    · rw [hm] at h; simp at h
    · rw [hm] at h
      have t1 := matches_iff hl hm
      cases t
      · simp only at h
        have ng : ¬ Fits leave c nequ x g := fun hg => by cases t1.2 hg
        obtain ⟨i1, i2⟩ := ih r h
        constructor
        · intro f hf
          obtain ⟨b1, b2, e, h1, h2⟩ := i1 f hf
          refine ⟨g :: b1, b2, by rw [e]; rfl, h1, ?_⟩
          intro k hk
          rcases List.mem_cons.1 hk with rfl | hk
          · exact ng
          · exact h2 k hk
        · intro hr k hk
          rcases List.mem_cons.1 hk with rfl | hk
          · exact ng
          · exact i2 hr k hk
      · simp only [Except.ok.injEq] at h
        subst h
        constructor
        · intro f hf
          cases hf
          exact ⟨[], fs, rfl, t1.1 rfl, by simp⟩
        · intro h; cases h

theorem first_unique {leave : Leave} {c : Ctx} {nequ : Nat} {x : IdInsn} {f : Form} (h : First leave c nequ x f) :
    ¬ ∀ g ∈ x.group, ¬ Fits leave c nequ x g := by
  obtain ⟨b1, b2, e, h1, _⟩ := h
  intro hn
  exact hn f (by rw [e]; simp) h1

theorem first_eq {leave : Leave} {c : Ctx} {nequ : Nat} {x : IdInsn} {f g : Form} (hf : First leave c nequ x f)
    (hg : First leave c nequ x g) : f = g := by
  obtain ⟨b1, b2, e, h1, h2⟩ := hf
  obtain ⟨d1, d2, e', k1, k2⟩ := hg
  rw [e] at e'
  rcases List.append_eq_append_iff.1 e' with ⟨a, rfl, h⟩ | ⟨a, rfl, h⟩
  · cases a with
    | nil => simp only [List.nil_append, List.cons.injEq] at h; exact h.1
    | cons y ys =>
      simp only [List.cons_append, List.cons.injEq] at h
      exact absurd (h.1 ▸ h1) (k2 y (by simp))
  · cases a with
    | nil => simp only [List.nil_append, List.cons.injEq] at h; exact h.1.symm
    | cons y ys =>
      simp only [List.cons_append, List.cons.injEq] at h
      exact absurd (h.1 ▸ k1) (h2 y (by simp))

/-! ### When there is an answer -/

theorem isOne_error {c : Ctx} {nequ : Nat} {op : Operand} {s : Stop} (h : isOne c nequ op = .error s) :
    ∃ e f, op.data = .imm e ∧ (getIntnum c nequ false e).out = .error f ∧ s = .fault f := by
  unfold isOne lift at h
  rcases hd : op.data with q | q | m | e
  all_goals rw [hd] at h; simp only at h
  · cases h
  · cases h
  · cases h
  · rcases ho : (getIntnum c nequ false e).out with f | o
    · rw [ho] at h
      simp only [Except.error.injEq] at h
      exact ⟨e, f, rfl, ho, h.symm⟩
    · rw [ho] at h
      rcases o with _ | i <;> simp at h

theorem typeOk_error {c : Ctx} {nequ : Nat} {x : IdInsn} {f : OpInfo} {op : Operand} {s : Stop}
    (h : typeOk c nequ x f op = .error s) : ∃ e f, op.data = .imm e ∧ (getIntnum c nequ false e).out = .error f ∧ s = .fault f := by
  unfold typeOk at h
  cases ht : f.type
  all_goals rw [ht] at h; simp only at h
  case imm1 => exact isOne_error h
  all_goals cases h

/-- Immediates can be looked at for a number. -/
def CalmImms (c : Ctx) (nequ : Nat) (x : IdInsn) : Prop :=
  ∀ op ∈ x.ops, ∀ e, op.data = .imm e → ∀ f, (getIntnum c nequ false e).out ≠ .error f

theorem operandOk_total {c : Ctx} {nequ bypass : Nat} {x : IdInsn} {i : Nat} {f : OpInfo} {op : Operand}
    (k1 : ∀ r, op.data = .reg r → (widthOf r).isSome = true)
    (k2 : ∀ e, op.data = .imm e → ∀ f, (getIntnum c nequ false e).out ≠ .error f) :
    ∃ b, operandOk c nequ bypass x i f op = .ok b := by
  unfold operandOk
  rcases ht : typeOk c nequ x f op with s | t
  · obtain ⟨e, g, h1, h2, _⟩ := typeOk_error ht
    exact absurd h2 (k2 e h1 g)
  · cases t
    · exact ⟨false, rfl⟩
    · simp only
      have : ∃ b, sizeOk bypass x i f op = .ok b := by
        unfold sizeOk
        rcases hb : bareReg op with _ | r
        · simp only
          split
          · exact ⟨_, rfl⟩
          · split
            · exact ⟨_, rfl⟩
            · split <;> exact ⟨_, rfl⟩
        · simp only
          split
          · exact ⟨_, rfl⟩
          · rcases hs : regSize r with s | n
            · have := (regSize_error hs).2
              have h2 := k1 r (bareReg_iff.1 hb).1
              rw [this] at h2; cases h2
            · exact ⟨_, rfl⟩
      obtain ⟨b, hb⟩ := this
      rw [hb]
      exact ⟨_, rfl⟩

theorem operandsOk_total {c : Ctx} {nequ bypass : Nat} {x : IdInsn} :
    ∀ (fs : List OpInfo) (ops : List Operand) (i : Nat), (∀ op ∈ ops, ∀ r, op.data = .reg r → (widthOf r).isSome = true) →
      (∀ op ∈ ops, ∀ e, op.data = .imm e → ∀ f, (getIntnum c nequ false e).out ≠ .error f) →
      ∃ b, operandsOk c nequ bypass x i fs ops = .ok b := by
  intro fs
  induction fs with
  | nil => intro ops i _ _; exact ⟨true, by simp [operandsOk]⟩
  | cons f fs ih =>
    intro ops i k1 k2
    cases ops with
    | nil => exact ⟨true, by simp [operandsOk]⟩
    | cons op ops =>
      rw [operandsOk]
      obtain ⟨b, hb⟩ := operandOk_total (c := c) (nequ := nequ) (bypass := bypass) (x := x) (i := i) (f := f)
        (k1 op List.mem_cons_self) (k2 op List.mem_cons_self)
      rw [hb]
      cases b
      · exact ⟨false, rfl⟩
      · exact ih ops (i + 1) (fun o ho => k1 o (List.mem_cons_of_mem _ ho)) (fun o ho => k2 o (List.mem_cons_of_mem _ ho))

theorem mem_useOps {x : IdInsn} {f : Form} {op : Operand} (h : op ∈ useOps x f) : op ∈ x.ops := by
  unfold useOps at h
  split at h
  · exact List.mem_reverse.1 h
  · exact h

theorem findIn_total {c : Ctx} {nequ bypass : Nat} {x : IdInsn} (k1 : KnownRegs x) (k2 : CalmImms c nequ x) :
    ∀ fs, ∃ r, findIn c nequ bypass x fs = .ok r := by
  intro fs
  induction fs with
  | nil => exact ⟨none, rfl⟩
  | cons f fs ih =>
    rw [findIn]
    have : ∃ b, matches_ c nequ bypass x f = .ok b := by
      unfold matches_
      split
      · exact operandsOk_total _ _ _ (fun op ho => k1 op (mem_useOps ho)) (fun op ho => k2 op (mem_useOps ho))
      · exact ⟨false, rfl⟩
    obtain ⟨b, hb⟩ := this
    rw [hb]
    cases b
    · exact ih
    · exact ⟨_, rfl⟩

end Verif.Match
