import Verif.Optimize.X86Lemmas
import Verif.Optimize.Term
import Verif.Optimize.Runs
import Verif.Bytecode.Props
/-
Properties of `yasm_object_optimize`: C27 (layout), C32 (short forms are in range), C33 (termination, growth),
C47 (repeat counts), C48 (forms and lengths).  The specification is `Spec.lean`: `WF`, `Contiguous`, `labelAt`,
`valueAt`, and the contract `Machine.Ok` of an instruction set's callbacks, which x86's and LC-3b's are proved to
meet.
-/
namespace Verif.Optimize
open Verif.Bytecode (LeastMultiple alignLen orgLen align_minimal)

variable {M : Type}

/-! ## C27: layout -/

/-- C27: when the optimizer returns without a diagnostic, for any instruction set and any object, the bytecodes
    of each section lie one after the other from offset 0, each taking its length times its repeat count. -/
theorem optimize_contiguous {mc : Machine M} {pending : M → Nat → Option Promise} {rank : M → Nat} (hok : mc.Ok pending rank)
    {bcs B : List (Bc M)} (hwf : WF bcs) {fuel : Nat} (h : optimize mc fuel bcs = .ret B []) : Contiguous B :=
  (optimize_good hok hwf h).1.contiguous

/-- C27: the optimizer returns the bytecodes it was given, in order: same number, same sections, lines and
    repeat expressions; offset setters and beginnings of sections are what they were. -/
theorem optimize_same {mc : Machine M} {pending : M → Nat → Option Promise} {rank : M → Nat} (hok : mc.Ok pending rank)
    {bcs B : List (Bc M)} (hwf : WF bcs) {fuel : Nat} (h : optimize mc fuel bcs = .ret B []) :
    B.length = bcs.length ∧ ∀ (i : Nat) a b, bcs[i]? = some a → B[i]? = some b →
      b.sect = a.sect ∧ b.line = a.line ∧ b.mult = a.mult ∧ (b.contents = .empty ↔ a.contents = .empty) ∧
      ∀ s, b.contents = .setter s ↔ a.contents = .setter s := by
  have hs := (optimize_good hok hwf h).2
  refine ⟨by simpa using congrArg List.length hs, ?_⟩
  intro i a b ha hb
  have e : (B.map Bc.skel)[i]? = (bcs.map Bc.skel)[i]? := by rw [hs]
  rw [List.getElem?_map, List.getElem?_map, ha, hb] at e
  simp only [Option.map_some, Option.some.injEq] at e
  have ek : b.contents.kind = a.contents.kind := congrArg BSkel.kind e
  refine ⟨congrArg BSkel.sect e, congrArg BSkel.line e, congrArg BSkel.mult e, ?_, ?_⟩
  · rw [← kind_empty, ← kind_empty, ek]
  · intro s; rw [← kind_setter, ← kind_setter, ek]

/-- C27: an alignment directive, wherever the optimizer has moved it, ends at the first multiple of its boundary
    at or after its start. -/
theorem optimize_align {mc : Machine M} {pending : M → Nat → Option Promise} {rank : M → Nat} (hok : mc.Ok pending rank)
    {bcs B : List (Bc M)} (hwf : WF bcs) {fuel : Nat} (h : optimize mc fuel bcs = .ret B [])
    {b : Bc M} (hb : b ∈ B) {k : Nat} (hc : b.contents = .setter (.align (2 ^ k) none))
    {off : Nat} (ho : b.offset = off) (hlt : off < 2 ^ 64) : LeastMultiple (2 ^ k) off (off + b.len) := by
  have := (optimize_good hok hwf h).1.setters b hb _ hc
  have e : toU b.offset = off := by unfold toU; rw [ho]; omega
  simp only [Setter.expand, Except.ok.injEq, e] at this
  rw [← this]; exact align_minimal k off

/-- C27: an origin directive ends at its origin. -/
theorem optimize_org {mc : Machine M} {pending : M → Nat → Option Promise} {rank : M → Nat} (hok : mc.Ok pending rank)
    {bcs B : List (Bc M)} (hwf : WF bcs) {fuel : Nat} (h : optimize mc fuel bcs = .ret B [])
    {b : Bc M} (hb : b ∈ B) {start : Nat} (hc : b.contents = .setter (.org start))
    {off : Nat} (ho : b.offset = off) (hlt : off < 2 ^ 64) : off + b.len = start := by
  have := (optimize_good hok hwf h).1.setters b hb _ hc
  have e : toU b.offset = off := by unfold toU; rw [ho]; omega
  simp only [Setter.expand, e, orgLen] at this
  split at this
  · rename_i n hn
    simp only [Except.ok.injEq] at this
    split at hn
    · cases hn
    · cases hn; omega
  · cases this

/-- A jump over 126 bytes, an alignment the growth of that jump does not reach, a jump back, an origin. -/
def sample : List (Bc X86) :=
  [begin' 0, item (jmpTo 3) 1, item (.fixed 120) 2, item (jmpTo 0) 3, alignTo 16 4, item (.fixed 10) 5, item (jmpTo 0) 6,
   orgTo 256 7, item (.fixed 1) 8]

theorem sample_wf : WF sample := by
  refine ⟨⟨_, rfl, rfl⟩, ?_, ?_, by decide⟩
  · intro i a b ha hb
    match i with
    | 0 | 1 | 2 | 3 | 4 | 5 | 6 | 7 =>
      cases ha; cases hb; right; exact ⟨(by intro e; cases e), rfl⟩
    | n + 8 => simp [sample] at hb
  · intro b hb hc
    simp only [sample, List.mem_cons, List.not_mem_nil, or_false] at hb
    rcases hb with rfl | rfl | rfl | rfl | rfl | rfl | rfl | rfl | rfl
    · exact ⟨rfl, rfl, rfl⟩
    all_goals cases hc

/-- Both short jumps of `sample` reach; the last one is made near, pushing what follows. -/
example : layout (optimize x86 10 sample) =
    some ([(0, 1, 0), (2, 1, 0), (120, 1, 2), (2, 1, 122), (4, 1, 124), (10, 1, 128), (5, 1, 138), (113, 1, 143), (1, 1, 256)],
      []) := by decide +kernel

theorem sample_ret : ∃ B, optimize x86 10 sample = .ret B [] := by
  have h : layout (optimize x86 10 sample) ≠ none ∧ (layout (optimize x86 10 sample)).map (·.2) = some [] := by
    decide +kernel
  cases hr : optimize x86 10 sample with
  | fault => rw [hr] at h; exact absurd rfl h.1
  | fuel => rw [hr] at h; exact absurd rfl h.1
  | ret B e =>
    rw [hr] at h
    have : e = [] := by simpa [layout] using h.2
    exact ⟨B, by rw [this]⟩

example : ∃ B, optimize x86 10 sample = .ret B [] ∧ Contiguous B :=
  sample_ret.elim fun B h => ⟨B, h, optimize_contiguous x86_ok sample_wf h⟩

/-! ## C32: what is short is in range -/

/-- C32: for any instruction set whose callbacks meet the contract: when the optimizer returns without a
    diagnostic, the value of every expression a form depends on, computed from the final offsets, is within the
    limits of that form. -/
theorem optimize_in_range {mc : Machine M} {pending : M → Nat → Option Promise} {rank : M → Nat} (hok : mc.Ok pending rank)
    {bcs B : List (Bc M)} (hwf : WF bcs) {fuel : Nat} (h : optimize mc fuel bcs = .ret B [])
    {i : Nat} {b : Bc M} {m : M} {id : Nat} {p : Promise} (hb : B[i]? = some b) (hm : b.contents = .insn m)
    (hp : pending m id = some p) : ∃ x, valueAt B i p.val = some x ∧ p.neg ≤ x ∧ x ≤ p.pos :=
  (optimize_good hok hwf h).1.pend i b m id p hb hm hp

/-- C32: every x86 jump left short (or forced short) with a target in its own section has a displacement, from
    the end of the instruction, that fits in a signed byte. -/
theorem x86_short_jump_reaches {bcs B : List (Bc X86)} (hwf : WF bcs) {fuel : Nat} (h : optimize x86 fuel bcs = .ret B [])
    {i : Nat} {b : Bc X86} {j : Jmp} (hb : B[i]? = some b) (hj : b.contents = .insn (.jmp j))
    (hs : j.sel = .short ∨ j.sel = .shortForced) (ho : j.outside = false) :
    ∃ x, valueAt B i j.target = some x ∧ -128 ≤ x - b.len ∧ x - b.len ≤ 127 := by
  obtain ⟨a, m0, _, _, hP⟩ := optimize_allP x86_ok x86_sized hwf h i b _ hb hj
  cases m0 with
  | insn _ => exact hP.elim
  | fixed _ => exact hP.elim
  | jmp j0 =>
    have hlen := hP.2.2.1 hs
    obtain ⟨x, h1, h2, h3⟩ := optimize_in_range x86_ok hwf h hb hj (id := 1) (p := ⟨j.target, -128 + j.shortSize, 127 + j.shortSize⟩)
      (by simp [x86Pending, hs, ho])
    refine ⟨x, h1, ?_, ?_⟩
    · dsimp only at h2; omega
    · dsimp only at h3; omega

/-- C32: in particular, for a jump to a label: the label's offset less the offset of the end of the jump. -/
theorem x86_short_jump_label {bcs B : List (Bc X86)} (hwf : WF bcs) {fuel : Nat} (h : optimize x86 fuel bcs = .ret B [])
    {i q : Nat} {b : Bc X86} {j : Jmp} (hb : B[i]? = some b) (hj : b.contents = .insn (.jmp j))
    (hs : j.sel = .short ∨ j.sel = .shortForced) (ho : j.outside = false) (ht : j.target = ⟨[], none, .label q, 0⟩) :
    -128 ≤ labelAt B q - (b.offset + b.len) ∧ labelAt B q - (b.offset + b.len) ≤ 127 := by
  obtain ⟨x, h1, h2, h3⟩ := x86_short_jump_reaches hwf h hb hj hs ho
  rw [ht] at h1
  simp only [valueAt, hb] at h1
  split at h1
  · simp at h1; omega
  · cases h1

/-- C32: a displacement byte and a sign-extended immediate byte chosen before the value was known hold it. -/
theorem x86_short_operands_fit {bcs B : List (Bc X86)} (hwf : WF bcs) {fuel : Nat} (h : optimize x86 fuel bcs = .ret B [])
    {i : Nat} {b : Bc X86} {n : Insn} {t : TwoForm} (hb : B[i]? = some b) (hn : b.contents = .insn (.insn n))
    (ht : n.disp = some t ∨ n.imm = some t) (hs : t.chosen = true) :
    ∃ x, valueAt B i t.val = some x ∧ -128 ≤ x ∧ x ≤ 127 := by
  rcases ht with ht | ht
  · exact optimize_in_range x86_ok hwf h hb hn (id := 1) (p := ⟨t.val, -128, 127⟩) (by simp [x86Pending, ht, hs])
  · exact optimize_in_range x86_ok hwf h hb hn (id := 2) (p := ⟨t.val, -128, 127⟩) (by simp [x86Pending, ht, hs])

/-- The forms jumps and operands have got. -/
def forms (r : Result X86) : Option (List (Option JmpSel × Option Bool × Option Bool)) :=
  match r with
  | .ret B _ => some (B.map fun b => match b.contents with
    | .insn (.jmp j) => (some j.sel, none, none)
    | .insn (.insn n) => (none, n.disp.map (·.chosen), n.imm.map (·.chosen))
    | _ => (none, none, none))
  | _ => none

example : forms (optimize x86 10 sample) = some
    [(none, none, none), (some .short, none, none), (none, none, none), (some .short, none, none), (none, none, none),
     (none, none, none), (some .near, none, none), (none, none, none), (none, none, none)] := by decide +kernel

/-- The distance from one label to another as a displacement and as an immediate: a byte holds the displacement
    but not the immediate. -/
example :
    let v (k : Int) : SVal := ⟨[(1, 2)], some (fun l => l.head?.map (· + k)), .none, 0⟩
    let i : Insn := ⟨2, some ⟨v 0, 1, 4, false, by decide⟩, some ⟨v 8, 1, 4, false, by decide⟩⟩
    let r := optimize x86 9 [begin' 0, item (.insn i) 1, item (.fixed 120) 2]
    layout r = some ([(0, 1, 0), (7, 1, 0), (120, 1, 7)], []) ∧
    forms r = some [(none, none, none), (none, some true, some false), (none, none, none)] := by decide +kernel

/-- C32: a PC-relative LC-3b operand is within the thresholds the code uses.  What is missing: these are not the
    limits of the field, see `lc3b_branch_too_far`. -/
theorem lc3b_branch_partial {bcs B : List (Bc (Option SVal))} (hwf : WF bcs) {fuel : Nat}
    (h : optimize lc3b fuel bcs = .ret B []) {i : Nat} {b : Bc (Option SVal)} {v : SVal} (hb : B[i]? = some b)
    (hv : b.contents = .insn (some v)) : b.len = 2 ∧ ∃ x, valueAt B i v = some x ∧ -510 ≤ x ∧ x ≤ 513 := by
  obtain ⟨_, _, _, _, hP⟩ := optimize_allP lc3b_ok lc3b_sized hwf h i b _ hb hv
  exact ⟨hP.2, optimize_in_range lc3b_ok hwf h hb hv (id := 1) (p := ⟨v, -510, 513⟩) (by simp [lc3bPending])⟩

/-- An LC-3b branch over 300 instructions.  The operand is in words (lc3bid.re:329-334 leaves a shift of 1 in it). -/
def lc3bFar : List (Bc (Option SVal)) :=
  [⟨.empty, .one, 0, 1, 0, 0, 0⟩, ⟨.insn (some ⟨[], none, .label 2, 1⟩), .one, 0, 0, 0, 1, 0⟩,
   ⟨.insn none, .const 300, 0, 0, 0, 2, 0⟩]

theorem lc3bFar_wf : WF lc3bFar := by
  refine ⟨⟨_, rfl, rfl⟩, ?_, ?_, by decide⟩
  · intro i a b ha hb
    match i with
    | 0 | 1 => cases ha; cases hb; right; exact ⟨(by intro e; cases e), rfl⟩
    | n + 2 => simp [lc3bFar] at hb
  · intro b hb hc
    simp only [lc3bFar, List.mem_cons, List.not_mem_nil, or_false] at hb
    rcases hb with rfl | rfl | rfl
    · exact ⟨rfl, rfl, rfl⟩
    all_goals cases hc

/-- C32 fails for LC-3b: the optimizer accepts a branch whose displacement, 300 words from the next instruction,
    is outside the 9-bit signed field (lc3bbc.c:150-152 compares words with limits in bytes). -/
theorem lc3b_branch_too_far : ∃ B b v x, optimize lc3b 10 lc3bFar = .ret B [] ∧ B[1]? = some b ∧ b.contents = .insn (some v) ∧
    valueAt B 1 v = some x ∧ ¬ (-256 ≤ x - 1 ∧ x - 1 ≤ 255) := by
  refine ⟨[⟨.empty, .one, 0, 1, 0, 0, 0⟩, ⟨.insn (some ⟨[], none, .label 2, 1⟩), .one, 2, 1, 0, 1, 0⟩,
    ⟨.insn none, .const 300, 2, 300, 2, 2, 0⟩], _, ⟨[], none, .label 2, 1⟩, 301, ?_, rfl, rfl, ?_, by decide⟩
  · with_unfolding_all rfl
  · decide +kernel

/-! ## C47: repeat counts -/

/-- C47: a repeat count given by an expression over labels is, in the result, the value of that expression at the
    final offsets (or the largest `long`, if the expression has no value there, such as a division by zero). -/
theorem optimize_times_count {mc : Machine M} {pending : M → Nat → Option Promise} {rank : M → Nat} (hok : mc.Ok pending rank)
    {bcs B : List (Bc M)} (hwf : WF bcs) {fuel : Nat} (h : optimize mc fuel bcs = .ret B [])
    {i : Nat} {b : Bc M} {v : SVal} (hb : B[i]? = some b) (hv : b.mult = .dep v) :
    b.multInt = LMAX ∨ valueAt B i v = some b.multInt :=
  (optimize_good hok hwf h).1.mult i b v hb hv

/-- `times 510-($-$$) db 0` after a jump that must grow. -/
def boot : List (Bc X86) :=
  [begin' 0, item (jmpTo 2) 1, item (.fixed 200) 2, times 0 2 (510 - ·) 3, item (.fixed 2) 4]

theorem boot_wf : WF boot := by
  refine ⟨⟨_, rfl, rfl⟩, ?_, ?_, by decide⟩
  · intro i a b ha hb
    match i with
    | 0 | 1 | 2 | 3 => cases ha; cases hb; right; exact ⟨(by intro e; cases e), rfl⟩
    | n + 4 => simp [boot] at hb
  · intro b hb hc
    simp only [boot, List.mem_cons, List.not_mem_nil, or_false] at hb
    rcases hb with rfl | rfl | rfl | rfl | rfl
    · exact ⟨rfl, rfl, rfl⟩
    all_goals cases hc

/-- The boot sector has 512 bytes. -/
example : layout (optimize x86 10 boot) = some ([(0, 1, 0), (5, 1, 0), (200, 1, 5), (1, 305, 205), (2, 1, 510)], []) := by
  decide +kernel

/-! ## C48: forms and lengths -/

/-- C48: a jump returned without a diagnostic has the opcodes, prefixes and target it was given; it is short or
    near; its length is that of its form; a jump forced near is near, and one forced short is short if it has a
    short form. -/
theorem x86_jump_form {bcs B : List (Bc X86)} (hwf : WF bcs) {fuel : Nat} (h : optimize x86 fuel bcs = .ret B [])
    {i : Nat} {b : Bc X86} {j : Jmp} (hb : B[i]? = some b) (hj : b.contents = .insn (.jmp j)) :
    ∃ a j0, bcs[i]? = some a ∧ a.contents = .insn (.jmp j0) ∧ j = { j0 with sel := j.sel } ∧
      ((j.sel = .short ∨ j.sel = .shortForced) ∧ b.len = j.pre + j.shortLen + 1 ∨
       (j.sel = .near ∨ j.sel = .nearForced) ∧ b.len = j.pre + j.nearLen + if j.op16 then 2 else 4) ∧
      (j0.sel = .nearForced → j.sel = .near ∨ j.sel = .nearForced) ∧
      (j0.sel = .shortForced → j.shortLen ≠ 0 → j.sel = .shortForced) := by
  obtain ⟨a, m0, h1, h2, hP⟩ := optimize_allP x86_ok x86_sized hwf h i b _ hb hj
  cases m0 with
  | insn _ => exact hP.elim
  | fixed _ => exact hP.elim
  | jmp j0 =>
    obtain ⟨p1, p2, p3, p4, p5, p6, _⟩ := hP
    refine ⟨a, j0, h1, h2, p1, ?_, p6, p5⟩
    cases hs : j.sel with
    | none => exact absurd hs p2
    | short => left; exact ⟨by simp, p3 (Or.inl hs)⟩
    | shortForced => left; exact ⟨by simp, p3 (Or.inr hs)⟩
    | near => right; exact ⟨by simp, p4 (Or.inl hs)⟩
    | nearForced => right; exact ⟨by simp, p4 (Or.inr hs)⟩

/-- C48: an instruction returned without a diagnostic has the operands it was given, and its length is the sum of
    the lengths of its parts in their final forms; data keeps its length. -/
theorem x86_insn_form {bcs B : List (Bc X86)} (hwf : WF bcs) {fuel : Nat} (h : optimize x86 fuel bcs = .ret B [])
    {i : Nat} {b : Bc X86} {m : X86} (hb : B[i]? = some b) (hm : b.contents = .insn m) :
    (∀ n, m = .insn n → ∃ a n0, bcs[i]? = some a ∧ a.contents = .insn (.insn n0) ∧ n.fixed = n0.fixed ∧
      n.disp.map (fun t => (t.val, t.short, t.wide)) = n0.disp.map (fun t => (t.val, t.short, t.wide)) ∧
      n.imm.map (fun t => (t.val, t.short, t.wide)) = n0.imm.map (fun t => (t.val, t.short, t.wide)) ∧
      b.len = n.fixed + optSize n.disp + optSize n.imm) ∧
    (∀ k, m = .fixed k → b.len = k ∧ ∃ a, bcs[i]? = some a ∧ a.contents = .insn (.fixed k)) := by
  obtain ⟨a, m0, h1, h2, hP⟩ := optimize_allP x86_ok x86_sized hwf h i b _ hb hm
  refine ⟨?_, ?_⟩
  · rintro n rfl
    cases m0 with
    | jmp _ => exact hP.elim
    | fixed _ => exact hP.elim
    | insn n0 =>
      obtain ⟨p1, p2, p3, p4⟩ := hP
      have key : ∀ s t : Option TwoForm, s.map TwoForm.widen = t.map TwoForm.widen →
          s.map (fun t => (t.val, t.short, t.wide)) = t.map (fun t => (t.val, t.short, t.wide)) := by
        intro s t e
        have := congrArg (Option.map fun t : TwoForm => (t.val, t.short, t.wide)) e
        rw [Option.map_map, Option.map_map] at this
        exact this
      exact ⟨a, n0, h1, h2, p2, key _ _ p3, key _ _ p4, p1⟩
  · rintro k rfl
    cases m0 with
    | jmp _ => exact hP.elim
    | insn _ => exact hP.elim
    | fixed k0 => obtain ⟨rfl, p2⟩ := hP; exact ⟨p2, a, h1, h2⟩

/-! ## C33: termination and growth -/

/-- C33: if no repeat count depends on labels, the optimizer ends, on any object whatever and for any instruction
    set: beyond some number of iterations the outcome is the same, and it is not running out of iterations.  What
    is missing: objects with repeat counts that depend on labels, for which it is false
    (`times_align_never_ends`, `times_cycle_never_ends`). -/
theorem optimize_terminates_partial {mc : Machine M} {pending : M → Nat → Option Promise} {rank : M → Nat}
    (hok : mc.Ok pending rank) (bcs : List (Bc M)) (hd : ∀ b ∈ bcs, ∀ v, b.mult ≠ .dep v) :
    ∃ r, r ≠ .fuel ∧ ∃ N, ∀ k, N ≤ k → optimize mc k bcs = r :=
  optimize_ends hok bcs hd

example : ∀ b ∈ sample, ∀ v, b.mult ≠ .dep v := by
  intro b hb v
  simp only [sample, List.mem_cons, List.not_mem_nil, or_false] at hb
  rcases hb with rfl | rfl | rfl | rfl | rfl | rfl | rfl | rfl | rfl <;> (intro e; cases e)

/-- C33: no instruction is shorter in the result than its initial length. -/
theorem optimize_never_shrinks {mc : Machine M} {pending : M → Nat → Option Promise} {rank : M → Nat}
    (hok : mc.Ok pending rank) {bcs B : List (Bc M)} (hwf : WF bcs) {fuel : Nat} (h : optimize mc fuel bcs = .ret B [])
    {i : Nat} {a b : Bc M} {m m' : M} {n : Nat} {ds : List Dep} (ha : bcs[i]? = some a) (hm : a.contents = .insn m)
    (hc : mc.calcLen m = .ok (m', n, ds)) (hb : B[i]? = some b) : n ≤ b.len := by
  have hg := optimize_grown hok h
  have he : (step1a mc bcs 0 0 0).errs = [] := by
    unfold optimize at h
    dsimp only at h
    split at h
    · rename_i he; simp only [Result.ret.injEq] at h; exact absurd h.2 he
    · rename_i he; simpa using he
  have hA := step1a_ok hok bcs 0 0 0 (by
    intro b hb he; rw [(hwf.empty b hb he).2.2]; rfl) he
  have hl : i < (step1a mc bcs 0 0 0).bcs.length := by
    rw [hA.len]; exact (List.getElem?_eq_some_iff.mp ha).1
  obtain ⟨m1, ds1, h1, h2⟩ := (hA.bcs i a _ ha (List.getElem?_eq_getElem hl)).insn m hm
  rw [hc] at h1
  simp only [Except.ok.injEq, Prod.mk.injEq] at h1
  rw [h1.2.1]
  exact hg.2 i _ b (List.getElem?_eq_getElem hl) hb (by rw [h2]; rfl)

/-- Alignments do shrink: the same object, the jump near instead of short. -/
example : layout (optimize x86 10 [begin' 0, item (jmpTo 4) 1, alignTo 4 2, item (.fixed 127) 3, item (.fixed 0) 4]) =
    some ([(0, 1, 0), (5, 1, 0), (3, 1, 5), (127, 1, 8), (0, 1, 135)], []) ∧
    alignLen 4 none 2 = 2 := by decide +kernel

/-- `a: times 1+(c-b) db 0`, `b: align 4`, `c:` -/
def timesAlign : List (Bc X86) := [begin' 0, times 1 2 (1 + ·) 1, alignTo 4 2]

namespace TimesAlign

def span (old d c n : Int) (a : Nat) : Span :=
  ⟨1, 0, ⟨[(1, 2)], some (fun l => l.head?.map (1 + ·)), .none, 0⟩, [⟨1, 2, old, d⟩], 1, c, n, 0, 0, a, 0, []⟩
def bcs (m : Int) (l : Nat) (o : Int) : List (Bc X86) :=
  [begin' 0, { times 1 2 (1 + ·) 1 with len := 1, multInt := m }, { alignTo 4 2 with len := l, multInt := 1, offset := o }]

end TimesAlign

open TimesAlign in
/-- C33 fails: with a repeat count that depends on an alignment after it, the optimizer alternates between two
    layouts for ever: however many iterations it is given, it is not done. -/
theorem times_align_never_ends (n : Nat) : optimize x86 n timesAlign = .fuel := by
  refine optimize_fuel (B1 := bcs 1 0 0) (S1 := [span 0 0 1 1 1]) (C := bcs 1 3 1) (S2 := [span 0 3 1 4 2])
    (t := .node false .nil ⟨2, 2, 0⟩ 2 .nil) (q := [0]) (S3 := [span 0 3 1 4 2]) (oss := [⟨2, 1, 1⟩])
    ?_ ?_ ?_ ?_ (by simp) ?_ ?_ ?_ ?_ n
  all_goals try with_unfolding_all rfl
  refine loop_cycle (a := 1) (k := 1) (st' := ⟨bcs 4 0 1, [span 3 0 4 1 2], [⟨2, 4, 4⟩], [0], [], [], false⟩) ?_ ?_
  all_goals with_unfolding_all rfl

/-- Three repeat counts in a circle: `a` counts down the size of `b`, `b` that of `c`, `c` that of `a`. -/
def timesCycle : List (Bc X86) := [begin' 0, times 1 2 (3 - ·) 1, times 2 3 (3 - ·) 2, times 0 1 (3 - ·) 3]

namespace TimesCycle

def span (i p q : Nat) (old d c n : Int) (a : Nat) (bt : List Nat) : Span :=
  ⟨i, 0, ⟨[(p, q)], some (fun l => l.head?.map (3 - ·)), .none, 0⟩, [⟨p, q, old, d⟩], 1, c, n, 0, 0, a, 0, bt⟩
def bcs (a b c : Int) (ob oc : Int) : List (Bc X86) :=
  [begin' 0, { times 1 2 (3 - ·) 1 with len := 1, multInt := a },
   { times 2 3 (3 - ·) 2 with len := 1, multInt := b, offset := ob },
   { times 0 1 (3 - ·) 3 with len := 1, multInt := c, offset := oc }]
def st (a b c : Int) (s1 s2 s3 : Span) (q : Nat) : St X86 := ⟨bcs a b c 3 6, [s1, s2, s3], [], [q], [], [], false⟩
def a (old d c n : Int) (k : Nat) : Span := span 1 1 2 old d c n k [1]
def b (old d c n : Int) (k : Nat) : Span := span 2 2 3 old d c n k [0, 2]
def c (old d c n : Int) (k : Nat) : Span := span 3 0 1 old d c n k [0]
def st1 := st 0 3 0 (a 3 3 0 0 1) (b 0 0 3 3 1) (c 3 0 0 3 2) 2
def st2 := st 0 3 3 (a 3 3 0 0 1) (b 0 3 3 0 2) (c 0 0 3 3 1) 1
def st3 := st 0 0 3 (a 3 0 0 3 2) (b 3 3 0 0 1) (c 0 0 3 3 1) 0
def st4 := st 3 0 3 (a 0 0 3 3 1) (b 3 3 0 0 1) (c 0 3 3 0 2) 2
def st5 := st 3 0 0 (a 0 0 3 3 1) (b 3 0 0 3 2) (c 3 3 0 0 1) 1
def st6 := st 3 3 0 (a 0 3 3 0 2) (b 0 0 3 3 1) (c 3 3 0 0 1) 0
def tree : Verif.Inttree.Tree := .node false (.node true .nil ⟨1, 1, 2⟩ 1 .nil) ⟨2, 2, 0⟩ 3 (.node true .nil ⟨3, 3, 1⟩ 3 .nil)
def idx : Index := ⟨tree, [⟨0, 0⟩, ⟨1, 0⟩, ⟨2, 0⟩]⟩

end TimesCycle

open TimesCycle in
/-- C33 fails: the search for circular repeat counts misses a circle of three, and then the optimizer never
    ends. -/
theorem times_cycle_never_ends (n : Nat) : optimize x86 n timesCycle = .fuel := by
  refine optimize_fuel (B1 := bcs 3 3 0 0 0)
    (S1 := [span 1 1 2 0 0 3 3 1 [], span 2 2 3 0 0 3 3 1 [], span 3 0 1 0 3 0 0 1 []]) (C := bcs 3 3 0 3 6)
    (S2 := [span 1 1 2 0 3 3 0 2 [], span 2 2 3 0 0 3 3 1 [], span 3 0 1 3 3 0 0 1 []])
    (t := tree) (q := [0])
    (S3 := [span 1 1 2 0 3 3 0 2 [1], span 2 2 3 0 0 3 3 1 [0, 2], span 3 0 1 3 3 0 0 1 [0]]) (oss := [])
    ?_ ?_ ?_ ?_ (by simp) ?_ ?_ ?_ ?_ n
  all_goals try with_unfolding_all rfl
  refine loop_cycle (a := 1) (k := 5) (st' := st1) ?_ ?_
  · with_unfolding_all rfl
  · have e1 : stepSt x86 idx st1 = some st2 := by with_unfolding_all rfl
    have e2 : stepSt x86 idx st2 = some st3 := by with_unfolding_all rfl
    have e3 : stepSt x86 idx st3 = some st4 := by with_unfolding_all rfl
    have e4 : stepSt x86 idx st4 = some st5 := by with_unfolding_all rfl
    have e5 : stepSt x86 idx st5 = some st6 := by with_unfolding_all rfl
    have e6 : stepSt x86 idx st6 = some st1 := by with_unfolding_all rfl
    show iterSt x86 idx 6 st1 = some st1
    simp only [iterSt, e1, e2, e3, e4, e5, e6, Option.bind_some]

/-- A circle of two is found, as is a repeat count depending on itself. -/
example : layout (optimize x86 9 [begin' 0, times 1 2 (1 + ·) 1, times 0 1 (1 + ·) 2]) =
    some ([(0, 1, 0), (1, 1, 0), (1, 2, 1)], [(2, "circular reference detected")]) ∧
    (layout (optimize x86 9 [begin' 0, times 0 1 (1 + ·) 1])).map (·.2) = some [(1, "circular reference detected")] := by
  decide +kernel

/-- C33, C47: a repeat count over labels may become negative without a diagnostic; with an alignment after it the
    optimizer then stops with an internal error (section.c:1573-1575). -/
theorem negative_times_internal_error :
    isFault (optimize x86 9 [begin' 0, times 1 3 (fun d => - d) 1, alignTo 4 2, item (.fixed 3) 3, alignTo 4 4]) = true ∧
    layout (optimize x86 9 [begin' 0, item (.fixed 9) 1, times 2 3 (fun d => - d) 2, item (.fixed 3) 3]) =
      some ([(0, 1, 0), (9, 1, 0), (1, -3, 9), (3, 1, 6)], []) := by decide +kernel

end Verif.Optimize
