import Verif.Value.OutLemmas
import Verif.Intnum.Props
import Verif.Expr.Eq
/-
Property C35: splitting an expression into absolute part, relocatable symbol, WRT, segment and shift keeps
its value.
-/
set_option linter.unusedSimpArgs false
namespace Verif.Value.Props
open Verif.Intnum Verif.Expr Verif.Value
open Verif.Bitvect (ibit)

deriving instance DecidableEq for Value
deriving instance DecidableEq for Output

/-! ### A running example

    Section 0 starts at 0x1000 and has bytecodes 0, 1, 2 that end at 0x10, 0x20, 0x30; section 1 has
    bytecode 9.  The value is in the bytecode after bytecode 2.  Symbols: 0 and 10 are external, 1 and 2 label
    the ends of bytecodes 0 and 1, 3 is `$` here, 4 is `equ $` said at the end of bytecode 0 (whose `$` is
    symbol 5), 6 the symbol the scan makes for the current position, 7 labels bytecode 9, 8 is `equ s2 - s1`. -/

/-- The definitions. -/
def ctx : Ctx where
  equ s := if s = 4 then some ⟨.IDENT, [.sym 5]⟩ else if s = 8 then some ⟨.SUB, [.sym 2, .sym 1]⟩ else none
  label s := if s = 1 then some 0 else if s = 2 then some 1 else if s = 3 then some 2 else if s = 5 then some 0
    else if s = 6 then some 2 else if s = 7 then some 9 else none
  sect b := if b = 9 then 1 else 0
  next b := if b = 0 then 0x10 else if b = 1 then 0x20 else if b = 2 then 0x30 else 0

/-- The symbols. -/
def symbols : Syms where
  ctx := ctx
  nequ := 2
  isCurpos s := s == 3 || s == 5 || s == 6
  isSpecial _ := false
  here := 6
  precbc := some 2

/-- The sections. -/
def bases : Nat → Word := fun s => if s = 0 then 0x1000 else if s = 1 then 0x8000 else 0

/-- Where the value is. -/
def place : Place := ⟨0x1030, fun a => a⟩

/-- The bytecode that contains the value. -/
def at30 : At := ⟨0, 0x30⟩

/-- An assignment that agrees with the definitions: the external symbols are x and z. -/
def env (x z : Word) : Env where
  reg _ := 7
  subst _ := 0
  flt _ := 0
  sym s := if s = 0 then x else if s = 10 then z else if s = 1 then 0x1010 else if s = 2 then 0x1020 else if s = 3 then 0x1030
    else if s = 4 then 0x1010 else if s = 5 then 0x1010 else if s = 6 then 0x1030 else if s = 7 then 0x8000
    else if s = 8 then 0x10 else 0
  precbc b := if b = 0 then 0x1010 else if b = 1 then 0x1020 else if b = 2 then 0x1030 else if b = 9 then 0x8000 else 0x1000
  seg a := a
  wrt a b := a - b
  segoff a _ := a

theorem env_agrees (x z : Word) : (env x z).Agrees ctx bases where
  equ := by
    intro s d h
    simp only [ctx] at h
    split at h
    · rename_i hs
      simp only [Option.some.injEq] at h
      subst hs; subst h
      refine ⟨rfl, by simp [Node.item, Good, GoodL, Arity]⟩
    · split at h
      · rename_i hs
        simp only [Option.some.injEq] at h
        subst hs; subst h
        refine ⟨by simp [env, Node.eval, Node.item, eval, evalL, opVal], by simp [Node.item, Good, GoodL, Arity]⟩
      · simp at h
  label := by
    intro s b h
    simp only [ctx] at h
    repeat' (split at h)
    all_goals first
      | (rename_i hs; simp only [Option.some.injEq] at h; subst hs; subst h; simp [env]; done)
      | simp at h
  precbc := by
    intro b
    simp only [env, ctx, bases]
    by_cases h0 : b = 0
    · subst h0; decide
    · by_cases h1 : b = 1
      · subst h1; decide
      · by_cases h2 : b = 2
        · subst h2; decide
        · by_cases h9 : b = 9
          · subst h9; decide
          · simp [h0, h1, h2, h9]
  small := by
    intro b
    simp only [ctx]
    repeat' split
    all_goals decide
  seg := by intro a b; rfl

/-! ### Preservation -/

/-- C35: an expression that is accepted keeps its value: absolute part, plus relocatable symbol (its
    segment, or the symbol less the current address if so marked, shifted right), counted from the WRT
    address, together are the value of the expression - exactly, unless the value's own mask was dropped
    from a top-level AND, in which case they agree in the bits the value has.  For every assignment of
    addresses that agrees with the definitions.  Partial: in the simplified expression, WRT occurs only in
    sums, symbols are shifted by 0 to 2^32-1, and the symbols for the current position mean the current
    address (each is necessary, see below); and the limits of C19 apply. -/
theorem finalize_value_partial (ρ : Env) (w : Place) (y : Syms) (base : Nat → Word) (ag : ρ.Agrees y.ctx base) (size : Nat)
    (hsize : size < 256) (e n : Node) (good : Good ρ e.item) (hn : (simplify y.ctx y.nequ false false e).out = .ok n)
    (sane : Sane n.item) (fit : Fitting ρ w y (syms n.item)) (v : Value)
    (sound : ∀ k ∈ (finalize y size e).log, k.Sound) (h : (finalize y size e).out = .ok v) :
    (meaning ρ w v).setWidth size = (e.eval ρ).setWidth size ∧ (v.noWarn = false → meaning ρ w v = e.eval ρ) := by
  obtain ⟨a, b, _⟩ := finalize_ok ρ w y base ag fit.here fit.wrt size hsize e n good hn sane fit.curpos v sound h
  exact ⟨a, b⟩

theorem allowed_and {P : Op → Prop} {Q : Nat → Prop} (t : Item) (h : Allowed P (fun _ => True) t) (hq : ∀ s ∈ syms t, Q s) :
    Allowed P Q t := by
  refine (item_ind (P := fun t => Allowed P (fun _ => True) t → (∀ s ∈ syms t, Q s) → Allowed P Q t)
    (Q := fun ts => AllowedL P (fun _ => True) ts → (∀ s ∈ symsL ts, Q s) → AllowedL P Q ts) ?_ ?_ ?_ ?_).1 t h hq
  · intro t hl _ hq
    cases t <;> simp_all [Leaf, Allowed, syms]
  · intro op ts ih h hq; exact ⟨h.1, ih h.2 hq⟩
  · intro _ _; exact True.intro
  · intro t ts h1 h2 h hq
    simp only [symsL, List.mem_append] at hq
    exact ⟨h1 h.1 fun s hs => hq s (Or.inl hs), h2 h.2 fun s hs => hq s (Or.inr hs)⟩

theorem allowed_syms {P : Op → Prop} {Q : Nat → Prop} (t : Item) (h : Allowed P Q t) : ∀ s ∈ syms t, Q s := by
  refine (item_ind (P := fun t => Allowed P Q t → ∀ s ∈ syms t, Q s)
    (Q := fun ts => AllowedL P Q ts → ∀ s ∈ symsL ts, Q s) ?_ ?_ ?_ ?_).1 t h
  · intro t hl h
    cases t <;> simp_all [Leaf, Allowed, syms]
  · intro op ts ih h; exact ih h.2
  · intro _ s hs; simp [symsL] at hs
  · intro t ts h1 h2 h s hs
    simp only [symsL, List.mem_append] at hs
    exact hs.elim (h1 h.1 s) (h2 h.2 s)

theorem plain_sane {P : Op → Prop} {Q : Nat → Prop} (hw : ∀ op, P op → op ≠ .WRT) (hs : ∀ op, P op → op ≠ .SHR) (t : Item)
    (h : Allowed P Q t) : Sane t := by
  refine (item_ind (P := fun t => Allowed P Q t → Sane t) (Q := fun ts => AllowedL P Q ts → SaneL ts) ?_ ?_ ?_ ?_).1 t h
  · intro t hl _; cases t <;> simp_all [Leaf, Sane]
  · intro op ts ih h
    exact ⟨fun _ _ _ => (allowed_noWrt hw _ h).2, fun e => absurd e (hs op h.1), ih h.2⟩
  · intro _; exact True.intro
  · intro t ts h1 h2 h; exact ⟨h1 h.1, h2 h.2⟩

theorem equAllowed_of {P : Op → Prop} {c : Ctx} {e : Node} (h : OnlyOps P c e) : EquAllowed P (Mentions c e) c := by
  intro s d hs hd
  refine allowed_and _ (h.2 s d hd) ?_
  intro t ht
  rcases hs with hs | ⟨r, hr, hrs⟩
  · exact Or.inr ⟨s, hs, .one ⟨d, hd, ht⟩⟩
  · exact Or.inr ⟨r, hr, .step hrs ⟨d, hd, ht⟩⟩

/-- C35 stated for the expression as written: if neither it nor any EQU definition uses WRT or a right
    shift, and the current-position symbols it mentions (itself or through EQUs) stand for the address of the
    value, then what is accepted has the value of the expression. -/
theorem finalize_plain_value (ρ : Env) (w : Place) (y : Syms) (base : Nat → Word) (ag : ρ.Agrees y.ctx base)
    (wrt : ∀ a b, ρ.wrt a b = a - w.frame b) (size : Nat)
    (hsize : size < 256) (e : Node) (good : Good ρ e.item) (plain : OnlyOps Plain y.ctx e)
    (here : ρ.sym y.here = w.cur) (cur : ∀ s, Mentions y.ctx e s → y.isCurpos s = true → ρ.sym s = w.cur) (v : Value)
    (sound : ∀ k ∈ (finalize y size e).log, k.Sound) (h : (finalize y size e).out = .ok v) :
    (meaning ρ w v).setWidth size = (e.eval ρ).setWidth size ∧ (v.noWarn = false → meaning ρ w v = e.eval ρ) := by
  have hn : ∃ n, (simplify y.ctx y.nequ false false e).out = .ok n := by
    simp only [finalize] at h
    cases hm : (level y e).1.out with
    | error f => rw [hm] at h; cases h
    | ok n => exact ⟨n, hm⟩
  obtain ⟨n, hn⟩ := hn
  have hb : Base Plain := ⟨by simp [Plain], by simp [Plain], by simp [Plain]⟩
  have hal := simplify_allowed hb y.ctx (equAllowed_of plain) y.nequ false false e n
    (allowed_and _ plain.1 (fun s hs => Or.inl hs)) hn
  obtain ⟨a, b, _⟩ := finalize_ok ρ w y base ag here wrt size hsize e n good hn
    (plain_sane (fun _ h => h.1) (fun _ h => h.2) _ hal) (fun s hs hc => cur s (allowed_syms _ hal s hs) hc) v sound h
  exact ⟨a, b⟩

/-- Finalization always ends: the recursion follows the expression (the model's bound is never met). -/
theorem finalize_ends (y : Syms) (size : Nat) (e : Node) :
    (finalize y size e).out ≠ .error .fuel ∧ (finalize y size e).out ≠ .error (.fault .fuel) := by
  have hall : ∀ t, Allowed (fun _ => True) (fun _ => True) t := by
    intro t
    refine (item_ind (P := Allowed (fun _ => True) (fun _ => True)) (Q := AllowedL (fun _ => True) (fun _ => True)) ?_ ?_ ?_ ?_).1 t
    · intro t hl; cases t <;> simp_all [Leaf, Allowed]
    · intro op ts ih; exact ⟨trivial, ih⟩
    · exact True.intro
    · intro t ts h1 h2; exact ⟨h1, h2⟩
  obtain ⟨a, b, _⟩ := finalize_keeps (P := fun _ => True) (Q := fun _ => True) ⟨trivial, trivial, trivial⟩ y trivial
    (fun _ _ _ _ => hall _) size e (hall _)
  exact ⟨a, b⟩

/-- The shift of an accepted value fits its 7-bit field. -/
theorem finalize_shift (y : Syms) (size : Nat) (e : Node) (v : Value) (h : (finalize y size e).out = .ok v) : v.p.rshift ≤ 127 := by
  have hall : ∀ t, Allowed (fun _ => True) (fun _ => True) t := by
    intro t
    refine (item_ind (P := Allowed (fun _ => True) (fun _ => True)) (Q := AllowedL (fun _ => True) (fun _ => True)) ?_ ?_ ?_ ?_).1 t
    · intro t hl; cases t <;> simp_all [Leaf, Allowed]
    · intro op ts ih; exact ⟨trivial, ih⟩
    · exact True.intro
    · intro t ts h1 h2; exact ⟨h1, h2⟩
  obtain ⟨_, _, c⟩ := finalize_keeps (P := fun _ => True) (Q := fun _ => True) ⟨trivial, trivial, trivial⟩ y trivial
    (fun _ _ _ _ => hall _) size e (hall _)
  exact (c v h).1.2

/-! ### Cases that meet the hypotheses -/

/-- `ext + (s2 - s1) - $ + 3` -/
def sample : Node := ⟨.ADD, [.sym 0, .expr .SUB [.sym 8, .sym 3], .int (.L 3)]⟩

/-- It is split: relative to the current position, with `s2 - s1 + 3` as the absolute part. -/
theorem sample_split : (finalize symbols 32 sample).out = .ok
    ⟨some ⟨.ADD, [.int (.L 3), .sym 2, .expr .MUL [.int (.L (-1)), .sym 1]]⟩, ⟨some 0, none, false, 0, true⟩, false⟩ := by
  decide +kernel

theorem sample_good (x z : Word) : Good (env x z) sample.item := by
  simp only [sample, Node.item, Good, GoodL, Arity, Fits, reduceCtorEq, or_self, false_implies, and_true, true_and,
    List.length_cons, List.length_nil]
  decide

theorem sample_sound : ∀ k ∈ (finalize symbols 32 sample).log, k.Sound := by
  have : (finalize symbols 32 sample).log.all (fun k => k.op == .ADD) = true := by decide +kernel
  intro k hk
  have := List.all_eq_true.1 this k hk
  have h : k.op = .ADD := by simpa using this
  exact ⟨by simp [h], by simp [h, IsDiv], by simp [h]⟩

theorem ctx_ops (P : Op → Prop) (h : P .IDENT ∧ P .SUB) : ∀ s d, ctx.equ s = some d → Allowed P (fun _ => True) d.item := by
  intro s d hd
  simp only [ctx] at hd
  split at hd
  · simp only [Option.some.injEq] at hd; subst hd; exact ⟨h.1, trivial, trivial⟩
  · split at hd
    · simp only [Option.some.injEq] at hd; subst hd; exact ⟨h.2, trivial, trivial, trivial⟩
    · cases hd

theorem sample_ops : OnlyOps Plain ctx sample :=
  ⟨⟨⟨by simp [sample], by simp [sample]⟩, trivial, ⟨⟨by simp, by simp⟩, trivial, trivial, trivial⟩, trivial, trivial⟩,
    ctx_ops _ ⟨⟨by simp, by simp⟩, ⟨by simp, by simp⟩⟩⟩

theorem ctx_reaches {s t : Nat} (h : Reaches ctx s t) (hs : s ≠ 4) : t = 1 ∨ t = 2 := by
  have hu : ∀ {s t}, Uses ctx s t → s ≠ 4 → s = 8 ∧ (t = 1 ∨ t = 2) := by
    intro s t ⟨d, hd, ht⟩ hs
    simp only [ctx, if_neg hs] at hd
    split at hd
    · rename_i h8
      simp only [Option.some.injEq] at hd
      subst hd
      simp only [Node.item, syms, symsL, List.append_nil, List.cons_append, List.nil_append, List.mem_cons,
        List.not_mem_nil, or_false] at ht
      exact ⟨h8, ht.symm⟩
    · cases hd
  induction h with
  | one h => exact (hu h hs).2
  | step h1 h2 ih =>
    rcases ih with rfl | rfl
    · exact (hu h2 (by decide)).2
    · exact (hu h2 (by decide)).2

theorem sample_cur (x z : Word) (s : Nat) (h : Mentions ctx sample s) (hc : symbols.isCurpos s = true) :
    (env x z).sym s = place.cur := by
  have hs : s = 0 ∨ s = 8 ∨ s = 3 ∨ s = 1 ∨ s = 2 := by
    have key : ∀ r, r ∈ syms sample.item → r = 0 ∨ r = 8 ∨ r = 3 := by
      intro r hr
      simpa [sample, Node.item, syms, symsL] using hr
    rcases h with h | ⟨r, hr, hrs⟩
    · rcases key s h with h | h | h <;> simp [h]
    · have : r ≠ 4 := by
        rcases key r hr with h | h | h <;> simp [h]
      rcases ctx_reaches hrs this with h | h <;> simp [h]
  rcases hs with rfl | rfl | rfl | rfl | rfl
  · exact absurd hc (by decide)
  · exact absurd hc (by decide)
  · rfl
  · exact absurd hc (by decide)
  · exact absurd hc (by decide)

/-- The hypotheses of `finalize_plain_value` hold for it, whatever the external addresses are. -/
example (x z : Word) : (env x z).Agrees symbols.ctx bases ∧ (∀ a b, (env x z).wrt a b = a - place.frame b) ∧
    Good (env x z) sample.item ∧ OnlyOps Plain symbols.ctx sample ∧ (env x z).sym symbols.here = place.cur ∧
    (∀ s, Mentions symbols.ctx sample s → symbols.isCurpos s = true → (env x z).sym s = place.cur) ∧
    (∀ k ∈ (finalize symbols 32 sample).log, k.Sound) :=
  ⟨env_agrees x z, fun _ _ => rfl, sample_good x z, sample_ops, rfl, sample_cur x z, sample_sound⟩

/-- What the theorem then says. -/
example (x z : Word) : sample.eval (env x z) = x + 0x10 - 0x1030 + 3 := by
  simp only [sample, Node.eval, Node.item, eval, evalL, opVal, env]
  simp only [reduceIte, List.foldr_cons, List.foldr_nil, val, Nat.reduceEqDiff, OfNat.ofNat_ne_zero]
  generalize x = u
  grind

/-- `(ext + 5) wrt s10`, the case of WRT. -/
example : (finalize symbols 32 ⟨.WRT, [.expr .ADD [.sym 0, .int (.L 5)], .sym 10]⟩).out = .ok
    ⟨some ⟨.IDENT, [.int (.L 5)]⟩, ⟨some 0, some 10, false, 0, false⟩, false⟩ := by decide +kernel
example : Sane (.expr .WRT [.expr .ADD [.sym 0, .int (.L 5)], .sym 10]) := by
  simp [Sane, SaneL]
/-- `ext >> 4` -/
example : (finalize symbols 32 ⟨.SHR, [.sym 0, .int (.L 4)]⟩).out = .ok ⟨none, ⟨some 0, none, false, 4, false⟩, false⟩ := by
  decide +kernel
/-- `seg ext` -/
example : (finalize symbols 16 ⟨.SEG, [.sym 0]⟩).out = .ok ⟨none, ⟨some 0, none, true, 0, false⟩, false⟩ := by decide +kernel
/-- `ext & 0xff` in 8 bits: the mask is dropped. -/
example : (finalize symbols 8 ⟨.AND, [.sym 0, .int (.L 255)]⟩).out = .ok ⟨none, ⟨some 0, none, false, 0, false⟩, true⟩ := by
  decide +kernel

/-! ### What cannot be expressed is rejected -/

/-- `a + b`, `a * 2`, `a - b` in an unknown section, `a - s7` (another section), `-a`. -/
example : (finalize symbols 32 ⟨.ADD, [.sym 0, .sym 10]⟩).out = .error .reject ∧
    (finalize symbols 32 ⟨.MUL, [.sym 0, .int (.L 2)]⟩).out = .error .reject ∧
    (finalize symbols 32 ⟨.SUB, [.sym 0, .sym 10]⟩).out = .error .reject ∧
    (finalize symbols 32 ⟨.SUB, [.sym 0, .sym 7]⟩).out = .error .reject ∧
    (finalize symbols 32 ⟨.NEG, [.sym 0]⟩).out = .error .reject := by
  decide +kernel

theorem onEqu_none (c : Ctx) (k : Nat) (l : List Nat) (s : Nat) (h : c.equ s = none) : onEqu c k l s = none := by
  cases k <;> simp [onEqu, h]

/-- C35, rejection: the sum of two symbols that are not EQUs is never accepted. -/
theorem finalize_two_symbols (y : Syms) (size : Nat) (a b : Nat) (ha : y.ctx.equ a = none) (hb : y.ctx.equ b = none) :
    (finalize y size ⟨.ADD, [.sym a, .sym b]⟩).out = .error .reject := by
  have h1 : (level y ⟨.ADD, [.sym a, .sym b]⟩) = (M.pure ⟨.ADD, [.sym a, .sym b]⟩, false) := by
    simp [level, simplify, expandEqu, expandItems, expandItem, onEqu_none _ _ _ _ ha, onEqu_none _ _ _ _ hb, height, heightL,
      Node.item, levelTree, xformNeg, levelKids, M.pure, M.bind, segSimp, levelOp, stripTop, levelNode, bringUp, nonnum, splitInt,
      levelTail, levelExtra, sameOp, Terms.list]
  simp [finalize, h1, M.pure, stripMask, split, scanFinish, height, heightL, scan, scanAdd, List.range, List.range.loop, loop,
    addStep, leftStep, Parts.init]

/-- C35, acceptance: a symbol plus a number is always accepted, with the symbol as the relocatable part and the
    number as the absolute part. -/
theorem finalize_sym_const (ρ : Env) (y : Syms) (size : Nat) (s : Nat) (i : Intnum) (hi : Fits i) (hs : y.ctx.equ s = none) :
    ∃ v, (finalize y size ⟨.ADD, [.sym s, .int i]⟩).out = .ok v ∧ v.p = ⟨some s, none, false, 0, false⟩ ∧ v.noWarn = false ∧
      absVal ρ v.abs = bv i := by
  by_cases hz : isZero i = true
  · have h1 : (level y ⟨.ADD, [.sym s, .int i]⟩) = (M.pure ⟨.IDENT, [.sym s]⟩, false) := by
      simp [level, simplify, expandEqu, expandItems, expandItem, onEqu_none _ _ _ _ hs, height, heightL, Node.item,
        levelTree, xformNeg, levelKids, M.pure, M.bind, segSimp, levelOp, stripTop, levelNode, bringUp, nonnum, splitInt, levelTail, levelExtra, sameOp,
        Terms.list, simpId, foldInts, ints, nonInts, Item.int?, Item.isInt, hz, destroyRight, isConstant, multi, tailFault, destroyLeft]
    refine ⟨⟨none, ⟨some s, none, false, 0, false⟩, false⟩, ?_, rfl, rfl, ?_⟩
    · simp [finalize, h1, M.pure, stripMask, split, Parts.init]
    · rw [isZero_bv hi hz]; rfl
  · have hz : isZero i = false := by simpa using hz
    have h1 : (level y ⟨.ADD, [.sym s, .int i]⟩) = (M.pure ⟨.ADD, [.sym s, .int i]⟩, false) := by
      simp [level, simplify, expandEqu, expandItems, expandItem, onEqu_none _ _ _ _ hs, height, heightL, Node.item,
        levelTree, xformNeg, levelKids, M.pure, M.bind, segSimp, levelOp, stripTop, levelNode, bringUp, nonnum, splitInt, levelTail,
        levelExtra, sameOp, Terms.list, simpId, foldInts, ints, nonInts, Item.int?, Item.isInt, hz, destroyRight, isConstant,
        multi, tailFault, destroyLeft]
    have hzf : Fits (createUint 0) := (createUint_fits 0 (by decide)).1
    obtain ⟨r1, r2⟩ := call_ok ρ ⟨.ADD, createUint 0, i⟩ ⟨by simp, by simp [IsDiv], by simp⟩ hzf hi
      (by simp [Numeric]) (by simp [binary])
    have hr : bv (Call.mk .ADD (createUint 0) i).result = bv i := by
      rw [r1]
      simp only [opVal, List.foldr_cons, List.foldr_nil]
      have := (createUint_fits 0 (by decide)).2
      rw [this]
      show (0 : Word) + (bv i + 0) = bv i
      grind
    generalize hrr : (Call.mk .ADD (createUint 0) i).result = r at hr r2
    have h2 : (level y ⟨.ADD, [zero, .int i]⟩).1.out = .ok ⟨.IDENT, [.int r]⟩ := by
      simp [level, simplify, expandEqu, expandItems, expandItem, height, heightL, Node.item, zero,
        levelTree, xformNeg, levelKids, M.pure, M.bind, segSimp, levelOp, stripTop, levelNode, bringUp, nonnum, splitInt, levelTail,
        levelExtra, sameOp, Terms.list, simpId, foldInts, ints, nonInts, Item.int?, Item.isInt, hz, destroyRight, isConstant,
        multi, tailFault, destroyLeft, unary]
      exact hrr
    refine ⟨⟨if isZero r then none else some ⟨.IDENT, [.int r]⟩, ⟨some s, none, false, 0, false⟩, false⟩, ?_, rfl, rfl, ?_⟩
    · simp [finalize, h1, h2, M.pure, stripMask, split, scanFinish, finish, height, heightL, scan, scanAdd, List.range, List.range.loop,
        loop, addStep, leftStep, Parts.init]
    · dsimp only
      by_cases hzr : isZero r = true
      · rw [if_pos hzr, ← hr, isZero_bv r2 hzr]; rfl
      · rw [if_neg hzr, ← hr]; rfl
/-- C35, rejection: the difference of labels in different sections is not accepted, if the subtracted one is not the
    current position nor in the section of the value. -/
theorem finalize_cross_section (y : Syms) (size a b p q r : Nat) (ha : y.ctx.equ a = none) (hb : y.ctx.equ b = none)
    (la : y.ctx.label a = some p) (lb : y.ctx.label b = some q) (hne : y.ctx.sect p ≠ y.ctx.sect q)
    (hr : y.precbc = some r) (hrq : y.ctx.sect q ≠ y.ctx.sect r) (hc : y.isCurpos b = false) :
    (finalize y size ⟨.SUB, [.sym a, .sym b]⟩).out = .error .reject := by
  have hab : a ≠ b := by
    rintro rfl
    rw [la] at lb
    cases lb
    exact hne rfl
  obtain ⟨m, hm, m1, m2, m3⟩ : ∃ m, minusOne = .int m ∧ isNeg1 m = true ∧ isPos1 m = false ∧ isZero m = false :=
    ⟨_, rfl, by decide, by decide, by decide⟩
  have h1 : (level y ⟨.SUB, [.sym a, .sym b]⟩) = (M.pure ⟨.ADD, [.sym a, .expr .MUL [.int m, .sym b]]⟩, false) := by
    simp [level, simplify, expandEqu, expandItems, expandItem, onEqu_none _ _ _ _ ha, onEqu_none _ _ _ _ hb, height, heightL,
      Node.item, levelTree, xformNeg, levelKids, M.pure, M.bind, segSimp, levelOp, stripTop, levelNode, bringUp, nonnum, splitInt,
      levelTail, levelExtra, sameOp, Terms.list, neg, negL, negHead, hm, simpId, foldInts, ints, nonInts, destroyLeft, isConstant,
      Item.int?, Item.isInt, m1, m2, m3, List.filterMap_cons]
  simp [finalize, h1, M.pure, stripMask, split, scanFinish, height, heightL, scan, scanAdd, List.range, List.range.loop, loop,
    addStep, leftStep, Parts.init, negSym, m1, findTerm, hab, lb, inSection, la, hne, mayCurpos, hc, hr, hrq]

example : ctx.label 1 = some 0 ∧ ctx.label 7 = some 9 ∧ ctx.sect 0 ≠ ctx.sect 9 ∧ symbols.precbc = some 2 ∧
    ctx.sect 9 ≠ ctx.sect 2 ∧ symbols.isCurpos 7 = false := by decide

/-! ### The full property fails -/

/-- The position of another statement, named with EQU, is taken for the current one: `ext - s4`, where s4
    is `equ $` said 0x20 bytes earlier, becomes ext relative to the value's own address. -/
theorem equ_curpos_wrong (x z : Word) : ∃ v, (finalize symbols 32 ⟨.SUB, [.sym 0, .sym 4]⟩).out = .ok v ∧
    (Node.mk .SUB [.sym 0, .sym 4]).eval (env x z) = x - 0x1010 ∧ meaning (env x z) place v = x - 0x1030 := by
  refine ⟨⟨none, ⟨some 0, none, false, 0, true⟩, false⟩, by decide +kernel, rfl, ?_⟩
  simp [meaning, absVal, relVal, wrtVal, env, place]

/-- A shift by -1 is dropped: `ext >> -1`, which is 0, becomes ext. -/
theorem shift_negative_wrong (x z : Word) : ∃ v, (finalize symbols 32 ⟨.SHR, [.sym 0, .int (.L (-1))]⟩).out = .ok v ∧
    (Node.mk .SHR [.sym 0, .int (.L (-1))]).eval (env x z) = 0 ∧ meaning (env x z) place v = x := by
  refine ⟨⟨none, ⟨some 0, none, false, 0, false⟩, false⟩, by decide +kernel, ?_, ?_⟩
  · simp only [Node.eval, Node.item, eval, evalL, opVal]
    rw [if_pos (by decide)]
  · simp [meaning, absVal, relVal, wrtVal, env, place]

/-- WRT inside a product is taken out without its factor: `ext + 2*(5 wrt s10)` becomes ext + 10, wrt s10. -/
theorem wrt_in_product_wrong (x z : Word) :
    ∃ v, (finalize symbols 32 ⟨.ADD, [.sym 0, .expr .MUL [.int (.L 2), .expr .WRT [.int (.L 5), .sym 10]]]⟩).out = .ok v ∧
    (Node.mk .ADD [.sym 0, .expr .MUL [.int (.L 2), .expr .WRT [.int (.L 5), .sym 10]]]).eval (env x z) = x + 2 * (5 - z) ∧
    meaning (env x z) place v = 10 + x - z := by
  refine ⟨⟨some ⟨.IDENT, [.int (.L 10)]⟩, ⟨some 0, some 10, false, 0, false⟩, false⟩, by decide +kernel, ?_, ?_⟩
  · simp only [Node.eval, Node.item, eval, evalL, opVal, env]
    simp [val]
  · simp [meaning, absVal, relVal, wrtVal, env, place, Node.eval, Node.item, eval, evalL, opVal, val]

/-- WRT of a number is ignored when the number is output: `5 wrt s10` is output as 5. -/
theorem wrt_number_ignored : ∃ v, (finalize symbols 32 ⟨.WRT, [.int (.L 5), .sym 10]⟩).out = .ok v ∧
    (outputBasic ctx 2 false false v at30).out = .ok (.int (.L 5)) ∧
    ∀ x z : Word, (Node.mk .WRT [.int (.L 5), .sym 10]).eval (env x z) = 5 - z := by
  refine ⟨⟨some ⟨.IDENT, [.int (.L 5)]⟩, ⟨none, some 10, false, 0, false⟩, false⟩, by decide +kernel, by decide +kernel, ?_⟩
  intro x z
  rfl

/-- A symbol can stay behind in the absolute part: `(s2 - s1) * ext` and `(ext + 1) >> 3` are accepted here,
    and refused only when output. -/
theorem symbol_left_in_absolute : ∃ v w, (finalize symbols 32 ⟨.MUL, [.expr .SUB [.sym 2, .sym 1], .sym 0]⟩).out = .ok v ∧
    (finalize symbols 32 ⟨.SHR, [.expr .ADD [.sym 0, .int (.L 1)], .int (.L 3)]⟩).out = .ok w ∧
    v.p.rel = none ∧ w.p.rel = none ∧
    (outputBasic ctx 2 false false v at30).out = .ok .error ∧ (outputBasic ctx 2 false false w at30).out = .ok .error := by
  refine ⟨⟨some ⟨.MUL, [.expr .ADD [.sym 2, .expr .MUL [.int (.L (-1)), .sym 1]], .sym 0]⟩, ⟨none, none, false, 0, false⟩, false⟩,
    ⟨some ⟨.SHR, [.expr .ADD [.sym 0, .int (.L 1)], .int (.L 3)]⟩, ⟨none, none, false, 0, false⟩, false⟩, ?_⟩
  decide +kernel

/-- More than 32 terms in a sum stop the assembler. -/
theorem many_terms_fatal : (finalize symbols 32 ⟨.ADD, (List.range 33).map fun s => .sym (s + 20)⟩).out = .error .tooMany := by
  decide +kernel

/-! ### From the parts to a number -/

/-- C35: when a value can be asked for its number (with or without the distance from a bytecode), the number
    is its meaning.  A value with WRT but no relocatable symbol is excluded (its WRT is ignored). -/
theorem value_intnum_meaning_partial (ρ : Env) (c : Ctx) (base : Nat → Word) (ag : ρ.Agrees c base) (w : Place) (nequ : Nat)
    (sectionRel : Bool) (v : Value) (bc : Option At) (dist : Bool)
    (hbc : ∀ b, bc = some b → w.cur = b.addr base ∧ b.offset.toNat < 2 ^ 32)
    (good : ∀ e, v.abs = some e → Good ρ e.item) (hsh : v.p.rshift ≤ 127) (hwrt : v.p.rel = none → v.p.wrt = none)
    (sound : ∀ k ∈ (valueIntnum c nequ sectionRel v bc dist).log, k.Sound) (i : Intnum)
    (h : (valueIntnum c nequ sectionRel v bc dist).out = .ok (some i)) : BitVec.ofInt 256 (val i) = meaning ρ w v :=
  (valueIntnum_ok ρ c base ag w nequ sectionRel v bc dist hbc good hsh hwrt sound i h).1

/-- C35: the same for output without relocation. -/
theorem output_basic_meaning_partial (ρ : Env) (c : Ctx) (base : Nat → Word) (ag : ρ.Agrees c base)
    (equs : ∀ s d, c.equ s = some d → Allowed NoSegoff (fun _ => True) d.item)
    (w : Place) (nequ : Nat) (sectionRel ipRel : Bool) (v : Value) (bc : At) (hw : w.cur = bc.addr base)
    (ho : bc.offset.toNat < 2 ^ 32) (good : ∀ e, v.abs = some e → Good ρ e.item)
    (segoff : ∀ e, v.abs = some e → Allowed NoSegoff (fun _ => True) e.item)
    (hsh : v.p.rshift ≤ 127) (hwrt : v.p.rel = none → v.p.wrt = none)
    (sound : ∀ k ∈ (outputBasic c nequ sectionRel ipRel v bc).log, k.Sound) (i : Intnum)
    (h : (outputBasic c nequ sectionRel ipRel v bc).out = .ok (.int i)) : BitVec.ofInt 256 (val i) = meaning ρ w v :=
  (outputBasic_ok ρ c base ag (fun s d _ hd => equs s d hd) w nequ sectionRel ipRel v bc hw ho good segoff hsh hwrt sound i h).1

/-! ### The whole way: from the expression to the bits in the output -/

/-- Operators without WRT, right shift and SEG:OFF. -/
def Ordinary (op : Op) : Prop := op ≠ .WRT ∧ op ≠ .SHR ∧ op ≠ .SEGOFF

theorem allowed_weaken {P P' : Op → Prop} {Q Q' : Nat → Prop} (hP : ∀ op, P op → P' op) (hQ : ∀ s, Q s → Q' s) (t : Item)
    (h : Allowed P Q t) : Allowed P' Q' t := by
  refine (item_ind (P := fun t => Allowed P Q t → Allowed P' Q' t) (Q := fun ts => AllowedL P Q ts → AllowedL P' Q' ts)
    ?_ ?_ ?_ ?_).1 t h
  · intro t hl h
    cases t <;> simp_all [Leaf, Allowed]
  · intro op ts ih h; exact ⟨hP op h.1, ih h.2⟩
  · intro _; exact True.intro
  · intro t ts h1 h2 h; exact ⟨h1 h.1, h2 h.2⟩

/-- C35 through to the output: an expression of ordinary operators that is accepted and then output without
    relocation puts the low `size` bits of its value in the field, and leaves the other bits alone. -/
theorem emitted_value (ρ : Env) (w : Place) (y : Syms) (base : Nat → Word) (ag : ρ.Agrees y.ctx base)
    (wrt : ∀ a b, ρ.wrt a b = a - w.frame b) (size : Nat)
    (hsize : size < 256) (e : Node) (good : Good ρ e.item) (ops : OnlyOps Ordinary y.ctx e)
    (here : ρ.sym y.here = w.cur) (cur : ∀ s, Mentions y.ctx e s → y.isCurpos s = true → ρ.sym s = w.cur)
    (v : Value) (sound : ∀ k ∈ (finalize y size e).log, k.Sound) (h : (finalize y size e).out = .ok v)
    (nequ : Nat) (sectionRel ipRel : Bool) (bc : At) (hw : w.cur = bc.addr base) (ho : bc.offset.toNat < 2 ^ 32)
    (sound2 : ∀ k ∈ (outputBasic y.ctx nequ sectionRel ipRel v bc).log, k.Sound) (i : Intnum)
    (h2 : (outputBasic y.ctx nequ sectionRel ipRel v bc).out = .ok (.int i))
    (buf : List (BitVec 8)) (hb : buf.length ≤ 32) (shift : Nat) (warn : Int) :
    ∃ out, getSized i buf size shift false warn = some out ∧ out.buf.length = buf.length ∧
      ∀ b, b < 8 * buf.length → bufBit out.buf b =
        if shift ≤ b ∧ b < shift + size then (e.eval ρ).getLsbD (b - shift) else bufBit buf b := by
  have plain : OnlyOps Plain y.ctx e :=
    ⟨allowed_weaken (fun _ h => ⟨h.1, h.2.1⟩) (fun _ h => h) _ ops.1,
      fun s d hd => allowed_weaken (fun _ h => ⟨h.1, h.2.1⟩) (fun _ h => h) _ (ops.2 s d hd)⟩
  have hn : ∃ n, (simplify y.ctx y.nequ false false e).out = .ok n := by
    simp only [finalize] at h
    cases hm : (level y e).1.out with
    | error f => rw [hm] at h; cases h
    | ok n => exact ⟨n, hm⟩
  obtain ⟨n, hn⟩ := hn
  have hbp : Base Plain := ⟨by simp [Plain], by simp [Plain], by simp [Plain]⟩
  have hal := simplify_allowed hbp y.ctx (equAllowed_of plain) y.nequ false false e n
    (allowed_and _ plain.1 (fun s hs => Or.inl hs)) hn
  obtain ⟨m1, _, m3⟩ := finalize_ok ρ w y base ag here wrt size hsize e n good hn
    (plain_sane (fun _ h => h.1) (fun _ h => h.2) _ hal) (fun s hs hc => cur s (allowed_syms _ hal s hs) hc) v sound h
  have hbo : Base Ordinary := ⟨by simp [Ordinary], by simp [Ordinary], by simp [Ordinary]⟩
  obtain ⟨_, _, k⟩ := finalize_keeps (P := Ordinary) (Q := fun _ => True) hbo y trivial (fun s d _ hd => ops.2 s d hd) size e ops.1
  obtain ⟨k1, k2, k3⟩ := k v h
  obtain ⟨o1, o2⟩ := outputBasic_ok ρ y.ctx base ag
    (fun s d _ hd => allowed_weaken (fun _ h => h.2.2) (fun _ h => h) _ (ops.2 s d hd)) w nequ sectionRel ipRel v bc hw ho m3
    (fun a ha => allowed_weaken (fun _ h => h.2.2) (fun _ h => h) _ (k2 a ha)) k1.2 (fun _ => k3 (fun _ h => h.1)) sound2 i h2
  obtain ⟨out, g1, g2, g3⟩ := get_sized_field i buf size shift warn o2 hb
  refine ⟨out, g1, g2, ?_⟩
  intro b hbl
  rw [g3 b hbl]
  have hs : (shift : Int).toNat = shift := Int.toNat_natCast shift
  have hs2 : (-(shift : Int)).toNat = 0 := by omega
  rw [hs, hs2]
  by_cases hc : shift ≤ b ∧ b < shift + size
  · rw [if_pos hc, if_pos hc, Int.pow_zero, Int.ediv_one]
    have hlt : b - shift < size := by omega
    have e1 := congrArg (fun x => x.getLsbD (b - shift)) m1
    simp only [BitVec.getLsbD_setWidth, hlt, decide_true, Bool.true_and] at e1
    rw [← e1, ← o1, Verif.Bitvect.getLsbD_eq_ibit _ _ (by omega), bv_toInt]
  · rw [if_neg hc, if_neg hc]

/-- `s1 - $ + (s2 - s1) + 3`, in the section of its label: 0x1010 - 0x1030 + 0x10 + 3 = -13. -/
def sample2 : Node := ⟨.ADD, [.sym 1, .expr .SUB [.sym 8, .sym 3], .int (.L 3)]⟩

/-- It is accepted and output without relocation, with the right number. -/
example : ∃ v, (finalize symbols 32 sample2).out = .ok v ∧ (outputBasic ctx 2 false false v at30).out = .ok (.int (.L (-13))) ∧
    at30.addr bases = place.cur ∧ ∀ x z, sample2.eval (env x z) = -13 := by
  refine ⟨⟨some ⟨.ADD, [.int (.L 3), .sym 2, .expr .MUL [.int (.L (-1)), .sym 3]]⟩, ⟨none, none, false, 0, false⟩, false⟩,
    by decide +kernel, by decide +kernel, by decide, ?_⟩
  intro x z
  simp [sample2, Node.eval, Node.item, eval, evalL, opVal, env, val]

/-! ### Values made relative to the current position (jump targets) -/

/-- Marking a value as relative to the current position subtracts the current address: for a value with a
    plain relocatable symbol, and for a number if the absolute symbol has the address 0. -/
theorem set_curpos_rel_meaning (ρ : Env) (w : Place) (absSym : Nat) (habs : ρ.sym absSym = 0) (v : Value)
    (h0 : v.p.curposRel = false) (h1 : v.p.rshift = 0) (h2 : v.p.segOf = false) :
    meaning ρ w (setCurposRel absSym v) = meaning ρ w v - w.cur := by
  simp only [meaning, setCurposRel, relVal, wrtVal, h0, h1, h2, if_true, Bool.false_eq_true, if_false]
  cases hr : v.p.rel with
  | none =>
    simp only [Option.getD_none, habs, BitVec.sshiftRight_zero]
    grind
  | some s =>
    simp only [Option.getD_some, BitVec.sshiftRight_zero]
    grind

/-- The target `s1 + 3` seen from 0x1030: -29, in both ways of asking. -/
example : ∃ v, (finalize symbols 8 ⟨.ADD, [.sym 1, .int (.L 3)]⟩).out = .ok v ∧
    (outputBasic ctx 2 false false (setCurposRel 99 v) at30).out = .ok (.int (.L (-29))) ∧
    (valueIntnum ctx 2 false (setCurposRel 99 v) (some at30) true).out = .ok (some (.L (-29))) ∧
    ∀ x z, meaning (env x z) place (setCurposRel 99 v) = -29 := by
  refine ⟨⟨some ⟨.IDENT, [.int (.L 3)]⟩, ⟨some 1, none, false, 0, false⟩, false⟩,
    by decide +kernel, by decide +kernel, by decide +kernel, ?_⟩
  intro x z
  simp [meaning, setCurposRel, absVal, relVal, wrtVal, Node.eval, Node.item, eval, evalL, opVal, env, place, val]

end Verif.Value.Props
