import Verif.Value.ScanKeep
/-
Lemmas about the output of values, and what finalization keeps.
-/
set_option linter.unusedSimpArgs false
namespace Verif.Value
open Verif.Intnum Verif.Expr

/-! ### What finalization keeps -/

theorem allowed_pred {P : Op → Prop} {Q : Nat → Prop} (hP : Base P) (y : Syms) (hh : Q y.here) : TermPred y (Allowed P Q) where
  sub := allowed_sub
  build op ts ts' h h' := ⟨h.1, (allowedL_iff P Q ts').2 h'⟩
  ident ts h := ⟨hP.ident, (allowedL_iff P Q ts).2 h⟩
  zero := trivial
  here := hh

theorem finish_keeps {P : Op → Prop} {Q : Nat → Prop} (hP : Base P) (y : Syms) (hc : EquAllowed P Q y.ctx) (p : Parts) (nw : Bool)
    (op : Op) (ts : List Item) (ht : Allowed P Q (.expr op ts)) :
    (finish y p nw (.expr op ts)).out ≠ .error .fuel ∧ (finish y p nw (.expr op ts)).out ≠ .error (.fault .fuel) ∧
    ∀ v, (finish y p nw (.expr op ts)).out = .ok v → v.p = p ∧ ∀ a, v.abs = some a → Allowed P Q a.item := by
  simp only [finish, level]
  cases hm : (simplify y.ctx y.nequ false false ⟨op, ts⟩).out with
  | error f =>
    refine ⟨by simp, ?_, by intro v h; cases h⟩
    have := simplify_noFuel y.ctx y.nequ false false ⟨op, ts⟩
    rw [NoFuel, hm] at this
    simpa using this
  | ok n =>
    refine ⟨by simp, by simp, ?_⟩
    intro v h
    dsimp only at h
    simp only [Except.ok.injEq] at h
    subst h
    refine ⟨rfl, ?_⟩
    have hn := simplify_allowed hP y.ctx hc y.nequ false false ⟨op, ts⟩ n ht hm
    intro a ha
    dsimp only at ha
    split at ha
    · split at ha
      · cases ha
      · cases ha; exact hn
    · cases ha; exact hn

theorem allowed_noWrt {P : Op → Prop} {Q : Nat → Prop} (hw : ∀ op, P op → op ≠ .WRT) (t : Item) (h : Allowed P Q t) : NoWrt t := by
  refine (item_ind (P := fun t => Allowed P Q t → NoWrt t) (Q := fun ts => AllowedL P Q ts → NoWrtL ts) ?_ ?_ ?_ ?_).1 t h
  · intro t hl _; cases t <;> simp_all [Leaf, NoWrt]
  · intro op ts ih h; exact ⟨hw op h.1, ih h.2⟩
  · intro _; exact True.intro
  · intro t ts h1 h2 h; exact ⟨h1 h.1, h2 h.2⟩

theorem scanFinish_keeps {P : Op → Prop} {Q : Nat → Prop} (hP : Base P) (y : Syms) (hh : Q y.here) (hc : EquAllowed P Q y.ctx)
    (nw : Bool) (t : Item) (he : ∃ op ts, t = .expr op ts) (ht : Allowed P Q t) :
    (scanFinish y nw t).out ≠ .error .fuel ∧ (scanFinish y nw t).out ≠ .error (.fault .fuel) ∧
    ∀ v, (scanFinish y nw t).out = .ok v → ShOk v.p ∧ (∀ a, v.abs = some a → Allowed P Q a.item) ∧ ((∀ op, P op → op ≠ .WRT) → v.p.wrt = none) := by
  obtain ⟨a, b⟩ := scan_fine (allowed_pred hP y hh) (height t + 1) false Parts.init t (by omega)
  unfold scanFinish
  cases hx : scan y (height t + 1) false Parts.init t with
  | error e =>
    rw [hx] at a
    refine ⟨?_, ?_, by intro v h; cases h⟩
    · rcases a e rfl with rfl | rfl <;> simp
    · rcases a e rfl with rfl | rfl <;> simp
  | ok r =>
    obtain ⟨p, t'⟩ := r
    have hk := b p t' hx
    obtain ⟨op', ts', rfl⟩ := hk.isExpr he
    obtain ⟨f1, f2, f3⟩ := finish_keeps hP y hc p nw op' ts' (hk.term ht)
    refine ⟨f1, f2, ?_⟩
    intro v hv
    obtain ⟨g1, g2⟩ := f3 v hv
    exact ⟨g1 ▸ hk.sh ⟨fun _ => rfl, by simp [Parts.init]⟩, g2, fun hw => by rw [g1, (hk.wrt (allowed_noWrt hw t ht)).1]; rfl⟩

mutual
theorem stripTop_isExpr (t : Item) (h : ∃ op us, t = .expr op us) : ∃ op us, stripTop t = .expr op us := by
  match t with
  | .expr .IDENT ts => rw [stripTop]; exact stripHead_isExpr ts
  | .none | .reg _ | .int _ | .subst _ | .flt _ _ | .sym _ | .precbc _ =>
    obtain ⟨op, us, h⟩ := h; cases h
  | .expr op ts =>
    by_cases hop : op = .IDENT
    · subst hop; rw [stripTop]; exact stripHead_isExpr ts
    · rw [stripTop]
      · exact ⟨op, ts, rfl⟩
      · intro l hl; cases hl; exact hop rfl
theorem stripHead_isExpr (ts : List Item) : ∃ op us, stripHead ts = .expr op us := by
  match ts with
  | .expr op us :: _ => rw [stripHead]; exact stripTop_isExpr _ ⟨op, us, rfl⟩
  | [] => exact ⟨_, _, by rw [stripHead]; intro _ _ _ h; cases h⟩
  | .none :: _ | .reg _ :: _ | .int _ :: _ | .subst _ :: _ | .flt _ _ :: _ | .sym _ :: _ | .precbc _ :: _ =>
    exact ⟨_, _, by rw [stripHead]; intro _ _ _ h; cases h⟩
end

theorem split_keeps {P : Op → Prop} {Q : Nat → Prop} (hP : Base P) (y : Syms) (hh : Q y.here) (hc : EquAllowed P Q y.ctx)
    (nw : Bool) (e : Node) (ht : Allowed P Q e.item) :
    (split y nw e).out ≠ .error .fuel ∧ (split y nw e).out ≠ .error (.fault .fuel) ∧
    ∀ v, (split y nw e).out = .ok v → ShOk v.p ∧ (∀ a, v.abs = some a → Allowed P Q a.item) ∧ ((∀ op, P op → op ≠ .WRT) → v.p.wrt = none) := by
  have hi : ShOk Parts.init := ⟨fun _ => rfl, by simp [Parts.init]⟩
  obtain ⟨op, ts⟩ := e
  unfold split
  split
  · refine ⟨by simp, by simp, ?_⟩
    intro v h
    simp only [Except.ok.injEq] at h
    subst h
    refine ⟨hi, ?_, fun _ => rfl⟩
    intro a ha
    dsimp only at ha
    split at ha
    · cases ha
    · cases ha; exact ht
  · refine ⟨by simp, by simp, ?_⟩
    intro v h
    simp only [Except.ok.injEq] at h
    subst h
    exact ⟨hi, by intro a ha; cases ha; exact ht, fun _ => rfl⟩
  · refine ⟨by simp, by simp, ?_⟩
    intro v h
    simp only [Except.ok.injEq] at h
    subst h
    exact ⟨hi, by intro a ha; cases ha; exact ht, fun _ => rfl⟩
  · refine ⟨by simp, by simp, ?_⟩
    intro v h
    simp only [Except.ok.injEq] at h
    subst h
    exact ⟨⟨(by intro hx; cases hx), by simp [Parts.init]⟩, (by intro a ha; cases ha), fun _ => rfl⟩
  · rename_i op' us rest h1 h2
    refine scanFinish_keeps hP y hh hc nw _ (stripTop_isExpr _ ⟨_, _, rfl⟩) ?_
    refine ((stripTop_keep (Allowed P Q) allowed_sub).1 _).1 ?_
    dsimp only at h1 h2
    subst h1; subst h2
    exact ht.2.1
  · exact ⟨by simp, by simp, by intro v h; cases h⟩
  · exact scanFinish_keeps hP y hh hc nw _ ⟨_, _, rfl⟩ ht

theorem finalize_keeps {P : Op → Prop} {Q : Nat → Prop} (hP : Base P) (y : Syms) (hh : Q y.here) (hc : EquAllowed P Q y.ctx)
    (size : Nat) (e : Node) (ht : Allowed P Q e.item) :
    (finalize y size e).out ≠ .error .fuel ∧ (finalize y size e).out ≠ .error (.fault .fuel) ∧
    ∀ v, (finalize y size e).out = .ok v → ShOk v.p ∧ (∀ a, v.abs = some a → Allowed P Q a.item) ∧ ((∀ op, P op → op ≠ .WRT) → v.p.wrt = none) := by
  simp only [finalize]
  cases hm : (level y e).1.out with
  | error f =>
    refine ⟨by simp, ?_, by intro v h; cases h⟩
    have : NoFuel (level y e).1 := simplify_noFuel y.ctx y.nequ false false e
    rw [NoFuel, hm] at this
    simpa using this
  | ok n =>
    dsimp only
    by_cases er : (level y e).2 = true
    · rw [if_pos er]; exact ⟨by simp, by simp, by intro v h; cases h⟩
    · rw [if_neg er]
      have hn : Allowed P Q n.item := simplify_allowed hP y.ctx hc y.nequ false false e n ht hm
      refine split_keeps hP y hh hc _ _ ?_
      unfold stripMask
      split
      · refine ⟨?_, ?_⟩
        · show P (if _ then _ else _)
          split
          · exact hP.ident
          · rename_i h _
            exact h ▸ hn.1
        · rw [Node.item] at hn
          have := (allowedL_iff P Q _).1 hn.2
          exact (allowedL_iff P Q _).2 fun t ht => this t (List.mem_filter.1 ht).1
      · exact hn

/-! ### Output -/

theorem dist_ok (ρ : Env) (a b : BitVec 64) (ha : a.toNat < 2 ^ 32) (hb : b.toNat < 2 ^ 32) :
    let d := if a.ult b then calcUnary .NEG (createUint (b - a)) else createUint (a - b)
    Fits d ∧ bv d = BitVec.ofNat 256 a.toNat - BitVec.ofNat 256 b.toNat := by
  dsimp only
  split
  · rename_i hlt
    have hlt' : a.toNat < b.toNat := by simpa [BitVec.ult] using hlt
    have hn : (b - a).toNat = b.toNat - a.toNat := by rw [BitVec.toNat_sub]; omega
    obtain ⟨f1, f2⟩ := createUint_fits (b - a) (by omega)
    obtain ⟨u1, u2⟩ := calcUnary_ok ρ .NEG _ f1 (Or.inl rfl)
    refine ⟨u2, ?_⟩
    rw [u1]
    simp only [opVal, f2, hn]
    have e2 : BitVec.ofNat 256 b.toNat = BitVec.ofNat 256 (b.toNat - a.toNat) + BitVec.ofNat 256 a.toNat := by
      rw [← BitVec.ofNat_add]; congr 1; omega
    rw [e2]; grind
  · rename_i hlt
    have hlt' : b.toNat ≤ a.toNat := by simpa [BitVec.ult] using hlt
    have hn : (a - b).toNat = a.toNat - b.toNat := by rw [BitVec.toNat_sub]; omega
    obtain ⟨f1, f2⟩ := createUint_fits (a - b) (by omega)
    refine ⟨f1, ?_⟩
    rw [f2, hn]
    have e2 : BitVec.ofNat 256 a.toNat = BitVec.ofNat 256 (a.toNat - b.toNat) + BitVec.ofNat 256 b.toNat := by
      rw [← BitVec.ofNat_add]; congr 1; omega
    rw [e2]; grind

theorem word_small (n : Nat) (h : n < 2 ^ 32) : (BitVec.ofNat 256 n : Word).toNat = n ∧ ¬ (BitVec.ofNat 256 n : Word).toInt < 0 := by
  have h1 : (BitVec.ofNat 256 n : Word).toNat = n := by
    rw [BitVec.toNat_ofNat, Nat.mod_eq_of_lt]
    exact Nat.lt_trans h (by decide)
  refine ⟨h1, ?_⟩
  rw [BitVec.toInt_eq_toNat_of_lt]
  · omega
  · rw [h1]
    have : 2 * n < 2 ^ 33 := by omega
    exact Nat.lt_trans this (by decide)

theorem relDist_ok (ρ : Env) (c : Ctx) (base : Nat → Word) (ag : ρ.Agrees c base) (rshift q : Nat) (bc : At)
    (hsh : rshift ≤ 127) (ho : bc.offset.toNat < 2 ^ 32) (hs : c.sect q = bc.sect) :
    Fits (relDist c rshift q bc).1 ∧ bv (relDist c rshift q bc).1 = (ρ.precbc q - bc.addr base).sshiftRight rshift := by
  obtain ⟨d1, d2⟩ := dist_ok ρ (c.next q) bc.offset (ag.small q) ho
  have he : BitVec.ofNat 256 (c.next q).toNat - BitVec.ofNat 256 bc.offset.toNat = ρ.precbc q - bc.addr base := by
    rw [ag.precbc, At.addr, hs]; grind
  rw [he] at d2
  simp only [relDist]
  generalize (if (c.next q).ult bc.offset then calcUnary .NEG (createUint (bc.offset - c.next q))
    else createUint (c.next q - bc.offset)) = d at d1 d2 ⊢
  split
  · dsimp only
    have hr : (BitVec.ofNat 64 rshift).toNat = rshift := by
      rw [BitVec.toNat_ofNat, Nat.mod_eq_of_lt]; omega
    obtain ⟨f1, f2⟩ := createUint_fits (BitVec.ofNat 64 rshift) (by omega)
    have hsound : (Call.mk .SHR d (createUint (BitVec.ofNat 64 rshift))).Sound := by
      refine ⟨by simp, by simp [IsDiv], ?_⟩
      intro _
      right
      simp only [createUint]
      rw [if_neg (by omega)]
      exact ⟨_, rfl⟩
    obtain ⟨c1, c2⟩ := call_ok ρ _ hsound d1 f1 (by simp [Numeric]) (by simp [binary])
    refine ⟨c2, ?_⟩
    rw [c1]
    obtain ⟨w1, w2⟩ := word_small rshift (by omega)
    simp only [opVal, f2, hr, d2]
    rw [if_neg w2, w1]
  · refine ⟨d1, ?_⟩
    have : rshift = 0 := by omega
    rw [this, BitVec.sshiftRight_zero]
    exact d2

/-- The value of a number that may be absent. -/
def numVal : Option Intnum → Word
  | some j => bv j
  | none => 0

theorem addAbs_ok (ρ : Env) (d : Intnum × List Call) (i : Option Intnum) (hd : Fits d.1) (hi : ∀ j, i = some j → Fits j) :
    Fits (addAbs d i).1 ∧ bv (addAbs d i).1 = numVal i + bv d.1 := by
  cases i with
  | none => refine ⟨hd, ?_⟩; simp only [addAbs, numVal]; grind
  | some j =>
    simp only [addAbs]
    obtain ⟨c1, c2⟩ := call_ok ρ ⟨.ADD, d.1, j⟩ ⟨by simp, by simp [IsDiv], by simp⟩ hd (hi j rfl) (by simp [Numeric]) (by simp [binary])
    refine ⟨c2, ?_⟩
    rw [c1]
    simp only [opVal, List.foldr_cons, List.foldr_nil, numVal]; grind

theorem getIntnum_ok (ρ : Env) (c : Ctx) (base : Nat → Word) (ag : ρ.Agrees c base) (nequ : Nat) (dist : Bool) (e : Node) (i : Intnum)
    (good : Good ρ e.item) (sound : ∀ k ∈ (getIntnum c nequ dist e).log, k.Sound)
    (h : (getIntnum c nequ dist e).out = .ok (some i)) : bv i = e.eval ρ ∧ Fits i := by
  obtain ⟨n, h1, h2, h3⟩ := bind_out h
  have e0 : (getIntnum c nequ dist e).log = (simplify c nequ true dist e).log := by
    show (M.bind _ _).log = _
    rw [h3]; simp [M.pure]
  rw [e0] at sound
  obtain ⟨g, hv⟩ := simplify_ok ρ c base ag nequ true dist e good sound n h1
  rw [← hv]
  simp only [M.pure, Except.ok.injEq] at h2
  obtain ⟨op, ts⟩ := n
  simp only at h2
  split at h2
  · rename_i j rest
    simp only [Option.some.injEq] at h2
    subst h2
    have hr : rest.length = 0 := by have := g.1; simpa [Arity, Node.item] using this
    have : rest = [] := List.length_eq_zero_iff.1 hr
    subst this
    exact ⟨rfl, g.2.2.1⟩
  · simp at h2

/-- The number of the absolute part. -/
def AbsIs (ρ : Env) (a : Option Node) (i : Option Intnum) : Prop :=
  numVal i = absVal ρ a ∧ ∀ j, i = some j → Fits j

theorem absIntnum_ok (ρ : Env) (c : Ctx) (base : Nat → Word) (ag : ρ.Agrees c base) (nequ : Nat) (dist : Bool) (a : Option Node)
    (good : ∀ e, a = some e → Good ρ e.item) (sound : ∀ k ∈ (absIntnum c nequ dist a).log, k.Sound) (i : Option Intnum)
    (h : (absIntnum c nequ dist a).out = .ok (some i)) : AbsIs ρ a i := by
  cases a with
  | none =>
    simp only [absIntnum, M.pure, Except.ok.injEq, Option.some.injEq] at h
    subst h
    exact ⟨rfl, by simp⟩
  | some e =>
    simp only [absIntnum] at h sound
    obtain ⟨r, h1, h2, h3⟩ := bind_out h
    simp only [M.pure, Except.ok.injEq, Option.map_eq_some_iff] at h2
    obtain ⟨j, rfl, rfl⟩ := h2
    rw [h3] at sound
    obtain ⟨g1, g2⟩ := getIntnum_ok ρ c base ag nequ dist e j (good e rfl)
      (fun k hk => sound k (List.mem_append_left _ hk)) h1
    exact ⟨g1, by intro j' hj; cases hj; exact g2⟩

theorem relHere_some {c : Ctx} {sr : Bool} {p : Parts} {s : Nat} {bc : At} {q : Nat} (h : relHere c sr p s bc = some q) :
    c.label s = some q ∧ p.wrt = none ∧ p.segOf = false ∧ p.curposRel = true ∧ c.sect q = bc.sect := by
  unfold relHere at h
  split at h
  · cases h
  · rename_i q' hq
    split at h
    · cases h
    · rename_i h1
      split at h
      · cases h
      · rename_i h2
        split at h
        · cases h
        · rename_i h3
          simp only [Option.some.injEq] at h
          subst h
          simp only [Bool.or_eq_true, not_or, Option.isSome_iff_ne_none, Classical.not_not] at h1
          refine ⟨hq, h1.1.1, by simpa using h1.1.2, by simpa using h3, Classical.not_not.1 h2⟩

theorem resolved_ok (ρ : Env) (c : Ctx) (base : Nat → Word) (ag : ρ.Agrees c base) (w : Place) (bc : At) (hw : w.cur = bc.addr base)
    (ho : bc.offset.toNat < 2 ^ 32) (sr : Bool) (v : Value) (s q : Nat) (hr : v.p.rel = some s) (hsh : v.p.rshift ≤ 127)
    (hq : relHere c sr v.p s bc = some q) (i : Option Intnum) (hi : AbsIs ρ v.abs i) :
    bv (addAbs (relDist c v.p.rshift q bc) i).1 = meaning ρ w v ∧ Fits (addAbs (relDist c v.p.rshift q bc) i).1 := by
  obtain ⟨l, w1, w2, w3, w4⟩ := relHere_some hq
  obtain ⟨r1, r2⟩ := relDist_ok ρ c base ag v.p.rshift q bc hsh ho w4
  obtain ⟨a1, a2⟩ := addAbs_ok ρ _ i r1 hi.2
  refine ⟨?_, a1⟩
  rw [a2, hi.1, r2]
  simp only [meaning, relVal, wrtVal, hr, w1, w2, w3, Bool.false_eq_true, if_false, if_true]
  rw [ag.label s q l, hw]
  grind

theorem noRel_ok (ρ : Env) (w : Place) (v : Value) (hr : v.p.rel = none) (hw : v.p.wrt = none) (i : Option Intnum)
    (hi : AbsIs ρ v.abs i) : bv (i.getD (createUint 0)) = meaning ρ w v ∧ Fits (i.getD (createUint 0)) := by
  simp only [meaning, relVal, wrtVal, hr, hw]
  cases i with
  | none =>
    refine ⟨?_, (createUint_fits 0 (by decide)).1⟩
    rw [← hi.1]
    have := (createUint_fits 0 (by decide)).2
    simp only [Option.getD_none, this]
    rfl
  | some j =>
    refine ⟨?_, hi.2 j rfl⟩
    rw [← hi.1]
    simp only [Option.getD_some, numVal]; grind

theorem valueIntnum_ok (ρ : Env) (c : Ctx) (base : Nat → Word) (ag : ρ.Agrees c base) (w : Place) (nequ : Nat) (sr : Bool) (v : Value)
    (bc : Option At) (dist : Bool) (hbc : ∀ b, bc = some b → w.cur = b.addr base ∧ b.offset.toNat < 2 ^ 32)
    (good : ∀ e, v.abs = some e → Good ρ e.item) (hsh : v.p.rshift ≤ 127) (hwrt : v.p.rel = none → v.p.wrt = none)
    (sound : ∀ k ∈ (valueIntnum c nequ sr v bc dist).log, k.Sound) (i : Intnum)
    (h : (valueIntnum c nequ sr v bc dist).out = .ok (some i)) : bv i = meaning ρ w v ∧ Fits i := by
  unfold valueIntnum at h sound
  obtain ⟨r, h1, h2, h3⟩ := bind_out h
  rw [h3] at sound
  cases r with
  | none => simp [M.pure] at h2
  | some a =>
    have ha := absIntnum_ok ρ c base ag nequ dist v.abs good (fun k hk => sound k (List.mem_append_left _ hk)) a h1
    dsimp only at h2
    cases hr : v.p.rel with
    | none =>
      rw [hr] at h2
      simp only [M.pure, Except.ok.injEq, Option.some.injEq] at h2
      subst h2
      exact noRel_ok ρ w v hr (hwrt hr) a ha
    | some s =>
      rw [hr] at h2
      dsimp only at h2
      cases hb : bc with
      | none => rw [hb] at h2; simp [M.pure] at h2
      | some b =>
        rw [hb] at h2
        dsimp only at h2
        cases hq : relHere c sr v.p s b with
        | none => rw [hq] at h2; simp [M.pure] at h2
        | some q =>
          rw [hq] at h2
          simp only [Except.ok.injEq, Option.some.injEq] at h2
          subst h2
          exact resolved_ok ρ c base ag w b (hbc b hb).1 (hbc b hb).2 sr v s q hr hsh hq a ha

theorem base_noSegoff : Base NoSegoff := ⟨by simp [NoSegoff], by simp [NoSegoff], by simp [NoSegoff]⟩

mutual
theorem extractDeep_none (Q : Nat → Prop) (t : Item) (h : Allowed NoSegoff Q t) : extractDeep t = none := by
  match t with
  | .expr op ts =>
    have h1 : op ≠ .SEGOFF := h.1
    have h2 := extractDeepL_none Q ts h.2
    rw [extractDeep, h2]
    · rfl
    · intro a b e; exact absurd e h1
  | .none | .reg _ | .int _ | .subst _ | .flt _ _ | .sym _ | .precbc _ => rw [extractDeep]; intro _ _ h; cases h
theorem extractDeepL_none (Q : Nat → Prop) (ts : List Item) (h : AllowedL NoSegoff Q ts) : extractDeepL ts = none := by
  match ts with
  | [] => rw [extractDeepL]
  | t :: ts => rw [extractDeepL, extractDeep_none Q t h.1, extractDeepL_none Q ts h.2]; rfl
end

theorem outIntnum_ok (ρ : Env) (c : Ctx) (base : Nat → Word) (ag : ρ.Agrees c base) (hc : EquAllowed NoSegoff (fun _ => True) c)
    (nequ : Nat) (e : Node) (i : Intnum) (good : Good ρ e.item) (hs : Allowed NoSegoff (fun _ => True) e.item)
    (sound : ∀ k ∈ (outIntnum c nequ e).log, k.Sound) (h : (outIntnum c nequ e).out = .ok (some i)) : bv i = e.eval ρ ∧ Fits i := by
  unfold outIntnum at h sound
  obtain ⟨n, h1, h2, h3⟩ := bind_out h
  rw [h3] at sound
  obtain ⟨g, hv⟩ := simplify_ok ρ c base ag nequ true true e good (fun k hk => sound k (List.mem_append_left _ hk)) n h1
  have hn := simplify_allowed base_noSegoff c hc nequ true true e n hs h1
  have s2 := fun k hk => sound k (List.mem_append_right _ hk)
  rw [← hv]
  rw [extractDeep_none _ _ hn] at h2 s2
  obtain ⟨op, ts⟩ := n
  dsimp only at h2 s2
  split at h2
  · rename_i j rest
    simp only [M.pure, Except.ok.injEq, Option.some.injEq] at h2
    subst h2
    have hr : rest.length = 0 := by have := g.1; simpa [Arity, Node.item] using this
    have : rest = [] := List.length_eq_zero_iff.1 hr
    subst this
    exact ⟨rfl, g.2.2.1⟩
  · rename_i hne
    refine getIntnum_ok ρ c base ag nequ true ⟨op, ts⟩ i g ?_ h2
    split at s2
    · rename_i j rest; exact absurd rfl (hne _ _ rfl)
    · exact s2

theorem outAbs_ok (ρ : Env) (c : Ctx) (base : Nat → Word) (ag : ρ.Agrees c base) (hc : EquAllowed NoSegoff (fun _ => True) c)
    (nequ : Nat) (a : Option Node) (good : ∀ e, a = some e → Good ρ e.item)
    (hs : ∀ e, a = some e → Allowed NoSegoff (fun _ => True) e.item)
    (sound : ∀ k ∈ (outAbs c nequ a).log, k.Sound) (i : Option Intnum)
    (h : (outAbs c nequ a).out = .ok (some i)) : AbsIs ρ a i := by
  cases a with
  | none =>
    simp only [outAbs, M.pure, Except.ok.injEq, Option.some.injEq] at h
    subst h
    exact ⟨rfl, by simp⟩
  | some e =>
    simp only [outAbs] at h sound
    by_cases hf : hasFltL e.terms = true
    · rw [if_pos hf] at h; simp [M.pure] at h
    · rw [if_neg hf] at h sound
      obtain ⟨r, h1, h2, h3⟩ := bind_out h
      simp only [M.pure, Except.ok.injEq, Option.map_eq_some_iff] at h2
      obtain ⟨j, rfl, rfl⟩ := h2
      rw [h3] at sound
      obtain ⟨g1, g2⟩ := outIntnum_ok ρ c base ag hc nequ e j (good e rfl) (hs e rfl)
        (fun k hk => sound k (List.mem_append_left _ hk)) h1
      exact ⟨g1, by intro j' hj; cases hj; exact g2⟩

theorem outputBasic_ok (ρ : Env) (c : Ctx) (base : Nat → Word) (ag : ρ.Agrees c base) (hc : EquAllowed NoSegoff (fun _ => True) c)
    (w : Place) (nequ : Nat) (sr ip : Bool) (v : Value) (bc : At) (hw : w.cur = bc.addr base) (ho : bc.offset.toNat < 2 ^ 32)
    (good : ∀ e, v.abs = some e → Good ρ e.item) (hs : ∀ e, v.abs = some e → Allowed NoSegoff (fun _ => True) e.item)
    (hsh : v.p.rshift ≤ 127) (hwrt : v.p.rel = none → v.p.wrt = none)
    (sound : ∀ k ∈ (outputBasic c nequ sr ip v bc).log, k.Sound) (i : Intnum)
    (h : (outputBasic c nequ sr ip v bc).out = .ok (.int i)) : bv i = meaning ρ w v ∧ Fits i := by
  have hmain : ∀ (m : M Output), m = ((outAbs c nequ v.abs).bind fun a =>
      match a with
      | none => M.pure .error
      | some i => let r := outRel c sr ip v.p bc i; ⟨r.2, .ok r.1⟩) → (∀ k ∈ m.log, k.Sound) → m.out = .ok (.int i) →
      bv i = meaning ρ w v ∧ Fits i := by
    intro m hm sound h
    subst hm
    obtain ⟨r, h1, h2, h3⟩ := bind_out h
    rw [h3] at sound
    cases r with
    | none => simp [M.pure] at h2
    | some a =>
      have ha := outAbs_ok ρ c base ag hc nequ v.abs good hs (fun k hk => sound k (List.mem_append_left _ hk)) a h1
      dsimp only at h2
      simp only [Except.ok.injEq, outRel] at h2
      cases hr : v.p.rel with
      | none =>
        rw [hr] at h2
        dsimp only at h2
        split at h2
        · cases h2
        · simp only [Output.int.injEq] at h2
          subst h2
          exact noRel_ok ρ w v hr (hwrt hr) a ha
      | some s =>
        rw [hr] at h2
        dsimp only at h2
        cases hq : relHere c sr v.p s bc with
        | none => rw [hq] at h2; cases h2
        | some q =>
          rw [hq] at h2
          simp only [Output.int.injEq] at h2
          subst h2
          exact resolved_ok ρ c base ag w bc hw ho sr v s q hr hsh hq a ha
  unfold outputBasic at h sound
  split at h
  · simp [M.pure] at h
  · rename_i hne
    refine hmain _ rfl ?_ h
    split at sound
    · rename_i x1 x2; exact absurd x2 (hne _ _ _ x1)
    · exact sound

end Verif.Value
