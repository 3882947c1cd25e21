import Verif.Optimize.Final
/-
Termination of the optimizer, and growth of instructions.
-/
set_option linter.unusedSimpArgs false
set_option linter.unusedVariables false
namespace Verif.Optimize
open Verif.Inttree

variable {M : Type}

/-! ### Instructions grow -/

/-- Same bytecodes; instructions are at least as long. -/
def Grown (A B : List (Bc M)) : Prop :=
  A.map Bc.skel = B.map Bc.skel ∧
  ∀ (i : Nat) a b, A[i]? = some a → B[i]? = some b → a.contents.kind = .insn → a.len ≤ b.len

theorem Grown.refl (A : List (Bc M)) : Grown A A :=
  ⟨rfl, fun i a b h1 h2 _ => by rw [h1] at h2; cases h2; exact Nat.le_refl _⟩

theorem Grown.trans {A B C : List (Bc M)} (h1 : Grown A B) (h2 : Grown B C) : Grown A C := by
  refine ⟨h1.1.trans h2.1, ?_⟩
  intro i a c ha hc hk
  obtain ⟨b, hb, e⟩ := get_of_map h1.1.symm (sect_of_skel rfl ha)
  have hkb : b.contents.kind = .insn := by rw [← hk]; exact congrArg BSkel.kind e
  exact Nat.le_trans (h1.2 i a b ha hb hk) (h2.2 i b c hb hc hkb)

theorem Grown.set {B : List (Bc M)} {k : Nat} {b b' : Bc M} (h : B[k]? = some b) (hs : b'.skel = b.skel)
    (hl : b.contents.kind = .insn → b.len ≤ b'.len) : Grown B (B.set k b') := by
  refine ⟨(set_map_same h hs).symm, ?_⟩
  intro i x y hx hy hk
  rw [get_set h] at hy
  split at hy
  · rename_i e; subst e; rw [h] at hx; cases hx; cases hy; exact hl hk
  · rw [hx] at hy; cases hy; exact Nat.le_refl _

theorem updateAll_grown (B : List (Bc M)) : Grown B (updateAll B 0).1 := by
  refine ⟨(updateAll_skel B 0).symm, ?_⟩
  intro i a b ha hb hk
  have u := (updateAll_get B 0).2 i a b ha hb
  exact Nat.le_of_eq (u.len (by intro s hs; rw [hs] at hk; cases hk)).symm

/-- What `expandBc` does to a bytecode. -/
theorem expandBc_grown {mc : Machine M} {pending : M → Nat → Option Promise} {rank : M → Nat} (hok : mc.Ok pending rank)
    {b : Bc M} {s : Span} {r : Ret M} (h : expandBc mc b s = some r) :
    (∀ b', r = .done b' → b'.skel = b.skel ∧ b.len ≤ b'.len) ∧
    (∀ b' neg pos, r = .more b' neg pos → b'.skel = b.skel ∧ b.len ≤ b'.len) := by
  unfold expandBc at h
  split at h
  · cases h
    refine ⟨(by intro b' e; cases e), ?_⟩
    intro b' neg pos e; cases e; exact ⟨rfl, Nat.le_refl _⟩
  · split at h
    · rename_i m hm
      cases he : mc.expand m b.len s.id s.curVal s.newVal s.neg s.pos with
      | error e =>
        rw [he] at h; cases h
        exact ⟨(by intro b' e; cases e), (by intro b' n p e; cases e)⟩
      | ok q =>
        obtain ⟨m', n, k⟩ := q
        rw [he] at h
        have hg := hok.grow _ _ _ _ _ _ _ _ _ _ he
        cases k with
        | none =>
          cases h
          refine ⟨?_, by intro b' n p e; cases e⟩
          intro b' e; cases e; exact ⟨by simp [Bc.skel, hm, Contents.kind], hg⟩
        | some p =>
          obtain ⟨p1, p2⟩ := p
          cases h
          refine ⟨(by intro b' e; cases e), ?_⟩
          intro b' n p e; cases e; exact ⟨by simp [Bc.skel, hm, Contents.kind], hg⟩
    · cases h

theorem step1bSpan_grown {mc : Machine M} {pending : M → Nat → Option Promise} {rank : M → Nat} (hok : mc.Ok pending rank)
    {B : List (Bc M)} {s : Span} {r : List (Bc M) × Option Span × Errs} (h : step1bSpan mc B s = some r) : Grown B r.1 := by
  unfold step1bSpan at h
  split at h
  · cases h
  · rename_i b hb
    cases hc : createTerms B s with
    | none => rw [hc] at h; cases h
    | some c =>
      rw [hc] at h
      simp only [Option.bind_some] at h
      split at h
      · cases h; exact Grown.refl _
      · split at h
        · cases he : expandBc mc b (recalc c.1).1 with
          | none => rw [he] at h; cases h
          | some e =>
            rw [he] at h
            obtain ⟨g1, g2⟩ := expandBc_grown hok he
            cases e with
            | error m => cases h; exact Grown.refl _
            | done b' => cases h; exact Grown.set hb (g1 b' rfl).1 fun _ => (g1 b' rfl).2
            | more b' n p => cases h; exact Grown.set hb (g2 b' n p rfl).1 fun _ => (g2 b' n p rfl).2
        · cases h; exact Grown.refl _

theorem step1b_grown {mc : Machine M} {pending : M → Nat → Option Promise} {rank : M → Nat} (hok : mc.Ok pending rank)
    (ss : List Span) {B : List (Bc M)} {r : List (Bc M) × List Span × Errs} (h : step1b mc ss B = some r) : Grown B r.1 := by
  induction ss generalizing B r with
  | nil => simp [step1b] at h; subst h; exact Grown.refl _
  | cons s ss ih =>
    unfold step1b at h
    cases h1 : step1bSpan mc B s with
    | none => rw [h1] at h; cases h
    | some q =>
      rw [h1] at h
      simp only [Option.bind_some] at h
      cases h2 : step1b mc ss q.1 with
      | none => rw [h2] at h; cases h
      | some z =>
        rw [h2] at h
        have g := (step1bSpan_grown hok h1).trans (ih h2)
        cases h; exact g

/-! ### The measure -/

def total {α} (f : α → Nat) (l : List α) : Nat := (l.map f).sum

theorem total_set {α} (f : α → Nat) {l : List α} {i : Nat} {a : α} (b : α) (h : l[i]? = some a) :
    total f (l.set i b) + f a = total f l + f b := by
  induction l generalizing i with
  | nil => simp at h
  | cons x l ih =>
    cases i with
    | zero => simp at h; subst h; simp [total]; omega
    | succ i =>
      have := ih (i := i) (by simpa using h)
      simp only [total, List.set_cons_succ, List.map_cons, List.sum_cons] at this ⊢
      omega

/-- 1 for a span that can still be expanded. -/
def live (s : Span) : Nat := if s.active = 0 then 0 else 1

def rankBc (rank : M → Nat) (b : Bc M) : Nat :=
  match b.contents with
  | .insn m => rank m
  | _ => 0

def measure1 (rank : M → Nat) (st : St M) : Nat := total (rankBc rank) st.bcs + total live st.spans

theorem live_le (s : Span) : live s ≤ 1 := by unfold live; split <;> omega
theorem live_ne {s : Span} (h : s.active ≠ 0) : live s = 1 := by unfold live; rw [if_neg h]

/-- No span is of a repeat count. -/
def NoMult (S : List Span) : Prop := ∀ s ∈ S, s.id ≠ 0

theorem NoMult.set {S : List Span} (h : NoMult S) {i : Nat} {s s' : Span} (hs : S[i]? = some s) (e : s'.id = s.id) :
    NoMult (S.set i s') := by
  intro u hu
  obtain ⟨j, hj⟩ := List.getElem?_of_mem hu
  rw [get_set hs] at hj
  split at hj
  · cases hj; rw [e]; exact h s (List.mem_of_getElem? hs)
  · exact h u (List.mem_of_getElem? hj)

theorem termExpand_meas (d : Int) (st : St M) (r : Ref) :
    total live (termExpand d st r).spans ≤ total live st.spans ∧ (NoMult st.spans → NoMult (termExpand d st r).spans) := by
  unfold termExpand
  split
  · exact ⟨Nat.le_refl _, id⟩
  · rename_i s hs
    split
    · exact ⟨Nat.le_refl _, id⟩
    · rename_i ha
      have hl := live_ne ha
      dsimp only
      have key : ∀ s' : Span, s'.id = s.id → total live (st.spans.set r.span s') ≤ total live st.spans ∧
          (NoMult st.spans → NoMult (st.spans.set r.span s')) := by
        intro s' e
        have := total_set live s' hs
        have := live_le s'
        exact ⟨by omega, fun h => h.set hs e⟩
      split
      · exact key _ rfl
      · split
        · exact key _ rfl
        · exact key _ rfl

theorem growAcross_meas (x : Index) (k : Nat) (d : Int) (st : St M) :
    total live (growAcross x k d st).spans ≤ total live st.spans ∧
    (NoMult st.spans → NoMult (growAcross x k d st).spans) := by
  unfold growAcross
  generalize x.across k = l
  induction l generalizing st with
  | nil => exact ⟨Nat.le_refl _, id⟩
  | cons r l ih =>
    rw [List.foldl_cons]
    obtain ⟨h1, h2⟩ := ih (termExpand d st r)
    obtain ⟨h3, h4⟩ := termExpand_meas d st r
    exact ⟨Nat.le_trans h1 h3, fun h => h2 (h4 h)⟩

theorem osLoop_meas (rank : M → Nat) (x : Index) (c : Nat) (n j : Nat) (diff : Int) (st st' : St M)
    (h : osLoop x c n j diff st = some st') :
    measure1 rank st' ≤ measure1 rank st ∧ (NoMult st.spans → NoMult st'.spans) ∧ Grown st.bcs st'.bcs := by
  induction n generalizing j diff st with
  | zero => simp [osLoop] at h; subst h; exact ⟨Nat.le_refl _, id, Grown.refl _⟩
  | succ n ih =>
    unfold osLoop at h
    split at h
    · cases h; exact ⟨Nat.le_refl _, id, Grown.refl _⟩
    · rename_i o ho
      split at h
      · cases h
      · rename_i b hb
        split at h
        · cases h; exact ⟨Nat.le_refl _, id, Grown.refl _⟩
        · split at h
          · cases h
          · dsimp only at h
            split at h
            · rename_i s hs
              have step : ∀ (len : Nat) (errs : Errs) (dd : Int) (o2 : OS),
                  osLoop x c n (j + 1) dd { (if (len : Int) - b.len = 0 then
                      { st with bcs := st.bcs.set o.bc { b with len := len }, errs := st.errs ++ errs }
                    else growAcross x o.bc (len - b.len)
                      { st with bcs := st.bcs.set o.bc { b with len := len }, errs := st.errs ++ errs }) with
                    oss := (if (len : Int) - b.len = 0 then
                      { st with bcs := st.bcs.set o.bc { b with len := len }, errs := st.errs ++ errs }
                    else growAcross x o.bc (len - b.len)
                      { st with bcs := st.bcs.set o.bc { b with len := len }, errs := st.errs ++ errs }).oss.set j o2 } = some st' →
                  measure1 rank st' ≤ measure1 rank st ∧ (NoMult st.spans → NoMult st'.spans) ∧ Grown st.bcs st'.bcs := by
                intro len errs dd o2 h
                obtain ⟨h1, h2, h3⟩ := ih _ _ _ h
                dsimp only at h1 h2 h3
                have hr : total (rankBc rank) (st.bcs.set o.bc { b with len := len }) = total (rankBc rank) st.bcs := by
                  have := total_set (rankBc rank) { b with len := len } hb
                  have e : rankBc rank { b with len := len } = rankBc rank b := rfl
                  omega
                have hg : Grown st.bcs (st.bcs.set o.bc { b with len := len }) :=
                  Grown.set hb rfl (fun hk => by rw [hs] at hk; cases hk)
                split at h1
                · rename_i hz
                  rw [if_pos hz] at h2 h3
                  refine ⟨?_, h2, hg.trans h3⟩
                  refine Nat.le_trans h1 ?_
                  show total (rankBc rank) (st.bcs.set o.bc _) + total live st.spans ≤ _
                  rw [hr]; exact Nat.le_refl _
                · rename_i hz
                  rw [if_neg hz] at h2 h3
                  obtain ⟨g1, g2⟩ := growAcross_meas x o.bc (len - b.len : Int)
                    { st with bcs := st.bcs.set o.bc { b with len := len }, errs := st.errs ++ errs }
                  have gf := (growAcross_fields x o.bc (len - b.len : Int)
                    { st with bcs := st.bcs.set o.bc { b with len := len }, errs := st.errs ++ errs }).1
                  refine ⟨?_, fun hn => h2 (g2 hn), ?_⟩
                  · refine Nat.le_trans h1 ?_
                    unfold measure1
                    dsimp only at g1 gf ⊢
                    rw [gf, hr]
                    omega
                  · rw [gf] at h3; exact hg.trans h3
              cases he : s.expand (o.new + diff) with
              | ok k => rw [he] at h; exact step _ _ _ _ h
              | error e => rw [he] at h; exact step _ _ _ _ h
            · cases h

theorem finishExpand_meas (rank : M → Nat) {x : Index} {st st' : St M} {i : Nat} {s s0 : Span} {b b' : Bc M}
    (h : processSpan.finishExpand x st i s b b' = some st') (hs : st.spans[i]? = some s0) (hb : st.bcs[s.bc]? = some b)
    (hid : s.id = s0.id) (hsk : b'.skel = b.skel) (hle : b.len ≤ b'.len) :
    measure1 rank st' + rankBc rank b + live s0 ≤ measure1 rank st + rankBc rank b' + live s ∧
    (NoMult st.spans → NoMult st'.spans) ∧ Grown st.bcs st'.bcs := by
  have t1 := total_set (rankBc rank) b' hb
  have t2 := total_set live s hs
  have hg : Grown st.bcs (st.bcs.set s.bc b') := Grown.set hb hsk fun _ => hle
  unfold processSpan.finishExpand at h
  dsimp only at h
  split at h
  · cases h
    refine ⟨?_, fun hn => hn.set hs hid, hg⟩
    show total _ (st.bcs.set s.bc b') + total live (st.spans.set i s) + _ + _ ≤ total _ st.bcs + total live st.spans + _ + _
    omega
  · obtain ⟨h1, h2, h3⟩ := osLoop_meas rank _ _ _ _ _ _ _ h
    obtain ⟨g1, g2⟩ := growAcross_meas x s.bc (b'.size - b.size)
      { st with spans := st.spans.set i s, bcs := st.bcs.set s.bc b' }
    have gf := (growAcross_fields x s.bc (b'.size - b.size)
      { st with spans := st.spans.set i s, bcs := st.bcs.set s.bc b' }).1
    refine ⟨?_, fun hn => h2 (g2 (hn.set hs hid)), ?_⟩
    · have h4 : measure1 rank (growAcross x s.bc (b'.size - b.size)
          { st with spans := st.spans.set i s, bcs := st.bcs.set s.bc b' }) ≤
          total (rankBc rank) (st.bcs.set s.bc b') + total live (st.spans.set i s) := by
        unfold measure1
        dsimp only at g1 gf ⊢
        rw [gf]; omega
      have h5 := Nat.le_trans h1 h4
      have : measure1 rank st = total (rankBc rank) st.bcs + total live st.spans := rfl
      omega
    · rw [gf] at h3; exact hg.trans h3

theorem processSpan_meas {mc : Machine M} {pending : M → Nat → Option Promise} {rank : M → Nat} (hok : mc.Ok pending rank)
    {x : Index} {st st' : St M} {i : Nat} (hn : NoMult st.spans) (h : processSpan mc x st i = some st') :
    (measure1 rank st' < measure1 rank st ∨ measure1 rank st' ≤ measure1 rank st ∧ st'.qa = st.qa ∧ st'.qb = st.qb) ∧
    NoMult st'.spans ∧ Grown st.bcs st'.bcs := by
  unfold processSpan at h
  split at h
  · cases h
  · rename_i s hs
    split at h
    · cases h; exact ⟨Or.inr ⟨Nat.le_refl _, rfl, rfl⟩, hn, Grown.refl _⟩
    · rename_i ha
      dsimp only at h
      have hlive := live_ne ha
      have t2 := total_set live (recalc { s with active := 1 }).1 hs
      have hl2 := live_le (recalc { s with active := 1 }).1
      have hs2 : (st.spans.set i (recalc { s with active := 1 }).1)[i]? = some (recalc { s with active := 1 }).1 := by
        rw [get_set hs, if_pos rfl]
      have hn2 : NoMult (st.spans.set i (recalc { s with active := 1 }).1) := hn.set hs rfl
      have hid : (recalc { s with active := 1 }).1.id ≠ 0 := hn s (List.mem_of_getElem? hs)
      split at h
      · split at h
        · cases h
        · rename_i b hb
          cases he : expandBc mc b (recalc { s with active := 1 }).1 with
          | none => rw [he] at h; cases h
          | some r =>
            rw [he] at h
            obtain ⟨g1, g2⟩ := expandBc_grown hok he
            unfold expandBc at he
            rw [if_neg hid] at he
            cases hc : b.contents with
            | empty => rw [hc] at he; cases he
            | setter z => rw [hc] at he; cases he
            | insn m =>
              rw [hc] at he
              dsimp only at he
              revert he
              cases hx : mc.expand m b.len (recalc { s with active := 1 }).1.id (recalc { s with active := 1 }).1.curVal
                  (recalc { s with active := 1 }).1.newVal (recalc { s with active := 1 }).1.neg
                  (recalc { s with active := 1 }).1.pos with
              | error e =>
                intro he; cases he
                cases h
                refine ⟨Or.inr ⟨?_, rfl, rfl⟩, hn2, Grown.refl _⟩
                show total _ st.bcs + total live (st.spans.set i _) ≤ total _ st.bcs + total live _
                omega
              | ok q =>
                obtain ⟨m', n, k⟩ := q
                cases k with
                | none =>
                  intro he; cases he
                  simp only [Option.bind_some] at h
                  obtain ⟨_, _, hr⟩ := hok.done _ _ _ _ _ _ _ _ _ hx
                  obtain ⟨f1, f2, f3⟩ := finishExpand_meas rank h hs2 hb rfl (g1 _ rfl).1 (g1 _ rfl).2
                  refine ⟨Or.inl ?_, f2 hn2, f3⟩
                  have e1 : rankBc rank b = rank m := by unfold rankBc; rw [hc]
                  have e2 : rankBc rank { b with contents := .insn m', len := n } = rank m' := rfl
                  have e3 : live { (recalc { s with active := 1 }).1 with active := 0 } = 0 := rfl
                  have e4 : measure1 rank { st with spans := st.spans.set i (recalc { s with active := 1 }).1 } =
                    total (rankBc rank) st.bcs + total live (st.spans.set i (recalc { s with active := 1 }).1) := rfl
                  have e5 : measure1 rank st = total (rankBc rank) st.bcs + total live st.spans := rfl
                  dsimp only at e3 f1
                  omega
                | some np =>
                  obtain ⟨neg', pos'⟩ := np
                  intro he; cases he
                  simp only [Option.bind_some] at h
                  obtain ⟨_, _, _, _, hr⟩ := hok.more _ _ _ _ _ _ _ _ _ _ _ hx
                  obtain ⟨f1, f2, f3⟩ := finishExpand_meas rank h hs2 hb rfl (g2 _ _ _ rfl).1 (g2 _ _ _ rfl).2
                  refine ⟨Or.inl ?_, f2 hn2, f3⟩
                  have e1 : rankBc rank b = rank m := by unfold rankBc; rw [hc]
                  have e2 : rankBc rank { b with contents := .insn m', len := n } = rank m' := rfl
                  have e3 : live { (recalc { s with active := 1 }).1 with
                      curVal := (recalc { s with active := 1 }).1.newVal
                      terms := (recalc { s with active := 1 }).1.terms.map fun t => { t with curVal := t.newVal }
                      neg := neg'
                      pos := pos' } = live (recalc { s with active := 1 }).1 := rfl
                  have e4 : measure1 rank { st with spans := st.spans.set i (recalc { s with active := 1 }).1 } =
                    total (rankBc rank) st.bcs + total live (st.spans.set i (recalc { s with active := 1 }).1) := rfl
                  have e5 : measure1 rank st = total (rankBc rank) st.bcs + total live st.spans := rfl
                  dsimp only at e3 f1
                  omega
      · cases h
        refine ⟨Or.inr ⟨?_, rfl, rfl⟩, hn2, Grown.refl _⟩
        show total _ st.bcs + total live (st.spans.set i _) ≤ total _ st.bcs + total live _
        omega

/-- Without repeat counts that depend on labels, the main loop ends. -/
theorem loop_ends {mc : Machine M} {pending : M → Nat → Option Promise} {rank : M → Nat} (hok : mc.Ok pending rank)
    (x : Index) (a : Nat) : ∀ (n : Nat) (st : St M), NoMult st.spans → measure1 rank st ≤ a → st.qa.length + st.qb.length ≤ n →
      ∃ r, r ≠ .fuel ∧ ∃ N, ∀ k, N ≤ k → loop mc x k st = r := by
  induction a with
  | zero =>
    intro n
    induction n with
    | zero =>
      intro st hn hm hq
      refine ⟨.done st, by simp, 0, ?_⟩
      intro k _
      have h1 : st.qa = [] := List.length_eq_zero_iff.mp (by omega)
      have h2 : st.qb = [] := List.length_eq_zero_iff.mp (by omega)
      cases k <;> (unfold loop; rw [h1, h2])
    | succ n ih =>
      intro st hn hm hq
      exact loop_step ih (by intro _ _ _ h; omega) st hn hm hq
  | succ a iha =>
    intro n
    induction n with
    | zero =>
      intro st hn hm hq
      refine ⟨.done st, by simp, 0, ?_⟩
      intro k _
      have h1 : st.qa = [] := List.length_eq_zero_iff.mp (by omega)
      have h2 : st.qb = [] := List.length_eq_zero_iff.mp (by omega)
      cases k <;> (unfold loop; rw [h1, h2])
    | succ n ih =>
      intro st hn hm hq
      exact loop_step ih (fun m st' h1 h2 => iha m st' h1 (by omega)) st hn hm hq
where
  loop_step {a n : Nat} (ih : ∀ st : St M, NoMult st.spans → measure1 rank st ≤ a → st.qa.length + st.qb.length ≤ n →
        ∃ r, r ≠ .fuel ∧ ∃ N, ∀ k, N ≤ k → loop mc x k st = r)
      (iha : ∀ (m : Nat) (st : St M), NoMult st.spans → measure1 rank st < a → st.qa.length + st.qb.length ≤ m →
        ∃ r, r ≠ .fuel ∧ ∃ N, ∀ k, N ≤ k → loop mc x k st = r) (st : St M) (hn : NoMult st.spans)
      (hm : measure1 rank st ≤ a) (hq : st.qa.length + st.qb.length ≤ n + 1) :
      ∃ r, r ≠ .fuel ∧ ∃ N, ∀ k, N ≤ k → loop mc x k st = r := by
    have go : ∀ (st1 : St M) (i : Nat), NoMult st1.spans → measure1 rank st1 = measure1 rank st →
        st1.qa.length + st1.qb.length ≤ n →
        ∃ r, r ≠ Loop.fuel ∧ ∃ N, ∀ k, N ≤ k → (match processSpan mc x st1 i with
          | some st' => loop mc x k st'
          | none => .fault) = r := by
      intro st1 i h1 h2 h3
      cases hp : processSpan mc x st1 i with
      | none => exact ⟨.fault, by simp, 0, fun _ _ => rfl⟩
      | some st' =>
        obtain ⟨g1, g2, _⟩ := processSpan_meas hok h1 hp
        rcases g1 with g1 | ⟨g1, g3, g4⟩
        · exact iha _ st' g2 (by omega) (Nat.le_refl _)
        · exact ih st' g2 (by omega) (by rw [g3, g4]; exact h3)
    cases hqa : st.qa with
    | nil =>
      cases hqb : st.qb with
      | nil =>
        refine ⟨.done st, by simp, 0, ?_⟩
        intro k _
        cases k <;> (unfold loop; rw [hqa, hqb])
      | cons i q =>
        obtain ⟨r, h1, N, h2⟩ := go { st with qb := q } i hn rfl (by rw [hqa, hqb] at hq; simp at hq; simp [hqa]; omega)
        refine ⟨r, h1, N + 1, ?_⟩
        intro k hk
        obtain ⟨k, rfl⟩ : ∃ j, k = j + 1 := ⟨k - 1, by omega⟩
        have := h2 k (by omega)
        obtain ⟨B, S, O, qa, qb, E, w⟩ := st
        simp only at hqa hqb
        subst hqa; subst hqb
        unfold loop
        exact this
    | cons i q =>
      obtain ⟨r, h1, N, h2⟩ := go { st with qa := q } i hn rfl (by rw [hqa] at hq; simp at hq; simp; omega)
      refine ⟨r, h1, N + 1, ?_⟩
      intro k hk
      obtain ⟨k, rfl⟩ : ∃ j, k = j + 1 := ⟨k - 1, by omega⟩
      have := h2 k (by omega)
      unfold loop; rw [hqa]
      exact this

/-! ### The whole optimizer -/

theorem step1a_ids {mc : Machine M} {pending : M → Nat → Option Promise} {rank : M → Nat} (hok : mc.Ok pending rank)
    (bcs : List (Bc M)) (hd : ∀ b ∈ bcs, ∀ v, b.mult ≠ .dep v) (i : Nat) (off : Int) (nos : Nat) :
    NoMult (step1a mc bcs i off nos).spans := by
  induction bcs generalizing i off nos with
  | nil => intro s hs; simp [step1a] at hs
  | cons b bs ih =>
    have ih := ih fun b hb => hd b (List.mem_cons_of_mem _ hb)
    have hb := hd b (by simp)
    have sp : ∀ (b0 : Bc M), b0.mult = b.mult → ∀ s ∈ ((calcBc mc b0).2.1).map (mkSpan i nos), s.id ≠ 0 := by
      intro b0 hm s hs
      obtain ⟨d, h1, h2⟩ := List.mem_map.mp hs
      subst h2
      show d.id ≠ 0
      rcases List.mem_append.mp h1 with e | e
      · have e : d ∈ (calcContents mc b0.contents b0.offset).2.2.1 := e
        unfold calcContents at e
        split at e
        · simp at e
        · split at e <;> simp at e
        · split at e
          · rename_i hc
            have := (hok.reports _ _ _ _ hc).2.2 d e
            omega
          · simp at e
      · have e : d ∈ (calcMult b0.mult).2.1 := e
        unfold calcMult at e
        split at e
        · simp at e
        · split at e <;> simp at e
        · simp at e
        · rename_i v hv; exact absurd (hm.symm.trans hv) (hb v)
    unfold step1a
    split
    · exact ih _ _ _
    · dsimp only
      split
      · intro s hs
        rcases List.mem_append.mp hs with e | e
        · exact sp { b with offset := off } rfl s e
        · exact ih _ _ _ s e
      · split
        · intro s hs
          rcases List.mem_append.mp hs with e | e
          · exact sp { b with offset := off } rfl s e
          · exact ih _ _ _ s e
        · intro s hs
          rcases List.mem_append.mp hs with e | e
          · exact sp { b with offset := off } rfl s e
          · exact ih _ _ _ s e

theorem createTerms_id {B : List (Bc M)} {s : Span} {c : Span × Bool} (h : createTerms B s = some c) : c.1.id = s.id := by
  unfold createTerms at h
  cases ha : absTerms B s.val.pairs with
  | none => rw [ha] at h; cases h
  | some ts =>
    rw [ha] at h
    cases hr : relTerm B s.bc s.val.rel with
    | none => rw [hr] at h; cases h
    | some rs => rw [hr] at h; cases h; rfl

theorem step1b_ids {mc : Machine M} (ss : List Span) {B : List (Bc M)} {r : List (Bc M) × List Span × Errs} (hn : NoMult ss)
    (h : step1b mc ss B = some r) : NoMult r.2.1 := by
  induction ss generalizing B r with
  | nil => simp [step1b] at h; subst h; intro s hs; simp at hs
  | cons s ss ih =>
    unfold step1b at h
    cases h1 : step1bSpan mc B s with
    | none => rw [h1] at h; cases h
    | some q =>
      rw [h1] at h
      simp only [Option.bind_some] at h
      cases h2 : step1b mc ss q.1 with
      | none => rw [h2] at h; cases h
      | some z =>
        rw [h2] at h
        have hz := ih (fun s hs => hn s (List.mem_cons_of_mem _ hs)) h2
        have hq : ∀ u ∈ q.2.1.toList, u.id ≠ 0 := by
          have hs := hn s (by simp)
          unfold step1bSpan at h1
          split at h1
          · cases h1
          · cases hc : createTerms B s with
            | none => rw [hc] at h1; cases h1
            | some c =>
              rw [hc] at h1
              have hid := createTerms_id hc
              simp only [Option.bind_some] at h1
              split at h1
              · cases h1; intro u hu; simp at hu; subst hu; show c.1.id ≠ 0; rw [hid]; exact hs
              · split at h1
                · rename_i b hb _ _
                  cases he : expandBc mc b (recalc c.1).1 with
                  | none => rw [he] at h1; cases h1
                  | some e =>
                    rw [he] at h1
                    cases e with
                    | error m => cases h1; intro u hu; simp at hu; subst hu; show c.1.id ≠ 0; rw [hid]; exact hs
                    | done b' => cases h1; intro u hu; simp at hu
                    | more b' n p => cases h1; intro u hu; simp at hu; subst hu; show c.1.id ≠ 0; rw [hid]; exact hs
                · cases h1; intro u hu; simp at hu; subst hu; show c.1.id ≠ 0; rw [hid]; exact hs
        cases h
        intro u hu
        rcases List.mem_append.mp hu with e | e
        · exact hq u e
        · exact hz u e

theorem step1d_ids {B : List (Bc M)} (ss : List Span) {i : Nat} {S : List Span} {q : List Nat} (hn : NoMult ss)
    (h : step1d B ss i = some (S, q)) : NoMult S := by
  intro s hs
  obtain ⟨j, hj⟩ := List.getElem?_of_mem hs
  obtain ⟨s0, r, h1, h2, _⟩ := (step1d_get ss h).2 j s hj
  have h3 := hn s0 (List.mem_of_getElem? h1)
  unfold step1dSpan at h2
  cases hr : refreshTerms B s0.bc s0.nabs s0.terms with
  | none => rw [hr] at h2; cases h2
  | some ts =>
    rw [hr] at h2
    simp only [Option.map_some, Option.some.injEq] at h2
    split at h2
    · simp only [Prod.mk.injEq] at h2; rw [← h2.1]; exact h3
    · simp only [Prod.mk.injEq] at h2; rw [← h2.1]; exact h3

theorem optimize_ends {mc : Machine M} {pending : M → Nat → Option Promise} {rank : M → Nat} (hok : mc.Ok pending rank)
    (bcs : List (Bc M)) (hd : ∀ b ∈ bcs, ∀ v, b.mult ≠ .dep v) :
    ∃ r, r ≠ .fuel ∧ ∃ N, ∀ k, N ≤ k → optimize mc k bcs = r := by
  unfold optimize
  dsimp only
  split
  · exact ⟨_, by simp, 0, fun _ _ => rfl⟩
  · split
    · exact ⟨_, by simp, 0, fun _ _ => rfl⟩
    · rename_i B1 S1 errs1 hb
      split
      · exact ⟨_, by simp, 0, fun _ _ => rfl⟩
      · split
        · exact ⟨_, by simp, 0, fun _ _ => rfl⟩
        · split
          · exact ⟨_, by simp, 0, fun _ _ => rfl⟩
          · rename_i S2 qb hdd
            split
            · exact ⟨_, by simp, 0, fun _ _ => rfl⟩
            · have hn : NoMult S2 := step1d_ids _ (step1b_ids _ (step1a_ids hok bcs hd 0 0 0) hb) hdd
              unfold step2
              dsimp only
              split
              · exact ⟨_, by simp, 0, fun _ _ => rfl⟩
              · rename_i t ht
                split
                · exact ⟨_, by simp, 0, fun _ _ => rfl⟩
                · have hsame := checkCycles_same (updateAll B1 0).1 ⟨t, (allRefs S2 0).map (·.1)⟩ (List.range S2.length) S2
                  have hn3 : NoMult (checkCycles (updateAll B1 0).1 ⟨t, (allRefs S2 0).map (·.1)⟩ (List.range S2.length) S2).1 := by
                    intro s hs
                    obtain ⟨j, hj⟩ := List.getElem?_of_mem hs
                    obtain ⟨bt, h1⟩ := hsame.get hj
                    have := hn _ (List.mem_of_getElem? h1)
                    exact this
                  obtain ⟨r, h1, N, h2⟩ := loop_ends hok ⟨t, (allRefs S2 0).map (·.1)⟩ _ _
                    ⟨(updateAll B1 0).1, (checkCycles (updateAll B1 0).1 ⟨t, (allRefs S2 0).map (·.1)⟩ (List.range S2.length) S2).1,
                      refreshOS (updateAll B1 0).1 (step1a mc bcs 0 0 0).oss, [], qb, [], false⟩ hn3 (Nat.le_refl _) (Nat.le_refl _)
                  cases r with
                  | fuel => exact absurd rfl h1
                  | fault => exact ⟨.fault, by simp, N, fun k hk => by rw [h2 k hk]⟩
                  | done st =>
                    refine ⟨if st.saw then .ret st.bcs st.errs else .ret (updateAll st.bcs 0).1 (st.errs ++ (updateAll st.bcs 0).2),
                      by split <;> simp, N, fun k hk => by rw [h2 k hk]⟩

/-- No instruction is shorter at the end than `calc_len` made it. -/
theorem loop_grown {mc : Machine M} {pending : M → Nat → Option Promise} {rank : M → Nat} (hok : mc.Ok pending rank)
    (x : Index) (n : Nat) {st st' : St M} (h : loop mc x n st = .done st') : Grown st.bcs st'.bcs := by
  have step : ∀ {st st' : St M} {i : Nat}, processSpan mc x st i = some st' → Grown st.bcs st'.bcs := by
    intro st st' i h
    unfold processSpan at h
    split at h
    · cases h
    · rename_i s hs
      split at h
      · cases h; exact Grown.refl _
      · dsimp only at h
        have hs2 : (st.spans.set i (recalc { s with active := 1 }).1)[i]? = some (recalc { s with active := 1 }).1 := by
          rw [get_set hs, if_pos rfl]
        split at h
        · split at h
          · cases h
          · rename_i b hb
            cases he : expandBc mc b (recalc { s with active := 1 }).1 with
            | none => rw [he] at h; cases h
            | some r =>
              rw [he] at h
              obtain ⟨g1, g2⟩ := expandBc_grown hok he
              cases r with
              | error m => cases h; exact Grown.refl _
              | done b' =>
                simp only [Option.bind_some] at h
                exact (finishExpand_meas rank h hs2 hb rfl (g1 _ rfl).1 (g1 _ rfl).2).2.2
              | more b' n p =>
                simp only [Option.bind_some] at h
                exact (finishExpand_meas rank h hs2 hb rfl (g2 _ _ _ rfl).1 (g2 _ _ _ rfl).2).2.2
        · cases h; exact Grown.refl _
  induction n generalizing st with
  | zero =>
    unfold loop at h
    split at h
    · cases h; exact Grown.refl _
    · cases h
  | succ n ih =>
    unfold loop at h
    split at h
    · cases h; exact Grown.refl _
    · split at h
      · rename_i st2 h2; exact (step h2).trans (ih h)
      · cases h
    · split at h
      · rename_i st2 h2; exact (step h2).trans (ih h)
      · cases h

theorem optimize_grown {mc : Machine M} {pending : M → Nat → Option Promise} {rank : M → Nat} (hok : mc.Ok pending rank)
    {bcs : List (Bc M)} {fuel : Nat} {B : List (Bc M)} {errs : Errs} (h : optimize mc fuel bcs = .ret B errs) :
    Grown (step1a mc bcs 0 0 0).bcs B := by
  unfold optimize at h
  dsimp only at h
  split at h
  · cases h; exact Grown.refl _
  · split at h
    · cases h
    · rename_i B1 S1 errs1 hb
      have g1 := step1b_grown hok _ hb
      split at h
      · cases h; exact g1
      · have g2 := g1.trans (updateAll_grown B1)
        split at h
        · cases h; exact g2
        · split at h
          · cases h
          · rename_i S2 qb hd
            split at h
            · cases h; exact g2
            · unfold step2 at h
              dsimp only at h
              split at h
              · cases h
              · split at h
                · cases h; exact g2
                · split at h
                  · cases h
                  · cases h
                  · rename_i st hl
                    have g3 := g2.trans (loop_grown hok _ fuel hl)
                    split at h
                    · cases h; exact g3
                    · cases h; exact g3.trans (updateAll_grown _)

end Verif.Optimize
