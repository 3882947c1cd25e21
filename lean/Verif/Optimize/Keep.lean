import Verif.Optimize.Final
/-
A relation between what a bytecode contained, what it contains and its length that the callbacks maintain
holds of the optimizer's result.
-/
set_option linter.unusedVariables false
set_option linter.unusedSimpArgs false
namespace Verif.Optimize

variable {M : Type}

/-- `calc_len` of `m0` asks for a span `id`. -/
def Reports (mc : Machine M) (m0 : M) (id : Nat) : Prop :=
  ∃ m n ds, mc.calcLen m0 = .ok (m, n, ds) ∧ ∃ d ∈ ds, d.id = id

/-- The callbacks maintain `P` between the original contents, the contents and the length; `expand` is called
    only for a span that `calc_len` asked for. -/
structure Keeps (mc : Machine M) (P : M → M → Nat → Prop) : Prop where
  calcs : ∀ m0 m n ds, mc.calcLen m0 = .ok (m, n, ds) → P m0 m n
  expand : ∀ m0 m len id old new neg pos m' n k, Reports mc m0 id → P m0 m len →
    mc.expand m len id old new neg pos = .ok (m', n, k) → P m0 m' n

/-- Every instruction of `B` is related to the one at the same place in `A`. -/
def AllP (P : M → M → Nat → Prop) (A B : List (Bc M)) : Prop :=
  ∀ (i : Nat) b m, B[i]? = some b → b.contents = .insn m →
    ∃ a m0, A[i]? = some a ∧ a.contents = .insn m0 ∧ P m0 m b.len

/-- Every instruction span was asked for. -/
def Asked (mc : Machine M) (A : List (Bc M)) (i id : Nat) : Prop :=
  id ≠ 0 → ∃ a m0, A[i]? = some a ∧ a.contents = .insn m0 ∧ Reports mc m0 id

def AllS (Q : Nat → Nat → Prop) (S : List Span) : Prop := ∀ s ∈ S, Q s.bc s.id

theorem AllS.set {Q : Nat → Nat → Prop} {S : List Span} (h : AllS Q S) {i : Nat} {s s' : Span} (hs : S[i]? = some s)
    (e1 : s'.bc = s.bc) (e2 : s'.id = s.id) : AllS Q (S.set i s') := by
  intro u hu
  obtain ⟨j, hj⟩ := List.getElem?_of_mem hu
  rw [get_set hs] at hj
  split at hj
  · cases hj; rw [e1, e2]; exact h s (List.mem_of_getElem? hs)
  · exact h u (List.mem_of_getElem? hj)

theorem termExpand_allS {Q : Nat → Nat → Prop} (d : Int) (st : St M) (r : Ref) (h : AllS Q st.spans) :
    AllS Q (termExpand d st r).spans := by
  unfold termExpand
  split
  · exact h
  · rename_i s hs
    split
    · exact h
    · dsimp only
      split
      · exact h.set hs rfl rfl
      · split
        · exact h.set hs rfl rfl
        · exact h.set hs rfl rfl

theorem growAcross_allS {Q : Nat → Nat → Prop} (x : Index) (k : Nat) (d : Int) (st : St M) (h : AllS Q st.spans) :
    AllS Q (growAcross x k d st).spans := by
  unfold growAcross
  generalize x.across k = l
  induction l generalizing st with
  | nil => exact h
  | cons r l ih => rw [List.foldl_cons]; exact ih _ (termExpand_allS d st r h)

theorem AllP.set {P : M → M → Nat → Prop} {A B : List (Bc M)} (h : AllP P A B) (k : Nat) {b' : Bc M}
    (hb : ∀ m, b'.contents = .insn m → ∃ a m0, A[k]? = some a ∧ a.contents = .insn m0 ∧ P m0 m b'.len) :
    AllP P A (B.set k b') := by
  intro i x m hx hm
  rw [List.getElem?_set] at hx
  split at hx
  · rename_i e
    split at hx
    · cases hx; subst e; exact hb m hm
    · cases hx
  · exact h i x m hx hm

theorem updateAll_allP {P : M → M → Nat → Prop} {A B : List (Bc M)} (h : AllP P A B) : AllP P A (updateAll B 0).1 := by
  intro i x m hi hm
  obtain ⟨b1, h1, h2⟩ := get_of_map (updateAll_skel B 0).symm (sect_of_skel rfl hi)
  have u := (updateAll_get B 0).2 i b1 x h1 hi
  rw [u.contents] at hm
  rw [u.len (by intro s hs; rw [hs] at hm; cases hm)]
  exact h i b1 m h1 hm

theorem expandBc_P {mc : Machine M} {P : M → M → Nat → Prop} (hk : Keeps mc P) {A B : List (Bc M)} (hB : AllP P A B)
    {b : Bc M} {s : Span} (hb : B[s.bc]? = some b) (hs : Asked mc A s.bc s.id) {r : Ret M} (h : expandBc mc b s = some r) :
    (∀ b', r = .done b' → ∀ m, b'.contents = .insn m → ∃ a m0, A[s.bc]? = some a ∧ a.contents = .insn m0 ∧ P m0 m b'.len) ∧
    (∀ b' neg pos, r = .more b' neg pos → ∀ m, b'.contents = .insn m →
      ∃ a m0, A[s.bc]? = some a ∧ a.contents = .insn m0 ∧ P m0 m b'.len) := by
  unfold expandBc at h
  split at h
  · cases h
    refine ⟨(by intro b' e; cases e), ?_⟩
    intro b' neg pos e m hm; cases e; have := hB s.bc b m hb hm; exact this
  · rename_i hid
    obtain ⟨a0, mm, ha0, ha1, hrep⟩ := hs hid
    split at h
    · rename_i m0 hm0
      obtain ⟨a, mo, ha, hao, h0⟩ := hB _ _ m0 hb hm0
      rw [ha0] at ha; cases ha; rw [ha1] at hao; cases hao
      cases he : mc.expand m0 b.len s.id s.curVal s.newVal s.neg s.pos with
      | error e =>
        rw [he] at h; cases h
        exact ⟨(by intro b' e; cases e), (by intro b' n p e; cases e)⟩
      | ok q =>
        obtain ⟨m', n, k⟩ := q
        rw [he] at h
        have hg := hk.expand _ _ _ _ _ _ _ _ _ _ _ hrep h0 he
        cases k with
        | none =>
          cases h
          refine ⟨?_, by intro b' n p e; cases e⟩
          intro b' e m hm; cases e; simp only [Contents.insn.injEq] at hm; subst hm; exact ⟨_, _, ha0, ha1, hg⟩
        | some p =>
          obtain ⟨p1, p2⟩ := p
          cases h
          refine ⟨(by intro b' e; cases e), ?_⟩
          intro b' n p e m hm; cases e; simp only [Contents.insn.injEq] at hm; subst hm; exact ⟨_, _, ha0, ha1, hg⟩
    · cases h

theorem createTerms_key {B : List (Bc M)} {s : Span} {c : Span × Bool} (h : createTerms B s = some c) :
    c.1.bc = s.bc ∧ c.1.id = s.id := by
  unfold createTerms at h
  cases ha : absTerms B s.val.pairs with
  | none => rw [ha] at h; cases h
  | some ts =>
    rw [ha] at h
    cases hr : relTerm B s.bc s.val.rel with
    | none => rw [hr] at h; cases h
    | some rs => rw [hr] at h; cases h; exact ⟨rfl, rfl⟩

theorem step1bSpan_allP {mc : Machine M} {P : M → M → Nat → Prop} (hk : Keeps mc P) {A B : List (Bc M)} (hB : AllP P A B)
    {s : Span} (hs : Asked mc A s.bc s.id)
    {r : List (Bc M) × Option Span × Errs} (h : step1bSpan mc B s = some r) :
    AllP P A r.1 ∧ ∀ u ∈ r.2.1.toList, u.bc = s.bc ∧ u.id = s.id := by
  unfold step1bSpan at h
  split at h
  · cases h
  · rename_i b hb
    cases hc : createTerms B s with
    | none => rw [hc] at h; cases h
    | some c =>
      rw [hc] at h
      obtain ⟨k1, k2⟩ := createTerms_key hc
      have kk : ∀ u ∈ [c.1], u.bc = s.bc ∧ u.id = s.id := by intro u hu; simp at hu; subst hu; exact ⟨k1, k2⟩
      simp only [Option.bind_some] at h
      split at h
      · cases h; refine ⟨hB, ?_⟩; intro u hu; simp at hu; subst hu; exact ⟨k1, k2⟩
      · split at h
        · cases he : expandBc mc b (recalc c.1).1 with
          | none => rw [he] at h; cases h
          | some e =>
            rw [he] at h
            have e1 : (recalc c.1).1.bc = s.bc := k1
            have e2 : (recalc c.1).1.id = s.id := k2
            obtain ⟨g1, g2⟩ := expandBc_P hk hB (by rw [e1]; exact hb) (by rw [e1, e2]; exact hs) he
            rw [e1] at g1 g2
            cases e with
            | error m => cases h; refine ⟨hB, ?_⟩; intro u hu; simp at hu; subst hu; exact ⟨k1, k2⟩
            | done b' => cases h; exact ⟨hB.set _ (g1 b' rfl), by intro u hu; simp at hu⟩
            | more b' n p => cases h; refine ⟨hB.set _ (g2 b' n p rfl), ?_⟩; intro u hu; simp at hu; subst hu; exact ⟨k1, k2⟩
        · cases h; refine ⟨hB, ?_⟩; intro u hu; simp at hu; subst hu; exact ⟨k1, k2⟩

theorem step1b_allP {mc : Machine M} {P : M → M → Nat → Prop} (hk : Keeps mc P) {A : List (Bc M)}
    (ss : List Span) {B : List (Bc M)} (hB : AllP P A B) (hs : AllS (Asked mc A) ss)
    {r : List (Bc M) × List Span × Errs} (h : step1b mc ss B = some r) :
    AllP P A r.1 ∧ AllS (Asked mc A) r.2.1 := by
  induction ss generalizing B r with
  | nil => simp [step1b] at h; subst h; exact ⟨hB, hs⟩
  | cons s ss ih =>
    unfold step1b at h
    cases h1 : step1bSpan mc B s with
    | none => rw [h1] at h; cases h
    | some q =>
      rw [h1] at h
      simp only [Option.bind_some] at h
      cases h2 : step1b mc ss q.1 with
      | none => rw [h2] at h; cases h
      | some z =>
        rw [h2] at h
        obtain ⟨g, g'⟩ := step1bSpan_allP hk hB (hs s (by simp)) h1
        obtain ⟨g1, g2⟩ := ih g (fun u hu => hs u (List.mem_cons_of_mem _ hu)) h2
        cases h
        refine ⟨g1, ?_⟩
        intro u hu
        rcases List.mem_append.mp hu with e | e
        · obtain ⟨e1, e2⟩ := g' u e
          rw [e1, e2]; exact hs s (by simp)
        · exact g2 u e

theorem step1d_allS {Q : Nat → Nat → Prop} {B : List (Bc M)} (ss : List Span) {i : Nat} {S : List Span} {q : List Nat}
    (hn : AllS Q ss) (h : step1d B ss i = some (S, q)) : AllS Q S := by
  intro s hs
  obtain ⟨j, hj⟩ := List.getElem?_of_mem hs
  obtain ⟨s0, r, h1, h2, _⟩ := (step1d_get ss h).2 j s hj
  have h3 := hn s0 (List.mem_of_getElem? h1)
  unfold step1dSpan at h2
  cases hr : refreshTerms B s0.bc s0.nabs s0.terms with
  | none => rw [hr] at h2; cases h2
  | some ts =>
    rw [hr] at h2
    simp only [Option.map_some, Option.some.injEq] at h2
    split at h2
    · simp only [Prod.mk.injEq] at h2; rw [← h2.1]; exact h3
    · simp only [Prod.mk.injEq] at h2; rw [← h2.1]; exact h3

theorem osLoop_allP {P : M → M → Nat → Prop} {Q : Nat → Nat → Prop} {A : List (Bc M)} (x : Index) (c : Nat) (n j : Nat)
    (diff : Int) (st st' : St M) (hB : AllP P A st.bcs) (hS : AllS Q st.spans)
    (h : osLoop x c n j diff st = some st') : AllP P A st'.bcs ∧ AllS Q st'.spans := by
  induction n generalizing j diff st with
  | zero => simp [osLoop] at h; subst h; exact ⟨hB, hS⟩
  | succ n ih =>
    unfold osLoop at h
    split at h
    · cases h; exact ⟨hB, hS⟩
    · rename_i o ho
      split at h
      · cases h
      · rename_i b hb
        split at h
        · cases h; exact ⟨hB, hS⟩
        · split at h
          · cases h
          · dsimp only at h
            split at h
            · rename_i s hs
              have hset : ∀ len : Nat, AllP P A (st.bcs.set o.bc { b with len := len }) := by
                intro len
                exact hB.set _ (fun m hm => by simp only [hs] at hm; cases hm)
              refine ih _ _ _ ?_ ?_ h
              · dsimp only
                cases he : s.expand (o.new + diff) with
                | ok k =>
                  dsimp only
                  split
                  · exact hset _
                  · rw [(growAcross_fields _ _ _ _).1]; exact hset _
                | error e =>
                  dsimp only
                  split
                  · exact hset _
                  · rw [(growAcross_fields _ _ _ _).1]; exact hset _
              · dsimp only
                cases he : s.expand (o.new + diff) with
                | ok k =>
                  dsimp only
                  split
                  · exact hS
                  · exact growAcross_allS _ _ _ _ hS
                | error e =>
                  dsimp only
                  split
                  · exact hS
                  · exact growAcross_allS _ _ _ _ hS
            · cases h

theorem processSpan_allP {mc : Machine M} {P : M → M → Nat → Prop} (hk : Keeps mc P) {A : List (Bc M)} {x : Index}
    {st st' : St M} {i : Nat} (hB : AllP P A st.bcs) (hS : AllS (Asked mc A) st.spans)
    (h : processSpan mc x st i = some st') : AllP P A st'.bcs ∧ AllS (Asked mc A) st'.spans := by
  have fin : ∀ {st st' : St M} {i : Nat} {s s0 : Span} {b b' : Bc M}, AllP P A st.bcs → AllS (Asked mc A) st.spans →
      st.spans[i]? = some s0 → s.bc = s0.bc → s.id = s0.id →
      (∀ m, b'.contents = .insn m → ∃ a m0, A[s.bc]? = some a ∧ a.contents = .insn m0 ∧ P m0 m b'.len) →
      processSpan.finishExpand x st i s b b' = some st' → AllP P A st'.bcs ∧ AllS (Asked mc A) st'.spans := by
    intro st st' i s s0 b b' hB hS h0 e1 e2 hb' h
    unfold processSpan.finishExpand at h
    dsimp only at h
    split at h
    · cases h; exact ⟨hB.set _ hb', hS.set h0 e1 e2⟩
    · refine osLoop_allP _ _ _ _ _ _ _ ?_ ?_ h
      · rw [(growAcross_fields _ _ _ _).1]
        exact hB.set _ hb'
      · exact growAcross_allS _ _ _ _ (hS.set h0 e1 e2)
  unfold processSpan at h
  split at h
  · cases h
  · rename_i s hs
    split at h
    · cases h; exact ⟨hB, hS⟩
    · dsimp only at h
      have hS1 : AllS (Asked mc A) (st.spans.set i (recalc { s with active := 1 }).1) := hS.set hs rfl rfl
      have hs1 : (st.spans.set i (recalc { s with active := 1 }).1)[i]? = some (recalc { s with active := 1 }).1 := by
        rw [get_set hs, if_pos rfl]
      split at h
      · split at h
        · cases h
        · rename_i b hb
          cases he : expandBc mc b (recalc { s with active := 1 }).1 with
          | none => rw [he] at h; cases h
          | some r =>
            rw [he] at h
            obtain ⟨g1, g2⟩ := expandBc_P hk hB (s := (recalc { s with active := 1 }).1) hb
              (hS s (List.mem_of_getElem? hs)) he
            cases r with
            | error m => cases h; exact ⟨hB, hS1⟩
            | done b' =>
              simp only [Option.bind_some] at h
              refine fin (s0 := (recalc { s with active := 1 }).1) ?_ ?_ ?_ ?_ ?_ ?_ h
              · exact hB
              · exact hS1
              · exact hs1
              · rfl
              · rfl
              · exact g1 _ rfl
            | more b' n p =>
              simp only [Option.bind_some] at h
              refine fin (s0 := (recalc { s with active := 1 }).1) ?_ ?_ ?_ ?_ ?_ ?_ h
              · exact hB
              · exact hS1
              · exact hs1
              · rfl
              · rfl
              · exact g2 _ _ _ rfl
      · cases h; exact ⟨hB, hS1⟩

theorem loop_allP {mc : Machine M} {P : M → M → Nat → Prop} (hk : Keeps mc P) {A : List (Bc M)} (x : Index) (n : Nat)
    {st st' : St M} (hB : AllP P A st.bcs) (hS : AllS (Asked mc A) st.spans) (h : loop mc x n st = .done st') :
    AllP P A st'.bcs := by
  induction n generalizing st with
  | zero =>
    unfold loop at h
    split at h
    · cases h; exact hB
    · cases h
  | succ n ih =>
    unfold loop at h
    split at h
    · cases h; exact hB
    · split at h
      · rename_i st2 h2
        obtain ⟨g1, g2⟩ := processSpan_allP hk (by exact hB) (by exact hS) h2
        exact ih g1 g2 h
      · cases h
    · split at h
      · rename_i st2 h2
        obtain ⟨g1, g2⟩ := processSpan_allP hk (by exact hB) (by exact hS) h2
        exact ih g1 g2 h
      · cases h

/-- The spans step 1a creates were asked for. -/
theorem step1a_asked {mc : Machine M} (bcs : List (Bc M)) (i : Nat) (off : Int) (nos : Nat) :
    ∀ s ∈ (step1a mc bcs i off nos).spans, s.id ≠ 0 →
      i ≤ s.bc ∧ ∃ a m0, bcs[s.bc - i]? = some a ∧ a.contents = .insn m0 ∧ Reports mc m0 s.id := by
  induction bcs generalizing i off nos with
  | nil => intro s hs; simp [step1a] at hs
  | cons b bs ih =>
    have sp : ∀ s ∈ ((calcBc mc { b with offset := off }).2.1).map (mkSpan i nos), s.id ≠ 0 →
        i ≤ s.bc ∧ ∃ a m0, (b :: bs)[s.bc - i]? = some a ∧ a.contents = .insn m0 ∧ Reports mc m0 s.id := by
      intro s hs hid
      obtain ⟨d, h1, h2⟩ := List.mem_map.mp hs
      subst h2
      have hid : d.id ≠ 0 := hid
      refine ⟨Nat.le_refl _, ?_⟩
      show ∃ a m0, (b :: bs)[i - i]? = some a ∧ a.contents = .insn m0 ∧ Reports mc m0 d.id
      rw [Nat.sub_self]
      rcases List.mem_append.mp h1 with e | e
      · have e : d ∈ (calcContents mc b.contents off).2.2.1 := e
        unfold calcContents at e
        split at e
        · simp at e
        · split at e <;> simp at e
        · rename_i m hm
          split at e
          · rename_i hc
            exact ⟨b, m, rfl, hm, _, _, _, hc, d, e, rfl⟩
          · simp at e
      · have e : d ∈ (calcMult b.mult).2.1 := e
        unfold calcMult at e
        split at e
        · simp at e
        · split at e <;> simp at e
        · simp at e
        · simp at e; subst e; exact absurd rfl hid
    have tl : ∀ (off : Int) (nos : Nat), ∀ s ∈ (step1a mc bs (i + 1) off nos).spans, s.id ≠ 0 →
        i ≤ s.bc ∧ ∃ a m0, (b :: bs)[s.bc - i]? = some a ∧ a.contents = .insn m0 ∧ Reports mc m0 s.id := by
      intro off nos s hs hid
      obtain ⟨h1, a, m0, h2, h3⟩ := ih (i + 1) off nos s hs hid
      refine ⟨by omega, a, m0, ?_, h3⟩
      have : s.bc - i = s.bc - (i + 1) + 1 := by omega
      rw [this]; exact h2
    intro s hs
    unfold step1a at hs
    split at hs
    · exact tl _ _ s hs
    · dsimp only at hs
      split at hs
      · rcases List.mem_append.mp hs with e | e
        · exact sp s e
        · exact tl _ _ s e
      · split at hs
        · rcases List.mem_append.mp hs with e | e
          · exact sp s e
          · exact tl _ _ s e
        · rcases List.mem_append.mp hs with e | e
          · exact sp s e
          · exact tl _ _ s e

theorem optimize_allP {mc : Machine M} {pending : M → Nat → Option Promise} {rank : M → Nat} (hok : mc.Ok pending rank)
    {P : M → M → Nat → Prop} (hk : Keeps mc P)
    {bcs : List (Bc M)} (hwf : WF bcs) {fuel : Nat} {B : List (Bc M)} (h : optimize mc fuel bcs = .ret B []) :
    AllP P bcs B := by
  unfold optimize at h
  dsimp only at h
  split at h
  · rename_i he; simp only [Result.ret.injEq] at h; exact absurd h.2 he
  · rename_i he
    have he : (step1a mc bcs 0 0 0).errs = [] := by simpa using he
    have hA := step1a_ok hok bcs 0 0 0 (by
      intro b hb he; rw [(hwf.empty b hb he).2.2]; rfl) he
    have s0 : AllS (Asked mc bcs) (step1a mc bcs 0 0 0).spans := by
      intro s hs hid
      obtain ⟨_, a, m0, h1⟩ := step1a_asked bcs 0 0 0 s hs hid
      exact ⟨a, m0, h1⟩
    have g0 : AllP P bcs (step1a mc bcs 0 0 0).bcs := by
      intro i b m hi hm
      have hl : i < bcs.length := by rw [← hA.len]; exact (List.getElem?_eq_some_iff.mp hi).1
      have hc := hA.bcs i _ b (List.getElem?_eq_getElem hl) hi
      cases hb0 : bcs[i].contents with
      | empty =>
        have := hc.empty hb0
        rw [this, hb0] at hm; cases hm
      | setter s =>
        have := (hc.setter s hb0).1
        rw [this] at hm; cases hm
      | insn m0 =>
        obtain ⟨m', ds, h1, h2⟩ := hc.insn m0 hb0
        rw [h2] at hm; cases hm
        exact ⟨_, m0, List.getElem?_eq_getElem hl, hb0, hk.calcs _ _ _ _ h1⟩
    split at h
    · cases h
    · rename_i B1 S1 errs1 hb
      obtain ⟨g1, s1⟩ := step1b_allP hk _ g0 s0 hb
      split at h
      · simp only [Result.ret.injEq] at h; rw [← h.1]; exact g1
      · have g2 := updateAll_allP g1
        split at h
        · simp only [Result.ret.injEq] at h; rw [← h.1]; exact g2
        · split at h
          · cases h
          · rename_i S2 qb hd
            have s2 := step1d_allS _ s1 hd
            split at h
            · simp only [Result.ret.injEq] at h; rw [← h.1]; exact g2
            · unfold step2 at h
              dsimp only at h
              split at h
              · cases h
              · rename_i t ht
                split at h
                · simp only [Result.ret.injEq] at h; rw [← h.1]; exact g2
                · have hsame := checkCycles_same (updateAll B1 0).1 ⟨t, (allRefs S2 0).map (·.1)⟩ (List.range S2.length) S2
                  have s3 : AllS (Asked mc bcs)
                      (checkCycles (updateAll B1 0).1 ⟨t, (allRefs S2 0).map (·.1)⟩ (List.range S2.length) S2).1 := by
                    intro s hs
                    obtain ⟨j, hj⟩ := List.getElem?_of_mem hs
                    obtain ⟨bt, h1⟩ := hsame.get hj
                    have := s2 _ (List.mem_of_getElem? h1)
                    exact this
                  split at h
                  · cases h
                  · cases h
                  · rename_i st hl
                    have g3 := loop_allP hk _ fuel (by exact g2) s3 hl
                    split at h
                    · simp only [Result.ret.injEq] at h; rw [← h.1]; exact g3
                    · simp only [Result.ret.injEq] at h; rw [← h.1]; exact updateAll_allP g3

end Verif.Optimize
