import Verif.Pp.Sim
/-
The simulation: by induction on the depth, the machine does what `exec` says.
-/
namespace Verif.Pp
variable {S : Sig}

/-- Where `%exitrep` leads. -/
def Target (t : Option Nat) (κ : List (Active S)) (rest : List (Item S)) : Prop :=
  ∀ id, t = some id → firstRep rest = some id ∧ ∃ κ0, κ = .rep id :: κ0

def SimB (S : Sig) (n : Nat) : Prop :=
  ∀ (b : Block S.Line) (e : Env S) es e' ex, exec n b e = some (es, e', ex) →
  ∀ top t κ cs (m : M S) rest, b.ok S top t.isSome = true → Rel κ cs e m → m.live = true → m.running = true →
    m.items = b.lines.map .line ++ rest → Target t κ rest → Out κ cs t rest m es e e' ex

def SimL (S : Sig) (n : Nat) : Prop :=
  ∀ (c : Nat) (b : Block S.Line) (e : Env S) es e', exec.loop n c b e = some (es, e') →
  ∀ κ cs (m : M S) rest id, b.ok S false true = true → Rel (.rep id :: κ) cs e m → m.live = true →
    m.items = .repEnd id b.lines.reverse :: rest →
    (m.prog id = c + 1 ∨ (c = 0 ∧ m.prog id ≤ 1)) →
    ∃ m', Reach m es m' ∧ Rel κ cs e' m' ∧ m'.items = rest ∧ e'.busy = e.busy ∧ m.nextRep ≤ m'.nextRep ∧
      (∀ j < m.nextRep, j ≠ id → m'.prog j = m.prog j)

theorem keep_mem {κ : List (Active S)} {n n' : Nat} (h : ∀ id, Active.rep id ∈ κ → id < n) (hn : n ≤ n') :
    ∀ id, Active.rep id ∈ κ → id < n' := fun id hid => Nat.lt_of_lt_of_le (h id hid) hn

/-- The end of a `%rep` block. -/
theorem rep_done {κ : List (Active S)} {cs e} {m : M S} {id body rest} (h : Rel (.rep id :: κ) cs e m)
    (hi : m.items = .repEnd id body :: rest) (hp : m.prog id ≤ 1) :
    ∃ m', step m = .next [] m' ∧ Rel κ cs e m' ∧ m'.items = rest ∧ m'.nextRep = m.nextRep ∧ m'.prog = m.prog := by
  have hst := h.stack
  rw [withFrame_rep] at hst
  refine ⟨{ m with items := rest, stack := withFrame e.frame κ }, ?_, ?_, rfl, rfl, rfl⟩
  · unfold step
    rw [hi]
    simp only
    rw [if_neg (by omega)]
    unfold pop
    simp only [hst, h.undef]
  · exact { user := h.user, defs := h.defs, ok := h.ok, next := h.next, busy := h.busy, busyLt := h.busyLt,
            numLt := h.numLt, unique := h.unique, conds := h.conds, stack := rfl, frame := h.frame,
            reps := fun j hj => h.reps j (List.mem_cons_of_mem _ hj), undef := h.undef, noMac := h.noMac,
            noRep := h.noRep }

theorem simL_step {n : Nat} (hB : SimB S n) (hLp : SimL S n) : SimL S (n + 1) := by
  intro c b e es e' he κ cs m rest id hok hR hl hi hp
  cases c with
  | zero =>
    simp only [exec.loop, Option.some.injEq, Prod.mk.injEq] at he
    obtain ⟨rfl, rfl⟩ := he
    obtain ⟨m', h1, h2, h3, h4, h5⟩ := rep_done hR hi (by omega)
    exact ⟨m', Reach.one h1, h2, h3, rfl, by omega, fun j _ _ => by rw [h5]⟩
  | succ c =>
    have hp : m.prog id = c + 2 := by omega
    have hid := hR.reps id List.mem_cons_self
    -- once more
    have h1 : step m = .next [] { m with prog := upd m.prog id (m.prog id - 1), items := b.lines.map .line ++ m.items } := by
      unfold step
      rw [hi]
      simp only
      rw [if_pos (by omega), push_append, List.reverse_reverse]
    generalize hm1 : ({ m with prog := upd m.prog id (m.prog id - 1), items := b.lines.map .line ++ m.items } : M S) = m1 at h1
    have hR1 : Rel (.rep id :: κ) cs e m1 := by
      subst hm1
      exact { hR with }
    have hpr : m1.prog id = c + 1 := by subst hm1; simp [upd, hp]; omega
    have hrun : m1.running = true := by
      unfold M.running
      rw [hR1.stack, withFrame_rep]
      simp [hpr]; omega
    have hlive : m1.live = true := by subst hm1; exact hl
    have hnr : m1.nextRep = m.nextRep := by subst hm1; rfl
    have hpo : ∀ j, j ≠ id → m1.prog j = m.prog j := by
      intro j hj; subst hm1; simp [upd, hj]
    have hit : m1.items = b.lines.map .line ++ m.items := by subst hm1; rfl
    unfold exec.loop at he
    split at he
    · cases he
    · -- left by %exitrep
      rename_i es1 e1 hx
      simp only [Option.some.injEq, Prod.mk.injEq] at he
      obtain ⟨rfl, rfl⟩ := he
      obtain ⟨m2, a1, a2, a3, a4, a5, a6, a7⟩ := hB b e _ _ _ hx false (some id) _ cs m1 m.items hok hR1 hlive hrun hit
        (by intro j hj; cases hj; exact ⟨by rw [hi]; rfl, κ, rfl⟩)
      have hp2 : m2.prog id = 0 := by rw [a6 id (by omega)]; simp
      obtain ⟨m3, b1, b2, b3, b4, b5⟩ := rep_done a2 (a3.trans hi) (by omega)
      refine ⟨m3, ?_, b2, b3, a4, by omega, ?_⟩
      · have := Reach.cons h1 (a1.trans (Reach.one b1))
        simpa using this
      · intro j hj hne
        rw [b5, a6 j (by omega), if_neg (by rintro ⟨_, h⟩; cases h; exact hne rfl), hpo j hne]
    · rename_i es1 e1 hx
      split at he
      · cases he
      · rename_i es2 e2 hx2
        simp only [Option.some.injEq, Prod.mk.injEq] at he
        obtain ⟨rfl, rfl⟩ := he
        obtain ⟨m2, a1, a2, a3, a4, a5, a6, a7⟩ := hB b e _ _ _ hx false (some id) _ cs m1 m.items hok hR1 hlive hrun hit
          (by intro j hj; cases hj; exact ⟨by rw [hi]; rfl, κ, rfl⟩)
        have hp2 : m2.prog id = c + 1 := by rw [a6 id (by omega)]; simp [hpr]
        have hl2 : m2.live = true := by rw [live_conds (a2.conds.trans hR.conds.symm)]; exact hl
        obtain ⟨m3, b1, b2, b3, b4, b5, b6⟩ := hLp c b e1 _ _ hx2 κ cs m2 rest id hok a2 hl2 (a3.trans hi) (.inl hp2)
        refine ⟨m3, ?_, b2, b3, b4.trans a4, by omega, ?_⟩
        · exact Reach.cons h1 (a1.trans b1)
        · intro j hj hne
          rw [b6 j (by omega) hne, a6 j (by omega), if_neg (by simp), hpo j hne]

theorem sim_text (hL : Lawful S) {n : Nat} (hB : SimB S n) {l : S.Line} {k : Block S.Line} {e : Env S} {es e' ex}
    (he : exec (n + 1) (.text l k) e = some (es, e', ex)) {top t κ cs} {m : M S} {rest}
    (ho : (Block.text l k).ok S top t.isSome = true) (hR : Rel κ cs e m) (hl : m.live = true) (hr : m.running = true)
    (hi : m.items = (Block.text l k).lines.map .line ++ rest) (ht : Target t κ rest) :
    Out κ cs t rest m es e e' ex := by
  simp only [Block.ok, Bool.and_eq_true] at ho
  simp only [Block.lines, List.map_cons, List.cons_append] at hi
  have hfr := hR.same.2.2
  unfold exec at he
  split at he
  · cases he
  rename_i hw
  simp only at he
  have hw : S.word (S.subst e.frame l) = none := by
    cases h : S.word (S.subst e.frame l) <;> simp_all
  -- the step
  generalize hm0 : ({ m with items := k.lines.map .line ++ rest } : M S) = m0
  have hR0 : Rel κ cs e m0 := by subst hm0; exact { hR with }
  have hl0 : m0.live = true := by subst hm0; exact hl
  have hr0 : m0.running = true := by subst hm0; exact hr
  have hi0 : m0.items = k.lines.map .line ++ rest := by subst hm0; rfl
  have hn0 : m0.nextRep = m.nextRep := by subst hm0; rfl
  have hp0 : m0.prog = m.prog := by subst hm0; rfl
  have hst : step m = afterDir (S.subst e.frame l) (.no [] m0) := by
    rw [step_line hi, hm0]
    unfold doLine
    rw [cur_live hR0.undef hl0, hR0.same.2.2]
    have : directive m0 (S.subst e.frame l) = .no [] m0 := by
      unfold directive; rw [hw]
    rw [this]
  have hst : step m = match findCall m0.defs m0.busy (S.calls (S.smac e.user (S.subst e.frame l))) with
      | none => .next [.text e.user (S.smac e.user (S.subst e.frame l))] m0
      | some (c, d) => .next [] (expand m0 c d) := by
    rw [hst]
    simp only [afterDir, hR0.undef, hl0, hr0, hR0.user]
    simp only [Bool.not_true, Bool.false_eq_true, if_false, List.nil_append]
    generalize findCall m0.defs m0.busy _ = r
    cases r <;> rfl
  rw [hR0.defs, findCall_eq e _ hR0.busy] at hst
  cases hc : called e (S.calls (S.smac e.user (S.subst e.frame l))) with
  | none =>
    rw [hc] at hst he
    simp only [Option.map_none] at hst
    simp only at he
    split at he
    · cases he
    rename_i es1 e1 ex1 hx
    simp only [Option.some.injEq, Prod.mk.injEq] at he
    obtain ⟨rfl, rfl, rfl⟩ := he
    have h2 := hB k e _ _ _ hx top t κ cs m0 rest ho.2 hR0 hl0 hr0 hi0 ht
    exact Out.chain (Reach.one hst) (by omega) (fun j _ => by rw [hp0]) rfl h2
  | some p =>
    obtain ⟨c, d⟩ := p
    rw [hc] at hst he
    simp only [Option.map_some] at hst
    obtain ⟨hcm, hdm, hnb⟩ := called_spec hc
    simp only at he
    split at he
    rotate_left
    · cases he
    rename_i hbok
    split at he
    rotate_left
    · cases he
    rename_i es1 e1 hx
    split at he
    · cases he
    rename_i es2 e2 ex2 hx2
    simp only [Option.some.injEq, Prod.mk.injEq] at he
    obtain ⟨rfl, rfl, rfl⟩ := he
    generalize hm1 : expand m0 c d.keep = m1 at hst
    generalize hf0 : (⟨cutParams S d.head c.params, 0, e.unique⟩ : Frame S.Param) = f0
    have hms : m1.stack = .call d.num f0 :: m0.stack := by
      subst hm1; subst hf0
      simp [expand, SDef.keep, hR0.unique]
    have hR1 : Rel (.call d.num f0 :: m0.stack) cs (inside e c d) m1 := by
      constructor
      · subst hm1; exact hR0.user
      · subst hm1; exact hR0.defs
      · exact hR0.ok
      · subst hm1; exact hR0.next
      · intro j
        subst hm1
        simp only [expand, upd, SDef.keep, inside, List.mem_cons]
        by_cases hj : j = d.num
        · simp [hj]
        · simp [hj, hR0.busy]
      · intro j hj
        simp only [inside, List.mem_cons] at hj
        rcases hj with rfl | hj
        · exact hR0.numLt d hdm
        · exact hR0.busyLt j hj
      · exact hR0.numLt
      · subst hm1
        simp [expand, inside, hR0.unique]
      · subst hm1; exact hR0.conds
      · rw [hms]
        simp [inside, withFrame, setFrame, hf0]
      · simp [inside, frameOf]
      · intro j hj
        have : Active.rep j ∈ m0.stack := by simpa using hj
        rw [hR0.stack, rep_mem_withFrame] at this
        have := hR0.reps j this
        subst hm1; exact this
      · subst hm1; exact hR0.undef
      · subst hm1; exact hR0.noMac
      · subst hm1; exact hR0.noRep
    have hl1 : m1.live = true := by subst hm1; exact hl0
    have hr1 : m1.running = true := by
      unfold M.running
      rw [hms]
      simp only
      rw [hR1.busy]; simp [inside]
    have hi1 : m1.items = (bodyOf c d).lines.map .line ++ (.callEnd d.num :: m0.items) := by
      subst hm1
      simp [expand, push_append, bodyOf_lines, SDef.keep]
    have hn1 : m1.nextRep = m.nextRep := by subst hm1; exact hn0
    have hp1 : m1.prog = m.prog := by subst hm1; exact hp0
    obtain ⟨m2, a1, a2, a3, a4, a5, a6, a7⟩ := hB (bodyOf c d) (inside e c d) _ _ _ hx false none _ cs m1
      (.callEnd d.num :: m0.items) hbok hR1 hl1 hr1 hi1 (by intro j hj; cases hj)
    obtain ⟨f', hf'⟩ := Option.isSome_iff_exists.mp (show e1.frame.isSome = true by rw [← a2.frame]; rfl)
    have hms2 : m2.stack = .call d.num f' :: m0.stack := by
      rw [a2.stack, hf']; rfl
    generalize hm3 : ({ m2 with items := m0.items, stack := m0.stack, busy := upd m2.busy d.num false } : M S) = m3
    have h3 : step m2 = .next [] m3 := by
      unfold step
      rw [a3]
      simp only
      unfold pop
      subst hm3
      simp [hms2, a2.undef]
    have hR3 : Rel κ cs { e1 with frame := e.frame, busy := e.busy } m3 := by
      subst hm3
      constructor
      · exact a2.user
      · exact a2.defs
      · exact a2.ok
      · exact a2.next
      · intro j
        simp only [upd]
        by_cases hj : j = d.num
        · subst hj; simp [hnb]
        · rw [if_neg hj, a2.busy, a4]
          simp [inside, hj]
      · intro j hj
        refine a2.busyLt j ?_
        rw [a4]; exact List.mem_cons_of_mem _ hj
      · exact a2.numLt
      · exact a2.unique
      · exact a2.conds
      · exact hR0.stack
      · exact hR0.frame
      · exact keep_mem hR0.reps (by show m0.nextRep ≤ m2.nextRep; omega)
      · exact a2.undef
      · exact a2.noMac
      · exact a2.noRep
    have hp3 : ∀ j < m.nextRep, m3.prog j = m.prog j := by
      intro j hj
      have : m3.prog = m2.prog := by subst hm3; rfl
      rw [this, a6 j (by omega), if_neg (by simp), hp1]
    have hn3 : m.nextRep ≤ m3.nextRep := by
      have : m3.nextRep = m2.nextRep := by subst hm3; rfl
      omega
    have hl3 : m3.live = true := by rw [live_conds (hR3.conds.trans hR.conds.symm)]; exact hl
    have hr3 : m3.running = true := by rw [running_rel hR hR3 rfl hp3]; exact hr
    have hi3 : m3.items = k.lines.map .line ++ rest := by subst hm3; exact hi0
    have h4 := hB k _ _ _ _ hx2 top t κ cs m3 rest ho.2 hR3 hl3 hr3 hi3 ht
    refine Out.chain ?_ hn3 hp3 rfl h4
    have := Reach.cons hst (a1.trans (Reach.one h3))
    simpa using this

theorem sim_macro (hL : Lawful S) {n : Nat} (hB : SimB S n) {l ee : S.Line} {b k : Block S.Line} {e : Env S} {es e' ex}
    (he : exec (n + 1) (.macro l b ee k) e = some (es, e', ex)) {top t κ cs} {m : M S} {rest}
    (ho : (Block.macro l b ee k).ok S top t.isSome = true) (hR : Rel κ cs e m) (hl : m.live = true) (hr : m.running = true)
    (hi : m.items = (Block.macro l b ee k).lines.map .line ++ rest) (ht : Target t κ rest) :
    Out κ cs t rest m es e e' ex := by
  simp only [Block.ok, Bool.and_eq_true] at ho
  simp only [Block.lines, List.map_cons, List.cons_append, List.map_append, List.append_assoc] at hi
  obtain ⟨i, hk, hp⟩ := isKind_iff ho.1.1.1
  have hp : i = ppMacro ∨ i = ppImacro := by simpa using hp
  obtain ⟨j, hk2, hp2⟩ := isKind_iff ho.1.2
  have hp2 : j = ppEndm ∨ j = ppEndmacro := by
    have : j = ppEndmacro ∨ (top = true ∧ j = ppEndm) := by simpa using hp2
    tauto
  unfold exec at he
  split at he
  · cases he
  rename_i h hh
  have h1 : step m = .next [] { m with items := b.lines.map .line ++ (.line ee :: (k.lines.map .line ++ rest)), defining := some ⟨some h, 0, [], []⟩ } := by
    rw [step_line hi]
    refine doLine_run hL _ hk (by exact hR.undef) (by exact hl) (by exact hr) ?_
    rw [switch_macro _ _ hp]
    unfold doMacro
    rw [if_neg (by simp [hR.undef])]
    have : S.header m.user (S.subst (frameOf m.stack) l) = some h := by rw [hR.user, hR.same.2.2, hh]
    simp only [this]
  have h2 := Reach.cons h1 (record hL false b _ _ _ ho.1.1.2 rfl rfl (by exact hl) (by exact hr))
  generalize hm1 : recorded _ _ _ _ = m1 at h2
  have hd1 : m1.defining = some ⟨some h, 0, [], b.lines.reverse⟩ := by subst hm1; simp [recorded]
  generalize hm2 : ({ m with items := k.lines.map .line ++ rest, defs := ⟨m.nextDef, h, b.lines.reverse⟩ :: m.defs, busy := upd m.busy m.nextDef false, nextDef := m.nextDef + 1 } : M S) = m2
  have h3 : step m1 = .next [] m2 := by
    have hi1 : m1.items = .line ee :: (k.lines.map .line ++ rest) := by subst hm1; rfl
    rw [step_line hi1]
    refine doLine_end (d := ⟨some h, 0, [], b.lines.reverse⟩) _ (by exact hd1) ?_
    rw [directive_def (d := ⟨some h, 0, [], b.lines.reverse⟩) _ (by exact hd1) (by subst hm1; exact hl) (by subst hm1; exact hr) hk2]
    rw [if_neg (by tauto), if_neg (by rcases hp2 with rfl | rfl <;> decide),
      if_neg (by
        have : m1.nestMac = 0 := by subst hm1; exact hR.noMac
        simp [this]), if_neg (by simp), if_neg (by simp), switch_endm _ _ hp2]
    unfold doEndm
    simp only [hd1]
    subst hm1; subst hm2
    have := hR.undef
    simp [recorded, this]
  have hR2 : Rel κ cs { e with defs := ⟨e.nextDef, h, b⟩ :: e.defs, nextDef := e.nextDef + 1 } m2 := by
    subst hm2
    constructor
    · exact hR.user
    · simp [hR.defs, SDef.keep, hR.next]
    · intro d hd
      rcases List.mem_cons.mp hd with rfl | hd
      · exact ho.1.1.2
      · exact hR.ok d hd
    · simp [hR.next]
    · intro j
      simp only [upd]
      by_cases hj : j = m.nextDef
      · rw [if_pos hj]
        have : j ∉ e.busy := by
          intro hb
          have := hR.busyLt j hb
          have := hR.next
          omega
        simp [this]
      · rw [if_neg hj, hR.busy]
    · intro j hj
      have := hR.busyLt j hj
      show j < e.nextDef + 1
      omega
    · intro d hd
      show d.num < e.nextDef + 1
      rcases List.mem_cons.mp hd with rfl | hd
      · simp
      · have := hR.numLt d hd; omega
    · exact hR.unique
    · exact hR.conds
    · exact hR.stack
    · exact hR.frame
    · exact hR.reps
    · exact hR.undef
    · exact hR.noMac
    · exact hR.noRep
  have hp2' : ∀ j < m.nextRep, m2.prog j = m.prog j := by intro j _; subst hm2; rfl
  have h4 := hB k _ _ _ _ he top t κ cs m2 rest ho.2 hR2
    (by subst hm2; exact hl) (by rw [running_rel hR hR2 rfl hp2']; exact hr) (by subst hm2; rfl) ht
  exact Out.chain (h2.trans (Reach.one h3)) (by subst hm2; exact Nat.le_refl _) hp2' rfl h4

theorem toInt32_small {n : Int} (h : -2147483648 ≤ n ∧ n < 2147483647) : toInt32 (toInt32 n + 1) = n + 1 := by
  unfold toInt32; omega

theorem sim_rep (hL : Lawful S) {n : Nat} (hB : SimB S n) (hLp : SimL S n) {l ee : S.Line} {b k : Block S.Line} {e : Env S} {es e' ex}
    (he : exec (n + 1) (.rep l b ee k) e = some (es, e', ex)) {top t κ cs} {m : M S} {rest}
    (ho : (Block.rep l b ee k).ok S top t.isSome = true) (hR : Rel κ cs e m) (hl : m.live = true) (hr : m.running = true)
    (hi : m.items = (Block.rep l b ee k).lines.map .line ++ rest) (ht : Target t κ rest) :
    Out κ cs t rest m es e e' ex := by
  simp only [Block.ok, Bool.and_eq_true] at ho
  simp only [Block.lines, List.map_cons, List.cons_append, List.map_append, List.append_assoc] at hi
  obtain ⟨i, hk, hp⟩ := isKind_iff ho.1.1.1
  have hp : i = ppRep := by simpa using hp
  obtain ⟨j, hk2, hp2⟩ := isKind_iff ho.1.2
  have hp2 : j = ppEndrep := by simpa using hp2
  subst hp; subst hp2
  unfold exec at he
  split at he
  · cases he
  rename_i c hcount
  split at he
  rotate_left
  · cases he
  rename_i hrange
  split at he
  · cases he
  rename_i es1 e1 hloop
  split at he
  · cases he
  rename_i es2 e2 ex2 hx2
  simp only [Option.some.injEq, Prod.mk.injEq] at he
  obtain ⟨rfl, rfl, rfl⟩ := he
  have h1 : step m = .next [] { m with items := b.lines.map .line ++ (.line ee :: (k.lines.map .line ++ rest)), prog := upd m.prog m.nextRep (c + 1), nextRep := m.nextRep + 1, defining := some ⟨none, m.nextRep, m.stack, []⟩ } := by
    rw [step_line hi]
    refine doLine_run hL _ hk (by exact hR.undef) (by exact hl) (by exact hr) ?_
    rw [switch_rep]
    unfold doRep
    have : S.count m.user (S.subst (frameOf m.stack) l) = some c := by rw [hR.user, hR.same.2.2, hcount]
    simp only [this]
    rw [toInt32_small hrange]
  -- recording: the state is still running
  have hrun1 : ({ m with items := b.lines.map .line ++ (.line ee :: (k.lines.map .line ++ rest)), prog := upd m.prog m.nextRep (c + 1), nextRep := m.nextRep + 1, defining := some ⟨none, m.nextRep, m.stack, []⟩ } : M S).running = true := by
    unfold M.running at hr ⊢
    have hst := hR.stack
    simp only
    cases hs : m.stack with
    | nil => rfl
    | cons a st =>
      cases a with
      | call id f => rw [hs] at hr; exact hr
      | rep id =>
        have : id < m.nextRep := by
          apply hR.reps
          rw [← rep_mem_withFrame e.frame, ← hst, hs]
          exact List.mem_cons_self
        rw [hs] at hr
        have hne : ¬ id = m.nextRep := by omega
        simpa [upd, hne] using hr
  have h2 := Reach.cons h1 (record hL true b _ _ _ ho.1.1.2 rfl rfl (by exact hl) hrun1)
  generalize hm1 : recorded _ _ _ _ = m1 at h2
  have hd1 : m1.defining = some ⟨none, m.nextRep, m.stack, b.lines.reverse⟩ := by subst hm1; simp [recorded]
  generalize hm2 : ({ m with items := .repEnd m.nextRep b.lines.reverse :: (k.lines.map .line ++ rest), prog := upd m.prog m.nextRep (c + 1), nextRep := m.nextRep + 1, stack := .rep m.nextRep :: m.stack } : M S) = m2
  have h3 : step m1 = .next [] m2 := by
    have hi1 : m1.items = .line ee :: (k.lines.map .line ++ rest) := by subst hm1; rfl
    rw [step_line hi1]
    refine doLine_end (d := ⟨none, m.nextRep, m.stack, b.lines.reverse⟩) _ (by exact hd1) ?_
    rw [directive_def (d := ⟨none, m.nextRep, m.stack, b.lines.reverse⟩) _ (by exact hd1) (by subst hm1; exact hl) (by subst hm1; exact hrun1) hk2]
    rw [if_neg (by simp), if_neg (by decide),
      if_neg (by simp [ppEndrep, ppEndmacro]), if_neg (by simp [ppEndrep, ppRep]),
      if_neg (by
        have : m1.nestRep = 0 := by subst hm1; exact hR.noRep
        simp [this]), switch_endrep]
    unfold doEndrep
    simp only [hd1]
    subst hm1; subst hm2
    have := hR.undef
    simp [recorded, this]
  have hR2 : Rel (.rep m.nextRep :: κ) cs e m2 := by
    subst hm2
    exact { user := hR.user, defs := hR.defs, ok := hR.ok, next := hR.next, busy := hR.busy, busyLt := hR.busyLt,
            numLt := hR.numLt, unique := hR.unique, conds := hR.conds,
            stack := by rw [withFrame_rep, ← hR.stack], frame := hR.frame,
            reps := by
              intro j hj
              show j < m.nextRep + 1
              rcases List.mem_cons.mp hj with h | h
              · cases h; omega
              · have := hR.reps j h; omega
            undef := hR.undef, noMac := hR.noMac, noRep := hR.noRep }
  obtain ⟨m3, a1, a2, a3, a4, a5, a6⟩ := hLp c.toNat b e _ _ hloop κ cs m2 (k.lines.map .line ++ rest) m.nextRep ho.1.1.2 hR2
    (by subst hm2; exact hl) (by subst hm2; rfl)
    (by subst hm2; simp only [upd, if_true]; omega)
  have hn2 : m2.nextRep = m.nextRep + 1 := by subst hm2; rfl
  have hp3 : ∀ j < m.nextRep, m3.prog j = m.prog j := by
    intro j hj
    rw [a6 j (by omega) (by omega)]
    subst hm2; simp only [upd]; rw [if_neg (by omega)]
  have hl3 : m3.live = true := by rw [live_conds (a2.conds.trans hR.conds.symm)]; exact hl
  have hr3 : m3.running = true := by rw [running_rel hR a2 a4 hp3]; exact hr
  have h4 := hB k _ _ _ _ hx2 top t κ cs m3 rest ho.2 a2 hl3 hr3 a3 ht
  refine Out.chain ?_ (by omega) hp3 a4 h4
  have := h2.trans ((Reach.one h3).trans a1)
  simpa using this

theorem sim_cond (hL : Lawful S) {n : Nat} (hB : SimB S n) {l : S.Line} {b k : Block S.Line} {a : Arms S.Line} {e : Env S} {es e' ex}
    (he : exec (n + 1) (.cond l b a k) e = some (es, e', ex)) {top t κ cs} {m : M S} {rest}
    (ho : (Block.cond l b a k).ok S top t.isSome = true) (hR : Rel κ cs e m) (hl : m.live = true) (hr : m.running = true)
    (hi : m.items = (Block.cond l b a k).lines.map .line ++ rest) (ht : Target t κ rest) :
    Out κ cs t rest m es e e' ex := by
  simp only [Block.ok, Bool.and_eq_true] at ho
  simp only [Block.lines, List.map_cons, List.cons_append, List.map_append, List.append_assoc] at hi
  unfold exec at he
  split at he
  · cases he
  rename_i br hbr
  obtain ⟨hbok, hrun⟩ := cond_run hL e top t.isSome l b a m (k.lines.map .line ++ rest) br ho.1.1.1 ho.1.1.2 ho.1.2 hR.same hi hl
    hR.undef hbr
  rcases hrun with ⟨rfl, h1⟩ | ⟨c, ls, hce, h1, hrest⟩
  · -- no branch
    generalize hm1 : ({ m with items := k.lines.map .line ++ rest } : M S) = m1 at h1
    have hR1 : Rel κ cs e m1 := by subst hm1; exact { hR with }
    cases n with
    | zero => simp [exec] at he
    | succ n =>
      simp only [exec] at he
      split at he
      · cases he
      rename_i es2 e2 ex2 hx2
      simp only [Option.some.injEq, Prod.mk.injEq] at he
      obtain ⟨rfl, rfl, rfl⟩ := he
      have h4 := hB k _ _ _ _ hx2 top t κ cs m1 rest ho.2 hR1 (by subst hm1; exact hl) (by subst hm1; exact hr)
        (by subst hm1; rfl) ht
      exact Out.chain h1 (by subst hm1; exact Nat.le_refl _) (by intro j _; subst hm1; rfl) rfl h4
  · generalize hm1 : ({ m with items := br.lines.map .line ++ (ls.map .line ++ (k.lines.map .line ++ rest)), conds := c :: m.conds } : M S) = m1 at h1
    have hR1 : Rel κ (c :: cs) e m1 := by
      subst hm1
      exact { hR with conds := by simp [hR.conds] }
    have ht1 : Target t κ (ls.map .line ++ (k.lines.map .line ++ rest)) := by
      intro id hid
      rw [firstRep_lines, firstRep_lines]; exact ht id hid
    have hl1 : m1.live = true := by rw [emits_not hR1.conds]; exact hce
    have hr1 : m1.running = true := by subst hm1; exact hr
    have hn1 : m1.nextRep = m.nextRep := by subst hm1; rfl
    have hp1 : m1.prog = m.prog := by subst hm1; rfl
    have hi1 : m1.items = br.lines.map .line ++ (ls.map .line ++ (k.lines.map .line ++ rest)) := by subst hm1; rfl
    split at he
    · cases he
    · rename_i es1 e1 hx1
      split at he
      rotate_left
      · cases he
      rename_i hq
      simp only [Option.some.injEq, Prod.mk.injEq] at he
      obtain ⟨rfl, rfl, rfl⟩ := he
      obtain ⟨m2, a1, a2, a3, a4, a5, a6, a7⟩ := hB br e _ _ _ hx1 top t κ (c :: cs) m1 _ hbok hR1 hl1 hr1 hi1 ht1
      obtain ⟨id, hid⟩ := Option.isSome_iff_exists.mp (a7 rfl)
      obtain ⟨_, κ0, hκ⟩ := ht id hid
      have h3 := hrest m2 a3 (by rw [a2.conds, hR.conds]) a2.undef
      generalize hm3 : ({ m2 with items := k.lines.map .line ++ rest, conds := m.conds } : M S) = m3 at h3
      have hR3 : Rel κ cs e1 m3 := by
        subst hm3; exact { a2 with conds := hR.conds }
      have hidlt : id < m.nextRep := hR.reps id (by rw [hκ]; exact List.mem_cons_self)
      have hp3 : m3.prog = m2.prog := by subst hm3; rfl
      have hpz : m3.prog id = 0 := by rw [hp3, a6 id (by omega)]; simp [hid]
      have hr3 : m3.running = false := by subst hκ; exact running_exit hR3 hpz
      have hl3 : m3.live = true := by rw [live_conds (hR3.conds.trans hR.conds.symm)]; exact hl
      have h4 := idle hL e1 top t.isSome k m3 rest ho.2 hq hR3.same (by subst hm3; rfl) hl3 hr3 hR3.undef
      refine ⟨{ m3 with items := rest }, ?_, { hR3 with }, rfl, a4, ?_, ?_, a7⟩
      · have := h1.trans (a1.trans (h3.trans h4))
        simpa using this
      · show m.nextRep ≤ m3.nextRep
        have : m3.nextRep = m2.nextRep := by subst hm3; rfl
        omega
      · intro j hj
        show m3.prog j = _
        rw [hp3, a6 j (by omega), hp1]
    · rename_i es1 e1 hx1
      split at he
      · cases he
      rename_i es2 e2 ex2 hx2
      simp only [Option.some.injEq, Prod.mk.injEq] at he
      obtain ⟨rfl, rfl, rfl⟩ := he
      obtain ⟨m2, a1, a2, a3, a4, a5, a6, a7⟩ := hB br e _ _ _ hx1 top t κ (c :: cs) m1 _ hbok hR1 hl1 hr1 hi1 ht1
      have h3 := hrest m2 a3 (by rw [a2.conds, hR.conds]) a2.undef
      generalize hm3 : ({ m2 with items := k.lines.map .line ++ rest, conds := m.conds } : M S) = m3 at h3
      have hR3 : Rel κ cs e1 m3 := by
        subst hm3; exact { a2 with conds := hR.conds }
      have hp3 : ∀ j < m.nextRep, m3.prog j = m.prog j := by
        intro j hj
        have : m3.prog = m2.prog := by subst hm3; rfl
        rw [this, a6 j (by omega), if_neg (by simp), hp1]
      have hl3 : m3.live = true := by rw [live_conds (hR3.conds.trans hR.conds.symm)]; exact hl
      have hr3 : m3.running = true := by rw [running_rel hR hR3 a4 hp3]; exact hr
      have h4 := hB k _ _ _ _ hx2 top t κ cs m3 rest ho.2 hR3 hl3 hr3 (by subst hm3; rfl) ht
      refine Out.chain ?_ ?_ hp3 a4 h4
      · have := h1.trans (a1.trans h3)
        simpa using this
      · have : m3.nextRep = m2.nextRep := by subst hm3; rfl
        omega

theorem sim_step (hL : Lawful S) {n : Nat} (hB : SimB S n) (hLp : SimL S n) : SimB S (n + 1) := by
  intro b e es e' ex he top t κ cs m rest ho hR hl hr hi ht
  cases b with
  | nil =>
    simp only [exec, Option.some.injEq, Prod.mk.injEq] at he
    obtain ⟨rfl, rfl, rfl⟩ := he
    exact ⟨m, Reach.refl m, hR, by simpa [Block.lines] using hi, rfl, Nat.le_refl _, by simp, by simp⟩
  | text l k => exact sim_text hL hB he ho hR hl hr hi ht
  | plain l k =>
    simp only [Block.ok, Bool.and_eq_true] at ho
    simp only [Block.lines, List.map_cons, List.cons_append] at hi
    obtain ⟨i, hk, hp⟩ := isKind_iff ho.1
    simp only [exec] at he
    have h1 : step m = .next [] { m with items := k.lines.map .line ++ rest, user := S.act e.user (S.subst e.frame l) } := by
      rw [step_line hi]
      refine doLine_run hL _ hk (by exact hR.undef) (by exact hl) (by exact hr) ?_
      rw [switch_plain _ hp]
      simp only [hR.user, hR.same.2.2]
    have hR1 : Rel κ cs { e with user := S.act e.user (S.subst e.frame l) } { m with items := k.lines.map .line ++ rest, user := S.act e.user (S.subst e.frame l) } := { hR with user := rfl }
    exact Out.chain (Reach.one h1) (Nat.le_refl _) (fun _ _ => rfl) rfl
      (hB k _ _ _ _ he top t κ cs _ rest ho.2 hR1 (by exact hl) (by exact hr) rfl ht)
  | rotate l k =>
    simp only [Block.ok, Bool.and_eq_true] at ho
    simp only [Block.lines, List.map_cons, List.cons_append] at hi
    obtain ⟨i, hk, hp⟩ := isKind_iff ho.1
    have : i = ppRotate := by simpa using hp
    subst this
    unfold exec at he
    split at he
    rotate_left
    · cases he
    rename_i c f hturn hf
    split at he
    · cases he
    rename_i hlen
    have hg : turned f.params.length f.rotate c = (f.rotate + c) % f.params.length :=
      turned_eq _ _ _ (by omega)
    have hfs : frameOf m.stack = some f := hR.same.2.2.trans hf
    have hR1 : Rel κ cs { e with frame := some { f with rotate := (f.rotate + c) % f.params.length } }
        { m with items := k.lines.map .line ++ rest, stack := setFrame { f with rotate := (f.rotate + c) % f.params.length } m.stack } :=
      { hR with
        stack := by
          rw [hR.stack, hf]; simp [withFrame, setFrame_setFrame]
        frame := by rw [hR.frame, hf]; rfl }
    have h1 : step m = .next [] { m with items := k.lines.map .line ++ rest, stack := setFrame { f with rotate := (f.rotate + c) % f.params.length } m.stack } := by
      rw [step_line hi]
      refine doLine_run hL _ hk (by exact hR.undef) (by exact hl) (by exact hr) ?_
      rw [switch_rotate]
      unfold doRotate
      have : S.turn m.user (S.subst (some f) l) = some c := by rw [hR.user, ← hf, hturn]
      simp only [hfs, this]
      rw [if_neg hlen, hg]
    exact Out.chain (Reach.one h1) (Nat.le_refl _) (fun _ _ => rfl) rfl
      (hB k _ _ _ _ he top t κ cs _ rest ho.2 hR1 (by exact hl)
        (by rw [running_rel hR hR1 rfl (fun _ _ => rfl)]; exact hr) rfl ht)
  | exitrep l k =>
    simp only [Block.ok, Bool.and_eq_true] at ho
    simp only [Block.lines, List.map_cons, List.cons_append] at hi
    obtain ⟨i, hk, hp⟩ := isKind_iff ho.1.2
    have : i = ppExitrep := by simpa using hp
    subst this
    unfold exec at he
    split at he
    rotate_left
    · cases he
    rename_i hq
    simp only [Option.some.injEq, Prod.mk.injEq] at he
    obtain ⟨rfl, rfl, rfl⟩ := he
    obtain ⟨id, hid⟩ := Option.isSome_iff_exists.mp ho.1.1
    obtain ⟨hfr, κ0, hκ⟩ := ht id hid
    have h1 : step m = .next [] { m with items := k.lines.map .line ++ rest, prog := upd m.prog id 0 } := by
      rw [step_line hi]
      refine doLine_run hL _ hk (by exact hR.undef) (by exact hl) (by exact hr) ?_
      rw [switch_exitrep]
      unfold doExitrep
      simp only [firstRep_lines, hfr]
    have hR1 : Rel κ cs e { m with items := k.lines.map .line ++ rest, prog := upd m.prog id 0 } := { hR with }
    have h2 := idle hL e top t.isSome k _ rest ho.2 hq hR1.same rfl (by exact hl)
      (by subst hκ; exact running_exit hR1 (by simp [upd])) (by exact hR.undef)
    refine ⟨_, Reach.cons h1 h2, { hR with }, rfl, rfl, Nat.le_refl _, ?_, fun _ => ho.1.1⟩
    intro j hj
    simp only [upd, hid, Option.some.injEq, true_and]
    by_cases h : j = id
    · simp [h]
    · rw [if_neg h, if_neg (fun h' => h h'.symm)]
  | «macro» l b ee k => exact sim_macro hL hB he ho hR hl hr hi ht
  | rep l b ee k => exact sim_rep hL hB hLp he ho hR hl hr hi ht
  | cond l b a k => exact sim_cond hL hB he ho hR hl hr hi ht

theorem sim (hL : Lawful S) : ∀ n, SimB S n ∧ SimL S n
  | 0 => ⟨by intro b e es e' ex he; simp [exec] at he, by intro c b e es e' he; simp [exec.loop] at he⟩
  | n + 1 => ⟨sim_step hL (sim hL n).1 (sim hL n).2, simL_step (sim hL n).1 (sim hL n).2⟩

end Verif.Pp
