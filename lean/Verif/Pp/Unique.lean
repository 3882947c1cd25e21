import Verif.Pp.Skip
/-
The numbers of macro calls, and the result of a run.
-/
namespace Verif.Pp

variable {S : Sig}

/-- The numbers of the calls on a stack. -/
def stackNumbers : List (Active S) → List Nat
  | [] => []
  | .rep _ :: st => stackNumbers st
  | .call _ f :: st => f.unique :: stackNumbers st

/-- The numbers of the calls that are not finished. -/
def M.numbers (m : M S) : List Nat :=
  stackNumbers m.stack ++ (match m.defining with | none => [] | some d => stackNumbers d.under)

/-- No call was begun. -/
def Kept (m m' : M S) : Prop := m'.unique = m.unique ∧ ∀ u ∈ m'.numbers, u ∈ m.numbers

theorem Kept.same {m m' : M S} (h1 : m'.unique = m.unique) (h2 : m'.stack = m.stack)
    (h3 : m'.defining = m.defining) : Kept m m' := by
  refine ⟨h1, ?_⟩
  unfold M.numbers; rw [h2, h3]; exact fun _ h => h

theorem setFrame_numbers (f g : Frame S.Param) : ∀ st : List (Active S), frameOf st = some f →
    g.unique = f.unique → stackNumbers (setFrame g st) = stackNumbers st
  | [], h, _ => by simp [frameOf] at h
  | .rep _ :: st, h, e => by
    simp only [setFrame, stackNumbers]; exact setFrame_numbers f g st h e
  | .call _ f' :: st, h, e => by
    simp only [frameOf, Option.some.injEq] at h; subst h
    simp [setFrame, stackNumbers, e]

/-- What a directive leaves. -/
def KeptD (m : M S) : Dir S → Prop
  | .no _ m' | .found _ m' => Kept m m'
  | _ => True

theorem Kept.of_defining {m m' : M S} (h1 : m'.unique = m.unique)
    (h2 : m'.stack = m.stack) (h3 : m'.defining = none) : Kept m m' := by
  refine ⟨h1, ?_⟩
  unfold M.numbers; rw [h2, h3]; intro u h
  simp only [List.append_nil] at h
  exact List.mem_append_left _ h

theorem kd_ite {m : M S} {p : Prop} [Decidable p] {a b : Dir S} (ha : KeptD m a) (hb : KeptD m b) :
    KeptD m (if p then a else b) := by split <;> assumption

theorem doSwitch_kept (m : M S) (i : Nat) (l : S.Line) : KeptD m (doSwitch m i l) := by
  unfold doSwitch
  refine kd_ite ?_ ?_
  · unfold doIf; split
    · exact Kept.same rfl rfl rfl
    · exact Kept.same rfl rfl rfl
  refine kd_ite ?_ ?_
  · unfold doElif; split
    · trivial
    · split
      · exact Kept.same rfl rfl rfl
      · exact Kept.same rfl rfl rfl
  refine kd_ite ?_ ?_
  · unfold doElse; split
    · trivial
    · split
      · exact Kept.same rfl rfl rfl
      · exact Kept.same rfl rfl rfl
  refine kd_ite ?_ ?_
  · unfold doEndif; split
    · trivial
    · exact Kept.same rfl rfl rfl
  refine kd_ite ?_ ?_
  · unfold doMacro; split
    · trivial
    · rename_i hd
      split
      · exact Kept.same rfl rfl rfl
      · refine ⟨rfl, ?_⟩
        intro u h
        unfold M.numbers at h ⊢
        simp only [stackNumbers, List.append_nil] at h
        exact List.mem_append_left _ h
  refine kd_ite ?_ ?_
  · unfold doEndm; split
    · exact Kept.same rfl rfl rfl
    · split
      · trivial
      · exact Kept.of_defining rfl rfl rfl
  refine kd_ite ?_ ?_
  · unfold doRotate; split
    · exact Kept.same rfl rfl rfl
    · split
      · exact Kept.same rfl rfl rfl
      · rename_i n _ _ f hf
        split
        · exact Kept.same rfl rfl rfl
        · refine ⟨rfl, ?_⟩
          intro u h
          unfold M.numbers at h ⊢
          simp only at h
          rwa [setFrame_numbers f { f with rotate := turned f.params.length f.rotate n } _ hf rfl] at h
  refine kd_ite ?_ ?_
  · unfold doRep; split
    · exact Kept.same rfl rfl rfl
    · refine ⟨rfl, ?_⟩
      intro u h
      unfold M.numbers at h ⊢
      simp only [List.mem_append] at h ⊢
      exact Or.inl (h.elim id id)
  refine kd_ite ?_ ?_
  · unfold doEndrep; split
    · exact Kept.same rfl rfl rfl
    · rename_i d hd
      split
      · exact Kept.same rfl rfl rfl
      · refine ⟨rfl, ?_⟩
        intro u h
        unfold M.numbers at h ⊢
        simp only [stackNumbers, List.append_nil] at h
        rw [hd]
        exact List.mem_append_right _ h
  refine kd_ite ?_ ?_
  · unfold doExitrep; split
    · exact Kept.same rfl rfl rfl
    · exact Kept.same rfl rfl rfl
  refine kd_ite ?_ ?_
  · unfold doClear; split
    · trivial
    · exact Kept.same rfl rfl rfl
  exact Kept.same rfl rfl rfl

theorem directive_kept (m : M S) (l : S.Line) : KeptD m (directive m l) := by
  have hgo : ∀ k : Look, KeptD m (match k.idx, k.found with
      | some i, true => doSwitch m i l
      | _, _ => .no (m.report .unknown) m) := by
    intro k
    split
    · exact doSwitch_kept m _ l
    · exact Kept.same rfl rfl rfl
  unfold directive
  split
  · exact Kept.same rfl rfl rfl
  · rename_i w _
    simp only
    split
    · exact Kept.same rfl rfl rfl
    · split
      · exact hgo (look w)
      · split
        · exact Kept.same rfl rfl rfl
        split
        · exact Kept.same rfl rfl rfl
        split
        · exact Kept.same rfl rfl rfl
        split
        · exact Kept.same rfl rfl rfl
        split
        · exact Kept.same rfl rfl rfl
        exact hgo (look w)

/-- A call was begun, with the number the counter had. -/
def Begun (m m' : M S) : Prop :=
  m'.unique = m.unique + 1 ∧ ∀ u ∈ m'.numbers, u = m.unique ∨ u ∈ m.numbers

theorem Kept.trans {a b c : M S} (h : Kept a b) (h' : Kept b c) : Kept a c :=
  ⟨h'.1.trans h.1, fun u hu => h.2 u (h'.2 u hu)⟩

theorem pop_kept (m : M S) (mark : M S → M S) (hm : ∀ x, Kept x (mark x)) {es m'}
    (h : pop m mark = .next es m') : Kept m m' := by
  have hst : ∀ a st, m.stack = a :: st → ∀ m2, m2 = { m with stack := st } → Kept m m2 := by
    intro a st e m2 e2
    subst e2
    refine ⟨rfl, ?_⟩
    intro u hu
    unfold M.numbers at hu ⊢
    simp only [List.mem_append] at hu ⊢
    rcases hu with hu | hu
    · left; rw [e]; cases a <;> simp [stackNumbers, hu]
    · exact Or.inr hu
  unfold pop at h
  split at h
  · cases h
  · rename_i a st e
    have hgo : ∀ es' m'', (match a with
        | .call _ _ => Res.next [] (mark { m with stack := st })
        | .rep _ => .next [] { m with stack := st }) = .next es' m'' → Kept m m'' := by
      intro es' m'' hx
      split at hx
      · injection hx with _ hx; subst hx
        exact (hst _ st e _ rfl).trans (hm _)
      · injection hx with _ hx; subst hx
        exact hst _ st e _ rfl
    simp only at h
    split at h
    · exact hgo _ _ h
    · split at h
      · cases h
      · split at h
        · split at h
          · cases h
          · exact hgo _ _ h
        · exact hgo _ _ h

theorem doLine_number (m : M S) (l : S.Line) {es m'} (h : doLine m l = .next es m') :
    Kept m m' ∨ Begun m m' := by
  have hd := directive_kept m (cur m l)
  unfold doLine at h
  cases hx : directive m (cur m l) with
  | fatal => rw [hx] at h; simp [afterDir] at h
  | crash => rw [hx] at h; simp [afterDir] at h
  | found es1 m1 =>
    rw [hx] at h hd
    simp only [afterDir, Res.next.injEq] at h
    left; rw [← h.2]; exact hd
  | no es1 m1 =>
    rw [hx] at h hd
    have hd : Kept m m1 := hd
    simp only [afterDir] at h
    split at h
    · rename_i d hdef
      injection h with _ h; subst h
      left
      refine hd.trans ⟨rfl, ?_⟩
      intro u hu
      unfold M.numbers at hu ⊢
      rw [hdef]; exact hu
    · rename_i hdef
      split at h
      · injection h with _ h; subst h; exact Or.inl hd
      split at h
      · injection h with _ h; subst h; exact Or.inl hd
      split at h
      · injection h with _ h; subst h; exact Or.inl hd
      · injection h with _ h; subst h
        right
        refine ⟨by show m1.unique + 1 = _; rw [hd.1], ?_⟩
        intro u hu
        unfold M.numbers expand at hu
        simp only [hdef, List.append_nil, stackNumbers, List.mem_cons] at hu
        rcases hu with hu | hu
        · left; rw [hu, hd.1]
        · right; apply hd.2; unfold M.numbers; exact List.mem_append_left _ hu

theorem step_number {m m' : M S} {es} (h : step m = .next es m') : Kept m m' ∨ Begun m m' := by
  unfold step at h
  split at h
  · split at h <;> cases h
  · rename_i l rest _
    exact doLine_number { m with items := rest } l h
  · rename_i id body rest _
    split at h
    · injection h with _ h; subst h; exact Or.inl (Kept.same rfl rfl rfl)
    · exact Or.inl (pop_kept { m with items := rest } (fun m => { m with prog := upd m.prog id 0 })
        (fun _ => Kept.same rfl rfl rfl) h)
  · rename_i id rest _
    exact Or.inl (pop_kept { m with items := rest } (fun m => { m with busy := upd m.busy id false })
      (fun _ => Kept.same rfl rfl rfl) h)

theorem run_below : ∀ (k : Nat) (m : M S) {es m'}, run k m = (es, .inl m') → (∀ u ∈ m.numbers, u < m.unique) →
    m.unique ≤ m'.unique ∧ ∀ u ∈ m'.numbers, u < m'.unique
  | 0, m, es, m', h, hm => by
    simp only [run, Prod.mk.injEq, Sum.inl.injEq] at h
    rw [← h.2]; exact ⟨Nat.le_refl _, hm⟩
  | k + 1, m, es, m', h, hm => by
    simp only [run] at h
    split at h
    · cases h
    · rename_i es1 m1 hs
      have h2 : run k m1 = ((run k m1).1, .inl m') := by
        have := congrArg Prod.snd h
        simp only at this
        rw [← this]
      rcases step_number hs with hk | hk
      · have := run_below k m1 h2 (fun u hu => by rw [hk.1]; exact hm u (hk.2 u hu))
        rw [hk.1] at this; exact this
      · have := run_below k m1 h2 (fun u hu => by
          rw [hk.1]
          rcases hk.2 u hu with e | e
          · omega
          · have := hm u e; omega)
        rw [hk.1] at this; exact ⟨by omega, this.2⟩

/-- A run that has ended says how every run ends. -/
theorem run_unique : ∀ (k k' : Nat) (m : M S) {es e es' e'}, run k m = (es, .inr e) →
    run k' m = (es', .inr e') → es = es' ∧ e = e'
  | 0, _, m, es, e, es', e', h, _ => by simp [run] at h
  | _, 0, m, es, e, es', e', _, h => by simp [run] at h
  | k + 1, k' + 1, m, es, e, es', e', h, h' => by
    simp only [run] at h h'
    split at h
    · rename_i es0 e0 hs
      rw [hs] at h'
      simp only [Prod.mk.injEq, Sum.inr.injEq] at h h'
      exact ⟨h.1.symm.trans h'.1, h.2.symm.trans h'.2⟩
    · rename_i es1 m1 hs
      rw [hs] at h'
      simp only at h h'
      have h2 : run k m1 = ((run k m1).1, .inr e) := by
        have := congrArg Prod.snd h; simp only at this; rw [← this]
      have h3 : run k' m1 = ((run k' m1).1, .inr e') := by
        have := congrArg Prod.snd h'; simp only at this; rw [← this]
      obtain ⟨i1, i2⟩ := run_unique k k' m1 h2 h3
      have e1 := congrArg Prod.fst h
      have e2 := congrArg Prod.fst h'
      simp only at e1 e2
      exact ⟨by rw [← e1, ← e2, i1], i2⟩

end Verif.Pp
