import Verif.Pp.Skip
/-
Lemmas: the rest of a `%rep` block after `%exitrep`, and the lines of something being defined.
-/
namespace Verif.Pp
variable {S : Sig}

/-! ## After `%exitrep` -/

/-- What conditions depend on is the same. -/
def Same (e : Env S) (m : M S) : Prop :=
  m.user = e.user ∧ m.defs.map (·.head) = e.defs.map (·.head) ∧ frameOf m.stack = e.frame

theorem holds_eq {e : Env S} {m : M S} (h : Same e m) (l : S.Line) :
    S.cond m.user (m.defs.map (·.head)) (S.subst (frameOf m.stack) l) = holds e l := by
  unfold holds; rw [h.1, h.2.1, h.2.2]

theorem cur_live {m : M S} (hd : m.defining = none) (hl : m.live = true) (l : S.Line) :
    cur m l = S.subst (frameOf m.stack) l := by
  unfold cur; simp [hd, hl]

theorem cur_dead {m : M S} (hl : m.live = false) (l : S.Line) : cur m l = l := by
  unfold cur; simp [hl]

theorem idle_one {m : M S} {l : S.Line} {rest} (h : m.items = .line l :: rest)
    (hd : m.defining = none) (hl : m.live = true) (hr : m.running = false)
    (hw : ∀ w, S.word (S.subst (frameOf m.stack) l) = some w → isCond (look w).idx = false) :
    step m = .next [] { m with items := rest } := by
  rw [step_line h]
  refine doLine_skip _ (by exact hd) ?_ (.inr hr)
  refine directive_dead _ _ (.inr hr) ?_
  rw [cur_live (by exact hd) (by exact hl)]; exact hw

theorem subst_notCond (hL : Lawful S) {l : S.Line} {i : Nat} (h : kind S l = some i)
    (hc : isCond (some i) = false) (f : Option (Frame S.Param)) :
    ∀ w, S.word (S.subst f l) = some w → isCond (look w).idx = false := by
  intro w hw
  rw [hL.subst_word _ _ _ h] at hw
  exact kind_notCond h hc w hw

/-- `%if` with a condition that has a value. -/
theorem step_if (hL : Lawful S) {e : Env S} {m : M S} {l : S.Line} {i : Nat} {rest} {v : Bool}
    (h : m.items = .line l :: rest) (hk : kind S l = some i) (hp : ppIf ≤ i ∧ i ≤ ppIfstr)
    (hd : m.defining = none) (hl : m.live = true) (hs : Same e m) (hv : holds e l = some v) :
    step m = .next [] { m with items := rest, conds := Cond.of (some v) :: m.conds } := by
  rw [step_line h]
  refine doLine_cond hL _ hk (cond_if hp) (by exact hd) ?_
  rw [switch_if _ hp, cur_live (by exact hd) (by exact hl)]
  have := holds_eq hs l
  rw [hv] at this
  unfold doIf
  rw [if_pos (by exact hl)]
  simp only [this]
  simp

/-- `%elif` after branches that were not assembled. -/
theorem step_elif (hL : Lawful S) {e : Env S} {m : M S} {l : S.Line} {i : Nat} {rest cs} {v : Bool}
    (h : m.items = .line l :: rest) (hk : kind S l = some i) (hp : ppElif ≤ i ∧ i ≤ ppElifstr)
    (hd : m.defining = none) (hc : m.conds = .ifFalse :: cs) (hs : Same e m) (hv : holds e l = some v) :
    step m = .next [] { m with items := rest, conds := Cond.of (some v) :: cs } := by
  rw [step_line h]
  refine doLine_cond hL _ hk (cond_elif hp) (by exact hd) ?_
  rw [switch_elif _ hp, cur_dead (by unfold M.live; simp only [hc]; rfl)]
  have := holds_eq hs l
  rw [hv] at this
  unfold doElif
  simp only [hc]
  rw [if_neg (by simp [Cond.emits])]
  simp only [this]
  simp

/-- `%else` after branches that were not assembled. -/
theorem step_else (hL : Lawful S) {m : M S} {l : S.Line} {rest cs}
    (h : m.items = .line l :: rest) (hk : kind S l = some ppElse)
    (hd : m.defining = none) (hc : m.conds = .ifFalse :: cs) :
    step m = .next [] { m with items := rest, conds := .elseTrue :: cs } := by
  rw [step_line h]
  refine doLine_cond hL _ hk rfl (by exact hd) ?_
  rw [switch_else]
  unfold doElse
  simp only [hc]
  rw [if_neg (by simp [Cond.emits])]

/-- `%endif`. -/
theorem step_endif (hL : Lawful S) {m : M S} {l : S.Line} {rest c cs}
    (h : m.items = .line l :: rest) (hk : kind S l = some ppEndif)
    (hd : m.defining = none) (hc : m.conds = c :: cs) :
    step m = .next [] { m with items := rest, conds := cs } := by
  rw [step_line h]
  refine doLine_cond hL _ hk rfl (by exact hd) ?_
  rw [switch_endif]
  unfold doEndif
  simp only [hc]

mutual
theorem idle (hL : Lawful S) (e : Env S) (top r : Bool) : (b : Block S.Line) → (m : M S) →
    (rest : List (Item S)) → b.ok S top r = true → b.quiet e = true → Same e m →
    m.items = b.lines.map .line ++ rest → m.live = true → m.running = false → m.defining = none →
    Reach m [] { m with items := rest }
  | .nil, m, rest, _, _, _, hi, _, _, _ => by
    have : m.items = rest := by simpa [Block.lines] using hi
    rw [← this]; exact Reach.refl m
  | .text l k, m, rest, ho, hq, hs, hi, hl, hr, hd => by
    simp only [Block.ok, Bool.and_eq_true] at ho
    simp only [Block.quiet, Bool.and_eq_true] at hq
    simp only [Block.lines, List.map_cons, List.cons_append] at hi
    refine Reach.cons (idle_one hi hd hl hr ?_)
      (idle hL e top r k { m with items := k.lines.map .line ++ rest } rest ho.2 hq.2 hs rfl hl hr hd)
    intro w hw
    have h1 := hq.1
    rw [← hs.2.2, hw] at h1
    simpa using h1
  | .plain l k, m, rest, ho, hq, hs, hi, hl, hr, hd => by
    simp only [Block.ok, Bool.and_eq_true] at ho
    simp only [Block.quiet] at hq
    simp only [Block.lines, List.map_cons, List.cons_append] at hi
    obtain ⟨i, hk, hp⟩ := isKind_iff ho.1
    exact Reach.cons (idle_one hi hd hl hr (subst_notCond hL hk (isPlain_cond hp) _))
      (idle hL e top r k { m with items := k.lines.map .line ++ rest } rest ho.2 hq hs rfl hl hr hd)
  | .rotate l k, m, rest, ho, hq, hs, hi, hl, hr, hd => by
    simp only [Block.ok, Bool.and_eq_true] at ho
    simp only [Block.quiet] at hq
    simp only [Block.lines, List.map_cons, List.cons_append] at hi
    obtain ⟨i, hk, hp⟩ := isKind_iff ho.1
    have : i = ppRotate := by simpa using hp
    subst this
    exact Reach.cons (idle_one hi hd hl hr (subst_notCond hL hk rfl _))
      (idle hL e top r k { m with items := k.lines.map .line ++ rest } rest ho.2 hq hs rfl hl hr hd)
  | .exitrep l k, m, rest, ho, hq, hs, hi, hl, hr, hd => by
    simp only [Block.ok, Bool.and_eq_true] at ho
    simp only [Block.quiet] at hq
    simp only [Block.lines, List.map_cons, List.cons_append] at hi
    obtain ⟨i, hk, hp⟩ := isKind_iff ho.1.2
    have : i = ppExitrep := by simpa using hp
    subst this
    exact Reach.cons (idle_one hi hd hl hr (subst_notCond hL hk rfl _))
      (idle hL e top r k { m with items := k.lines.map .line ++ rest } rest ho.2 hq hs rfl hl hr hd)
  | .macro l b e' k, m, rest, ho, hq, hs, hi, hl, hr, hd => by
    simp only [Block.ok, Bool.and_eq_true] at ho
    simp only [Block.quiet, Bool.and_eq_true] at hq
    simp only [Block.lines, List.map_cons, List.cons_append, List.map_append, List.append_assoc] at hi
    obtain ⟨i, hk, hp⟩ := isKind_iff ho.1.1.1
    obtain ⟨j, hk2, hp2⟩ := isKind_iff ho.1.2
    have hi1 : isCond (some i) = false := by
      have : i = ppMacro ∨ i = ppImacro := by simpa using hp
      rcases this with rfl | rfl <;> rfl
    have hj1 : isCond (some j) = false := by
      have : j = ppEndmacro ∨ (top = true ∧ j = ppEndm) := by simpa using hp2
      rcases this with rfl | ⟨_, rfl⟩ <;> rfl
    refine Reach.cons (idle_one hi hd hl hr (subst_notCond hL hk hi1 _)) ?_
    refine Reach.then (idle hL e false false b _ _ ho.1.1.2 hq.1 (by exact hs) rfl hl hr hd) ?_
    exact Reach.cons (idle_one rfl hd hl hr (subst_notCond hL hk2 hj1 _))
      (idle hL e top r k { m with items := k.lines.map .line ++ rest } rest ho.2 hq.2 hs rfl hl hr hd)
  | .rep l b e' k, m, rest, ho, hq, hs, hi, hl, hr, hd => by
    simp only [Block.ok, Bool.and_eq_true] at ho
    simp only [Block.quiet, Bool.and_eq_true] at hq
    simp only [Block.lines, List.map_cons, List.cons_append, List.map_append, List.append_assoc] at hi
    obtain ⟨i, hk, hp⟩ := isKind_iff ho.1.1.1
    obtain ⟨j, hk2, hp2⟩ := isKind_iff ho.1.2
    have hi1 : i = ppRep := by simpa using hp
    have hj1 : j = ppEndrep := by simpa using hp2
    subst hi1; subst hj1
    refine Reach.cons (idle_one hi hd hl hr (subst_notCond hL hk rfl _)) ?_
    refine Reach.then (idle hL e false true b _ _ ho.1.1.2 hq.1 (by exact hs) rfl hl hr hd) ?_
    exact Reach.cons (idle_one rfl hd hl hr (subst_notCond hL hk2 rfl _))
      (idle hL e top r k { m with items := k.lines.map .line ++ rest } rest ho.2 hq.2 hs rfl hl hr hd)
  | .cond l b arms k, m, rest, ho, hq, hs, hi, hl, hr, hd => by
    simp only [Block.ok, Bool.and_eq_true] at ho
    simp only [Block.quiet, Bool.and_eq_true] at hq
    simp only [Block.lines, List.map_cons, List.cons_append, List.map_append, List.append_assoc] at hi
    obtain ⟨i, hk, hp⟩ := isKind_iff ho.1.1.1
    have hp : ppIf ≤ i ∧ i ≤ ppIfstr := by simpa using hp
    obtain ⟨v, hv⟩ := Option.isSome_iff_exists.mp hq.1.1.1
    refine Reach.cons (step_if hL hi hk hp hd hl hs hv) ?_
    have hk' := idle hL e top r k { m with items := k.lines.map .line ++ rest } rest ho.2 hq.2 hs rfl hl hr hd
    cases v with
    | true =>
      refine Reach.then (idle hL e top r b _ _ ho.1.1.2 hq.1.1.2 (by exact hs) rfl rfl (by exact hr) hd) ?_
      exact Reach.then (deadArms hL top r arms _ _ (c := .ifTrue) (cs := m.conds) ho.1.2 rfl rfl (.inl rfl) hd) hk'
    | false =>
      refine Reach.then (dead hL top r b _ _ ho.1.1.2 rfl rfl hd) ?_
      exact Reach.then (idleArms hL e top r arms _ _ (cs := m.conds) ho.1.2 hq.1.2 (by exact hs) rfl rfl
        (by exact hr) hd) hk'
theorem idleArms (hL : Lawful S) (e : Env S) (top r : Bool) : (a : Arms S.Line) → (m : M S) →
    (rest : List (Item S)) → {cs : List Cond} →
    a.ok S top r = true → a.quiet e = true → Same e m → m.items = a.lines.map .line ++ rest →
    m.conds = .ifFalse :: cs → m.running = false → m.defining = none →
    Reach m [] { m with items := rest, conds := cs }
  | .endif l, m, rest, cs, ho, hq, hs, hi, hc, hr, hd => by
    simp only [Arms.ok] at ho
    simp only [Arms.lines, List.map_cons, List.map_nil, List.cons_append, List.nil_append] at hi
    obtain ⟨i, hk, hp⟩ := isKind_iff ho
    have hi1 : i = ppEndif := by simpa using hp
    subst hi1
    exact Reach.one (step_endif hL hi hk hd hc)
  | .els l b e', m, rest, cs, ho, hq, hs, hi, hc, hr, hd => by
    simp only [Arms.ok, Bool.and_eq_true] at ho
    simp only [Arms.quiet] at hq
    simp only [Arms.lines, List.map_cons, List.map_nil, List.cons_append, List.nil_append,
      List.map_append, List.append_assoc] at hi
    obtain ⟨i, hk, hp⟩ := isKind_iff ho.1.1
    have hi1 : i = ppElse := by simpa using hp
    subst hi1
    obtain ⟨j, hk2, hp2⟩ := isKind_iff ho.2
    have hj1 : j = ppEndif := by simpa using hp2
    subst hj1
    refine Reach.cons (step_else hL hi hk hd hc) ?_
    refine Reach.then (idle hL e top r b _ _ ho.1.2 hq (by exact hs) rfl rfl (by exact hr) hd) ?_
    exact Reach.one (step_endif hL rfl hk2 hd rfl)
  | .elif l b more, m, rest, cs, ho, hq, hs, hi, hc, hr, hd => by
    simp only [Arms.ok, Bool.and_eq_true] at ho
    simp only [Arms.quiet, Bool.and_eq_true] at hq
    simp only [Arms.lines, List.map_cons, List.cons_append, List.map_append, List.append_assoc] at hi
    obtain ⟨i, hk, hp⟩ := isKind_iff ho.1.1
    have hp : ppElif ≤ i ∧ i ≤ ppElifstr := by simpa using hp
    obtain ⟨v, hv⟩ := Option.isSome_iff_exists.mp hq.1.1
    refine Reach.cons (step_elif hL hi hk hp hd hc hs hv) ?_
    cases v with
    | true =>
      refine Reach.then (idle hL e top r b _ _ ho.1.2 hq.1.2 (by exact hs) rfl rfl (by exact hr) hd) ?_
      exact deadArms hL top r more _ _ (c := .ifTrue) (cs := cs) ho.2 rfl rfl (.inl rfl) hd
    | false =>
      refine Reach.then (dead hL top r b _ _ ho.1.2 rfl rfl hd) ?_
      exact idleArms hL e top r more _ _ (cs := cs) ho.2 hq.2 (by exact hs) rfl rfl (by exact hr) hd
end

/-! ## Lines of something being defined -/

theorem record_one {m m1 : M S} {l : S.Line} {rest} {d : Defining S} (h : m.items = .line l :: rest)
    (hd : m.defining = some d)
    (hdir : directive { m with items := rest } l = .no [] m1) (hd1 : m1.defining = some d) :
    step m = .next [] { m1 with defining := some { d with body := l :: d.body } } := by
  rw [step_line h]
  have : cur { m with items := rest } l = l := by unfold cur; simp [hd]
  unfold doLine
  rw [this, hdir]
  simp only [afterDir, hd1]

/-- A line that is none of the directives counted while something is being defined. -/
theorem directive_other (m : M S) {l : S.Line} {d : Defining S} (hd : m.defining = some d)
    (h : ∀ w, S.word l = some w →
      (look w).idx ≠ some ppMacro ∧ (look w).idx ≠ some ppImacro ∧ (look w).idx ≠ some ppEndmacro ∧
        (look w).idx ≠ some ppEndm ∧
        (d.head.isSome ∨ ((look w).idx ≠ some ppEndrep ∧ (look w).idx ≠ some ppRep))) :
    directive m l = .no [] m := by
  unfold directive
  split
  · rfl
  · rename_i w hw
    have h1 := h w hw
    simp only [hd]
    rw [if_pos h1]
    split <;> rfl

theorem kind_other (m : M S) {l : S.Line} {i : Nat} {d : Defining S} (hd : m.defining = some d)
    (hk : kind S l = some i)
    (h : i ≠ ppMacro ∧ i ≠ ppImacro ∧ i ≠ ppEndmacro ∧ i ≠ ppEndm ∧ i ≠ ppEndrep ∧ i ≠ ppRep) :
    directive m l = .no [] m := by
  apply directive_other m hd
  intro w hw
  obtain ⟨w', hw', hl⟩ := kind_word hk
  rw [hw] at hw'; cases hw'
  rw [hl]
  simpa using ⟨h.1, h.2.1, h.2.2.1, h.2.2.2.1, Or.inr h.2.2.2.2⟩

theorem neutral_other (m : M S) {l : S.Line} {d : Defining S} (hd : m.defining = some d)
    (hk : neutral S l = true) : directive m l = .no [] m := by
  apply directive_other m hd
  intro w hw
  unfold neutral at hk
  rw [hw] at hk
  simp at hk
  rw [hk]; simp

/-- The tests passed, for a directive that is looked at while something is being defined. -/
theorem directive_def (m : M S) {l : S.Line} {i : Nat} {d : Defining S} (hd : m.defining = some d)
    (hl : m.live = true) (hr : m.running = true) (hk : kind S l = some i) :
    directive m l =
      if i ≠ ppMacro ∧ i ≠ ppImacro ∧ i ≠ ppEndmacro ∧ i ≠ ppEndm ∧
            (d.head.isSome ∨ (i ≠ ppEndrep ∧ i ≠ ppRep)) then .no [] m
        else if i = ppMacro ∨ i = ppImacro then
          .no [] { m with nestMac := m.nestMac + 1 }
        else if m.nestMac > 0 ∧ i = ppEndmacro then
          .no [] { m with nestMac := m.nestMac - 1 }
        else if d.head.isNone ∧ i = ppRep then
          .no [] { m with nestRep := m.nestRep + 1 }
        else if d.head.isNone ∧ m.nestRep > 0 ∧ i = ppEndrep then
          .no [] { m with nestRep := m.nestRep - 1 }
        else doSwitch m i l := by
  obtain ⟨w, hw, hlk⟩ := kind_word hk
  unfold directive
  rw [hw]
  simp only [hlk, hd, hl, hr, Option.some.injEq, ne_eq]
  simp

theorem plain_other {i : Nat} (h : isPlain i = true) :
    i ≠ ppMacro ∧ i ≠ ppImacro ∧ i ≠ ppEndmacro ∧ i ≠ ppEndm ∧ i ≠ ppEndrep ∧ i ≠ ppRep := by
  refine ⟨?_, ?_, ?_, ?_, ?_, ?_⟩ <;> (rintro rfl; revert h; decide)

theorem if_other {i : Nat} (h : ppIf ≤ i ∧ i ≤ ppIfstr) :
    i ≠ ppMacro ∧ i ≠ ppImacro ∧ i ≠ ppEndmacro ∧ i ≠ ppEndm ∧ i ≠ ppEndrep ∧ i ≠ ppRep := by
  refine ⟨?_, ?_, ?_, ?_, ?_, ?_⟩ <;> (rintro rfl; revert h; decide)

theorem elif_other {i : Nat} (h : ppElif ≤ i ∧ i ≤ ppElifstr) :
    i ≠ ppMacro ∧ i ≠ ppImacro ∧ i ≠ ppEndmacro ∧ i ≠ ppEndm ∧ i ≠ ppEndrep ∧ i ≠ ppRep := by
  refine ⟨?_, ?_, ?_, ?_, ?_, ?_⟩ <;> (rintro rfl; revert h; decide)

/-- The state with lines recorded. -/
def recorded (m : M S) (d : Defining S) (ls : List S.Line) (rest : List (Item S)) : M S :=
  { m with items := rest, defining := some { d with body := ls.reverse ++ d.body } }

theorem record_same {m : M S} {l : S.Line} {rest} {d : Defining S} (h : m.items = .line l :: rest)
    (hd : m.defining = some d)
    (hdir : directive { m with items := rest } l = .no [] { m with items := rest }) :
    step m = .next [] (recorded m d [l] rest) := by
  rw [record_one h hd hdir hd]; rfl

theorem recorded_trans (m : M S) (d : Defining S) (ls ls' : List S.Line) (r r' : List (Item S)) :
    recorded (recorded m d ls r) { d with body := ls.reverse ++ d.body } ls' r' =
      recorded m d (ls ++ ls') r' := by
  simp [recorded]

mutual
theorem record (hL : Lawful S) (r : Bool) : (b : Block S.Line) → (m : M S) → (d : Defining S) →
    (rest : List (Item S)) → b.ok S false r = true → m.items = b.lines.map .line ++ rest →
    m.defining = some d → m.live = true → m.running = true →
    Reach m [] (recorded m d b.lines rest)
  | .nil, m, d, rest, _, hi, hd, _, _ => by
    have : m.items = rest := by simpa [Block.lines] using hi
    have h2 : recorded m d (Block.nil : Block S.Line).lines rest = m := by
      unfold recorded; rw [← this]; cases m; simp_all [Block.lines]
    rw [h2]; exact Reach.refl m
  | .text l k, m, d, rest, ho, hi, hd, hl, hr => by
    simp only [Block.ok, Bool.and_eq_true] at ho
    simp only [Block.lines, List.map_cons, List.cons_append] at hi
    refine Reach.cons (record_same hi hd (neutral_other _ hd ho.1)) ?_
    have := record hL r k (recorded m d [l] (k.lines.map .line ++ rest)) _ rest ho.2 rfl rfl hl hr
    rw [recorded_trans] at this; exact this
  | .plain l k, m, d, rest, ho, hi, hd, hl, hr => by
    simp only [Block.ok, Bool.and_eq_true] at ho
    simp only [Block.lines, List.map_cons, List.cons_append] at hi
    obtain ⟨i, hk, hp⟩ := isKind_iff ho.1
    refine Reach.cons (record_same hi hd (kind_other _ hd hk (plain_other hp))) ?_
    have := record hL r k (recorded m d [l] (k.lines.map .line ++ rest)) _ rest ho.2 rfl rfl hl hr
    rw [recorded_trans] at this; exact this
  | .rotate l k, m, d, rest, ho, hi, hd, hl, hr => by
    simp only [Block.ok, Bool.and_eq_true] at ho
    simp only [Block.lines, List.map_cons, List.cons_append] at hi
    obtain ⟨i, hk, hp⟩ := isKind_iff ho.1
    have : i = ppRotate := by simpa using hp
    subst this
    refine Reach.cons (record_same hi hd (kind_other _ hd hk (by decide))) ?_
    have := record hL r k (recorded m d [l] (k.lines.map .line ++ rest)) _ rest ho.2 rfl rfl hl hr
    rw [recorded_trans] at this; exact this
  | .exitrep l k, m, d, rest, ho, hi, hd, hl, hr => by
    simp only [Block.ok, Bool.and_eq_true] at ho
    simp only [Block.lines, List.map_cons, List.cons_append] at hi
    obtain ⟨i, hk, hp⟩ := isKind_iff ho.1.2
    have : i = ppExitrep := by simpa using hp
    subst this
    refine Reach.cons (record_same hi hd (kind_other _ hd hk (by decide))) ?_
    have := record hL r k (recorded m d [l] (k.lines.map .line ++ rest)) _ rest ho.2 rfl rfl hl hr
    rw [recorded_trans] at this; exact this
  | .macro l b e' k, m, d, rest, ho, hi, hd, hl, hr => by
    simp only [Block.ok, Bool.and_eq_true] at ho
    simp only [Block.lines, List.map_cons, List.cons_append, List.map_append, List.append_assoc] at hi
    obtain ⟨i, hk, hp⟩ := isKind_iff ho.1.1.1
    obtain ⟨j, hk2, hp2⟩ := isKind_iff ho.1.2
    have hi1 : i = ppMacro ∨ i = ppImacro := by simpa using hp
    have hj1 : j = ppEndmacro := by simpa using hp2
    subst hj1
    have h1 : step m = .next [] { recorded m d [l] (b.lines.map .line ++ (.line e' :: (k.lines.map .line ++ rest))) with
        nestMac := m.nestMac + 1 } := by
      rw [record_one hi hd (m1 := { m with
        items := b.lines.map .line ++ (.line e' :: (k.lines.map .line ++ rest)), nestMac := m.nestMac + 1 }) ?_ hd]
      · rfl
      · rw [directive_def (d := d) _ (by exact hd) (by exact hl) (by exact hr) hk]
        rw [if_neg (by tauto), if_pos hi1]
    refine Reach.cons h1 (Reach.then (record hL false b _ _ _ ho.1.1.2 rfl rfl hl hr) ?_)
    have h2 : step (recorded { recorded m d [l] (b.lines.map .line ++ (.line e' :: (k.lines.map .line ++ rest))) with
        nestMac := m.nestMac + 1 } { d with body := [l].reverse ++ d.body } b.lines (.line e' :: (k.lines.map .line ++ rest)))
        = .next [] (recorded m d (l :: (b.lines ++ [e'])) (k.lines.map .line ++ rest)) := by
      rw [record_one (m1 := { recorded m d (l :: b.lines) (k.lines.map .line ++ rest) with
        nestMac := m.nestMac }) (d := { d with body := (l :: b.lines).reverse ++ d.body }) rfl (by simp [recorded]) ?_ rfl]
      · simp [recorded]
      · rw [directive_def (d := { d with body := (l :: b.lines).reverse ++ d.body }) _ (by simp [recorded]) (by exact hl) (by exact hr) hk2]
        rw [if_neg (by tauto), if_neg (by decide), if_pos ⟨Nat.succ_pos _, rfl⟩]
        simp [recorded]
    refine Reach.cons h2 ?_
    have := record hL r k (recorded m d (l :: (b.lines ++ [e'])) (k.lines.map .line ++ rest)) _ rest ho.2 rfl rfl hl hr
    rw [recorded_trans] at this
    simpa [Block.lines] using this
  | .rep l b e' k, m, d, rest, ho, hi, hd, hl, hr => by
    simp only [Block.ok, Bool.and_eq_true] at ho
    simp only [Block.lines, List.map_cons, List.cons_append, List.map_append, List.append_assoc] at hi
    obtain ⟨i, hk, hp⟩ := isKind_iff ho.1.1.1
    obtain ⟨j, hk2, hp2⟩ := isKind_iff ho.1.2
    have hi1 : i = ppRep := by simpa using hp
    have hj1 : j = ppEndrep := by simpa using hp2
    subst hi1; subst hj1
    cases hh : d.head.isSome with
    | true =>
      have h1 : step m = .next [] (recorded m d [l] (b.lines.map .line ++ (.line e' :: (k.lines.map .line ++ rest)))) := by
        refine record_same hi hd ?_
        rw [directive_def (d := d) _ (by exact hd) (by exact hl) (by exact hr) hk]
        rw [if_pos ⟨by decide, by decide, by decide, by decide, .inl hh⟩]
      refine Reach.cons h1 (Reach.then (record hL true b _ _ _ ho.1.1.2 rfl rfl hl hr) ?_)
      rw [recorded_trans]
      have h2 : step (recorded m d ([l] ++ b.lines) (.line e' :: (k.lines.map .line ++ rest)))
          = .next [] (recorded m d (l :: (b.lines ++ [e'])) (k.lines.map .line ++ rest)) := by
        rw [record_same (d := { d with body := ([l] ++ b.lines).reverse ++ d.body }) rfl rfl ?_]
        · simp [recorded]
        · rw [directive_def (d := { d with body := ([l] ++ b.lines).reverse ++ d.body }) _ rfl (by exact hl) (by exact hr) hk2]
          rw [if_pos ⟨by decide, by decide, by decide, by decide, .inl hh⟩]
      refine Reach.cons h2 ?_
      have := record hL r k (recorded m d (l :: (b.lines ++ [e'])) (k.lines.map .line ++ rest)) _ rest ho.2 rfl rfl hl hr
      rw [recorded_trans] at this
      simpa [Block.lines] using this
    | false =>
      have hn : d.head.isNone = true := by cases h : d.head <;> simp_all
      have h1 : step m = .next [] { recorded m d [l] (b.lines.map .line ++ (.line e' :: (k.lines.map .line ++ rest))) with
          nestRep := m.nestRep + 1 } := by
        rw [record_one hi hd (m1 := { m with
          items := b.lines.map .line ++ (.line e' :: (k.lines.map .line ++ rest)), nestRep := m.nestRep + 1 }) ?_ hd]
        · rfl
        · rw [directive_def (d := d) _ (by exact hd) (by exact hl) (by exact hr) hk]
          rw [if_neg (by simp [hh]), if_neg (by decide), if_neg (by simp [ppRep, ppEndmacro]),
            if_pos ⟨hn, rfl⟩]
      refine Reach.cons h1 (Reach.then (record hL true b _ _ _ ho.1.1.2 rfl rfl hl hr) ?_)
      have h2 : step (recorded { recorded m d [l] (b.lines.map .line ++ (.line e' :: (k.lines.map .line ++ rest))) with
          nestRep := m.nestRep + 1 } { d with body := [l].reverse ++ d.body } b.lines (.line e' :: (k.lines.map .line ++ rest)))
          = .next [] (recorded m d (l :: (b.lines ++ [e'])) (k.lines.map .line ++ rest)) := by
        rw [record_one (m1 := { recorded m d (l :: b.lines) (k.lines.map .line ++ rest) with
          nestRep := m.nestRep }) (d := { d with body := (l :: b.lines).reverse ++ d.body }) rfl (by simp [recorded]) ?_ rfl]
        · simp [recorded]
        · rw [directive_def (d := { d with body := (l :: b.lines).reverse ++ d.body }) _ (by simp [recorded]) (by exact hl) (by exact hr) hk2]
          rw [if_neg (by simp [hh]), if_neg (by decide), if_neg (by simp [ppEndrep, ppEndmacro]),
            if_neg (by simp [ppEndrep, ppRep]), if_pos ⟨hn, Nat.succ_pos _, rfl⟩]
          simp [recorded]
      refine Reach.cons h2 ?_
      have := record hL r k (recorded m d (l :: (b.lines ++ [e'])) (k.lines.map .line ++ rest)) _ rest ho.2 rfl rfl hl hr
      rw [recorded_trans] at this
      simpa [Block.lines] using this
  | .cond l b arms k, m, d, rest, ho, hi, hd, hl, hr => by
    simp only [Block.ok, Bool.and_eq_true] at ho
    simp only [Block.lines, List.map_cons, List.cons_append, List.map_append, List.append_assoc] at hi
    obtain ⟨i, hk, hp⟩ := isKind_iff ho.1.1.1
    have hp : ppIf ≤ i ∧ i ≤ ppIfstr := by simpa using hp
    refine Reach.cons (record_same hi hd (kind_other _ hd hk (if_other hp))) ?_
    refine Reach.then (record hL r b _ _ _ ho.1.1.2 rfl rfl hl hr) ?_
    rw [recorded_trans]
    refine Reach.then (recordArms hL r arms _ _ _ ho.1.2 rfl rfl hl hr) ?_
    rw [recorded_trans]
    have := record hL r k (recorded m d ([l] ++ b.lines ++ arms.lines) (k.lines.map .line ++ rest)) _ rest ho.2 rfl rfl hl hr
    rw [recorded_trans] at this
    simpa [Block.lines] using this
theorem recordArms (hL : Lawful S) (r : Bool) : (a : Arms S.Line) → (m : M S) → (d : Defining S) →
    (rest : List (Item S)) → a.ok S false r = true → m.items = a.lines.map .line ++ rest →
    m.defining = some d → m.live = true → m.running = true →
    Reach m [] (recorded m d a.lines rest)
  | .endif l, m, d, rest, ho, hi, hd, hl, hr => by
    simp only [Arms.ok] at ho
    simp only [Arms.lines, List.map_cons, List.map_nil, List.cons_append, List.nil_append] at hi
    obtain ⟨i, hk, hp⟩ := isKind_iff ho
    have hi1 : i = ppEndif := by simpa using hp
    subst hi1
    exact Reach.one (record_same hi hd (kind_other _ hd hk (by decide)))
  | .els l b e', m, d, rest, ho, hi, hd, hl, hr => by
    simp only [Arms.ok, Bool.and_eq_true] at ho
    simp only [Arms.lines, List.map_cons, List.map_nil, List.cons_append, List.nil_append,
      List.map_append, List.append_assoc] at hi
    obtain ⟨i, hk, hp⟩ := isKind_iff ho.1.1
    have hi1 : i = ppElse := by simpa using hp
    subst hi1
    obtain ⟨j, hk2, hp2⟩ := isKind_iff ho.2
    have hj1 : j = ppEndif := by simpa using hp2
    subst hj1
    refine Reach.cons (record_same hi hd (kind_other _ hd hk (by decide))) ?_
    refine Reach.then (record hL r b _ _ _ ho.1.2 rfl rfl hl hr) ?_
    rw [recorded_trans]
    have := record_same (m := recorded m d ([l] ++ b.lines) (.line e' :: rest)) rfl rfl
      (kind_other _ rfl hk2 (by decide))
    rw [recorded_trans] at this
    exact Reach.one (by simpa [Arms.lines] using this)
  | .elif l b more, m, d, rest, ho, hi, hd, hl, hr => by
    simp only [Arms.ok, Bool.and_eq_true] at ho
    simp only [Arms.lines, List.map_cons, List.cons_append, List.map_append, List.append_assoc] at hi
    obtain ⟨i, hk, hp⟩ := isKind_iff ho.1.1
    have hp : ppElif ≤ i ∧ i ≤ ppElifstr := by simpa using hp
    refine Reach.cons (record_same hi hd (kind_other _ hd hk (elif_other hp))) ?_
    refine Reach.then (record hL r b _ _ _ ho.1.2 rfl rfl hl hr) ?_
    rw [recorded_trans]
    have := recordArms hL r more (recorded m d ([l] ++ b.lines) (more.lines.map .line ++ rest)) _ rest ho.2 rfl rfl hl hr
    rw [recorded_trans] at this
    simpa [Arms.lines] using this
end

end Verif.Pp
