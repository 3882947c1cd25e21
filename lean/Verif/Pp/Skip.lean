import Verif.Pp.Spec
import Mathlib.Tactic.Tauto
/-
Lemmas: runs of the machine, lines that are skipped and lines that are recorded.
-/
namespace Verif.Pp
variable {S : Sig}

/-- The machine gets from one state to another. -/
def Reach (m : M S) (es : List (Event S)) (m' : M S) : Prop := ∃ n, run n m = (es, .inl m')

theorem run_add (a b : Nat) (m : M S) (es m1) (h : run a m = (es, .inl m1)) :
    run (a + b) m = (es ++ (run b m1).1, (run b m1).2) := by
  induction a generalizing m es with
  | zero => simp [run] at h; obtain ⟨rfl, rfl⟩ := h; simp
  | succ a ih =>
    rw [Nat.succ_add]
    simp only [run] at h ⊢
    split at h
    · cases h
    · rename_i es0 m0 hs
      simp only [Prod.mk.injEq] at h
      have h2 := ih m0 (run a m0).1 (by rw [← h.2])
      rw [h2]
      simp [← h.1]

theorem Reach.refl (m : M S) : Reach m [] m := ⟨0, rfl⟩

theorem Reach.trans {m m1 m2 : M S} {es es'} (h : Reach m es m1) (h' : Reach m1 es' m2) :
    Reach m (es ++ es') m2 := by
  obtain ⟨a, ha⟩ := h
  obtain ⟨b, hb⟩ := h'
  exact ⟨a + b, by rw [run_add a b m es m1 ha, hb]⟩

theorem Reach.one {m m1 : M S} {es} (h : step m = .next es m1) : Reach m es m1 :=
  ⟨1, by simp [run, h]⟩

theorem Reach.cons {m m1 m2 : M S} {es'} (h : step m = .next [] m1) (h' : Reach m1 es' m2) :
    Reach m es' m2 := (Reach.one h).trans h'

theorem Reach.then {m m1 m2 : M S} {es'} (h : Reach m [] m1) (h' : Reach m1 es' m2) :
    Reach m es' m2 := h.trans h'

theorem step_line {m : M S} {l rest} (h : m.items = .line l :: rest) :
    step m = doLine { m with items := rest } l := by
  unfold step; rw [h]

theorem kind_word {l : S.Line} {i : Nat} (h : kind S l = some i) :
    ∃ w, S.word l = some w ∧ look w = ⟨some i, true⟩ := by
  unfold kind at h
  split at h
  · cases h
  · rename_i w hw
    split at h
    · rename_i hf
      refine ⟨w, hw, ?_⟩
      cases hl : look w with
      | mk a b => rw [hl] at h hf; simp_all
    · cases h

theorem kind_of_word {l l' : S.Line} (h : S.word l' = S.word l) : kind S l' = kind S l := by
  unfold kind; rw [h]

theorem isKind_iff {l : S.Line} {p : Nat → Bool} (h : isKind S l p = true) :
    ∃ i, kind S l = some i ∧ p i = true := by
  unfold isKind at h
  split at h
  · cases h
  · exact ⟨_, by assumption, h⟩

theorem cur_word (hL : Lawful S) (m : M S) {l i} (h : kind S l = some i) :
    S.word (cur m l) = S.word l := by
  unfold cur; split
  · exact hL.subst_word _ _ _ h
  · rfl

/-- A conditional line is always carried out, unless something is being defined. -/
theorem doLine_cond (hL : Lawful S) (m : M S) {l i} (h : kind S l = some i) (hc : isCond (some i) = true)
    (hd : m.defining = none) {es m'} (hs : doSwitch m i (cur m l) = .found es m') :
    doLine m l = .next es m' := by
  obtain ⟨w, hw, hlk⟩ := kind_word h
  have hw' := (cur_word hL m h).trans hw
  have hdir : directive m (cur m l) = .found es m' := by
    unfold directive
    rw [hw']
    simp only [hlk, hc, hd]
    simpa using hs
  unfold doLine
  rw [hdir]; rfl

/-- A line is skipped. -/
theorem doLine_skip (m : M S) {l} (hd : m.defining = none) (h : directive m (cur m l) = .no [] m)
    (hq : m.live = false ∨ m.running = false) : doLine m l = .next [] m := by
  unfold doLine
  rw [h]
  simp only [afterDir, hd]
  rcases hq with hq | hq
  · simp [hq]
  · simp [hq]

theorem directive_dead (m : M S) (l : S.Line) (hq : m.live = false ∨ m.running = false)
    (h : ∀ w, S.word l = some w → isCond (look w).idx = false) : directive m l = .no [] m := by
  unfold directive
  split
  · rfl
  · rename_i w hw
    have : ((!m.live || !m.running) && !isCond (look w).idx) = true := by
      rw [h w hw]; rcases hq with hq | hq <;> simp [hq]
    simp [this]

theorem kind_notCond {l : S.Line} {i : Nat} (h : kind S l = some i) (hc : isCond (some i) = false) :
    ∀ w, S.word l = some w → isCond (look w).idx = false := by
  intro w hw
  obtain ⟨w', hw', hl⟩ := kind_word h
  rw [hw] at hw'; cases hw'
  rw [hl]; exact hc

theorem neutral_notCond {l : S.Line} (h : neutral S l = true) :
    ∀ w, S.word l = some w → isCond (look w).idx = false := by
  intro w hw
  unfold neutral at h
  rw [hw] at h
  simp at h
  rw [h]; rfl

/-! ## Which directives are conditionals -/

theorem isPlain_cond {i : Nat} (h : isPlain i = true) : isCond (some i) = false := by
  unfold isPlain at h; simp only [Bool.and_eq_true, Bool.not_eq_true'] at h; exact h.1.2

theorem cond_if {i : Nat} (h : ppIf ≤ i ∧ i ≤ ppIfstr) : isCond (some i) = true := by
  simp [isCond, h]

theorem cond_elif {i : Nat} (h : ppElif ≤ i ∧ i ≤ ppElifstr) : isCond (some i) = true := by
  simp only [ppElif, ppElifstr] at h
  have h1 : ppElif ≤ i := h.1
  have h2 : i ≤ ppEndif := by unfold ppEndif; omega
  simp [isCond, h1, h2]

theorem switch_if (m : M S) {i : Nat} (h : ppIf ≤ i ∧ i ≤ ppIfstr) (l : S.Line) :
    doSwitch m i l = doIf m l := by
  unfold doSwitch; rw [if_pos h]

theorem switch_elif (m : M S) {i : Nat} (h : ppElif ≤ i ∧ i ≤ ppElifstr) (l : S.Line) :
    doSwitch m i l = doElif m l := by
  have h' : ¬ (ppIf ≤ i ∧ i ≤ ppIfstr) := by
    unfold ppElif ppElifstr at h; unfold ppIf ppIfstr; omega
  unfold doSwitch; rw [if_neg h', if_pos h]

theorem switch_else (m : M S) (l : S.Line) : doSwitch m ppElse l = doElse m := rfl
theorem switch_endif (m : M S) (l : S.Line) : doSwitch m ppEndif l = doEndif m := rfl
theorem switch_rotate (m : M S) (l : S.Line) : doSwitch m ppRotate l = doRotate m l := rfl
theorem switch_rep (m : M S) (l : S.Line) : doSwitch m ppRep l = doRep m l := rfl
theorem switch_endrep (m : M S) (l : S.Line) : doSwitch m ppEndrep l = doEndrep m := rfl
theorem switch_exitrep (m : M S) (l : S.Line) : doSwitch m ppExitrep l = doExitrep m := rfl
theorem switch_macro (m : M S) (l : S.Line) {i : Nat} (h : i = ppMacro ∨ i = ppImacro) :
    doSwitch m i l = doMacro m l := by rcases h with rfl | rfl <;> rfl
theorem switch_endm (m : M S) (l : S.Line) {i : Nat} (h : i = ppEndm ∨ i = ppEndmacro) :
    doSwitch m i l = doEndm m := by rcases h with rfl | rfl <;> rfl

theorem switch_plain (m : M S) {i : Nat} (h : isPlain i = true) (l : S.Line) :
    doSwitch m i l = .found [] { m with user := S.act m.user l } := by
  have hlt : i < 66 := by
    unfold isPlain at h
    simp only [Bool.and_eq_true, decide_eq_true_eq] at h
    exact h.1.1
  have h1 : ¬ (ppIf ≤ i ∧ i ≤ ppIfstr) := (by decide : ∀ i < 66, isPlain i = true → ¬ (ppIf ≤ i ∧ i ≤ ppIfstr)) i hlt h
  have h2 : ¬ (ppElif ≤ i ∧ i ≤ ppElifstr) := (by decide : ∀ i < 66, isPlain i = true → ¬ (ppElif ≤ i ∧ i ≤ ppElifstr)) i hlt h
  have h3 : ¬ i = ppElse := (by decide : ∀ i < 66, isPlain i = true → ¬ i = ppElse) i hlt h
  have h4 : ¬ i = ppEndif := (by decide : ∀ i < 66, isPlain i = true → ¬ i = ppEndif) i hlt h
  have h5 : ¬ (i = ppMacro ∨ i = ppImacro) := (by decide : ∀ i < 66, isPlain i = true → ¬ (i = ppMacro ∨ i = ppImacro)) i hlt h
  have h6 : ¬ (i = ppEndm ∨ i = ppEndmacro) := (by decide : ∀ i < 66, isPlain i = true → ¬ (i = ppEndm ∨ i = ppEndmacro)) i hlt h
  have h7 : ¬ i = ppRotate := (by decide : ∀ i < 66, isPlain i = true → ¬ i = ppRotate) i hlt h
  have h8 : ¬ i = ppRep := (by decide : ∀ i < 66, isPlain i = true → ¬ i = ppRep) i hlt h
  have h9 : ¬ i = ppEndrep := (by decide : ∀ i < 66, isPlain i = true → ¬ i = ppEndrep) i hlt h
  have h10 : ¬ i = ppExitrep := (by decide : ∀ i < 66, isPlain i = true → ¬ i = ppExitrep) i hlt h
  have h11 : ¬ i = ppClear := (by decide : ∀ i < 66, isPlain i = true → ¬ i = ppClear) i hlt h
  unfold doSwitch
  simp only [h1, h2, h3, h4, h5, h6, h7, h8, h9, h10, h11, if_false]

theorem emits_not {m : M S} {c cs} (h : m.conds = c :: cs) : m.live = c.emits := by
  unfold M.live; rw [h]

/-! ## Lines skipped in a dead branch -/

theorem skip_one {m : M S} {l : S.Line} {rest} (h : m.items = .line l :: rest)
    (hd : m.defining = none) (hq : m.live = false)
    (hw : ∀ w, S.word l = some w → isCond (look w).idx = false) :
    step m = .next [] { m with items := rest } := by
  rw [step_line h]
  refine doLine_skip _ (by exact hd) ?_ (.inl hq)
  refine directive_dead _ _ (.inl hq) ?_
  have : cur { m with items := rest } l = l := by
    unfold cur
    have : ({ m with items := rest } : M S).live = false := hq
    simp [this]
  rw [this]; exact hw

mutual
theorem dead (hL : Lawful S) (top r : Bool) : (b : Block S.Line) → (m : M S) → (rest : List (Item S)) →
    b.ok S top r = true → m.items = b.lines.map .line ++ rest → m.live = false → m.defining = none →
    Reach m [] { m with items := rest }
  | .nil, m, rest, _, hi, _, _ => by
    have : m.items = rest := by simpa [Block.lines] using hi
    rw [← this]; exact Reach.refl m
  | .text l k, m, rest, ho, hi, hl, hd => by
    simp only [Block.ok, Bool.and_eq_true] at ho
    simp only [Block.lines, List.map_cons, List.cons_append] at hi
    exact Reach.cons (skip_one hi hd hl (neutral_notCond ho.1))
      (dead hL top r k { m with items := k.lines.map .line ++ rest } rest ho.2 rfl hl hd)
  | .plain l k, m, rest, ho, hi, hl, hd => by
    simp only [Block.ok, Bool.and_eq_true] at ho
    simp only [Block.lines, List.map_cons, List.cons_append] at hi
    obtain ⟨i, hk, hp⟩ := isKind_iff ho.1
    exact Reach.cons (skip_one hi hd hl (kind_notCond hk (isPlain_cond hp)))
      (dead hL top r k { m with items := k.lines.map .line ++ rest } rest ho.2 rfl hl hd)
  | .rotate l k, m, rest, ho, hi, hl, hd => by
    simp only [Block.ok, Bool.and_eq_true] at ho
    simp only [Block.lines, List.map_cons, List.cons_append] at hi
    obtain ⟨i, hk, hp⟩ := isKind_iff ho.1
    have : i = ppRotate := by simpa using hp
    subst this
    exact Reach.cons (skip_one hi hd hl (kind_notCond hk rfl))
      (dead hL top r k { m with items := k.lines.map .line ++ rest } rest ho.2 rfl hl hd)
  | .exitrep l k, m, rest, ho, hi, hl, hd => by
    simp only [Block.ok, Bool.and_eq_true] at ho
    simp only [Block.lines, List.map_cons, List.cons_append] at hi
    obtain ⟨i, hk, hp⟩ := isKind_iff ho.1.2
    have : i = ppExitrep := by simpa using hp
    subst this
    exact Reach.cons (skip_one hi hd hl (kind_notCond hk rfl))
      (dead hL top r k { m with items := k.lines.map .line ++ rest } rest ho.2 rfl hl hd)
  | .macro l b e k, m, rest, ho, hi, hl, hd => by
    simp only [Block.ok, Bool.and_eq_true] at ho
    simp only [Block.lines, List.map_cons, List.cons_append, List.map_append, List.append_assoc] at hi
    obtain ⟨i, hk, hp⟩ := isKind_iff ho.1.1.1
    obtain ⟨j, hk2, hp2⟩ := isKind_iff ho.1.2
    have hi1 : isCond (some i) = false := by
      have : i = ppMacro ∨ i = ppImacro := by simpa using hp
      rcases this with rfl | rfl <;> rfl
    have hj1 : isCond (some j) = false := by
      have : j = ppEndmacro ∨ (top = true ∧ j = ppEndm) := by simpa using hp2
      rcases this with rfl | ⟨_, rfl⟩ <;> rfl
    refine Reach.cons (skip_one hi hd hl (kind_notCond hk hi1)) ?_
    refine Reach.then (dead hL false false b _ _ ho.1.1.2 rfl hl hd) ?_
    exact Reach.cons (skip_one rfl hd hl (kind_notCond hk2 hj1))
      (dead hL top r k { m with items := k.lines.map .line ++ rest } rest ho.2 rfl hl hd)
  | .rep l b e k, m, rest, ho, hi, hl, hd => by
    simp only [Block.ok, Bool.and_eq_true] at ho
    simp only [Block.lines, List.map_cons, List.cons_append, List.map_append, List.append_assoc] at hi
    obtain ⟨i, hk, hp⟩ := isKind_iff ho.1.1.1
    obtain ⟨j, hk2, hp2⟩ := isKind_iff ho.1.2
    have hi1 : i = ppRep := by simpa using hp
    have hj1 : j = ppEndrep := by simpa using hp2
    subst hi1; subst hj1
    refine Reach.cons (skip_one hi hd hl (kind_notCond hk rfl)) ?_
    refine Reach.then (dead hL false true b _ _ ho.1.1.2 rfl hl hd) ?_
    exact Reach.cons (skip_one rfl hd hl (kind_notCond hk2 rfl))
      (dead hL top r k { m with items := k.lines.map .line ++ rest } rest ho.2 rfl hl hd)
  | .cond l b arms k, m, rest, ho, hi, hl, hd => by
    simp only [Block.ok, Bool.and_eq_true] at ho
    simp only [Block.lines, List.map_cons, List.cons_append, List.map_append, List.append_assoc] at hi
    obtain ⟨i, hk, hp⟩ := isKind_iff ho.1.1.1
    have hp : ppIf ≤ i ∧ i ≤ ppIfstr := by simpa using hp
    have h1 : step m = .next [] { m with
        items := b.lines.map .line ++ (arms.lines.map .line ++ (k.lines.map .line ++ rest))
        conds := .never :: m.conds } := by
      rw [step_line hi]
      refine doLine_cond hL _ hk (cond_if hp) (by exact hd) ?_
      rw [switch_if _ hp]
      unfold doIf
      rw [if_neg]
      show ¬ m.live = true
      simp [hl]
    refine Reach.cons h1 (Reach.then (dead hL top r b _ _ ho.1.1.2 rfl rfl hd) ?_)
    refine Reach.then (deadArms hL top r arms _ _ (c := .never) (cs := m.conds) ho.1.2 rfl rfl (.inr rfl) hd) ?_
    exact dead hL top r k { m with items := k.lines.map .line ++ rest } rest ho.2 rfl hl hd
theorem deadArms (hL : Lawful S) (top r : Bool) : (a : Arms S.Line) → (m : M S) → (rest : List (Item S)) →
    {c : Cond} → {cs : List Cond} →
    a.ok S top r = true → m.items = a.lines.map .line ++ rest → m.conds = c :: cs →
    (c.emits = true ∨ c = .never) → m.defining = none →
    Reach m [] { m with items := rest, conds := cs }
  | .endif l, m, rest, c, cs, ho, hi, hc, hn, hd => by
    simp only [Arms.ok] at ho
    simp only [Arms.lines, List.map_cons, List.map_nil, List.cons_append, List.nil_append] at hi
    obtain ⟨i, hk, hp⟩ := isKind_iff ho
    have hi1 : i = ppEndif := by simpa using hp
    subst hi1
    apply Reach.one
    rw [step_line hi]
    refine doLine_cond hL _ hk rfl (by exact hd) ?_
    rw [switch_endif]; unfold doEndif
    simp only [hc]
  | .els l b e, m, rest, c, cs, ho, hi, hc, hn, hd => by
    simp only [Arms.ok, Bool.and_eq_true] at ho
    simp only [Arms.lines, List.map_cons, List.map_nil, List.cons_append, List.nil_append,
      List.map_append, List.append_assoc] at hi
    obtain ⟨i, hk, hp⟩ := isKind_iff ho.1.1
    have hi1 : i = ppElse := by simpa using hp
    subst hi1
    obtain ⟨j, hk2, hp2⟩ := isKind_iff ho.2
    have hj1 : j = ppEndif := by simpa using hp2
    subst hj1
    have h1 : step m = .next [] { m with
        items := b.lines.map .line ++ (.line e :: rest), conds := .elseFalse :: cs } := by
      rw [step_line hi]
      refine doLine_cond hL _ hk rfl (by exact hd) ?_
      rw [switch_else]; unfold doElse
      simp only [hc]
      rw [if_pos hn]
    refine Reach.cons h1 (Reach.then (dead hL top r b _ _ ho.1.2 rfl rfl hd) ?_)
    apply Reach.one
    rw [step_line rfl]
    refine doLine_cond hL _ hk2 rfl (by exact hd) ?_
    rw [switch_endif]; rfl
  | .elif l b more, m, rest, c, cs, ho, hi, hc, hn, hd => by
    simp only [Arms.ok, Bool.and_eq_true] at ho
    simp only [Arms.lines, List.map_cons, List.cons_append, List.map_append, List.append_assoc] at hi
    obtain ⟨i, hk, hp⟩ := isKind_iff ho.1.1
    have hp : ppElif ≤ i ∧ i ≤ ppElifstr := by simpa using hp
    have h1 : step m = .next [] { m with
        items := b.lines.map .line ++ (more.lines.map .line ++ rest), conds := .never :: cs } := by
      rw [step_line hi]
      refine doLine_cond hL _ hk (cond_elif hp) (by exact hd) ?_
      rw [switch_elif _ hp]; unfold doElif
      simp only [hc]
      rw [if_pos hn]
    refine Reach.cons h1 (Reach.then (dead hL top r b _ _ ho.1.2 rfl rfl hd) ?_)
    exact deadArms hL top r more _ _ (c := .never) (cs := cs) ho.2 rfl rfl (.inr rfl) hd
end

end Verif.Pp
