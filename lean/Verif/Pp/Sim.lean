import Verif.Pp.Idle
/-
Lemmas: the machine does what a block stands for.
-/
namespace Verif.Pp
variable {S : Sig}

/-! ## Names -/

theorem stricmp_eq_iff : ∀ a b : Name, stricmp a b = .eq ↔ a.map lower = b.map lower
  | [], [] => by simp [stricmp]
  | [], b :: bs => by simp [stricmp]
  | a :: as, [] => by simp [stricmp]
  | a :: as, b :: bs => by
    unfold stricmp
    by_cases h : lower a = lower b
    · rw [if_pos h, stricmp_eq_iff as bs]; simp [h]
    · rw [if_neg h]
      constructor
      · intro h2; split at h2 <;> cases h2
      · intro h2; simp at h2; exact absurd h2.1 h

/-- A definition as the program keeps it. -/
def SDef.keep (d : SDef S) : Def S := ⟨d.num, d.head, d.body.lines.reverse⟩

theorem sameName_eq (b : Bool) (x y : Name) :
    sameName b x y = if b then decide (x = y) else decide (x.map lower = y.map lower) := by
  unfold sameName
  cases b <;> simp [stricmp_eq_iff]

theorem isMmacro_eq (ds : List (SDef S)) (busy : Nat → Bool) (name : Name) (n : Nat) :
    isMmacro (ds.map SDef.keep) busy name n =
      match ds.find? (fun d => answers d name n) with
      | none => none
      | some d => if busy d.num then none else some d.keep := by
  unfold isMmacro
  have hf : ((fun d : Def S => sameName d.head.casesense d.head.name name && d.head.takes n) ∘ SDef.keep)
      = (fun d : SDef S => answers d name n) := by
    funext d
    show (sameName d.head.casesense d.head.name name && d.head.takes n) = answers d name n
    unfold answers Head.takes
    rw [sameName_eq, Bool.and_assoc]
  rw [List.find?_map, hf]
  cases ds.find? (fun d => answers d name n) <;> rfl

theorem findCall_eq (e : Env S) (busy : Nat → Bool) (hb : ∀ j, busy j = decide (j ∈ e.busy)) :
    ∀ cs : List (Call S.Line S.Param),
      findCall (e.defs.map SDef.keep) busy cs = (called e cs).map (fun p => (p.1, p.2.keep))
  | [] => rfl
  | c :: cs => by
    unfold findCall called
    rw [isMmacro_eq]
    cases h : e.defs.find? (fun d => answers d c.name c.params.length) with
    | none => simp only; exact findCall_eq e busy hb cs
    | some d =>
      by_cases hd : d.num ∈ e.busy
      · simp only [hb, hd]; simpa using findCall_eq e busy hb cs
      · simp [hb, hd]

theorem called_spec {e : Env S} : ∀ {cs : List (Call S.Line S.Param)} {c d}, called e cs = some (c, d) →
    c ∈ cs ∧ d ∈ e.defs ∧ d.num ∉ e.busy
  | [], _, _, h => by cases h
  | c0 :: cs, c, d, h => by
    unfold called at h
    split at h
    · rename_i d0 h0
      split at h
      · obtain ⟨h1, h2⟩ := called_spec h
        exact ⟨List.mem_cons_of_mem _ h1, h2⟩
      · rename_i hb
        cases h
        exact ⟨List.mem_cons_self, List.mem_of_find?_eq_some h0, hb⟩
    · obtain ⟨h1, h2⟩ := called_spec h
      exact ⟨List.mem_cons_of_mem _ h1, h2⟩

/-! ## Blocks with their lines changed -/

mutual
theorem lines_map {L : Type} (f : L → L) : (b : Block L) → (b.map f).lines = b.lines.map f
  | .nil => rfl
  | .text l k => by simp [Block.map, Block.lines, lines_map f k]
  | .plain l k => by simp [Block.map, Block.lines, lines_map f k]
  | .rotate l k => by simp [Block.map, Block.lines, lines_map f k]
  | .exitrep l k => by simp [Block.map, Block.lines, lines_map f k]
  | .macro l b e k => by simp [Block.map, Block.lines, lines_map f k, lines_map f b]
  | .rep l b e k => by simp [Block.map, Block.lines, lines_map f k, lines_map f b]
  | .cond l b a k => by simp [Block.map, Block.lines, lines_map f k, lines_map f b, lines_mapArms f a]
theorem lines_mapArms {L : Type} (f : L → L) : (a : Arms L) → (a.map f).lines = a.lines.map f
  | .endif l => rfl
  | .els l b e => by simp [Arms.map, Arms.lines, lines_map f b]
  | .elif l b more => by simp [Arms.map, Arms.lines, lines_map f b, lines_mapArms f more]
end

theorem bodyOf_lines (c : Call S.Line S.Param) (d : SDef S) :
    (bodyOf c d).lines = c.pre d.body.lines ++ d.body.lines.map c.fill := by
  unfold bodyOf
  rw [← lines_map]
  generalize d.body.map c.fill = b
  induction c.pre d.body.lines with
  | nil => rfl
  | cons p ps ih => simp [Block.lines, ih]

theorem push_append (ls : List S.Line) (items : List (Item S)) : push ls items = ls.reverse.map .line ++ items := by
  unfold push
  induction ls generalizing items with
  | nil => rfl
  | cons l ls ih => simp [ih]

/-! ## The stack of active macros -/

/-- The stack with the innermost call's parameters. -/
def withFrame (f : Option (Frame S.Param)) (κ : List (Active S)) : List (Active S) :=
  match f with
  | none => κ
  | some g => setFrame g κ

theorem setFrame_setFrame (f g : Frame S.Param) : ∀ κ : List (Active S),
    setFrame f (setFrame g κ) = setFrame f κ
  | [] => rfl
  | .rep id :: κ => by simp [setFrame, setFrame_setFrame f g κ]
  | .call id h :: κ => rfl

theorem frameOf_withFrame (f : Option (Frame S.Param)) : ∀ κ : List (Active S),
    (frameOf κ).isSome = f.isSome → frameOf (withFrame f κ) = f
  | [], h => by cases f <;> simp_all [withFrame, frameOf]
  | .rep id :: κ, h => by
    have ih := frameOf_withFrame f κ (by simpa [frameOf] using h)
    cases f <;> simpa [withFrame, setFrame, frameOf] using ih
  | .call id g :: κ, h => by
    cases f <;> simp_all [withFrame, setFrame, frameOf]

theorem rep_mem_setFrame (f : Frame S.Param) (id : Nat) : ∀ κ : List (Active S),
    Active.rep id ∈ setFrame f κ ↔ .rep id ∈ κ
  | [] => by simp [setFrame]
  | .rep j :: κ => by simp [setFrame, rep_mem_setFrame f id κ]
  | .call j g :: κ => by simp [setFrame]

theorem rep_mem_withFrame (f : Option (Frame S.Param)) (id : Nat) (κ : List (Active S)) :
    Active.rep id ∈ withFrame f κ ↔ .rep id ∈ κ := by
  cases f
  · rfl
  · exact rep_mem_setFrame _ _ _

theorem withFrame_rep (f : Option (Frame S.Param)) (id : Nat) (κ : List (Active S)) :
    withFrame f (.rep id :: κ) = .rep id :: withFrame f κ := by
  cases f <;> rfl

/-! ## The relation -/

/-- The machine is in the state a block is read in. -/
structure Rel (κ : List (Active S)) (cs : List Cond) (e : Env S) (m : M S) : Prop where
  user : m.user = e.user
  defs : m.defs = e.defs.map SDef.keep
  ok : ∀ d ∈ e.defs, d.body.ok S false false = true
  next : m.nextDef = e.nextDef
  busy : ∀ j, m.busy j = decide (j ∈ e.busy)
  busyLt : ∀ j ∈ e.busy, j < e.nextDef
  numLt : ∀ d ∈ e.defs, d.num < e.nextDef
  unique : m.unique = e.unique
  conds : m.conds = cs
  stack : m.stack = withFrame e.frame κ
  frame : (frameOf κ).isSome = e.frame.isSome
  reps : ∀ id, .rep id ∈ κ → id < m.nextRep
  undef : m.defining = none
  noMac : m.nestMac = 0
  noRep : m.nestRep = 0

theorem Rel.same {κ cs} {e : Env S} {m : M S} (h : Rel κ cs e m) : Same e m := by
  refine ⟨h.user, ?_, ?_⟩
  · rw [h.defs, List.map_map]; rfl
  · rw [h.stack]; exact frameOf_withFrame _ _ h.frame

theorem live_conds {m m' : M S} (h : m'.conds = m.conds) : m'.live = m.live := by
  unfold M.live; rw [h]

theorem running_rel {κ cs cs'} {e e' : Env S} {m m' : M S} (h : Rel κ cs e m) (h' : Rel κ cs' e' m')
    (hb : e'.busy = e.busy) (hp : ∀ id < m.nextRep, m'.prog id = m.prog id) : m'.running = m.running := by
  have h1 := h.stack
  have h2 := h'.stack
  have h3 := h.frame
  have h4 := h'.frame
  unfold M.running
  rw [h1, h2]
  cases κ with
  | nil =>
    have e1 : e.frame = none := by cases hf : e.frame <;> simp_all [frameOf]
    have e2 : e'.frame = none := by cases hf : e'.frame <;> simp_all [frameOf]
    simp [e1, e2, withFrame]
  | cons a κ =>
    cases a with
    | rep id =>
      rw [withFrame_rep, withFrame_rep]
      simp only
      rw [hp id (h.reps id List.mem_cons_self)]
    | call id f =>
      obtain ⟨g, hg⟩ := Option.isSome_iff_exists.mp (show e.frame.isSome = true by rw [← h3]; rfl)
      obtain ⟨g', hg'⟩ := Option.isSome_iff_exists.mp (show e'.frame.isSome = true by rw [← h4]; rfl)
      simp only [hg, hg', withFrame, setFrame]
      rw [h.busy, h'.busy, hb]

theorem running_exit {κ cs} {e : Env S} {m : M S} {id : Nat} (h : Rel (.rep id :: κ) cs e m)
    (hp : m.prog id = 0) : m.running = false := by
  unfold M.running
  rw [h.stack, withFrame_rep]
  simp [hp]

theorem firstRep_lines (ls : List S.Line) (rest : List (Item S)) :
    firstRep (ls.map .line ++ rest) = firstRep rest := by
  induction ls with
  | nil => rfl
  | cons l ls ih => simpa [firstRep] using ih

/-- What is to be shown of a block. -/
def Out (κ : List (Active S)) (cs : List Cond) (t : Option Nat) (rest : List (Item S)) (m : M S)
    (es : List (Event S)) (e e' : Env S) (ex : Bool) : Prop :=
  ∃ m', Reach m es m' ∧ Rel κ cs e' m' ∧ m'.items = rest ∧ e'.busy = e.busy ∧ m.nextRep ≤ m'.nextRep ∧
    (∀ id < m.nextRep, m'.prog id = if ex = true ∧ t = some id then 0 else m.prog id) ∧
    (ex = true → t.isSome = true)

theorem Out.chain {κ : List (Active S)} {cs t rest} {m m1 : M S} {es1 es2 e e1 e' ex}
    (h : Reach m es1 m1) (hn : m.nextRep ≤ m1.nextRep) (hp : ∀ id < m.nextRep, m1.prog id = m.prog id)
    (hb : e1.busy = e.busy) (ho : Out κ cs t rest m1 es2 e1 e' ex) :
    Out κ cs t rest m (es1 ++ es2) e e' ex := by
  obtain ⟨m', h1, h2, h3, h4, h5, h6, h7⟩ := ho
  refine ⟨m', h.trans h1, h2, h3, h4.trans hb, Nat.le_trans hn h5, ?_, h7⟩
  intro id hid
  rw [h6 id (by omega), hp id hid]

/-- A directive carried out in a live branch. -/
theorem doLine_run (hL : Lawful S) (m : M S) {l i} (h : kind S l = some i)
    (hd : m.defining = none) (hl : m.live = true) (hr : m.running = true) {es m'}
    (hs : doSwitch m i (S.subst (frameOf m.stack) l) = .found es m') :
    doLine m l = .next es m' := by
  obtain ⟨w, hw, hlk⟩ := kind_word h
  have hw' := (cur_word hL m h).trans hw
  have hdir : directive m (cur m l) = .found es m' := by
    unfold directive
    rw [hw']
    simp only [hlk, hd, hl, hr]
    simpa [cur_live hd hl] using hs
  unfold doLine
  rw [hdir]; rfl

/-- The directive that ends a definition. -/
theorem doLine_end (m : M S) {l d}
    (hd : m.defining = some d) {es m'} (hs : directive m l = .found es m') :
    doLine m l = .next es m' := by
  have : cur m l = l := by unfold cur; simp [hd]
  unfold doLine
  rw [this, hs]; rfl

theorem turned_eq (n r i : Int) (hn : 0 < n) : turned n r i = (r + i) % n := by
  unfold turned
  simp only
  by_cases h : r + i < 0
  · rw [if_pos h]
    have h1 : (-(r + i)).tmod n = (-(r + i)) % n := Int.tmod_eq_emod_of_nonneg (by omega)
    rw [h1]
    have h2 := Int.emod_nonneg (-(r + i)) (by omega : n ≠ 0)
    have h3 := Int.emod_lt_of_pos (-(r + i)) hn
    rw [Int.tmod_eq_emod_of_nonneg (by omega)]
    have h4 : n - -(r + i) % n = (r + i) + n * (1 + (-(r + i)) / n) := by
      have := Int.emod_add_mul_ediv (-(r + i)) n
      rw [Int.mul_add]; omega
    rw [h4, Int.add_mul_emod_self_left]
  · rw [if_neg h, Int.tmod_eq_emod_of_nonneg (by omega)]

/-! ## Conditionals -/

/-- What is left of a conditional after the branch that was assembled. -/
def Rest (cs : List Cond) (c : Cond) (rem : List (Item S)) (rest : List (Item S)) : Prop :=
  ∀ m : M S, m.items = rem ++ rest → m.conds = c :: cs → m.defining = none →
    Reach m [] { m with items := rest, conds := cs }

theorem arms_run (hL : Lawful S) (e : Env S) (top r : Bool) : (a : Arms S.Line) → (m : M S) →
    (rest : List (Item S)) → (cs : List Cond) → (br : Block S.Line) →
    a.ok S top r = true → Same e m → m.items = a.lines.map .line ++ rest →
    m.conds = .ifFalse :: cs → m.defining = none → pickArms e a = some br →
    br.ok S top r = true ∧
    ((br = .nil ∧ Reach m [] { m with items := rest, conds := cs }) ∨
     ∃ (c : Cond) (ls : List S.Line), c.emits = true ∧
      Reach m [] { m with items := br.lines.map .line ++ (ls.map .line ++ rest), conds := c :: cs } ∧
      Rest cs c (ls.map .line) rest)
  | .endif l, m, rest, cs, br, ho, hs, hi, hc, hd, hp => by
    simp only [Arms.ok] at ho
    simp only [Arms.lines, List.map_cons, List.map_nil, List.cons_append, List.nil_append] at hi
    obtain ⟨i, hk, hp'⟩ := isKind_iff ho
    have hi1 : i = ppEndif := by simpa using hp'
    subst hi1
    simp only [pickArms, Option.some.injEq] at hp
    subst hp
    exact ⟨rfl, .inl ⟨rfl, Reach.one (step_endif hL hi hk hd hc)⟩⟩
  | .els l b e', m, rest, cs, br, ho, hs, hi, hc, hd, hp => by
    simp only [Arms.ok, Bool.and_eq_true] at ho
    simp only [Arms.lines, List.map_cons, List.map_nil, List.cons_append, List.nil_append,
      List.map_append, List.append_assoc] at hi
    obtain ⟨i, hk, hp'⟩ := isKind_iff ho.1.1
    have hi1 : i = ppElse := by simpa using hp'
    subst hi1
    obtain ⟨j, hk2, hp2⟩ := isKind_iff ho.2
    have hj1 : j = ppEndif := by simpa using hp2
    subst hj1
    simp only [pickArms, Option.some.injEq] at hp
    subst hp
    refine ⟨ho.1.2, .inr ⟨.elseTrue, [e'], rfl, Reach.one (step_else hL hi hk hd hc), ?_⟩⟩
    intro m2 h2 hc2 hd2
    exact Reach.one (step_endif hL h2 hk2 hd2 hc2)
  | .elif l b more, m, rest, cs, br, ho, hs, hi, hc, hd, hp => by
    simp only [Arms.ok, Bool.and_eq_true] at ho
    simp only [Arms.lines, List.map_cons, List.cons_append, List.map_append, List.append_assoc] at hi
    obtain ⟨i, hk, hp'⟩ := isKind_iff ho.1.1
    have hp' : ppElif ≤ i ∧ i ≤ ppElifstr := by simpa using hp'
    unfold pickArms at hp
    split at hp
    · cases hp
    · rename_i hv
      cases hp
      refine ⟨ho.1.2, .inr ⟨.ifTrue, more.lines, rfl, Reach.one (step_elif hL hi hk hp' hd hc hs hv), ?_⟩⟩
      intro m2 h2 hc2 hd2
      exact deadArms hL top r more m2 rest ho.2 h2 hc2 (.inl rfl) hd2
    · rename_i hv
      have h1 := Reach.cons (step_elif hL hi hk hp' hd hc hs hv) (dead hL top r b _ _ ho.1.2 rfl rfl hd)
      obtain ⟨h2, h3⟩ := arms_run hL e top r more
        { m with items := more.lines.map .line ++ rest, conds := .ifFalse :: cs } rest cs br ho.2 (by exact hs) rfl rfl hd hp
      refine ⟨h2, ?_⟩
      rcases h3 with ⟨h3, h4⟩ | ⟨c, ls, h3, h4, h5⟩
      · exact .inl ⟨h3, h1.then h4⟩
      · exact .inr ⟨c, ls, h3, h1.then h4, h5⟩

theorem cond_run (hL : Lawful S) (e : Env S) (top r : Bool) (l : S.Line) (b : Block S.Line) (a : Arms S.Line)
    (m : M S) (rest : List (Item S)) (br : Block S.Line)
    (hl0 : isKind S l (fun i => decide (ppIf ≤ i ∧ i ≤ ppIfstr)) = true) (hb : b.ok S top r = true)
    (ha : a.ok S top r = true) (hs : Same e m)
    (hi : m.items = .line l :: (b.lines.map .line ++ (a.lines.map .line ++ rest)))
    (hl : m.live = true) (hd : m.defining = none) (hp : pick e l b a = some br) :
    br.ok S top r = true ∧
    ((br = .nil ∧ Reach m [] { m with items := rest }) ∨
     ∃ (c : Cond) (ls : List S.Line), c.emits = true ∧
      Reach m [] { m with items := br.lines.map .line ++ (ls.map .line ++ rest), conds := c :: m.conds } ∧
      Rest m.conds c (ls.map .line) rest) := by
  obtain ⟨i, hk, hp'⟩ := isKind_iff hl0
  have hp' : ppIf ≤ i ∧ i ≤ ppIfstr := by simpa using hp'
  unfold pick at hp
  split at hp
  · cases hp
  · rename_i hv
    cases hp
    refine ⟨hb, .inr ⟨.ifTrue, a.lines, rfl, Reach.one (step_if hL hi hk hp' hd hl hs hv), ?_⟩⟩
    intro m2 h2 hc2 hd2
    exact deadArms hL top r a m2 rest ha h2 hc2 (.inl rfl) hd2
  · rename_i hv
    have h1 := Reach.cons (step_if hL hi hk hp' hd hl hs hv) (dead hL top r b _ _ hb rfl rfl hd)
    obtain ⟨h2, h3⟩ := arms_run hL e top r a
      { m with items := a.lines.map .line ++ rest, conds := .ifFalse :: m.conds } rest m.conds br ha (by exact hs) rfl rfl hd hp
    refine ⟨h2, ?_⟩
    rcases h3 with ⟨h3, h4⟩ | ⟨c, ls, h3, h4, h5⟩
    · exact .inl ⟨h3, h1.then h4⟩
    · exact .inr ⟨c, ls, h3, h1.then h4, h5⟩

end Verif.Pp
