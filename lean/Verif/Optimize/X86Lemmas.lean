import Verif.Optimize.X86
import Verif.Optimize.Keep
/-
The x86 and LC-3b callbacks meet the contract.
-/
namespace Verif.Optimize

/-- The span of a jump in short form, of a displacement or immediate in short form. -/
def x86Pending (m : X86) (id : Nat) : Option Promise :=
  match m with
  | .jmp j => if id = 1 ∧ (j.sel = .short ∨ j.sel = .shortForced) ∧ j.outside = false then
      some ⟨j.target, -128 + j.shortSize, 127 + j.shortSize⟩ else none
  | .insn i =>
    if id = 1 then match i.disp with | some t => if t.chosen then some ⟨t.val, -128, 127⟩ else none | none => none
    else if id = 2 then match i.imm with | some t => if t.chosen then some ⟨t.val, -128, 127⟩ else none | none => none
    else none
  | .fixed _ => none

theorem jmp_calc {j j' : Jmp} {n : Nat} {ds : List Dep} (h : j.calcLen = .ok (j', n, ds)) :
    (∀ id, x86Pending (.jmp j') id = (ds.find? (·.id = id)).map fun d => ⟨d.val, d.neg, d.pos⟩) ∧
    (ds.map (·.id)).Nodup ∧ (∀ d ∈ ds, 0 < d.id) ∧
    ((j'.sel = .short ∨ j'.sel = .shortForced) → n = j'.shortSize) ∧ j'.sel ≠ .none := by
  unfold Jmp.calcLen at h
  split at h
  · cases h
  · rename_i hn
    split at h
    · rename_i h1
      split at h
      · cases h
      · cases h
        have : ∀ s : JmpSel, s = (if j.shortLen = 0 then .near else j.sel) → s = .near ∨ s = .nearForced := by
          intro s e
          split at e
          · exact Or.inl e
          · rename_i h2; rcases h1 with h1 | h1
            · right; rw [e, h1]
            · exact absurd h1 h2
        have hs := this _ rfl
        refine ⟨?_, by simp, by simp, ?_, ?_⟩
        · intro id
          simp only [x86Pending, List.find?_nil, Option.map_none]
          rw [if_neg]
          rintro ⟨_, h3, _⟩
          rcases hs with hs | hs <;> rw [hs] at h3 <;> simp at h3
        · intro h3
          dsimp only at h3
          rcases hs with hs | hs <;> rw [hs] at h3 <;> simp at h3
        · dsimp only; rcases hs with hs | hs <;> rw [hs] <;> simp
    · rename_i h1
      split at h
      · rename_i ho
        split at h
        · rename_i h2
          cases h
          refine ⟨?_, by simp, by simp, fun _ => rfl, ?_⟩
          · intro id
            simp [x86Pending, ho]
          · dsimp only; split
            · simp
            · assumption
        · cases h
          refine ⟨?_, by simp, by simp, ?_, by simp⟩
          · intro id; simp [x86Pending]
          · intro h3; simp at h3
      · rename_i ho
        cases h
        have hs : (if j.sel = .none then JmpSel.short else j.sel) = .short ∨
            (if j.sel = .none then JmpSel.short else j.sel) = .shortForced := by
          cases hj : j.sel <;> simp_all
        have ho' : j.outside = false := by simpa using ho
        refine ⟨?_, by simp, by simp, fun _ => rfl, ?_⟩
        · intro id
          unfold x86Pending
          dsimp only
          by_cases hid : id = 1
          · subst hid
            rw [if_pos ⟨rfl, hs, ho'⟩]
            simp [Jmp.shortSize]
          · rw [if_neg (fun e => hid e.1)]
            have : ¬ (1 = id) := fun e => hid e.symm
            simp [this]
        · dsimp only; rcases hs with hs | hs <;> rw [hs] <;> simp

theorem jmp_expand {j j' : Jmp} {len id n : Nat} {k : Option (Int × Int)} (h : j.expand len id = .ok (j', n, k)) :
    id = 1 ∧ k = none ∧ j'.sel = .near ∧ len ≤ n := by
  unfold Jmp.expand at h
  split at h
  · cases h
  · rename_i hid
    split at h
    · cases h
    · rename_i h1
      split at h
      · cases h
      · cases h
        have := j.grows (fun e => h1 (Or.inr e))
        refine ⟨by simpa using hid, rfl, rfl, ?_⟩
        split <;> omega

theorem insn_expand_len (i : Insn) (len id : Nat) : len ≤ (i.expand len id).2 := by
  unfold Insn.expand
  split
  · rename_i t _
    split
    · have := t.grows; dsimp only; omega
    · exact Nat.le_refl _
  · rename_i t _
    split
    · have := t.grows; dsimp only; omega
    · exact Nat.le_refl _
  · exact Nat.le_refl _

theorem insn_expand_pending (i : Insn) (len id : Nat) :
    x86Pending (.insn (i.expand len id).1) id = none ∧
    ∀ k, k ≠ id → x86Pending (.insn (i.expand len id).1) k = x86Pending (.insn i) k := by
  obtain ⟨f, d, m⟩ := i
  by_cases h1 : id = 1
  · subst h1
    cases d with
    | none => cases m <;> simp [Insn.expand, x86Pending]
    | some t =>
      by_cases hc : t.chosen
      · simp [Insn.expand, x86Pending, hc, TwoForm.widen]
        intro k hk; simp [hk]
      · simp [Insn.expand, x86Pending, hc]
  · by_cases h2 : id = 2
    · subst h2
      cases m with
      | none => cases d <;> simp [Insn.expand, x86Pending]
      | some t =>
        by_cases hc : t.chosen
        · simp [Insn.expand, x86Pending, hc, TwoForm.widen]
          intro k hk; simp [hk]
        · simp [Insn.expand, x86Pending, hc]
    · have : (⟨f, d, m⟩ : Insn).expand len id = (⟨f, d, m⟩, len) := by
        unfold Insn.expand
        split
        · exact absurd rfl h1
        · exact absurd rfl h2
        · rfl
      rw [this]
      simp [x86Pending, h1, h2]

theorem insn_calc_pending (i : Insn) (id : Nat) :
    x86Pending (.insn i.calcLen.1) id = (i.calcLen.2.2.find? (·.id = id)).map fun d => ⟨d.val, d.neg, d.pos⟩ := by
  obtain ⟨f, d, m⟩ := i
  by_cases h1 : id = 1
  · subst h1
    cases d <;> cases m <;> simp [Insn.calcLen, x86Pending, TwoForm.choose]
  · by_cases h2 : id = 2
    · subst h2
      cases d <;> cases m <;> simp [Insn.calcLen, x86Pending, TwoForm.choose]
    · have e1 : ¬ (1 = id) := fun e => h1 e.symm
      have e2 : ¬ (2 = id) := fun e => h2 e.symm
      cases d <;> cases m <;> simp [Insn.calcLen, x86Pending, h1, h2, e1, e2]

theorem x86_ok : x86.Ok x86Pending (fun _ => 0) := by
  constructor
  · intro m m' n ds h
    cases m with
    | jmp j =>
      simp only [x86] at h
      cases hj : j.calcLen with
      | error e => rw [hj] at h; cases h
      | ok q =>
        obtain ⟨j', n', ds'⟩ := q
        rw [hj] at h; cases h
        obtain ⟨h1, h2, h3, _⟩ := jmp_calc hj
        exact ⟨h1, h2, h3⟩
    | insn i =>
      simp only [x86] at h
      cases h
      refine ⟨insn_calc_pending i, ?_, ?_⟩
      · obtain ⟨f, d, m⟩ := i
        cases d <;> cases m <;> simp [Insn.calcLen]
      · obtain ⟨f, d, m⟩ := i
        cases d <;> cases m <;> simp [Insn.calcLen]
    | fixed k =>
      simp only [x86] at h
      cases h
      exact ⟨fun id => by simp [x86Pending], by simp, by simp⟩
  · intro m len id old new neg pos m' n h
    cases m with
    | jmp j =>
      simp only [x86] at h
      cases hj : j.expand len id with
      | error e => rw [hj] at h; cases h
      | ok q =>
        obtain ⟨j', n', k⟩ := q
        rw [hj] at h; cases h
        obtain ⟨h1, _, h3, _⟩ := jmp_expand hj
        subst h1
        refine ⟨by simp [x86Pending, h3], ?_, Nat.le_refl _⟩
        intro k hk
        simp [x86Pending, hk]
    | insn i =>
      simp only [x86] at h
      cases h
      obtain ⟨h1, h2⟩ := insn_expand_pending i len id
      exact ⟨h1, h2, Nat.le_refl _⟩
    | fixed k => simp only [x86] at h; cases h
  · intro m len id old new neg pos m' n neg' pos' h
    cases m with
    | jmp j =>
      simp only [x86] at h
      cases hj : j.expand len id with
      | error e => rw [hj] at h; cases h
      | ok q =>
        obtain ⟨j', n', k⟩ := q
        rw [hj] at h
        obtain ⟨_, hk, _⟩ := jmp_expand hj
        subst hk; cases h
    | insn i => simp only [x86] at h; cases h
    | fixed k => simp only [x86] at h; cases h
  · intro m id p h
    cases m with
    | jmp j =>
      unfold x86Pending at h
      dsimp only at h
      split at h
      · cases h
        have := j.small
        simp only [Jmp.shortSize, LMAX]
        omega
      · cases h
    | insn i =>
      unfold x86Pending at h
      dsimp only at h
      split at h
      · split at h
        · split at h
          · cases h; show (127 : Int) < LMAX; decide
          · cases h
        · cases h
      · split at h
        · split at h
          · split at h
            · cases h; show (127 : Int) < LMAX; decide
            · cases h
          · cases h
        · cases h
    | fixed k => cases h
  · intro m len id old new neg pos m' n k h
    cases m with
    | jmp j =>
      simp only [x86] at h
      cases hj : j.expand len id with
      | error e => rw [hj] at h; cases h
      | ok q =>
        obtain ⟨j', n', k⟩ := q
        rw [hj] at h; cases h
        exact (jmp_expand hj).2.2.2
    | insn i =>
      simp only [x86] at h
      cases h
      exact insn_expand_len i len id
    | fixed k => simp only [x86] at h; cases h

/-- What the callbacks keep: only forms change; the length is that of the form; forced forms stay. -/
def x86Sized (m0 m : X86) (n : Nat) : Prop :=
  match m0, m with
  | .jmp j0, .jmp j => j = { j0 with sel := j.sel } ∧ j.sel ≠ .none ∧
    ((j.sel = .short ∨ j.sel = .shortForced) → n = j.shortSize) ∧
    ((j.sel = .near ∨ j.sel = .nearForced) → n = j.nearSize) ∧
    (j0.sel = .shortForced → j.shortLen ≠ 0 → j.sel = .shortForced) ∧
    (j0.sel = .nearForced → j.sel = .near ∨ j.sel = .nearForced) ∧
    (j.sel = .nearForced → j0.sel = .nearForced)
  | .insn i0, .insn i => n = i.size ∧ i.fixed = i0.fixed ∧ i.disp.map TwoForm.widen = i0.disp.map TwoForm.widen ∧
    i.imm.map TwoForm.widen = i0.imm.map TwoForm.widen
  | .fixed k0, .fixed k => k = k0 ∧ n = k
  | _, _ => False

theorem widen_choose (t : Option TwoForm) : (t.map TwoForm.choose).map TwoForm.widen = t.map TwoForm.widen := by
  cases t <;> rfl

theorem jmp_calc_sized {j j' : Jmp} {n : Nat} {ds : List Dep} (h : j.calcLen = .ok (j', n, ds)) :
    x86Sized (.jmp j) (.jmp j') n ∧ (ds ≠ [] → j.sel ≠ .nearForced ∧ j.shortLen ≠ 0) := by
  unfold Jmp.calcLen at h
  split at h
  · cases h
  · rename_i hn
    split at h
    · rename_i h1
      split at h
      · cases h
      · cases h
        refine ⟨⟨rfl, ?_⟩, by simp⟩
        dsimp only
        by_cases h0 : j.shortLen = 0
        · simp [h0]; rfl
        · rcases h1 with h1 | h1
          · simp [h0, h1]; rfl
          · exact absurd h1 h0
    · rename_i h1
      have h1a : j.sel ≠ .nearForced := fun e => h1 (Or.inl e)
      have h1b : j.shortLen ≠ 0 := fun e => h1 (Or.inr e)
      split at h
      · split at h
        · cases h
          refine ⟨⟨rfl, ?_⟩, by simp⟩
          dsimp only
          cases hs : j.sel <;> simp_all <;> rfl
        · rename_i h2
          cases h
          refine ⟨⟨rfl, ?_⟩, by simp⟩
          dsimp only
          refine ⟨by simp, by simp, fun _ => rfl, ?_, by simp, ?_⟩
          · intro e; exact absurd (Or.inl e) h2
          · simp
      · cases h
        refine ⟨⟨rfl, ?_⟩, fun _ => ⟨h1a, h1b⟩⟩
        dsimp only
        cases hs : j.sel <;> simp_all <;> rfl

theorem x86_sized : Keeps x86 x86Sized := by
  constructor
  · intro m0 m n ds h
    cases m0 with
    | jmp j =>
      simp only [x86] at h
      cases hj : j.calcLen with
      | error e => rw [hj] at h; cases h
      | ok q =>
        obtain ⟨j', n', ds'⟩ := q
        rw [hj] at h; cases h
        exact (jmp_calc_sized hj).1
    | insn i => simp only [x86] at h; cases h; exact ⟨rfl, rfl, widen_choose _, widen_choose _⟩
    | fixed k => simp only [x86] at h; cases h; exact ⟨rfl, rfl⟩
  · intro m0 m len id old new neg pos m' n k hrep hp h
    cases m with
    | jmp j =>
      simp only [x86] at h
      cases hj : j.expand len id with
      | error e => rw [hj] at h; cases h
      | ok q =>
        obtain ⟨j', n', k⟩ := q
        rw [hj] at h; cases h
        cases m0 with
        | insn _ => exact hp.elim
        | fixed _ => exact hp.elim
        | jmp j0 =>
          obtain ⟨p1, p2, p3, p4, p5, p6, p7⟩ := hp
          have hr : j0.sel ≠ .nearForced ∧ j0.shortLen ≠ 0 := by
            obtain ⟨m1, n1, ds1, hc, d, hd, _⟩ := hrep
            simp only [x86] at hc
            cases hj0 : j0.calcLen with
            | error e => rw [hj0] at hc; cases hc
            | ok q =>
              obtain ⟨j1, n1', ds1'⟩ := q
              rw [hj0] at hc; cases hc
              exact (jmp_calc_sized hj0).2 (by intro e; rw [e] at hd; simp at hd)
          have hsl : j.shortLen = j0.shortLen := by rw [p1]
          unfold Jmp.expand at hj
          split at hj
          · cases hj
          · split at hj
            · cases hj
            · rename_i h1
              split at hj
              · cases hj
              · rename_i h2
                cases hj
                have hsel : j.sel = .short := by
                  cases hs : j.sel with
                  | none => exact absurd hs p2
                  | short => rfl
                  | near => exact absurd hs h2
                  | shortForced => exact absurd (Or.inl hs) h1
                  | nearForced => exact absurd (p7 hs) hr.1
                refine ⟨by rw [p1], by simp, by simp, ?_, ?_, ?_, by simp⟩
                · intro _
                  have := p3 (Or.inl hsel)
                  rw [this]
                  simp only [Jmp.shortSize, Jmp.nearSize]
                  split <;> omega
                · intro e; exact absurd (Or.inl (p5 e (by rw [hsl]; exact hr.2))) h1
                · intro e; exact absurd e hr.1
    | insn i =>
      simp only [x86] at h
      cases h
      cases m0 with
      | jmp _ => exact hp.elim
      | fixed _ => exact hp.elim
      | insn i0 =>
        obtain ⟨hp, p2, p3, p4⟩ := hp
        obtain ⟨f, d, m⟩ := i
        show ((⟨f, d, m⟩ : Insn).expand len id).2 = ((⟨f, d, m⟩ : Insn).expand len id).1.size ∧ _
        unfold Insn.expand
        split
        · rename_i t _ hd
          simp only at hd; subst hd
          split
          · rename_i hc
            refine ⟨?_, p2, p3, p4⟩
            simp only [Insn.size, optSize, TwoForm.size, TwoForm.widen, hc, if_true] at hp ⊢
            simp; omega
          · exact ⟨hp, p2, p3, p4⟩
        · rename_i t _ hd
          simp only at hd; subst hd
          split
          · rename_i hc
            refine ⟨?_, p2, p3, p4⟩
            simp only [Insn.size, optSize, TwoForm.size, TwoForm.widen, hc, if_true] at hp ⊢
            simp; omega
          · exact ⟨hp, p2, p3, p4⟩
        · exact ⟨hp, p2, p3, p4⟩
    | fixed k => simp only [x86] at h; cases h

def lc3bPending (m : Option SVal) (id : Nat) : Option Promise :=
  if id = 1 then m.map fun v => ⟨v, -510, 513⟩ else none

theorem lc3b_ok : lc3b.Ok lc3bPending (fun _ => 0) := by
  constructor
  · intro m m' n ds h
    simp only [lc3b] at h
    cases h
    refine ⟨?_, ?_, ?_⟩
    · intro id
      by_cases h1 : id = 1
      · subst h1; cases m <;> simp [lc3bPending]
      · have : ¬ (1 = id) := fun e => h1 e.symm
        cases m <;> simp [lc3bPending, h1, this]
    · cases m <;> simp
    · cases m <;> simp
  · intro m len id old new neg pos m' n h; simp only [lc3b] at h; cases h
  · intro m len id old new neg pos m' n a b h; simp only [lc3b] at h; cases h
  · intro m id p h
    unfold lc3bPending at h
    split at h
    · cases m with
      | none => cases h
      | some v => simp at h; subst h; show (513 : Int) < LMAX; decide
    · cases h
  · intro m len id old new neg pos m' n k h; simp only [lc3b] at h; cases h

theorem lc3b_sized : Keeps lc3b (fun m0 m n => m = m0 ∧ n = 2) := by
  constructor
  · intro m0 m n ds h; simp only [lc3b] at h; cases h; exact ⟨rfl, rfl⟩
  · intro m0 m len id old new neg pos m' n k _ hp h; simp only [lc3b] at h; cases h

end Verif.Optimize
