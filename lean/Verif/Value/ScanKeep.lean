import Verif.Value.FinLemmas
import Verif.Expr.Shape
/-
The scan keeps the operators, the symbols, the depth and the range of the shift, and its recursion is deep
enough.
-/
set_option linter.unusedSimpArgs false
namespace Verif.Value
open Verif.Intnum Verif.Expr

/-- The shift is in its 7-bit field, and 0 without a relocatable symbol. -/
def ShOk (p : Parts) : Prop := (p.rel = none → p.rshift = 0) ∧ p.rshift ≤ 127

/-- What a result keeps, relative to what was scanned. -/
structure Kept (T : Item → Prop) (p : Parts) (t : Item) (p' : Parts) (t' : Item) : Prop where
  sh : ShOk p → ShOk p'
  term : T t → T t'
  deep : height t' ≤ height t
  isExpr : (∃ op ts, t = .expr op ts) → ∃ op ts, t' = .expr op ts
  wrt : NoWrt t → p'.wrt = p.wrt ∧ NoWrt t'

/-- The predicate may be used: it goes to the terms and back. -/
structure TermPred (y : Syms) (T : Item → Prop) : Prop where
  sub : ∀ op ts, T (.expr op ts) → ∀ t ∈ ts, T t
  build : ∀ op ts ts', T (.expr op ts) → (∀ t ∈ ts', T t) → T (.expr op ts')
  ident : ∀ ts, (∀ t ∈ ts, T t) → T (.expr .IDENT ts)
  zero : T zero
  here : T (.sym y.here)

/-- The scan stops only with a rejection or the fatal error. -/
def Stops {α : Type} (r : Except Stop α) : Prop := ∀ e, r = .error e → e = .reject ∨ e = .tooMany

theorem stops_ok {α : Type} (a : α) : Stops (.ok a : Except Stop α) := by intro e h; cases h
theorem stops_reject {α : Type} : Stops (.error .reject : Except Stop α) := by intro e h; cases h; exact Or.inl rfl
theorem stops_err {α β : Type} {e : Stop} (h : Stops (.error e : Except Stop α)) : Stops (.error e : Except Stop β) := by
  intro e' h'; cases h'; exact h e rfl

/-- A result that stops as said, and keeps. -/
def Fine (T : Item → Prop) (p : Parts) (t : Item) (r : Except Stop (Parts × Item)) : Prop :=
  Stops r ∧ ∀ p' t', r = .ok (p', t') → Kept T p t p' t'

theorem shOk_some {p : Parts} (h : ShOk p) (s : Nat) (b : Bool) : ShOk { p with rel := some s, curposRel := b } :=
  ⟨(by intro hh; cases hh), h.2⟩

/-- The invariant of the loops over a sum. -/
structure LInv (T : Item → Prop) (p : Parts) (ts : List Item) (st : AddState) : Prop where
  sh : ShOk p → ShOk st.p
  term : (∀ t ∈ ts, T t) → ∀ t ∈ st.ts, T t
  deep : ∀ t ∈ st.ts, height t ≤ heightL ts
  wrt : NoWrtL ts → st.p.wrt = p.wrt ∧ ∀ t ∈ st.ts, NoWrt t

theorem linv_set {T : Item → Prop} {p : Parts} {ts : List Item} {st : AddState} (h : LInv T p ts st) (i : Nat) (t : Item) (q : Parts)
    (used : List Nat) (hq : ShOk st.p → ShOk q) (h1 : (∀ t ∈ ts, T t) → T t) (h2 : height t ≤ heightL ts)
    (h3 : NoWrtL ts → q.wrt = st.p.wrt ∧ NoWrt t) :
    LInv T p ts ⟨q, st.ts.set i t, used⟩ where
  sh hp := hq (h.sh hp)
  term ht u hu := by
    rcases mem_set_of hu with hu | rfl
    · exact h.term ht u hu
    · exact h1 ht
  deep u hu := by
    rcases mem_set_of hu with hu | rfl
    · exact h.deep u hu
    · exact h2
  wrt hn := by
    refine ⟨(h3 hn).1.trans (h.wrt hn).1, ?_⟩
    intro u hu
    rcases mem_set_of hu with hu | rfl
    · exact (h.wrt hn).2 u hu
    · exact (h3 hn).2

theorem loop_fine {T : Item → Prop} {p : Parts} {ts : List Item} (f : AddState → Nat → Except Stop AddState)
    (hf : ∀ st i, LInv T p ts st → Stops (f st i) ∧ ∀ st', f st i = .ok st' → LInv T p ts st')
    (is : List Nat) (st : AddState) (h : LInv T p ts st) :
    Stops (loop f is st) ∧ ∀ st', loop f is st = .ok st' → LInv T p ts st' := by
  induction is generalizing st with
  | nil =>
    refine ⟨stops_ok _, ?_⟩
    intro st' hs
    simp only [loop, Except.ok.injEq] at hs
    exact hs ▸ h
  | cons i is ih =>
    obtain ⟨a, b⟩ := hf st i h
    simp only [loop]
    cases hx : f st i with
    | error e =>
      rw [hx] at a
      exact ⟨stops_err a, by intro st' hs; cases hs⟩
    | ok st1 => exact ih st1 (b st1 hx)

theorem addStep_fine {y : Syms} {T : Item → Prop} (g : TermPred y T) (rec : Parts → Item → Except Stop (Parts × Item)) (notOk : Bool)
    (p : Parts) (ts : List Item) (hrec : ∀ q t, height t ≤ heightL ts → Fine T q t (rec q t)) (st : AddState) (i : Nat)
    (h : LInv T p ts st) :
    Stops (addStep rec y notOk st i) ∧ ∀ st', addStep rec y notOk st i = .ok st' → LInv T p ts st' := by
  have hz : height zero ≤ heightL ts := by simp [zero, height]
  have hy : height (.sym y.here) ≤ heightL ts := by simp [height]
  unfold addStep
  split
  · rename_i op us hget
    have hmem : Item.expr op us ∈ st.ts := List.mem_of_getElem? hget
    have hrecurse : ∀ (r : Except Stop AddState), r = (match rec st.p (.expr op us) with
        | .error e => .error e
        | .ok (p', t') => .ok ⟨p', st.ts.set i t', st.used⟩) → Stops r ∧ ∀ st', r = .ok st' → LInv T p ts st' := by
      intro r hr
      obtain ⟨a, b⟩ := hrec st.p (.expr op us) (h.deep _ hmem)
      subst hr
      cases hx : rec st.p (.expr op us) with
      | error e => rw [hx] at a; exact ⟨stops_err a, by intro st' hs; cases hs⟩
      | ok r =>
        obtain ⟨p', t'⟩ := r
        have hk := b p' t' hx
        refine ⟨stops_ok _, ?_⟩
        intro st' hs
        simp only [Except.ok.injEq] at hs
        subst hs
        exact linv_set h i t' p' _ hk.sh (fun ht => hk.term (h.term ht _ hmem)) (Nat.le_trans hk.deep (h.deep _ hmem))
          (fun hn => hk.wrt ((h.wrt hn).2 _ hmem))
    dsimp only
    split
    · exact hrecurse _ rfl
    · split
      · refine ⟨stops_ok _, ?_⟩
        intro st' hs
        simp only [Except.ok.injEq] at hs
        subst hs
        have h1 := linv_set h i zero st.p st.used id (fun _ => g.zero) hz (fun _ => ⟨rfl, noWrt_zero⟩)
        exact linv_set h1 _ zero _ _ id (fun _ => g.zero) hz (fun _ => ⟨rfl, noWrt_zero⟩)
      · split
        · exact hrecurse _ rfl
        · split
          · refine ⟨stops_ok _, ?_⟩
            intro st' hs
            simp only [Except.ok.injEq] at hs
            subst hs
            exact ⟨h.sh, h.term, h.deep, h.wrt⟩
          · split
            · split
              · exact ⟨stops_reject, by intro st' hs; cases hs⟩
              · split
                · exact ⟨stops_reject, by intro st' hs; cases hs⟩
                · split
                  · refine ⟨stops_ok _, ?_⟩
                    intro st' hs
                    simp only [Except.ok.injEq] at hs
                    subst hs
                    have h1 := linv_set h i zero st.p st.used id (fun _ => g.zero) hz (fun _ => ⟨rfl, noWrt_zero⟩)
                    exact linv_set h1 _ zero _ _ (fun hp => shOk_some hp _ _) (fun _ => g.zero) hz (fun _ => ⟨rfl, noWrt_zero⟩)
                  · refine ⟨stops_ok _, ?_⟩
                    intro st' hs
                    simp only [Except.ok.injEq] at hs
                    subst hs
                    exact linv_set h _ _ _ _ (fun hp => shOk_some hp _ _) (fun _ => g.here) hy (fun _ => ⟨rfl, by simp [NoWrt]⟩)
            · exact ⟨stops_reject, by intro st' hs; cases hs⟩
  · refine ⟨stops_ok _, ?_⟩
    intro st' hs
    simp only [Except.ok.injEq] at hs
    exact hs ▸ h

theorem leftStep_fine {y : Syms} {T : Item → Prop} (g : TermPred y T) (notOk : Bool)
    (p : Parts) (ts : List Item) (st : AddState) (i : Nat) (h : LInv T p ts st) :
    Stops (leftStep notOk st i) ∧ ∀ st', leftStep notOk st i = .ok st' → LInv T p ts st' := by
  have hz : height zero ≤ heightL ts := by simp [zero, height]
  unfold leftStep
  split
  · split
    · refine ⟨stops_ok _, ?_⟩
      intro st' hs
      simp only [Except.ok.injEq] at hs
      exact hs ▸ h
    · split
      · exact ⟨stops_reject, by intro st' hs; cases hs⟩
      · refine ⟨stops_ok _, ?_⟩
        intro st' hs
        simp only [Except.ok.injEq] at hs
        subst hs
        exact linv_set h i zero _ _ (fun hp => ⟨(by intro hh; cases hh), hp.2⟩) (fun _ => g.zero) hz (fun _ => ⟨rfl, noWrt_zero⟩)
  · refine ⟨stops_ok _, ?_⟩
    intro st' hs
    simp only [Except.ok.injEq] at hs
    exact hs ▸ h

theorem fine_err {T : Item → Prop} {p : Parts} {t : Item} {e : Stop} (h : e = .reject ∨ e = .tooMany) : Fine T p t (.error e) :=
  ⟨(by intro e' h'; cases h'; exact h), by intro p' t' hh; cases hh⟩

theorem fine_ok {T : Item → Prop} {p : Parts} {t : Item} {p' : Parts} {t' : Item} (h : Kept T p t p' t') : Fine T p t (.ok (p', t')) :=
  ⟨stops_ok _, by intro q u hh; cases hh; exact h⟩

theorem scanAdd_fine {y : Syms} {T : Item → Prop} (g : TermPred y T) (rec : Parts → Item → Except Stop (Parts × Item)) (notOk : Bool)
    (p : Parts) (ts : List Item) (hrec : ∀ q t, height t ≤ heightL ts → Fine T q t (rec q t)) :
    Fine T p (.expr .ADD ts) (scanAdd rec y notOk p ts) := by
  unfold scanAdd
  split
  · exact fine_err (by simp)
  · have h0 : LInv T p ts ⟨p, ts, []⟩ := ⟨id, id, fun t ht => height_le_heightL ht, fun hn => ⟨rfl, (noWrtL_iff ts).1 hn⟩⟩
    obtain ⟨a, b⟩ := loop_fine _ (addStep_fine g rec notOk p ts hrec) (List.range ts.length) _ h0
    cases hx : loop (addStep rec y notOk) (List.range ts.length) ⟨p, ts, []⟩ with
    | error e => rw [hx] at a; exact fine_err (a _ rfl)
    | ok st =>
      obtain ⟨a2, b2⟩ := loop_fine _ (leftStep_fine g notOk p ts) (List.range ts.length) _ (b st hx)
      dsimp only
      cases hx2 : loop (leftStep notOk) (List.range ts.length) st with
      | error e => rw [hx2] at a2; exact fine_err (a2 _ rfl)
      | ok st' =>
        have hl := b2 st' hx2
        refine fine_ok ⟨hl.sh, fun ht => g.build _ _ _ ht (hl.term (g.sub _ _ ht)), ?_, fun _ => ⟨_, _, rfl⟩,
          fun hn => ⟨(hl.wrt hn.2).1, by simp, (noWrtL_iff _).2 (hl.wrt hn.2).2⟩⟩
        simp only [height]
        have := heightL_le hl.deep
        omega

theorem scanShr_fine {y : Syms} {T : Item → Prop} (g : TermPred y T) (notOk : Bool) (p : Parts) (ts : List Item) :
    Fine T p (.expr .SHR ts) (scanShr notOk p ts) := by
  unfold scanShr
  split
  · rename_i s rest
    split
    · exact fine_err (by simp)
    · rename_i hr
      split
      · rename_i i rest'
        dsimp only
        split
        · exact fine_err (by simp)
        · rename_i hlt
          refine fine_ok ⟨?_, ?_, ?_, fun _ => ⟨_, _, rfl⟩, fun hn => ⟨rfl, by simp, noWrt_zero, hn.2.2⟩⟩
          · intro hp
            refine ⟨(by intro hh; cases hh), ?_⟩
            dsimp only
            have h0 := hp.1 (rel_none hr).1
            rw [h0] at hlt ⊢
            simp at hlt
            omega
          · intro ht
            refine g.build _ _ _ ht ?_
            intro t htm
            rcases List.mem_cons.1 htm with rfl | htm
            · exact g.zero
            · exact g.sub _ _ ht t (List.mem_cons_of_mem _ htm)
          · simp [height, heightL, zero]
      · exact fine_err (by simp)
  · exact fine_ok ⟨id, id, Nat.le_refl _, fun _ => ⟨_, _, rfl⟩, fun hn => ⟨rfl, hn⟩⟩

theorem scanSeg_fine {y : Syms} {T : Item → Prop} (g : TermPred y T) (notOk : Bool) (p : Parts) (ts : List Item) :
    Fine T p (.expr .SEG ts) (scanSeg notOk p ts) := by
  unfold scanSeg
  split
  · rename_i s rest
    split
    · exact fine_err (by simp)
    · split
      · exact fine_err (by simp)
      · refine fine_ok ⟨fun hp => ⟨(by intro hh; cases hh), hp.2⟩, ?_, ?_, fun _ => ⟨_, _, rfl⟩, fun hn => ⟨rfl, by simp, noWrt_zero, hn.2.2⟩⟩
        · intro ht
          refine g.ident _ ?_
          intro t htm
          rcases List.mem_cons.1 htm with rfl | htm
          · exact g.zero
          · exact g.sub _ _ ht t (List.mem_cons_of_mem _ htm)
        · simp [height, heightL, zero]
  · exact fine_err (by simp)

theorem scanWrtLeft_fine {y : Syms} {T : Item → Prop} (g : TermPred y T) (rec : Parts → Item → Except Stop (Parts × Item)) (notOk : Bool)
    (wrap : Item → Item) (p p0 : Parts) (a whole : Item) (h0 : ShOk p0 → ShOk p) (hrec : ∀ q, Fine T q a (rec q a))
    (hT : ∀ t, T whole → (T a → T t) → T (wrap t)) (hh : ∀ t, height t ≤ height a → height (wrap t) ≤ height whole)
    (he : ∀ t, ∃ op ts, wrap t = .expr op ts) (hnw : ¬ NoWrt whole) : Fine T p0 whole (scanWrtLeft rec notOk wrap p a) := by
  unfold scanWrtLeft
  split
  · split
    · exact fine_err (by simp)
    · refine fine_ok ⟨fun hp => ⟨(by intro hh; cases hh), (h0 hp).2⟩, ?_, ?_, fun _ => he _, fun hn => absurd hn hnw⟩
      · intro ht; exact hT _ ht (fun _ => g.zero)
      · exact hh _ (by simp [zero, height])
  · rename_i op us
    obtain ⟨a1, b1⟩ := hrec p
    cases hx : rec p (.expr op us) with
    | error e => rw [hx] at a1; exact fine_err (a1 _ rfl)
    | ok r =>
      obtain ⟨p', t'⟩ := r
      have hk := b1 p' t' hx
      exact fine_ok ⟨fun hp => hk.sh (h0 hp), fun ht => hT _ ht hk.term, hh _ hk.deep, fun _ => he _, fun hn => absurd hn hnw⟩
  · exact fine_ok ⟨h0, fun ht => hT _ ht id, hh _ (Nat.le_refl _), fun _ => he _, fun hn => absurd hn hnw⟩

theorem scanWrt_fine {y : Syms} {T : Item → Prop} (g : TermPred y T) (rec : Parts → Item → Except Stop (Parts × Item)) (notOk : Bool)
    (p : Parts) (ts : List Item) (hrec : ∀ q t, height t ≤ heightL ts → Fine T q t (rec q t)) :
    Fine T p (.expr .WRT ts) (scanWrt rec notOk p ts) := by
  unfold scanWrt
  split
  · rename_i a s
    split
    · exact fine_err (by simp)
    · refine scanWrtLeft_fine g rec notOk _ _ p a _ (fun hp => ⟨hp.1, hp.2⟩) (fun q => hrec q a (height_le_heightL (by simp))) ?_ ?_
        (fun _ => ⟨_, _, rfl⟩) (fun hn => hn.1 rfl)
      · intro t ht hta
        refine g.ident _ ?_
        intro u hu
        simp only [List.mem_singleton] at hu
        exact hu ▸ hta (g.sub _ _ ht a (by simp))
      · intro t ht
        simp only [height, heightL]; omega
  · rename_i a r
    refine scanWrtLeft_fine g rec notOk _ _ p a _ id (fun q => hrec q a (height_le_heightL (by simp))) ?_ ?_ (fun _ => ⟨_, _, rfl⟩)
      (fun hn => hn.1 rfl)
    · intro t ht hta
      refine g.build _ _ _ ht ?_
      intro u hu
      simp only [List.mem_cons, List.not_mem_nil, or_false] at hu
      rcases hu with rfl | rfl
      · exact hta (g.sub _ _ ht a (by simp))
      · exact g.sub _ _ ht _ (by simp)
    · intro t ht
      simp only [height, heightL]; omega
  · exact fine_err (by simp)

theorem scanOther_fine {T : Item → Prop} (rec : Parts → Item → Except Stop (Parts × Item)) (p : Parts) (ts : List Item)
    (hrec : ∀ q t, height t ≤ heightL ts → Fine T q t (rec q t)) :
    Stops (scanOther rec p ts) ∧ ∀ p' ts', scanOther rec p ts = .ok (p', ts') →
      (ShOk p → ShOk p') ∧ ((∀ t ∈ ts, T t) → ∀ t ∈ ts', T t) ∧ heightL ts' ≤ heightL ts ∧
      (NoWrtL ts → p'.wrt = p.wrt ∧ NoWrtL ts') := by
  induction ts with
  | nil =>
    refine ⟨stops_ok _, ?_⟩
    intro p' ts' h
    simp only [scanOther, Except.ok.injEq, Prod.mk.injEq] at h
    obtain ⟨rfl, rfl⟩ := h
    exact ⟨id, fun h => h, Nat.le_refl _, fun h => ⟨rfl, h⟩⟩
  | cons t ts ih =>
    have ih := ih (fun q u hu => hrec q u (by simp only [heightL]; omega))
    by_cases hs : ∃ s, t = .sym s
    · obtain ⟨s, rfl⟩ := hs
      simp only [scanOther]
      exact ⟨stops_reject, by intro p' ts' h; cases h⟩
    · by_cases he : ∃ op us, t = .expr op us
      · obtain ⟨op, us, rfl⟩ := he
        obtain ⟨a, b⟩ := hrec p (.expr op us) (by simp only [heightL]; omega)
        simp only [scanOther]
        cases hx : rec p (.expr op us) with
        | error e => rw [hx] at a; exact ⟨stops_err a, by intro p' ts' hs; cases hs⟩
        | ok r =>
          obtain ⟨p1, t1⟩ := r
          have hk := b p1 t1 hx
          refine ⟨stops_ok _, ?_⟩
          intro p' ts' h
          simp only [Except.ok.injEq, Prod.mk.injEq] at h
          obtain ⟨rfl, rfl⟩ := h
          refine ⟨hk.sh, ?_, ?_, fun hn => ⟨(hk.wrt hn.1).1, (hk.wrt hn.1).2, hn.2⟩⟩
          · intro ht u hu
            rcases List.mem_cons.1 hu with rfl | hu
            · exact hk.term (ht _ (by simp))
            · exact ht u (List.mem_cons_of_mem _ hu)
          · have := hk.deep
            simp only [heightL]; omega
      · have hleaf : Leaf t := by
          cases t <;> simp_all [Leaf]
        have hr := ih
        constructor
        · intro e hf
          apply hr.1 e
          cases t with
          | sym s => exact absurd ⟨s, rfl⟩ hs
          | expr op us => exact absurd ⟨op, us, rfl⟩ he
          | _ =>
            simp only [scanOther] at hf
            cases hx : scanOther rec p ts with
            | error e => rw [hx] at hf; simpa using hf
            | ok r => rw [hx] at hf; simp at hf
        · intro p' ts' h
          obtain ⟨l, h1, rfl⟩ := scanOther_cons rec p t ts p' ts' hleaf (fun s hh => hs ⟨s, hh⟩) h
          obtain ⟨a, b, c, d⟩ := hr.2 p' l h1
          refine ⟨a, ?_, by simp only [heightL]; omega, fun hn => ⟨(d hn.2).1, hn.1, (d hn.2).2⟩⟩
          intro ht u hu
          rcases List.mem_cons.1 hu with rfl | hu
          · exact ht _ (by simp)
          · exact b (fun v hv => ht v (List.mem_cons_of_mem _ hv)) u hu

theorem scan_fine {y : Syms} {T : Item → Prop} (g : TermPred y T) (k : Nat) :
    ∀ notOk p t, height t < k → Fine T p t (scan y k notOk p t) := by
  induction k with
  | zero => intro _ _ t h; omega
  | succ k ih =>
    intro notOk p t h
    cases t with
    | expr op ts =>
      have hl : heightL ts < k := by
        simp only [height] at h
        split at h <;> omega
      have hrec : ∀ b q t, height t ≤ heightL ts → Fine T q t (scan y k b q t) := fun b q t ht => ih b q t (by omega)
      by_cases h1 : op = .ADD
      · subst h1; rw [scan]; exact scanAdd_fine g _ notOk p ts (hrec notOk)
      · by_cases h2 : op = .SHR
        · subst h2; rw [scan]; exact scanShr_fine g notOk p ts
        · by_cases h3 : op = .SEG
          · subst h3; rw [scan]; exact scanSeg_fine g notOk p ts
          · by_cases h4 : op = .WRT
            · subst h4; rw [scan]; exact scanWrt_fine g _ notOk p ts (hrec notOk)
            · rw [scan]
              · obtain ⟨a, b⟩ := scanOther_fine (scan y k true) p ts (hrec true)
                cases hx : scanOther (scan y k true) p ts with
                | error e => rw [hx] at a; exact fine_err (a _ rfl)
                | ok r =>
                  obtain ⟨p', ts'⟩ := r
                  obtain ⟨c1, c2, c3, c4⟩ := b p' ts' hx
                  refine fine_ok ⟨c1, fun ht => g.build _ _ _ ht (c2 (g.sub _ _ ht)), ?_, fun _ => ⟨_, _, rfl⟩,
                    fun hn => ⟨(c4 hn.2).1, hn.1, (c4 hn.2).2⟩⟩
                  simp only [height]; omega
              all_goals assumption
    | _ => rw [scan]; · exact fine_ok ⟨id, id, Nat.le_refl _, fun h => h, fun hn => ⟨rfl, hn⟩⟩
           all_goals simp

end Verif.Value
