import Verif.Optimize.Lemmas
/-
The invariant of the optimizer's main loop.
-/
set_option linter.unusedSimpArgs false
set_option linter.unusedVariables false
namespace Verif.Optimize
open Verif.Inttree

variable {M : Type}

/-- The part of a span the main loop does not change. -/
structure SSkel where
  bc : Nat
  id : Nat
  val : SVal
  nabs : Nat
  os : Nat
  pairs : List (Nat × Nat)

def Term.pp (t : Term) : Nat × Nat := (t.pre, t.pre2)
def Span.skel (s : Span) : SSkel := ⟨s.bc, s.id, s.val, s.nabs, s.os, s.terms.map Term.pp⟩

theorem Index.Ok.congr {x : Index} {A B : List Span} (h : A.map Span.skel = B.map Span.skel) (hA : x.Ok A) : x.Ok B := by
  have key : ∀ {A B : List Span}, A.map Span.skel = B.map Span.skel → ∀ (r : Ref) (k : Nat),
      (∃ s t, A[r.span]? = some s ∧ s.terms[r.term]? = some t ∧ covers k t.pre t.pre2 = true) →
      ∃ s t, B[r.span]? = some s ∧ s.terms[r.term]? = some t ∧ covers k t.pre t.pre2 = true := by
    rintro A B h r k ⟨s, t, hs, ht, hc⟩
    have h1 := congrArg (fun l => l[r.span]?) h
    simp only [List.getElem?_map, hs] at h1
    cases hb : B[r.span]? with
    | none => rw [hb] at h1; simp at h1
    | some s' =>
      rw [hb] at h1; simp at h1
      have h2 := congrArg (fun z => (SSkel.pairs z)[r.term]?) h1
      simp only [Span.skel, List.getElem?_map, ht] at h2
      cases ht' : s'.terms[r.term]? with
      | none => rw [ht'] at h2; simp at h2
      | some t' =>
        rw [ht'] at h2; simp [Term.pp] at h2
        exact ⟨s', t', rfl, ht', by rw [← h2.1, ← h2.2]; exact hc⟩
  intro k hk
  obtain ⟨h1, h2⟩ := hA k hk
  exact ⟨h1, fun r => (h2 r).trans ⟨key h r k, key h.symm r k⟩⟩

/-- The labels of the relative term of a value of bytecode `i`. -/
def relPairs (bk : List BSkel) (i : Nat) (v : SVal) : List (Nat × Nat) :=
  match v.rel with
  | .label q => if (bk[q]?).map (·.sect) = (bk[i]?).map (·.sect) then [(i - 1, q)] else []
  | _ => []

/-- The terms of a span are those of its value. -/
def Termed (bk : List BSkel) (s : SSkel) : Prop :=
  s.pairs = s.val.pairs ++ relPairs bk s.bc s.val ∧ s.nabs = s.val.pairs.length ∧
  (∀ p ∈ s.val.pairs, ∃ a b, bk[p.1]? = some a ∧ bk[p.2]? = some b ∧ a.sect = b.sect)

/-- Facts about an optimizer run that do not change during the main loop. -/
structure Static (M : Type) (x : Index) (bk : List BSkel) (sk : List SSkel) (ob : List Nat) : Prop where
  shape : ∀ B : List (Bc M), B.map Bc.skel = bk → Shape B
  small : bk.length < 2 ^ 31
  uniq : ∀ (i j : Nat) a b, sk[i]? = some a → sk[j]? = some b → a.bc = b.bc → a.id = b.id → i = j
  spanBc : ∀ s ∈ sk, ∃ b, bk[s.bc]? = some b ∧ b.kind = .insn
  osBc : ∀ k ∈ ob, ∃ b s, bk[k]? = some b ∧ b.kind = .setter s
  osAll : ∀ (k : Nat) b s, bk[k]? = some b → b.kind = .setter s → k ∈ ob
  sorted : ∀ (i j : Nat) a b, i < j → ob[i]? = some a → ob[j]? = some b → a < b
  spanOs : ∀ s ∈ sk, ∀ (j k : Nat), ob[j]? = some k → (s.os ≤ j ↔ s.bc < k)
  index : ∀ S : List Span, S.map Span.skel = sk → x.Ok S
  termed : ∀ s ∈ sk, Termed bk s

/-- What holds of the spans while the terms in `rem` still have to grow by `δ`; the spans in `ex` have been
    taken off the queue. -/
structure Mid (pending : M → Nat → Option Promise) (sk : List SSkel) (δ : Int) (rem : List Ref) (ex : List Nat)
    (st : St M) : Prop where
  hs : st.spans.map Span.skel = sk
  terms : ∀ (i : Nat) s (j : Nat) t, st.spans[i]? = some s → s.active ≠ 0 → s.terms[j]? = some t →
    t.newVal + (if ⟨i, j⟩ ∈ rem then (if t.pre < t.pre2 then δ else -δ) else 0) = D st.bcs t.pre t.pre2
  one : ∀ (i : Nat) s, st.spans[i]? = some s → s.active = 1 → s.exceeds s.value = false
  two : ∀ (i : Nat) s, st.spans[i]? = some s → s.active = 2 → i ∈ st.qa ∨ i ∈ st.qb ∨ i ∈ ex
  le : ∀ s ∈ st.spans, s.active ≤ 2
  pend : ∀ (i : Nat) b m id p, st.bcs[i]? = some b → b.contents = .insn m → pending m id = some p →
    ∃ (k : Nat) (s : Span), st.spans[k]? = some s ∧ s.bc = i ∧ s.id = id ∧ s.id ≠ 0 ∧ s.val = p.val ∧ s.neg = p.neg ∧
      s.pos = p.pos ∧ s.active ≠ 0
  mult : ∀ (i : Nat) b v, st.bcs[i]? = some b → b.mult = .dep v →
    ∃ (k : Nat) (s : Span), st.spans[k]? = some s ∧ s.bc = i ∧ s.id = 0 ∧ s.val = v ∧ s.curVal = b.multInt ∧
      (s.active ≠ 0 ∨ s.curVal = LMAX)

theorem termExpand_fields (d : Int) (st : St M) (r : Ref) :
    (termExpand d st r).bcs = st.bcs ∧ (termExpand d st r).oss = st.oss ∧ (termExpand d st r).errs = st.errs ∧
    (termExpand d st r).saw = st.saw := by
  unfold termExpand
  split
  · simp
  · split
    · simp
    · dsimp only
      split
      · simp
      · split <;> simp

theorem growAcross_fields (x : Index) (k : Nat) (d : Int) (st : St M) :
    (growAcross x k d st).bcs = st.bcs ∧ (growAcross x k d st).oss = st.oss ∧ (growAcross x k d st).errs = st.errs ∧
    (growAcross x k d st).saw = st.saw := by
  unfold growAcross
  generalize x.across k = l
  induction l generalizing st with
  | nil => simp
  | cons r l ih =>
    rw [List.foldl_cons]
    obtain ⟨a, b, c, e⟩ := ih (termExpand d st r)
    obtain ⟨a', b', c', e'⟩ := termExpand_fields d st r
    exact ⟨a.trans a', b.trans b', c.trans c', e.trans e'⟩

theorem set_map_same {α β} {f : α → β} {l : List α} {i : Nat} {a b : α} (h : l[i]? = some a) (e : f b = f a) :
    (l.set i b).map f = l.map f := by
  apply List.ext_getElem?
  intro j
  simp only [List.getElem?_map, List.getElem?_set]
  split
  · rename_i hij; subst hij
    have := (List.getElem?_eq_some_iff.mp h).1
    simp [this, h, e]
    have := (List.getElem?_eq_some_iff.mp h).2
    rw [this]
  · rfl

theorem get_set {α} {l : List α} {i : Nat} {a : α} (h : l[i]? = some a) (b : α) (j : Nat) :
    (l.set i b)[j]? = if j = i then some b else l[j]? := by
  have := (List.getElem?_eq_some_iff.mp h).1
  rw [List.getElem?_set]
  by_cases e : i = j
  · subst e; simp [this]
  · rw [if_neg e, if_neg (Ne.symm e)]

theorem grow_pp (d : Int) (t : Term) : (Term.grow d t).pp = t.pp := rfl

theorem modify_pp (d : Int) (ts : List Term) (j : Nat) : (ts.modify j (Term.grow d)).map Term.pp = ts.map Term.pp := by
  apply List.ext_getElem?
  intro i
  simp only [List.getElem?_map, List.getElem?_modify]
  split <;> cases ts[i]? <;> simp [grow_pp]

theorem LMAX_exceeds {s : Span} (h0 : s.id ≠ 0) (h : s.pos < LMAX) : s.exceeds LMAX = true := by
  unfold Span.exceeds; rw [if_neg h0]; simp; omega

/-- One term grows. -/
theorem termExpand_mid {pending : M → Nat → Option Promise} (hbound : ∀ m id p, pending m id = some p → p.pos < LMAX)
    {sk : List SSkel} {δ : Int} {r : Ref} {rem : List Ref} {ex : List Nat} {st : St M}
    (h : Mid pending sk δ (r :: rem) ex st) (hr : r ∉ rem) : Mid pending sk δ rem ex (termExpand δ st r) := by
  unfold termExpand
  split
  · rename_i hn
    refine ⟨h.hs, ?_, h.one, h.two, h.le, h.pend, h.mult⟩
    intro i s j t hs ha ht
    have := h.terms i s j t hs ha ht
    have hne : (⟨i, j⟩ : Ref) ≠ r := by intro e; subst e; simp [hs] at hn
    simpa [List.mem_cons, hne] using this
  · rename_i s hs
    split
    · rename_i ha
      refine ⟨h.hs, ?_, h.one, h.two, h.le, h.pend, h.mult⟩
      intro i s' j t hs' ha' ht
      have := h.terms i s' j t hs' ha' ht
      have hne : (⟨i, j⟩ : Ref) ≠ r := by
        intro e; subst e; rw [hs] at hs'; cases hs'; exact ha' ha
      simpa [List.mem_cons, hne] using this
    · rename_i ha
      -- the terms of a span whose terms are these
      have terms' : ∀ (s2 : Span), s2.terms = s.terms.modify r.term (Term.grow δ) →
          ∀ (i : Nat) u (j : Nat) t, (st.spans.set r.span s2)[i]? = some u → u.active ≠ 0 → u.terms[j]? = some t →
          t.newVal + (if ⟨i, j⟩ ∈ rem then (if t.pre < t.pre2 then δ else -δ) else 0) = D st.bcs t.pre t.pre2 := by
        intro s2 e2 i u j t hu hua ht
        rw [get_set hs] at hu
        by_cases e : i = r.span
        · rw [if_pos e] at hu; cases hu
          rw [e2, List.getElem?_modify] at ht
          by_cases ej : r.term = j
          · simp only [if_pos ej] at ht
            cases ht0 : s.terms[j]? with
            | none => rw [ht0] at ht; simp at ht
            | some t0 =>
              rw [ht0] at ht; simp at ht; subst ht
              have := h.terms i s j t0 (by rw [e]; exact hs) ha ht0
              have hmem : (⟨i, j⟩ : Ref) = r := by cases r; simp_all
              rw [hmem] at this ⊢
              rw [if_pos (by simp)] at this
              rw [if_neg hr]
              show (Term.grow δ t0).newVal + 0 = D st.bcs t0.pre t0.pre2
              rw [← this]; unfold Term.grow; dsimp only; split <;> omega
          · simp only [if_neg ej] at ht
            have ht' : s.terms[j]? = some t := by simpa using ht
            have := h.terms i s j t (by rw [e]; exact hs) ha ht'
            have hne : (⟨i, j⟩ : Ref) ≠ r := by intro e'; subst e'; exact ej rfl
            simpa [List.mem_cons, hne] using this
        · rw [if_neg e] at hu
          have := h.terms i u j t hu hua ht
          have hne : (⟨i, j⟩ : Ref) ≠ r := by intro e'; subst e'; exact e rfl
          simpa [List.mem_cons, hne] using this
      have build : ∀ (s2 : Span) (qa qb : List Nat), s2.bc = s.bc → s2.id = s.id → s2.val = s.val → s2.nabs = s.nabs →
          s2.os = s.os → s2.terms = s.terms.modify r.term (Term.grow δ) → s2.neg = s.neg → s2.pos = s.pos →
          s2.curVal = s.curVal → (s2.active = 1 → s2.exceeds s2.value = false) → s2.active ≤ 2 →
          (s2.active = 2 → r.span ∈ qa ∨ r.span ∈ qb ∨ r.span ∈ ex) →
          (s2.active = 0 → s2.value = LMAX ∧ s2.exceeds LMAX = false) →
          (∀ k, k ∈ st.qa → k ∈ qa) → (∀ k, k ∈ st.qb → k ∈ qb) →
          Mid pending sk δ rem ex { st with spans := st.spans.set r.span s2, qa := qa, qb := qb } := by
        intro s2 qa qb h1 h2 h3 h4 h5 h6 h7 h8 h9 h10 h11 h12 h13 h14 h15
        refine ⟨?_, terms' s2 h6, ?_, ?_, ?_, ?_, ?_⟩
        · show (st.spans.set r.span s2).map Span.skel = sk
          rw [set_map_same hs, h.hs]
          simp only [Span.skel, h1, h2, h3, h4, h5, h6, modify_pp]
        · intro i u hu hua
          have hu : (st.spans.set r.span s2)[i]? = some u := hu
          rw [get_set hs] at hu
          split at hu
          · cases hu; exact h10 hua
          · exact h.one i u hu hua
        · intro i u hu hua
          have hu : (st.spans.set r.span s2)[i]? = some u := hu
          rw [get_set hs] at hu
          show i ∈ qa ∨ i ∈ qb ∨ i ∈ ex
          split at hu
          · rename_i e; cases hu; rw [e]; exact h12 hua
          · rcases h.two i u hu hua with e | e | e
            · exact .inl (h14 i e)
            · exact .inr (.inl (h15 i e))
            · exact .inr (.inr e)
        · intro u hu
          rcases List.mem_or_eq_of_mem_set hu with e | e
          · exact h.le u e
          · rw [e]; exact h11
        · intro i b m id p hb hm hp
          obtain ⟨k, u, hu, e1, e2, e3, e4, e5, e6, e7⟩ := h.pend i b m id p hb hm hp
          by_cases e : k = r.span
          · rw [e, hs] at hu; cases hu
            refine ⟨k, s2, (by show (st.spans.set r.span s2)[k]? = some s2; rw [get_set hs, if_pos e]), by rw [h1, e1],
              by rw [h2, e2], by rw [h2]; exact e3, by rw [h3, e4], by rw [h7, e5], by rw [h8, e6], ?_⟩
            intro e0
            have := LMAX_exceeds (s := s2) (by rw [h2]; exact e3) (by rw [h8, e6]; exact hbound m id p hp)
            rw [(h13 e0).2] at this; cases this
          · exact ⟨k, u, (by show (st.spans.set r.span s2)[k]? = some u; rw [get_set hs, if_neg e]; exact hu), e1, e2, e3,
              e4, e5, e6, e7⟩
        · intro i b v hb hv
          obtain ⟨k, u, hu, e1, e2, e3, e4, e5⟩ := h.mult i b v hb hv
          by_cases e : k = r.span
          · rw [e, hs] at hu; cases hu
            refine ⟨k, s2, (by show (st.spans.set r.span s2)[k]? = some s2; rw [get_set hs, if_pos e]), by rw [h1, e1],
              by rw [h2, e2], by rw [h3, e3], by rw [h9, e4], ?_⟩
            by_cases e0 : s2.active = 0
            · right
              have := (h13 e0).2
              unfold Span.exceeds at this
              rw [if_pos (by rw [h2]; exact e2)] at this
              simp at this; exact this.symm
            · exact .inl e0
          · exact ⟨k, u, (by show (st.spans.set r.span s2)[k]? = some u; rw [get_set hs, if_neg e]; exact hu), e1, e2, e3,
              e4, e5⟩
      dsimp only
      split
      · rename_i h2
        exact build { s with terms := s.terms.modify r.term (Term.grow δ) } st.qa st.qb rfl rfl rfl rfl rfl rfl rfl rfl
          rfl (fun e => by simp only at e; omega) (by simp only; omega) (fun _ => h.two r.span s hs h2)
          (fun e => by simp only at e; omega) (fun _ h => h) (fun _ h => h)
      · rename_i h2
        have h1 : s.active = 1 := by have := h.le s (List.mem_of_getElem? hs); omega
        split
        · rename_i hx
          refine build _ _ _ rfl rfl rfl rfl rfl rfl rfl rfl rfl ?_ ?_ ?_ ?_ ?_ ?_
          · intro e; cases e
          · exact Nat.le_refl _
          · intro _
            split
            · left; simp
            · right; left; simp
          · intro e; cases e
          · intro k hk; split
            · exact List.mem_append_left _ hk
            · exact hk
          · intro k hk; split
            · exact hk
            · exact List.mem_append_left _ hk
        · rename_i hx
          have hx : ({ s with terms := s.terms.modify r.term (Term.grow δ) } : Span).exceeds
            ({ s with terms := s.terms.modify r.term (Term.grow δ) } : Span).value = false := by simpa [recalc] using hx
          refine build _ _ _ rfl rfl rfl rfl rfl rfl rfl rfl rfl ?_ ?_ ?_ ?_ (fun _ h => h) (fun _ h => h)
          · intro _; exact hx
          · show (if _ then _ else _) ≤ 2
            split
            · omega
            · show s.active ≤ 2; omega
          · intro e
            exfalso
            have e : (if ({ s with terms := s.terms.modify r.term (Term.grow δ) } : Span).value = LMAX then 0 else s.active) = 2 := e
            split at e <;> omega
          · intro e
            have e : (if ({ s with terms := s.terms.modify r.term (Term.grow δ) } : Span).value = LMAX then 0 else s.active) = 0 := e
            split at e
            · rename_i hv
              refine ⟨hv, ?_⟩
              rw [← hv]; exact hx
            · omega

theorem foldl_mid {pending : M → Nat → Option Promise} (hbound : ∀ m id p, pending m id = some p → p.pos < LMAX)
    {sk : List SSkel} {δ : Int} {ex : List Nat} (rem : List Ref) {st : St M}
    (h : Mid pending sk δ rem ex st) (hr : rem.Nodup) : Mid pending sk δ [] ex (rem.foldl (termExpand δ) st) := by
  induction rem generalizing st with
  | nil => exact h
  | cons r rem ih =>
    rw [List.nodup_cons] at hr
    exact ih (termExpand_mid hbound h hr.1) hr.2

/-- With nothing left to grow the amount does not matter. -/
theorem Mid.nil {pending : M → Nat → Option Promise} {sk : List SSkel} {δ : Int} (δ' : Int) {ex : List Nat} {st : St M}
    (h : Mid pending sk δ [] ex st) : Mid pending sk δ' [] ex st :=
  ⟨h.hs, fun i s j t a b c => by simpa using h.terms i s j t a b c, h.one, h.two, h.le, h.pend, h.mult⟩

/-- A bytecode changed size: the distances across it are now too small by the change. -/
theorem terms_set {st : St M} {sk : List SSkel} {bk : List BSkel} {ob : List Nat} {x : Index}
    (hst : Static M x bk sk ob) (hbk : st.bcs.map Bc.skel = bk) (hsk : st.spans.map Span.skel = sk)
    {k : Nat} {b : Bc M} (b' : Bc M) (hb : st.bcs[k]? = some b)
    {i : Nat} {s : Span} {j : Nat} {t : Term} (hs : st.spans[i]? = some s) (ht : s.terms[j]? = some t)
    (h : t.newVal = D st.bcs t.pre t.pre2) :
    t.newVal + (if ⟨i, j⟩ ∈ x.across k then (if t.pre < t.pre2 then b'.size - b.size else -(b'.size - b.size)) else 0) =
      D (st.bcs.set k b') t.pre t.pre2 := by
  have hk : k < 2 ^ 31 := by
    have := (List.getElem?_eq_some_iff.mp hb).1
    have h2 := hst.small
    rw [← hbk, List.length_map] at h2; omega
  rw [D_set b' hb, h]; congr 1
  unfold shift
  have := ((hst.index st.spans hsk) k hk).2 ⟨i, j⟩
  by_cases hc : covers k t.pre t.pre2 = true
  · rw [if_pos (this.mpr ⟨s, t, hs, ht, hc⟩), if_pos hc]
  · rw [if_neg hc, if_neg]
    intro hm
    obtain ⟨s', t', hs', ht', hc'⟩ := this.mp hm
    simp only at hs' ht'
    rw [hs] at hs'; cases hs'
    rw [ht] at ht'; cases ht'
    exact hc hc'

/-- What holds of the bytecodes and offset setters when the setters from number `j` on in section `c` still
    have to move by `diff`. -/
structure OsMid (bk : List BSkel) (ob : List Nat) (c j : Nat) (diff : Int) (st : St M) : Prop where
  hb : st.bcs.map Bc.skel = bk
  ho : st.oss.map OS.bc = ob
  empt : ∀ b ∈ st.bcs, b.contents = .empty → b.len = 0 ∧ b.offset = 0
  mone : ∀ b ∈ st.bcs, ∀ s, b.contents = .setter s → b.multInt = 1
  set : ∀ (i : Nat) o b s, st.oss[i]? = some o → st.bcs[o.bc]? = some b → b.contents = .setter s →
    o.cur = o.new ∧ s.expand o.cur = .ok b.len ∧
    o.cur + (if j ≤ i ∧ b.sect = c then diff else 0) = ssum b.sect st.bcs o.bc

theorem OsMid.done {bk : List BSkel} {ob : List Nat} {c j c' j' : Nat} {diff : Int} {st : St M}
    (h : OsMid bk ob c j diff st) (h0 : ∀ (i : Nat) o b, st.oss[i]? = some o → st.bcs[o.bc]? = some b → j ≤ i → b.sect = c → diff = 0) :
    OsMid bk ob c' j' 0 st := by
  refine ⟨h.hb, h.ho, h.empt, h.mone, ?_⟩
  intro i o b s ho hb hc
  obtain ⟨a1, a2, a3⟩ := h.set i o b s ho hb hc
  refine ⟨a1, a2, ?_⟩
  rw [← a3]; congr 1
  by_cases hd : j ≤ i ∧ b.sect = c
  · rw [if_pos hd, h0 i o b ho hb hd.1 hd.2]; split <;> rfl
  · rw [if_neg hd]; split <;> rfl

theorem ite_errs (P : Prop) [Decidable P] (x : Index) (k : Nat) (d : Int) (st : St M) :
    (if P then st else growAcross x k d st).errs = st.errs := by
  split
  · rfl
  · exact (growAcross_fields _ _ _ _).2.2.1

theorem osLoop_errs (x : Index) (c : Nat) (n j : Nat) (diff : Int) (st st' : St M) (h : osLoop x c n j diff st = some st') :
    ∃ l, st'.errs = st.errs ++ l := by
  induction n generalizing j diff st with
  | zero => simp [osLoop] at h; exact ⟨[], by simp [h]⟩
  | succ n ih =>
    unfold osLoop at h
    split at h
    · cases h; exact ⟨[], by simp⟩
    · split at h
      · cases h
      · split at h
        · cases h; exact ⟨[], by simp⟩
        · split at h
          · cases h
          · dsimp only at h
            split at h
            · rename_i s hs
              obtain ⟨l, hl⟩ := ih _ _ _ h
              dsimp only at hl
              rw [ite_errs] at hl
              exact ⟨_, by rw [hl, List.append_assoc]⟩
            · cases h

theorem sect_of_skel {B : List (Bc M)} {bk : List BSkel} (h : B.map Bc.skel = bk) {i : Nat} {b : Bc M} (hb : B[i]? = some b) :
    bk[i]? = some b.skel := by rw [← h]; simp [hb]

/-- The loop over the offset setters restores the invariant. -/
theorem osLoop_inv {pending : M → Nat → Option Promise} (hbound : ∀ m id p, pending m id = some p → p.pos < LMAX)
    {bk : List BSkel} {sk : List SSkel} {ob : List Nat} {x : Index} (hst : Static M x bk sk ob) {ex : List Nat} {c : Nat}
    (k : Nat) (hkc : ∀ z, bk[k]? = some z → z.sect = c) (hk : k < bk.length)
    (n j : Nat) (diff : Int) (st st' : St M) (hn : st.oss.length < n + j)
    (hko : ∀ (i : Nat) o, ob[i]? = some o → j ≤ i → k < o)
    (hm : Mid pending sk 0 [] ex st) (ho : OsMid bk ob c j diff st)
    (h : osLoop x c n j diff st = some st') (he : st'.errs = []) :
    Mid pending sk 0 [] ex st' ∧ OsMid bk ob 0 0 0 st' := by
  induction n generalizing j diff st with
  | zero =>
    simp [osLoop] at h; subst h
    refine ⟨hm, ho.done fun i o b hi _ hji => ?_⟩
    have := (List.getElem?_eq_some_iff.mp hi).1; omega
  | succ n ih =>
    unfold osLoop at h
    split at h
    · rename_i hnone
      cases h
      refine ⟨hm, ho.done fun i o b hi _ hji => ?_⟩
      have := (List.getElem?_eq_some_iff.mp hi).1
      have := List.getElem?_eq_none_iff.mp hnone; omega
    · rename_i o hoj
      split at h
      · cases h
      · rename_i b hb
        have hob : ob[j]? = some o.bc := by rw [← ho.ho]; simp [hoj]
        have hko' : k < o.bc := hko j o.bc hob (Nat.le_refl _)
        have hkb : k < st.bcs.length := by
          have := congrArg List.length ho.hb; rw [List.length_map] at this; omega
        have hkk := List.getElem?_eq_getElem hkb
        have hkc' : st.bcs[k].sect = c := hkc _ (sect_of_skel ho.hb hkk)
        have hshape := hst.shape st.bcs ho.hb
        split at h
        · rename_i hstop
          cases h
          refine ⟨hm, ho.done fun i o' b' hi hb' hji hbc => ?_⟩
          rcases hstop with hs | hs
          · exfalso
            have h1 := hshape.mono (Nat.le_of_lt hko') hkk hb
            have h2 : o.bc ≤ o'.bc := by
              by_cases e : j = i
              · subst e; rw [hoj] at hi; cases hi; exact Nat.le_refl _
              · exact Nat.le_of_lt (hst.sorted j i _ _ (by omega) hob (by rw [← ho.ho]; simp [hi]))
            have h3 := hshape.mono h2 hb hb'
            omega
          · exact hs
        · rename_i hgo
          split at h
          · cases h
          · dsimp only at h
            split at h
            · rename_i s hs
              obtain ⟨herr, hl⟩ := osLoop_errs _ _ _ _ _ _ _ h
              rw [he] at hl
              -- the setter did not fail
              cases hx : s.expand (o.new + diff) with
              | error e =>
                exfalso
                rw [hx] at hl
                dsimp only at hl
                rw [ite_errs] at hl
                simp at hl
              | ok len =>
                rw [hx] at h
                dsimp only at h
                have hbl : b.sect = c := by
                  by_cases e : b.sect = c
                  · exact e
                  · exact absurd (Or.inl e) hgo
                have hmo := ho.mone b (List.mem_of_getElem? hb) s hs
                obtain ⟨a1, a2, a3⟩ := ho.set j o b s hoj hb hs
                rw [if_pos ⟨Nat.le_refl _, hbl⟩] at a3
                have hsz : ({ b with len := len } : Bc M).size - b.size = (len : Int) - b.len := by
                  unfold Bc.size; simp only [hmo]; omega
                -- the spans
                have hm1 : Mid pending sk ((len : Int) - b.len) (x.across o.bc) ex
                    { st with bcs := st.bcs.set o.bc { b with len := len }, errs := st.errs ++ [] } := by
                  refine ⟨hm.hs, ?_, hm.one, hm.two, hm.le, ?_, ?_⟩
                  · intro i u q t hu hua ht
                    have h1 := hm.terms i u q t hu hua ht
                    simp only [List.not_mem_nil, if_false, Int.add_zero] at h1
                    have := terms_set hst ho.hb hm.hs { b with len := len } hb hu ht h1
                    rw [hsz] at this; exact this
                  · intro i b' m id p hb' hm' hp
                    have hb' : (st.bcs.set o.bc { b with len := len })[i]? = some b' := hb'
                    rw [get_set hb] at hb'
                    split at hb'
                    · cases hb'; rw [hs] at hm'; cases hm'
                    · exact hm.pend i b' m id p hb' hm' hp
                  · intro i b' v hb' hv
                    have hb' : (st.bcs.set o.bc { b with len := len })[i]? = some b' := hb'
                    rw [get_set hb] at hb'
                    split at hb'
                    · rename_i e
                      cases hb'
                      obtain ⟨q, u, hu⟩ := hm.mult i b v (by rw [e]; exact hb) hv
                      exact ⟨q, u, hu⟩
                    · exact hm.mult i b' v hb' hv
                have hkr : o.bc < 2 ^ 31 := by
                  have := (List.getElem?_eq_some_iff.mp hb).1
                  have h2 := hst.small
                  rw [← ho.hb, List.length_map] at h2; omega
                have hm2 : Mid pending sk 0 [] ex (if (len : Int) - b.len = 0 then
                    { st with bcs := st.bcs.set o.bc { b with len := len }, errs := st.errs ++ [] }
                    else growAcross x o.bc (len - b.len)
                      { st with bcs := st.bcs.set o.bc { b with len := len }, errs := st.errs ++ [] }) := by
                  split
                  · rename_i e
                    refine ⟨hm1.hs, ?_, hm1.one, hm1.two, hm1.le, hm1.pend, hm1.mult⟩
                    intro i u q t hu hua ht
                    have := hm1.terms i u q t hu hua ht
                    rw [e] at this
                    simpa using this
                  · exact (foldl_mid hbound _ hm1 ((hst.index st.spans hm.hs) o.bc hkr).1).nil 0
                have hf : ∀ st2 : St M, st2 = (if (len : Int) - b.len = 0 then
                    { st with bcs := st.bcs.set o.bc { b with len := len }, errs := st.errs ++ [] }
                    else growAcross x o.bc (len - b.len)
                      { st with bcs := st.bcs.set o.bc { b with len := len }, errs := st.errs ++ [] }) →
                    st2.bcs = st.bcs.set o.bc { b with len := len } ∧ st2.oss = st.oss := by
                  intro st2 e
                  subst e
                  split
                  · exact ⟨rfl, rfl⟩
                  · exact ⟨(growAcross_fields _ _ _ _).1, (growAcross_fields _ _ _ _).2.1⟩
                generalize hg : (if (len : Int) - b.len = 0 then
                    { st with bcs := st.bcs.set o.bc { b with len := len }, errs := st.errs ++ [] }
                    else growAcross x o.bc (len - b.len)
                      { st with bcs := st.bcs.set o.bc { b with len := len }, errs := st.errs ++ [] }) = st2 at h hm2
                obtain ⟨f1, f2⟩ := hf st2 hg.symm
                refine ih (j + 1) _ _ ?_ ?_ ?_ ?_ h
                · show (st2.oss.set j _).length < _
                  rw [List.length_set, f2]; omega
                · intro i o' hi hji; exact hko i o' hi (by omega)
                · exact ⟨hm2.hs, hm2.terms, hm2.one, hm2.two, hm2.le, hm2.pend, hm2.mult⟩
                · refine ⟨?_, ?_, ?_, ?_, ?_⟩
                  · show st2.bcs.map Bc.skel = bk
                    rw [f1, set_map_same hb, ho.hb]; rfl
                  · show (st2.oss.set j _).map OS.bc = ob
                    rw [f2, set_map_same hoj, ho.ho]; rfl
                  · intro b' hb' he'
                    have hb' : b' ∈ st2.bcs := hb'
                    rw [f1] at hb'
                    rcases List.mem_or_eq_of_mem_set hb' with e | e
                    · exact ho.empt b' e he'
                    · subst e; simp only [hs] at he'; cases he'
                  · intro b' hb' s' hs'
                    have hb' : b' ∈ st2.bcs := hb'
                    rw [f1] at hb'
                    rcases List.mem_or_eq_of_mem_set hb' with e | e
                    · exact ho.mone b' e s' hs'
                    · subst e; exact hmo
                  · intro i o' b' s' hi hb' hs'
                    have hi : (st2.oss.set j { o with cur := o.new + diff, new := o.new + diff })[i]? = some o' := hi
                    have hb' : st2.bcs[o'.bc]? = some b' := hb'
                    show _ ∧ _ ∧ _ = ssum b'.sect st2.bcs o'.bc
                    rw [f2, get_set hoj] at hi
                    rw [f1] at hb' ⊢
                    rw [ssum_set { b with len := len } b'.sect hb rfl, hsz]
                    by_cases e : i = j
                    · rw [if_pos e] at hi; cases hi
                      rw [get_set hb, if_pos rfl] at hb'; cases hb'
                      simp only [hs, Contents.setter.injEq] at hs'; subst hs'
                      refine ⟨rfl, hx, ?_⟩
                      rw [if_neg (show ¬(j + 1 ≤ i ∧ b.sect = c) by omega),
                        if_neg (show ¬(o.bc < o.bc ∧ b.sect = b.sect) by omega)]
                      show o.new + diff + 0 = ssum b.sect st.bcs o.bc + 0
                      rw [← a3, a1]
                    · rw [if_neg e] at hi
                      have hob' : ob[i]? = some o'.bc := by rw [← ho.ho]; simp [hi]
                      have hne : o'.bc ≠ o.bc := by
                        intro e'
                        rcases Nat.lt_or_gt_of_ne e with l | l
                        · have := hst.sorted i j _ _ l hob' hob; omega
                        · have := hst.sorted j i _ _ l hob hob'; omega
                      rw [get_set hb, if_neg hne] at hb'
                      obtain ⟨c1, c2, c3⟩ := ho.set i o' b' s' hi hb' hs'
                      refine ⟨c1, c2, ?_⟩
                      rw [← c3]
                      have hord : o.bc < o'.bc ↔ j + 1 ≤ i := by
                        rcases Nat.lt_or_gt_of_ne e with l | l
                        · have := hst.sorted i j _ _ l hob' hob; omega
                        · have := hst.sorted j i _ _ l hob hob'; omega
                      by_cases e1 : j + 1 ≤ i
                      · by_cases e2 : b'.sect = c
                        · rw [if_pos ⟨e1, e2⟩, if_pos ⟨by omega, e2⟩, if_pos ⟨hord.mpr e1, by omega⟩, a1]; omega
                        · rw [if_neg (fun z => e2 z.2), if_neg (fun z => e2 z.2), if_neg (fun z => e2 (by omega))]; omega
                      · rw [if_neg (fun z => e1 z.1), if_neg (show ¬(j ≤ i ∧ b'.sect = c) by omega), if_neg (fun z => e1 (hord.mp z.1))]
                        omega
            · cases h

/-- The invariant of the main loop. -/
def Inv (pending : M → Nat → Option Promise) (bk : List BSkel) (sk : List SSkel) (ob : List Nat) (ex : List Nat)
    (st : St M) : Prop := Mid pending sk 0 [] ex st ∧ OsMid bk ob 0 0 0 st

theorem finishExpand_errs (x : Index) (st st' : St M) (i : Nat) (s : Span) (b b' : Bc M)
    (h : processSpan.finishExpand x st i s b b' = some st') : ∃ l, st'.errs = st.errs ++ l := by
  unfold processSpan.finishExpand at h
  dsimp only at h
  split at h
  · cases h; exact ⟨[], by simp⟩
  · obtain ⟨l, hl⟩ := osLoop_errs _ _ _ _ _ _ _ h
    rw [(growAcross_fields _ _ _ _).2.2.1] at hl
    exact ⟨l, hl⟩

/-- The rest of an iteration, after an expansion of span `i` that keeps the invariants of the spans. -/
theorem finishExpand_inv {pending : M → Nat → Option Promise} (hbound : ∀ m id p, pending m id = some p → p.pos < LMAX)
    {bk : List BSkel} {sk : List SSkel} {ob : List Nat} {x : Index} (hst : Static M x bk sk ob) {ex : List Nat}
    {st st' : St M} {i : Nat} {s0 s : Span} {b b' : Bc M}
    (h : processSpan.finishExpand x st i s b b' = some st') (he : st'.errs = []) (ho : OsMid bk ob 0 0 0 st) (hs0 : st.spans[i]? = some s0)
    (hsk : s.skel = s0.skel) (hssk : st.spans.map Span.skel = sk) (hb : st.bcs[s.bc]? = some b) (hbk : b'.skel = b.skel)
    (hins : ∃ m, b'.contents = .insn m)
    (hm : Mid pending sk (b'.size - b.size) (x.across s.bc) ex
      { st with spans := st.spans.set i s, bcs := st.bcs.set s.bc b' }) : Inv pending bk sk ob ex st' := by
  unfold processSpan.finishExpand at h
  dsimp only at h
  have hs1 : (st.spans.set i s).map Span.skel = sk := by rw [set_map_same hs0 hsk, hssk]
  have hkr : s.bc < 2 ^ 31 := by
    have := (List.getElem?_eq_some_iff.mp hb).1
    have h2 := hst.small
    rw [← ho.hb, List.length_map] at h2; omega
  obtain ⟨mi, hmi⟩ := hins
  have hsect : b'.sect = b.sect := congrArg BSkel.sect hbk
  have hins' : ∀ z, b.contents = .setter z → False := by
    intro z hz
    have := congrArg BSkel.kind hbk
    simp only [Bc.skel, hmi, hz, Contents.kind] at this; cases this
  have hssk' : s.skel ∈ sk := by
    rw [← hs1]
    exact List.mem_map.mpr ⟨s, List.mem_of_getElem? (i := i) (by rw [get_set hs0, if_pos rfl]), rfl⟩
  have hempt : ∀ y ∈ st.bcs.set s.bc b', y.contents = .empty → y.len = 0 ∧ y.offset = 0 := by
    intro y hy hye
    rcases List.mem_or_eq_of_mem_set hy with e | e
    · exact ho.empt y e hye
    · subst e; rw [hmi] at hye; cases hye
  have hmone : ∀ y ∈ st.bcs.set s.bc b', ∀ z, y.contents = .setter z → y.multInt = 1 := by
    intro y hy z hz
    rcases List.mem_or_eq_of_mem_set hy with e | e
    · exact ho.mone y e z hz
    · subst e; rw [hmi] at hz; cases hz
  -- the setters
  have hos : OsMid bk ob b.sect s.os (b'.size - b.size)
      { st with spans := st.spans.set i s, bcs := st.bcs.set s.bc b' } := by
    refine ⟨by show (st.bcs.set s.bc b').map _ = _; rw [set_map_same hb hbk, ho.hb], ho.ho, hempt, hmone, ?_⟩
    intro q o y z hq hy hz
    have hy : (st.bcs.set s.bc b')[o.bc]? = some y := hy
    have hq : st.oss[q]? = some o := hq
    show _ ∧ _ ∧ _ = ssum y.sect (st.bcs.set s.bc b') o.bc
    have hne : o.bc ≠ s.bc := by
      intro e
      rw [get_set hb, if_pos e] at hy; cases hy; rw [hmi] at hz; cases hz
    rw [get_set hb, if_neg hne] at hy
    obtain ⟨c1, c2, c3⟩ := ho.set q o y z hq hy hz
    refine ⟨c1, c2, ?_⟩
    rw [ssum_set b' _ hb hsect, ← c3]
    have hord := hst.spanOs s.skel hssk' q o.bc (by rw [← ho.ho]; simp [hq])
    have hord : s.os ≤ q ↔ s.bc < o.bc := hord
    have e0 : (if 0 ≤ q ∧ y.sect = 0 then (0 : Int) else 0) = 0 := by split <;> rfl
    rw [e0]
    by_cases e1 : s.bc < o.bc
    · by_cases e2 : y.sect = b.sect
      · rw [if_pos ⟨hord.mpr e1, e2⟩, if_pos ⟨e1, e2.symm⟩]; omega
      · rw [if_neg (fun z => e2 z.2), if_neg (fun z => e2 z.2.symm)]; omega
    · rw [if_neg (fun z => e1 (hord.mp z.1)), if_neg (fun z => e1 z.1)]; omega
  split at h
  · rename_i hd
    cases h
    refine ⟨⟨hm.hs, ?_, hm.one, hm.two, hm.le, hm.pend, hm.mult⟩, hos.done fun _ _ _ _ _ _ _ => hd⟩
    intro k u j t hu hua ht
    have := hm.terms k u j t hu hua ht
    rw [hd] at this
    simpa using this
  · have hm2 : Mid pending sk 0 [] ex (growAcross x s.bc (b'.size - b.size)
        { st with spans := st.spans.set i s, bcs := st.bcs.set s.bc b' }) :=
      (foldl_mid hbound _ hm ((hst.index _ hs1) s.bc hkr).1).nil 0
    have hf := growAcross_fields x s.bc (b'.size - b.size) { st with spans := st.spans.set i s, bcs := st.bcs.set s.bc b' }
    refine osLoop_inv hbound hst s.bc ?_ ?_ _ s.os _ _ st' ?_ ?_ hm2 ?_ h he
    · intro z hz
      rw [sect_of_skel ho.hb hb] at hz; cases hz; rfl
    · have := (List.getElem?_eq_some_iff.mp hb).1
      rw [← ho.hb, List.length_map]; exact this
    · rw [hf.2.1]; simp only; omega
    · intro q o hq hle
      exact (hst.spanOs s.skel hssk' q o hq).mp hle
    · exact ⟨by rw [hf.1]; exact hos.hb, by rw [hf.2.1]; exact hos.ho, by rw [hf.1]; exact hos.empt,
        by rw [hf.1]; exact hos.mone, by rw [hf.1, hf.2.1]; exact hos.set⟩

theorem recalc_value (s : Span) (a : Nat) : (recalc { s with active := a }).1.value = s.value := rfl

theorem processSpan_errs (mc : Machine M) (x : Index) (st st' : St M) (i : Nat) (h : processSpan mc x st i = some st') :
    ∃ l, st'.errs = st.errs ++ l := by
  unfold processSpan at h
  split at h
  · cases h
  · split at h
    · cases h; exact ⟨[], by simp⟩
    · dsimp only at h
      split at h
      · split at h
        · cases h
        · rename_i b hb
          cases he : expandBc mc b (recalc { ‹Span› with active := 1 }).1 with
          | none => rw [he] at h; cases h
          | some r =>
            rw [he] at h
            cases r with
            | error m => simp at h; exact ⟨_, by rw [← h]⟩
            | done b' =>
              simp only [Option.bind_some] at h
              obtain ⟨l, hl⟩ := finishExpand_errs _ _ _ _ _ _ _ h
              exact ⟨l, hl⟩
            | more b' n p =>
              simp only [Option.bind_some] at h
              obtain ⟨l, hl⟩ := finishExpand_errs _ _ _ _ _ _ _ h
              exact ⟨l, hl⟩
      · cases h; exact ⟨[], by simp⟩

/-- An iteration of the main loop keeps the invariant. -/
theorem processSpan_inv {mc : Machine M} {pending : M → Nat → Option Promise} {rank : M → Nat} (hok : mc.Ok pending rank)
    {bk : List BSkel} {sk : List SSkel} {ob : List Nat} {x : Index} (hst : Static M x bk sk ob)
    {st st' : St M} {i : Nat} (hi : Inv pending bk sk ob [i] st) (h : processSpan mc x st i = some st')
    (he : st'.errs = []) : Inv pending bk sk ob [] st' := by
  obtain ⟨hm, ho⟩ := hi
  have hbound := hok.bound
  unfold processSpan at h
  split at h
  · cases h
  · rename_i s hs
    have uniq : ∀ (k : Nat) u, st.spans[k]? = some u → u.bc = s.bc → u.id = s.id → k = i := by
      intro k u hu e1 e2
      exact hst.uniq k i u.skel s.skel (by rw [← hm.hs]; simp [hu]) (by rw [← hm.hs]; simp [hs]) e1 e2
    split at h
    · rename_i ha
      cases h
      refine ⟨⟨hm.hs, hm.terms, hm.one, ?_, hm.le, hm.pend, hm.mult⟩, ho⟩
      intro k u hu hua
      rcases hm.two k u hu hua with e | e | e
      · exact .inl e
      · exact .inr (.inl e)
      · simp at e; subst e; rw [hs] at hu; cases hu; omega
    · rename_i ha
      dsimp only at h
      -- facts about the span after recalculation
      have two' : ∀ (s2 : Span), s2.active ≠ 2 → ∀ (k : Nat) u, (st.spans.set i s2)[k]? = some u → u.active = 2 →
          k ∈ st.qa ∨ k ∈ st.qb ∨ k ∈ ([] : List Nat) := by
        intro s2 h2 k u hu hua
        rw [get_set hs] at hu
        split at hu
        · cases hu; exact absurd hua h2
        · rename_i e
          rcases hm.two k u hu hua with e' | e' | e'
          · exact .inl e'
          · exact .inr (.inl e')
          · simp at e'; exact absurd e' e
      have le' : ∀ (s2 : Span), s2.active ≤ 2 → ∀ u ∈ st.spans.set i s2, u.active ≤ 2 := by
        intro s2 h2 u hu
        rcases List.mem_or_eq_of_mem_set hu with e | e
        · exact hm.le u e
        · rw [e]; exact h2
      have one' : ∀ (s2 : Span), (s2.active = 1 → s2.exceeds s2.value = false) → ∀ (k : Nat) u,
          (st.spans.set i s2)[k]? = some u → u.active = 1 → u.exceeds u.value = false := by
        intro s2 h2 k u hu hua
        rw [get_set hs] at hu
        split at hu
        · cases hu; exact h2 hua
        · exact hm.one k u hu hua
      have hself : ∀ z : Span, (st.spans.set i z)[i]? = some z := fun z => by rw [get_set hs, if_pos rfl]
      have act : (recalc { s with active := 1 }).1.active = if s.value = LMAX then 0 else 1 := rfl
      have act2 : (recalc { s with active := 1 }).1.active ≤ 1 := by rw [act]; split <;> omega
      split at h
      · rename_i hx
        have hx : s.exceeds s.value = true := hx
        split at h
        · cases h
        · rename_i b hb
          have hb : st.bcs[s.bc]? = some b := hb
          -- the terms after a change of the bytecode
          have terms' : ∀ (s2 : Span) (b' : Bc M), s2.terms.map (fun t => (t.pre, t.pre2, t.newVal)) =
              s.terms.map (fun t => (t.pre, t.pre2, t.newVal)) → ∀ (k : Nat) u (j : Nat) t,
              (st.spans.set i s2)[k]? = some u → u.active ≠ 0 → u.terms[j]? = some t →
              t.newVal + (if ⟨k, j⟩ ∈ x.across s.bc then (if t.pre < t.pre2 then b'.size - b.size else -(b'.size - b.size)) else 0) =
                D (st.bcs.set s.bc b') t.pre t.pre2 := by
            intro s2 b' e2 k u j t hu hua ht
            rw [get_set hs] at hu
            split at hu
            · rename_i e; cases hu
              have e3 := congrArg (fun l => l[j]?) e2
              simp only [List.getElem?_map, ht] at e3
              cases ht' : s.terms[j]? with
              | none => rw [ht'] at e3; simp at e3
              | some t' =>
                rw [ht'] at e3; simp at e3
                have h1 := hm.terms i s j t' hs ha ht'
                simp only [List.not_mem_nil, if_false, Int.add_zero] at h1
                have := terms_set hst ho.hb hm.hs b' hb hs ht' h1
                rw [e3.1, e3.2.1, e3.2.2, e]; exact this
            · have h1 := hm.terms k u j t hu hua ht
              simp only [List.not_mem_nil, if_false, Int.add_zero] at h1
              exact terms_set hst ho.hb hm.hs b' hb hu ht h1
          have hso := ho
          have ho' : OsMid bk ob 0 0 0 { st with spans := st.spans.set i (recalc { s with active := 1 }).1 } :=
            ⟨ho.hb, ho.ho, ho.empt, ho.mone, ho.set⟩
          have hskr : (recalc { s with active := 1 }).1.skel = s.skel := rfl
          have hs1 : (st.spans.set i (recalc { s with active := 1 }).1)[i]? = some (recalc { s with active := 1 }).1 := by
            rw [get_set hs, if_pos rfl]
          have hss : ∀ z : Span, (st.spans.set i (recalc { s with active := 1 }).1).set i z = st.spans.set i z := by
            intro z; exact List.set_set ..
          have hkind : ∃ m, b.contents = .insn m := by
            obtain ⟨z, hz, hk⟩ := hst.spanBc s.skel (by rw [← hm.hs]; exact List.mem_map.mpr ⟨s, List.mem_of_getElem? hs, rfl⟩)
            have hz : bk[s.bc]? = some z := hz
            rw [sect_of_skel ho.hb hb] at hz; cases hz
            cases hc : b.contents with
            | insn m => exact ⟨m, rfl⟩
            | empty => simp [Bc.skel, hc, Contents.kind] at hk
            | setter w => simp [Bc.skel, hc, Contents.kind] at hk
          obtain ⟨m, hmc⟩ := hkind
          unfold expandBc at h
          by_cases hid : s.id = 0
          · -- a repeat count
            have hid' : (recalc { s with active := 1 }).1.id = 0 := hid
            rw [if_pos hid'] at h
            simp only [Option.bind_some] at h
            refine finishExpand_inv hbound hst h he ho' hs1 (by
                show Span.skel _ = _
                simp only [Span.skel, recalc, List.map_map]; rfl)
              (by rw [set_map_same hs hskr]; exact hm.hs) hb rfl ⟨m, hmc⟩ ?_
            simp only [hss]
            refine ⟨?_, ?_, ?_, ?_, ?_, ?_, ?_⟩
            · show (st.spans.set i _).map Span.skel = sk
              rw [set_map_same hs, hm.hs]
              simp only [Span.skel, recalc, List.map_map]; rfl
            · refine terms' _ _ ?_
              simp only [recalc, List.map_map]; rfl
            · refine one' _ ?_
              intro _
              have hv : ∀ z : Span, z.id = 0 → z.value = z.curVal → z.exceeds z.value = false := by
                intro z hz e; unfold Span.exceeds; rw [if_pos hz]; simp [e]
              apply hv
              · exact hid
              · simp only [Span.value, recalc, List.map_map]; rfl
            · exact two' _ (by simp only; omega)
            · exact le' _ (by simp only; omega)
            · intro k b' m' id p hb' hm' hp
              have hb' : (st.bcs.set s.bc { b with multInt := _ })[k]? = some b' := hb'
              rw [get_set hb] at hb'
              have : ∃ (b0 : Bc M), st.bcs[k]? = some b0 ∧ b0.contents = .insn m' := by
                split at hb'
                · rename_i e; cases hb'; exact ⟨b, by rw [e]; exact hb, hm'⟩
                · exact ⟨b', hb', hm'⟩
              obtain ⟨b0, hb0, hm0⟩ := this
              obtain ⟨q, u, hu, e1, e2, e3, e4⟩ := hm.pend k b0 m' id p hb0 hm0 hp
              have hq : q ≠ i := by intro e; rw [e, hs] at hu; cases hu; exact e3 hid
              exact ⟨q, u, (by show (st.spans.set i _)[q]? = some u; rw [get_set hs, if_neg hq]; exact hu), e1, e2, e3, e4⟩
            · intro k b' v hb' hv
              have hb' : (st.bcs.set s.bc { b with multInt := _ })[k]? = some b' := hb'
              rw [get_set hb] at hb'
              by_cases e : k = s.bc
              · rw [if_pos e] at hb'; cases hb'
                obtain ⟨q, u, hu, e1, e2, e3, e4⟩ := hm.mult k b v (by rw [e]; exact hb) hv
                have hq := uniq q u hu (e1.trans e) (e2.trans hid.symm)
                rw [hq, hs] at hu; cases hu
                refine ⟨i, _, hself _, e1, e2, e3, rfl, ?_⟩
                by_cases hvv : s.value = LMAX
                · exact .inr hvv
                · left
                  show (if s.value = LMAX then 0 else 1) ≠ 0
                  rw [if_neg hvv]; omega
              · rw [if_neg e] at hb'
                obtain ⟨q, u, hu, e1, e2⟩ := hm.mult k b' v hb' hv
                have hq : q ≠ i := by intro e'; rw [e', hs] at hu; cases hu; exact e e1.symm
                exact ⟨q, u, (by show (st.spans.set i _)[q]? = some u; rw [get_set hs, if_neg hq]; exact hu), e1, e2⟩
          · -- an instruction
            have hid' : ¬ (recalc { s with active := 1 }).1.id = 0 := hid
            rw [if_neg hid', hmc] at h
            dsimp only at h
            have mult' : ∀ (s2 : Span) (b' : Bc M), b'.mult = b.mult → b'.multInt = b.multInt → ∀ (k : Nat) y v,
                (st.bcs.set s.bc b')[k]? = some y → y.mult = .dep v →
                ∃ (q : Nat) (u : Span), (st.spans.set i s2)[q]? = some u ∧ u.bc = k ∧ u.id = 0 ∧ u.val = v ∧
                  u.curVal = y.multInt ∧ (u.active ≠ 0 ∨ u.curVal = LMAX) := by
              intro s2 b' f1 f2 k y v hy hv
              rw [get_set hb] at hy
              have : ∃ (b0 : Bc M), st.bcs[k]? = some b0 ∧ b0.mult = .dep v ∧ b0.multInt = y.multInt := by
                split at hy
                · rename_i e; cases hy; exact ⟨b, by rw [e]; exact hb, by rw [← f1]; exact hv, f2.symm⟩
                · exact ⟨y, hy, hv, rfl⟩
              obtain ⟨b0, hb0, hm0, hmi⟩ := this
              obtain ⟨q, u, hu, e1, e2, e3, e4, e5⟩ := hm.mult k b0 v hb0 hm0
              have hq : q ≠ i := by intro e; rw [e, hs] at hu; cases hu; exact hid e2
              exact ⟨q, u, (by rw [get_set hs, if_neg hq]; exact hu), e1, e2, e3, by rw [e4, hmi], e5⟩
            have pendOther : ∀ (s2 : Span) (m' : M) (n : Nat), (∀ k, k ≠ s.id → pending m' k = pending m k) →
                ∀ (k : Nat) y m2 id p, (st.bcs.set s.bc { b with contents := .insn m', len := n })[k]? = some y →
                y.contents = .insn m2 → pending m2 id = some p → ¬ (k = s.bc ∧ id = s.id) →
                ∃ (q : Nat) (u : Span), (st.spans.set i s2)[q]? = some u ∧ u.bc = k ∧ u.id = id ∧ u.id ≠ 0 ∧ u.val = p.val ∧
                  u.neg = p.neg ∧ u.pos = p.pos ∧ u.active ≠ 0 := by
              intro s2 m' n hk k y m2 id p hy hm2 hp hne
              rw [get_set hb] at hy
              have : ∃ (b0 : Bc M) (m0 : M), st.bcs[k]? = some b0 ∧ b0.contents = .insn m0 ∧ pending m0 id = some p := by
                split at hy
                · rename_i e; cases hy
                  simp only [Contents.insn.injEq] at hm2; subst hm2
                  exact ⟨b, m, by rw [e]; exact hb, hmc, by rw [← hk id (fun e' => hne ⟨e, e'⟩)]; exact hp⟩
                · exact ⟨y, m2, hy, hm2, hp⟩
              obtain ⟨b0, m0, hb0, hm0, hp0⟩ := this
              obtain ⟨q, u, hu, e1, e2, e3, e4, e5, e6, e7⟩ := hm.pend k b0 m0 id p hb0 hm0 hp0
              have hq : q ≠ i := by
                intro e; rw [e, hs] at hu; cases hu; exact hne ⟨e1.symm, e2.symm⟩
              exact ⟨q, u, (by rw [get_set hs, if_neg hq]; exact hu), e1, e2, e3, e4, e5, e6, e7⟩
            cases hex : mc.expand m b.len s.id s.curVal s.value s.neg s.pos with
            | error e =>
              exfalso
              have hex : mc.expand m b.len (recalc { s with active := 1 }).1.id (recalc { s with active := 1 }).1.curVal
                (recalc { s with active := 1 }).1.newVal (recalc { s with active := 1 }).1.neg
                (recalc { s with active := 1 }).1.pos = .error e := hex
              rw [hex] at h
              simp at h
              rw [← h] at he; simp at he
            | ok r =>
              obtain ⟨m', n, th⟩ := r
              have hex' : mc.expand m b.len (recalc { s with active := 1 }).1.id (recalc { s with active := 1 }).1.curVal
                (recalc { s with active := 1 }).1.newVal (recalc { s with active := 1 }).1.neg
                (recalc { s with active := 1 }).1.pos = .ok (m', n, th) := hex
              rw [hex'] at h
              cases th with
              | none =>
                obtain ⟨d1, d2, _⟩ := hok.done _ _ _ _ _ _ _ _ _ hex
                simp only [Option.bind_some] at h
                refine finishExpand_inv hbound hst h he ho' hs1 hskr (by rw [set_map_same hs hskr]; exact hm.hs) hb (by
                    simp only [Bc.skel, hmc, Contents.kind]) ⟨m', rfl⟩ ?_
                simp only [hss]
                refine ⟨?_, terms' _ _ rfl, one' _ (fun e => by cases e), two' _ (by simp), le' _ (by simp), ?_, mult' _ _ rfl rfl⟩
                · show (st.spans.set i _).map Span.skel = sk
                  rw [set_map_same hs, hm.hs]; rfl
                · intro k y m2 id p hy hm2 hp
                  refine pendOther _ m' n d2 k y m2 id p hy hm2 hp ?_
                  rintro ⟨e1, e2⟩
                  have hy : (st.bcs.set s.bc { b with contents := .insn m', len := n })[k]? = some y := hy
                  rw [get_set hb, if_pos e1] at hy; cases hy
                  simp only [Contents.insn.injEq] at hm2; subst hm2
                  rw [e2, d1] at hp; cases hp
              | some np =>
                obtain ⟨neg', pos'⟩ := np
                obtain ⟨d1, d2, d3, d4, _⟩ := hok.more _ _ _ _ _ _ _ _ _ _ _ hex
                simp only [Option.bind_some] at h
                refine finishExpand_inv hbound hst h he ho' hs1 (by
                    simp only [Span.skel, recalc, List.map_map]; rfl)
                  (by rw [set_map_same hs hskr]; exact hm.hs) hb (by
                    simp only [Bc.skel, hmc, Contents.kind]) ⟨m', rfl⟩ ?_
                simp only [hss]
                have hval : ∀ z : Span, z.val = s.val → z.nabs = s.nabs → z.terms = s.terms.map (fun t => { t with curVal := t.newVal }) →
                    z.value = s.value := by
                  intro z h1 h2 h3
                  simp only [Span.value, h1, h2, h3, List.map_map]; rfl
                refine ⟨?_, terms' _ _ (by simp only [recalc, List.map_map]; rfl), one' _ ?_, two' _ (by simp only; omega),
                  le' _ (by simp only; omega), ?_, mult' _ _ rfl rfl⟩
                · show (st.spans.set i _).map Span.skel = sk
                  rw [set_map_same hs, hm.hs]
                  simp only [Span.skel, recalc, List.map_map]; rfl
                · intro _
                  have hv : ∀ z : Span, z.id ≠ 0 → z.neg ≤ z.value → z.value ≤ z.pos → z.exceeds z.value = false := by
                    intro z hz e1 e2; unfold Span.exceeds; rw [if_neg hz]; simp; omega
                  apply hv
                  · exact hid
                  · rw [hval] <;> first | rfl | exact d2
                  · rw [hval] <;> first | rfl | exact d3
                · intro k y m2 id p hy hm2 hp
                  by_cases e : k = s.bc ∧ id = s.id
                  · obtain ⟨e1, e2⟩ := e
                    have hy : (st.bcs.set s.bc { b with contents := .insn m', len := n })[k]? = some y := hy
                    rw [get_set hb, if_pos e1] at hy; cases hy
                    simp only [Contents.insn.injEq] at hm2; subst hm2
                    have hp' := hp
                    rw [e2, d1] at hp
                    cases hp0 : pending m s.id with
                    | none => rw [hp0] at hp; cases hp
                    | some p0 =>
                      rw [hp0] at hp
                      simp only [Option.map_some, Option.some.injEq] at hp
                      subst hp
                      obtain ⟨q, u, hu, f1, f2, f3, f4, f5, f6, f7⟩ := hm.pend s.bc b m s.id p0 hb hmc hp0
                      have hq := uniq q u hu f1 f2
                      rw [hq, hs] at hu; cases hu
                      refine ⟨i, _, hself _, e1.symm, e2.symm, hid, f4, rfl, rfl, ?_⟩
                      show (if s.value = LMAX then 0 else 1) ≠ 0
                      have := hbound _ _ _ hp'
                      have : pos' < LMAX := this
                      rw [if_neg (by omega)]; omega
                  · exact pendOther _ m' n d4 k y m2 id p hy hm2 hp e
      · rename_i hx
        have hx : s.exceeds s.value = false := by
          have : (recalc { s with active := 1 }).2 = s.exceeds s.value := rfl
          rw [this] at hx; simpa using hx
        cases h
        refine ⟨⟨?_, ?_, one' _ fun _ => hx, two' _ (by omega), le' _ (by omega), ?_, ?_⟩, ho.hb, ho.ho, ho.empt, ho.mone, ho.set⟩
        · show (st.spans.set i _).map Span.skel = sk
          rw [set_map_same hs, hm.hs]; rfl
        · intro k u j t hu hua ht
          have hu : (st.spans.set i (recalc { s with active := 1 }).1)[k]? = some u := hu
          rw [get_set hs] at hu
          split at hu
          · rename_i e; cases hu
            have := hm.terms i s j t hs ha ht
            rw [e]; exact this
          · exact hm.terms k u j t hu hua ht
        · intro k b m id p hb hmc hp
          obtain ⟨q, u, hu, e1, e2, e3, e4, e5, e6, e7⟩ := hm.pend k b m id p hb hmc hp
          by_cases e : q = i
          · rw [e, hs] at hu; cases hu
            refine ⟨i, _, hself _, e1, e2, e3, e4, e5, e6, ?_⟩
            rw [act]
            have : s.value ≠ LMAX := by
              intro hv
              have := LMAX_exceeds (s := s) e3 (by rw [e6]; exact hbound m id p hp)
              rw [← hv, hx] at this; cases this
            rw [if_neg this]; omega
          · exact ⟨q, u, (by show (st.spans.set i _)[q]? = some u; rw [get_set hs, if_neg e]; exact hu), e1, e2, e3, e4, e5, e6, e7⟩
        · intro k b v hb hv
          obtain ⟨q, u, hu, e1, e2, e3, e4, e5⟩ := hm.mult k b v hb hv
          by_cases e : q = i
          · rw [e, hs] at hu; cases hu
            refine ⟨i, _, hself _, e1, e2, e3, e4, ?_⟩
            rw [act]
            by_cases hvv : s.value = LMAX
            · right
              have := hx
              unfold Span.exceeds at this
              rw [if_pos e2] at this
              simp at this
              show s.curVal = LMAX
              omega
            · left; rw [if_neg hvv]; omega
          · exact ⟨q, u, (by show (st.spans.set i _)[q]? = some u; rw [get_set hs, if_neg e]; exact hu), e1, e2, e3, e4, e5⟩

theorem loop_errs (mc : Machine M) (x : Index) (n : Nat) (st st' : St M) (h : loop mc x n st = .done st') :
    ∃ l, st'.errs = st.errs ++ l := by
  induction n generalizing st with
  | zero =>
    unfold loop at h
    split at h
    · cases h; exact ⟨[], by simp⟩
    · cases h
  | succ n ih =>
    unfold loop at h
    split at h
    · cases h; exact ⟨[], by simp⟩
    · split at h
      · rename_i st2 h2
        obtain ⟨l1, e1⟩ := ih _ h
        obtain ⟨l2, e2⟩ := processSpan_errs _ _ _ _ _ h2
        exact ⟨l2 ++ l1, by rw [e1, e2, List.append_assoc]⟩
      · cases h
    · split at h
      · rename_i st2 h2
        obtain ⟨l1, e1⟩ := ih _ h
        obtain ⟨l2, e2⟩ := processSpan_errs _ _ _ _ _ h2
        exact ⟨l2 ++ l1, by rw [e1, e2, List.append_assoc]⟩
      · cases h

/-- At the end of the main loop the invariant holds and the queues are empty. -/
theorem loop_inv {mc : Machine M} {pending : M → Nat → Option Promise} {rank : M → Nat} (hok : mc.Ok pending rank)
    {bk : List BSkel} {sk : List SSkel} {ob : List Nat} {x : Index} (hst : Static M x bk sk ob) (n : Nat)
    {st st' : St M} (hi : Inv pending bk sk ob [] st) (h : loop mc x n st = .done st')
    (he : st'.errs = []) : Inv pending bk sk ob [] st' ∧ st'.qa = [] ∧ st'.qb = [] := by
  have pop : ∀ (st2 : St M) (i : Nat), st2.bcs = st.bcs → st2.spans = st.spans → st2.oss = st.oss →
      (∀ k, k ∈ st.qa ∨ k ∈ st.qb → k ∈ st2.qa ∨ k ∈ st2.qb ∨ k ∈ [i]) → Inv pending bk sk ob [i] st2 := by
    intro st2 i e1 e2 e3 e4
    obtain ⟨hm, ho⟩ := hi
    refine ⟨⟨by rw [e2]; exact hm.hs, by rw [e1, e2]; exact hm.terms, by rw [e2]; exact hm.one, ?_, by rw [e2]; exact hm.le,
      by rw [e1, e2]; exact hm.pend, by rw [e1, e2]; exact hm.mult⟩, by rw [e1]; exact ho.hb, by rw [e3]; exact ho.ho,
      by rw [e1]; exact ho.empt, by rw [e1]; exact ho.mone, by rw [e1, e3]; exact ho.set⟩
    intro k u hu hua
    rw [e2] at hu
    apply e4
    rcases hm.two k u hu hua with e | e | e
    · exact .inl e
    · exact .inr e
    · cases e
  induction n generalizing st with
  | zero =>
    unfold loop at h
    split at h
    · rename_i h1 h2; cases h; exact ⟨hi, h1, h2⟩
    · cases h
  | succ n ih =>
    unfold loop at h
    split at h
    · rename_i h1 h2; cases h; exact ⟨hi, h1, h2⟩
    · rename_i i q hqa hqb
      split at h
      · rename_i st2 h2
        obtain ⟨l1, e1⟩ := loop_errs _ _ _ _ _ h
        have he2 : st2.errs = [] := by
          rw [he] at e1; exact (List.append_eq_nil_iff.mp e1.symm).1
        have := processSpan_inv hok hst (pop { st with qb := q } i rfl rfl rfl (by
          intro k hk; rw [hqa, hqb] at hk; simp at hk; rcases hk with e | e
          · exact .inr (.inr (by simp [e]))
          · exact .inr (.inl e))) h2 he2
        refine ih this h ?_
        intro st3 i e1 e2 e3 e4
        obtain ⟨hm, ho⟩ := this
        refine ⟨⟨by rw [e2]; exact hm.hs, by rw [e1, e2]; exact hm.terms, by rw [e2]; exact hm.one, ?_, by rw [e2]; exact hm.le,
          by rw [e1, e2]; exact hm.pend, by rw [e1, e2]; exact hm.mult⟩, by rw [e1]; exact ho.hb, by rw [e3]; exact ho.ho,
          by rw [e1]; exact ho.empt, by rw [e1]; exact ho.mone, by rw [e1, e3]; exact ho.set⟩
        intro k u hu hua
        rw [e2] at hu
        apply e4
        rcases hm.two k u hu hua with e | e | e
        · exact .inl e
        · exact .inr e
        · cases e
      · cases h
    · rename_i i q hqa
      split at h
      · rename_i st2 h2
        obtain ⟨l1, e1⟩ := loop_errs _ _ _ _ _ h
        have he2 : st2.errs = [] := by
          rw [he] at e1; exact (List.append_eq_nil_iff.mp e1.symm).1
        have := processSpan_inv hok hst (pop { st with qa := q } i rfl rfl rfl (by
          intro k hk; rw [hqa] at hk; simp at hk; rcases hk with (e | e) | e
          · exact .inr (.inr (by simp [e]))
          · exact .inl e
          · exact .inr (.inl e))) h2 he2
        refine ih this h ?_
        intro st3 i e1 e2 e3 e4
        obtain ⟨hm, ho⟩ := this
        refine ⟨⟨by rw [e2]; exact hm.hs, by rw [e1, e2]; exact hm.terms, by rw [e2]; exact hm.one, ?_, by rw [e2]; exact hm.le,
          by rw [e1, e2]; exact hm.pend, by rw [e1, e2]; exact hm.mult⟩, by rw [e1]; exact ho.hb, by rw [e3]; exact ho.ho,
          by rw [e1]; exact ho.empt, by rw [e1]; exact ho.mone, by rw [e1, e3]; exact ho.set⟩
        intro k u hu hua
        rw [e2] at hu
        apply e4
        rcases hm.two k u hu hua with e | e | e
        · exact .inl e
        · exact .inr e
        · cases e
      · cases h

end Verif.Optimize
