import Verif.Optimize.Loop
/-
What step 1 of the optimizer establishes.
-/
set_option linter.unusedSimpArgs false
set_option linter.unusedVariables false
namespace Verif.Optimize
open Verif.Inttree

variable {M : Type}

/-- What step 1a has done to a bytecode. -/
structure Calced (mc : Machine M) (b b' : Bc M) : Prop where
  skel : b'.skel = b.skel
  empty : b.contents = .empty → b' = b
  setter : ∀ s, b.contents = .setter s → b'.contents = .setter s ∧ b'.multInt = 1
  insn : ∀ m, b.contents = .insn m → ∃ m' ds, mc.calcLen m = .ok (m', b'.len, ds) ∧ b'.contents = .insn m'

/-- What step 1a establishes, from index `i` and setter number `nos` on. -/
structure A1ok (mc : Machine M) (pending : M → Nat → Option Promise) (i nos : Nat) (bcs : List (Bc M)) (a : A1 M) : Prop where
  len : a.bcs.length = bcs.length
  bcs : ∀ (p : Nat) b b', bcs[p]? = some b → a.bcs[p]? = some b' → Calced mc b b'
  fresh : ∀ s ∈ a.spans, s.active = 1 ∧ s.curVal = 0 ∧ s.terms = [] ∧ s.nabs = 0 ∧ s.newVal = 0 ∧ s.backtrace = []
  spanBc : ∀ s ∈ a.spans, i ≤ s.bc ∧ nos ≤ s.os ∧ ∃ b, a.bcs[s.bc - i]? = some b ∧ b.contents.kind = .insn ∧
    (s.id = 0 → b.multInt = 0 ∧ b.mult = .dep s.val)
  uniq : (a.spans.map fun s => (s.bc, s.id)).Nodup
  pend : ∀ (p : Nat) b m id pr, a.bcs[p]? = some b → b.contents = .insn m → pending m id = some pr →
    ∃ s ∈ a.spans, s.bc = i + p ∧ s.id = id ∧ s.id ≠ 0 ∧ s.val = pr.val ∧ s.neg = pr.neg ∧ s.pos = pr.pos
  mult : ∀ (p : Nat) b v, a.bcs[p]? = some b → b.mult = .dep v → ∃ s ∈ a.spans, s.bc = i + p ∧ s.id = 0 ∧ s.val = v ∧ b.multInt = 0
  osBc : ∀ o ∈ a.oss, i ≤ o.bc ∧ ∃ b s, a.bcs[o.bc - i]? = some b ∧ b.contents = .setter s
  osAll : ∀ (p : Nat) b s, a.bcs[p]? = some b → b.contents = .setter s → ∃ o ∈ a.oss, o.bc = i + p
  sorted : (a.oss.map OS.bc).Pairwise (· < ·)
  spanOs : ∀ s ∈ a.spans, ∀ (j : Nat) o, a.oss[j]? = some o → (s.os ≤ nos + j ↔ s.bc < o.bc)

theorem calcMult_ids (m : Mult) (h : (calcMult m).2.2 = none) :
    (calcMult m).2.1 = [] ∧ (∀ v, m ≠ .dep v) ∨ ∃ v, m = .dep v ∧ (calcMult m).2.1 = [⟨0, v, 0, 0⟩] ∧ (calcMult m).1 = 0 := by
  unfold calcMult at *
  split at h
  · left; simp
  · split at h
    · cases h
    · rename_i h'; left; rw [if_neg h']; simp
  · cases h
  · right; simp

theorem step1a_ok {mc : Machine M} {pending : M → Nat → Option Promise} {rank : M → Nat} (hok : mc.Ok pending rank)
    (bcs : List (Bc M)) (i : Nat) (off : Int) (nos : Nat)
    (hemp : ∀ b ∈ bcs, b.contents = .empty → b.mult.isOne = true)
    (h : (step1a mc bcs i off nos).errs = []) : A1ok mc pending i nos bcs (step1a mc bcs i off nos) := by
  induction bcs generalizing i off nos with
  | nil =>
    constructor <;> simp [step1a]
  | cons b bs ih =>
    have hemp' : ∀ b ∈ bs, b.contents = .empty → b.mult.isOne = true := fun b hb => hemp b (List.mem_cons_of_mem _ hb)
    -- putting a bytecode in front
    have glue : ∀ (b' : Bc M) (sp : List Span) (os : List OS) (nos' : Nat) (r : A1 M), A1ok mc pending (i + 1) nos' bs r →
        Calced mc b b' →
        (∀ s ∈ sp, ∃ d, s = mkSpan i nos d) →
        (sp ≠ [] → os = []) → (sp ≠ [] → b'.contents.kind = .insn) →
        (∀ s ∈ sp, s.id = 0 → b'.multInt = 0 ∧ b'.mult = .dep s.val) →
        (sp.map Span.id).Nodup →
        (∀ m id pr, b'.contents = .insn m → pending m id = some pr →
          ∃ s ∈ sp, s.id = id ∧ s.id ≠ 0 ∧ s.val = pr.val ∧ s.neg = pr.neg ∧ s.pos = pr.pos) →
        (∀ v, b'.mult = .dep v → ∃ s ∈ sp, s.id = 0 ∧ s.val = v ∧ b'.multInt = 0) →
        (os = [] ∧ nos' = nos ∧ (∀ s, b'.contents ≠ .setter s) ∨
          (∃ s, b'.contents = .setter s) ∧ nos' = nos + 1 ∧ ∃ o, os = [o] ∧ o.bc = i) →
        A1ok mc pending i nos (b :: bs) ⟨b' :: r.bcs, sp ++ r.spans, os ++ r.oss, []⟩ := by
      intro b' sp os nos' r hr hc hsp hspos hspk hsp0 hnd hpd hmu hos
      have shiftget : ∀ (n : Nat), i + 1 ≤ n → (b' :: r.bcs)[n - i]? = r.bcs[n - (i + 1)]? := by
        intro n hn
        have : n - i = (n - (i + 1)) + 1 := by omega
        rw [this, List.getElem?_cons_succ]
      constructor
      · simp [hr.len]
      · intro p x y hx hy
        cases p with
        | zero => simp at hx hy; subst hx; subst hy; exact hc
        | succ p => exact hr.bcs p x y (by simpa using hx) (by simpa using hy)
      · intro s hs
        rcases List.mem_append.mp hs with e | e
        · obtain ⟨d, hd⟩ := hsp s e; subst hd; exact ⟨rfl, rfl, rfl, rfl, rfl, rfl⟩
        · exact hr.fresh s e
      · intro s hs
        rcases List.mem_append.mp hs with e | e
        · obtain ⟨d, hd⟩ := hsp s e
          have hk := hspk (List.ne_nil_of_mem e)
          have h0 := hsp0 s e
          subst hd
          exact ⟨Nat.le_refl _, Nat.le_refl _, b', by simp [mkSpan], hk, h0⟩
        · obtain ⟨h1, h2, x, h3, h4, h5⟩ := hr.spanBc s e
          refine ⟨by omega, by rcases hos with hos | hos <;> omega, x, ?_, h4, h5⟩
          show (b' :: r.bcs)[s.bc - i]? = some x
          rw [shiftget _ h1]; exact h3
      · rw [List.map_append, List.nodup_append]
        refine ⟨?_, hr.uniq, ?_⟩
        · have : ∀ l : List Span, (l.map Span.id).Nodup → (l.map fun s => (s.bc, s.id)).Nodup := by
            intro l hl
            have e : l.map Span.id = (l.map fun s => (s.bc, s.id)).map Prod.snd := by simp [List.map_map]
            rw [e] at hl
            exact hl.of_map _
          exact this sp hnd
        · intro x hx y hy hxy
          obtain ⟨s, hs, e1⟩ := List.mem_map.mp hx
          obtain ⟨t, ht, e2⟩ := List.mem_map.mp hy
          obtain ⟨d, hd⟩ := hsp s hs
          have := (hr.spanBc t ht).1
          rw [← e1, ← e2, hd] at hxy
          simp only [mkSpan, Prod.mk.injEq] at hxy
          omega
      · intro p x m id pr hx hm hp
        cases p with
        | zero =>
          simp at hx; subst hx
          obtain ⟨s, hs, h1⟩ := hpd m id pr hm hp
          obtain ⟨d, hd⟩ := hsp s hs
          exact ⟨s, List.mem_append_left _ hs, by rw [hd]; simp [mkSpan], h1⟩
        | succ p =>
          obtain ⟨s, hs, h1, h2⟩ := hr.pend p x m id pr (by simpa using hx) hm hp
          exact ⟨s, List.mem_append_right _ hs, by omega, h2⟩
      · intro p x v hx hv
        cases p with
        | zero =>
          simp at hx; subst hx
          obtain ⟨s, hs, h1⟩ := hmu v hv
          obtain ⟨d, hd⟩ := hsp s hs
          exact ⟨s, List.mem_append_left _ hs, by rw [hd]; simp [mkSpan], h1⟩
        | succ p =>
          obtain ⟨s, hs, h1, h2⟩ := hr.mult p x v (by simpa using hx) hv
          exact ⟨s, List.mem_append_right _ hs, by omega, h2⟩
      · intro o ho
        rcases List.mem_append.mp ho with e | e
        · rcases hos with ⟨h1, _⟩ | ⟨⟨s, h1⟩, h2, o', h3, h4⟩
          · rw [h1] at e; cases e
          · rw [h3] at e; simp at e; subst e
            exact ⟨by omega, b', s, by simp [h4], h1⟩
        · obtain ⟨h1, x, s, h2, h3⟩ := hr.osBc o e
          refine ⟨by omega, x, s, ?_, h3⟩
          show (b' :: r.bcs)[o.bc - i]? = some x
          rw [shiftget _ h1]; exact h2
      · intro p x s hx hs
        cases p with
        | zero =>
          simp at hx; subst hx
          rcases hos with ⟨_, _, h1⟩ | ⟨⟨s, h1⟩, h2, o', h3, h4⟩
          · exact absurd hs (h1 s)
          · exact ⟨o', by simp [h3], by omega⟩
        | succ p =>
          obtain ⟨o, ho, h1⟩ := hr.osAll p x s (by simpa using hx) hs
          exact ⟨o, List.mem_append_right _ ho, by omega⟩
      · rw [List.map_append, List.pairwise_append]
        refine ⟨?_, hr.sorted, ?_⟩
        · rcases hos with ⟨h1, _⟩ | ⟨_, _, o', h3, _⟩
          · rw [h1]; simp
          · rw [h3]; simp
        · intro x hx y hy
          obtain ⟨o2, ho2, e2⟩ := List.mem_map.mp hy
          have := (hr.osBc o2 ho2).1
          rcases hos with ⟨h1, _⟩ | ⟨_, _, o', h3, h4⟩
          · rw [h1] at hx; simp at hx
          · rw [h3] at hx; simp at hx; omega
      · intro s hs j o hj
        rcases List.mem_append.mp hs with e | e
        · have e0 := hspos (List.ne_nil_of_mem e)
          obtain ⟨d, hd⟩ := hsp s e
          have hj : (os ++ r.oss)[j]? = some o := hj
          rw [e0, List.nil_append] at hj
          have := (hr.osBc o (List.mem_of_getElem? hj)).1
          rw [hd]; simp only [mkSpan]; omega
        · have hb := hr.spanBc s e
          have hj : (os ++ r.oss)[j]? = some o := hj
          rcases hos with ⟨h1, h2, _⟩ | ⟨_, h2, o', h3, h4⟩
          · rw [h1, List.nil_append] at hj
            have := hr.spanOs s e j o hj
            rw [h2] at this; exact this
          · rw [h3] at hj
            cases j with
            | zero =>
              simp at hj; subst hj
              have := hb.1; have := hb.2.1
              omega
            | succ j =>
              have := hr.spanOs s e j o (by simpa using hj)
              rw [h2] at this
              rw [show nos + (j + 1) = nos + 1 + j by omega]; exact this
    cases hc : b.contents with
    | empty =>
      unfold step1a at h ⊢
      simp only [hc] at h ⊢
      have := ih (i + 1) 0 nos hemp' h
      have g := glue b [] [] nos _ this ⟨rfl, fun _ => rfl, fun s hs => (by rw [hc] at hs; cases hs),
        fun m hm => by rw [hc] at hm; cases hm⟩ (by simp) (by simp) (by simp) (by simp) (by simp)
        (fun m id pr hm => by rw [hc] at hm; cases hm)
        (fun v hv => by have := hemp b (by simp) hc; rw [hv] at this; cases this) (.inl ⟨rfl, rfl, by simp [hc]⟩)
      simp only [List.nil_append] at g
      rw [← h] at g; exact g
    | setter s =>
      unfold step1a at h ⊢
      simp only [hc, calcBc, calcContents] at h ⊢
      cases hx : s.expand off with
      | error e => simp [hx] at h
      | ok n =>
        simp only [hx] at h ⊢
        cases hm : (calcMult b.mult).2.2 with
        | some e => simp [hm] at h
        | none =>
          simp only [hm, Option.or_none, Contents.isSetter, if_true] at h ⊢
          have hone : b.mult = .one := by
            cases hb : b.mult with
            | one => rfl
            | const n => simp [hb, Mult.isOne] at h
            | float => simp [hb, Mult.isOne] at h
            | dep v => simp [hb, Mult.isOne] at h
          simp only [hone, Mult.isOne, if_true, List.nil_append, calcMult] at h ⊢
          have := ih (i + 1) _ (nos + 1) hemp' h
          have g := glue { b with contents := .setter s, len := n, multInt := 1, offset := off } [] [⟨i, 0, 0⟩] (nos + 1) _ this
            ⟨by simp [Bc.skel, hc], fun e => (by rw [hc] at e; cases e), fun z hz => (by rw [hc] at hz; cases hz; exact ⟨rfl, rfl⟩),
              fun m hm => by rw [hc] at hm; cases hm⟩ (by simp) (by simp) (by simp) (by simp) (by simp)
            (fun m id pr hm => by cases hm) (fun v hv => by simp only [hone] at hv; cases hv)
            (.inr ⟨⟨s, rfl⟩, rfl, ⟨i, 0, 0⟩, rfl, rfl⟩)
          simp only [List.nil_append, List.cons_append] at g
          rw [← h] at g
          simpa [hone] using g
    | insn m =>
      unfold step1a at h ⊢
      simp only [hc, calcBc, calcContents] at h ⊢
      cases hx : mc.calcLen m with
      | error e => simp [hx] at h
      | ok r =>
        obtain ⟨m', n, ds⟩ := r
        obtain ⟨q1, q2, q3⟩ := hok.reports m m' n ds hx
        simp only [hx] at h ⊢
        cases hm : (calcMult b.mult).2.2 with
        | some e => simp [hm] at h
        | none =>
          simp only [hm, Option.or_none, Contents.isSetter, if_false] at h ⊢
          simp only [Bool.false_eq_true, if_false] at h ⊢
          have := ih (i + 1) _ nos hemp' h
          have hcm := calcMult_ids b.mult hm
          have g := glue { b with contents := .insn m', len := n, multInt := (calcMult b.mult).1, offset := off }
            ((ds ++ (calcMult b.mult).2.1).map (mkSpan i nos)) [] nos _ this
            ⟨by simp [Bc.skel, hc, Contents.kind], fun e => (by rw [hc] at e; cases e),
              fun z hz => (by rw [hc] at hz; cases hz), fun m2 hm2 => by rw [hc] at hm2; cases hm2; exact ⟨m', ds, hx, rfl⟩⟩
            (by intro s hs; obtain ⟨d, _, hd⟩ := List.mem_map.mp hs; exact ⟨d, hd.symm⟩)
            (by simp) (by simp [Contents.kind]) ?_ ?_ ?_ ?_ (.inl ⟨rfl, rfl, by simp⟩)
          · simp only [List.nil_append] at g
            rw [← h] at g
            simpa using g
          · intro s hs h0
            obtain ⟨d, hd, e⟩ := List.mem_map.mp hs
            rcases List.mem_append.mp hd with e' | e'
            · have := q3 d e'; subst e; simp only [mkSpan] at h0; omega
            · rcases hcm with ⟨h1, _⟩ | ⟨v, h1, h2, h3⟩
              · rw [h1] at e'; cases e'
              · rw [h2] at e'; simp at e'; subst e'; subst e; exact ⟨h3, h1⟩
          · rw [List.map_map]
            have : Span.id ∘ mkSpan i nos = Dep.id := rfl
            rw [this, List.map_append, List.nodup_append]
            refine ⟨q2, ?_, ?_⟩
            · rcases hcm with ⟨h1, _⟩ | ⟨v, h1, h2, h3⟩
              · rw [h1]; simp
              · rw [h2]; simp
            · intro x hx y hy hxy
              obtain ⟨d, hd, e⟩ := List.mem_map.mp hx
              have := q3 d hd
              rcases hcm with ⟨h1, _⟩ | ⟨v, h1, h2, h3⟩
              · rw [h1] at hy; simp at hy
              · rw [h2] at hy; simp at hy; omega
          · intro m2 id pr hm2 hp
            simp only [Contents.insn.injEq] at hm2; subst hm2
            rw [q1 id] at hp
            cases hf : ds.find? (·.id = id) with
            | none => rw [hf] at hp; cases hp
            | some d =>
              rw [hf] at hp; simp at hp; subst hp
              have h1 := List.mem_of_find?_eq_some hf
              have h2 : d.id = id := by simpa using List.find?_some hf
              refine ⟨mkSpan i nos d, List.mem_map.mpr ⟨d, List.mem_append_left _ h1, rfl⟩, h2, ?_, rfl, rfl, rfl⟩
              have := q3 d h1
              show d.id ≠ 0; omega
          · intro v hv
            rcases hcm with ⟨h1, h2⟩ | ⟨w, h1, h2, h3⟩
            · exact absurd hv (h2 v)
            · have hv : b.mult = .dep v := hv
              rw [hv] at h1; cases h1
              exact ⟨mkSpan i nos ⟨0, v, 0, 0⟩, List.mem_map.mpr ⟨_, List.mem_append_right _ (by rw [h2]; simp), rfl⟩, rfl, rfl, h3⟩

/-! ### Step 1b -/

def Span.key (s : Span) : Nat × Nat × Nat := (s.bc, s.id, s.os)

/-- What holds during step 1b, `kept` having been processed and `todo` not; `keys` are those of all spans. -/
structure B1ok (pending : M → Nat → Option Promise) (bk : List BSkel) (keys : List (Nat × Nat × Nat)) (B0 : List (Bc M))
    (kept todo : List Span) (B : List (Bc M)) : Prop where
  skel : B.map Bc.skel = bk
  same : ∀ (i : Nat) b, B[i]? = some b → b.contents.kind ≠ .insn → B0[i]? = some b
  keys : ((kept ++ todo).map Span.key).Sublist keys
  fresh : ∀ s ∈ todo, s.active = 1 ∧ s.curVal = 0 ∧ s.terms = [] ∧ s.newVal = 0 ∧ ∃ b, bk[s.bc]? = some b ∧ b.kind = .insn
  keep : ∀ s ∈ kept, s.active ≤ 1 ∧ Termed bk s.skel
  pend : ∀ (i : Nat) b m id p, B[i]? = some b → b.contents = .insn m → pending m id = some p →
    ∃ s ∈ kept ++ todo, s.bc = i ∧ s.id = id ∧ s.id ≠ 0 ∧ s.val = p.val ∧ s.neg = p.neg ∧ s.pos = p.pos ∧ s.active = 1
  mult : ∀ (i : Nat) b v, B[i]? = some b → b.mult = .dep v →
    ∃ s ∈ kept ++ todo, s.bc = i ∧ s.id = 0 ∧ s.val = v ∧ s.curVal = b.multInt ∧ s.active = 1

theorem absTerms_ok {B : List (Bc M)} {bk : List BSkel} (hb : B.map Bc.skel = bk) (l : List (Nat × Nat)) {ts : List Term}
    (h : absTerms B l = some ts) :
    ts.map Term.pp = l ∧ ∀ p ∈ l, ∃ a b, bk[p.1]? = some a ∧ bk[p.2]? = some b ∧ a.sect = b.sect := by
  induction l generalizing ts with
  | nil => simp [absTerms] at h; subst h; simp
  | cons p l ih =>
    obtain ⟨p, q⟩ := p
    unfold absTerms at h
    cases hd : dist B p q with
    | none => rw [hd] at h; cases h
    | some d =>
      rw [hd] at h
      cases ha : absTerms B l with
      | none => rw [ha] at h; cases h
      | some ts' =>
        rw [ha] at h
        simp at h; subst h
        obtain ⟨h1, h2⟩ := ih ha
        refine ⟨by simp [Term.pp, h1], ?_⟩
        intro x hx
        rcases List.mem_cons.mp hx with e | e
        · subst e
          unfold dist at hd
          split at hd
          · rename_i a b ha hb'
            split at hd
            · rename_i hs
              exact ⟨a.skel, b.skel, sect_of_skel hb ha, sect_of_skel hb hb', hs⟩
            · cases hd
          · cases hd
        · exact h2 x e

theorem relTerm_ok {B : List (Bc M)} {bk : List BSkel} (hb : B.map Bc.skel = bk) {i : Nat} {v : SVal} {ts : List Term}
    (h : relTerm B i v.rel = some ts) : ts.map Term.pp = relPairs bk i v := by
  unfold relTerm at h
  unfold relPairs
  cases hr : v.rel with
  | none => rw [hr] at h; simp at h; subst h; simp
  | complex => rw [hr] at h; simp at h; subst h; simp
  | label q =>
    rw [hr] at h
    simp only at h ⊢
    split at h
    · rename_i a b ha hb'
      rw [sect_of_skel hb ha, sect_of_skel hb hb']
      simp only [Option.map_some, Option.some.injEq]
      show ts.map Term.pp = if b.sect = a.sect then _ else _
      split at h
      · rename_i e; rw [if_pos e]; cases h; rfl
      · rename_i e; rw [if_neg e]; cases h; rfl
    · cases h

theorem createTerms_ok {B : List (Bc M)} {bk : List BSkel} (hb : B.map Bc.skel = bk) {s : Span} {r : Span × Bool}
    (h : createTerms B s = some r) : Termed bk r.1.skel ∧ r.1 = { s with terms := r.1.terms, nabs := r.1.nabs } := by
  unfold createTerms at h
  cases ha : absTerms B s.val.pairs with
  | none => rw [ha] at h; cases h
  | some ts =>
    rw [ha] at h
    cases hr : relTerm B s.bc s.val.rel with
    | none => rw [hr] at h; cases h
    | some rs =>
      rw [hr] at h
      simp at h; subst h
      obtain ⟨h1, h2⟩ := absTerms_ok hb _ ha
      have h3 := relTerm_ok hb hr
      refine ⟨⟨?_, ?_, h2⟩, rfl⟩
      · show (ts ++ rs).map Term.pp = s.val.pairs ++ relPairs bk s.bc s.val
        rw [List.map_append, h1, h3]
      · show ts.length = s.val.pairs.length
        rw [← h1, List.length_map]

theorem step1bSpan_ok {mc : Machine M} {pending : M → Nat → Option Promise} {rank : M → Nat} (hok : mc.Ok pending rank)
    {bk : List BSkel} {keys : List (Nat × Nat × Nat)} {B0 : List (Bc M)}
    (hnd : (keys.map fun k => (k.1, k.2.1)).Nodup) {kept todo : List Span} {s : Span} {B : List (Bc M)}
    (hi : B1ok pending bk keys B0 kept (s :: todo) B) {r : List (Bc M) × Option Span × Errs}
    (h : step1bSpan mc B s = some r) (he : r.2.2 = []) : B1ok pending bk keys B0 (kept ++ r.2.1.toList) todo r.1 := by
  obtain ⟨f1, f2, f3, f4, bz, f5, f6⟩ := hi.fresh s (by simp)
  -- another span has another bytecode or another id
  have other : ∀ u ∈ kept ++ s :: todo, ¬ (u.bc = s.bc ∧ u.id = s.id) → u ∈ kept ++ todo := by
    intro u hu hne
    rcases List.mem_append.mp hu with e | e
    · exact List.mem_append_left _ e
    · rcases List.mem_cons.mp e with e | e
      · subst e; exact absurd ⟨rfl, rfl⟩ hne
      · exact List.mem_append_right _ e
  have uniq : ∀ u ∈ kept ++ s :: todo, u.bc = s.bc → u.id = s.id → u = s := by
    intro u hu e1 e2
    have h1 : ((kept ++ s :: todo).map fun s => (s.bc, s.id)).Nodup := by
      have := hnd.sublist (hi.keys.map _)
      rw [List.map_map] at this; exact this
    exact List.inj_on_of_nodup_map h1 hu (by simp) (by simp [e1, e2])
  have memk : ∀ (o : Option Span) u, u ∈ kept ++ todo → u ∈ kept ++ o.toList ++ todo := by
    intro o u hu
    rcases List.mem_append.mp hu with e | e
    · exact List.mem_append_left _ (List.mem_append_left _ e)
    · exact List.mem_append_right _ e
  have mems : ∀ z : Span, z ∈ kept ++ (some z).toList ++ todo := by intro z; simp
  have freshT : ∀ u ∈ todo, u.active = 1 ∧ u.curVal = 0 ∧ u.terms = [] ∧ u.newVal = 0 ∧ ∃ b, bk[u.bc]? = some b ∧ b.kind = .insn :=
    fun u hu => hi.fresh u (by simp [hu])
  have keyS : ∀ z : Span, z.key = s.key → ((kept ++ (some z).toList ++ todo).map Span.key).Sublist keys := by
    intro z hz
    have := hi.keys
    simpa [hz] using this
  have keyN : ((kept ++ (none : Option Span).toList ++ todo).map Span.key).Sublist keys := by
    have h1 : ((kept ++ (none : Option Span).toList ++ todo).map Span.key).Sublist ((kept ++ s :: todo).map Span.key) := by
      simp
    exact h1.trans hi.keys
  have keptS : ∀ z : Span, z.active ≤ 1 → Termed bk z.skel → ∀ u ∈ kept ++ (some z).toList, u.active ≤ 1 ∧ Termed bk u.skel := by
    intro z h1 h2 u hu
    rcases List.mem_append.mp hu with e | e
    · exact hi.keep u e
    · simp at e; subst e; exact ⟨h1, h2⟩
  unfold step1bSpan at h
  split at h
  · cases h
  · rename_i b hb
    have hbz : bz = b.skel := by
      have := sect_of_skel hi.skel hb; rw [f5] at this; exact Option.some.inj this
    have hbi : ∃ m, b.contents = .insn m := by
      rw [hbz] at f6
      cases hc : b.contents with
      | insn m => exact ⟨m, rfl⟩
      | empty => simp [Bc.skel, hc, Contents.kind] at f6
      | setter w => simp [Bc.skel, hc, Contents.kind] at f6
    obtain ⟨m, hmc⟩ := hbi
    cases hct : createTerms B s with
    | none => rw [hct] at h; cases h
    | some c =>
      rw [hct] at h
      simp only [Option.bind_some] at h
      obtain ⟨t1, t2⟩ := createTerms_ok hi.skel hct
      obtain ⟨c, circ⟩ := c
      simp only at t1 t2 h
      have c1 : c.bc = s.bc := by rw [t2]
      have c2 : c.id = s.id := by rw [t2]
      have c3 : c.val = s.val := by rw [t2]
      have c4 : c.neg = s.neg := by rw [t2]
      have c5 : c.pos = s.pos := by rw [t2]
      have c6 : c.active = 1 := by rw [t2]; exact f1
      have c7 : c.curVal = 0 := by rw [t2]; exact f2
      have c8 : c.os = s.os := by rw [t2]
      split at h
      · cases h; simp at he
      · have act : (recalc c).1.active = if c.value = LMAX then 0 else 1 := by show (if _ then _ else _) = _; rw [c6]
        have act1 : (recalc c).1.active ≤ 1 := by rw [act]; split <;> omega
        split at h
        · rename_i hx
          have hx : c.exceeds c.value = true := hx
          unfold expandBc at h
          by_cases hid : s.id = 0
          · have hid' : (recalc c).1.id = 0 := c2.trans hid
            rw [if_pos hid'] at h
            simp only [Option.bind_some, Option.some.injEq] at h
            subst h
            have ha : (recalc c).1.active ≠ 0 := by
              intro e; simp only [e, if_true] at he; cases he
            have ha1 : (recalc c).1.active = 1 := by omega
            refine ⟨?_, ?_, keyS _ (by simp [Span.key, recalc, c1, c2, c8]), freshT, keptS _ act1 t1, ?_, ?_⟩
            · show (B.set s.bc _).map _ = _; rw [set_map_same hb, hi.skel]; rfl
            · intro i y hy hk
              have hy : (B.set s.bc _)[i]? = some y := hy
              rw [get_set hb] at hy
              split at hy
              · cases hy; simp only [hmc, Contents.kind] at hk; exact absurd rfl hk
              · exact hi.same i y hy hk
            · intro i y m2 id p hy hm2 hp
              have hy : (B.set s.bc _)[i]? = some y := hy
              rw [get_set hb] at hy
              have : ∃ (b0 : Bc M), B[i]? = some b0 ∧ b0.contents = .insn m2 := by
                split at hy
                · rename_i e; cases hy; exact ⟨b, by rw [e]; exact hb, hm2⟩
                · exact ⟨y, hy, hm2⟩
              obtain ⟨b0, hb0, hm0⟩ := this
              obtain ⟨u, hu, e1, e2, e3, e4⟩ := hi.pend i b0 m2 id p hb0 hm0 hp
              exact ⟨u, memk _ u (other u hu (fun z => e3 (z.2.trans hid))), e1, e2, e3, e4⟩
            · intro i y v hy hv
              have hy : (B.set s.bc _)[i]? = some y := hy
              rw [get_set hb] at hy
              by_cases e : i = s.bc
              · rw [if_pos e] at hy; cases hy
                obtain ⟨u, hu, e1, e2, e3, e4⟩ := hi.mult i b v (by rw [e]; exact hb) hv
                have := uniq u hu (e1.trans e) (e2.trans hid.symm)
                subst this
                exact ⟨_, mems _, c1.trans e.symm, hid', c3.trans e3, rfl, ha1⟩
              · rw [if_neg e] at hy
                obtain ⟨u, hu, e1, e2⟩ := hi.mult i y v hy hv
                exact ⟨u, memk _ u (other u hu (fun z => e (e1.symm.trans z.1))), e1, e2⟩
          · have hid' : ¬ (recalc c).1.id = 0 := fun e => hid (c2.symm.trans e)
            rw [if_neg hid', hmc] at h
            dsimp only at h
            have mult' : ∀ (o : Option Span) (b' : Bc M), b'.mult = b.mult → b'.multInt = b.multInt → ∀ (i : Nat) y v,
                (B.set s.bc b')[i]? = some y → y.mult = .dep v →
                ∃ u ∈ kept ++ o.toList ++ todo, u.bc = i ∧ u.id = 0 ∧ u.val = v ∧ u.curVal = y.multInt ∧ u.active = 1 := by
              intro o b' g1 g2 i y v hy hv
              rw [get_set hb] at hy
              have : ∃ (b0 : Bc M), B[i]? = some b0 ∧ b0.mult = .dep v ∧ b0.multInt = y.multInt := by
                split at hy
                · rename_i e; cases hy; exact ⟨b, by rw [e]; exact hb, by rw [← g1]; exact hv, g2.symm⟩
                · exact ⟨y, hy, hv, rfl⟩
              obtain ⟨b0, hb0, hm0, hmi⟩ := this
              obtain ⟨u, hu, e1, e2, e3, e4, e5⟩ := hi.mult i b0 v hb0 hm0
              exact ⟨u, memk _ u (other u hu (fun z => hid (z.2.symm.trans e2))), e1, e2, e3, by rw [e4, hmi], e5⟩
            have same' : ∀ (m' : M) (n : Nat) (i : Nat) y, (B.set s.bc { b with contents := .insn m', len := n })[i]? = some y →
                y.contents.kind ≠ .insn → B0[i]? = some y := by
              intro m' n i y hy hk
              rw [get_set hb] at hy
              split at hy
              · cases hy; simp only [Contents.kind] at hk; exact absurd rfl hk
              · exact hi.same i y hy hk
            have pendOther : ∀ (o : Option Span) (m' : M) (n : Nat), (∀ k, k ≠ s.id → pending m' k = pending m k) →
                ∀ (i : Nat) y m2 id p, (B.set s.bc { b with contents := .insn m', len := n })[i]? = some y →
                y.contents = .insn m2 → pending m2 id = some p → ¬ (i = s.bc ∧ id = s.id) →
                ∃ u ∈ kept ++ o.toList ++ todo, u.bc = i ∧ u.id = id ∧ u.id ≠ 0 ∧ u.val = p.val ∧
                  u.neg = p.neg ∧ u.pos = p.pos ∧ u.active = 1 := by
              intro o m' n hk i y m2 id p hy hm2 hp hne
              rw [get_set hb] at hy
              have : ∃ (b0 : Bc M) (m0 : M), B[i]? = some b0 ∧ b0.contents = .insn m0 ∧ pending m0 id = some p := by
                split at hy
                · rename_i e; cases hy
                  simp only [Contents.insn.injEq] at hm2; subst hm2
                  exact ⟨b, m, by rw [e]; exact hb, hmc, by rw [← hk id (fun e' => hne ⟨e, e'⟩)]; exact hp⟩
                · exact ⟨y, m2, hy, hm2, hp⟩
              obtain ⟨b0, m0, hb0, hm0, hp0⟩ := this
              obtain ⟨u, hu, e1, e2, e3⟩ := hi.pend i b0 m0 id p hb0 hm0 hp0
              exact ⟨u, memk _ u (other u hu (fun z => hne ⟨e1.symm.trans z.1, e2.symm.trans z.2⟩)), e1, e2, e3⟩
            cases hex : mc.expand m b.len (recalc c).1.id (recalc c).1.curVal (recalc c).1.newVal (recalc c).1.neg (recalc c).1.pos with
            | error e =>
              rw [hex] at h; simp at h; subst h; simp at he
            | ok q =>
              obtain ⟨m', n, th⟩ := q
              rw [hex] at h
              cases th with
              | none =>
                obtain ⟨d1, d2, _⟩ := hok.done _ _ _ _ _ _ _ _ _ hex
                have d1 : pending m' s.id = none := by rw [← c2]; exact d1
                have d2 : ∀ k, k ≠ s.id → pending m' k = pending m k := by rw [← c2]; exact d2
                simp only [Option.bind_some, Option.some.injEq] at h
                subst h
                refine ⟨?_, same' m' n, keyN, freshT, by simpa using hi.keep, ?_, mult' _ _ rfl rfl⟩
                · show (B.set s.bc _).map _ = _; rw [set_map_same hb, hi.skel]; simp only [Bc.skel, hmc, Contents.kind]
                · intro i y m2 id p hy hm2 hp
                  refine pendOther _ m' n d2 i y m2 id p hy hm2 hp ?_
                  rintro ⟨e1, e2⟩
                  have hy : (B.set s.bc { b with contents := .insn m', len := n })[i]? = some y := hy
                  rw [get_set hb, if_pos e1] at hy; cases hy
                  simp only [Contents.insn.injEq] at hm2; subst hm2
                  rw [e2, d1] at hp; cases hp
              | some np =>
                obtain ⟨neg', pos'⟩ := np
                obtain ⟨d1, d2, d3, d4, _⟩ := hok.more _ _ _ _ _ _ _ _ _ _ _ hex
                have d1 : pending m' s.id = (pending m s.id).map (fun p => ⟨p.val, neg', pos'⟩) := by rw [← c2]; exact d1
                have d4 : ∀ k, k ≠ s.id → pending m' k = pending m k := by rw [← c2]; exact d4
                simp only [Option.bind_some, Option.some.injEq] at h
                subst h
                have ha : (recalc c).1.active ≠ 0 := by
                  intro e; simp only [e, if_true] at he; cases he
                have ha1 : (recalc c).1.active = 1 := by omega
                refine ⟨?_, same' m' n, keyS _ (by simp [Span.key, recalc, c1, c2, c8]), freshT, keptS _ act1 t1, ?_, mult' _ _ rfl rfl⟩
                · show (B.set s.bc _).map _ = _; rw [set_map_same hb, hi.skel]; simp only [Bc.skel, hmc, Contents.kind]
                · intro i y m2 id p hy hm2 hp
                  by_cases e : i = s.bc ∧ id = s.id
                  · obtain ⟨e1, e2⟩ := e
                    have hy : (B.set s.bc { b with contents := .insn m', len := n })[i]? = some y := hy
                    rw [get_set hb, if_pos e1] at hy; cases hy
                    simp only [Contents.insn.injEq] at hm2; subst hm2
                    rw [e2, d1] at hp
                    cases hp0 : pending m s.id with
                    | none => rw [hp0] at hp; cases hp
                    | some p0 =>
                      rw [hp0] at hp
                      simp only [Option.map_some, Option.some.injEq] at hp
                      subst hp
                      obtain ⟨u, hu, g1, g2, g3, g4, g5⟩ := hi.pend s.bc b m s.id p0 hb hmc hp0
                      have := uniq u hu g1 g2
                      subst this
                      exact ⟨_, mems _, c1.trans e1.symm, c2.trans e2.symm, hid', c3.trans g4, rfl, rfl, ha1⟩
                  · exact pendOther _ m' n d4 i y m2 id p hy hm2 hp e
        · rename_i hx
          have hx : c.exceeds c.value = false := by
            have : (recalc c).2 = c.exceeds c.value := rfl
            rw [this] at hx; simpa using hx
          cases h
          refine ⟨hi.skel, hi.same, keyS _ (by simp [Span.key, recalc, c1, c2, c8]), freshT, keptS _ act1 t1, ?_, ?_⟩
          · intro i y m2 id p hy hm2 hp
            obtain ⟨u, hu, e1, e2, e3, e4, e5, e6, e7⟩ := hi.pend i y m2 id p hy hm2 hp
            by_cases e : u.bc = s.bc ∧ u.id = s.id
            · have := uniq u hu e.1 e.2
              subst this
              have hne : c.value ≠ LMAX := by
                intro hv
                have := LMAX_exceeds (s := c) (by rw [c2]; exact e3) (by rw [c5, e6]; exact hok.bound _ _ _ hp)
                rw [← hv, hx] at this; cases this
              refine ⟨_, mems _, c1.trans e1, c2.trans e2, by show c.id ≠ 0; rw [c2]; exact e3, c3.trans e4, c4.trans e5, c5.trans e6, ?_⟩
              show (recalc c).1.active = 1
              rw [act, if_neg hne]
            · exact ⟨u, memk _ u (other u hu e), e1, e2, e3, e4, e5, e6, e7⟩
          · intro i y v hy hv
            obtain ⟨u, hu, e1, e2, e3, e4, e5⟩ := hi.mult i y v hy hv
            by_cases e : u.bc = s.bc ∧ u.id = s.id
            · have := uniq u hu e.1 e.2
              subst this
              have hcur : c.value = c.curVal := by
                unfold Span.exceeds at hx; rw [if_pos (c2.trans e2)] at hx; simpa using hx
              refine ⟨_, mems _, c1.trans e1, c2.trans e2, c3.trans e3, ?_, ?_⟩
              · show c.value = y.multInt
                rw [hcur, c7, ← e4, f2]
              · show (recalc c).1.active = 1
                rw [act, if_neg]
                rw [hcur, c7]; decide
            · exact ⟨u, memk _ u (other u hu e), e1, e2, e3, e4, e5⟩

theorem step1b_ok {mc : Machine M} {pending : M → Nat → Option Promise} {rank : M → Nat} (hok : mc.Ok pending rank)
    {bk : List BSkel} {keys : List (Nat × Nat × Nat)} {B0 : List (Bc M)}
    (hnd : (keys.map fun k => (k.1, k.2.1)).Nodup) (todo : List Span) {kept : List Span} {B : List (Bc M)}
    (hi : B1ok pending bk keys B0 kept todo B) {B' : List (Bc M)} {S : List Span}
    (h : step1b mc todo B = some (B', S, [])) : B1ok pending bk keys B0 (kept ++ S) [] B' := by
  induction todo generalizing kept B B' S with
  | nil => simp [step1b] at h; obtain ⟨h1, h2⟩ := h; subst h1; subst h2; simpa using hi
  | cons s todo ih =>
    unfold step1b at h
    cases h1 : step1bSpan mc B s with
    | none => rw [h1] at h; cases h
    | some r =>
      rw [h1] at h
      simp only [Option.bind_some] at h
      cases h2 : step1b mc todo r.1 with
      | none => rw [h2] at h; cases h
      | some q =>
        rw [h2] at h
        simp only [Option.map_some, Option.some.injEq, Prod.mk.injEq] at h
        obtain ⟨g1, g2, g3⟩ := h
        obtain ⟨g5, g4⟩ := List.append_eq_nil_iff.mp g3
        obtain ⟨q1, q2, q3⟩ := q
        simp only at g1 g2 g4
        subst g1; subst g4
        have := ih (step1bSpan_ok hok hnd hi h1 g5) h2
        rw [← g2, ← List.append_assoc]; exact this

end Verif.Optimize
