import Verif.Optimize.Steps
/-
From step 1 to the end of the optimizer.
-/
set_option linter.unusedSimpArgs false
set_option linter.unusedVariables false
namespace Verif.Optimize
open Verif.Inttree

variable {M : Type}

/-! ### Step 1d -/

theorem refreshTerms_ok {B : List (Bc M)} {i : Nat} (ts : List Term) {nabs : Nat} {ts' : List Term}
    (h : refreshTerms B i nabs ts = some ts') :
    ts'.map Term.pp = ts.map Term.pp ∧ ∀ (j : Nat) t', ts'[j]? = some t' →
      (j < nabs → dist B t'.pre t'.pre2 = some t'.newVal) ∧ (nabs ≤ j → relDist B i t'.pre2 = some t'.newVal) := by
  induction ts generalizing nabs ts' with
  | nil => simp [refreshTerms] at h; subst h; simp
  | cons t ts ih =>
    have hx : ∃ o, (o.bind fun d => (refreshTerms B i (nabs - 1) ts).map fun r =>
        ({ t with curVal := t.newVal, newVal := d } : Term) :: r) = some ts' ∧
        (nabs = 0 → o = relDist B i t.pre2) ∧ (nabs ≠ 0 → o = dist B t.pre t.pre2) := by
      cases nabs with
      | zero => exact ⟨_, h, fun _ => rfl, fun e => absurd rfl e⟩
      | succ n => exact ⟨_, h, fun e => absurd e (by omega), fun _ => rfl⟩
    obtain ⟨o, h, hz, hs⟩ := hx
    cases o with
    | none => cases h
    | some d =>
      simp only [Option.bind_some] at h
      cases hr : refreshTerms B i (nabs - 1) ts with
      | none => rw [hr] at h; cases h
      | some r =>
        rw [hr] at h; simp at h; subst h
        obtain ⟨h1, h2⟩ := ih hr
        refine ⟨by simp [h1, Term.pp], ?_⟩
        intro j t' ht'
        cases j with
        | zero =>
          simp at ht'; subst ht'
          exact ⟨fun e => (hs (by omega)).symm, fun e => (hz (by omega)).symm⟩
        | succ j =>
          obtain ⟨g1, g2⟩ := h2 j t' (by simpa using ht')
          exact ⟨fun e => g1 (by omega), fun e => g2 (by omega)⟩

theorem step1d_get {B : List (Bc M)} (ss : List Span) {i : Nat} {S : List Span} {q : List Nat}
    (h : step1d B ss i = some (S, q)) :
    S.length = ss.length ∧ ∀ (j : Nat) s', S[j]? = some s' →
      ∃ s r, ss[j]? = some s ∧ step1dSpan B s = some (s', r) ∧ (r = true → i + j ∈ q) := by
  induction ss generalizing i S q with
  | nil => simp [step1d] at h; obtain ⟨h1, h2⟩ := h; subst h1; simp
  | cons s ss ih =>
    unfold step1d at h
    cases h1 : step1dSpan B s with
    | none => rw [h1] at h; cases h
    | some r =>
      rw [h1] at h
      simp only [Option.bind_some] at h
      cases h2 : step1d B ss (i + 1) with
      | none => rw [h2] at h; cases h
      | some p =>
        obtain ⟨S2, q2⟩ := p
        rw [h2] at h; simp at h
        obtain ⟨e1, e2⟩ := h
        obtain ⟨g1, g2⟩ := ih h2
        subst e1
        refine ⟨by simp [g1], ?_⟩
        intro j s' hs'
        cases j with
        | zero =>
          simp at hs'; subst hs'
          obtain ⟨r1, r2⟩ := r
          refine ⟨s, r2, by simp, h1, ?_⟩
          intro e; subst e; simp at e2; subst e2; simp
        | succ j =>
          obtain ⟨s0, r0, k1, k2, k3⟩ := g2 j s' (by simpa using hs')
          refine ⟨s0, r0, by simpa using k1, k2, ?_⟩
          intro e
          have := k3 e
          have e3 : i + (j + 1) = i + 1 + j := by omega
          rw [e3, ← e2]
          split
          · exact List.mem_cons_of_mem _ this
          · exact this

theorem step1dSpan_ok {B : List (Bc M)} {bk : List BSkel} (hb : B.map Bc.skel = bk) (hsh : Shape B) (hco : Contiguous B)
    {s s' : Span} {r : Bool} (hbc : ∃ b, bk[s.bc]? = some b ∧ b.kind = .insn) (ht : Termed bk s.skel)
    (h : step1dSpan B s = some (s', r)) :
    s'.skel = s.skel ∧ s'.neg = s.neg ∧ s'.pos = s.pos ∧ s'.curVal = s.curVal ∧
    (∀ t ∈ s'.terms, t.newVal = D B t.pre t.pre2) ∧ r = s'.exceeds s'.value ∧
    s'.active = (if r then 2 else if s'.value = LMAX then 0 else s.active) := by
  unfold step1dSpan at h
  cases hr : refreshTerms B s.bc s.nabs s.terms with
  | none => rw [hr] at h; cases h
  | some ts =>
    rw [hr] at h
    obtain ⟨h1, h2⟩ := refreshTerms_ok _ hr
    simp only [Option.map_some, Option.some.injEq] at h
    have terms : ∀ t ∈ ts, t.newVal = D B t.pre t.pre2 := by
      intro t htm
      obtain ⟨j, hj⟩ := List.getElem?_of_mem htm
      obtain ⟨g1, g2⟩ := h2 j t hj
      by_cases e : j < s.nabs
      · exact dist_eq hsh hco (g1 e)
      · have g2 := g2 (by omega)
        obtain ⟨t1, t2, t3⟩ := ht
        have hp : (s.skel.pairs)[j]? = some t.pp := by
          show (s.terms.map Term.pp)[j]? = _
          rw [← h1]; simp [hj]
        rw [t1, List.getElem?_append_right (by have : s.skel.nabs = s.nabs := rfl; omega)] at hp
        have hp := List.mem_of_getElem? hp
        unfold relPairs at hp
        cases hrel : s.skel.val.rel with
        | none => rw [hrel] at hp; cases hp
        | complex => rw [hrel] at hp; cases hp
        | label q =>
          rw [hrel] at hp
          simp only at hp
          split at hp
          · rename_i hsec
            simp [Term.pp] at hp
            obtain ⟨hp1, hp2⟩ := hp
            unfold relDist at g2
            split at g2
            · rename_i a b ha hb'
              simp at g2
              obtain ⟨bz, z1, z2⟩ := hbc
              have za := sect_of_skel hb ha
              rw [za] at z1; cases z1
              have hne : a.contents ≠ .empty := by
                intro e; simp only [Bc.skel, e, Contents.kind] at z2; cases z2
              obtain ⟨p, hp3, hp4, hp5⟩ := hsh.pred ha hne
              have hoff : a.offset = p.next := hco.2 (s.bc - 1) p a hp3 (by rw [← hp4]; exact ha) hne
              have hs : p.sect = b.sect := by
                have e1 : (bk[q]?).map (·.sect) = (bk[s.bc]?).map (·.sect) := hsec
                rw [← hp2, sect_of_skel hb hb', za] at e1
                simp at e1
                have : b.sect = a.sect := e1
                rw [this]; exact hp5
              have hd : dist B t.pre t.pre2 = some t.newVal := by
                unfold dist
                have hp1 : t.pre = s.bc - 1 := hp1
                rw [hp1, hp3, hb']
                simp only [hs, if_true]
                rw [← hoff, g2]
              exact dist_eq hsh hco hd
            · cases g2
          · cases hp
    have sk : ({ s with terms := ts } : Span).skel = s.skel := by
      simp only [Span.skel, h1]
    split at h
    · rename_i hx
      simp only [Prod.mk.injEq] at h
      obtain ⟨e1, e2⟩ := h
      subst e1; subst e2
      exact ⟨sk, rfl, rfl, rfl, terms, hx.symm, rfl⟩
    · rename_i hx
      simp only [Prod.mk.injEq] at h
      obtain ⟨e1, e2⟩ := h
      subst e1; subst e2
      refine ⟨sk, rfl, rfl, rfl, terms, ?_, rfl⟩
      have hx : ¬ ({ s with terms := ts } : Span).exceeds ({ s with terms := ts } : Span).value = true := hx
      exact ((Bool.not_eq_true _).mp hx).symm

/-! ### The cycle check changes only backtraces -/

/-- Equal but for the backtraces. -/
def SameBut (A B : List Span) : Prop :=
  A.map (fun s => { s with backtrace := [] }) = B.map fun s => { s with backtrace := [] }

theorem SameBut.get {A B : List Span} (h : SameBut A B) {i : Nat} {s : Span} (hs : A[i]? = some s) :
    ∃ bt, B[i]? = some { s with backtrace := bt } := by
  have := congrArg (fun l => l[i]?) h
  simp only [List.getElem?_map, hs] at this
  cases hb : B[i]? with
  | none => rw [hb] at this; simp at this
  | some u =>
    rw [hb] at this
    simp only [Option.map_some, Option.some.injEq] at this
    refine ⟨u.backtrace, ?_⟩
    congr 1
    cases s; cases u
    simp only [Span.mk.injEq] at this ⊢
    simp_all

theorem checkCycle_same (me : Nat) (st : List Span × Bool) (r : Ref) : SameBut (checkCycle me st r).1 st.1 := by
  unfold checkCycle
  split
  · rename_i s d hs hd
    split
    · rfl
    · exact set_map_same hd rfl
  · rfl

theorem foldl_same (me : Nat) (l : List Ref) (st : List Span × Bool) : SameBut (l.foldl (checkCycle me) st).1 st.1 := by
  induction l generalizing st with
  | nil => rfl
  | cons r l ih => rw [List.foldl_cons]; exact (ih _).trans (checkCycle_same _ _ _)

theorem checkCycles_same (B : List (Bc M)) (x : Index) (is : List Nat) (S : List Span) :
    SameBut (checkCycles B x is S).1 S := by
  induction is generalizing S with
  | nil => rfl
  | cons i is ih =>
    unfold checkCycles
    split
    · exact ih _
    · split
      · exact ih _
      · exact (ih _).trans (foldl_same _ _ _)

theorem SameBut.skel {A B : List Span} (h : SameBut A B) : A.map Span.skel = B.map Span.skel := by
  have : ∀ l : List Span, l.map Span.skel = (l.map fun s => { s with backtrace := [] }).map Span.skel := by
    intro l; rw [List.map_map]; rfl
  rw [this A, this B, h]

theorem Mid.same {pending : M → Nat → Option Promise} {sk : List SSkel} {δ : Int} {rem : List Ref} {ex : List Nat}
    {st : St M} (h : Mid pending sk δ rem ex st) {S : List Span} (hs : SameBut S st.spans) :
    Mid pending sk δ rem ex { st with spans := S } := by
  constructor
  · exact hs.skel.trans h.hs
  · intro i s j t h1 h2 h3
    obtain ⟨bt, hb⟩ := hs.get h1
    exact h.terms i _ j t hb h2 h3
  · intro i s h1 h2
    obtain ⟨bt, hb⟩ := hs.get h1
    have := h.one i _ hb h2
    exact this
  · intro i s h1 h2
    obtain ⟨bt, hb⟩ := hs.get h1
    exact h.two i _ hb h2
  · intro s h1
    obtain ⟨i, hi⟩ := List.getElem?_of_mem h1
    obtain ⟨bt, hb⟩ := hs.get hi
    have := h.le _ (List.mem_of_getElem? hb)
    exact this
  · intro i b m id p h1 h2 h3
    obtain ⟨k, s, g1, g2⟩ := h.pend i b m id p h1 h2 h3
    obtain ⟨bt, hb⟩ := SameBut.get (Eq.symm hs) g1
    exact ⟨k, _, hb, g2⟩
  · intro i b v h1 h2
    obtain ⟨k, s, g1, g2⟩ := h.mult i b v h1 h2
    obtain ⟨bt, hb⟩ := SameBut.get (Eq.symm hs) g1
    exact ⟨k, _, hb, g2⟩

/-! ### What the invariant says when the queues are empty -/

/-- `B` has the bytecodes of `A`, with the same contents and sizes. -/
def SameSize (A B : List (Bc M)) : Prop :=
  A.map Bc.skel = B.map Bc.skel ∧ ∀ (i : Nat) a b, A[i]? = some a → B[i]? = some b →
    a.contents = b.contents ∧ a.len = b.len ∧ a.multInt = b.multInt

theorem D_same {A B : List (Bc M)} (h : SameSize A B) (p q : Nat) : D A p q = D B p q := by
  have hl : A.length = B.length := by have := congrArg List.length h.1; simpa using this
  have : ∀ n, psum A n = psum B n := by
    intro n
    apply psum_congr
    intro j hj
    cases ha : A[j]? with
    | none =>
      have : B[j]? = none := by rw [List.getElem?_eq_none_iff] at ha ⊢; omega
      rw [this]
    | some a =>
      have : j < B.length := by have := (List.getElem?_eq_some_iff.mp ha).1; omega
      have hb := List.getElem?_eq_getElem this
      rw [hb]
      obtain ⟨_, g2, g3⟩ := h.2 j a _ ha hb
      simp only [Option.map_some, Bc.size, g2, g3]
  unfold D; rw [this, this]

theorem D_label {B : List (Bc M)} {bk : List BSkel} (hb : B.map Bc.skel = bk) (hsh : Shape B) (hco : Contiguous B) {p q : Nat}
    {a b : BSkel} (ha : bk[p]? = some a) (hq : bk[q]? = some b) (hs : a.sect = b.sect) :
    D B p q = labelAt B q - labelAt B p := by
  have get : ∀ (i : Nat) z, bk[i]? = some z → ∃ y, B[i]? = some y ∧ y.skel = z := by
    intro i z hz
    rw [← hb] at hz
    simp only [List.getElem?_map] at hz
    cases hy : B[i]? with
    | none => rw [hy] at hz; cases hz
    | some y => rw [hy] at hz; simp at hz; exact ⟨y, rfl, hz⟩
  obtain ⟨x, hx, ex⟩ := get p a ha
  obtain ⟨y, hy, ey⟩ := get q b hq
  have : dist B p q = some (y.next - x.next) := by
    unfold dist; rw [hx, hy]
    have h1 : x.sect = a.sect := by rw [← ex]; rfl
    have h2 : y.sect = b.sect := by rw [← ey]; rfl
    simp only [h1, h2, hs, if_true]
  rw [← dist_eq hsh hco this, labelAt_some hx, labelAt_some hy]

/-- The value of a span whose terms are up to date is that of its expression at the offsets. -/
theorem value_valueAt {B : List (Bc M)} {bk : List BSkel} (hb : B.map Bc.skel = bk) (hsh : Shape B) (hco : Contiguous B)
    {s : Span} (hbc : ∃ b, bk[s.bc]? = some b ∧ b.kind = .insn) (ht : Termed bk s.skel)
    (hd : ∀ t ∈ s.terms, t.newVal = D B t.pre t.pre2) (hv : s.value ≠ LMAX) : valueAt B s.bc s.val = some s.value := by
  obtain ⟨bz, hbz, hbk⟩ := hbc
  have hB : ∃ b, B[s.bc]? = some b ∧ b.skel = bz := by
    rw [← hb] at hbz
    simp only [List.getElem?_map] at hbz
    cases hy : B[s.bc]? with
    | none => rw [hy] at hbz; cases hbz
    | some y => rw [hy] at hbz; simp at hbz; exact ⟨y, rfl, hbz⟩
  obtain ⟨b, hB, hbe⟩ := hB
  have hne : b.contents ≠ .empty := by
    intro e; rw [← hbe] at hbk; simp only [Bc.skel, e, Contents.kind] at hbk; cases hbk
  obtain ⟨t1, t2, t3⟩ := ht
  have t1 : s.terms.map Term.pp = s.val.pairs ++ relPairs bk s.bc s.val := t1
  have t2 : s.nabs = s.val.pairs.length := t2
  have t3 : ∀ p ∈ s.val.pairs, ∃ a b, bk[p.1]? = some a ∧ bk[p.2]? = some b ∧ a.sect = b.sect := t3
  have vals : s.terms.map (·.newVal) = (s.val.pairs ++ relPairs bk s.bc s.val).map fun p => D B p.1 p.2 := by
    rw [← t1, List.map_map]
    apply List.map_congr_left
    intro t htm
    exact hd t htm
  have labs : s.val.pairs.map (fun p => D B p.1 p.2) = s.val.pairs.map fun p => labelAt B p.2 - labelAt B p.1 := by
    apply List.map_congr_left
    intro p hp
    obtain ⟨a, c, h1, h2, h3⟩ := t3 p hp
    exact D_label hb hsh hco h1 h2 h3
  have htake : (s.terms.map (·.newVal)).take s.nabs = s.val.pairs.map fun p => labelAt B p.2 - labelAt B p.1 := by
    rw [vals, List.map_append, t2, List.take_append_of_le_length (by simp), labs, List.take_of_length_le (by simp)]
  have hrel : (s.terms.map (·.newVal))[s.nabs]? = ((relPairs bk s.bc s.val).map fun p => D B p.1 p.2)[0]? := by
    rw [vals, List.map_append, t2, List.getElem?_append_right (by simp)]; simp
  -- the absolute part
  generalize hA : (match s.val.abs with
    | none => (0 : Int)
    | some f => match f ((s.terms.map (fun t : Term => t.newVal)).take s.nabs) with
      | some x => x
      | none => LMAX) = A
  have habs : A ≠ LMAX → (match s.val.abs with
      | none => some 0
      | some f => f (s.val.terms.map fun p => labelAt B p.2 - labelAt B p.1)) = some A := by
    intro hne
    cases ha : s.val.abs with
    | none => rw [ha] at hA; simp only at hA ⊢; rw [hA]
    | some f =>
      rw [ha, htake] at hA
      simp only [SVal.pairs, ha, Option.isSome_some, if_true] at hA
      simp only
      cases hf : f (s.val.terms.map fun p => labelAt B p.2 - labelAt B p.1) with
      | none => rw [hf] at hA; exact absurd hA.symm hne
      | some x => rw [hf] at hA; simp only at hA; rw [hA]
  have hval : s.value = match (s.terms.map (fun t : Term => t.newVal))[s.nabs]? with
      | some r => if A ≠ LMAX ∧ r ≠ LMAX then A + r >>> s.val.rshift else LMAX
      | none => match s.val.rel with
        | .none => A
        | _ => LMAX := by
    rw [← hA]; rfl
  rw [hrel] at hval
  unfold valueAt
  cases hr : s.val.rel with
  | none =>
    have : relPairs bk s.bc s.val = [] := by unfold relPairs; rw [hr]
    rw [this, hr] at hval
    simp only [List.map_nil, List.getElem?_nil] at hval
    rw [hval] at hv ⊢
    exact habs hv
  | complex =>
    have : relPairs bk s.bc s.val = [] := by unfold relPairs; rw [hr]
    rw [this, hr] at hval
    simp only [List.map_nil, List.getElem?_nil] at hval
    exact absurd hval hv
  | label q =>
    by_cases hq : (bk[q]?).map (·.sect) = (bk[s.bc]?).map (·.sect)
    · have : relPairs bk s.bc s.val = [(s.bc - 1, q)] := by unfold relPairs; rw [hr]; simp only; rw [if_pos hq]
      rw [this] at hval
      simp only [List.map_cons, List.map_nil, List.getElem?_cons_zero] at hval
      split at hval
      · rename_i hc
        rw [hbz] at hq
        cases hqz : bk[q]? with
        | none => rw [hqz] at hq; cases hq
        | some zq =>
          rw [hqz] at hq
          simp at hq
          obtain ⟨p, hp3, hp4, hp5⟩ := hsh.pred hB hne
          have hoff : b.offset = p.next := hco.2 (s.bc - 1) p b hp3 (by rw [← hp4]; exact hB) hne
          have hD : D B (s.bc - 1) q = labelAt B q - b.offset := by
            rw [D_label hb hsh hco (sect_of_skel hb hp3) hqz, labelAt_some hp3, hoff]
            show p.sect = zq.sect
            rw [hp5, hq, ← hbe]; rfl
          rw [hB]
          simp only
          have hsq : (B[q]?).map (·.sect) = some b.sect := by
            rw [← hb] at hqz
            simp only [List.getElem?_map] at hqz
            cases hy : B[q]? with
            | none => rw [hy] at hqz; cases hqz
            | some y =>
              rw [hy] at hqz; simp at hqz
              simp only [Option.map_some]
              have : y.sect = zq.sect := by rw [← hqz]; rfl
              rw [this, hq, ← hbe]; rfl
          rw [if_pos hsq, hval, hD]
          exact congrArg (Option.map fun x => x + (labelAt B q - b.offset) >>> s.val.rshift) (habs hc.1)
      · exact absurd hval hv
    · have : relPairs bk s.bc s.val = [] := by unfold relPairs; rw [hr]; simp only; rw [if_neg hq]
      rw [this, hr] at hval
      simp only [List.map_nil, List.getElem?_nil] at hval
      exact absurd hval hv

/-- What the optimizer guarantees about the bytecodes it returns. -/
structure Good (pending : M → Nat → Option Promise) (B : List (Bc M)) : Prop where
  contiguous : Contiguous B
  setters : ∀ b ∈ B, ∀ s, b.contents = .setter s → s.expand b.offset = .ok b.len
  pend : ∀ (i : Nat) b m id p, B[i]? = some b → b.contents = .insn m → pending m id = some p →
    ∃ x, valueAt B i p.val = some x ∧ p.neg ≤ x ∧ x ≤ p.pos
  mult : ∀ (i : Nat) b v, B[i]? = some b → b.mult = .dep v → b.multInt = LMAX ∨ valueAt B i v = some b.multInt

theorem good_of_inv {pending : M → Nat → Option Promise} (hbound : ∀ m id p, pending m id = some p → p.pos < LMAX)
    {bk : List BSkel} {sk : List SSkel}
    (hsbc : ∀ s ∈ sk, ∃ b, bk[s.bc]? = some b ∧ b.kind = .insn) (hterm : ∀ s ∈ sk, Termed bk s)
    {st : St M} (hm : Mid pending sk 0 [] [] st) (hqa : st.qa = []) (hqb : st.qb = [])
    {B : List (Bc M)} (hb : B.map Bc.skel = bk) (hsh : Shape B) (hss : SameSize st.bcs B)
    (hco : Contiguous B) (hse : ∀ b ∈ B, ∀ s, b.contents = .setter s → s.expand b.offset = .ok b.len) : Good pending B := by
  have back : ∀ (i : Nat) b, B[i]? = some b → ∃ a, st.bcs[i]? = some a ∧ a.contents = b.contents ∧ a.multInt = b.multInt ∧
      a.mult = b.mult := by
    intro i b hi
    have := congrArg (fun l => l[i]?) hss.1
    simp only [List.getElem?_map, hi] at this
    cases ha : st.bcs[i]? with
    | none => rw [ha] at this; cases this
    | some a =>
      rw [ha] at this; simp at this
      obtain ⟨h1, h2, h3⟩ := hss.2 i a b ha hi
      exact ⟨a, rfl, h1, h3, congrArg BSkel.mult this⟩
  have act : ∀ (k : Nat) s, st.spans[k]? = some s → s.active ≠ 0 → s.active = 1 := by
    intro k s hk ha
    have h1 := hm.le s (List.mem_of_getElem? hk)
    have h2 : s.active ≠ 2 := by
      intro e
      have := hm.two k s hk e
      rw [hqa, hqb] at this; simp at this
    omega
  have memsk : ∀ (k : Nat) s, st.spans[k]? = some s → s.skel ∈ sk := by
    intro k s hk
    rw [← hm.hs]; exact List.mem_map_of_mem (List.mem_of_getElem? hk)
  have terms : ∀ (k : Nat) s, st.spans[k]? = some s → s.active ≠ 0 → ∀ t ∈ s.terms, t.newVal = D B t.pre t.pre2 := by
    intro k s hk ha t ht
    obtain ⟨j, hj⟩ := List.getElem?_of_mem ht
    have := hm.terms k s j t hk ha hj
    rw [D_same hss] at this
    simpa using this
  refine ⟨hco, hse, ?_, ?_⟩
  · intro i b m id p h1 h2 h3
    obtain ⟨a, ha, hac, _⟩ := back i b h1
    obtain ⟨k, s, g1, g2, g3, g4, g5, g6, g7, g8⟩ := hm.pend i a m id p ha (hac.trans h2) h3
    have ho := hm.one k s g1 (act k s g1 g8)
    unfold Span.exceeds at ho
    rw [if_neg g4] at ho
    simp at ho
    have hv : s.value ≠ LMAX := by
      have := hbound m id p h3
      omega
    have := value_valueAt hb hsh hco (hsbc _ (memsk k s g1)) (hterm _ (memsk k s g1)) (terms k s g1 g8) hv
    rw [g2, g5] at this
    exact ⟨s.value, this, by omega, by omega⟩
  · intro i b v h1 h2
    obtain ⟨a, ha, _, ham, hamu⟩ := back i b h1
    obtain ⟨k, s, g1, g2, g3, g4, g5, g6⟩ := hm.mult i a v ha (hamu.trans h2)
    rw [← ham, ← g5]
    rcases g6 with g6 | g6
    · by_cases hv : s.value = LMAX
      · have ho := hm.one k s g1 (act k s g1 g6)
        unfold Span.exceeds at ho
        rw [if_pos g3] at ho
        simp at ho
        left; rw [← ho, hv]
      · have ho := hm.one k s g1 (act k s g1 g6)
        unfold Span.exceeds at ho
        rw [if_pos g3] at ho
        simp at ho
        right
        have := value_valueAt hb hsh hco (hsbc _ (memsk k s g1)) (hterm _ (memsk k s g1)) (terms k s g1 g6) hv
        rw [g2, g4] at this
        rw [this, ho]
    · exact Or.inl g6

theorem updateAll_sameSize {B : List (Bc M)} (h : Shape B) (he : ∀ b ∈ B, b.contents = .empty → b.len = 0 ∧ b.offset = 0)
    (hs : ∀ (i : Nat) b s, B[i]? = some b → b.contents = .setter s → s.expand (ssum b.sect B i) = .ok b.len)
    (hn : (updateAll B 0).2 = []) : SameSize B (updateAll B 0).1 := by
  refine ⟨(updateAll_skel B 0).symm, ?_⟩
  intro i a b ha hb
  have u := (updateAll_get B 0).2 i a b ha hb
  exact ⟨u.contents.symm, (updateAll_stable h he hs hn i ha hb).symm, u.multInt.symm⟩

theorem contiguous_updateAll {B : List (Bc M)} (he : ∀ b ∈ B, b.contents = .empty → b.len = 0 ∧ b.offset = 0) :
    Contiguous (updateAll B 0).1 := by
  obtain ⟨h1, _, h3⟩ := updateAll_contiguous B 0 he
  exact ⟨h1, h3⟩

/-- Everything step 1 establishes. -/
structure Ready (pending : M → Nat → Option Promise) (B : List (Bc M)) (S : List Span) (oss : List OS) (qb : List Nat)
    (bk : List BSkel) : Prop where
  skel : B.map Bc.skel = bk
  shape : Shape B
  contiguous : Contiguous B
  setters : ∀ b ∈ B, ∀ s, b.contents = .setter s → s.expand b.offset = .ok b.len
  mone : ∀ b ∈ B, ∀ s, b.contents = .setter s → b.multInt = 1
  uniq : (S.map fun s => (s.bc, s.id)).Nodup
  spanBc : ∀ s ∈ S, ∃ b, bk[s.bc]? = some b ∧ b.kind = .insn
  termed : ∀ s ∈ S, Termed bk s.skel
  osBc : ∀ o ∈ oss, ∃ b s, bk[o.bc]? = some b ∧ b.kind = .setter s
  osAll : ∀ (k : Nat) b s, bk[k]? = some b → b.kind = .setter s → ∃ o ∈ oss, o.bc = k
  sorted : (oss.map OS.bc).Pairwise (· < ·)
  spanOs : ∀ s ∈ S, ∀ (j : Nat) o, oss[j]? = some o → (s.os ≤ j ↔ s.bc < o.bc)
  mid : Mid pending (S.map Span.skel) 0 [] [] ⟨B, S, [], [], qb, [], false⟩

theorem get_of_map {α β} {f : α → β} {l : List α} {m : List β} (h : l.map f = m) {i : Nat} {z : β} (hz : m[i]? = some z) :
    ∃ a, l[i]? = some a ∧ f a = z := by
  rw [← h] at hz
  simp only [List.getElem?_map] at hz
  cases ha : l[i]? with
  | none => rw [ha] at hz; cases hz
  | some a => rw [ha] at hz; simp at hz; exact ⟨a, rfl, hz⟩

theorem ready {mc : Machine M} {pending : M → Nat → Option Promise} {rank : M → Nat} (hok : mc.Ok pending rank)
    {bcs : List (Bc M)} (hwf : WF bcs) {B1 : List (Bc M)} {S1 S2 : List Span} {qb : List Nat}
    (ha : (step1a mc bcs 0 0 0).errs = [])
    (hb : step1b mc (step1a mc bcs 0 0 0).spans (step1a mc bcs 0 0 0).bcs = some (B1, S1, []))
    (hc : (updateAll B1 0).2 = []) (hd : step1d (updateAll B1 0).1 S1 0 = some (S2, qb)) :
    Ready pending (updateAll B1 0).1 S2 (step1a mc bcs 0 0 0).oss qb (bcs.map Bc.skel) := by
  have hA := step1a_ok hok bcs 0 0 0 (by
    intro b hb he; rw [(hwf.empty b hb he).2.2]; rfl) ha
  revert hA hb
  generalize (step1a mc bcs 0 0 0) = A at *
  intro hb hA
  have askel : A.bcs.map Bc.skel = bcs.map Bc.skel :=
    map_eq_of_get hA.len fun i a b h1 h2 => (hA.bcs i a b h1 h2).skel
  have knd : ((A.spans.map Span.key).map fun k => (k.1, k.2.1)).Nodup := by
    rw [List.map_map]; exact hA.uniq
  have hB0 : B1ok pending (bcs.map Bc.skel) (A.spans.map Span.key) A.bcs [] A.spans A.bcs := by
    refine ⟨askel, fun i b h _ => h, by simp, ?_, by simp, ?_, ?_⟩
    · intro s hs
      obtain ⟨f1, f2, f3, f4, f5, f6⟩ := hA.fresh s hs
      obtain ⟨_, _, b, h3, h4, _⟩ := hA.spanBc s hs
      exact ⟨f1, f2, f3, f5, b.skel, sect_of_skel askel (by simpa using h3), h4⟩
    · intro i b m id p h1 h2 h3
      obtain ⟨s, hs, e1, e2, e3, e4, e5, e6⟩ := hA.pend i b m id p h1 h2 h3
      exact ⟨s, by simpa using hs, by omega, e2, e3, e4, e5, e6, (hA.fresh s hs).1⟩
    · intro i b v h1 h2
      obtain ⟨s, hs, e1, e2, e3, e4⟩ := hA.mult i b v h1 h2
      exact ⟨s, by simpa using hs, by omega, e2, e3, by rw [(hA.fresh s hs).2.1, e4], (hA.fresh s hs).1⟩
  have hB := step1b_ok hok knd _ hB0 hb
  rw [List.nil_append] at hB
  have back : ∀ s ∈ S1, ∃ s0 ∈ A.spans, s0.key = s.key := by
    intro s hs
    have := hB.keys.subset (List.mem_map_of_mem (f := Span.key) (by simpa using hs))
    obtain ⟨s0, h1, h2⟩ := List.mem_map.mp this
    exact ⟨s0, h1, h2⟩
  have hskel : (updateAll B1 0).1.map Bc.skel = bcs.map Bc.skel := (updateAll_skel B1 0).trans hB.skel
  have hshape : ∀ X : List (Bc M), X.map Bc.skel = bcs.map Bc.skel → Shape X := by
    intro X hX; exact Shape.of_skel hX.symm ⟨hwf.first, hwf.next⟩
  have hemp : ∀ b ∈ B1, b.contents = .empty → b.len = 0 ∧ b.offset = 0 := by
    intro b hbm he
    obtain ⟨i, hi⟩ := List.getElem?_of_mem hbm
    have h0 := hB.same i b hi (by rw [he]; simp [Contents.kind])
    obtain ⟨b0, h1, h2⟩ := get_of_map askel.symm (sect_of_skel rfl h0)
    have hc0 := hA.bcs i b0 b h1 h0
    have hk : b0.contents = .empty := by
      have : b0.contents.kind = b.contents.kind := congrArg BSkel.kind h2
      rw [he] at this; exact kind_empty.mp this
    rw [hc0.empty hk]
    have := hwf.empty b0 (List.mem_of_getElem? h1) hk
    exact ⟨this.1, this.2.1⟩
  have hco := contiguous_updateAll hemp
  have hsh := hshape _ hskel
  have hmone : ∀ b ∈ (updateAll B1 0).1, ∀ s, b.contents = .setter s → b.multInt = 1 := by
    intro b hbm s hs
    obtain ⟨i, hi⟩ := List.getElem?_of_mem hbm
    obtain ⟨b1, h1, h2⟩ := get_of_map (updateAll_skel B1 0).symm (sect_of_skel rfl hi)
    have u := (updateAll_get B1 0).2 i b1 b h1 hi
    have hs1 : b1.contents = .setter s := by rw [← u.contents]; exact hs
    have h0 := hB.same i b1 h1 (by rw [hs1]; simp [Contents.kind])
    obtain ⟨b0, g1, g2⟩ := get_of_map askel.symm (sect_of_skel rfl h0)
    have hk : b0.contents = .setter s := by
      have : b0.contents.kind = b1.contents.kind := congrArg BSkel.kind g2
      rw [hs1] at this; exact kind_setter.mp this
    rw [u.multInt]
    exact ((hA.bcs i b0 b1 g1 h0).setter s hk).2
  obtain ⟨dl, dg⟩ := step1d_get _ hd
  have insn1 : ∀ s ∈ S1, ∃ b, (bcs.map Bc.skel)[s.bc]? = some b ∧ b.kind = .insn := by
    intro s hs
    obtain ⟨s0, h1, h2⟩ := back s hs
    obtain ⟨_, _, b, h3, h4, _⟩ := hA.spanBc s0 h1
    have : s0.bc = s.bc := congrArg Prod.fst h2
    rw [this] at h3
    exact ⟨b.skel, sect_of_skel askel (by simpa using h3), h4⟩
  have keep1 : ∀ s ∈ S1, s.active ≤ 1 ∧ Termed (bcs.map Bc.skel) s.skel := by
    intro s hs; exact hB.keep s (by simpa using hs)
  have D2 : ∀ (j : Nat) s', S2[j]? = some s' → ∃ s r, S1[j]? = some s ∧ (r = true → j ∈ qb) ∧
      s'.skel = s.skel ∧ s'.neg = s.neg ∧ s'.pos = s.pos ∧ s'.curVal = s.curVal ∧
      (∀ t ∈ s'.terms, t.newVal = D (updateAll B1 0).1 t.pre t.pre2) ∧ r = s'.exceeds s'.value ∧
      s'.active = (if r then 2 else if s'.value = LMAX then 0 else s.active) := by
    intro j s' hj
    obtain ⟨s, r, h1, h2, h3⟩ := dg j s' hj
    have hm := List.mem_of_getElem? h1
    exact ⟨s, r, h1, by simpa using h3, step1dSpan_ok hskel hsh hco (insn1 s hm) (keep1 s hm).2 h2⟩
  have fwd : ∀ s ∈ S1, ∃ (j : Nat) (s' : Span), S2[j]? = some s' ∧ s'.skel = s.skel ∧ s'.neg = s.neg ∧ s'.pos = s.pos ∧
      s'.curVal = s.curVal ∧ s'.active = (if s'.exceeds s'.value then 2 else if s'.value = LMAX then 0 else s.active) := by
    intro s hs
    obtain ⟨j, hj⟩ := List.getElem?_of_mem hs
    have hl : j < S2.length := by rw [dl]; exact (List.getElem?_eq_some_iff.mp hj).1
    have hj2 := List.getElem?_eq_getElem hl
    obtain ⟨s0, r, h1, _, h2, h3, h4, h5, _, h6, h7⟩ := D2 j _ hj2
    rw [hj] at h1; cases h1
    exact ⟨j, _, hj2, h2, h3, h4, h5, by rw [h7, h6]⟩
  have skel12 : S2.map Span.skel = S1.map Span.skel := by
    apply map_eq_of_get dl
    intro i a b h1 h2
    obtain ⟨s, r, g1, _, g2, _⟩ := D2 i b h2
    rw [h1] at g1; cases g1; exact g2
  have mem2 : ∀ s ∈ S2, ∃ s1 ∈ S1, s.skel = s1.skel := by
    intro s hs
    obtain ⟨j, hj⟩ := List.getElem?_of_mem hs
    obtain ⟨s1, r, g1, _, g2, _⟩ := D2 j s hj
    exact ⟨s1, List.mem_of_getElem? g1, g2⟩
  refine ⟨hskel, hsh, hco, updateAll_setters B1 0 hc, hmone, ?_, ?_, ?_, ?_, ?_, hA.sorted, ?_, ?_⟩
  · have e1 : (S2.map fun s => (s.bc, s.id)) = (S2.map Span.skel).map fun s => (s.bc, s.id) := by rw [List.map_map]; rfl
    have e2 : ((S1.map Span.skel).map fun s => (s.bc, s.id)) = (S1.map Span.key).map fun k => (k.1, k.2.1) := by
      rw [List.map_map, List.map_map]; rfl
    rw [e1, skel12, e2]
    have hk := hB.keys
    rw [List.append_nil] at hk
    exact knd.sublist (hk.map _)
  · intro s hs
    obtain ⟨s1, h1, h2⟩ := mem2 s hs
    have : s.bc = s1.bc := congrArg SSkel.bc h2
    rw [this]; exact insn1 s1 h1
  · intro s hs
    obtain ⟨s1, h1, h2⟩ := mem2 s hs
    rw [h2]; exact (keep1 s1 h1).2
  · intro o ho
    obtain ⟨_, b, s, h1, h2⟩ := hA.osBc o ho
    exact ⟨b.skel, s, sect_of_skel askel (by simpa using h1), kind_setter.mpr h2⟩
  · intro k z s hz hs
    obtain ⟨b, h1, h2⟩ := get_of_map askel hz
    obtain ⟨o, ho, he⟩ := hA.osAll k b s h1 (kind_setter.mp (by rw [← hs, ← h2]; rfl))
    exact ⟨o, ho, by omega⟩
  · intro s hs j o ho
    obtain ⟨s1, h1, h2⟩ := mem2 s hs
    obtain ⟨s0, g1, g2⟩ := back s1 h1
    have e1 : s0.bc = s.bc := (congrArg Prod.fst g2).trans (congrArg SSkel.bc h2).symm
    have e2 : s0.os = s.os := (congrArg (fun k => k.2.2) g2).trans (congrArg SSkel.os h2).symm
    have := hA.spanOs s0 g1 j o ho
    rw [e1, e2] at this
    simpa using this
  · constructor
    · rfl
    · intro i s j t h1 h2 h3
      obtain ⟨s1, r, g1, _, _, _, _, _, g2, _⟩ := D2 i s h1
      rw [g2 t (List.mem_of_getElem? h3)]; simp
    · intro i s h1 h2
      obtain ⟨s1, r, g1, _, _, _, _, _, _, g3, g4⟩ := D2 i s h1
      rw [← g3]
      cases r with
      | false => rfl
      | true => rw [g4] at h2; simp at h2
    · intro i s h1 h2
      obtain ⟨s1, r, g1, gq, _, _, _, _, _, g3, g4⟩ := D2 i s h1
      cases r with
      | true => exact Or.inr (Or.inl (gq rfl))
      | false =>
        have := (keep1 s1 (List.mem_of_getElem? g1)).1
        rw [h2] at g4
        simp at g4
        split at g4 <;> omega
    · intro s hs
      obtain ⟨i, hi⟩ := List.getElem?_of_mem hs
      obtain ⟨s1, r, g1, gq, _, _, _, _, _, g3, g4⟩ := D2 i s hi
      have := (keep1 s1 (List.mem_of_getElem? g1)).1
      rw [g4]
      split
      · omega
      · split <;> omega
    · intro i b m id p h1 h2 h3
      obtain ⟨b1, e1, e2⟩ := get_of_map (updateAll_skel B1 0).symm (sect_of_skel rfl h1)
      have u := (updateAll_get B1 0).2 i b1 b e1 h1
      obtain ⟨s, hs, f1, f2, f3, f4, f5, f6, f7⟩ := hB.pend i b1 m id p e1 (u.contents.symm.trans h2) h3
      obtain ⟨j, s', k1, k2, k3, k4, k5, k6⟩ := fwd s (by simpa using hs)
      have q1 : s'.bc = s.bc := congrArg SSkel.bc k2
      have q2 : s'.id = s.id := congrArg SSkel.id k2
      have q3 : s'.val = s.val := congrArg SSkel.val k2
      refine ⟨j, s', k1, q1.trans f1, q2.trans f2, by rw [q2]; exact f3, q3.trans f4, k3.trans f5, k4.trans f6, ?_⟩
      rw [k6]
      split
      · decide
      · rename_i hx
        split
        · rename_i hv
          exact absurd (LMAX_exceeds (s := s') (by rw [q2]; exact f3) (by rw [k4, f6]; exact hok.bound _ _ _ h3)) (by rw [← hv]; exact hx)
        · omega
    · intro i b v h1 h2
      obtain ⟨b1, e1, e2⟩ := get_of_map (updateAll_skel B1 0).symm (sect_of_skel rfl h1)
      have u := (updateAll_get B1 0).2 i b1 b e1 h1
      obtain ⟨s, hs, f1, f2, f3, f4, f5⟩ := hB.mult i b1 v e1 (u.mult.symm.trans h2)
      obtain ⟨j, s', k1, k2, k3, k4, k5, k6⟩ := fwd s (by simpa using hs)
      have q1 : s'.bc = s.bc := congrArg SSkel.bc k2
      have q2 : s'.id = s.id := congrArg SSkel.id k2
      have q3 : s'.val = s.val := congrArg SSkel.val k2
      refine ⟨j, s', k1, q1.trans f1, q2.trans f2, q3.trans f3, by rw [k5, f4, u.multInt], ?_⟩
      rw [k6]
      by_cases hx : s'.exceeds s'.value = true
      · left; rw [if_pos hx]; decide
      · rw [if_neg hx]
        by_cases hv : s'.value = LMAX
        · right
          unfold Span.exceeds at hx
          rw [if_pos (q2.trans f2)] at hx
          simp at hx
          rw [← hx, hv]
        · left; rw [if_neg hv]; omega

/-! ### `saw_error` is set only with a diagnostic -/

theorem ite_saw (p : Prop) [Decidable p] (x : Index) (k : Nat) (d : Int) (st : St M) :
    (if p then st else growAcross x k d st).saw = st.saw := by
  split
  · rfl
  · exact (growAcross_fields x k d st).2.2.2

theorem osLoop_saw (x : Index) (c : Nat) (n j : Nat) (diff : Int) (st st' : St M) (h : osLoop x c n j diff st = some st') :
    st'.saw = st.saw := by
  induction n generalizing j diff st with
  | zero => simp [osLoop] at h; rw [h]
  | succ n ih =>
    unfold osLoop at h
    split at h
    · cases h; rfl
    · split at h
      · cases h
      · split at h
        · cases h; rfl
        · split at h
          · cases h
          · dsimp only at h
            split at h
            · have := ih _ _ _ h
              dsimp only at this
              rw [ite_saw] at this
              exact this
            · cases h

theorem finishExpand_saw (x : Index) (st st' : St M) (i : Nat) (s : Span) (b b' : Bc M)
    (h : processSpan.finishExpand x st i s b b' = some st') : st'.saw = st.saw := by
  unfold processSpan.finishExpand at h
  dsimp only at h
  split at h
  · cases h; rfl
  · have := osLoop_saw _ _ _ _ _ _ _ h
    rw [(growAcross_fields _ _ _ _).2.2.2] at this
    exact this

theorem processSpan_saw (mc : Machine M) (x : Index) (st st' : St M) (i : Nat) (h : processSpan mc x st i = some st')
    (hs : st.saw = true → st.errs ≠ []) : st'.saw = true → st'.errs ≠ [] := by
  have keep : st'.saw = st.saw → st'.saw = true → st'.errs ≠ [] := by
    intro e1 e2
    obtain ⟨l, hl⟩ := processSpan_errs mc x st st' i h
    rw [hl]
    intro e3
    exact hs (by rw [← e1]; exact e2) (List.append_eq_nil_iff.mp e3).1
  have h0 := h
  unfold processSpan at h
  split at h
  · cases h
  · split at h
    · cases h; exact hs
    · dsimp only at h
      split at h
      · split at h
        · cases h
        · rename_i b hb
          cases he : expandBc mc b (recalc { ‹Span› with active := 1 }).1 with
          | none => rw [he] at h; cases h
          | some r =>
            rw [he] at h
            cases r with
            | error m => simp at h; rw [← h]; simp
            | done b' =>
              simp only [Option.bind_some] at h
              have := finishExpand_saw _ _ _ _ _ _ _ h
              exact keep this
            | more b' n p =>
              simp only [Option.bind_some] at h
              have := finishExpand_saw _ _ _ _ _ _ _ h
              exact keep this
      · cases h; exact hs

theorem loop_saw (mc : Machine M) (x : Index) (n : Nat) (st st' : St M) (h : loop mc x n st = .done st')
    (hs : st.saw = true → st.errs ≠ []) : st'.saw = true → st'.errs ≠ [] := by
  induction n generalizing st with
  | zero =>
    unfold loop at h
    split at h
    · cases h; exact hs
    · cases h
  | succ n ih =>
    unfold loop at h
    split at h
    · cases h; exact hs
    · split at h
      · rename_i st2 h2
        exact ih _ h (processSpan_saw _ _ _ _ _ h2 hs)
      · cases h
    · split at h
      · rename_i st2 h2
        exact ih _ h (processSpan_saw _ _ _ _ _ h2 hs)
      · cases h

/-- What the whole optimizer guarantees when it returns without a diagnostic. -/
theorem optimize_good {mc : Machine M} {pending : M → Nat → Option Promise} {rank : M → Nat} (hok : mc.Ok pending rank)
    {bcs : List (Bc M)} (hwf : WF bcs) {fuel : Nat} {B : List (Bc M)} (h : optimize mc fuel bcs = .ret B []) :
    Good pending B ∧ B.map Bc.skel = bcs.map Bc.skel := by
  unfold optimize at h
  dsimp only at h
  split at h
  · rename_i he; simp only [Result.ret.injEq] at h; exact absurd h.2 he
  · rename_i he
    have he : (step1a mc bcs 0 0 0).errs = [] := by simpa using he
    split at h
    · cases h
    · rename_i B1 S1 errs1 hb
      split at h
      · rename_i hx; simp only [Result.ret.injEq] at h; exact absurd h.2 hx
      · rename_i hx
        have hx : errs1 = [] := by simpa using hx
        subst hx
        split at h
        · rename_i hx; simp only [Result.ret.injEq] at h; exact absurd h.2 hx
        · rename_i hc
          have hc : (updateAll B1 0).2 = [] := by simpa using hc
          split at h
          · cases h
          · rename_i S2 qb hd
            have R := ready hok hwf he hb hc hd
            revert R h
            generalize hBB : (updateAll B1 0).1 = BB
            intro h R
            have sbc : ∀ s ∈ S2.map Span.skel, ∃ b, (bcs.map Bc.skel)[s.bc]? = some b ∧ b.kind = .insn := by
              intro s hs; obtain ⟨z, h1, h2⟩ := List.mem_map.mp hs; subst h2; exact R.spanBc z h1
            have ster : ∀ s ∈ S2.map Span.skel, Termed (bcs.map Bc.skel) s := by
              intro s hs; obtain ⟨z, h1, h2⟩ := List.mem_map.mp hs; subst h2; exact R.termed z h1
            split at h
            · rename_i hq
              simp only [Result.ret.injEq] at h
              have h := h.1
              subst h
              refine ⟨?_, R.skel⟩
              exact good_of_inv hok.bound sbc ster R.mid rfl hq R.skel R.shape
                ⟨rfl, fun i a b h1 h2 => by rw [h1] at h2; cases h2; exact ⟨rfl, rfl, rfl⟩⟩ R.contiguous R.setters
            · unfold step2 at h
              dsimp only at h
              split at h
              · cases h
              · rename_i t ht
                have hbd : ∀ s ∈ S2, ∀ t ∈ s.terms, t.pre < 2 ^ 31 ∧ t.pre2 < 2 ^ 31 := by
                  intro s hs t htm
                  have hsm := hwf.small
                  have inb : ∀ (i : Nat) z, (bcs.map Bc.skel)[i]? = some z → i < 2 ^ 31 := by
                    intro i z hz
                    have := (List.getElem?_eq_some_iff.mp hz).1
                    rw [List.length_map] at this; omega
                  obtain ⟨t1, t2, t3⟩ := R.termed s hs
                  have hm : t.pp ∈ s.skel.pairs := List.mem_map_of_mem htm
                  rw [t1] at hm
                  rcases List.mem_append.mp hm with e | e
                  · obtain ⟨a, b, h1, h2, _⟩ := t3 _ e
                    exact ⟨inb _ _ h1, inb _ _ h2⟩
                  · unfold relPairs at e
                    split at e
                    · split at e
                      · rename_i q _ hsec
                        simp [Term.pp] at e
                        obtain ⟨bz, hz, _⟩ := R.spanBc s hs
                        have h1 := inb _ _ hz
                        have hsec : ((bcs.map Bc.skel)[q]?).map (·.sect) = ((bcs.map Bc.skel)[s.bc]?).map (·.sect) := hsec
                        rw [hz] at hsec
                        cases hq : (bcs.map Bc.skel)[q]? with
                        | none => rw [hq] at hsec; cases hsec
                        | some zq =>
                          have h2 := inb _ _ hq
                          have e1 : t.pre = s.bc - 1 := e.1
                          omega
                      · cases e
                    · cases e
                have hidx := index_ok ht hbd
                have hos : (refreshOS BB (step1a mc bcs 0 0 0).oss).map OS.bc = (step1a mc bcs 0 0 0).oss.map OS.bc := by
                  unfold refreshOS
                  rw [List.map_map]
                  apply List.map_congr_left
                  intro o _
                  simp only [Function.comp]
                  split <;> rfl
                have hstat : Static M ⟨t, (allRefs S2 0).map (·.1)⟩ (bcs.map Bc.skel) (S2.map Span.skel)
                    ((step1a mc bcs 0 0 0).oss.map OS.bc) := by
                  refine ⟨fun X hX => Shape.of_skel hX.symm ⟨hwf.first, hwf.next⟩, by rw [List.length_map]; exact hwf.small,
                    ?_, sbc, ?_, ?_, ?_, ?_, fun S hS => Index.Ok.congr hS.symm hidx, ster⟩
                  · intro i j a b h1 h2 h3 h4
                    have hn : ((S2.map Span.skel).map fun s => (s.bc, s.id)).Nodup := by
                      rw [List.map_map]; exact R.uniq
                    have e1 : ((S2.map Span.skel).map fun s => (s.bc, s.id))[i]? = some (a.bc, a.id) := by
                      rw [List.getElem?_map, h1]; rfl
                    have e2 : ((S2.map Span.skel).map fun s => (s.bc, s.id))[j]? = some (a.bc, a.id) := by
                      rw [List.getElem?_map, h2, h3, h4]; rfl
                    obtain ⟨l1, e1⟩ := List.getElem?_eq_some_iff.mp e1
                    obtain ⟨l2, e2⟩ := List.getElem?_eq_some_iff.mp e2
                    exact (List.Nodup.getElem_inj_iff hn).mp (e1.trans e2.symm)
                  · intro k hk
                    obtain ⟨o, h1, h2⟩ := List.mem_map.mp hk
                    subst h2; exact R.osBc o h1
                  · intro k b s h1 h2
                    obtain ⟨o, h3, h4⟩ := R.osAll k b s h1 h2
                    exact List.mem_map.mpr ⟨o, h3, h4⟩
                  · intro i j a b hij h1 h2
                    obtain ⟨l1, e1⟩ := List.getElem?_eq_some_iff.mp h1
                    obtain ⟨l2, e2⟩ := List.getElem?_eq_some_iff.mp h2
                    have := List.pairwise_iff_getElem.mp R.sorted i j l1 l2 hij
                    rw [e1, e2] at this; exact this
                  · intro s hs j k hk
                    obtain ⟨z, h1, h2⟩ := List.mem_map.mp hs
                    obtain ⟨o, h3, h4⟩ := get_of_map rfl hk
                    subst h2; subst h4
                    exact R.spanOs z h1 j o h3
                split at h
                · rename_i hcc; simp only [Result.ret.injEq] at h; exact absurd h.2 hcc
                · have hsame := checkCycles_same BB ⟨t, (allRefs S2 0).map (·.1)⟩ (List.range S2.length) S2
                  revert h
                  generalize hS3 : (checkCycles BB ⟨t, (allRefs S2 0).map (·.1)⟩ (List.range S2.length) S2).1 = S3 at hsame
                  intro h
                  have hinv : Inv pending (bcs.map Bc.skel) (S2.map Span.skel) ((step1a mc bcs 0 0 0).oss.map OS.bc) []
                      ⟨BB, S3, refreshOS BB (step1a mc bcs 0 0 0).oss, [], qb, [], false⟩ := by
                    constructor
                    · have := R.mid.same hsame
                      exact ⟨this.hs, this.terms, this.one, this.two, this.le, this.pend, this.mult⟩
                    · refine ⟨R.skel, hos, fun b hb he => ⟨(R.contiguous.1 b hb he).2, (R.contiguous.1 b hb he).1⟩, R.mone, ?_⟩
                      intro i o b s h1 h2 h3
                      have h1 : (refreshOS BB (step1a mc bcs 0 0 0).oss)[i]? = some o := h1
                      have h2 : BB[o.bc]? = some b := h2
                      unfold refreshOS at h1
                      obtain ⟨o0, g1, g2⟩ := get_of_map rfl h1
                      have : o.cur = b.offset ∧ o.new = b.offset := by
                        split at g2
                        · rename_i b0 hb0
                          subst g2
                          rw [hb0] at h2; cases h2
                          exact ⟨rfl, rfl⟩
                        · rename_i hb0
                          subst g2
                          rw [hb0] at h2; cases h2
                      obtain ⟨c1, c2⟩ := this
                      refine ⟨c1.trans c2.symm, ?_, ?_⟩
                      · rw [c1]; exact R.setters b (List.mem_of_getElem? h2) s h3
                      · rw [c1]; simp; exact offset_ssum R.shape R.contiguous h2
                  split at h
                  · cases h
                  · cases h
                  · rename_i st hl
                    have fin : st.errs = [] → ∀ B', B' = (updateAll st.bcs 0).1 → (updateAll st.bcs 0).2 = [] →
                        Good pending B' ∧ B'.map Bc.skel = bcs.map Bc.skel := by
                      intro e1 B' e2 e3
                      obtain ⟨⟨im, io⟩, q1, q2⟩ := loop_inv hok hstat fuel hinv hl e1
                      have hsh : Shape st.bcs := hstat.shape _ io.hb
                      have hset : ∀ (i : Nat) b s, st.bcs[i]? = some b → b.contents = .setter s →
                          s.expand (ssum b.sect st.bcs i) = .ok b.len := by
                        intro i b s h1 h2
                        have hk := hstat.osAll i _ s (sect_of_skel io.hb h1) (kind_setter.mpr h2)
                        rw [← io.ho] at hk
                        obtain ⟨o, h3, h4⟩ := List.mem_map.mp hk
                        obtain ⟨j, hj⟩ := List.getElem?_of_mem h3
                        subst h4
                        obtain ⟨_, g2, g3⟩ := io.set j o b s hj h1 h2
                        rw [← g3]; simpa using g2
                      subst e2
                      have sk : (updateAll st.bcs 0).1.map Bc.skel = bcs.map Bc.skel := (updateAll_skel _ _).trans io.hb
                      exact ⟨good_of_inv hok.bound sbc ster im q1 q2 sk (hstat.shape _ sk)
                        (updateAll_sameSize hsh io.empt hset e3) (contiguous_updateAll io.empt) (updateAll_setters _ _ e3), sk⟩
                    split at h
                    · rename_i hsaw
                      simp only [Result.ret.injEq] at h
                      exact absurd h.2 (loop_saw mc _ fuel _ _ hl (by simp) hsaw)
                    · simp only [Result.ret.injEq] at h
                      obtain ⟨h1, h2⟩ := h
                      obtain ⟨h2, h3⟩ := List.append_eq_nil_iff.mp h2
                      exact fin h2 B h1.symm h3

end Verif.Optimize
