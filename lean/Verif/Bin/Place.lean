import Verif.Bin.Lemmas
/-
Lemmas on the load addresses.
-/
set_option linter.unusedSimpArgs false
set_option linter.unusedVariables false
namespace Verif.Bin

theorem alignTo_first (start : Int) (align : Nat) (h : 0 < align) :
    FirstAligned start align (alignTo start align) := by
  have hp : (0 : Int) < align := by omega
  unfold alignTo
  have hm := Int.emod_nonneg start (show (align : Int) ≠ 0 by omega)
  have hl := Int.emod_lt_of_pos start hp
  have hd : (align : Int) ∣ start - start % align := Int.dvd_self_sub_emod
  split
  · rename_i e
    exact ⟨Int.le_refl _, Int.dvd_of_emod_eq_zero e, fun b hb _ => hb⟩
  · rename_i e
    refine ⟨by omega, Int.dvd_add (Int.dvd_refl _) hd, ?_⟩
    intro b hb hbd
    obtain ⟨c, hc⟩ := hbd
    obtain ⟨d, hd⟩ := hd
    have : d < c := by
      by_contra hcd
      have : (align : Int) * c ≤ align * d := Int.mul_le_mul_of_nonneg_left (by omega) (by omega)
      omega
    have : (align : Int) * (d + 1) ≤ align * c := Int.mul_le_mul_of_nonneg_left (by omega) (by omega)
    rw [Int.mul_add, Int.mul_one] at this
    omega

theorem alignTo_self {start : Int} {align : Nat} (h : (align : Int) ∣ start) : alignTo start align = start := by
  unfold alignTo; rw [if_pos (Int.emod_eq_zero_of_dvd h)]

theorem wantAlign_eq (s : Sect) : s.lmaAlign = s.wantAlign := by
  unfold Sect.lmaAlign Sect.wantAlign
  cases s.align with
  | some a => rfl
  | none => simp only [Option.getD_none]; split <;> omega

theorem wantValign_eq (s : Sect) : s.vmaAlign = s.wantValign := by
  unfold Sect.vmaAlign Sect.wantValign
  cases s.valign with
  | some a => rfl
  | none => simp [wantAlign_eq]

theorem lmaOf_first {s : Sect} (h : 0 < s.wantAlign) (start : Int) :
    FirstAligned start s.wantAlign (lmaOf s start) := by
  unfold lmaOf; rw [wantAlign_eq]; exact alignTo_first _ _ h

/-- The load addresses given by `assignAll`. -/
def lmaList : Forest → Int → List (Sect × Int)
  | .nil, _ => []
  | .cons s a b, start =>
    (s, lmaOf s start) :: (lmaList a (lmaOf s start + s.length) ++ lmaList b start)

/-- Section and load address. -/
def Placed.key (p : Placed) : Sect × Int := (p.sect, p.istart)

theorem assignAll_out (f : Forest) : ∀ (start : Int) (st : Assign),
    ∃ new : List Placed, (assignAll f start st).out = st.out ++ new ∧ new.map Placed.key = lmaList f start := by
  induction f with
  | nil => intro start st; exact ⟨[], by simp [assignAll], rfl⟩
  | cons s a b iha ihb =>
    intro start st
    simp only [assignAll]
    obtain ⟨n1, e1, k1⟩ := iha (lmaOf s start + s.length) (placeOne s start st)
    obtain ⟨n2, e2, k2⟩ := ihb start (assignAll a (lmaOf s start + s.length) (placeOne s start st))
    refine ⟨⟨s, lmaOf s start, (vmaOf s (lmaOf s start) st.vdelta).1⟩ :: (n1 ++ n2), ?_, ?_⟩
    · rw [e2, e1]; simp [placeOne]
    · simp only [lmaList, List.map_cons, List.map_append, Placed.key] at *
      rw [← k1, ← k2]

theorem lmaList_nodes (f : Forest) : ∀ start, (lmaList f start).map (·.1) = f.nodes := by
  induction f with
  | nil => intro _; rfl
  | cons s a b iha ihb => intro start; simp [lmaList, Forest.nodes, iha, ihb]

/-- Each section starts where the list starts or at the end of the section it hangs under. -/
theorem lmaList_spec (f : Forest) : ∀ (start : Int) (par : Option Sect) (s : Sect) (a : Int),
    (s, a) ∈ lmaList f start →
    ((par, s) ∈ f.edges par ∧ s ∈ f.heads ∧ a = lmaOf s start) ∨
    ∃ p b, (p, b) ∈ lmaList f start ∧ (some p, s) ∈ f.edges par ∧ a = lmaOf s (b + p.length) := by
  induction f with
  | nil => intro _ _ _ _ h; cases h
  | cons t x y ihx ihy =>
    intro start par s a h
    simp only [lmaList, List.mem_cons, List.mem_append, Prod.mk.injEq] at h
    rcases h with ⟨h1, h2⟩ | h | h
    · subst h1; exact Or.inl ⟨by simp [Forest.edges], by simp [Forest.heads], h2⟩
    · rcases ihx _ (some t) s a h with ⟨e1, e2, e3⟩ | ⟨p, b, e1, e2, e3⟩
      · exact Or.inr ⟨t, lmaOf t start, by simp [lmaList], by simp [Forest.edges, e1], e3⟩
      · exact Or.inr ⟨p, b, by simp [lmaList, e1], by simp [Forest.edges, e2], e3⟩
    · rcases ihy start par s a h with ⟨e1, e2, e3⟩ | ⟨p, b, e1, e2, e3⟩
      · exact Or.inl ⟨by simp [Forest.edges, e1], by simp [Forest.heads, e2], e3⟩
      · exact Or.inr ⟨p, b, by simp [lmaList, e1], by simp [Forest.edges, e2], e3⟩

theorem assignAll_last (f : Forest) : ∀ (start : Int) (st : Assign), st.last ≤ (assignAll f start st).last ∧
    ((∀ p ∈ st.out, p.istart + p.sect.length ≤ st.last) →
      ∀ p ∈ (assignAll f start st).out, p.istart + p.sect.length ≤ (assignAll f start st).last) := by
  induction f with
  | nil => intro start st; exact ⟨Int.le_refl _, fun h => h⟩
  | cons s a b iha ihb =>
    intro start st
    simp only [assignAll]
    obtain ⟨h1, h2⟩ := iha (lmaOf s start + s.length) (placeOne s start st)
    obtain ⟨h3, h4⟩ := ihb start (assignAll a (lmaOf s start + s.length) (placeOne s start st))
    have h0 : st.last ≤ (placeOne s start st).last := by simp only [placeOne]; split <;> omega
    refine ⟨by omega, fun h => h4 (h2 ?_)⟩
    intro p hp
    have h0' : lmaOf s start + s.length ≤ (placeOne s start st).last := by simp only [placeOne]; split <;> omega
    simp only [placeOne, List.mem_append, List.mem_singleton] at hp
    rcases hp with hp | hp
    · have := h p hp; omega
    · subst hp; exact h0'

/-! ### the main list -/

theorem insertStart_perm (x : Int) (g : Sect × Forest) (l : List (Sect × Forest)) :
    (insertStart x g l).Perm (g :: l) := by
  induction l with
  | nil => exact List.Perm.refl _
  | cons h l ih =>
    simp only [insertStart]
    split
    · exact (List.Perm.cons _ ih).trans (List.Perm.swap _ _ _)
    · split
      · exact List.Perm.refl _
      · exact (List.Perm.cons _ ih).trans (List.Perm.swap _ _ _)

theorem sortLoop_perm (l : List (Sect × Forest)) : ∀ lma bss,
    ((sortLoop l lma bss).1 ++ (sortLoop l lma bss).2).Perm (lma ++ bss ++ l) := by
  induction l with
  | nil => intro lma bss; simp [sortLoop]
  | cons g l ih =>
    intro lma bss
    simp only [sortLoop]
    split
    · split
      · refine (ih _ _).trans (List.Perm.of_eq ?_); simp
      · refine (ih _ _).trans ?_
        simp only [List.append_assoc, List.singleton_append]
        refine List.Perm.append_left _ ?_
        simpa using (List.perm_middle (l₁ := bss) (a := g) (l₂ := l)).symm
    · refine (ih _ _).trans ?_
      have := (insertStart_perm (by assumption) g lma).append_right (bss ++ l)
      simp only [List.append_assoc]
      refine this.trans ?_
      simp only [List.cons_append]
      have h1 := (List.perm_middle (l₁ := lma ++ bss) (a := g) (l₂ := l)).symm
      simpa [List.append_assoc] using h1

theorem sortTops_perm (l : List (Sect × Forest)) : (sortTops l).Perm l := by
  have := sortLoop_perm l [] []
  simpa [sortTops] using this

/-- The groups without a start address. -/
def free (g : Sect × Forest) : Bool := g.1.start.isNone

theorem insertStart_free (x : Int) (g : Sect × Forest) (h : free g = false) (l : List (Sect × Forest)) :
    (insertStart x g l).filter free = l.filter free := by
  induction l with
  | nil => simp [insertStart, h]
  | cons t l ih =>
    simp only [insertStart]
    split
    · simp only [List.filter_cons, ih]
    · split
      · simp [List.filter_cons, h]
      · simp only [List.filter_cons, ih]

theorem sortLoop_free (l : List (Sect × Forest)) : ∀ lma bss,
    (sortLoop l lma bss).1.filter free = lma.filter free ++ l.filter (fun g => free g && !g.1.bss) ∧
    (sortLoop l lma bss).2 = bss ++ l.filter (fun g => free g && g.1.bss) := by
  induction l with
  | nil => intro lma bss; simp [sortLoop]
  | cons g l ih =>
    intro lma bss
    simp only [sortLoop]
    split
    · rename_i e
      have hf : free g = true := by simp [free, e]
      split
      · rename_i hb
        obtain ⟨h1, h2⟩ := ih lma (bss ++ [g])
        rw [h1, h2]; simp [List.filter_cons, hf, hb]
      · rename_i hb
        obtain ⟨h1, h2⟩ := ih (lma ++ [g]) bss
        rw [h1, h2]; simp [List.filter_cons, List.filter_append, hf, hb]
    · rename_i x e
      have hf : free g = false := by simp [free, e]
      obtain ⟨h1, h2⟩ := ih (insertStart x g lma) bss
      rw [h1, h2, insertStart_free x g hf]; simp [List.filter_cons, hf]

theorem sortTops_free (l : List (Sect × Forest)) :
    (sortTops l).filter free = l.filter (fun g => free g && !g.1.bss) ++ l.filter (fun g => free g && g.1.bss) := by
  obtain ⟨h1, h2⟩ := sortLoop_free l [] []
  rw [sortTops, List.filter_append, h1, h2, List.filter_nil, List.nil_append, List.nil_append]
  congr 1
  rw [List.filter_filter]
  congr 1; funext g; cases free g <;> simp

/-- The forest with the given main list. -/
def Forest.ofTops : List (Sect × Forest) → Forest
  | [] => .nil
  | (s, a) :: l => .cons s a (Forest.ofTops l)

theorem ofTops_tops (f : Forest) : Forest.ofTops f.tops = f := by
  induction f with
  | nil => rfl
  | cons s a b iha ihb => simp [Forest.tops, Forest.ofTops, ihb]

theorem ofTops_edges (l : List (Sect × Forest)) (par : Option Sect) :
    (Forest.ofTops l).edges par = l.flatMap (fun g => (par, g.1) :: g.2.edges (some g.1)) := by
  induction l with
  | nil => rfl
  | cons g l ih => obtain ⟨s, a⟩ := g; simp [Forest.ofTops, Forest.edges, ih]

theorem ofTops_nodes (l : List (Sect × Forest)) :
    (Forest.ofTops l).nodes = l.flatMap (fun g => g.1 :: g.2.nodes) := by
  induction l with
  | nil => rfl
  | cons g l ih => obtain ⟨s, a⟩ := g; simp [Forest.ofTops, Forest.nodes, ih]

/-- The state when a main list entry is reached. -/
theorem assignTops_spec (l : List (Sect × Forest)) : ∀ (st : Assign),
    (∀ p ∈ st.out, p.istart + p.sect.length ≤ st.last) →
    ∃ new : List Placed, (assignTops l st.last st).out = st.out ++ new ∧
      new.map (·.sect) = (Forest.ofTops l).nodes ∧
      ∀ p ∈ new, (∃ b, st.last ≤ b ∧ p.sect ∈ l.map (·.1) ∧ (none, p.sect) ∈ (Forest.ofTops l).edges none ∧
            p.istart = lmaOf p.sect (p.sect.start.getD b)) ∨
          ∃ q ∈ new, (some q.sect, p.sect) ∈ (Forest.ofTops l).edges none ∧
            p.istart = lmaOf p.sect (q.istart + q.sect.length) := by
  induction l with
  | nil => intro st _; exact ⟨[], by simp [assignTops], rfl, by simp⟩
  | cons g l ih =>
    intro st hst
    obtain ⟨s, a⟩ := g
    simp only [assignTops]
    obtain ⟨n1, e1, k1⟩ := assignAll_out (.cons s a .nil) (s.start.getD st.last) st
    obtain ⟨hl, ho⟩ := assignAll_last (.cons s a .nil) (s.start.getD st.last) st
    obtain ⟨n2, e2, k2, h2⟩ := ih (assignAll (.cons s a .nil) (s.start.getD st.last) st) (ho hst)
    refine ⟨n1 ++ n2, by rw [e2, e1]; simp, ?_, ?_⟩
    · rw [List.map_append, k2]
      have : n1.map (·.sect) = s :: a.nodes := by
        have := congrArg (List.map (·.1)) k1
        rw [lmaList_nodes, List.map_map] at this
        simpa [Forest.nodes, Function.comp_def, Placed.key] using this
      rw [this]; simp [Forest.ofTops, Forest.nodes]
    · intro p hp
      rcases List.mem_append.1 hp with hp | hp
      · have hm : p.key ∈ lmaList (.cons s a .nil) (s.start.getD st.last) := by
          rw [← k1]; exact List.mem_map_of_mem hp
        rcases lmaList_spec _ _ none p.sect p.istart hm with ⟨c1, c2, c3⟩ | ⟨q, b, c1, c2, c3⟩
        · left
          have : p.sect = s := by simpa [Forest.heads] using c2
          refine ⟨st.last, Int.le_refl _, by simp [this], by simp [Forest.ofTops, Forest.edges, this], ?_⟩
          rw [c3, this]
        · right
          rw [← k1] at c1
          obtain ⟨q', hq', e'⟩ := List.mem_map.1 c1
          simp only [Placed.key, Prod.mk.injEq] at e'
          refine ⟨q', by simp [hq'], ?_, by rw [c3, e'.1, e'.2]⟩
          rw [e'.1]
          simp only [Forest.ofTops, Forest.edges, List.append_nil, List.mem_cons, List.mem_append] at c2 ⊢
          rcases c2 with c2 | c2
          · exact Or.inl c2
          · exact Or.inr (Or.inl c2)
      · rcases h2 p hp with ⟨b, c1, c2, c3, c4⟩ | ⟨q, hq, c1, c2⟩
        · left
          refine ⟨b, by omega, by simp at c2 ⊢; exact Or.inr c2, ?_, c4⟩
          simp [Forest.ofTops, Forest.edges, c3]
        · right
          exact ⟨q, by simp [hq], by simp [Forest.ofTops, Forest.edges, c1], c2⟩

theorem assignTops_append (l1 l2 : List (Sect × Forest)) : ∀ (st : Assign),
    assignTops (l1 ++ l2) st.last st =
      assignTops l2 (assignTops l1 st.last st).last (assignTops l1 st.last st) := by
  induction l1 with
  | nil => intro st; rfl
  | cons g l ih =>
    intro st
    obtain ⟨s, a⟩ := g
    simp only [List.cons_append, assignTops]
    exact ih _

theorem assignTops_last (l : List (Sect × Forest)) : ∀ (st : Assign),
    st.last ≤ (assignTops l st.last st).last ∧
    ((∀ p ∈ st.out, p.istart + p.sect.length ≤ st.last) →
      ∀ p ∈ (assignTops l st.last st).out, p.istart + p.sect.length ≤ (assignTops l st.last st).last) := by
  induction l with
  | nil => intro st; exact ⟨Int.le_refl _, fun h => h⟩
  | cons g l ih =>
    intro st
    obtain ⟨s, a⟩ := g
    simp only [assignTops]
    obtain ⟨h1, h2⟩ := assignAll_last (.cons s a .nil) (s.start.getD st.last) st
    obtain ⟨h3, h4⟩ := ih (assignAll (.cons s a .nil) (s.start.getD st.last) st)
    exact ⟨by omega, fun h => h4 (h2 h)⟩

/-- What the load address pass gives. -/
theorem lmaLayout_spec {origin : Int} {sects : List Sect} {l : List Placed}
    (hn : (sects.map (·.name)).Nodup) (h : lmaLayout origin sects = .ok l) :
    (l.map (·.sect)).Perm sects ∧
    (∀ p ∈ l, p.sect.follows = none → ∃ b, origin ≤ b ∧ p.istart = lmaOf p.sect (p.sect.start.getD b)) ∧
    (∀ p ∈ l, ∀ n, p.sect.follows = some n → ∃ q ∈ l, q.sect.name = n ∧
      p.istart = lmaOf p.sect (q.istart + q.sect.length)) := by
  unfold lmaLayout at h
  split at h
  · cases h
  · rename_i f hf
    obtain ⟨he, hh⟩ := link_edges hn hf
    cases h
    obtain ⟨new, e1, e2, e3⟩ := assignTops_spec (sortTops f.tops) ⟨origin, 0, []⟩ (by simp)
    simp only [List.nil_append] at e1
    have hp := sortTops_perm f.tops
    have hedges : ((Forest.ofTops (sortTops f.tops)).edges none).Perm (f.edges none) := by
      rw [ofTops_edges]
      conv_rhs => rw [← ofTops_tops f, ofTops_edges]
      exact List.Perm.flatMap_right _ hp
    have hnodes : (new.map (·.sect)).Perm sects := by
      rw [e2]
      have := (hedges.trans he).map (·.2)
      rw [edges_nodes] at this
      simpa [Function.comp_def] using this
    have hpar : ∀ q s, (q, s) ∈ (Forest.ofTops (sortTops f.tops)).edges none → q = parent (·.follows) sects s := by
      intro q s hq
      have := (hedges.trans he).mem_iff.1 hq
      obtain ⟨s', _, e⟩ := List.mem_map.1 this
      simp only [Prod.mk.injEq] at e
      rw [← e.1, e.2]
    rw [e1]
    refine ⟨hnodes, ?_, ?_⟩
    · intro p hp' hnone
      rcases e3 p hp' with ⟨b, c1, c2, c3, c4⟩ | ⟨q, hq, c1, c2⟩
      · exact ⟨b, c1, c4⟩
      · have := hpar _ _ c1
        simp [parent, hnone] at this
    · intro p hp' n hsome
      rcases e3 p hp' with ⟨b, c1, c2, c3, c4⟩ | ⟨q, hq, c1, c2⟩
      · have hs : p.sect ∈ f.heads := by
          rw [← tops_heads]; exact (hp.map (·.1)).mem_iff.1 c2
        rw [hh] at hs
        have := List.of_mem_filter hs
        simp [hsome] at this
      · refine ⟨q, hq, ?_, c2⟩
        have := hpar _ _ c1
        simp only [parent, hsome, Option.bind_some] at this
        have := List.find?_some this.symm
        simpa using this

theorem nodup_placed {sects : List Sect} {l : List Placed} (hn : (sects.map (·.name)).Nodup)
    (h : (l.map (·.sect)).Perm sects) : (l.map (·.sect.name)).Nodup := by
  have := (h.map (·.name)).nodup_iff.2 hn
  simpa [Function.comp_def] using this

theorem inj_placed {sects : List Sect} {l : List Placed} (hn : (sects.map (·.name)).Nodup)
    (h : (l.map (·.sect)).Perm sects) {p q : Placed} (hp : p ∈ l) (hq : q ∈ l)
    (e : p.sect.name = q.sect.name) : p = q :=
  List.inj_on_of_nodup_map (nodup_placed hn h) hp hq e

theorem sublist_pair_split {α : Type} {a b : α} {l : List α} (h : List.Sublist [a, b] l) :
    ∃ l1 l2, l = l1 ++ b :: l2 ∧ a ∈ l1 := by
  induction l with
  | nil => cases h
  | cons x l ih =>
    cases h with
    | cons _ h => obtain ⟨l1, l2, e, ha⟩ := ih h; exact ⟨x :: l1, l2, by simp [e], by simp [ha]⟩
    | cons_cons _ h =>
      have hb : b ∈ l := List.singleton_sublist.1 h
      obtain ⟨l1, l2, e⟩ := List.append_of_mem hb
      exact ⟨a :: l1, l2, by simp [e], by simp⟩

/-- Two groups of the main list: a later one without a start is after an earlier one. -/
theorem assignTops_order {tops : List (Sect × Forest)} {origin : Int} {g h : Sect × Forest}
    (hs : List.Sublist [g, h] tops) (hfree : free h = true) (hpos : 0 < h.1.wantAlign)
    (hn : (((assignTops tops origin ⟨origin, 0, []⟩).out).map (·.sect.name)).Nodup) :
    ∀ p ∈ (assignTops tops origin ⟨origin, 0, []⟩).out, ∀ q ∈ (assignTops tops origin ⟨origin, 0, []⟩).out,
      p.sect = g.1 → q.sect = h.1 → p.istart + p.sect.length ≤ q.istart := by
  obtain ⟨l1, l2, e, hg⟩ := sublist_pair_split hs
  intro p hp q hq ep eq
  have hst : ∀ p ∈ (⟨origin, 0, []⟩ : Assign).out, p.istart + p.sect.length ≤ (⟨origin, 0, []⟩ : Assign).last := by
    intro p hp; cases hp
  obtain ⟨new, e1, e2, e3⟩ := assignTops_spec l1 ⟨origin, 0, []⟩ hst
  have hap := assignTops_append l1 (h :: l2) ⟨origin, 0, []⟩
  obtain ⟨hl1, hl2⟩ := assignTops_last l1 ⟨origin, 0, []⟩
  have hl2 := hl2 hst
  rw [e] at hp hq hn
  simp only at hap e1 hl1 hl2
  generalize hA : assignTops l1 origin ⟨origin, 0, []⟩ = A at *
  rw [hap] at hp hq hn
  obtain ⟨s, a⟩ := h
  simp only [assignTops] at hp hq hn
  obtain ⟨n1, f1, k1⟩ := assignAll_out (.cons s a .nil) (s.start.getD A.last) A
  obtain ⟨_, ho⟩ := assignAll_last (.cons s a .nil) (s.start.getD A.last) A
  obtain ⟨n2, f2, _, _⟩ := assignTops_spec l2 (assignAll (.cons s a .nil) (s.start.getD A.last) A) (ho hl2)
  rw [f2, f1] at hp hq hn
  -- the placed section of `g` is in `A.out`
  have hpA : p ∈ A.out := by
    have : g.1 ∈ new.map (·.sect) := by
      rw [e2, ofTops_nodes]; exact List.mem_flatMap.2 ⟨g, hg, by simp⟩
    obtain ⟨p', hp', ep'⟩ := List.mem_map.1 this
    have hpA' : p' ∈ A.out := by rw [e1]; exact List.mem_append_right _ hp'
    have : p = p' := List.inj_on_of_nodup_map hn hp (by simp [hpA']) (by rw [ep, ep'])
    rw [this]; exact hpA'
  have hstart : s.start = none := by simpa [free] using hfree
  -- the placed section of `h` is the first of `n1`
  have hq1 : q.istart = lmaOf s A.last := by
    rw [hstart] at k1
    simp only [lmaList, Option.getD_none] at k1
    cases n1 with
    | nil => simp at k1
    | cons r n1 =>
      simp only [List.map_cons, List.cons.injEq, Placed.key, Prod.mk.injEq] at k1
      have : q = r := List.inj_on_of_nodup_map hn hq (by simp) (by rw [eq, k1.1.1])
      rw [this, k1.1.2]
  have hf := lmaOf_first (s := s) hpos A.last
  have := hl2 p hpA
  rw [hq1]
  exact Int.le_trans this hf.1

end Verif.Bin
