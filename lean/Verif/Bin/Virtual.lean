import Verif.Bin.Place
/-
Lemmas on the virtual addresses, and on the default layout.
-/
set_option linter.unusedSimpArgs false
set_option linter.unusedVariables false
namespace Verif.Bin

/-! ### what the first pass leaves -/

/-- The virtual address a placed section has after the first pass, for some admissible delta. -/
def FromDelta (Q : Int → Prop) (p : Placed) : Prop :=
  ∃ d, Q d ∧ p.ivstart = (vmaOf p.sect p.istart d).1

theorem assignAll_delta (Q : Int → Prop) (f : Forest) : ∀ (start : Int) (st : Assign),
    (∀ s ∈ f.nodes, ∀ i d, Q d → Q (vmaOf s i d).2) → Q st.vdelta → (∀ p ∈ st.out, FromDelta Q p) →
    Q (assignAll f start st).vdelta ∧ ∀ p ∈ (assignAll f start st).out, FromDelta Q p := by
  induction f with
  | nil => intro start st _ h1 h2; exact ⟨h1, h2⟩
  | cons s a b iha ihb =>
    intro start st hQ h1 h2
    simp only [assignAll]
    have hs : ∀ i d, Q d → Q (vmaOf s i d).2 := hQ s (by simp [Forest.nodes])
    obtain ⟨h3, h4⟩ := iha (lmaOf s start + s.length) (placeOne s start st)
      (fun x hx => hQ x (by simp [Forest.nodes, hx])) (hs _ _ h1) (by
        intro p hp
        simp only [placeOne, List.mem_append, List.mem_singleton] at hp
        rcases hp with hp | hp
        · exact h2 p hp
        · subst hp; exact ⟨st.vdelta, h1, rfl⟩)
    exact ihb start _ (fun x hx => hQ x (by simp [Forest.nodes, hx])) h3 h4

theorem assignTops_delta (Q : Int → Prop) (l : List (Sect × Forest)) : ∀ (start : Int) (st : Assign),
    (∀ s ∈ (Forest.ofTops l).nodes, ∀ i d, Q d → Q (vmaOf s i d).2) → Q st.vdelta →
    (∀ p ∈ st.out, FromDelta Q p) → ∀ p ∈ (assignTops l start st).out, FromDelta Q p := by
  induction l with
  | nil => intro start st _ _ h2; exact h2
  | cons g l ih =>
    obtain ⟨s, a⟩ := g
    intro start st hQ h1 h2
    simp only [assignTops]
    obtain ⟨h3, h4⟩ := assignAll_delta Q (.cons s a .nil) (s.start.getD start) st
      (fun x hx => hQ x (by simp [Forest.ofTops, Forest.nodes] at hx ⊢; rcases hx with h | h <;> simp [h])) h1 h2
    exact ih _ _ (fun x hx => hQ x (by simp [Forest.ofTops, Forest.nodes, hx])) h3 h4

theorem lmaLayout_delta (Q : Int → Prop) {origin : Int} {sects : List Sect} {l : List Placed}
    (hn : (sects.map (·.name)).Nodup) (h : lmaLayout origin sects = .ok l) (h0 : Q 0)
    (hQ : ∀ s ∈ sects, ∀ i d, Q d → Q (vmaOf s i d).2) : ∀ p ∈ l, FromDelta Q p := by
  unfold lmaLayout at h
  split at h
  · cases h
  · rename_i f hf
    obtain ⟨he, _⟩ := link_edges hn hf
    cases h
    refine assignTops_delta Q _ _ _ ?_ h0 (by simp)
    intro s hs
    refine hQ s ?_
    have hnodes : (Forest.ofTops (sortTops f.tops)).nodes.Perm sects := by
      have h1 : (Forest.ofTops (sortTops f.tops)).nodes.Perm f.nodes := by
        rw [ofTops_nodes]
        conv_rhs => rw [← ofTops_tops f, ofTops_nodes]
        exact List.Perm.flatMap_right _ (sortTops_perm _)
      refine h1.trans ?_
      have := he.map (·.2)
      rw [edges_nodes] at this
      simpa [Function.comp_def] using this
    exact hnodes.mem_iff.1 hs

theorem ivstartOf_mem {sects : List Sect} {l : List Placed} (hn : (sects.map (·.name)).Nodup)
    (h : (l.map (·.sect)).Perm sects) {p : Placed} (hp : p ∈ l) : ivstartOf l p.sect.name = p.ivstart := by
  unfold ivstartOf
  split
  · rename_i hf
    have := List.find?_eq_none.1 hf p hp; simp at this
  · rename_i q hf
    have h1 := List.find?_some hf
    have h2 := List.mem_of_find?_eq_some hf
    have : q = p := inj_placed hn h h2 hp (by simpa using h1)
    subst this
    rfl

/-! ### the second pass -/

/-- The virtual address of a section that is to start at `base`. -/
def vOf (x : Sect × Int) : Int := alignTo x.2 x.1.vmaAlign

/-- Where each section of a list is to start. -/
def baseList : Forest → Int → List (Sect × Int)
  | .nil, _ => []
  | .cons s a b, start => (s, start) :: (baseList a (vOf (s, start) + s.length) ++ baseList b start)

/-- A section whose given virtual address is not aligned. -/
def isBad (lma : List Placed) (x : Sect × Int) : Bool :=
  (ivstartOf lma x.1.name).isSome && decide (x.2 ≠ vOf x)

/-- The outcome for a list of sections with their bases. -/
def vresult (lma : List Placed) (l : List (Sect × Int)) (addrs : List (Name × Int)) (bad : List Name) : VOut :=
  if l.all (fun x => !isBad lma x || x.1.vstart.isSome) then
    .done (addrs ++ l.map (fun x => (x.1.name, vOf x))) (bad ++ (l.filter (isBad lma)).map (·.1.name))
  else .crash

theorem vassignAll_crash (lma : List Placed) (f : Forest) : ∀ start, vassignAll lma f start .crash = .crash := by
  induction f with
  | nil => intro _; rfl
  | cons s a b iha ihb => intro start; simp [vassignAll, vplaceOne, iha, ihb]

theorem vassignAll_eq (lma : List Placed) (f : Forest) : ∀ (start : Int) (addrs : List (Name × Int)) (bad : List Name),
    vassignAll lma f start (.done addrs bad) = vresult lma (baseList f start) addrs bad := by
  induction f with
  | nil => intro start addrs bad; simp [vassignAll, vresult, baseList]
  | cons s a b iha ihb =>
    intro start addrs bad
    simp only [vassignAll]
    have key : vplaceOne lma s start (.done addrs bad) = vresult lma [(s, start)] addrs bad := by
      unfold vplaceOne vresult
      rcases hi : ivstartOf lma s.name with _ | v
      · simp [isBad, hi, vOf]
      · by_cases hb : start = alignTo start s.vmaAlign
        · have : isBad lma (s, start) = false := by
            simp only [isBad, hi, vOf, Option.isSome_some, Bool.true_and]
            exact decide_eq_false (by simpa using hb)
          simp only [this]
          rw [if_neg (by simpa using hb)]
          simp [List.filter, this, vOf]
        · have : isBad lma (s, start) = true := by
            simp only [isBad, hi, vOf, Option.isSome_some, Bool.true_and]
            exact decide_eq_true hb
          simp only [this]
          rw [if_pos hb]
          rcases hv : s.vstart with _ | w
          · simp [this, hv]
          · simp [this, hv, vOf]
    rw [key]
    have step : ∀ (l1 l2 : List (Sect × Int)) (g : VOut → VOut) (hc : g .crash = .crash)
        (hg : ∀ A B, g (.done A B) = vresult lma l2 A B),
        g (vresult lma l1 addrs bad) = vresult lma (l1 ++ l2) addrs bad := by
      intro l1 l2 g hc hg
      unfold vresult
      rw [List.all_append]
      by_cases h1 : l1.all (fun x => !isBad lma x || x.1.vstart.isSome) = true
      · rw [if_pos h1, hg, h1]
        unfold vresult
        rw [Bool.true_and]
        simp only [List.append_assoc, List.map_append, List.filter_append]
      · rw [if_neg h1, hc]
        rw [if_neg (by simp at h1 ⊢; intro h; exact absurd h (by simpa using h1))]
    rw [step [(s, start)] (baseList a (vOf (s, start) + s.length))
      (vassignAll lma a (alignTo start s.vmaAlign + s.length)) (vassignAll_crash lma a _) (by
        intro A B; exact iha _ A B)]
    rw [step _ (baseList b start) (vassignAll lma b start) (vassignAll_crash lma b _) (by
        intro A B; exact ihb _ A B)]
    simp [baseList]

theorem baseList_spec (f : Forest) : ∀ (start : Int) (par : Option Sect) (s : Sect) (c : Int),
    (s, c) ∈ baseList f start →
    ((par, s) ∈ f.edges par ∧ s ∈ f.heads ∧ c = start) ∨
    ∃ p b, (p, b) ∈ baseList f start ∧ (some p, s) ∈ f.edges par ∧ c = vOf (p, b) + p.length := by
  induction f with
  | nil => intro _ _ _ _ h; cases h
  | cons t x y ihx ihy =>
    intro start par s a h
    simp only [baseList, List.mem_cons, List.mem_append, Prod.mk.injEq] at h
    rcases h with ⟨h1, h2⟩ | h | h
    · subst h1; exact Or.inl ⟨by simp [Forest.edges], by simp [Forest.heads], h2⟩
    · rcases ihx _ (some t) s a h with ⟨e1, e2, e3⟩ | ⟨p, b, e1, e2, e3⟩
      · exact Or.inr ⟨t, start, by simp [baseList], by simp [Forest.edges, e1], e3⟩
      · exact Or.inr ⟨p, b, by simp [baseList, e1], by simp [Forest.edges, e2], e3⟩
    · rcases ihy start par s a h with ⟨e1, e2, e3⟩ | ⟨p, b, e1, e2, e3⟩
      · exact Or.inl ⟨by simp [Forest.edges, e1], by simp [Forest.heads, e2], e3⟩
      · exact Or.inr ⟨p, b, by simp [baseList, e1], by simp [Forest.edges, e2], e3⟩

theorem baseList_nodes (f : Forest) : ∀ start, (baseList f start).map (·.1) = f.nodes := by
  induction f with
  | nil => intro _; rfl
  | cons s a b iha ihb => intro start; simp [baseList, Forest.nodes, iha, ihb]

/-- The bases of all sections. -/
def topBases (lma : List Placed) : List (Sect × Forest) → List (Sect × Int)
  | [] => []
  | g :: l => baseList (.cons g.1 g.2 .nil) ((ivstartOf lma g.1.name).getD 0) ++ topBases lma l

theorem vassignTops_crash (lma : List Placed) : ∀ l, vassignTops lma l .crash = .crash := by
  intro l
  induction l with
  | nil => rfl
  | cons g l ih =>
    obtain ⟨s, a⟩ := g
    simp only [vassignTops]
    split
    · rfl
    · rw [vassignAll_crash, ih]

theorem vassignTops_eq (lma : List Placed) : ∀ (l : List (Sect × Forest)) (addrs : List (Name × Int))
    (bad : List Name), (∀ g ∈ l, (ivstartOf lma g.1.name).isSome) →
    vassignTops lma l (.done addrs bad) = vresult lma (topBases lma l) addrs bad := by
  intro l
  induction l with
  | nil => intro addrs bad _; simp [vassignTops, vresult, topBases]
  | cons g l ih =>
    obtain ⟨s, a⟩ := g
    intro addrs bad h
    simp only [vassignTops, topBases]
    rcases hv : ivstartOf lma s.name with _ | v
    · have := h (s, a) (by simp); rw [hv] at this; cases this
    · simp only [Option.getD_some]
      rw [vassignAll_eq]
      have h' := fun A B => ih A B (fun g hg => h g (by simp [hg]))
      generalize baseList (.cons s a .nil) v = l1
      unfold vresult
      rw [List.all_append]
      by_cases h1 : l1.all (fun x => !isBad lma x || x.1.vstart.isSome) = true
      · rw [if_pos h1, h', h1]
        unfold vresult
        rw [Bool.true_and]
        simp only [List.append_assoc, List.map_append, List.filter_append]
      · rw [if_neg h1, vassignTops_crash]
        rw [if_neg (by simp at h1 ⊢; intro h; exact absurd h (by simpa using h1))]

theorem topBases_nodes (lma : List Placed) (l : List (Sect × Forest)) :
    (topBases lma l).map (·.1) = (Forest.ofTops l).nodes := by
  induction l with
  | nil => rfl
  | cons g l ih =>
    obtain ⟨s, a⟩ := g
    simp [topBases, baseList_nodes, Forest.ofTops, Forest.nodes, ih]

theorem topBases_spec (lma : List Placed) (l : List (Sect × Forest)) : ∀ (s : Sect) (c : Int),
    (s, c) ∈ topBases lma l →
    ((none, s) ∈ (Forest.ofTops l).edges none ∧ s ∈ l.map (·.1) ∧ c = (ivstartOf lma s.name).getD 0) ∨
    ∃ p b, (p, b) ∈ topBases lma l ∧ (some p, s) ∈ (Forest.ofTops l).edges none ∧
      c = vOf (p, b) + p.length := by
  induction l with
  | nil => intro _ _ h; cases h
  | cons g l ih =>
    obtain ⟨t, x⟩ := g
    intro s c h
    simp only [topBases, List.mem_append] at h
    rcases h with h | h
    · rcases baseList_spec _ _ none s c h with ⟨e1, e2, e3⟩ | ⟨p, b, e1, e2, e3⟩
      · left
        have : s = t := by simpa [Forest.heads] using e2
        subst this
        exact ⟨by simp [Forest.ofTops, Forest.edges], by simp, e3⟩
      · right
        refine ⟨p, b, by simp [topBases, e1], ?_, e3⟩
        simp only [Forest.ofTops, Forest.edges, List.append_nil, List.mem_cons, List.mem_append] at e2 ⊢
        rcases e2 with e2 | e2
        · exact Or.inl e2
        · exact Or.inr (Or.inl e2)
    · rcases ih s c h with ⟨e1, e2, e3⟩ | ⟨p, b, e1, e2, e3⟩
      · left; refine ⟨by simp [Forest.ofTops, Forest.edges, e1], by simp at e2 ⊢; exact Or.inr e2, e3⟩
      · right; exact ⟨p, b, by simp [topBases, e1], by simp [Forest.ofTops, Forest.edges, e2], e3⟩

/-- The second pass, in one piece. -/
theorem vmaLayout_spec {origin : Int} {sects : List Sect} {l : List Placed} {v : VOut}
    (hn : (sects.map (·.name)).Nodup) (h : lmaLayout origin sects = .ok l)
    (hv : vmaLayout sects l = .ok v) :
    ∃ bases : List (Sect × Int), v = vresult l bases [] [] ∧ (bases.map (·.1)).Perm sects ∧
      (∀ s c, (s, c) ∈ bases → s.vfollows = none → ivstartOf l s.name = some c) ∧
      (∀ s c, (s, c) ∈ bases → ∀ n, s.vfollows = some n →
        ∃ p b, (p, b) ∈ bases ∧ p.name = n ∧ c = vOf (p, b) + p.length) := by
  unfold vmaLayout at hv
  split at hv
  · cases hv
  · rename_i f hf
    obtain ⟨he, hh⟩ := link_edges hn hf
    cases hv
    obtain ⟨hperm, _, _⟩ := lmaLayout_spec hn h
    have hnodes : f.nodes.Perm sects := by
      have := he.map (·.2)
      rw [edges_nodes] at this
      simpa [Function.comp_def] using this
    have hiv : ∀ s ∈ sects, s.vfollows = none → (ivstartOf l s.name).isSome := by
      intro s hs hnone
      obtain ⟨p, hp, e⟩ := List.mem_map.1 (hperm.mem_iff.2 hs)
      rw [← e, ivstartOf_mem hn hperm hp]
      obtain ⟨d, _, hd⟩ := lmaLayout_delta (fun _ => True) hn h trivial (by intros; trivial) p hp
      rw [hd]
      unfold vmaOf
      rw [e, hnone]
      cases s.vstart with
      | some v => rfl
      | none => cases s.valign <;> rfl
    have htops : ∀ g ∈ f.tops, g.1 ∈ sects ∧ g.1.vfollows = none := by
      intro g hg
      have : g.1 ∈ f.heads := by rw [← tops_heads]; exact List.mem_map_of_mem hg
      rw [hh] at this
      exact ⟨List.mem_of_mem_filter this, by have := List.of_mem_filter this; simpa using this⟩
    refine ⟨topBases l f.tops, vassignTops_eq l f.tops [] [] (fun g hg => hiv _ (htops g hg).1 (htops g hg).2), ?_, ?_, ?_⟩
    · rw [topBases_nodes, ofTops_tops]; exact hnodes
    · intro s c hc hnone
      rcases topBases_spec l f.tops s c hc with ⟨e1, e2, e3⟩ | ⟨p, b, e1, e2, e3⟩
      · have hs : s ∈ sects := by
          obtain ⟨g, hg, e⟩ := List.mem_map.1 e2
          rw [← e]; exact (htops g hg).1
        have := hiv s hs hnone
        rcases hi : ivstartOf l s.name with _ | w
        · rw [hi] at this; cases this
        · rw [hi] at e3; rw [e3]; rfl
      · rw [ofTops_tops] at e2
        obtain ⟨s', _, e⟩ := List.mem_map.1 (he.mem_iff.1 e2)
        simp only [Prod.mk.injEq] at e
        rw [e.2] at e
        simp [parent, hnone] at e
    · intro s c hc n hsome
      rcases topBases_spec l f.tops s c hc with ⟨e1, e2, e3⟩ | ⟨p, b, e1, e2, e3⟩
      · obtain ⟨g, hg, e⟩ := List.mem_map.1 e2
        have := (htops g hg).2
        rw [e, hsome] at this; cases this
      · refine ⟨p, b, e1, ?_, e3⟩
        rw [ofTops_tops] at e2
        obtain ⟨s', _, e⟩ := List.mem_map.1 (he.mem_iff.1 e2)
        simp only [Prod.mk.injEq] at e
        rw [e.2] at e
        simp only [parent, hsome, Option.bind_some] at e
        have := List.find?_some e.1
        simpa using this

/-! ### the default layout -/

theorem link_none (key : Sect → Option Name) : ∀ (l : List Sect) (f : Forest), (∀ s ∈ l, key s = none) →
    link key l f = .ok f := by
  intro l
  induction l with
  | nil => intro f _; rfl
  | cons s l ih =>
    intro f h
    simp only [link, h s (by simp)]
    exact ih f (fun x hx => h x (by simp [hx]))

theorem ofList_tops (l : List Sect) : (Forest.ofList l).tops = l.map (fun s => (s, Forest.nil)) := by
  induction l with
  | nil => rfl
  | cons s l ih => simp [Forest.ofList, Forest.tops, ih]

theorem sortTops_default (l : List Sect) (h : ∀ s ∈ l, s.start = none) :
    sortTops (l.map (fun s => (s, Forest.nil))) =
      (l.filter (fun s => !s.bss) ++ l.filter (fun s => s.bss)).map (fun s => (s, Forest.nil)) := by
  have hfree : ∀ g ∈ l.map (fun s => (s, Forest.nil)), free g = true := by
    intro g hg
    obtain ⟨s, hs, e⟩ := List.mem_map.1 hg
    subst e; simp [free, h s hs]
  have h1 := sortTops_free (l.map (fun s => (s, Forest.nil)))
  rw [List.filter_eq_self.2 (fun g hg => hfree g ((sortTops_perm _).mem_iff.1 hg))] at h1
  rw [h1, List.map_append]
  congr 1
  · rw [List.filter_map]
    congr 1
    apply List.filter_congr
    intro s hs
    have := hfree (s, .nil) (List.mem_map.2 ⟨s, hs, rfl⟩)
    simp [this]
  · rw [List.filter_map]
    congr 1
    apply List.filter_congr
    intro s hs
    have := hfree (s, .nil) (List.mem_map.2 ⟨s, hs, rfl⟩)
    simp [this]

theorem assignTops_default : ∀ (l : List Sect) (st : Assign), (∀ s ∈ l, s.start = none) →
    (∀ s ∈ l, 0 < s.wantAlign) →
    ∃ new : List Placed, (assignTops (l.map (fun s => (s, Forest.nil))) st.last st).out = st.out ++ new ∧
      new.map (·.sect) = l ∧ Sequential st.last new := by
  intro l
  induction l with
  | nil => intro st _ _; exact ⟨[], by simp [assignTops], rfl, trivial⟩
  | cons s l ih =>
    intro st h hp
    have hs : s.start = none := h s (by simp)
    simp only [List.map_cons, assignTops, assignAll, hs, Option.getD_none]
    obtain ⟨new, e1, e2, e3⟩ := ih (placeOne s st.last st) (fun x hx => h x (by simp [hx])) (fun x hx => hp x (by simp [hx]))
    have hf := lmaOf_first (hp s (by simp)) st.last
    have hlast : (placeOne s st.last st).last = lmaOf s st.last + s.length := by
      simp only [placeOne]
      split
      · rfl
      · have := hf.1; omega
    refine ⟨⟨s, lmaOf s st.last, (vmaOf s (lmaOf s st.last) st.vdelta).1⟩ :: new, ?_, by simp [e2], ?_⟩
    · rw [e1]; simp [placeOne]
    · refine ⟨hf, ?_⟩
      rw [hlast] at e3
      exact e3

end Verif.Bin
