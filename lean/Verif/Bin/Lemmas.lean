import Verif.Bin.Spec
import Mathlib.Data.List.Nodup
import Mathlib.Data.List.Perm.Subperm
/-
Lemmas on the groups of the flat binary format.
-/
set_option linter.unusedSimpArgs false
set_option linter.unusedVariables false
namespace Verif.Bin

/-- The sections of a forest. -/
def Forest.nodes : Forest → List Sect
  | .nil => []
  | .cons s follow rest => s :: (follow.nodes ++ rest.nodes)

/-- The sections of a forest with the one each hangs under. -/
def Forest.edges (par : Option Sect) : Forest → List (Option Sect × Sect)
  | .nil => []
  | .cons s follow rest => (par, s) :: (follow.edges (some s) ++ rest.edges par)

/-- The sections of the main list. -/
def Forest.heads : Forest → List Sect
  | .nil => []
  | .cons s _ rest => s :: rest.heads

theorem edges_nodes (f : Forest) : ∀ par, (f.edges par).map (·.2) = f.nodes := by
  induction f with
  | nil => intro _; rfl
  | cons s a b iha ihb => intro par; simp [Forest.edges, Forest.nodes, iha, ihb]

theorem heads_nodes (f : Forest) : ∀ s ∈ f.heads, s ∈ f.nodes := by
  induction f with
  | nil => intro s h; cases h
  | cons t a b iha ihb =>
    intro s h
    simp only [Forest.heads, List.mem_cons] at h
    rcases h with h | h
    · subst h; simp [Forest.nodes]
    · have := ihb s h; simp [Forest.nodes, this]

theorem tops_heads (f : Forest) : f.tops.map (·.1) = f.heads := by
  induction f with
  | nil => rfl
  | cons s a b iha ihb => simp [Forest.tops, Forest.heads, ihb]

theorem find_some {n : Name} {p : Sect} : ∀ {f : Forest}, f.find n = some p → p ∈ f.nodes ∧ p.name = n := by
  intro f
  induction f with
  | nil => intro h; cases h
  | cons t a b iha ihb =>
    intro h
    simp only [Forest.find] at h
    split at h
    · cases h; simp [Forest.nodes]; assumption
    · rcases ha : a.find n with _ | q
      · rw [ha] at h
        have := ihb (by simpa using h)
        exact ⟨by simp [Forest.nodes, this.1], this.2⟩
      · rw [ha] at h
        have e : q = p := by simpa using h
        have := iha (by rw [ha, e])
        exact ⟨by simp [Forest.nodes, this.1], this.2⟩

theorem find_none {n : Name} : ∀ {f : Forest}, f.find n = none → ∀ p ∈ f.nodes, p.name ≠ n := by
  intro f
  induction f with
  | nil => intro _ p h; cases h
  | cons t a b iha ihb =>
    intro h p hp
    simp only [Forest.find] at h
    split at h
    · cases h
    · rcases ha : a.find n with _ | q
      · rw [ha] at h
        simp only [Forest.nodes, List.mem_cons, List.mem_append] at hp
        rcases hp with hp | hp | hp
        · subst hp; assumption
        · exact iha ha p hp
        · exact ihb (by simpa using h) p hp
      · rw [ha] at h; simp at h

theorem find_isSome {n : Name} {f : Forest} : (f.find n).isSome = true ↔ ∃ p ∈ f.nodes, p.name = n := by
  constructor
  · intro h
    obtain ⟨p, hp⟩ := Option.isSome_iff_exists.1 h
    exact ⟨p, find_some hp⟩
  · rintro ⟨p, hp, e⟩
    rcases h : f.find n with _ | q
    · exact absurd e (find_none h p hp)
    · rfl

theorem inj_name {l : List Sect} (h : (l.map (·.name)).Nodup) {a b : Sect} (ha : a ∈ l) (hb : b ∈ l)
    (e : a.name = b.name) : a = b :=
  List.inj_on_of_nodup_map h ha hb e

theorem snoc_edges (s : Sect) (own : Forest) (f : Forest) : ∀ par,
    (f.snoc s own).edges par = f.edges par ++ (par, s) :: own.edges (some s) := by
  induction f with
  | nil => intro par; simp [Forest.snoc, Forest.edges]
  | cons t a b iha ihb => intro par; simp [Forest.snoc, Forest.edges, ihb]

theorem insert_edges {n : Name} {p : Sect} (s : Sect) (own : Forest) : ∀ (f : Forest) (par : Option Sect),
    f.find n = some p →
    ((f.insert n s own).edges par).Perm (f.edges par ++ (some p, s) :: own.edges (some s)) := by
  intro f
  induction f with
  | nil => intro par h; cases h
  | cons t a b iha ihb =>
    intro par h
    simp only [Forest.find] at h
    simp only [Forest.insert]
    split at h
    · rename_i e
      cases h
      rw [if_pos e]
      simp only [Forest.edges, snoc_edges, List.cons_append, List.append_assoc]
      refine List.Perm.cons _ (List.Perm.append_left _ ?_)
      have := List.perm_append_comm (l₁ := (some p, s) :: own.edges (some s)) (l₂ := b.edges par)
      simpa using this
    · rename_i e
      rw [if_neg e]
      rcases ha : a.find n with _ | q
      · rw [ha] at h
        have h' : b.find n = some p := by simpa using h
        simp only [Option.isSome_none, Bool.false_eq_true, if_false, Forest.edges, List.cons_append,
          List.append_assoc]
        exact List.Perm.cons _ (List.Perm.append_left _ (ihb par h'))
      · rw [ha] at h
        have h' : q = p := by simpa using h
        subst h'
        simp only [Option.isSome_some, if_true, Forest.edges, List.cons_append, List.append_assoc]
        refine List.Perm.cons _ (((iha (some t) ha).append_right _).trans ?_)
        rw [List.append_assoc]
        refine List.Perm.append_left _ ?_
        exact List.perm_append_comm

theorem insert_heads (n : Name) (s : Sect) (own : Forest) (f : Forest) :
    (f.insert n s own).heads = f.heads := by
  induction f with
  | nil => rfl
  | cons t a b iha ihb =>
    simp only [Forest.insert]
    split
    · rfl
    · split
      · rfl
      · simp [Forest.heads, ihb]

theorem remove_edges {s : Sect} : ∀ (f : Forest), (f.nodes.map (·.name)).Nodup → s ∈ f.heads →
    (f.edges none).Perm ((f.remove s.name).edges none ++ (none, s) :: (f.own s.name).edges (some s)) := by
  intro f
  induction f with
  | nil => intro _ h; cases h
  | cons t a b iha ihb =>
    intro hn h
    have hs : s ∈ (Forest.cons t a b).nodes := heads_nodes _ s h
    have ht : t ∈ (Forest.cons t a b).nodes := by simp [Forest.nodes]
    simp only [Forest.remove, Forest.own]
    by_cases e : t.name = s.name
    · have : t = s := inj_name hn ht hs e
      subst this
      simp only [if_pos, Forest.edges]
      refine List.Perm.trans ?_ List.perm_append_comm
      simp
    · rw [if_neg e, if_neg e]
      simp only [Forest.heads, List.mem_cons] at h
      have h' : s ∈ b.heads := by
        rcases h with h | h
        · subst h; exact absurd rfl e
        · exact h
      have hb : (b.nodes.map (·.name)).Nodup := by
        simp only [Forest.nodes, List.map_cons, List.map_append] at hn
        exact ((List.nodup_append.1 (List.nodup_cons.1 hn).2).2).1
      simp only [Forest.edges, List.cons_append, List.append_assoc]
      exact List.Perm.cons _ (List.Perm.append_left _ (ihb hb h'))

theorem remove_heads {s : Sect} (n : Name) : ∀ (f : Forest), (f.remove n).heads = f.heads.eraseP (·.name = n) := by
  intro f
  induction f with
  | nil => rfl
  | cons t a b iha ihb =>
    simp only [Forest.remove, Forest.heads]
    by_cases e : t.name = n
    · simp [e]
    · rw [if_neg e]; simp [Forest.heads, List.eraseP_cons, e, ihb]

theorem ofList_edges (l : List Sect) : (Forest.ofList l).edges none = l.map (fun s => (none, s)) := by
  induction l with
  | nil => rfl
  | cons s l ih => simp [Forest.ofList, Forest.edges, ih]

theorem ofList_heads (l : List Sect) : (Forest.ofList l).heads = l := by
  induction l with
  | nil => rfl
  | cons s l ih => simp [Forest.ofList, Forest.heads, ih]

/-- The section a section follows. -/
def parent (key : Sect → Option Name) (sects : List Sect) (s : Sect) : Option Sect :=
  (key s).bind fun n => sects.find? (·.name = n)

theorem find?_unique {sects : List Sect} (hn : (sects.map (·.name)).Nodup) {p : Sect} (hp : p ∈ sects) :
    sects.find? (·.name = p.name) = some p := by
  rcases h : sects.find? (·.name = p.name) with _ | q
  · have := List.find?_eq_none.1 h p hp; simp at this
  · have h1 := List.find?_some h
    have h2 := List.mem_of_find?_eq_some h
    have : q = p := inj_name hn h2 hp (by simpa using h1)
    subst this; exact h

/-- What the linking loop maintains. -/
structure LinkInv (key : Sect → Option Name) (done todo : List Sect) (f : Forest) : Prop where
  edges : (f.edges none).Perm
    (done.map (fun s => (parent key (done ++ todo) s, s)) ++ todo.map (fun s => (none, s)))
  heads : f.heads = done.filter (fun s => (key s).isNone) ++ todo

theorem LinkInv.nodes {key done todo f} (h : LinkInv key done todo f) : f.nodes.Perm (done ++ todo) := by
  have := h.edges.map (·.2)
  rw [edges_nodes] at this
  refine this.trans (List.Perm.of_eq ?_)
  simp [List.map_append, List.map_map, Function.comp_def]

theorem link_step {key : Sect → Option Name} {done todo : List Sect} {s : Sect} {f : Forest}
    (hn : ((done ++ s :: todo).map (·.name)).Nodup) (h : LinkInv key done (s :: todo) f)
    {n : Name} {p : Sect} (hk : key s = some n) (hp : f.find n = some p)
    (h1 : s.name ≠ p.name) (h2 : ((f.own s.name).find p.name).isSome = false) :
    LinkInv key (done ++ [s]) todo ((f.remove s.name).insert n s (f.own s.name)) := by
  have hnodes := h.nodes
  have hfn : (f.nodes.map (·.name)).Nodup := (hnodes.map (·.name)).nodup_iff.2 hn
  have hs : s ∈ f.heads := by rw [h.heads]; simp
  have hr := remove_edges f hfn hs
  obtain ⟨hpn, hpe⟩ := find_some hp
  have hpd : p ∈ done ++ s :: todo := hnodes.mem_iff.1 hpn
  have hrn : f.nodes.Perm ((f.remove s.name).nodes ++ s :: (f.own s.name).nodes) := by
    have := hr.map (·.2)
    simpa [edges_nodes] using this
  have hpr : p ∈ (f.remove s.name).nodes := by
    have := hrn.mem_iff.1 hpn
    simp only [List.mem_append, List.mem_cons] at this
    rcases this with this | this | this
    · exact this
    · exact absurd (by rw [this]) h1
    · have : ((f.own s.name).find p.name).isSome = true := find_isSome.2 ⟨p, this, rfl⟩
      rw [h2] at this; cases this
  have hfind : (f.remove s.name).find n = some p := by
    rcases hq : (f.remove s.name).find n with _ | q
    · exact absurd hpe (find_none hq p hpr)
    · obtain ⟨q1, q2⟩ := find_some hq
      have : q ∈ f.nodes := hrn.mem_iff.2 (by simp [q1])
      rw [inj_name hfn this hpn (by rw [q2, hpe])]
  have hpar : parent key (done ++ s :: todo) s = some p := by
    simp only [parent, hk, Option.bind_some]
    rw [← hpe]; exact find?_unique hn hpd
  constructor
  · have hi := insert_edges s (f.own s.name) (f.remove s.name) none hfind
    have e0 : List.Perm ((f.remove s.name).edges none ++ (none, s) :: (f.own s.name).edges (some s))
        (done.map (fun s' => (parent key (done ++ s :: todo) s', s')) ++ (none, s) :: todo.map (fun s => (none, s))) := by
      exact hr.symm.trans h.edges
    have e1 : List.Perm ((f.remove s.name).edges none ++ (f.own s.name).edges (some s))
        (done.map (fun s' => (parent key (done ++ s :: todo) s', s')) ++ todo.map (fun s => ((none : Option Sect), s))) :=
      List.Perm.cons_inv ((List.perm_middle.symm.trans e0).trans List.perm_middle)
    refine hi.trans (List.perm_middle.trans (List.Perm.trans (List.Perm.cons _ e1) ?_))
    rw [show done ++ [s] ++ todo = done ++ s :: todo by simp]
    simp only [List.map_append, List.map_cons, List.map_nil, hpar, List.append_assoc, List.cons_append,
      List.nil_append]
    exact List.perm_middle.symm
  · rw [insert_heads, remove_heads (s := s), h.heads]
    rw [List.filter_append, List.filter_cons_of_neg (by simp [hk]), List.filter_nil, List.append_nil]
    rw [List.eraseP_append_right]
    · simp
    · intro q hq e
      have e' : q.name = s.name := by simpa using e
      have hq' : q ∈ done := List.mem_of_mem_filter hq
      simp only [List.map_append, List.map_cons] at hn
      have := (List.nodup_append.1 hn).2.2 _ (List.mem_map_of_mem hq') _ (List.mem_cons_self)
      exact this e'

theorem link_skip {key : Sect → Option Name} {done todo : List Sect} {s : Sect} {f : Forest}
    (h : LinkInv key done (s :: todo) f) (hk : key s = none) : LinkInv key (done ++ [s]) todo f := by
  constructor
  · refine h.edges.trans (List.Perm.of_eq ?_)
    have : parent key (done ++ s :: todo) s = none := by simp [parent, hk]
    rw [show done ++ [s] ++ todo = done ++ s :: todo by simp]
    simp [List.map_append, this]
  · rw [h.heads, List.filter_append, List.filter_cons_of_pos (by simp [hk])]
    simp

theorem link_ok (key : Sect → Option Name) : ∀ (todo done : List Sect) (f g : Forest),
    ((done ++ todo).map (·.name)).Nodup → LinkInv key done todo f → link key todo f = .ok g →
    LinkInv key (done ++ todo) [] g := by
  intro todo
  induction todo with
  | nil => intro done f g _ h e; cases e; simpa using h
  | cons s todo ih =>
    intro done f g hn h e
    simp only [link] at e
    have hn' : ((done ++ [s] ++ todo).map (·.name)).Nodup := by simpa using hn
    rw [show done ++ s :: todo = done ++ [s] ++ todo by simp]
    rcases hk : key s with _ | n
    · rw [hk] at e
      exact ih (done ++ [s]) f g hn' (link_skip h hk) e
    · rw [hk] at e
      rcases hp : f.find n with _ | p
      · simp only [hp] at e; cases e
      · simp only [hp] at e
        split at e
        · cases e
        · rename_i hc
          have hc := not_or.1 hc
          exact ih (done ++ [s]) _ g hn' (link_step hn h hk hp hc.1 (by simpa using hc.2)) e

theorem linkInv_init (key : Sect → Option Name) (sects : List Sect) :
    LinkInv key [] sects (Forest.ofList sects) := by
  constructor
  · rw [ofList_edges]; simp
  · rw [ofList_heads]; simp

/-- The groups after linking: every section once, under the one it follows. -/
theorem link_edges {key : Sect → Option Name} {sects : List Sect} {g : Forest}
    (hn : (sects.map (·.name)).Nodup) (h : link key sects (Forest.ofList sects) = .ok g) :
    (g.edges none).Perm (sects.map (fun s => (parent key sects s, s))) ∧
    g.heads = sects.filter (fun s => (key s).isNone) := by
  have := link_ok key sects [] _ g (by simpa using hn) (linkInv_init key sects) h
  refine ⟨by simpa using this.edges, by simpa using this.heads⟩

/-! ### loops -/

theorem edges_rank (rank : Name → Nat) : ∀ (f : Forest) (p : Sect),
    (∀ q s, (some q, s) ∈ f.edges (some p) → rank q.name < rank s.name) →
    ∀ x ∈ f.nodes, rank p.name < rank x.name := by
  intro f
  induction f with
  | nil => intro p _ x hx; cases hx
  | cons t a b iha ihb =>
    intro p h x hx
    have ht : rank p.name < rank t.name := h p t (by simp [Forest.edges])
    simp only [Forest.nodes, List.mem_cons, List.mem_append] at hx
    rcases hx with hx | hx | hx
    · rw [hx]; exact ht
    · have := iha t (fun q s hq => h q s (by simp [Forest.edges, hq])) x hx
      omega
    · exact ihb p (fun q s hq => h q s (by simp [Forest.edges, hq])) x hx

/-- Without loops and unknown names, linking succeeds. -/
theorem link_succeeds {key : Sect → Option Name} {sects : List Sect} (hk : Known key sects)
    (ha : Acyclic key sects) : ∀ (todo done : List Sect) (f : Forest), done ++ todo = sects →
    (sects.map (·.name)).Nodup → LinkInv key done todo f → ∃ g, link key todo f = .ok g := by
  intro todo
  induction todo with
  | nil => intro done f _ _ _; exact ⟨f, rfl⟩
  | cons s todo ih =>
    intro done f e hn h
    simp only [link]
    have e' : done ++ [s] ++ todo = sects := by simpa using e
    have hs : s ∈ sects := by rw [← e]; simp
    rcases hks : key s with _ | n
    · exact ih (done ++ [s]) f e' hn (link_skip h hks)
    · obtain ⟨p', hp', pe'⟩ := hk s hs n hks
      have hnodes : f.nodes.Perm sects := by have := h.nodes; rwa [e] at this
      rcases hp : f.find n with _ | p
      · exact absurd pe' (find_none hp p' (hnodes.mem_iff.2 hp'))
      · obtain ⟨hpn, hpe⟩ := find_some hp
        obtain ⟨rank, hr⟩ := ha
        have hlt : rank p.name < rank s.name := by rw [hpe]; exact hr s hs n hks
        have h1 : s.name ≠ p.name := by intro c; rw [c] at hlt; omega
        have h2 : ((f.own s.name).find p.name).isSome = false := by
          rcases hb : ((f.own s.name).find p.name).isSome with _ | _
          · rfl
          · obtain ⟨x, hx, xe⟩ := find_isSome.1 hb
            have hfn : (f.nodes.map (·.name)).Nodup := (hnodes.map (·.name)).nodup_iff.2 hn
            have hrm := remove_edges f hfn (s := s) (by rw [h.heads]; simp)
            have := edges_rank rank (f.own s.name) s (by
              intro q t hqt
              have hm : (some q, t) ∈ f.edges none := hrm.mem_iff.2 (by simp [hqt])
              have hm := h.edges.mem_iff.1 hm
              simp only [List.mem_append, List.mem_map, Prod.mk.injEq] at hm
              rcases hm with ⟨t', ht', e1, e2⟩ | ⟨t', _, e1, _⟩
              · subst e2
                rw [e] at e1
                simp only [parent] at e1
                rcases hkt : key t' with _ | m
                · rw [hkt] at e1; cases e1
                · rw [hkt] at e1
                  simp only [Option.bind_some] at e1
                  have := List.find?_some e1
                  rw [show q.name = m by simpa using this]
                  exact hr t' (by rw [← e]; simp [ht']) m hkt
              · cases e1) x hx
            rw [xe] at this; omega
        simp only [hp]
        rw [if_neg (by simp [h1, h2])]
        exact ih (done ++ [s]) _ e' hn (link_step (by rw [e]; exact hn) h hks hp h1 h2)

/-- The depth of a name in a forest. -/
def Forest.depth (n : Name) : Forest → Nat → Nat
  | .nil, k => k
  | .cons s a b, k =>
    if s.name = n then k else if (a.find n).isSome then a.depth n (k + 1) else b.depth n k

theorem depth_ge (n : Name) : ∀ (f : Forest) (k : Nat), k ≤ f.depth n k := by
  intro f
  induction f with
  | nil => intro k; exact Nat.le_refl k
  | cons s a b iha ihb =>
    intro k
    simp only [Forest.depth]
    split
    · exact Nat.le_refl k
    · split
      · exact Nat.le_trans (Nat.le_succ k) (iha (k + 1))
      · exact ihb k

theorem edges_mem (f : Forest) : ∀ (par : Option Sect) (q : Option Sect) (s : Sect), (q, s) ∈ f.edges par →
    s ∈ f.nodes ∧ (q = par ∨ ∃ p, q = some p ∧ p ∈ f.nodes) := by
  induction f with
  | nil => intro _ _ _ h; cases h
  | cons t a b iha ihb =>
    intro par q s h
    simp only [Forest.edges, List.mem_cons, List.mem_append, Prod.mk.injEq] at h
    rcases h with ⟨h1, h2⟩ | h | h
    · exact ⟨by simp [Forest.nodes, h2], Or.inl h1⟩
    · obtain ⟨i, j⟩ := iha _ _ _ h
      refine ⟨by simp [Forest.nodes, i], Or.inr ?_⟩
      rcases j with j | ⟨p, j1, j2⟩
      · exact ⟨t, j, by simp [Forest.nodes]⟩
      · exact ⟨p, j1, by simp [Forest.nodes, j2]⟩
    · obtain ⟨i, j⟩ := ihb _ _ _ h
      refine ⟨by simp [Forest.nodes, i], ?_⟩
      rcases j with j | ⟨p, j1, j2⟩
      · exact Or.inl j
      · exact Or.inr ⟨p, j1, by simp [Forest.nodes, j2]⟩

theorem depth_edges : ∀ (f : Forest) (k : Nat), (f.nodes.map (·.name)).Nodup →
    ∀ (par : Option Sect), (∀ p, par = some p → p ∉ f.nodes) → ∀ p s, (some p, s) ∈ f.edges par →
    some p ≠ par → f.depth p.name k < f.depth s.name k := by
  intro f
  induction f with
  | nil => intro _ _ _ _ _ _ h; cases h
  | cons t a b iha ihb =>
    intro k hn par hpar p s h hne
    have hn0 := hn
    simp only [Forest.nodes, List.map_cons, List.map_append, List.nodup_cons, List.mem_append,
      List.nodup_append] at hn
    obtain ⟨ht, ha, hb, hab⟩ := hn
    have hx : ∀ x ∈ a.nodes, t.name ≠ x.name := by
      intro x hx c; exact ht (Or.inl (by rw [c]; exact List.mem_map_of_mem hx))
    have hy : ∀ x ∈ b.nodes, t.name ≠ x.name := by
      intro x hx c; exact ht (Or.inr (by rw [c]; exact List.mem_map_of_mem hx))
    have hz : ∀ x ∈ b.nodes, (a.find x.name).isSome = false := by
      intro x hx
      rcases h : (a.find x.name).isSome with _ | _
      · rfl
      · obtain ⟨y, y1, y2⟩ := find_isSome.1 h
        exact absurd y2 (hab _ (List.mem_map_of_mem y1) _ (List.mem_map_of_mem hx))
    have hw : ∀ x ∈ a.nodes, (a.find x.name).isSome = true := fun x hx => find_isSome.2 ⟨x, hx, rfl⟩
    simp only [Forest.edges, List.mem_cons, List.mem_append, Prod.mk.injEq] at h
    rcases h with ⟨h1, h2⟩ | h | h
    · exact absurd h1 hne
    · obtain ⟨hs, hp⟩ := edges_mem a _ _ _ h
      have es : (Forest.cons t a b).depth s.name k = a.depth s.name (k + 1) := by
        simp only [Forest.depth]; rw [if_neg (hx s hs), if_pos (hw s hs)]
      by_cases hpt : p = t
      · subst hpt
        rw [es]
        simp only [Forest.depth, if_true]
        exact depth_ge _ a (k + 1)
      · have hp' : p ∈ a.nodes := by
          rcases hp with hp | ⟨q, e, hq⟩
          · exact absurd (Option.some.inj hp) hpt
          · cases e; exact hq
        have ep : (Forest.cons t a b).depth p.name k = a.depth p.name (k + 1) := by
          simp only [Forest.depth]; rw [if_neg (hx p hp'), if_pos (hw p hp')]
        rw [es, ep]
        exact iha (k + 1) ha (some t) (by
          intro q e hq; cases e; exact hx t hq rfl) p s h (by simpa using hpt)
    · obtain ⟨hs, hp⟩ := edges_mem b _ _ _ h
      have hp' : p ∈ b.nodes := by
        rcases hp with hp | ⟨q, e, hq⟩
        · exact absurd hp hne
        · cases e; exact hq
      have es : (Forest.cons t a b).depth s.name k = b.depth s.name k := by
        simp only [Forest.depth]; rw [if_neg (hy s hs), hz s hs]; rfl
      have ep : (Forest.cons t a b).depth p.name k = b.depth p.name k := by
        simp only [Forest.depth]; rw [if_neg (hy p hp'), hz p hp']; rfl
      rw [es, ep]
      exact ihb k hb par (by intro q e hq; exact hpar q e (by simp [Forest.nodes, hq])) p s h hne

/-- A linked forest has no loop and no unknown name. -/
theorem link_acyclic {key : Sect → Option Name} {sects : List Sect} {g : Forest}
    (hn : (sects.map (·.name)).Nodup) (h : link key sects (Forest.ofList sects) = .ok g)
    (hk : Known key sects) : Acyclic key sects := by
  obtain ⟨he, _⟩ := link_edges hn h
  have hnodes : g.nodes.Perm sects := by
    have := he.map (·.2)
    rw [edges_nodes] at this
    simpa [Function.comp_def] using this
  refine ⟨fun n => g.depth n 0, ?_⟩
  intro s hs n hks
  obtain ⟨p, hp, pe⟩ := hk s hs n hks
  have hpar : parent key sects s = some p := by
    simp only [parent, hks, Option.bind_some]
    rw [← pe]; exact find?_unique hn hp
  have hm : (some p, s) ∈ g.edges none := he.mem_iff.2 (List.mem_map.2 ⟨s, hs, by rw [hpar]⟩)
  have := depth_edges g 0 ((hnodes.map (·.name)).nodup_iff.2 hn) none (by intro _ e; cases e) p s hm (by simp)
  rw [pe] at this
  exact this

theorem link_known {key : Sect → Option Name} : ∀ (todo done : List Sect) (f g : Forest),
    ((done ++ todo).map (·.name)).Nodup → LinkInv key done todo f → link key todo f = .ok g →
    ∀ s ∈ todo, ∀ n, key s = some n → ∃ p ∈ done ++ todo, p.name = n := by
  intro todo
  induction todo with
  | nil => intro _ _ _ _ _ _ s hs; cases hs
  | cons s todo ih =>
    intro done f g hn h e x hx n hxn
    simp only [link] at e
    have hn' : ((done ++ [s] ++ todo).map (·.name)).Nodup := by simpa using hn
    rw [show done ++ s :: todo = done ++ [s] ++ todo by simp]
    rcases hk : key s with _ | m
    · rw [hk] at e
      rcases List.mem_cons.1 hx with hx | hx
      · rw [hx, hk] at hxn; cases hxn
      · exact ih (done ++ [s]) f g hn' (link_skip h hk) e x hx n hxn
    · rw [hk] at e
      rcases hp : f.find m with _ | p
      · simp only [hp] at e; cases e
      · simp only [hp] at e
        split at e
        · cases e
        · rename_i hc
          have hc := not_or.1 hc
          rcases List.mem_cons.1 hx with hx | hx
          · rw [hx, hk] at hxn
            cases hxn
            obtain ⟨p1, p2⟩ := find_some hp
            exact ⟨p, by have := h.nodes.mem_iff.1 p1; simpa using this, p2⟩
          · exact ih (done ++ [s]) _ g hn' (link_step hn h hk hp hc.1 (by simpa using hc.2)) e x hx n hxn

end Verif.Bin
