import Verif.Symtab.Spec
import Verif.Hamt.Props
/-
Lemmas about the symbol table.
-/
set_option linter.unusedSimpArgs false
namespace Verif.Symtab
open Verif.Hamt (Key Hamt Out)
open Verif.Errwarn (Global)

/-- Number of the record of a stored spelling. -/
def lk (t : Tab) (n : Key) : Option Nat := (t.table.entries.find? (fun e => e.1 == n)).map (·.2)

/-- The record of a stored spelling. -/
def recOf (t : Tab) (n : Key) : Option Rec := (lk t n).bind (fun i => t.recs[i]?)

/-- The table is in order. -/
structure Good (t : Tab) : Prop where
  inv : Hamt.Inv cfg t.table
  keys : (t.table.entries.map (·.1)).Nodup
  owned : (t.table.entries.map (·.2) ++ t.nonTable).Perm (List.range t.recs.length)
  names : ∀ e ∈ t.table.entries, ∃ r, t.recs[e.2]? = some r ∧ r.name = e.1 ∧ r.notInTable = false

theorem good_create : Good .create := by
  refine ⟨Hamt.create_inv _, ?_, ?_, ?_⟩ <;> simp [Tab.create, Hamt.create]

theorem cfg_eqv (a b : Key) : cfg.eqv a b = (a == b) := rfl

theorem lk_mem {t : Tab} {n : Key} {i : Nat} (h : lk t n = some i) : (n, i) ∈ t.table.entries := by
  unfold lk at h
  cases hf : t.table.entries.find? (fun e => e.1 == n) with
  | none => rw [hf] at h; simp at h
  | some e =>
    rw [hf] at h
    simp only [Option.map_some, Option.some.injEq] at h
    have h1 := List.find?_some hf
    have h2 := List.mem_of_find?_eq_some hf
    simp only [beq_iff_eq] at h1
    obtain ⟨a, b⟩ := e
    simp only at h h1
    subst h h1
    exact h2

theorem lk_of_mem {t : Tab} (hg : Good t) {n : Key} {i : Nat} (h : (n, i) ∈ t.table.entries) : lk t n = some i := by
  unfold lk
  cases hf : t.table.entries.find? (fun e => e.1 == n) with
  | none =>
    rw [List.find?_eq_none] at hf
    exact absurd (hf _ h) (by simp)
  | some e =>
    have h1 := List.find?_some hf
    have h2 := List.mem_of_find?_eq_some hf
    simp only [beq_iff_eq] at h1
    have hk := hg.keys
    have : e = (n, i) := by
      obtain ⟨p, hp, he⟩ := List.getElem_of_mem h2
      obtain ⟨q, hq, hi⟩ := List.getElem_of_mem h
      have : p = q := by
        have hpq := List.nodup_iff_injective_get.1 hk
        have e1 : (t.table.entries.map (·.1))[p]'(by simpa using hp) = n := by simp [he, h1]
        have e2 : (t.table.entries.map (·.1))[q]'(by simpa using hq) = n := by simp [hi]
        have := @hpq ⟨p, by simpa using hp⟩ ⟨q, by simpa using hq⟩ (by simp only [List.get_eq_getElem]; rw [e1, e2])
        simpa using this
      subst this
      rw [← he, ← hi]
    rw [this]; rfl

theorem data_nodup {t : Tab} (hg : Good t) : (t.table.entries.map (·.2) ++ t.nonTable).Nodup :=
  hg.owned.nodup_iff.2 List.nodup_range

theorem lk_inj {t : Tab} (hg : Good t) {m n : Key} {i : Nat} (h1 : lk t m = some i) (h2 : lk t n = some i) : m = n := by
  have a := lk_mem h1
  have b := lk_mem h2
  have hd := (List.nodup_append.1 (data_nodup hg)).1
  obtain ⟨p, hp, he⟩ := List.getElem_of_mem a
  obtain ⟨q, hq, hi⟩ := List.getElem_of_mem b
  have : p = q := by
    have hpq := List.nodup_iff_injective_get.1 hd
    have := @hpq ⟨p, by simpa using hp⟩ ⟨q, by simpa using hq⟩ (by simp [he, hi])
    simpa using this
  subst this
  rw [he] at hi
  exact (Prod.ext_iff.1 hi).1

theorem lk_lt {t : Tab} (hg : Good t) {n : Key} {i : Nat} (h : lk t n = some i) : i < t.recs.length := by
  have : i ∈ t.table.entries.map (·.2) ++ t.nonTable :=
    List.mem_append_left _ (List.mem_map.2 ⟨_, lk_mem h, rfl⟩)
  simpa using hg.owned.mem_iff.1 this

theorem find_lk (t : Tab) (n : Key) : (Hamt.Spec.find cfg.eqv t.table.entries n).map (·.2) = lk t n := rfl

theorem get_eq {t : Tab} (hg : Good t) (name : Key) : t.get name = .ok (lk t (t.norm name)) := by
  unfold Tab.get
  rw [Hamt.search_spec (Hamt.ofNocase_lawful false) hg.inv, find_lk]

/-- What `getOrNewIn` gives. -/
structure GotNew (t t1 : Tab) (n : Key) (i : Nat) (r : Rec) : Prop where
  good : Good t1
  cs : t1.caseSensitive = t.caseSensitive
  att : t1.attached = t.attached
  found : lk t1 n = some i
  record : t1.recs[i]? = some r
  how : (lk t n = some i ∧ t1.table.entries = t.table.entries ∧ t1.recs = t.recs ∧ t1.nonTable = t.nonTable) ∨
        (lk t n = none ∧ r = newRec n false ∧ i = t.recs.length ∧ t1.recs = t.recs ++ [newRec n false] ∧
         t1.table.entries = t.table.entries ++ [(n, i)] ∧ t1.nonTable = t.nonTable)

theorem getOrNewIn_spec {t : Tab} (hg : Good t) (fuel : Nat) (name : Key) :
    t.getOrNewIn fuel name = .diverged ∨
    ∃ t1 i r, t.getOrNewIn fuel name = .ok (t1, i) ∧ GotNew t t1 (t.norm name) i r := by
  unfold Tab.getOrNewIn
  simp only
  generalize hn : t.norm name = n
  rcases Hamt.insert_spec (Hamt.ofNocase_lawful false) hg.inv fuel n t.recs.length false with ⟨h', h1, h2, h3, _⟩ | ⟨h1, _⟩
  · right
    rw [h1]
    simp only
    unfold Hamt.Spec.result Hamt.Spec.insert at *
    cases hf : Hamt.Spec.find cfg.eqv t.table.entries n with
    | none =>
      have hl : lk t n = none := by rw [← find_lk, hf]; rfl
      simp only [hf] at h3 ⊢
      simp only [if_true]
      have hnew : ∀ e ∈ t.table.entries, e.1 ≠ n := by
        intro e he hen
        unfold Hamt.Spec.find at hf
        rw [List.find?_eq_none] at hf
        exact hf e he (by simp [cfg_eqv, hen])
      refine ⟨_, _, newRec n false, rfl, ⟨⟨h2, ?_, ?_, ?_⟩, rfl, rfl, ?_, ?_, ?_⟩⟩
      · simp only [h3, List.map_append, List.map_cons, List.map_nil]
        rw [List.nodup_append]
        refine ⟨hg.keys, by simp, ?_⟩
        intro a ha b hb
        simp only [List.mem_singleton] at hb; subst hb
        obtain ⟨e, he, rfl⟩ := List.mem_map.1 ha
        exact hnew e he
      · simp only [h3, List.map_append, List.map_cons, List.map_nil, List.length_append, List.length_singleton]
        rw [List.range_succ, List.append_assoc]
        refine List.Perm.trans ?_ ((List.perm_append_comm).trans (hg.owned.append_right _))
        simp only [List.singleton_append, List.cons_append]
        exact List.perm_middle.trans (by rfl)
      · intro e he
        simp only [h3, List.mem_append, List.mem_singleton] at he
        rcases he with he | rfl
        · obtain ⟨r, hr1, hr2⟩ := hg.names e he
          refine ⟨r, ?_, hr2⟩
          simp only
          rw [List.getElem?_append_left (by rw [List.getElem?_eq_some_iff] at hr1; exact hr1.1)]
          exact hr1
        · exact ⟨newRec n false, by simp, rfl, rfl⟩
      · unfold lk
        simp only [h3]
        have e1 : (fun e : Key × Nat => e.1 == n) = fun e => e.1 == n := rfl
        rw [List.find?_append]
        have : t.table.entries.find? (fun e => e.1 == n) = none := by
          rw [List.find?_eq_none]; intro e he; simpa using hnew e he
        rw [this]; simp
      · simp
      · right
        exact ⟨hl, rfl, rfl, rfl, h3, rfl⟩
    | some e =>
      have hl : lk t n = some e.2 := by rw [← find_lk, hf]; rfl
      simp only [hf, Bool.false_eq_true, if_false] at h3 ⊢
      have hlt := lk_lt hg hl
      rw [if_neg (show ¬ e.2 = t.recs.length by omega)]
      obtain ⟨r, hr⟩ : ∃ r, t.recs[e.2]? = some r := ⟨_, List.getElem?_eq_getElem hlt⟩
      refine ⟨_, _, r, rfl, ⟨⟨h2, ?_, ?_, ?_⟩, rfl, rfl, ?_, hr, ?_⟩⟩
      · simp only [h3]; exact hg.keys
      · simp only [h3]; exact hg.owned
      · simp only [h3]; exact hg.names
      · unfold lk; simp only [h3]; exact hl
      · left; exact ⟨hl, h3, rfl, rfl⟩
  · left; rw [h1]

/-- The name and the effect on record and error indicator of the calls on names of the table. -/
def defEff (n : Key) (type : SymType) (line : Nat) (fill : Rec → Rec) (g : Global) (r : Rec) : Rec × Global :=
  let r1 := if r.defined then r else r.define type line
  let g1 := r.defineDiag n g
  (if errorOccurred g1 then r1 else fill r1, g1)

def Op.eff : Op → Option (Key × (Global → Rec → Rec × Global))
  | .use n l => some (n, fun g r => (r.use l, g))
  | .equ n e l => some (n, defEff n .equ l fun r => { r with value := .expn e, valued := true })
  | .label n bc true l => some (n, defEff n .label l fun r => { r with value := .precbc bc })
  | .special n v => some (n, defEff n .special 0 fun r => { r with valued := true, vis := v })
  | .declare n v l => some (n, fun g r => r.declare v l g)
  | .abs e => some ([], fun g r => ({ r with
        defLine := 0, declLine := 0, useLine := 0, type := .equ, value := .expn e
        defined := true, valued := true, used := true }, g))
  | _ => none

theorem modify_const {l : List Rec} {i : Nat} {r : Rec} (h : l[i]? = some r) (f : Rec → Rec) :
    l.modify i f = l.set i (f r) := by
  induction l generalizing i with
  | nil => simp
  | cons a l ih =>
    cases i with
    | zero => simp only [List.getElem?_cons_zero, Option.some.injEq] at h; subst h; simp [List.modify_cons]
    | succ i => simp only [List.getElem?_cons_succ] at h; simp [List.modify_cons, ih h]

/-- State after a call on a name of the table. -/
structure Stepped (s s' : State) (n : Key) (F : Global → Rec → Rec × Global) (t1 : Tab) (i : Nat) (r : Rec) : Prop where
  got : GotNew s.tab t1 n i r
  recs : s'.tab.recs = t1.recs.set i (F s.g r).1
  table : s'.tab.table = t1.table
  nonTable : s'.tab.nonTable = t1.nonTable
  cs : s'.tab.caseSensitive = t1.caseSensitive
  g : s'.g = (F s.g r).2
  last : s'.last = some i

theorem set_same {l : List Rec} {i : Nat} {r : Rec} (h : l[i]? = some r) : l.set i r = l := by
  rw [List.getElem?_eq_some_iff] at h
  obtain ⟨hi, rfl⟩ := h
  exact List.set_getElem_self hi

theorem define_spec {t : Tab} (hg : Good t) (g : Global) (fuel : Nat) (name : Key) (type : SymType) (line : Nat) :
    t.define g fuel name type true line = .diverged ∨
    ∃ t1 i r, GotNew t t1 (t.norm name) i r ∧
      t.define g fuel name type true line = .ok
        ({ t1 with recs := t1.recs.set i (if r.defined then r else r.define type line) }, r.defineDiag name g, i) := by
  unfold Tab.define Tab.getOrNew
  simp only [if_true]
  rcases getOrNewIn_spec hg fuel name with h | ⟨t1, i, r, h, hgot⟩
  · left; rw [h]
  · right
    rw [h]
    refine ⟨t1, i, r, hgot, ?_⟩
    simp only [hgot.record]
    cases hd : r.defined with
    | true => simp [set_same hgot.record]
    | false => simp [Tab.update, modify_const hgot.record]

theorem step_in {fuel : Nat} {s : State} (hg : Good s.tab) {op : Op} {n : Key} {F} (he : op.eff = some (n, F)) :
    step fuel s op = .diverged ∨
    ∃ s' t1 i r, step fuel s op = .ok s' ∧ Stepped s s' (s.tab.norm n) F t1 i r := by
  cases op with
  | setCase b => simp [Op.eff] at he
  | diag g => simp [Op.eff] at he
  | curpos _ _ _ => simp [Op.eff] at he
  | use m l =>
    simp only [Op.eff, Option.some.injEq, Prod.mk.injEq] at he
    obtain ⟨rfl, rfl⟩ := he
    simp only [step, Tab.use, Tab.getOrNew, if_true]
    rcases getOrNewIn_spec hg fuel m with h | ⟨t1, i, r, h, hgot⟩
    · left; rw [h]; rfl
    · right; rw [h]
      exact ⟨_, t1, i, r, rfl, ⟨hgot, by simp [Tab.update, modify_const hgot.record], rfl, rfl, rfl, rfl, rfl⟩⟩
  | abs e =>
    simp only [Op.eff, Option.some.injEq, Prod.mk.injEq] at he
    obtain ⟨rfl, rfl⟩ := he
    simp only [step, Tab.absSym, Tab.getOrNew, if_true]
    rcases getOrNewIn_spec hg fuel [] with h | ⟨t1, i, r, h, hgot⟩
    · left; rw [h]; rfl
    · right; rw [h]
      exact ⟨_, t1, i, r, rfl, ⟨hgot, by simp [Tab.update, modify_const hgot.record], rfl, rfl, rfl, rfl, rfl⟩⟩
  | declare m v l =>
    simp only [Op.eff, Option.some.injEq, Prod.mk.injEq] at he
    obtain ⟨rfl, rfl⟩ := he
    simp only [step, Tab.declare, Tab.getOrNew, if_true]
    rcases getOrNewIn_spec hg fuel m with h | ⟨t1, i, r, h, hgot⟩
    · left; rw [h]; rfl
    · right; rw [h]
      simp only [hgot.record]
      exact ⟨_, t1, i, r, rfl, ⟨hgot, by simp [Tab.update, modify_const hgot.record], rfl, rfl, rfl, rfl, rfl⟩⟩
  | equ m e l =>
    simp only [Op.eff, Option.some.injEq, Prod.mk.injEq] at he
    obtain ⟨rfl, rfl⟩ := he
    simp only [step, Tab.defineEqu]
    rcases define_spec hg s.g fuel m .equ l with h | ⟨t1, i, r, hgot, h⟩
    · left; rw [h]; rfl
    · right; rw [h]
      simp only
      have hi : i < t1.recs.length := by
        have := hgot.record; rw [List.getElem?_eq_some_iff] at this; exact this.1
      split
      · rename_i ho
        exact ⟨_, t1, i, r, rfl, ⟨hgot, by simp [defEff, ho], rfl, rfl, rfl, rfl, rfl⟩⟩
      · rename_i ho
        refine ⟨_, t1, i, r, rfl, ⟨hgot, ?_, rfl, rfl, rfl, rfl, rfl⟩⟩
        simp only [Tab.update, defEff, ho]
        rw [modify_const (r := if r.defined then r else r.define .equ l) (by simp [hi])]
        simp
  | special m v =>
    simp only [Op.eff, Option.some.injEq, Prod.mk.injEq] at he
    obtain ⟨rfl, rfl⟩ := he
    simp only [step, Tab.defineSpecial]
    rcases define_spec hg s.g fuel m .special 0 with h | ⟨t1, i, r, hgot, h⟩
    · left; rw [h]; rfl
    · right; rw [h]
      simp only
      have hi : i < t1.recs.length := by
        have := hgot.record; rw [List.getElem?_eq_some_iff] at this; exact this.1
      split
      · rename_i ho
        exact ⟨_, t1, i, r, rfl, ⟨hgot, by simp [defEff, ho], rfl, rfl, rfl, rfl, rfl⟩⟩
      · rename_i ho
        refine ⟨_, t1, i, r, rfl, ⟨hgot, ?_, rfl, rfl, rfl, rfl, rfl⟩⟩
        simp only [Tab.update, defEff, ho]
        rw [modify_const (r := if r.defined then r else r.define .special 0) (by simp [hi])]
        simp
  | label m bc b l =>
    cases b with
    | false => simp [Op.eff] at he
    | true =>
      simp only [Op.eff, Option.some.injEq, Prod.mk.injEq] at he
      obtain ⟨rfl, rfl⟩ := he
      simp only [step, Tab.defineLabel]
      rcases define_spec hg s.g fuel m .label l with h | ⟨t1, i, r, hgot, h⟩
      · left; rw [h]; rfl
      · right; rw [h]
        simp only
        have hi : i < t1.recs.length := by
          have := hgot.record; rw [List.getElem?_eq_some_iff] at this; exact this.1
        split
        · rename_i ho
          exact ⟨_, t1, i, r, rfl, ⟨hgot, by simp [defEff, ho], rfl, rfl, rfl, rfl, rfl⟩⟩
        · rename_i ho
          refine ⟨_, t1, i, r, rfl, ?_⟩
          cases bc with
          | none =>
            refine ⟨hgot, ?_, rfl, rfl, rfl, rfl, rfl⟩
            simp only [Tab.update, defEff, ho]
            rw [modify_const (r := if r.defined then r else r.define .label l) (by simp [hi])]
            simp
          | some b =>
            refine ⟨hgot, ?_, rfl, rfl, rfl, rfl, rfl⟩
            simp only [Tab.update, defEff, ho]
            rw [modify_const (r := if r.defined then r else r.define .label l) (by simp [hi])]
            simp

theorem defEff_name (n : Key) (ty : SymType) (l : Nat) (f : Rec → Rec) (hf : ∀ r, (f r).name = r.name ∧ (f r).notInTable = r.notInTable)
    (g : Global) (r : Rec) : (defEff n ty l f g r).1.name = r.name ∧ (defEff n ty l f g r).1.notInTable = r.notInTable := by
  unfold defEff
  simp only
  split
  · split <;> simp [Rec.define]
  · rw [(hf _).1, (hf _).2]; split <;> simp [Rec.define]

theorem eff_name {op : Op} {n : Key} {F} (he : op.eff = some (n, F)) (g : Global) (r : Rec) :
    (F g r).1.name = r.name ∧ (F g r).1.notInTable = r.notInTable := by
  cases op with
  | setCase b => simp [Op.eff] at he
  | diag g => simp [Op.eff] at he
  | curpos _ _ _ => simp [Op.eff] at he
  | use m l => simp only [Op.eff, Option.some.injEq, Prod.mk.injEq] at he; obtain ⟨rfl, rfl⟩ := he; exact ⟨rfl, rfl⟩
  | abs e => simp only [Op.eff, Option.some.injEq, Prod.mk.injEq] at he; obtain ⟨rfl, rfl⟩ := he; exact ⟨rfl, rfl⟩
  | declare m v l =>
    simp only [Op.eff, Option.some.injEq, Prod.mk.injEq] at he; obtain ⟨rfl, rfl⟩ := he
    simp only [Rec.declare]; split <;> exact ⟨rfl, rfl⟩
  | equ m e l =>
    simp only [Op.eff, Option.some.injEq, Prod.mk.injEq] at he; obtain ⟨rfl, rfl⟩ := he
    apply defEff_name; intro r; exact ⟨rfl, rfl⟩
  | special m v =>
    simp only [Op.eff, Option.some.injEq, Prod.mk.injEq] at he; obtain ⟨rfl, rfl⟩ := he
    apply defEff_name; intro r; exact ⟨rfl, rfl⟩
  | label m bc b l =>
    cases b with
    | false => simp [Op.eff] at he
    | true =>
      simp only [Op.eff, Option.some.injEq, Prod.mk.injEq] at he; obtain ⟨rfl, rfl⟩ := he
      apply defEff_name; intro r; exact ⟨rfl, rfl⟩

theorem GotNew.lt {t t1 : Tab} {n : Key} {i : Nat} {r : Rec} (h : GotNew t t1 n i r) : i < t1.recs.length := by
  have := h.record; rw [List.getElem?_eq_some_iff] at this; exact this.1

theorem stepped_good {s s' : State} {n : Key} {F} {t1 : Tab} {i : Nat} {r : Rec} (h : Stepped s s' n F t1 i r)
    (hn : (F s.g r).1.name = r.name ∧ (F s.g r).1.notInTable = r.notInTable) : Good s'.tab := by
  have hg := h.got.good
  refine ⟨by rw [h.table]; exact hg.inv, by rw [h.table]; exact hg.keys, ?_, ?_⟩
  · rw [h.table, h.nonTable, h.recs, List.length_set]; exact hg.owned
  · intro e he
    rw [h.table] at he
    obtain ⟨q, hq1, hq2⟩ := hg.names e he
    rw [h.recs]
    by_cases hi : i = e.2
    · subst hi
      rw [h.got.record] at hq1
      simp only [Option.some.injEq] at hq1; subst hq1
      exact ⟨(F s.g r).1, by simp [h.got.lt], by rw [hn.1, hn.2]; exact hq2⟩
    · exact ⟨q, by rw [List.getElem?_set_ne hi]; exact hq1, hq2⟩

theorem gotNew_lk {t t1 : Tab} {n : Key} {i : Nat} {r : Rec} (h : GotNew t t1 n i r) {m : Key} (hm : m ≠ n) :
    lk t1 m = lk t m := by
  unfold lk
  rcases h.how with ⟨_, h2, _⟩ | ⟨_, _, _, _, h5, _⟩
  · rw [h2]
  · rw [h5, List.find?_append]
    simp [Ne.symm hm]

/-- The record of the name is the one there was, or a new one. -/
theorem gotNew_rec {t t1 : Tab} (hg : Good t) {n : Key} {i : Nat} {r : Rec} (h : GotNew t t1 n i r) :
    r = (recOf t n).getD (newRec n false) := by
  unfold recOf
  rcases h.how with ⟨h1, _, h3, _⟩ | ⟨h1, h2, _⟩
  · have := h.record; rw [h3] at this
    rw [h1]; simp [this]
  · rw [h1]; simp [h2]

theorem stepped_rec {s s' : State} (hg : Good s.tab) {n : Key} {F} {t1 : Tab} {i : Nat} {r : Rec} (h : Stepped s s' n F t1 i r) :
    recOf s'.tab n = some (F s.g r).1 ∧ ∀ m, m ≠ n → recOf s'.tab m = recOf s.tab m := by
  have hlk : ∀ m, lk s'.tab m = lk t1 m := by intro m; unfold lk; rw [h.table]
  constructor
  · unfold recOf
    rw [hlk, h.got.found, h.recs]
    simp [h.got.lt]
  · intro m hm
    unfold recOf
    rw [hlk, gotNew_lk h.got hm, h.recs]
    cases hl : lk s.tab m with
    | none => rfl
    | some j =>
      have hj : j ≠ i := by
        intro hji; subst hji
        have : lk t1 m = some j := by rw [gotNew_lk h.got hm]; exact hl
        exact hm (lk_inj h.got.good this h.got.found)
      simp only [Option.bind_some]
      rw [List.getElem?_set_ne (Ne.symm hj)]
      rcases h.got.how with ⟨_, _, h3, _⟩ | ⟨_, _, _, h4, _⟩
      · rw [h3]
      · rw [h4, List.getElem?_append_left (lk_lt hg hl)]

/-- Calls that make a record outside the table. -/
theorem out_good {t : Tab} (hg : Good t) (name : Key) (f : Rec → Rec) :
    Good (((t.getOrNewOut name).1).update (t.getOrNewOut name).2 f) ∧
    (∀ m, lk (((t.getOrNewOut name).1).update (t.getOrNewOut name).2 f) m = lk t m) ∧
    ∀ j, j < t.recs.length → (((t.getOrNewOut name).1).update (t.getOrNewOut name).2 f).recs[j]? = t.recs[j]? := by
  have hk : ∀ j, j < t.recs.length → (((t.getOrNewOut name).1).update (t.getOrNewOut name).2 f).recs[j]? = t.recs[j]? := by
    intro j hj
    simp only [Tab.getOrNewOut, Tab.update]
    rw [modify_const (r := newRec (t.norm name) true) (by simp), List.getElem?_set_ne (by omega),
      List.getElem?_append_left hj]
  refine ⟨⟨hg.inv, hg.keys, ?_, ?_⟩, fun _ => rfl, hk⟩
  · simp only [Tab.getOrNewOut, Tab.update, List.length_modify, List.length_append, List.length_singleton]
    rw [List.range_succ]
    refine List.Perm.trans List.perm_middle ?_
    exact (hg.owned.cons _).trans (List.perm_append_singleton _ _).symm
  · intro e he
    obtain ⟨r, h1, h2⟩ := hg.names e he
    refine ⟨r, ?_, h2⟩
    rw [hk _ (by rw [List.getElem?_eq_some_iff] at h1; exact h1.1)]
    exact h1

/-- The calls without effect on the names of the table. -/
theorem step_out {fuel : Nat} {s : State} (hg : Good s.tab) {op : Op} (he : op.eff = none) :
    ∃ s', step fuel s op = .ok s' ∧ Good s'.tab ∧ (∀ m, lk s'.tab m = lk s.tab m) ∧
      (∀ j, j < s.tab.recs.length → s'.tab.recs[j]? = s.tab.recs[j]?) ∧
      s'.tab.caseSensitive = (match op with | .setCase b => b | _ => s.tab.caseSensitive) := by
  cases op with
  | setCase b => exact ⟨_, rfl, ⟨hg.inv, hg.keys, hg.owned, hg.names⟩, fun _ => rfl, fun _ _ => rfl, rfl⟩
  | diag g => exact ⟨_, rfl, hg, fun _ => rfl, fun _ _ => rfl, rfl⟩
  | use m l => simp [Op.eff] at he
  | abs e => simp [Op.eff] at he
  | declare m v l => simp [Op.eff] at he
  | equ m e l => simp [Op.eff] at he
  | special m v => simp [Op.eff] at he
  | curpos m bc l =>
    have hnew : (s.tab.getOrNewOut m).1.recs[(s.tab.getOrNewOut m).2]? = some (newRec (s.tab.norm m) true) := by
      simp [Tab.getOrNewOut]
    simp only [step, Tab.defineCurpos, Tab.define, Tab.getOrNew, Bool.false_eq_true, if_false]
    rw [hnew]
    simp only [newRec, Bool.false_eq_true, if_false]
    split
    · exact ⟨_, rfl, (out_good hg m _).1, (out_good hg m _).2.1, (out_good hg m _).2.2, rfl⟩
    · refine ⟨_, rfl, ?_⟩
      have : ∀ (t : Tab) i f g, (t.update i f).update i g = t.update i (fun r => g (f r)) := by
        intro t i f g
        simp only [Tab.update]
        congr 1
        induction t.recs generalizing i with
        | nil => simp
        | cons a l ih => cases i <;> simp [List.modify_cons, ih]
      simp only [this]
      exact ⟨(out_good hg m _).1, (out_good hg m _).2.1, (out_good hg m _).2.2, rfl⟩
  | label m bc b l =>
    cases b with
    | true => simp [Op.eff] at he
    | false =>
      have hnew : (s.tab.getOrNewOut m).1.recs[(s.tab.getOrNewOut m).2]? = some (newRec (s.tab.norm m) true) := by
        simp [Tab.getOrNewOut]
      simp only [step, Tab.defineLabel, Tab.define, Tab.getOrNew, Bool.false_eq_true, if_false]
      rw [hnew]
      simp only [newRec, Bool.false_eq_true, if_false]
      split
      · exact ⟨_, rfl, (out_good hg m _).1, (out_good hg m _).2.1, (out_good hg m _).2.2, rfl⟩
      · refine ⟨_, rfl, ?_⟩
        have : ∀ (t : Tab) i f g, (t.update i f).update i g = t.update i (fun r => g (f r)) := by
          intro t i f g
          simp only [Tab.update]
          congr 1
          induction t.recs generalizing i with
          | nil => simp
          | cons a l ih => cases i <;> simp [List.modify_cons, ih]
        simp only [this]
        exact ⟨(out_good hg m _).1, (out_good hg m _).2.1, (out_good hg m _).2.2, rfl⟩

theorem out_rec {s s' : State} (hg : Good s.tab) (h1 : ∀ m, lk s'.tab m = lk s.tab m)
    (h2 : ∀ j, j < s.tab.recs.length → s'.tab.recs[j]? = s.tab.recs[j]?) (m : Key) : recOf s'.tab m = recOf s.tab m := by
  unfold recOf
  rw [h1]
  cases hl : lk s.tab m with
  | none => rfl
  | some i => exact h2 i (lk_lt hg hl)

theorem run_good {fuel : Nat} (ops : List Op) (s : State) (hg : Good s.tab) :
    run fuel s ops = .diverged ∨ ∃ s', run fuel s ops = .ok s' ∧ Good s'.tab := by
  induction ops generalizing s with
  | nil => exact Or.inr ⟨s, rfl, hg⟩
  | cons op ops ih =>
    simp only [run]
    cases he : op.eff with
    | none =>
      obtain ⟨s', h1, h2, _⟩ := step_out (fuel := fuel) hg he
      rw [h1]; exact ih s' h2
    | some p =>
      obtain ⟨n, F⟩ := p
      rcases step_in (fuel := fuel) hg he with h | ⟨s', t1, i, r, h, hs⟩
      · left; rw [h]
      · rw [h]; exact ih s' (stepped_good hs (eff_name he _ _))

/-- The effect of an event on what matters here. -/
structure Facts where
  used : Bool
  defined : Bool
  type : SymType
  defLine : Nat
  useLine : Nat

def Rec.facts (r : Rec) : Facts := ⟨r.used, r.defined, r.type, r.defLine, r.useLine⟩
def Facts.new : Facts := ⟨false, false, .unknown, 0, 0⟩

def Ev.apply : Ev → Facts → Facts
  | .used l, f => { f with used := true, useLine := if f.useLine = 0 then l else f.useLine }
  | .defined t l, f => if f.defined then f else { f with defined := true, type := t, defLine := l }
  | .declared _ _, f => f
  | .absolute, _ => ⟨true, true, .equ, 0, 0⟩

/-- The event of a call on a name. -/
def Op.ev : Op → Ev
  | .use _ l => .used l
  | .equ _ _ l => .defined .equ l
  | .label _ _ _ l => .defined .label l
  | .special _ _ => .defined .special 0
  | .declare _ v l => .declared v l
  | _ => .absolute

theorem defEff_facts (n : Key) (ty : SymType) (l : Nat) (f : Rec → Rec) (hf : ∀ r, (f r).facts = r.facts)
    (g : Global) (r : Rec) : (defEff n ty l f g r).1.facts = (Ev.defined ty l).apply r.facts := by
  unfold defEff
  simp only
  have : (if r.defined then r else r.define ty l).facts = (Ev.defined ty l).apply r.facts := by
    simp only [Ev.apply]
    cases hd : r.defined <;> simp [Rec.facts, Rec.define, hd]
  split
  · exact this
  · rw [hf]; exact this

theorem eff_facts {op : Op} {n : Key} {F} (he : op.eff = some (n, F)) (g : Global) (r : Rec) :
    (F g r).1.facts = op.ev.apply r.facts := by
  cases op with
  | setCase b => simp [Op.eff] at he
  | diag g => simp [Op.eff] at he
  | curpos _ _ _ => simp [Op.eff] at he
  | use m l => simp only [Op.eff, Option.some.injEq, Prod.mk.injEq] at he; obtain ⟨rfl, rfl⟩ := he; rfl
  | abs e => simp only [Op.eff, Option.some.injEq, Prod.mk.injEq] at he; obtain ⟨rfl, rfl⟩ := he; rfl
  | declare m v l =>
    simp only [Op.eff, Option.some.injEq, Prod.mk.injEq] at he; obtain ⟨rfl, rfl⟩ := he
    simp only [Rec.declare]; split <;> rfl
  | equ m e l =>
    simp only [Op.eff, Option.some.injEq, Prod.mk.injEq] at he; obtain ⟨rfl, rfl⟩ := he
    apply defEff_facts; intro r; rfl
  | special m v =>
    simp only [Op.eff, Option.some.injEq, Prod.mk.injEq] at he; obtain ⟨rfl, rfl⟩ := he
    apply defEff_facts; intro r; rfl
  | label m bc b l =>
    cases b with
    | false => simp [Op.eff] at he
    | true =>
      simp only [Op.eff, Option.some.injEq, Prod.mk.injEq] at he; obtain ⟨rfl, rfl⟩ := he
      apply defEff_facts; intro r; rfl

theorem norm_eq (t : Tab) (n : Key) : t.norm n = normal t.caseSensitive n := rfl

theorem events_eff {op : Op} {m : Key} {F} (he : op.eff = some (m, F)) (cs : Bool) (n : Key) (ops : List Op) :
    events cs n (op :: ops) = (if normal cs m = n then [op.ev] else []) ++ events cs n ops ∧
    mode cs (op :: ops) = mode cs ops := by
  cases op with
  | setCase b => simp [Op.eff] at he
  | diag g => simp [Op.eff] at he
  | curpos _ _ _ => simp [Op.eff] at he
  | use k l => simp only [Op.eff, Option.some.injEq, Prod.mk.injEq] at he; obtain ⟨rfl, rfl⟩ := he; exact ⟨rfl, rfl⟩
  | abs e =>
    simp only [Op.eff, Option.some.injEq, Prod.mk.injEq] at he; obtain ⟨rfl, rfl⟩ := he
    refine ⟨?_, rfl⟩
    have h0 : normal cs [] = [] := by unfold normal; split <;> rfl
    simp only [events, Op.ev, h0]
    by_cases hn : n = []
    · subst hn; simp
    · rw [if_neg hn, if_neg (Ne.symm hn)]
  | declare k v l => simp only [Op.eff, Option.some.injEq, Prod.mk.injEq] at he; obtain ⟨rfl, rfl⟩ := he; exact ⟨rfl, rfl⟩
  | equ k e l => simp only [Op.eff, Option.some.injEq, Prod.mk.injEq] at he; obtain ⟨rfl, rfl⟩ := he; exact ⟨rfl, rfl⟩
  | special k v => simp only [Op.eff, Option.some.injEq, Prod.mk.injEq] at he; obtain ⟨rfl, rfl⟩ := he; exact ⟨rfl, rfl⟩
  | label k bc b l =>
    cases b with
    | false => simp [Op.eff] at he
    | true =>
      simp only [Op.eff, Option.some.injEq, Prod.mk.injEq] at he; obtain ⟨rfl, rfl⟩ := he
      refine ⟨?_, rfl⟩
      simp [events, Op.ev]

theorem events_out {op : Op} (he : op.eff = none) (cs : Bool) (n : Key) (ops : List Op) :
    events cs n (op :: ops) = events (match op with | .setCase b => b | _ => cs) n ops ∧
    mode cs (op :: ops) = mode (match op with | .setCase b => b | _ => cs) ops := by
  cases op with
  | setCase b => exact ⟨rfl, rfl⟩
  | diag g => exact ⟨rfl, rfl⟩
  | curpos _ _ _ => exact ⟨rfl, rfl⟩
  | use m l => simp [Op.eff] at he
  | abs e => simp [Op.eff] at he
  | declare m v l => simp [Op.eff] at he
  | equ m e l => simp [Op.eff] at he
  | special m v => simp [Op.eff] at he
  | label m bc b l =>
    cases b with
    | true => simp [Op.eff] at he
    | false => refine ⟨?_, rfl⟩; simp [events]

/-- A history acts on each name by its events only. -/
theorem run_facts {fuel : Nat} (ops : List Op) (s s' : State) (hg : Good s.tab) (h : run fuel s ops = .ok s') (n : Key) :
    (recOf s'.tab n).map Rec.facts =
      (match events s.tab.caseSensitive n ops with
       | [] => (recOf s.tab n).map Rec.facts
       | evs => some (evs.foldl (fun f e => e.apply f) (((recOf s.tab n).map Rec.facts).getD .new))) ∧
    s'.tab.caseSensitive = mode s.tab.caseSensitive ops := by
  induction ops generalizing s with
  | nil => simp only [run, Out.ok.injEq] at h; subst h; exact ⟨rfl, rfl⟩
  | cons op ops ih =>
    simp only [run] at h
    cases he : op.eff with
    | none =>
      obtain ⟨s1, h1, h2, h3, h4, h5⟩ := step_out (fuel := fuel) hg he
      rw [h1] at h
      obtain ⟨i1, i2⟩ := ih s1 h2 h
      obtain ⟨e1, e2⟩ := events_out he s.tab.caseSensitive n ops
      rw [e1, e2, i1, i2, h5, out_rec hg h3 h4]
      exact ⟨rfl, rfl⟩
    | some p =>
      obtain ⟨m, F⟩ := p
      rcases step_in (fuel := fuel) hg he with h1 | ⟨s1, t1, i, r, h1, hs⟩
      · rw [h1] at h; simp at h
      · rw [h1] at h
        obtain ⟨i1, i2⟩ := ih s1 (stepped_good hs (eff_name he _ _)) h
        obtain ⟨e1, e2⟩ := events_eff he s.tab.caseSensitive n ops
        have hcs : s1.tab.caseSensitive = s.tab.caseSensitive := by rw [hs.cs, hs.got.cs]
        rw [hcs] at i1 i2
        rw [e1, e2]
        refine ⟨?_, i2⟩
        rw [i1]
        obtain ⟨r1, r2⟩ := stepped_rec hg hs
        have hr := gotNew_rec hg hs.got
        by_cases hmn : normal s.tab.caseSensitive m = n
        · subst hmn
          rw [norm_eq] at r1 hr
          rw [r1]
          simp only [if_true, List.singleton_append, Option.map_some, Option.getD_some, List.foldl_cons,
            eff_facts he]
          have hf : r.facts = ((recOf s.tab (normal s.tab.caseSensitive m)).map Rec.facts).getD .new := by
            rw [hr]; cases recOf s.tab (normal s.tab.caseSensitive m) <;> rfl
          rw [hf]
          cases events s.tab.caseSensitive (normal s.tab.caseSensitive m) ops <;> rfl
        · rw [if_neg hmn, r2 n (fun h => hmn h.symm)]
          rfl

end Verif.Symtab
