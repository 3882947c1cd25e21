import Verif.Elf.Strtab
import Mathlib.Data.List.Nodup
/-
The symbol table, symbol by symbol: what the entries become does not depend on the other symbols, and the local ones
come first.
-/
set_option linter.unusedSimpArgs false
namespace Verif.Elf

/-- An entry with its name spelled out (the place of the name is left out). -/
abbrev AE := Entry × Option Name

def anon (e : Entry) : Entry := { e with name := none }

def NameRep (t : List Str) : Option Nat → Option Name → Prop
  | none, none => True
  | some k, some s => 2 ≤ k ∧ strAt t k = some s
  | _, _ => False

def Rep (t : List Str) : Option Entry → Option AE → Prop
  | none, none => True
  | some e, some (b, s) => anon e = b ∧ NameRep t e.name s
  | _, _ => False

theorem NameRep.append {t u k s} (h : NameRep t k s) : NameRep (t ++ u) k s := by
  cases k <;> cases s <;> simp only [NameRep] at h ⊢
  exact ⟨h.1, strAt_append h.2⟩

theorem Rep.append {t u e a} (h : Rep t e a) : Rep (t ++ u) e a := by
  cases e <;> cases a <;> simp only [Rep] at h ⊢
  exact ⟨h.1, h.2.append⟩

theorem Rep.strSet {t e a s} (hc : Chain 0 t) (h : Rep t e a) : Rep (strSet t 1 s) e a := by
  cases e <;> cases a <;> simp only [Rep] at h ⊢
  refine ⟨h.1, ?_⟩
  obtain ⟨_, h⟩ := h
  revert h
  cases Entry.name _ <;> cases (Prod.snd _ : Option Name) <;> simp only [NameRep, imp_self]
  rintro ⟨h1, h2⟩
  exact ⟨h1, by rw [strAt_set hc (by omega)]; exact h2⟩

/-! ### The steps for one symbol -/

def aGet (a : Option AE) (name : Name) : AE := a.getD (newEntry none, some name)

def aAppend (a : Option AE) (name : Name) (index bind type vis : Nat) (xsize : Option Num) (value : Option Nat) : AE :=
  ({ setNonzero { (aGet a name).1 with inTable := true } none index bind type xsize value with vis := vis % 4 },
    (aGet a name).2)

def aType (a : Option AE) (name : Name) (t : Option Nat) : AE :=
  match t with
  | some t => ({ (aGet a name).1 with type := t }, (aGet a name).2)
  | none => aGet a name

def aSize (a : Option AE) (name : Name) (x : Option Num) : AE :=
  match x with
  | some x => ({ (aGet a name).1 with xsize := some x }, (aGet a name).2)
  | none => aGet a name

def aDir (o : Obj) (n : Nat) (s : Sym) (a : Option AE) (d : Dir) : Option AE :=
  match d with
  | .type m t => if m = n then some (aType a s.name t) else a
  | .size m x => if m = n then some (aSize a s.name x) else a
  | .weak m => if m = n then some (aAppend a (o.pre ++ s.name ++ o.suf) shnUndef stbWeak 0 0 none none) else a

def aSetValue (at_ : Option (Nat × Nat)) (a : Option AE) : Option AE :=
  a.map fun x => (setNonzero x.1 (at_.map (·.1)) 0 0 0 none (some ((at_.map (·.2)).getD 0)), x.2)

def aExtern (o : Obj) (s : Sym) (a : Option AE) : Option AE :=
  some (aAppend a (globalName o s) shnUndef stbGlobal 0 0 none none)
def aGlobal (o : Obj) (s : Sym) (a : Option AE) : Option AE :=
  some (aAppend a (globalName o s) shnUndef stbGlobal s.gtype s.gvis s.gsize none)
def aCommon (o : Obj) (s : Sym) (a : Option AE) : Option AE :=
  match s.calign with
  | none => a
  | some v => some (aAppend a (globalName o s) shnCommon stbGlobal 0 0 s.csize (some v))

def aLocalEntry (o : Obj) (s : Sym) (sec : Bool) (a : Option AE) : AE :=
  match a with
  | some x => x
  | none => (newEntry none, if !o.allSyms || sec then none else some (globalName o s))

def aLocal (o : Obj) (s : Sym) (at_ : Option (Nat × Nat)) (a : Option AE) : Option AE :=
  let x := aLocalEntry o s (isSect o s at_) a
  let y : Option AE := some (setNonzero { x.1 with inTable := true } (at_.map (·.1)) 0 0
    (if isSect o s at_ then sttSection else 0) none none, x.2)
  if isSect o s at_ then y else aSetValue at_ y

def aDefined (o : Obj) (s : Sym) (cur : Bool) (at_ : Option (Nat × Nat)) (a : Option AE) : Option AE :=
  if cur then aSetValue at_ a
  else if s.glob then aSetValue at_ (aGlobal o s a)
  else
    match s.kind with
    | .equ _ false => a
    | _ => aLocal o s at_ a

def inTab (a : Option AE) : Bool := (a.map (·.1.inTable)).getD false

def aKind (o : Obj) (s : Sym) (cur : Bool) (a : Option AE) : Option AE :=
  if !s.defined then a
  else
    match s.kind with
    | .other => a
    | .label k off => aDefined o s cur (some (k, off)) a
    | .equ _ _ => aDefined o s cur none a

def aBuild (o : Obj) (s : Sym) (a : Option AE) : Option AE :=
  if s.ext then aExtern o s a
  else if s.common then aKind o s (s.calign.isSome && inTab (aCommon o s a)) (aCommon o s a)
  else aKind o s (inTab a) a

/-! ### The invariant -/

structure Inv (nm : Name) (st : St) (A : Nat → Option AE) (ls gs : List Nat) : Prop where
  chain : Chain 0 st.strtab
  len : 2 ≤ st.strtab.length
  zero : strAt st.strtab 0 = some []
  one : strAt st.strtab 1 = some nm
  null : st.entry .null = some { newEntry none with inTable := true }
  file : st.entry .file = some { newEntry (some 1) with inTable := true, index := shnAbs, type := sttFile }
  rep : ∀ n, Rep st.strtab (st.entry (.sym n)) (A n)
  table : st.table = .null :: .file :: (ls ++ gs).map Ref.sym
  nodup : (ls ++ gs).Nodup
  mem : ∀ n, n ∈ ls ++ gs ↔ inTab (A n) = true
  loc : ∀ n ∈ ls, ∀ x, A n = some x → x.1.bind = 0
  glo : ∀ n ∈ gs, ∀ x, A n = some x → x.1.bind ≠ 0

variable {nm : Name}

def upd (A : Nat → Option AE) (n : Nat) (x : Option AE) : Nat → Option AE := fun m => if m = n then x else A m

theorem upd_self (A n x) : upd A n x n = x := by simp [upd]
theorem upd_ne (A x) {n m} (h : m ≠ n) : upd A n x m = A m := by simp [upd, h]
theorem upd_same (A n) : upd A n (A n) = A := by
  funext m; unfold upd; split
  · subst_vars; rfl
  · rfl
theorem upd_upd (A n x y) : upd (upd A n x) n y = upd A n y := by
  funext m; unfold upd; split <;> rfl

theorem set_self (st : St) (r e) : (st.set r e).entry r = some e := by simp [St.set]
theorem set_ne (st : St) (e) {r q : Ref} (h : q ≠ r) : (st.set r e).entry q = st.entry q := by simp [St.set, h]
theorem set_set (st : St) (r e f) : (st.set r e).set r f = st.set r f := by
  unfold St.set
  simp only [St.mk.injEq, true_and, and_true]
  funext q
  split <;> rfl

/-- An entry of a symbol is changed, strings are added, the table keeps its order or gets the symbol. -/
theorem inv_upd {st A ls gs} (h : Inv nm st A ls gs) {n : Nat} {e : Entry} {x : AE} {u : List Str} {ls' gs' : List Nat}
    {st' : St} (hc : Chain 0 (st.strtab ++ u)) (hr : Rep (st.strtab ++ u) (some e) (some x))
    (hst : st' = St.set ⟨st.strtab ++ u, .null :: .file :: (ls' ++ gs').map Ref.sym, st.entry, st.errors⟩ (.sym n) e)
    (hnd : (ls' ++ gs').Nodup)
    (hl : ∀ m, m ≠ n → (m ∈ ls' ↔ m ∈ ls)) (hg : ∀ m, m ≠ n → (m ∈ gs' ↔ m ∈ gs))
    (hi : n ∈ ls' ++ gs' ↔ x.1.inTable = true) (hln : n ∈ ls' → x.1.bind = 0) (hgn : n ∈ gs' → x.1.bind ≠ 0) :
    Inv nm st' (upd A n (some x)) ls' gs' := by
  subst hst
  have hne : ∀ m, m ≠ n → ∀ f : Entry, (St.set ⟨st.strtab ++ u, .null :: .file :: (ls' ++ gs').map Ref.sym, st.entry,
      st.errors⟩ (.sym n) f).entry (.sym m) = st.entry (.sym m) := by
    intro m hm f
    rw [set_ne _ _ (by intro hh; cases hh; exact hm rfl)]
  refine ⟨hc, ?_, strAt_append h.zero, strAt_append h.one, ?_, ?_, ?_, rfl, hnd, ?_, ?_, ?_⟩
  · show 2 ≤ (st.strtab ++ u).length
    have := h.len
    simp only [List.length_append]; omega
  · rw [set_ne _ _ (by simp)]; exact h.null
  · rw [set_ne _ _ (by simp)]; exact h.file
  · intro m
    by_cases hm : m = n
    · subst hm
      rw [set_self, upd_self]; exact hr
    · rw [hne m hm, upd_ne _ _ hm]
      exact (h.rep m).append
  · intro m
    by_cases hm : m = n
    · subst hm
      rw [upd_self, hi]; simp [inTab]
    · rw [upd_ne _ _ hm, ← h.mem m]
      simp only [List.mem_append, hl m hm, hg m hm]
  · intro m hml y hy
    by_cases hm : m = n
    · subst hm
      rw [upd_self] at hy; cases hy; exact hln hml
    · rw [upd_ne _ _ hm] at hy
      exact h.loc m ((hl m hm).mp hml) y hy
  · intro m hml y hy
    by_cases hm : m = n
    · subst hm
      rw [upd_self] at hy; cases hy; exact hgn hml
    · rw [upd_ne _ _ hm] at hy
      exact h.glo m ((hg m hm).mp hml) y hy

theorem newEntry_inTable (k) : (newEntry k).inTable = false := rfl

theorem inv_table {st A ls gs} (h : Inv nm st A ls gs) :
    st = ⟨st.strtab ++ [], .null :: .file :: (ls ++ gs).map Ref.sym, st.entry, st.errors⟩ := by
  cases st
  simp only [List.append_nil, St.mk.injEq, true_and, and_true]
  exact h.table

/-- The entry of a symbol, or a new one. -/
theorem getOrNew_inv {st A ls gs} (h : Inv nm st A ls gs) (n : Nat) (name : Name) :
    ∃ st' e, getOrNew st n name = some (st', e) ∧ Inv nm st' (upd A n (some (aGet (A n) name))) ls gs ∧
      st'.errors = st.errors ∧ st'.entry (.sym n) = some e ∧ anon e = (aGet (A n) name).1 ∧
      NameRep st'.strtab e.name (aGet (A n) name).2 := by
  unfold getOrNew
  have hr := h.rep n
  rcases he : st.entry (.sym n) with _ | e
  · rcases ha : A n with _ | x
    · obtain ⟨h1, h2⟩ := strAppend_ok name h.chain (by intro hh; have := h.len; simp [hh] at this)
      simp only [h1]
      refine ⟨_, _, rfl, ?_, rfl, set_self _ _ _, rfl, ?_⟩
      · refine inv_upd h h2 (x := aGet none name) ?_ (by rw [h.table]) h.nodup (fun _ _ => Iff.rfl)
          (fun _ _ => Iff.rfl) ?_ ?_ ?_
        · refine ⟨rfl, h.len, ?_⟩
          simp [strAt]
        · rw [h.mem n, ha]; simp [inTab, aGet, newEntry]
        · intro; rfl
        · intro hg
          exfalso
          have := (h.mem n).mp (List.mem_append_right _ hg)
          rw [ha] at this; simp [inTab] at this
      · refine ⟨h.len, ?_⟩
        simp [strAt, St.set]
    · rw [he, ha] at hr; exact hr.elim
  · rcases ha : A n with _ | x
    · rw [he, ha] at hr; exact hr.elim
    · rw [he, ha] at hr
      refine ⟨st, e, rfl, ?_, rfl, he, hr.1, hr.2⟩
      rw [aGet, Option.getD_some, ← ha, upd_same]; exact h

/-- elf_objfmt_symtab_append keeps the invariant; the symbol is among the global ones afterwards. -/
theorem symtabAppend_inv {st A ls gs} (h : Inv nm st A ls gs) {n : Nat} (name : Name) (index : Nat) {bind : Nat}
    (type vis : Nat) (xsize : Option Num) (value : Option Nat) (hb : bind ≠ 0) (hn : n ∉ ls) :
    ∃ st' gs', symtabAppend st n name index bind type vis xsize value = some st' ∧
      Inv nm st' (upd A n (some (aAppend (A n) name index bind type vis xsize value))) ls gs' ∧
      st'.errors = st.errors := by
  obtain ⟨s1, e, hg, hi, herr, hent, han, hnm⟩ := getOrNew_inv h n name
  unfold symtabAppend
  rw [hg]
  simp only
  have hx : (aGet (A n) name).1.inTable = e.inTable := by rw [← han]; rfl
  have hap : anon ({ setNonzero { e with inTable := true } none index bind type xsize value with vis := vis % 4 }) =
      (aAppend (A n) name index bind type vis xsize value).1 := by
    unfold aAppend
    rw [← han]
    simp [anon, setNonzero]
  have hbd : (aAppend (A n) name index bind type vis xsize value).1.bind = bind := by
    simp [aAppend, setNonzero, hb]
  have hit : (aAppend (A n) name index bind type vis xsize value).1.inTable = true := by
    simp [aAppend, setNonzero]
  unfold appendEntry
  have hmem := hi.mem n
  rw [upd_self] at hmem
  rcases hin : e.inTable with _ | _
  · refine ⟨_, gs ++ [n], rfl, ?_, herr⟩
    have hnot : n ∉ ls ++ gs := by
      rw [hmem]; simp [inTab, hx, hin]
    rw [← upd_upd A n (some (aGet (A n) name))]
    refine inv_upd hi (u := []) (by simpa using hi.chain) (x := aAppend (A n) name index bind type vis xsize value)
      (e := { setNonzero { e with inTable := true } none index bind type xsize value with vis := vis % 4 }) ?_ ?_ ?_
      (fun _ _ => Iff.rfl) ?_ ?_ ?_ ?_
    · refine ⟨hap, ?_⟩
      simpa [setNonzero] using hnm
    · rw [hi.table]
      simp [List.append_assoc]
    · rw [← List.append_assoc]
      rw [List.nodup_append]
      refine ⟨hi.nodup, by simp, ?_⟩
      intro a ha b hb' hab
      simp only [List.mem_singleton] at hb'
      subst hb'; subst hab
      exact hnot ha
    · intro m hm; simp [hm]
    · simp [hit]
    · intro hl; exact absurd hl hn
    · intro _; rw [hbd]; exact hb
  · refine ⟨_, gs, rfl, ?_, herr⟩
    rw [← upd_upd A n (some (aGet (A n) name))]
    refine inv_upd hi (u := []) (by simpa using hi.chain) (x := aAppend (A n) name index bind type vis xsize value)
      (e := { setNonzero { e with inTable := true } none index bind type xsize value with vis := vis % 4 }) ?_ ?_ hi.nodup
      (fun _ _ => Iff.rfl) (fun _ _ => Iff.rfl) ?_ ?_ ?_
    · refine ⟨hap, ?_⟩
      simpa [setNonzero] using hnm
    · rw [← inv_table hi]
      congr 1
      cases e
      simp only at hin
      subst hin
      rfl
    · rw [hmem]; simp [inTab, hx, hin, hit]
    · intro hl; exact absurd hl hn
    · intro _; rw [hbd]; exact hb

/-- Changing fields of an entry other than its name, its place in the table and its binding. -/
theorem set_inv {st A ls gs} (h : Inv nm st A ls gs) {n : Nat} {e e' : Entry} {x x' : AE} (he : st.entry (.sym n) = some e)
    (ha : A n = some x) (h1 : anon e' = x'.1) (h2 : e'.name = e.name) (h3 : x'.2 = x.2)
    (h4 : x'.1.inTable = x.1.inTable) (h5 : x'.1.bind = x.1.bind) :
    Inv nm (st.set (.sym n) e') (upd A n (some x')) ls gs := by
  have hr := h.rep n
  rw [he, ha] at hr
  refine inv_upd h (u := []) (by simpa using h.chain) (x := x') (e := e') ?_ ?_ h.nodup
    (fun _ _ => Iff.rfl) (fun _ _ => Iff.rfl) ?_ ?_ ?_
  · refine ⟨h1, ?_⟩
    rw [h2, h3, List.append_nil]; exact hr.2
  · rw [← inv_table h]
  · rw [h.mem n, ha, h4]; simp [inTab]
  · intro hl; rw [h5]; exact h.loc n hl x ha
  · intro hl; rw [h5]; exact h.glo n hl x ha

theorem dirType_inv {st A ls gs} (h : Inv nm st A ls gs) (n : Nat) (name : Name) (t : Option Nat) :
    ∃ st', dirType st n name t = some st' ∧ Inv nm st' (upd A n (some (aType (A n) name t))) ls gs ∧
      st'.errors = st.errors := by
  obtain ⟨s1, e, hg, hi, herr, hent, han, hnm⟩ := getOrNew_inv h n name
  unfold dirType
  rw [hg]
  cases t with
  | none => exact ⟨_, rfl, hi, herr⟩
  | some t =>
    refine ⟨_, rfl, ?_, herr⟩
    rw [← upd_upd A n (some (aGet (A n) name))]
    refine set_inv hi hent (upd_self _ _ _) ?_ rfl rfl rfl rfl
    simp only [aType, ← han]
    rfl

theorem dirSize_inv {st A ls gs} (h : Inv nm st A ls gs) (n : Nat) (name : Name) (t : Option Num) :
    ∃ st', dirSize st n name t = some st' ∧ Inv nm st' (upd A n (some (aSize (A n) name t))) ls gs ∧
      st'.errors = st.errors := by
  obtain ⟨s1, e, hg, hi, herr, hent, han, hnm⟩ := getOrNew_inv h n name
  unfold dirSize
  rw [hg]
  cases t with
  | none => exact ⟨_, rfl, hi, herr⟩
  | some t =>
    refine ⟨_, rfl, ?_, herr⟩
    rw [← upd_upd A n (some (aGet (A n) name))]
    refine set_inv hi hent (upd_self _ _ _) ?_ rfl rfl rfl rfl
    simp only [aSize, ← han]
    rfl

/-- What the directives make of each symbol. -/
def aDirs (o : Obj) (A : Nat → Option AE) (ds : List Dir) : Nat → Option AE := fun n =>
  match o.syms[n]? with
  | some s => ds.foldl (aDir o n s) (A n)
  | none => A n

theorem dir_inv {o : Obj} {st A gs} (h : Inv nm st A [] gs) (d : Dir) :
    ∃ st' gs', dir o st d = some st' ∧ Inv nm st' (aDirs o A [d]) [] gs' ∧ st'.errors = st.errors := by
  have key : ∀ n s, o.syms[n]? = some s → (∀ m s', aDir o m s' (A m) d = if m = n then aDir o n s' (A n) d else A m) →
      aDirs o A [d] = upd A n (aDir o n s (A n) d) := by
    intro n s hs hd
    funext m
    unfold aDirs upd
    split
    · rename_i s' hs'
      simp only [List.foldl_cons, List.foldl_nil]
      rw [hd]
      split
      · rename_i hm; subst hm; rw [hs] at hs'; cases hs'; rfl
      · rfl
    · rename_i hs'
      rw [if_neg]
      intro hm; subst hm; rw [hs] at hs'; exact absurd hs' (by simp)
  have key0 : ∀ n, o.syms[n]? = none → (∀ m s', m ≠ n → aDir o m s' (A m) d = A m) → aDirs o A [d] = A := by
    intro n hs hd
    funext m
    unfold aDirs
    split
    · rename_i s' hs'
      simp only [List.foldl_cons, List.foldl_nil]
      exact hd m s' (by intro hm; subst hm; rw [hs] at hs'; exact absurd hs' (by simp))
    · rfl
  cases d with
  | type n t =>
    rcases hs : o.syms[n]? with _ | s
    · rw [key0 n hs (by intro m s' hm; simp [aDir, Ne.symm hm])]
      exact ⟨st, gs, by simp [dir, hs], h, rfl⟩
    · rw [key n s hs (by
        intro m s'
        by_cases hm : m = n
        · simp [aDir, hm]
        · simp [aDir, hm, Ne.symm hm])]
      obtain ⟨st', h1, h2, h3⟩ := dirType_inv h n s.name t
      exact ⟨st', gs, by simp [dir, hs, h1], by simpa [aDir] using h2, h3⟩
  | size n t =>
    rcases hs : o.syms[n]? with _ | s
    · rw [key0 n hs (by intro m s' hm; simp [aDir, Ne.symm hm])]
      exact ⟨st, gs, by simp [dir, hs], h, rfl⟩
    · rw [key n s hs (by
        intro m s'
        by_cases hm : m = n
        · simp [aDir, hm]
        · simp [aDir, hm, Ne.symm hm])]
      obtain ⟨st', h1, h2, h3⟩ := dirSize_inv h n s.name t
      exact ⟨st', gs, by simp [dir, hs, h1], by simpa [aDir] using h2, h3⟩
  | weak n =>
    rcases hs : o.syms[n]? with _ | s
    · rw [key0 n hs (by intro m s' hm; simp [aDir, Ne.symm hm])]
      exact ⟨st, gs, by simp [dir, hs], h, rfl⟩
    · rw [key n s hs (by
        intro m s'
        by_cases hm : m = n
        · simp [aDir, hm]
        · simp [aDir, hm, Ne.symm hm])]
      obtain ⟨st', gs', h1, h2, h3⟩ := symtabAppend_inv h (n := n) (o.pre ++ s.name ++ o.suf) shnUndef (bind := stbWeak) 0 0
        none none (by simp [stbWeak]) (by simp)
      exact ⟨st', gs', by simp only [dir, hs, h1], by simpa [aDir] using h2, h3⟩

theorem dirs_inv {o : Obj} {st A gs} (h : Inv nm st A [] gs) (ds : List Dir) :
    ∃ st' gs', dirs o st ds = some st' ∧ Inv nm st' (aDirs o A ds) [] gs' ∧ st'.errors = st.errors := by
  induction ds generalizing st A gs with
  | nil =>
    refine ⟨st, gs, rfl, ?_, rfl⟩
    have : aDirs o A [] = A := by funext n; unfold aDirs; split <;> rfl
    rw [this]; exact h
  | cons d ds ih =>
    obtain ⟨s1, g1, h1, h2, h3⟩ := dir_inv (o := o) h d
    obtain ⟨s2, g2, h4, h5, h6⟩ := ih h2
    refine ⟨s2, g2, by simp [dirs, h1, h4], ?_, h6.trans h3⟩
    have : aDirs o (aDirs o A [d]) ds = aDirs o A (d :: ds) := by
      funext n; simp only [aDirs]; split <;> rfl
    rw [← this]; exact h5

theorem strSet_inv {st A ls gs} (h : Inv nm st A ls gs) (s : Name) :
    Inv s { st with strtab := strSet st.strtab 1 s } A ls gs :=
  ⟨(chain_strSet h.chain).1, by rw [strSet_length h.chain]; exact h.len,
    by rw [strAt_set h.chain (by omega)]; exact h.zero, strAt_set_self h.chain (Nat.lt_of_lt_of_le (by omega) h.len), h.null, h.file, fun n => (h.rep n).strSet h.chain, h.table, h.nodup,
    h.mem, h.loc, h.glo⟩

theorem create_inv (src : Name) : ∃ st, create src = some st ∧ Inv src st (fun _ => none) [] [] ∧ st.errors = 0 := by
  obtain ⟨h1, h2⟩ := strAppend_ok src chain_create (by simp [strCreate])
  unfold create
  rw [h1]
  refine ⟨_, rfl, ⟨h2, by simp [strCreate], by simp [strCreate, strAt], by simp [strCreate, strAt], rfl, ?_, fun _ => trivial, rfl, by simp,
    by simp [inTab], by simp, by simp⟩, rfl⟩
  simp [strCreate]

/-! ### elf_objfmt_build_symtab -/

theorem setValue_inv {st A ls gs} (h : Inv nm st A ls gs) {n : Nat} (at_ : Option (Nat × Nat)) {x : AE}
    (ha : A n = some x) : ∃ st', setValue n at_ st = some st' ∧ Inv nm st' (upd A n (aSetValue at_ (A n))) ls gs ∧
      st'.errors = st.errors := by
  have hr := h.rep n
  rw [ha] at hr
  rcases he : st.entry (.sym n) with _ | e
  · rw [he] at hr; exact hr.elim
  · rw [he] at hr
    refine ⟨st.set (.sym n) (setNonzero e (at_.map (·.1)) 0 0 0 none (some ((at_.map (·.2)).getD 0))),
      by simp only [setValue, he], ?_, rfl⟩
    rw [ha]
    refine set_inv h he ha (e' := setNonzero e (at_.map (·.1)) 0 0 0 none (some ((at_.map (·.2)).getD 0)))
      (x' := (setNonzero x.1 (at_.map (·.1)) 0 0 0 none (some ((at_.map (·.2)).getD 0)), x.2)) ?_ rfl
      rfl rfl ?_
    · rw [← hr.1]; simp [anon, setNonzero]
    · simp [setNonzero]

theorem insertLocal_head {st A ls gs} (h : Inv nm st A ls gs) (n : Nat) :
    insertLocal st.isLocal st.isFile (.sym n) st.table = .null :: .file :: ((n :: ls) ++ gs).map Ref.sym := by
  rw [h.table]
  simp [insertLocal, St.isLocal, St.isFile, h.null, h.file, newEntry, stbLocal, sttFile]

theorem localEntry_inv {o : Obj} {st A ls gs} (h : Inv nm st A ls gs) (n : Nat) (s : Sym) (sec : Bool) :
    ∃ st' e, localEntry o n s sec st = some (st', e) ∧ Inv nm st' (upd A n (some (aLocalEntry o s sec (A n)))) ls gs ∧
      st'.errors = st.errors ∧ st'.entry (.sym n) = some e ∧ anon e = (aLocalEntry o s sec (A n)).1 ∧
      NameRep st'.strtab e.name (aLocalEntry o s sec (A n)).2 := by
  unfold localEntry
  have hr := h.rep n
  rcases he : st.entry (.sym n) with _ | e
  · rcases ha : A n with _ | x
    · rcases hc : (!o.allSyms || sec) with _ | _
      · obtain ⟨s1, e, h1, h2, h3, h4, h5, h6⟩ := getOrNew_inv h n (globalName o s)
        rw [ha] at h2 h5 h6
        refine ⟨s1, e, by simpa using h1, ?_, h3, h4, ?_, ?_⟩
        · simpa [aLocalEntry, hc, aGet] using h2
        · simpa [aLocalEntry, hc, aGet] using h5
        · simpa [aLocalEntry, hc, aGet] using h6
      · refine ⟨st.set (.sym n) (newEntry none), newEntry none, by simp, ?_, rfl, set_self _ _ _, by simp [aLocalEntry]; rfl, ?_⟩
        · refine inv_upd h (u := []) (by simpa using h.chain) (e := newEntry none) ?_ ?_ h.nodup (fun _ _ => Iff.rfl)
            (fun _ _ => Iff.rfl) ?_ ?_ ?_
          · simp [aLocalEntry, hc, Rep, NameRep, anon, newEntry]
          · rw [← inv_table h]
          · rw [h.mem n, ha]; simp [inTab, aLocalEntry, newEntry]
          · intro; rfl
          · intro hg
            exfalso
            have := (h.mem n).mp (List.mem_append_right _ hg)
            rw [ha] at this; simp [inTab] at this
        · simp [aLocalEntry, hc, newEntry, NameRep]
    · rw [he, ha] at hr; exact hr.elim
  · rcases ha : A n with _ | x
    · rw [he, ha] at hr; exact hr.elim
    · rw [he, ha] at hr
      refine ⟨st, e, rfl, ?_, rfl, he, hr.1, hr.2⟩
      rw [aLocalEntry, ← ha, upd_same]; exact h

/-- An entry that is not in the table and has no binding is put among the local ones. -/
theorem buildLocal_inv {o : Obj} {st A ls gs} (h : Inv nm st A ls gs) (n : Nat) (s : Sym) (at_ : Option (Nat × Nat))
    (hn : inTab (A n) = false) (hb : ∀ x, A n = some x → x.1.bind = 0) :
    ∃ st', buildLocal o n s at_ st = some st' ∧ Inv nm st' (upd A n (aLocal o s at_ (A n))) (n :: ls) gs ∧
      st'.errors = st.errors := by
  obtain ⟨s1, e, hg, hi, herr, hent, han, hnm⟩ := localEntry_inv (o := o) h n s (isSect o s at_)
  unfold buildLocal
  rw [hg]
  simp only
  have hx : (aLocalEntry o s (isSect o s at_) (A n)).1.inTable = e.inTable := by rw [← han]; rfl
  have hin : e.inTable = false := by
    rw [← hx]
    unfold aLocalEntry
    split
    · rename_i x hx'; rw [hx'] at hn; simpa [inTab] using hn
    · rfl
  have hbind : (aLocalEntry o s (isSect o s at_) (A n)).1.bind = 0 := by
    unfold aLocalEntry
    split
    · rename_i x hx'; exact hb x hx'
    · rfl
  have hmem := hi.mem n
  rw [upd_self] at hmem
  have hnot : n ∉ ls ++ gs := by
    rw [hmem]; simp [inTab, hx, hin]
  unfold insertEntry
  rw [hin]
  simp only [Bool.false_eq_true, if_false, insertLocal_head hi]
  obtain ⟨y, hy⟩ : ∃ y : AE, y = (setNonzero { (aLocalEntry o s (isSect o s at_) (A n)).1 with inTable := true }
    (at_.map (·.1)) 0 0 (if isSect o s at_ then sttSection else 0) none none,
    (aLocalEntry o s (isSect o s at_) (A n)).2) := ⟨_, rfl⟩
  have step : Inv nm (St.set ⟨s1.strtab, .null :: .file :: ((n :: ls) ++ gs).map Ref.sym, s1.entry, s1.errors⟩ (.sym n)
      (setNonzero { e with inTable := true } (at_.map (·.1)) 0 0 (if isSect o s at_ then sttSection else 0) none none))
      (upd A n (some y)) (n :: ls) gs := by
    rw [← upd_upd A n (some (aLocalEntry o s (isSect o s at_) (A n)))]
    refine inv_upd hi (u := []) (by simpa using hi.chain)
      (e := setNonzero { e with inTable := true } (at_.map (·.1)) 0 0 (if isSect o s at_ then sttSection else 0) none none)
      ?_ (by simp) ?_ ?_ (fun _ _ => Iff.rfl) ?_ ?_ ?_
    · subst hy
      refine ⟨?_, ?_⟩
      · rw [← han]; simp [anon, setNonzero]
      · simpa [setNonzero] using hnm
    · simp only [List.cons_append, List.nodup_cons]
      exact ⟨hnot, hi.nodup⟩
    · intro m hm; simp [hm]
    · subst hy; simp [setNonzero]
    · intro _; subst hy; simp [setNonzero, hbind]
    · intro hgm; exact absurd (List.mem_append_right _ hgm) hnot
  have hfin : aLocal o s at_ (A n) = if isSect o s at_ then some y else aSetValue at_ (some y) := by
    subst hy; rfl
  rw [hfin]
  by_cases hsec : isSect o s at_ = true
  · simp only [hsec, if_true] at step ⊢
    exact ⟨_, rfl, step, herr⟩
  · simp only [hsec, if_false] at step ⊢
    obtain ⟨st', h1, h2, h3⟩ := setValue_inv step at_ (upd_self A n (some y))
    rw [upd_self, upd_upd] at h2
    exact ⟨st', h1, h2, h3.trans herr⟩

theorem aAppend_inTab (a name i b t v x w) : inTab (some (aAppend a name i b t v x w)) = true := by
  simp [inTab, aAppend, setNonzero]

/-- The conditions on a symbol that has not been built yet. -/
structure Fresh (A : Nat → Option AE) (n : Nat) (ls : List Nat) : Prop where
  notLocal : n ∉ ls
  bind : ∀ x, A n = some x → x.1.inTable = false → x.1.bind = 0

theorem inv_glo {st A ls gs} (h : Inv nm st A ls gs) {n : Nat} (hn : n ∉ ls) (hi : inTab (A n) = true) : n ∈ gs := by
  have := (h.mem n).mpr hi
  rw [List.mem_append] at this
  exact this.resolve_left hn

theorem buildDefined_inv {o : Obj} {st A ls gs} (h : Inv nm st A ls gs) {n : Nat} (s : Sym) (hf : Fresh A n ls)
    (cur : Option Entry) (c : Bool) (hc : c = (cur.map (·.inTable)).getD false)
    (hcur : c = true → ∃ x, A n = some x) (hcur' : c = false → inTab (A n) = false) (at_ : Option (Nat × Nat)) :
    ∃ st' ls' gs', buildDefined o n s cur at_ st = some st' ∧ Inv nm st' (upd A n (aDefined o s c at_ (A n))) ls' gs' ∧
      st'.errors = st.errors ∧ (ls' = ls ∨ ls' = n :: ls) := by
  unfold buildDefined aDefined
  rw [← hc]
  cases c with
  | true =>
    obtain ⟨x, hx⟩ := hcur rfl
    obtain ⟨st', h1, h2, h3⟩ := setValue_inv h at_ hx
    exact ⟨st', ls, gs, by simpa using h1, by simpa using h2, h3, Or.inl rfl⟩
  | false =>
    simp only [Bool.false_eq_true, if_false]
    have hnt := hcur' rfl
    cases hg : s.glob with
    | true =>
      simp only [if_true]
      obtain ⟨s1, g1, h1, h2, h3⟩ := symtabAppend_inv h (n := n) (globalName o s) shnUndef (bind := stbGlobal) s.gtype
        s.gvis s.gsize none (by simp [stbGlobal]) hf.notLocal
      obtain ⟨st', h4, h5, h6⟩ := setValue_inv h2 at_ (upd_self _ _ _)
      rw [upd_self, upd_upd] at h5
      refine ⟨st', ls, g1, ?_, h5, h6.trans h3, Or.inl rfl⟩
      simp only [buildGlobal, h1, Option.bind_some, h4]
    | false =>
      simp only [Bool.false_eq_true, if_false]
      have hb : ∀ x, A n = some x → x.1.bind = 0 := fun x hx => hf.bind x hx (by rw [hx] at hnt; simpa [inTab] using hnt)
      obtain ⟨st', h1, h2, h3⟩ := buildLocal_inv (o := o) h n s at_ hnt hb
      rcases hk : s.kind with _ | ⟨v, b⟩ | _
      · exact ⟨st', n :: ls, gs, h1, h2, h3, Or.inr rfl⟩
      · cases b
        · exact ⟨st, ls, gs, rfl, by rw [upd_same]; exact h, rfl, Or.inl rfl⟩
        · exact ⟨st', n :: ls, gs, h1, h2, h3, Or.inr rfl⟩
      · exact ⟨st', n :: ls, gs, h1, h2, h3, Or.inr rfl⟩

theorem buildKind_inv {o : Obj} {st A ls gs} (h : Inv nm st A ls gs) {n : Nat} (s : Sym) (hf : Fresh A n ls)
    (cur : Option Entry) (c : Bool) (hc : c = (cur.map (·.inTable)).getD false)
    (hcur : c = true → ∃ x, A n = some x) (hcur' : c = false → inTab (A n) = false) :
    ∃ st' ls' gs', buildKind o n s cur st = some st' ∧ Inv nm st' (upd A n (aKind o s c (A n))) ls' gs' ∧
      st'.errors = st.errors ∧ (ls' = ls ∨ ls' = n :: ls) := by
  unfold buildKind aKind
  cases hd : s.defined with
  | false => exact ⟨st, ls, gs, by simp, by simpa [upd_same] using h, rfl, Or.inl rfl⟩
  | true =>
    simp only [Bool.not_true, Bool.false_eq_true, if_false]
    rcases hk : s.kind with ⟨k, off⟩ | ⟨v, b⟩ | _
    · exact buildDefined_inv h s hf cur c hc hcur hcur' _
    · exact buildDefined_inv h s hf cur c hc hcur hcur' _
    · exact ⟨st, ls, gs, rfl, by rw [upd_same]; exact h, rfl, Or.inl rfl⟩

theorem inTab_rep {t e a} (h : Rep t e a) : (e.map (·.inTable)).getD false = inTab a := by
  cases e <;> cases a <;> simp only [Rep] at h
  · rfl
  · simp only [Option.map_some, Option.getD_some, inTab, ← h.1, anon]

theorem inTab_some {a} (h : inTab a = true) : ∃ x, a = some x := by
  cases a
  · simp [inTab] at h
  · exact ⟨_, rfl⟩

/-- The error of a symbol: COMMON with an alignment that is no power of two. -/
def symErr (s : Sym) : Nat := if !s.ext && s.common && s.calign.isNone then 1 else 0

theorem build_inv {o : Obj} {st A ls gs} (h : Inv nm st A ls gs) {n : Nat} (s : Sym) (hf : Fresh A n ls)
    (hpre : s.common = true → s.calign = none → inTab (A n) = false) :
    ∃ st' ls' gs', build o n s st = some st' ∧ Inv nm st' (upd A n (aBuild o s (A n))) ls' gs' ∧
      st'.errors = st.errors + symErr s ∧ (ls' = ls ∨ ls' = n :: ls) := by
  unfold build aBuild symErr
  cases he : s.ext with
  | true =>
    simp only [if_true]
    obtain ⟨s1, g1, h1, h2, h3⟩ := symtabAppend_inv h (n := n) (globalName o s) shnUndef (bind := stbGlobal) 0 0 none none
      (by simp [stbGlobal]) hf.notLocal
    exact ⟨s1, ls, g1, h1, h2, by simp [h3], Or.inl rfl⟩
  | false =>
    simp only [Bool.false_eq_true, if_false]
    cases hc : s.common with
    | true =>
      simp only [if_true]
      unfold buildCommon aCommon
      rcases ha : s.calign with _ | v
      · simp only [Option.isSome_none, Bool.false_eq_true, if_false, Bool.false_and]
        have h' : Inv nm { st with errors := st.errors + 1 } A ls gs := ⟨h.chain, h.len, h.zero, h.one, h.null, h.file, h.rep, h.table,
          h.nodup, h.mem, h.loc, h.glo⟩
        obtain ⟨st', ls', gs', h1, h2, h3, h4⟩ := buildKind_inv (o := o) h' s hf none false rfl (by simp)
          (fun _ => hpre hc ha)
        exact ⟨st', ls', gs', h1, h2, by rw [h3]; simp, h4⟩
      · simp only [Option.isSome_some, if_true, Bool.true_and]
        obtain ⟨s1, g1, h1, h2, h3⟩ := symtabAppend_inv h (n := n) (globalName o s) shnCommon (bind := stbGlobal) 0 0 s.csize
          (some v) (by simp [stbGlobal]) hf.notLocal
        rw [h1]
        simp only
        have hf' : Fresh (upd A n (some (aAppend (A n) (globalName o s) shnCommon stbGlobal 0 0 s.csize (some v)))) n ls := by
          refine ⟨hf.notLocal, ?_⟩
          intro x hx hx'
          rw [upd_self] at hx
          have := aAppend_inTab (A n) (globalName o s) shnCommon stbGlobal 0 0 s.csize (some v)
          rw [hx] at this
          simp [inTab, hx'] at this
        have hrep := inTab_rep (h2.rep n)
        rw [upd_self] at hrep
        obtain ⟨st', ls', gs', h4, h5, h6, h7⟩ := buildKind_inv (o := o) h2 s hf' (s1.entry (.sym n)) _ hrep.symm
          (by intro; exact ⟨_, upd_self _ _ _⟩) (by rw [upd_self]; exact id)
        rw [upd_self, upd_upd] at h5
        exact ⟨st', ls', gs', h4, h5, by rw [h6, h3]; simp, h7⟩
    | false =>
      simp only [Bool.false_eq_true, if_false]
      obtain ⟨st', ls', gs', h1, h2, h3, h4⟩ := buildKind_inv (o := o) h s hf (st.entry (.sym n)) (inTab (A n))
        (inTab_rep (h.rep n)).symm inTab_some id
      exact ⟨st', ls', gs', h1, h2, by rw [h3]; simp, h4⟩

/-- What the traversal makes of each symbol from `n` on. -/
def aBuilds (o : Obj) (A : Nat → Option AE) (n : Nat) (ss : List Sym) : Nat → Option AE := fun m =>
  if m < n then A m else match ss[m - n]? with | some s => aBuild o s (A m) | none => A m

theorem buildAll_inv {o : Obj} {st A ls gs} (h : Inv nm st A ls gs) (n : Nat) (ss : List Sym) (hls : ∀ m ∈ ls, m < n)
    (hf : ∀ m, n ≤ m → ∀ x, A m = some x → x.1.inTable = false → x.1.bind = 0)
    (hpre : ∀ m s, ss[m - n]? = some s → n ≤ m → s.common = true → s.calign = none → inTab (A m) = false) :
    ∃ st' ls' gs', buildAll o n ss st = some st' ∧ Inv nm st' (aBuilds o A n ss) ls' gs' ∧
      st'.errors = st.errors + (ss.map symErr).sum := by
  induction ss generalizing n st A ls gs with
  | nil =>
    refine ⟨st, ls, gs, rfl, ?_, by simp⟩
    have : aBuilds o A n [] = A := by funext m; unfold aBuilds; split <;> simp
    rw [this]; exact h
  | cons s ss ih =>
    obtain ⟨s1, l1, g1, h1, h2, h3, h4⟩ := build_inv (o := o) h s
      ⟨fun hm => absurd (hls n hm) (Nat.lt_irrefl n), hf n (Nat.le_refl n)⟩ (hpre n s (by simp) (Nat.le_refl n))
    obtain ⟨s2, l2, g2, h5, h6, h7⟩ := ih h2 (n + 1) (by
        intro m hm
        rcases h4 with rfl | rfl
        · exact Nat.lt_succ_of_lt (hls m hm)
        · rcases List.mem_cons.mp hm with rfl | hm
          · exact Nat.lt_succ_self _
          · exact Nat.lt_succ_of_lt (hls m hm))
      (by
        intro m hm x hx
        rw [upd_ne _ _ (by omega)] at hx
        exact hf m (by omega) x hx)
      (by
        intro m s' hs' hm
        rw [upd_ne _ _ (by omega)]
        refine hpre m s' ?_ (by omega)
        rw [show m - n = (m - (n + 1)) + 1 by omega]
        simpa using hs')
    refine ⟨s2, l2, g2, by simp [buildAll, h1, h5], ?_, by rw [h7, h3]; simp [Nat.add_assoc]⟩
    have : aBuilds o (upd A n (aBuild o s (A n))) (n + 1) ss = aBuilds o A n (s :: ss) := by
      funext m
      unfold aBuilds
      by_cases h1 : m < n
      · rw [if_pos (by omega), if_pos h1, upd_ne _ _ (by omega)]
      · by_cases h2 : m = n
        · subst h2
          rw [if_pos (by omega), if_neg h1, upd_self]; simp
        · rw [if_neg (by omega), if_neg h1, upd_ne _ _ h2, show m - n = (m - (n + 1)) + 1 by omega]
          simp
    rw [← this]; exact h6

theorem aDirs_bind {o : Obj} {n : Nat} {s : Sym} (ds : List Dir) (a : Option AE)
    (h : ∀ x, a = some x → x.1.inTable = false → x.1.bind = 0) :
    ∀ x, ds.foldl (aDir o n s) a = some x → x.1.inTable = false → x.1.bind = 0 := by
  induction ds generalizing a with
  | nil => exact h
  | cons d ds ih =>
    apply ih
    have hget : ∀ nm, (aGet a nm).1.inTable = false → (aGet a nm).1.bind = 0 := by
      intro nm
      cases a with
      | none => intro; rfl
      | some y => exact h y rfl
    cases d <;> simp only [aDir] <;> split
    · intro x hx
      cases hx
      rename_i t _
      cases t <;> exact hget _
    · exact h
    · intro x hx
      cases hx
      rename_i t _
      cases t <;> exact hget _
    · exact h
    · intro x hx
      cases hx
      intro hh
      simp [aAppend, setNonzero] at hh
    · exact h

/-- What becomes of a symbol. -/
def final (o : Obj) (n : Nat) (s : Sym) : Option AE := aBuild o s (o.dirs.foldl (aDir o n s) none)

/-- What becomes of each symbol. -/
def finals (o : Obj) (n : Nat) : Option AE :=
  match o.syms[n]? with
  | some s => final o n s
  | none => none

theorem symbols_inv (o : Obj) (hc : ∀ s ∈ o.syms, s.common = true → s.calign ≠ none) :
    ∃ st ls gs, symbols o = some st ∧ Inv o.src st (finals o) ls gs ∧ st.errors = 0 := by
  obtain ⟨s0, h1, h2, h3⟩ := create_inv o.src0
  obtain ⟨s1, g1, h4, h5, h6⟩ := dirs_inv (o := o) h2 o.dirs
  obtain ⟨s2, l2, g2, h7, h8, h9⟩ := buildAll_inv (o := o) (strSet_inv h5 o.src) 0 o.syms (by simp)
    (by
      intro m _ x hx
      unfold aDirs at hx
      split at hx
      · exact aDirs_bind o.dirs none (by simp) x hx
      · exact absurd hx (by simp))
    (by
      intro m s hs _ h1 h2
      exact absurd h2 (hc s (List.mem_of_getElem? hs) h1))
  refine ⟨s2, l2, g2, by simp only [symbols, h1, h4, h7], ?_, ?_⟩
  · have : aBuilds o (aDirs o (fun _ => none) o.dirs) 0 o.syms = finals o := by
      funext m
      unfold aBuilds finals aDirs
      simp only [Nat.not_lt_zero, if_false, Nat.sub_zero]
      rcases o.syms[m]? with _ | s <;> rfl
    rw [← this]; exact h8
  · rw [h9]
    show s1.errors + _ = 0
    rw [h6, h3]
    have : ∀ ss : List Sym, (∀ s ∈ ss, s.common = true → s.calign ≠ none) → (ss.map symErr).sum = 0 := by
      intro ss
      induction ss with
      | nil => simp
      | cons s ss ih =>
        intro hs
        rw [List.map_cons, List.sum_cons, ih (fun s hs' => hs s (List.mem_cons_of_mem _ hs'))]
        have := hs s (List.mem_cons_self ..)
        unfold symErr
        split
        · rename_i hh
          simp only [Bool.and_eq_true, Option.isNone_iff_eq_none] at hh
          exact absurd hh.2 (this hh.1.2)
        · rfl
    rw [this o.syms hc]

end Verif.Elf
