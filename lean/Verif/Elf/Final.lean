import Verif.Elf.File
import Mathlib.Data.List.Induction
/-
What becomes of a symbol, in closed form.
-/
set_option linter.unusedSimpArgs false
namespace Verif.Elf

/-- Is the first directive for the symbol a `type` or a `size`? -/
def Obj.rawFirst (o : Obj) (n : Nat) : Bool :=
  match o.dirs.find? fun d => decide (d.sym = n) with
  | some (.weak _) => false
  | some _ => true
  | none => false

/-- What the directives make of a symbol. -/
def Obj.early (o : Obj) (n : Nat) (s : Sym) : Option AE :=
  if o.touched n then
    some (⟨o.weak n, none, none, 0, o.sizeOf n, 0, if o.weak n then 2 else 0, o.typeOf n, 0⟩,
      some (if o.rawFirst n then s.name else o.pre ++ s.name ++ o.suf))
  else none

theorem untouched {ds : List Dir} {n : Nat} (h : (ds.any fun d => decide (d.sym = n)) = false) :
    (ds.any fun d => decide (d = .weak n)) = false ∧
    ds.filterMap (Dir.typeFor n) = [] ∧ ds.filterMap (Dir.sizeFor n) = [] := by
  rw [List.any_eq_false] at h
  refine ⟨?_, ?_, ?_⟩
  · rw [List.any_eq_false]
    intro d hd hh
    simp only [decide_eq_true_eq] at hh
    exact h d hd (by simp [hh, Dir.sym])
  · rw [List.filterMap_eq_nil_iff]
    intro d hd
    have : d.sym ≠ n := fun e => h d hd (decide_eq_true e)
    clear h
    cases d <;> simp_all [Dir.sym, Dir.typeFor]
  · rw [List.filterMap_eq_nil_iff]
    intro d hd
    have : d.sym ≠ n := fun e => h d hd (decide_eq_true e)
    clear h
    cases d <;> simp_all [Dir.sym, Dir.sizeFor]

theorem early_eq (o : Obj) (n : Nat) (s : Sym) (ds : List Dir) :
    ds.foldl (aDir o n s) none = ({ o with dirs := ds }).early n s := by
  induction ds using List.reverseRecOn with
  | nil => simp [Obj.early, Obj.touched]
  | append_singleton ds d ih =>
    rw [List.foldl_append, List.foldl_cons, List.foldl_nil, ih]
    by_cases hd : d.sym = n
    · have ht : ({ o with dirs := ds ++ [d] } : Obj).touched n = true := by simp [Obj.touched, hd]
      rcases hold : ({ o with dirs := ds } : Obj).touched n with _ | _
      · have hu := untouched (ds := ds) (n := n) hold
        have hf : (ds ++ [d]).find? (fun d => decide (d.sym = n)) = some d := by
          rw [List.find?_append]
          have : ds.find? (fun d => decide (d.sym = n)) = none := by
            rw [List.find?_eq_none]
            have := hold
            simp only [Obj.touched] at this
            rwa [List.any_eq_false] at this
          simp [this, hd]
        simp only [Obj.early, ht, hold, if_true, Bool.false_eq_true, if_false, Obj.weak, Obj.typeOf, Obj.sizeOf, List.any_append,
          List.filterMap_append, hu.1, hu.2.1, hu.2.2, Obj.rawFirst, hf]
        cases d with
        | type m t =>
          simp only [Dir.sym] at hd
          subst hd
          cases t <;> simp [aDir, aType, aGet, newEntry, Dir.typeFor, Dir.sizeFor]
        | size m t =>
          simp only [Dir.sym] at hd
          subst hd
          cases t <;> simp [aDir, aSize, aGet, newEntry, Dir.typeFor, Dir.sizeFor]
        | weak m =>
          simp only [Dir.sym] at hd
          subst hd
          simp [aDir, aAppend, aGet, newEntry, setNonzero, shnUndef, stbWeak, Dir.typeFor, Dir.sizeFor]
      · obtain ⟨d0, hd0⟩ : ∃ d0, ds.find? (fun d => decide (d.sym = n)) = some d0 := by
          rw [← Option.isSome_iff_exists, List.find?_isSome]
          simpa [Obj.touched] using hold
        have hf : (ds ++ [d]).find? (fun d => decide (d.sym = n)) = some d0 := by
          rw [List.find?_append, hd0]; rfl
        simp only [Obj.early, ht, hold, if_true, Obj.weak, Obj.typeOf, Obj.sizeOf, List.any_append,
          List.filterMap_append, Obj.rawFirst, hf, hd0]
        cases d with
        | type m t =>
          simp only [Dir.sym] at hd
          subst hd
          cases t <;> simp [aDir, aType, aGet, newEntry, Dir.typeFor, Dir.sizeFor]
        | size m t =>
          simp only [Dir.sym] at hd
          subst hd
          cases t <;> simp [aDir, aSize, aGet, newEntry, Dir.typeFor, Dir.sizeFor]
        | weak m =>
          simp only [Dir.sym] at hd
          subst hd
          simp [aDir, aAppend, aGet, newEntry, setNonzero, shnUndef, stbWeak, Dir.typeFor, Dir.sizeFor]
    · have h1 : aDir o n s (({ o with dirs := ds } : Obj).early n s) d = ({ o with dirs := ds } : Obj).early n s := by
        cases d <;> simp only [aDir, Dir.sym] at hd ⊢ <;> rw [if_neg hd]
      rw [h1]
      have h2 : ({ o with dirs := ds ++ [d] } : Obj).touched n = ({ o with dirs := ds } : Obj).touched n := by
        simp [Obj.touched, hd]
      have h3 : ({ o with dirs := ds ++ [d] } : Obj).weak n = ({ o with dirs := ds } : Obj).weak n := by
        have : d ≠ .weak n := by intro hh; subst hh; exact hd rfl
        simp [Obj.weak, this]
      have h4 : ({ o with dirs := ds ++ [d] } : Obj).typeOf n = ({ o with dirs := ds } : Obj).typeOf n := by
        unfold Obj.typeOf
        simp only [List.filterMap_append]
        cases d <;> simp_all [Dir.sym, Dir.typeFor, Dir.sizeFor]
      have h5 : ({ o with dirs := ds ++ [d] } : Obj).sizeOf n = ({ o with dirs := ds } : Obj).sizeOf n := by
        unfold Obj.sizeOf
        simp only [List.filterMap_append]
        cases d <;> simp_all [Dir.sym, Dir.typeFor, Dir.sizeFor]
      have h6 : ({ o with dirs := ds ++ [d] } : Obj).rawFirst n = ({ o with dirs := ds } : Obj).rawFirst n := by
        unfold Obj.rawFirst
        simp only [List.find?_append]
        have : [d].find? (fun d => decide (d.sym = n)) = none := by simp [hd]
        rw [this, Option.or_none]
      simp only [Obj.early, h2, h3, h4, h5, h6]

theorem final_eq (o : Obj) (n : Nat) (s : Sym) : final o n s = aBuild o s (o.early n s) := by
  unfold final
  rw [early_eq]

/-- What is asked of a symbol. -/
structure SymOk (o : Obj) (n : Nat) (s : Sym) : Prop where
  /-- only symbols that are defined stand for anything -/
  undef : s.defined = false → s.kind = .other
  def_ : s.defined = true → s.kind ≠ .other
  /-- an EXTERN symbol is not defined in the file, nor COMMON or GLOBAL -/
  ext : s.ext = true → s.kind = .other ∧ s.common = false ∧ s.glob = false
  calign : s.common = true → s.calign ≠ none
  /-- a label is in a section of the object -/
  sect : ∀ k off, s.kind = .label k off → k < o.sects.length
  /-- a weak symbol is neither EXTERN nor COMMON, and has no qualifiers -/
  weak : o.weak n = true → s.ext = false ∧ s.common = false ∧ s.glob = true ∧ s.gtype = 0 ∧ s.gvis = 0 ∧ s.gsize = none
  /-- with a prefix or suffix, there is no `type` or `size` before the symbol is declared weak -/
  name : o.rawFirst n = true → s.declared = true → o.pre = [] ∧ o.suf = []
  /-- names have no zero bytes -/
  clean : (0 : Byte) ∉ s.name

theorem weak_touched {o : Obj} {n : Nat} (h : o.weak n = true) : o.touched n = true := by
  unfold Obj.weak at h
  unfold Obj.touched
  rw [List.any_eq_true] at h ⊢
  obtain ⟨d, h1, h2⟩ := h
  simp only [decide_eq_true_eq] at h2
  exact ⟨d, h1, by simp [h2, Dir.sym]⟩

theorem not_touched {o : Obj} {n : Nat} (h : o.touched n = false) :
    o.weak n = false ∧ o.sizeOf n = none ∧ o.typeOf n = 0 ∧ o.rawFirst n = false := by
  obtain ⟨h1, h2, h3⟩ := untouched h
  refine ⟨h1, by simp [Obj.sizeOf, h3], by simp [Obj.typeOf, h2], ?_⟩
  have : o.dirs.find? (fun d => decide (d.sym = n)) = none := by
    rw [List.find?_eq_none]
    unfold Obj.touched at h
    rwa [List.any_eq_false] at h
  simp [Obj.rawFirst, this]

theorem weak_first {o : Obj} {n : Nat} (h : o.touched n = true) (hr : o.rawFirst n = false) : o.weak n = true := by
  have hs : (o.dirs.find? fun d => decide (d.sym = n)).isSome = true := by
    rw [List.find?_isSome]
    simpa [Obj.touched] using h
  obtain ⟨d, hd⟩ := Option.isSome_iff_exists.mp hs
  unfold Obj.rawFirst at hr
  rw [hd] at hr
  have hm := List.mem_of_find?_eq_some hd
  have hn : d.sym = n := by simpa using List.find?_some hd
  cases d <;> simp only [Bool.true_eq_false] at hr
  simp only [Dir.sym] at hn
  subst hn
  unfold Obj.weak
  rw [List.any_eq_true]
  exact ⟨_, hm, by simp⟩

/-- The name an entry must have: local symbols may have none. -/
def wantOpt (o : Obj) (n : Nat) (s : Sym) : Option Name → Prop
  | some nm => nm = o.wantName n s
  | none => o.wantName n s = []

theorem isSect_some (o : Obj) (s : Sym) (k off : Nat) : isSect o s (some (k, off)) = o.named k s.name := by
  unfold isSect Obj.named
  rfl

/-- A symbol that is not listed has no entry in the table; one that is has the entry that is wanted. -/
theorem final_want {o : Obj} {n : Nat} {s : Sym} (h : SymOk o n s) :
    if o.listed n s then ∃ e nm, final o n s = some (e, nm) ∧ e.inTable = true ∧ wantOpt o n s nm ∧
        e.bind = o.wantBind n s ∧ e.vis = Obj.wantVis s ∧
        e.xsize = (if s.common then s.csize else if s.glob then s.gsize else none).or (o.sizeOf n) ∧
        e.type = (if o.isSection s then 3 else if s.glob && !s.common && s.gtype != 0 then s.gtype else o.typeOf n) ∧
        e.sect = (match s.kind with | .label k _ => some k | _ => none) ∧
        (∀ k off, s.kind = .label k off → e.value = if o.isSection s then 0 else off) ∧
        (s.kind = .other → e.value = (if s.common then s.calign.getD 0 else 0) ∧ e.index = if s.common then shnCommon else 0)
    else inTab (final o n s) = false := by
  rw [final_eq]
  have h1 := h.undef; have h2 := h.def_; have h3 := h.ext; have h4 := h.calign; have h5 := h.weak; have h6 := h.name
  have h7 := @not_touched o n
  have h8 := @weak_first o n
  clear h
  obtain ⟨sname, ext, common, glob, defined, kind, gtype, gvis, gsize, csize, calign⟩ := s
  simp only [Sym.declared] at *
  unfold Obj.listed Obj.wantBind Obj.wantVis Obj.isSection aBuild Obj.early wantOpt Obj.wantName Obj.isSection Sym.declared
  simp only
  generalize o.weak n = w at *
  generalize o.touched n = t at *
  generalize o.rawFirst n = rf at *
  generalize o.sizeOf n = z at *
  generalize o.typeOf n = ty at *
  cases ext
  · cases common
    · cases kind with
      | label k off =>
        have hd : defined = true := by cases defined <;> simp at h1 ⊢
        subst hd
        clear h1 h2 h3 h4
        have ha : ∀ a : Bool, a = true ∨ a = false := by decide
        rcases ha (o.named k sname) with hb | hb <;> rcases ha o.allSyms with hal | hal
        all_goals
          cases t
          · obtain ⟨rfl, rfl, rfl, rfl⟩ := h7 rfl
            cases glob <;> cases gsize <;>
              simp [hb, hal, aKind, aDefined, aLocal, isSect_some, aGlobal, aLocalEntry, aSetValue, inTab, aAppend, aGet, newEntry,
                setNonzero, globalName, shnUndef, stbGlobal, sttSection]
          · clear h7
            cases w
            · clear h5
              cases rf
              · simp at h8
              · cases glob <;> cases gsize <;>
                  simp [hb, hal, aKind, aDefined, aLocal, isSect_some, aGlobal, aLocalEntry, aSetValue, inTab, aAppend, aGet,
                    newEntry, setNonzero, globalName, shnUndef, stbGlobal, sttSection]
                all_goals simp [h6 rfl rfl]
            · obtain ⟨_, _, rfl, rfl, rfl, rfl⟩ := h5 rfl
              cases rf <;>
                simp [hb, hal, aKind, aDefined, aLocal, isSect_some, aGlobal, aLocalEntry, aSetValue, inTab, aAppend, aGet,
                  newEntry, setNonzero, globalName, shnUndef, stbGlobal, sttSection]
              simp [h6 rfl rfl]
      | equ v a =>
        have hd : defined = true := by cases defined <;> simp at h1 ⊢
        subst hd
        clear h1 h2 h3 h4
        have ha : ∀ a : Bool, a = true ∨ a = false := by decide
        rcases ha o.allSyms with hal | hal
        all_goals
          cases t
          · obtain ⟨rfl, rfl, rfl, rfl⟩ := h7 rfl
            cases glob <;> cases gsize <;> cases a <;>
              simp [hal, aKind, aDefined, aLocal, isSect, aGlobal, aLocalEntry, aSetValue, inTab, aAppend, aGet, newEntry,
                setNonzero, globalName, shnUndef, stbGlobal, sttSection]
          · clear h7
            cases w
            · clear h5
              cases rf
              · simp at h8
              · cases glob <;> cases gsize <;> cases a <;>
                  simp [hal, aKind, aDefined, aLocal, isSect, aGlobal, aLocalEntry, aSetValue, inTab, aAppend, aGet,
                    newEntry, setNonzero, globalName, shnUndef, stbGlobal, sttSection]
                all_goals simp [h6 rfl rfl]
            · obtain ⟨_, _, rfl, rfl, rfl, rfl⟩ := h5 rfl
              cases rf <;>
                simp [hal, aKind, aDefined, aLocal, isSect, aGlobal, aLocalEntry, aSetValue, inTab, aAppend, aGet,
                  newEntry, setNonzero, globalName, shnUndef, stbGlobal, sttSection]
              simp [h6 rfl rfl]
      | other =>
        cases defined
        · cases t
          · obtain ⟨rfl, rfl, rfl, rfl⟩ := h7 rfl
            simp [aKind, inTab]
          · cases w
            · simp [aKind, inTab]
            · obtain ⟨_, _, rfl, rfl, rfl, rfl⟩ := h5 rfl
              cases rf <;> simp [aKind, inTab]
              simp [h6 rfl rfl]
        · simp at h2
    · cases w
      · clear h5 h3
        cases calign with
        | none => simp at h4
        | some al =>
          cases t
          · obtain ⟨-, rfl, rfl, rfl⟩ := h7 rfl
            cases kind with
            | label k off =>
              have hd : defined = true := by cases defined <;> simp at h1 ⊢
              subst hd
              cases csize <;> simp [aKind, aDefined, aCommon, aSetValue, inTab, aAppend, aGet,
                newEntry, setNonzero, globalName, shnUndef, stbGlobal, sttSection, shnCommon]
            | equ v a =>
              have hd : defined = true := by cases defined <;> simp at h1 ⊢
              subst hd
              cases csize <;> simp [aKind, aDefined, aCommon, aSetValue, inTab, aAppend, aGet,
                newEntry, setNonzero, globalName, shnUndef, stbGlobal, sttSection, shnCommon]
            | other =>
              cases csize <;> cases defined <;> simp [aKind, aDefined, aCommon, aSetValue, inTab, aAppend, aGet,
                newEntry, setNonzero, globalName, shnUndef, stbGlobal, sttSection, shnCommon]
          · cases rf
            · simp at h8
            · obtain ⟨hp, hq⟩ := h6 rfl rfl
              cases kind with
              | label k off =>
                have hd : defined = true := by cases defined <;> simp at h1 ⊢
                subst hd
                cases csize <;> simp [hp, hq, aKind, aDefined, aCommon, aSetValue, inTab, aAppend, aGet,
                  newEntry, setNonzero, globalName, shnUndef, stbGlobal, sttSection, shnCommon]
              | equ v a =>
                have hd : defined = true := by cases defined <;> simp at h1 ⊢
                subst hd
                cases csize <;> simp [hp, hq, aKind, aDefined, aCommon, aSetValue, inTab, aAppend, aGet,
                  newEntry, setNonzero, globalName, shnUndef, stbGlobal, sttSection, shnCommon]
              | other =>
                cases csize <;> cases defined <;> simp [hp, hq, aKind, aDefined, aCommon, aSetValue, inTab, aAppend, aGet,
                  newEntry, setNonzero, globalName, shnUndef, stbGlobal, sttSection, shnCommon]
      · simp at h5
  · obtain ⟨rfl, rfl, rfl⟩ := h3 rfl
    cases w
    · cases t
      · obtain ⟨-, rfl, rfl, rfl⟩ := h7 rfl
        simp [aExtern, aAppend, aGet, newEntry, setNonzero, globalName, shnUndef, stbGlobal]
      · cases rf
        · simp at h8
        · obtain ⟨hp, hq⟩ := h6 rfl rfl
          simp [hp, hq, aExtern, aAppend, aGet, newEntry, setNonzero, globalName, shnUndef, stbGlobal]
    · simp at h5

end Verif.Elf
