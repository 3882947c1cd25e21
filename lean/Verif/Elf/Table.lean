import Verif.Elf.Sections
import Verif.Elf.Final
/-
Reading back the symbols of the file.
-/
set_option linter.unusedSimpArgs false
set_option linter.unusedSectionVars false
namespace Verif.Elf

theorem lastLocal_locals (loc : Ref → Bool) (a b : List Ref) (last i : Nat) (ha : ∀ r ∈ a, loc r = true)
    (hb : ∀ r ∈ b, loc r = false) : lastLocal loc last i (a ++ b) = if a = [] then last else i + a.length - 1 := by
  induction a generalizing last i with
  | nil =>
    simp only [List.nil_append, if_true]
    clear ha
    induction b generalizing i with
    | nil => rfl
    | cons r rs ih =>
      unfold lastLocal
      rw [hb r (by simp)]
      exact ih (fun x hx => hb x (by simp [hx])) _
  | cons r rs ih =>
    rw [List.cons_append]
    unfold lastLocal
    rw [ha r (by simp), ih _ _ (fun x hx => ha x (by simp [hx]))]
    simp only [if_true, List.length_cons, reduceCtorEq, if_false]
    split
    · rename_i h; simp [h]
    · omega

section
variable {o : Obj} {st : St} {r : Result} (L : Layout o st r)
include L

theorem Layout.entry (q : Ref) : L.w.st.entry q =
    (st.entry q).map fun e => if forces o.machine (o.sects.flatMap Sect.rels) q then { e with type := sttTls } else e := by
  rw [L.wst]; exact (forceAll _ _ _).2.2.2 q

theorem Layout.strtab : L.w.st.strtab = st.strtab := by rw [L.wst]; exact (forceAll _ _ _).1
theorem Layout.table : L.w.st.table = st.table := by rw [L.wst]; exact (forceAll _ _ _).2.1

theorem Layout.isLocal (q : Ref) : L.w.st.isLocal q = st.isLocal q := by
  unfold St.isLocal
  rw [L.entry q]
  rcases st.entry q with _ | e
  · rfl
  · simp only [Option.map_some]; split <;> rfl

variable {ls gs : List Nat} (I : Inv o.src st (finals o) ls gs)
include I

theorem Layout.locals : L.w.st.nlocal = 2 + ls.length := by
  unfold St.nlocal
  rw [L.table, I.table, List.map_append, ← List.cons_append, ← List.cons_append, lastLocal_locals]
  · simp; omega
  · intro q hq
    rw [L.isLocal]
    simp only [List.mem_cons, List.mem_map] at hq
    rcases hq with rfl | rfl | ⟨n, hn, rfl⟩
    · simp [St.isLocal, I.null, newEntry, stbLocal]
    · simp [St.isLocal, I.file, newEntry, stbLocal]
    · have h1 := I.rep n
      have h2 := (I.mem n).mp (by simp [hn])
      rcases hf : finals o n with _ | ⟨e, nm⟩
      · rw [hf] at h2; simp [inTab] at h2
      · have h3 := I.loc n hn _ hf
        rw [hf] at h1
        unfold St.isLocal
        rcases he : st.entry (.sym n) with _ | e'
        · rw [he] at h1; exact h1.elim
        · rw [he] at h1
          obtain ⟨rfl, _⟩ := h1
          simpa [anon, stbLocal] using h3
  · intro q hq
    rw [L.isLocal]
    simp only [List.mem_map] at hq
    obtain ⟨n, hn, rfl⟩ := hq
    have h1 := I.rep n
    have h2 := (I.mem n).mp (by simp [hn])
    rcases hf : finals o n with _ | ⟨e, nm⟩
    · rw [hf] at h2; simp [inTab] at h2
    · have h3 := I.glo n hn _ hf
      rw [hf] at h1
      unfold St.isLocal
      rcases he : st.entry (.sym n) with _ | e'
      · rfl
      · rw [he] at h1
        obtain ⟨rfl, _⟩ := h1
        simpa [anon, stbLocal] using h3

end

/-- The index of a symbol in the table. -/
def posOf (ls gs : List Nat) (n : Nat) : Nat := 2 + (ls ++ gs).idxOf n

theorem posOf_get {nm : Name} {st : St} {A : Nat → Option AE} {ls gs : List Nat} (I : Inv nm st A ls gs) {n : Nat} (h : n ∈ ls ++ gs) :
    st.table[posOf ls gs n]? = some (.sym n) := by
  rw [I.table]
  unfold posOf
  rw [show 2 + (ls ++ gs).idxOf n = (ls ++ gs).idxOf n + 1 + 1 by omega, List.getElem?_cons_succ, List.getElem?_cons_succ,
    List.getElem?_map, List.getElem?_idxOf h]
  rfl

theorem idxOf_map_sym (l : List Nat) (n : Nat) : (l.map Ref.sym).idxOf (.sym n) = l.idxOf n := by
  induction l with
  | nil => rfl
  | cons a l ih =>
    rw [List.map_cons, List.idxOf_cons, List.idxOf_cons, ih]
    by_cases h : a = n
    · subst h
      rw [show (Ref.sym a == Ref.sym a) = true from decide_eq_true rfl, beq_self_eq_true]
    · rw [show (Ref.sym a == Ref.sym n) = false from decide_eq_false (fun e => h (Ref.sym.inj e)), show (a == n) = false by simpa using h]

theorem symIndex_pos {nm : Name} {st : St} {A : Nat → Option AE} {ls gs : List Nat} (I : Inv nm st A ls gs) {n : Nat}
    (h : n ∈ ls ++ gs) : st.symIndex n = some (posOf ls gs n) := by
  have h1 := I.rep n
  have h2 := (I.mem n).mp h
  unfold St.symIndex
  rcases hf : A n with _ | ⟨e, x⟩
  · rw [hf] at h2; simp [inTab] at h2
  · rw [hf] at h1 h2
    rcases he : st.entry (.sym n) with _ | e'
    · rw [he] at h1; exact h1.elim
    · rw [he] at h1
      obtain ⟨rfl, _⟩ := h1
      have : e'.inTable = true := by simpa [inTab, anon] using h2
      simp only [this, if_true]
      rw [I.table]
      unfold posOf
      rw [List.idxOf_cons, List.idxOf_cons, idxOf_map_sym,
        show (Ref.null == Ref.sym n) = false from decide_eq_false (by simp),
        show (Ref.file == Ref.sym n) = false from decide_eq_false (by simp)]
      simp only [cond_false]; congr 1; omega

/-- What is asked of an object. -/
structure ObjOk (o : Obj) : Prop extends SectsOk o where
  syms : ∀ n s, o.syms[n]? = some s → SymOk o n s
  src : (0 : Byte) ∉ o.src
  pre : (0 : Byte) ∉ o.pre
  suf : (0 : Byte) ∉ o.suf

theorem wantName_clean {o : Obj} (h : ObjOk o) {n : Nat} {s : Sym} (hs : o.syms[n]? = some s) : (0 : Byte) ∉ o.wantName n s := by
  have := (h.syms n s hs).clean
  unfold Obj.wantName
  split
  · simp only [List.mem_append, not_or]; exact ⟨⟨h.pre, this⟩, h.suf⟩
  · split
    · exact this
    · simp

theorem mem_listed {o : Obj} (h : ObjOk o) {st : St} {ls gs : List Nat} (I : Inv o.src st (finals o) ls gs) (n : Nat) :
    n ∈ ls ++ gs ↔ ∃ s, o.syms[n]? = some s ∧ o.listed n s = true := by
  rw [I.mem]
  unfold finals
  rcases hs : o.syms[n]? with _ | s
  · simp [inTab]
  · simp only [Option.some.injEq, exists_eq_left']
    have hw := final_want (h.syms n s hs)
    by_cases hl : o.listed n s = true
    · rw [if_pos hl] at hw
      obtain ⟨e, nm, h1, h2, _⟩ := hw
      simp [h1, inTab, h2, hl]
    · rw [if_neg hl] at hw
      simp [hw, hl]

section
variable {o : Obj} {st : St} {r : Result} (L : Layout o st r) {ls gs : List Nat} (I : Inv o.src st (finals o) ls gs)
variable (hg : ObjOk o) (hf : r.file.length < 2 ^ 32) (he : r.errors = 0)
include L I hg hf he

theorem Layout.strsLt : (strBytes st.strtab).length < 2 ^ 32 := by
  have := L.at2.le_length; omega

theorem Layout.symLine {i : Nat} {q : Ref} (hq : st.table[i]? = some q) :
    ∃ b, symBytes o L.w.st L.w.heads q = some (b, 0) ∧ At L.syms (i * o.machine.symSize) b := by
  have h := L.symsEq
  have h0 : L.errs = 0 := by have := L.errors; omega
  rw [h0, L.table] at h
  obtain ⟨b, k, h1, h2, h3⟩ := (symsBytes_ok h).2 i q hq
  have : k = 0 := by omega
  subst this
  exact ⟨b, h1, h3⟩

theorem Layout.nullRead : symbolAt o.machine.wide L.syms (strBytes st.strtab) 0 = some ⟨[], 0, 0, 0, 0, 0, 0⟩ := by
  obtain ⟨b, h1, h2⟩ := L.symLine I hg hf he (i := 0) (q := .null) (by rw [I.table]; rfl)
  have hforce : forces o.machine (o.sects.flatMap Sect.rels) .null = false := by simp [forces]
  unfold symBytes at h1
  rw [L.entry, I.null] at h1
  simp only [Option.map_some, hforce, Bool.false_eq_true, if_false, nameIndex, newEntry, sectIndex, inTls, valueOf,
    Obj.kindOf, sizeOf, Option.map_eq_some_iff] at h1
  obtain ⟨c, h3, h4⟩ := h1
  cases h4
  have := sym_read h3 h2 (by decide) (by decide) (by decide) (noname_read I.chain I.zero)
  rw [this]
  have h0 := stored_len o.machine (n := 0) (by decide)
  rw [show o.machine.stored 0 = 0 from h0, h0]

theorem Layout.fileRead : symbolAt o.machine.wide L.syms (strBytes st.strtab) 1 = some ⟨o.src, 0, 0, 0, 4, 0, 0xfff1⟩ := by
  obtain ⟨b, h1, h2⟩ := L.symLine I hg hf he (i := 1) (q := .file) (by rw [I.table]; rfl)
  have hforce : forces o.machine (o.sects.flatMap Sect.rels) .file = false := by simp [forces]
  obtain ⟨k, g1, g2, g3⟩ := name_read I.chain I.one hg.src
  have := L.strsLt I hg hf he
  unfold symBytes at h1
  rw [L.entry, I.file] at h1
  simp only [Option.map_some, hforce, Bool.false_eq_true, if_false, newEntry, sectIndex, inTls, valueOf,
    Obj.kindOf, sizeOf, L.strtab, g1, Option.map_eq_some_iff] at h1
  obtain ⟨c, h3, h4⟩ := h1
  cases h4
  have := sym_read h3 h2 (by omega) (by decide) (by decide) g3
  rw [this]
  have h0 := stored_len o.machine (n := 0) (by decide)
  simp only [Nat.cast_zero] at h0
  rw [h0]
  rfl

theorem forces_tls (n : Nat) : forces o.machine (o.sects.flatMap Sect.rels) (.sym n) =
    o.sects.any fun x => x.rels.any fun r => o.machine.tlsReloc r && decide (r.sym = n) := by
  unfold forces
  rw [List.any_flatMap]
  congr 1
  funext x
  congr 1
  funext q
  congr 1
  simp [eq_comm]

theorem wantVis_lt (s : Sym) : Obj.wantVis s % 4 = Obj.wantVis s := by
  unfold Obj.wantVis; split <;> simp

theorem wantBind_lt (n : Nat) (s : Sym) : o.wantBind n s < 16 := by
  unfold Obj.wantBind; split
  · decide
  · split <;> decide

theorem Layout.headIndex {k : Nat} (hk : k < o.sects.length) : (L.w.heads[k]?).map (·.index) = some (o.sectIndex k) := by
  obtain ⟨hd, hhd⟩ : ∃ hd, L.w.heads[k]? = some hd := ⟨_, List.getElem?_eq_getElem (by rw [L.heads]; exact hk)⟩
  rw [hhd, Option.map_some, (L.placed k _ hd (List.getElem?_eq_getElem hk) hhd).index]
  rfl

theorem Layout.indexLt {k : Nat} (hk : k < o.sects.length) : o.sectIndex k < 2 ^ 16 := by
  have h1 := before_le o.sects (List.getElem?_eq_getElem hk)
  have h2 := hg.count
  unfold Obj.sectIndex
  split at h1 <;> omega

theorem Layout.symRead {n : Nat} {s : Sym} (hs : o.syms[n]? = some s) (hl : o.listed n s = true) :
    symbolAt o.machine.wide L.syms (strBytes st.strtab) (posOf ls gs n) = some (o.wantSym n s) := by
  have hok := hg.syms n s hs
  have hmem := (mem_listed hg I n).mpr ⟨s, hs, hl⟩
  obtain ⟨b, h1, h2⟩ := L.symLine I hg hf he (posOf_get I hmem)
  have hw := final_want hok
  rw [if_pos hl] at hw
  obtain ⟨e, nm, w1, w2, w3, w4, w5, w6, w7, w8, w9, w10⟩ := hw
  have hrep := I.rep n
  unfold finals at hrep
  rw [hs] at hrep
  simp only [w1] at hrep
  rcases hent : st.entry (.sym n) with _ | e'
  · rw [hent] at hrep; exact hrep.elim
  rw [hent] at hrep
  obtain ⟨rfl, hnm⟩ := hrep
  have hlt := L.strsLt I hg hf he
  -- the name
  obtain ⟨k, k1, k2, k3⟩ : ∃ k, nameIndex st.strtab e'.name = some k ∧ k < 2 ^ 32 ∧
      string (strBytes st.strtab) k = some (o.wantName n s) := by
    rcases hn : e'.name with _ | k <;> rcases nm with _ | nm <;> rw [hn] at hnm <;> simp only [NameRep] at hnm
    · exact ⟨0, rfl, by decide, by rw [show o.wantName n s = [] from w3]; exact noname_read I.chain I.zero⟩
    · have w3 : nm = o.wantName n s := w3
      obtain ⟨i, g1, g2, g3⟩ := name_read I.chain hnm.2 (by rw [w3]; exact wantName_clean hg hs)
      exact ⟨i, g1, by omega, by rw [← w3]; exact g3⟩
  unfold symBytes at h1
  rw [L.entry, hent] at h1
  simp only [Option.map_some] at h1
  obtain ⟨F, hF⟩ : ∃ F, forces o.machine (o.sects.flatMap Sect.rels) (.sym n) = F := ⟨_, rfl⟩
  rw [hF] at h1
  obtain ⟨e, hE⟩ : ∃ e, (if F = true then { e' with type := sttTls } else e') = e := ⟨_, rfl⟩
  rw [hE] at h1
  have x1 : e.name = e'.name := by rw [← hE]; split <;> rfl
  have x2 : e.bind = o.wantBind n s := by rw [← w4, ← hE]; split <;> rfl
  have x3 : e.vis = Obj.wantVis s := by rw [← w5, ← hE]; split <;> rfl
  have x4 : e.xsize = (if s.common then s.csize else if s.glob then s.gsize else none).or (o.sizeOf n) := by
    rw [← w6, ← hE]; split <;> rfl
  have x5 : e.type = if F = true then 6 else
      (if o.isSection s then 3 else if s.glob && !s.common && s.gtype != 0 then s.gtype else o.typeOf n) := by
    rw [← hE]
    split
    · rfl
    · rw [← w7]; rfl
  have x6 : e.sect = match s.kind with | .label k _ => some k | _ => none := by rw [← hE]; split <;> exact w8
  have x7 : ∀ k off, s.kind = .label k off → e.value = if o.isSection s then 0 else off := by
    intro a b c; rw [← w9 a b c, ← hE]; split <;> rfl
  have x8 : s.kind = .other → e.value = (if s.common then s.calign.getD 0 else 0) ∧ e.index = if s.common then shnCommon else 0 := by
    intro a; obtain ⟨c, d⟩ := w10 a; rw [← c, ← d, ← hE]; split <;> exact ⟨rfl, rfl⟩
  -- the size
  have y1 : (sizeOf e).2 = 0 → (sizeOf e).1 = o.wantSize n s := by
    unfold sizeOf Obj.wantSize
    rw [x4]
    rcases (if s.common then s.csize else if s.glob then s.gsize else none).or (o.sizeOf n) with _ | v | _
    · intro _; rfl
    · intro _; rfl
    · intro h; exact absurd h (by decide)
  -- the value and index
  have y2 : (valueOf o (.sym n) e).2.2 = 0 → (valueOf o (.sym n) e).1 = o.wantValue s ∧
      sectIndex L.w.heads e (valueOf o (.sym n) e).2.1 = some (o.wantShndx s) := by
    unfold valueOf Obj.wantValue Obj.wantShndx sectIndex
    simp only [Obj.kindOf, hs]
    rw [x6]
    rcases hk : s.kind with ⟨k, off⟩ | ⟨v, a⟩ | _
    · intro _
      simp only
      exact ⟨by rw [x7 k off hk]; split <;> simp, L.headIndex I hg hf he (hok.sect k off hk)⟩
    · cases v with
      | int v => intro _; exact ⟨rfl, rfl⟩
      | other => intro h; simp at h
    · intro _
      simp only
      exact ⟨by rw [(x8 hk).1]; split <;> simp, by rw [(x8 hk).2]; split <;> rfl⟩
  have y3 : (if inTls o (.sym n) then sttTls else e.type) % 16 = o.wantType n s := by
    unfold Obj.wantType Obj.tls
    rw [← forces_tls L I hg hf he n, hF, x5]
    have : inTls o (.sym n) = o.inThreads s := by
      unfold inTls Obj.inThreads; simp only [Obj.kindOf, hs]; rcases s.kind with ⟨k, off⟩ | ⟨v, a⟩ | _ <;> rfl
    rw [this]
    generalize o.inThreads s = T
    cases T <;> cases F <;> simp only [Bool.or_false, Bool.or_true, Bool.false_eq_true, if_true, if_false, sttTls]
    split
    · rfl
    · rfl
  have y4 : o.wantShndx s < 2 ^ 16 := by
    unfold Obj.wantShndx
    split
    · decide
    · rename_i k off hk
      exact L.indexLt I hg hf he (hok.sect k off hk)
    · split <;> decide
  rw [x1, L.strtab, k1] at h1
  rcases hsx : sectIndex L.w.heads e (valueOf o (.sym n) e).2.1 with _ | i
  · rw [hsx] at h1; simp at h1
  · rw [hsx] at h1
    simp only [Option.map_eq_some_iff] at h1
    obtain ⟨c, h3, h4⟩ := h1
    simp only [Prod.mk.injEq] at h4
    obtain ⟨rfl, h4⟩ := h4
    have z1 := y1 (by omega)
    obtain ⟨z2, z3⟩ := y2 (by omega)
    rw [hsx] at z3
    cases z3
    have := sym_read h3 h2 k2 (by rw [x2]; exact wantBind_lt L I hg hf he n s) y4 k3
    rw [this, y3, z1, z2, x2, x3, wantVis_lt L I hg hf he]
    rfl

theorem Layout.table_read : o.Table r.file ⟨strBytes st.strtab, L.syms, st.table.length, 2 + ls.length⟩ (posOf ls gs) := by
  have hsl := (symsBytes_ok L.symsEq).1
  rw [L.table] at hsl
  have hcnt : st.table.length = 2 + (ls ++ gs).length := by rw [I.table]; simp; omega
  have hsz : 16 ≤ o.machine.symSize := by unfold Machine.symSize; split <;> decide
  have hlen := L.at3.le_length
  have hcl : st.table.length < 2 ^ 32 := by have := Nat.mul_le_mul_left st.table.length hsz; omega
  have hin : ∀ n s, o.syms[n]? = some s → o.listed n s = true → n ∈ ls ++ gs :=
    fun n s a b => (mem_listed hg I n).mpr ⟨s, a, b⟩
  have hloc : 2 + ls.length ≤ st.table.length := by rw [hcnt]; simp
  refine ⟨L.section2 hg.toSectsOk hf, ?_, L.nullRead I hg hf he, L.fileRead I hg hf he, fun n s => L.symRead I hg hf he, ?_, ?_, ?_, ?_,
    Nat.le_add_right _ _, hloc⟩
  · have := L.section3 hg.toSectsOk hf (by rw [L.locals I]; omega)
    rw [L.locals I, hsl] at this
    exact this
  · intro n s a b
    have := List.idxOf_lt_length_of_mem (hin n s a b)
    simp only [posOf]
    omega
  · intro n m s u a b c d e
    unfold posOf at e
    exact (List.idxOf_inj (hin n s a b)).mp (by omega)
  · intro i h2 hi
    have hlt : i - 2 < (ls ++ gs).length := by simp only at hi; omega
    obtain ⟨s, h3, h4⟩ := (mem_listed hg I (ls ++ gs)[i - 2]).mp (List.getElem_mem hlt)
    refine ⟨(ls ++ gs)[i - 2], s, h3, h4, ?_⟩
    unfold posOf
    rw [I.nodup.idxOf_getElem]
    omega
  · intro n s a b
    have hm := hin n s a b
    have hw := final_want (hg.syms n s a)
    rw [if_pos b] at hw
    obtain ⟨e, nm, w1, w2, w3, w4, _⟩ := hw
    have hfin : finals o n = some (e, nm) := by unfold finals; rw [a]; exact w1
    unfold posOf
    simp only
    rw [← w4]
    constructor
    · intro hlt
      have : n ∈ ls := by
        by_contra hn
        rw [List.idxOf_append_of_notMem hn] at hlt
        omega
      exact I.loc n this _ hfin
    · intro h0
      have : n ∈ ls := by
        rcases List.mem_append.mp hm with h | h
        · exact h
        · exact absurd h0 (I.glo n h _ hfin)
      rw [List.idxOf_append_of_mem this]
      have := List.idxOf_lt_length_of_mem this
      omega

end
end Verif.Elf
