import Verif.Elf.Syms
/-
The file: every block is where the headers say.
-/
set_option linter.unusedSimpArgs false
namespace Verif.Elf

/-- The bytes of relocations, with given indices of symbols. -/
def relBytes (m : Machine) (ix : Nat → Option Nat) : List Reloc → Option (List Byte)
  | [] => some []
  | r :: rs =>
    match ix r.sym, m.relocType r with
    | some i, some t =>
      match m.writeReloc r (t % 256) i, relBytes m ix rs with
      | some b, some bs => some (b ++ bs)
      | _, _ => none
    | _, _ => none

/-! ### Types forced to STT_TLS -/

theorem forceTls_strtab (m r st) : (forceTls m r st).strtab = st.strtab := by
  unfold forceTls; split
  · split <;> rfl
  · rfl
theorem forceTls_table (m r st) : (forceTls m r st).table = st.table := by
  unfold forceTls; split
  · split <;> rfl
  · rfl
theorem forceTls_errors (m r st) : (forceTls m r st).errors = st.errors := by
  unfold forceTls; split
  · split <;> rfl
  · rfl

/-- Does a relocation make a symbol thread-local? -/
def forces (m : Machine) (rs : List Reloc) (q : Ref) : Bool := rs.any fun r => m.tlsReloc r && decide (q = .sym r.sym)

theorem forceTls_entry (m r st q) : (forceTls m r st).entry q =
    (st.entry q).map fun e => if forces m [r] q then { e with type := sttTls } else e := by
  unfold forceTls forces
  simp only [List.any_cons, List.any_nil, Bool.or_false]
  cases ht : m.tlsReloc r with
  | false => simp
  | true =>
    simp only [if_true, Bool.true_and, decide_eq_true_eq]
    rcases he : st.entry (.sym r.sym) with _ | e
    · simp only
      by_cases hq : q = .sym r.sym
      · subst hq; rw [he]; rfl
      · simp [hq]
    · simp only
      by_cases hq : q = .sym r.sym
      · subst hq; rw [set_self, he]; simp
      · rw [set_ne _ _ hq]; simp [hq]

theorem forceAll (m : Machine) (rs : List Reloc) (st : St) :
    (rs.foldl (fun st r => forceTls m r st) st).strtab = st.strtab ∧
    (rs.foldl (fun st r => forceTls m r st) st).table = st.table ∧
    (rs.foldl (fun st r => forceTls m r st) st).errors = st.errors ∧
    ∀ q, (rs.foldl (fun st r => forceTls m r st) st).entry q =
      (st.entry q).map fun e => if forces m rs q then { e with type := sttTls } else e := by
  induction rs generalizing st with
  | nil => refine ⟨rfl, rfl, rfl, ?_⟩; intro q; simp [forces]
  | cons r rs ih =>
    obtain ⟨h1, h2, h3, h4⟩ := ih (forceTls m r st)
    simp only [List.foldl_cons]
    refine ⟨h1.trans (forceTls_strtab ..), h2.trans (forceTls_table ..), h3.trans (forceTls_errors ..), ?_⟩
    intro q
    rw [h4 q, forceTls_entry, Option.map_map]
    congr 1
    funext e
    simp only [Function.comp_apply, forces, List.any_cons, List.any_nil, Bool.or_false]
    simp only [Bool.or_eq_true]
    by_cases ha : (m.tlsReloc r && decide (q = .sym r.sym)) = true <;>
      by_cases hb : (rs.any fun r => m.tlsReloc r && decide (q = .sym r.sym)) = true <;>
      simp only [ha, hb, if_true, if_false, or_true, true_or, or_false, false_or, Bool.false_eq_true]

theorem forceTls_index (m r st) : (forceTls m r st).symIndex = st.symIndex := by
  funext n
  unfold St.symIndex
  rw [forceTls_entry, forceTls_table]
  rcases st.entry (.sym n) with _ | e
  · rfl
  · simp only [Option.map_some]
    split <;> rfl

theorem forceAll_index (m : Machine) (rs : List Reloc) (st : St) :
    (rs.foldl (fun st r => forceTls m r st) st).symIndex = st.symIndex := by
  induction rs generalizing st with
  | nil => rfl
  | cons r rs ih => rw [List.foldl_cons, ih, forceTls_index]

theorem writeRelocs_eq (m : Machine) (st : St) (rs : List Reloc) :
    writeRelocs m st rs = (relBytes m st.symIndex rs).map fun bs => (rs.foldl (fun st r => forceTls m r st) st, bs) := by
  induction rs generalizing st with
  | nil => rfl
  | cons r rs ih =>
    unfold writeRelocs relBytes
    rcases st.symIndex r.sym with _ | i
    · rfl
    rcases m.relocType r with _ | t
    · rfl
    simp only
    rcases m.writeReloc r (t % 256) i with _ | b
    · rfl
    simp only [ih, forceTls_index]
    rcases relBytes m st.symIndex rs with _ | bs <;> rfl

/-! ### The sections -/

/-- A section and its header. -/
structure Placed (m : Machine) (ix : Nat → Option Nat) (f : List Byte) (t : List Str) (k i : Nat) (s : Sect) (h : Head) :
    Prop where
  name : h.name = k + 1
  type : h.type = s.type
  flags : h.flags = s.flags
  link : h.link = s.link
  align : h.align = s.align
  entsize : h.entsize = s.entsize
  index : h.index = i
  nreloc : h.nreloc = s.rels.length
  off0 : s.nobits = true → h.offset = 0
  size : h.size = if s.nobits then s.length else s.content.length
  content : s.nobits = false → At f h.offset s.content ∧ m.ehdrSize ≤ h.offset ∧ (s.align ≠ 0 → s.align ∣ h.offset)
  rels : s.rels ≠ [] → ∃ bs q, relBytes m ix s.rels = some bs ∧ At f h.relOffset bs ∧ m.ehdrSize ≤ h.relOffset ∧
    4 ∣ h.relOffset ∧ h.relName = some q ∧ strAt t q = some (m.relPrefix ++ s.name)
  norels : s.rels = [] → h.relName = none ∧ h.relOffset = 0

theorem Placed.mono {m ix f t k i s h f' t'} (p : Placed m ix f t k i s h) (hf : f <+: f') (ht : t <+: t') :
    Placed m ix f' t' k i s h := by
  refine ⟨p.name, p.type, p.flags, p.link, p.align, p.entsize, p.index, p.nreloc, p.off0, p.size, ?_, ?_, p.norels⟩
  · intro hn
    obtain ⟨h1, h2, h3⟩ := p.content hn
    exact ⟨h1.mono hf, h2, h3⟩
  · intro hn
    obtain ⟨bs, q, h1, h2, h3, h4, h5, h6⟩ := p.rels hn
    obtain ⟨u, rfl⟩ := ht
    exact ⟨bs, q, h1, h2.mono hf, h3, h4, h5, strAt_append h6⟩

theorem seek_prefix (f : List Byte) (pos : Nat) : f <+: seek f pos := ⟨_, rfl⟩
theorem seek_length {f : List Byte} {pos : Nat} (h : f.length ≤ pos) : (seek f pos).length = pos := by
  unfold seek; simp; omega

theorem fileOffset_ok {align pos q : Nat} (h : fileOffset align pos = some q) : pos ≤ q ∧ (align ≠ 0 → align ∣ q) := by
  unfold fileOffset at h
  split at h
  · cases h
    rename_i h01
    refine ⟨Nat.le_refl _, ?_⟩
    intro h0
    rcases h01 with h01 | h01
    · exact absurd h01 h0
    · rw [h01]; exact Nat.one_dvd _
  · split at h
    · cases h
    · cases h
      rename_i h01 _
      have h0 : 0 < align := by omega
      have := Nat.mod_lt (pos + align - 1) h0
      refine ⟨by omega, fun _ => Nat.dvd_sub_mod _⟩

theorem nobits_iff (s : Sect) : s.type &&& shtNobits = shtNobits ↔ s.nobits = true := by
  unfold Sect.nobits shtNobits; simp

theorem content_eq (s : Sect) : s.chunks.flatMap Chunk.write = s.content := by
  rfl

/-- One section. -/
theorem outSection_ok {m : Machine} {k : Nat} {s : Sect} {w w' : W} (hc : Chain 0 w.shstr) (hne : w.shstr ≠ [])
    (hlen : m.ehdrSize ≤ w.file.length) (h : outSection m k s w = some w') :
    w.file <+: w'.file ∧ w.shstr <+: w'.shstr ∧ Chain 0 w'.shstr ∧
      w'.st = s.rels.foldl (fun st r => forceTls m r st) w.st ∧
      w'.sindex = w.sindex + before [s] 1 ∧
      ∃ hd, w'.heads = w.heads ++ [hd] ∧ Placed m w.st.symIndex w'.file w'.shstr k (w.sindex + 1) s hd := by
  unfold outSection at h
  by_cases hb : s.type &&& shtNobits = shtNobits
  · rw [if_pos hb] at h
    cases h
    have hb' := (nobits_iff s).mp hb
    have hr : s.rels = [] := by simp [Sect.rels, hb']
    refine ⟨List.prefix_rfl, List.prefix_rfl, hc, by simp [hr], by simp [before, hr], _, rfl, ?_⟩
    refine ⟨rfl, rfl, rfl, rfl, rfl, rfl, rfl, by simp [hr], fun _ => rfl, by simp [hb'], ?_, ?_, fun _ => ⟨rfl, rfl⟩⟩
    · intro hn; rw [hb'] at hn; cases hn
    · intro hn; exact absurd hr hn
  · rw [if_neg hb] at h
    have hb' : s.nobits = false := by
      cases hh : s.nobits
      · rfl
      · exact absurd ((nobits_iff s).mpr hh) hb
    have hr : s.rels = s.relocs := by simp [Sect.rels, hb']
    rcases hq : fileOffset s.align w.file.length with _ | pos
    · rw [hq] at h; cases h
    · rw [hq] at h
      simp only [content_eq] at h
      obtain ⟨hp1, hp2⟩ := fileOffset_ok hq
      have hsl := seek_length hp1
      have hcont : At (seek w.file pos ++ s.content) pos s.content := by
        have := At.end_ (seek w.file pos) s.content
        rwa [hsl] at this
      unfold outRelocs at h
      simp only at h
      by_cases he : s.relocs.isEmpty = true
      · rw [if_pos he] at h
        cases h
        have he' : s.rels = [] := by rw [hr]; simpa using he
        refine ⟨(seek_prefix _ _).trans (List.prefix_append _ _), List.prefix_rfl, hc, by simp [he'],
          by simp [before, he'], _, rfl, ?_⟩
        refine ⟨rfl, rfl, rfl, rfl, rfl, rfl, rfl, by rw [hr]; rfl, ?_, by simp [hb'], ?_, ?_,
          fun _ => ⟨rfl, rfl⟩⟩
        · intro hn; rw [hb'] at hn; cases hn
        · intro _
          exact ⟨hcont, by show m.ehdrSize ≤ pos; omega, hp2⟩
        · intro hn; exact absurd he' hn
      · rw [if_neg he] at h
        rw [writeRelocs_eq] at h
        rcases hrb : relBytes m w.st.symIndex s.relocs with _ | bs
        · rw [hrb] at h; cases h
        · rw [hrb, Option.map_some] at h
          simp only at h
          obtain ⟨hs1, hs2⟩ := strAppend_ok (m.relPrefix ++ s.name) hc hne
          rw [hs1] at h
          simp only [Option.some.injEq] at h
          subst h
          have he' : s.rels ≠ [] := by rw [hr]; simpa using he
          obtain ⟨L, hL⟩ : ∃ L, L = (seek w.file pos ++ s.content).length := ⟨_, rfl⟩
          have hL' : pos ≤ L := by rw [hL, List.length_append, hsl]; omega
          obtain ⟨P, hP⟩ : ∃ P, P = L + 3 - (L + 3) % 4 := ⟨_, rfl⟩
          have hPL : L ≤ P := by have := Nat.mod_lt (L + 3) (show 0 < 4 by omega); omega
          have hsk : (seek (seek w.file pos ++ s.content) P).length = P := seek_length (by rw [← hL]; exact hPL)
          refine ⟨?_, List.prefix_append _ _, hs2, by rw [hr], by simp [before, he'], _, rfl, ?_⟩
          · refine (seek_prefix w.file pos).trans ((List.prefix_append _ s.content).trans ?_)
            exact (seek_prefix _ _).trans (List.prefix_append _ _)
          · refine ⟨rfl, rfl, rfl, rfl, rfl, rfl, rfl, by rw [hr]; rfl, ?_, by simp [hb'], ?_, ?_, ?_⟩
            · intro hn; rw [hb'] at hn; cases hn
            · intro _
              refine ⟨?_, by show m.ehdrSize ≤ pos; omega, hp2⟩
              exact hcont.mono ((seek_prefix _ _).trans (List.prefix_append _ _))
            · intro _
              refine ⟨bs, w.shstr.length, by rw [hr]; exact hrb, ?_, ?_, ?_, rfl, by simp [strAt]⟩
              · have := At.end_ (seek (seek w.file pos ++ s.content) P) bs
                rw [hsk] at this
                rw [hP, hL] at this
                exact this
              · show m.ehdrSize ≤ (seek w.file pos ++ s.content).length + 3 -
                  ((seek w.file pos ++ s.content).length + 3) % 4
                rw [← hL, ← hP]; omega
              · show 4 ∣ (seek w.file pos ++ s.content).length + 3 - _
                exact Nat.dvd_sub_mod _
            · intro hn; exact absurd hn he'

theorem before_cons (s : Sect) (ss : List Sect) (j : Nat) : before (s :: ss) (j + 1) = before [s] 1 + before ss j := by
  unfold before
  simp only [List.take_succ_cons, List.filter_cons, List.take_zero, List.filter_nil]
  split <;> simp <;> omega

/-- All sections. -/
theorem outSections_ok {m : Machine} {k : Nat} {ss : List Sect} {w w' : W} (hc : Chain 0 w.shstr) (hne : w.shstr ≠ [])
    (hlen : m.ehdrSize ≤ w.file.length) (h : outSections m k ss w = some w') :
    w.file <+: w'.file ∧ w.shstr <+: w'.shstr ∧ Chain 0 w'.shstr ∧
      w'.st = (ss.flatMap Sect.rels).foldl (fun st r => forceTls m r st) w.st ∧
      ∃ hs, w'.heads = w.heads ++ hs ∧ hs.length = ss.length ∧ ∀ j s hd, ss[j]? = some s → hs[j]? = some hd →
        Placed m w.st.symIndex w'.file w'.shstr (k + j) (w.sindex + 1 + before ss j) s hd := by
  induction ss generalizing k w with
  | nil =>
    cases h
    refine ⟨List.prefix_rfl, List.prefix_rfl, hc, rfl, [], by simp, rfl, by simp⟩
  | cons s ss ih =>
    unfold outSections at h
    rcases h1 : outSection m k s w with _ | w1
    · rw [h1] at h; cases h
    · rw [h1] at h
      obtain ⟨a1, a2, a3, a4, a5, hd, a6, a7⟩ := outSection_ok hc hne hlen h1
      have hne1 : w1.shstr ≠ [] := by
        intro hh; rw [hh] at a2; exact hne (List.prefix_nil.mp a2)
      obtain ⟨b1, b2, b3, b4, hs, b5, b6, b7⟩ := ih a3 hne1 (Nat.le_trans hlen a1.length_le) h
      refine ⟨a1.trans b1, a2.trans b2, b3, ?_, hd :: hs, ?_, by simp [b6], ?_⟩
      · rw [b4, a4, List.flatMap_cons, List.foldl_append]
      · rw [b5, a6]; simp
      · intro j s' hd' hj hj'
        cases j with
        | zero =>
          simp only [List.getElem?_cons_zero, Option.some.injEq] at hj hj'
          subst hj; subst hj'
          have := a7.mono b1 b2
          simpa [before] using this
        | succ j =>
          simp only [List.getElem?_cons_succ] at hj hj'
          have := b7 j s' hd' hj hj'
          rw [a4, forceAll_index, a5] at this
          rw [before_cons, show k + (j + 1) = k + 1 + j by omega,
            show w.sindex + 1 + (before [s] 1 + before ss j) = w.sindex + before [s] 1 + 1 + before ss j by omega]
          exact this

theorem sectNames_ok {t : List Str} (ss : List Sect) (hc : Chain 0 t) (hne : t ≠ []) :
    ∃ t', sectNames t ss = some t' ∧ Chain 0 t' ∧ t <+: t' ∧
      ∀ j s, ss[j]? = some s → strAt t' (t.length + j) = some s.name := by
  induction ss generalizing t with
  | nil => exact ⟨t, rfl, hc, List.prefix_rfl, by simp⟩
  | cons s ss ih =>
    obtain ⟨h1, h2⟩ := strAppend_ok s.name hc hne
    obtain ⟨t', h3, h4, h5, h6⟩ := ih h2 (by simp)
    refine ⟨t', by simp [sectNames, h1, h3], h4, (List.prefix_append _ _).trans h5, ?_⟩
    intro j s' hj
    cases j with
    | zero =>
      simp only [List.getElem?_cons_zero, Option.some.injEq] at hj
      subst hj
      obtain ⟨u, rfl⟩ := h5
      exact strAt_append (by simp [strAt])
    | succ j =>
      simp only [List.getElem?_cons_succ] at hj
      have := h6 j s' hj
      rwa [List.length_append, List.length_singleton, Nat.add_assoc, Nat.add_comm 1 j] at this

/-! ### The headers -/

/-- The number of headers for the heads before a place. -/
def hbefore (hs : List Head) (k : Nat) : Nat := k + ((hs.take k).filter fun h => decide (h.nreloc ≠ 0)).length

theorem hbefore_cons (h : Head) (hs : List Head) (j : Nat) :
    hbefore (h :: hs) (j + 1) = (if h.nreloc = 0 then 1 else 2) + hbefore hs j := by
  unfold hbefore
  simp only [List.take_succ_cons, List.filter_cons]
  by_cases h0 : h.nreloc = 0 <;> simp [h0] <;> omega

theorem relShdr_eq (m : Machine) (name offset nreloc info : Nat) (h : m.relSize * nreloc < 2 ^ 32) :
    m.writeRelShdr name offset nreloc info =
      m.writeShdr name m.relType 0 offset (m.relSize * nreloc : Nat) 3 info m.relAlign m.relSize := by
  unfold Machine.writeRelShdr
  cases m
  · simp only
    unfold Machine.writeShdr
    rw [wordI_some _ _ h]
    rfl
  · rfl
  · rfl

theorem relShdr_length {m : Machine} {name offset nreloc info : Nat} {b : List Byte}
    (h : m.writeRelShdr name offset nreloc info = some b) : b.length = m.shdrSize := by
  unfold Machine.writeRelShdr at h
  cases m
  · simp only [Option.some.injEq] at h
    subst h
    simp only [List.length_append, le_length, word_length]
    rfl
  · exact shdr_length _ h
  · exact shdr_length _ h

theorem headBytes_length {m : Machine} {shstr : List Str} {i : Nat} {h : Head} {b : List Byte}
    (hb : headBytes m shstr i h = some b) : b.length = (if h.nreloc = 0 then 1 else 2) * m.shdrSize := by
  unfold headBytes at hb
  split at hb
  · split at hb
    · cases hb
    · rename_i b' hb'
      have h1 := shdr_length _ hb'
      split at hb
      · cases hb
        rename_i h0
        rw [if_pos h0, h1]; omega
      · rename_i h0
        rw [if_neg h0]
        rw [Option.map_eq_some_iff] at hb
        obtain ⟨c, hc, rfl⟩ := hb
        rw [List.length_append, h1, relShdr_length hc]; omega
  · cases hb

theorem headsBytes_ok {m : Machine} {shstr : List Str} {i n : Nat} {hs : List Head} {bs : List Byte}
    (h : headsBytes m shstr i hs = some (bs, n)) :
    n = i + hbefore hs hs.length ∧ bs.length = hbefore hs hs.length * m.shdrSize ∧ ∀ j hd, hs[j]? = some hd →
      ∃ b, headBytes m shstr (i + hbefore hs j) hd = some b ∧ At bs (hbefore hs j * m.shdrSize) b := by
  induction hs generalizing i bs with
  | nil =>
    simp only [headsBytes, Option.some.injEq, Prod.mk.injEq] at h
    obtain ⟨rfl, rfl⟩ := h
    simp [hbefore]
  | cons x xs ih =>
    unfold headsBytes at h
    rcases h1 : headBytes m shstr i x with _ | b
    · rw [h1] at h; cases h
    · rw [h1] at h
      simp only at h
      rcases h2 : headsBytes m shstr (if x.nreloc = 0 then i + 1 else i + 2) xs with _ | ⟨bs', j'⟩
      · rw [h2] at h; cases h
      · rw [h2] at h
        simp only [Option.some.injEq, Prod.mk.injEq] at h
        obtain ⟨rfl, rfl⟩ := h
        obtain ⟨c1, c2, c3⟩ := ih h2
        have hl := headBytes_length h1
        have hi : (if x.nreloc = 0 then i + 1 else i + 2) = i + (if x.nreloc = 0 then 1 else 2) := by split <;> rfl
        rw [hi] at c1 c3
        refine ⟨?_, ?_, ?_⟩
        · rw [List.length_cons, hbefore_cons]; omega
        · rw [List.length_cons, hbefore_cons, List.length_append, hl, c2, Nat.add_mul]
        · intro j hd hj
          cases j with
          | zero =>
            simp only [List.getElem?_cons_zero, Option.some.injEq] at hj
            subst hj
            refine ⟨b, by simpa [hbefore] using h1, ?_⟩
            rw [show hbefore (x :: xs) 0 = 0 by simp [hbefore], Nat.zero_mul]
            exact ⟨[], bs', by simp, rfl⟩
          | succ j =>
            simp only [List.getElem?_cons_succ] at hj
            obtain ⟨b2, d1, d2⟩ := c3 j hd hj
            refine ⟨b2, ?_, ?_⟩
            · rw [hbefore_cons, ← Nat.add_assoc]; exact d1
            · rw [hbefore_cons, Nat.add_mul, ← hl]
              exact d2.append_left b

/-! ### The rest of the file -/

theorem alignUp_prefix (f : List Byte) (a : Nat) : f <+: alignUp f a := seek_prefix _ _

theorem addNames_ok {t : List Str} (hc : Chain 0 t) (hne : t ≠ []) :
    ∃ t' a b c, addNames t = some (t', a, b, c) ∧ Chain 0 t' ∧ t <+: t' ∧ strAt t' a = some nStrtab ∧
      strAt t' b = some nSymtab ∧ strAt t' c = some nShstrtab := by
  obtain ⟨h1, h2⟩ := strAppend_ok nStrtab hc hne
  obtain ⟨h3, h4⟩ := strAppend_ok nSymtab h2 (by simp)
  obtain ⟨h5, h6⟩ := strAppend_ok nShstrtab h4 (by simp)
  refine ⟨_, _, _, _, by simp only [addNames, h1, h3, h5]; rfl, h6, ?_, ?_, ?_, ?_⟩
  · rw [List.append_assoc, List.append_assoc]; exact List.prefix_append _ _
  · exact strAt_append (strAt_append (by simp [strAt]))
  · exact strAt_append (by simp [strAt])
  · simp [strAt]

/-- Where everything is. -/
structure Layout (o : Obj) (st : St) (r : Result) where
  w : W
  shstr : List Str
  a : Nat
  b : Nat
  c : Nat
  p1 : Nat
  p2 : Nat
  p3 : Nat
  p4 : Nat
  syms : List Byte
  errs : Nat
  hd : List Byte
  hs : List Byte
  n : Nat
  rest : List Byte
  wst : w.st = (o.sects.flatMap Sect.rels).foldl (fun st r => forceTls o.machine r st) st
  heads : w.heads.length = o.sects.length
  placed : ∀ j s h, o.sects[j]? = some s → w.heads[j]? = some h →
    Placed o.machine st.symIndex r.file shstr j (4 + before o.sects j) s h
  chain : Chain 0 shstr
  zero : strAt shstr 0 = some []
  names : ∀ j s, o.sects[j]? = some s → strAt shstr (j + 1) = some s.name
  na : strAt shstr a = some nStrtab
  nb : strAt shstr b = some nSymtab
  nc : strAt shstr c = some nShstrtab
  symsEq : symsBytes o w.st w.heads w.st.table = some (syms, errs)
  at1 : At r.file p1 (strBytes shstr)
  at2 : At r.file p2 (strBytes st.strtab)
  at3 : At r.file p3 syms
  first : firstHeads o.machine shstr (a, b, c) p1 (strBytes shstr).length p2 (strBytes st.strtab).length p3 syms.length
    w.st.nlocal = some hd
  headsEq : headsBytes o.machine shstr 3 w.heads = some (hs, n)
  at4 : At r.file p4 (hd ++ hs)
  file : r.file = o.machine.writeEhdr p4 (n + 1) 1 ++ rest
  errors : r.errors = st.errors + errs

theorem output_layout {o : Obj} {st : St} {r : Result} (hst : symbols o = some st) (h : output o = some r) :
    Nonempty (Layout o st r) := by
  obtain ⟨t0, hn1, hn2, hn3, hn4⟩ := sectNames_ok (t := strCreate) o.sects chain_create (by simp [strCreate])
  have ht0 : t0 ≠ [] := by
    intro hh; rw [hh] at hn3; exact absurd (List.prefix_nil.mp hn3) (by simp [strCreate])
  unfold output at h
  rw [hst, hn1] at h
  simp only at h
  rcases hw : outSections o.machine 0 o.sects ⟨List.replicate o.machine.ehdrSize 0, 3, t0, st, []⟩ with _ | w
  · rw [hw] at h; cases h
  rw [hw] at h
  simp only at h
  obtain ⟨b1, b2, b3, b4, hs, b5, b6, b7⟩ := outSections_ok hn2 ht0 (by simp) hw
  simp only at b1 b2 b4 b5 b7
  rw [List.nil_append] at b5
  subst b5
  have hwne : w.shstr ≠ [] := by
    intro hh; rw [hh] at b2; exact ht0 (List.prefix_nil.mp b2)
  obtain ⟨shstr, a, b, c, c1, c2, c3, c4, c5, c6⟩ := addNames_ok b3 hwne
  obtain ⟨f1, f2, f3, f4⟩ := forceAll o.machine (o.sects.flatMap Sect.rels) st
  rw [← b4] at f1 f2 f3 f4
  unfold finish at h
  rw [c1] at h
  simp only [f1] at h
  rcases hy : symsBytes o w.st w.heads w.st.table with _ | ⟨syms, errs⟩
  · rw [hy] at h; cases h
  rw [hy] at h
  simp only at h
  obtain ⟨g1, hg1⟩ : ∃ g, g = alignUp w.file 4 := ⟨_, rfl⟩
  rw [← hg1] at h
  obtain ⟨g2, hg2⟩ : ∃ g, g = alignUp (g1 ++ strBytes shstr) 4 := ⟨_, rfl⟩
  rw [← hg2] at h
  obtain ⟨g3, hg3⟩ : ∃ g, g = alignUp (g2 ++ strBytes st.strtab) 4 := ⟨_, rfl⟩
  rw [← hg3] at h
  obtain ⟨g4, hg4⟩ : ∃ g, g = alignUp (g3 ++ syms) 16 := ⟨_, rfl⟩
  rw [← hg4] at h
  rcases hf : firstHeads o.machine shstr (a, b, c) g1.length (strBytes shstr).length g2.length (strBytes st.strtab).length
    g3.length syms.length w.st.nlocal with _ | hd
  · rw [hf] at h; cases h
  rw [hf] at h
  rcases hh : headsBytes o.machine shstr 3 w.heads with _ | ⟨hs, n⟩
  · rw [hh] at h; cases h
  rw [hh] at h
  simp only [Option.some.injEq] at h
  subst h
  have q1 : w.file <+: g1 := by rw [hg1]; exact alignUp_prefix _ _
  have q2 : g1 ++ strBytes shstr <+: g2 := by rw [hg2]; exact alignUp_prefix _ _
  have q3 : g2 ++ strBytes st.strtab <+: g3 := by rw [hg3]; exact alignUp_prefix _ _
  have q4 : g3 ++ syms <+: g4 := by rw [hg4]; exact alignUp_prefix _ _
  have q5 : g4 <+: g4 ++ hd ++ hs := by rw [List.append_assoc]; exact List.prefix_append _ _
  have r4 := (List.prefix_append g3 syms).trans (q4.trans q5)
  have r3 := (List.prefix_append g2 (strBytes st.strtab)).trans (q3.trans r4)
  have r2 := (List.prefix_append g1 (strBytes shstr)).trans (q2.trans r3)
  have hwl : o.machine.ehdrSize ≤ w.file.length := by
    have := b1.length_le
    simpa using this
  have e1 : o.machine.ehdrSize ≤ g1.length := Nat.le_trans hwl q1.length_le
  have e2 : g1.length ≤ g2.length := ((List.prefix_append _ _).trans q2).length_le
  have e3 : g2.length ≤ g3.length := ((List.prefix_append _ _).trans q3).length_le
  have e4 : g3.length ≤ g4.length := ((List.prefix_append _ _).trans q4).length_le
  have patch : ∀ {pos bs}, At (g4 ++ hd ++ hs) pos bs → o.machine.ehdrSize ≤ pos →
      At (o.machine.writeEhdr g4.length (n + 1) 1 ++ (g4 ++ hd ++ hs).drop o.machine.ehdrSize) pos bs := by
    intro pos bs ha hp
    have := ha.patch (o.machine.writeEhdr g4.length (n + 1) 1) (by rw [ehdr_length]; exact hp)
    rwa [ehdr_length] at this
  refine ⟨⟨w, shstr, a, b, c, g1.length, g2.length, g3.length, g4.length, syms, errs, hd, hs, n, _, b4, b6, ?_, c2, ?_, ?_, c4,
    c5, c6, hy, ?_, ?_, ?_, hf, hh, ?_, rfl, by rw [f3]⟩⟩
  · intro j s h hj hj'
    have p := (b7 j s h hj hj').mono (q1.trans r2) c3
    rw [Nat.zero_add] at p
    refine ⟨p.name, p.type, p.flags, p.link, p.align, p.entsize, p.index, p.nreloc, p.off0, p.size, ?_, ?_, p.norels⟩
    · intro hn
      obtain ⟨h1, h2, h3⟩ := p.content hn
      exact ⟨patch h1 h2, h2, h3⟩
    · intro hn
      obtain ⟨bs, q, h1, h2, h3, h4, h5, h6⟩ := p.rels hn
      exact ⟨bs, q, h1, patch h2 h3, h3, h4, h5, h6⟩
  · obtain ⟨u, hu⟩ := (hn3.trans b2).trans c3
    rw [← hu]
    exact strAt_append (by simp [strAt, strCreate])
  · intro j s hj
    have := hn4 j s hj
    obtain ⟨u, hu⟩ := b2.trans c3
    rw [← hu]
    rw [show strCreate.length = 1 from rfl, Nat.add_comm] at this
    exact strAt_append this
  · exact patch ((At.end_ g1 (strBytes shstr)).mono (q2.trans r3)) e1
  · exact patch ((At.end_ g2 (strBytes st.strtab)).mono (q3.trans r4)) (by omega)
  · exact patch ((At.end_ g3 syms).mono (q4.trans q5)) (by omega)
  · refine patch ?_ (by omega)
    rw [List.append_assoc]
    exact At.end_ g4 (hd ++ hs)

end Verif.Elf
