import Verif.Elf.Read
/-
Reading back the sections of the file.
-/
set_option linter.unusedSimpArgs false
set_option linter.unusedSectionVars false
namespace Verif.Elf

/-- What is asked of a section: one of the types yasm gives, numbers of 32 bits, a name without zero bytes. -/
structure SectOk (s : Sect) : Prop where
  type0 : s.type ≠ 0
  type8 : s.type ≤ 8
  flags : s.flags < 2 ^ 32
  link : s.link < 2 ^ 32
  align : s.align < 2 ^ 32
  entsize : s.entsize < 2 ^ 32
  length : s.length < 2 ^ 32
  clean : (0 : Byte) ∉ s.name

theorem nobits_type {s : Sect} (h : SectOk s) : s.nobits = true ↔ s.type = 8 := by
  have h1 := h.type0
  have h2 := h.type8
  unfold Sect.nobits
  have : ∀ t : Fin 9, ((t.val &&& 8 == 8) = true ↔ t.val = 8) := by decide
  exact this ⟨s.type, by omega⟩

theorem before_eq {hs : List Head} {ss : List Sect} (hl : hs.length = ss.length)
    (h : ∀ (j : Nat) (s : Sect) (hd : Head), ss[j]? = some s → hs[j]? = some hd → hd.nreloc = s.rels.length) (j : Nat) :
    hbefore hs j = before ss j := by
  induction ss generalizing hs j with
  | nil =>
    cases hs with
    | nil => simp [hbefore, before]
    | cons a b => simp at hl
  | cons s ss ih =>
    cases hs with
    | nil => simp at hl
    | cons hd hs =>
      cases j with
      | zero => simp [hbefore, before]
      | succ j =>
        rw [hbefore_cons, before_cons, ih (by simpa using hl) (fun j s hd a b => h (j + 1) s hd (by simpa using a) (by simpa using b))]
        have := h 0 s hd rfl rfl
        congr 1
        unfold before
        by_cases hr : s.rels = []
        · simp [hr, this]
        · have : hd.nreloc ≠ 0 := by rw [this]; simp [hr]
          simp [hr, this]

theorem stored_len (m : Machine) {n : Nat} (h : n < 2 ^ 32) : m.stored n = n := stored_nat m n (small_word m n h)

theorem before_le (ss : List Sect) {j : Nat} {s : Sect} (hj : ss[j]? = some s) :
    before ss j + (if s.rels = [] then 1 else 2) ≤ before ss ss.length := by
  induction ss generalizing j with
  | nil => simp at hj
  | cons x xs ih =>
    cases j with
    | zero =>
      simp only [List.getElem?_cons_zero, Option.some.injEq] at hj
      subst hj
      rw [List.length_cons, before_cons]
      unfold before
      by_cases hr : x.rels = [] <;> simp [hr] <;> omega
    | succ j =>
      simp only [List.getElem?_cons_succ] at hj
      have := ih hj
      rw [List.length_cons, before_cons x xs j, before_cons x xs xs.length]
      omega

section
variable {o : Obj} {st : St} {r : Result} (L : Layout o st r)

theorem Layout.count : L.n + 1 = 4 + before o.sects o.sects.length := by
  have h1 := (headsBytes_ok L.headsEq).1
  rw [before_eq L.heads (fun j s hd a b => (L.placed j s hd a b).nreloc), L.heads] at h1
  omega

theorem Layout.p4_le : L.p4 + (L.hd ++ L.hs).length ≤ r.file.length := L.at4.le_length

/-- The hypotheses on the object that concern sections. -/
structure SectsOk (o : Obj) : Prop where
  sects : ∀ s ∈ o.sects, SectOk s
  count : 4 + before o.sects o.sects.length < 0xff00

variable (hg : SectsOk o) (hf : r.file.length < 2 ^ 32)
include L hg hf

theorem Layout.ehdr : ehdr r.file =
    some ⟨o.machine.wide, if o.machine = .x86 then 3 else 62, L.p4, o.machine.shdrSize, L.n + 1, 1⟩ := by
  have h1 := L.p4_le
  have h2 := L.count
  have h3 := hg.count
  have := ehdr_read o.machine L.rest L.p4 (L.n + 1) 1 (by omega) (by omega) (by decide)
  rw [← L.file] at this
  exact this

theorem Layout.header {i : Nat} (hi : i < L.n + 1) :
    headerAt r.file i = shdr o.machine.wide r.file (L.p4 + i * o.machine.shdrSize) := by
  unfold headerAt
  rw [L.ehdr hg hf]
  simp [hi, Option.bind_eq_bind, guard]

theorem Layout.heads4 : ∃ h0 h1 h2 h3 na nb nc, L.hd = h0 ++ h1 ++ h2 ++ h3 ∧
    nameIndex L.shstr (some L.a) = some na ∧ nameIndex L.shstr (some L.b) = some nb ∧
    nameIndex L.shstr (some L.c) = some nc ∧
    o.machine.writeShdr 0 0 0 0 0 0 0 0 0 = some h0 ∧
    o.machine.writeShdr nc 3 0 L.p1 (strBytes L.shstr).length 0 0 0 0 = some h1 ∧
    o.machine.writeShdr na 3 0 L.p2 (strBytes st.strtab).length 0 0 0 0 = some h2 ∧
    o.machine.writeShdr nb 2 0 L.p3 L.syms.length 2 L.w.st.nlocal o.machine.symAlign o.machine.symSize = some h3 := by
  have h := L.first
  unfold firstHeads at h
  split at h
  · rename_i na nb nc e1 e2 e3
    split at h
    · rename_i h0 h1 h2 h3 f0 f1 f2 f3
      exact ⟨h0, h1, h2, h3, na, nb, nc, (Option.some.inj h).symm, e1, e2, e3, f0, f1, f2, f3⟩
    · cases h
  · cases h

theorem Layout.hdAt {h0 h1 h2 h3 : List Byte} (he : L.hd = h0 ++ h1 ++ h2 ++ h3) (l0 : h0.length = o.machine.shdrSize)
    (l1 : h1.length = o.machine.shdrSize) (l2 : h2.length = o.machine.shdrSize) (l3 : h3.length = o.machine.shdrSize) :
    At r.file (L.p4 + 0 * o.machine.shdrSize) h0 ∧ At r.file (L.p4 + 1 * o.machine.shdrSize) h1 ∧
    At r.file (L.p4 + 2 * o.machine.shdrSize) h2 ∧ At r.file (L.p4 + 3 * o.machine.shdrSize) h3 ∧
    At r.file (L.p4 + 4 * o.machine.shdrSize) L.hs := by
  have h := L.at4
  rw [he] at h
  have a4 := h.right
  have a3 := h.left.right
  have a2 := h.left.left.right
  have a1 := h.left.left.left.right
  have a0 := h.left.left.left.left
  simp only [List.length_append, l0, l1, l2, l3] at a1 a2 a3 a4
  refine ⟨?_, ?_, ?_, ?_, ?_⟩
  · simpa using a0
  · rw [show L.p4 + 1 * o.machine.shdrSize = L.p4 + o.machine.shdrSize by omega]; exact a1
  · rw [show L.p4 + 2 * o.machine.shdrSize = L.p4 + (o.machine.shdrSize + o.machine.shdrSize) by omega]; exact a2
  · rw [show L.p4 + 3 * o.machine.shdrSize =
      L.p4 + (o.machine.shdrSize + o.machine.shdrSize + o.machine.shdrSize) by omega]; exact a3
  · rw [show L.p4 + 4 * o.machine.shdrSize =
      L.p4 + (o.machine.shdrSize + o.machine.shdrSize + o.machine.shdrSize + o.machine.shdrSize) by omega]; exact a4


/-- The index of the name at a place is small. -/
theorem Layout.nameIdx {k i : Nat} (hk : nameIndex L.shstr (some k) = some i) : i < 2 ^ 32 := by
  unfold nameIndex at hk
  rw [Option.map_eq_some_iff] at hk
  obtain ⟨e, h1, rfl⟩ := hk
  have := index_lt L.chain h1
  have := L.at1.le_length
  omega

/-- The names of sections. -/
theorem Layout.namesHdr : ∃ nc, headerAt r.file 1 = some ⟨nc, 3, 0, 0, L.p1, (strBytes L.shstr).length, 0, 0, 0, 0⟩ := by
  obtain ⟨h0, h1, h2, h3, na, nb, nc, he, e1, e2, e3, f0, f1, f2, f3⟩ := L.heads4 hg hf
  obtain ⟨a0, a1, a2, a3, a4⟩ := L.hdAt hg hf he (shdr_length _ f0) (shdr_length _ f1) (shdr_length _ f2) (shdr_length _ f3)
  have hc := L.count
  have hp1 := L.at1.le_length
  refine ⟨nc, ?_⟩
  rw [L.header hg hf (by omega)]
  have := shdr_read o.machine r.file _ nc 3 0 L.p1 _ 0 0 0 0 h1 f1 a1 (L.nameIdx hg hf e3) (by decide) (by decide) (by omega)
    (by decide) (by decide) (by decide) (by decide)
  rw [this, stored_len _ (by omega)]

/-- A section is read back from its header. -/
theorem Layout.readSection {i : Nat} {h : Shdr} {nm : Name} {bytes : List Byte} (hi : headerAt r.file i = some h)
    (hn : string (strBytes L.shstr) h.name = some nm) (hb : bytesOf r.file h = some bytes) :
    sectionAt r.file i = some ⟨nm, h.type, h.flags, h.size, h.link, h.info, h.align, h.entsize, bytes⟩ := by
  obtain ⟨nc, h1⟩ := L.namesHdr hg hf
  unfold sectionAt
  rw [L.ehdr hg hf]
  simp only [Option.bind_eq_bind, Option.bind_some, hi, h1]
  have : bytesOf r.file ⟨nc, 3, 0, 0, L.p1, (strBytes L.shstr).length, 0, 0, 0, 0⟩ = some (strBytes L.shstr) := by
    unfold bytesOf
    rw [if_neg (by simp)]
    exact L.at1.slice rfl
  rw [this]
  simp only [Option.bind_some, hn, hb]

theorem Layout.section0 : sectionAt r.file 0 = some ⟨[], 0, 0, 0, 0, 0, 0, 0, []⟩ := by
  obtain ⟨h0, h1, h2, h3, na, nb, nc, he, e1, e2, e3, f0, f1, f2, f3⟩ := L.heads4 hg hf
  obtain ⟨a0, a1, a2, a3, a4⟩ := L.hdAt hg hf he (shdr_length _ f0) (shdr_length _ f1) (shdr_length _ f2) (shdr_length _ f3)
  have hh : headerAt r.file 0 = some ⟨0, 0, 0, 0, 0, 0, 0, 0, 0, 0⟩ := by
    rw [L.header hg hf (by omega)]
    rw [shdr_read o.machine r.file _ 0 0 0 0 _ 0 0 0 0 h0 f0 a0 (by decide) (by decide) (by decide) (by decide)
      (by decide) (by decide) (by decide) (by decide)]
    have := stored_len o.machine (n := 0) (by decide)
    simp only [Nat.cast_zero] at this
    rw [this]
  exact L.readSection hg hf hh (noname_read L.chain L.zero) (by simp [bytesOf])

theorem Layout.section1 : sectionAt r.file 1 =
    some ⟨nShstrtab, 3, 0, (strBytes L.shstr).length, 0, 0, 0, 0, strBytes L.shstr⟩ := by
  obtain ⟨h0, h1, h2, h3, na, nb, nc, he, e1, e2, e3, f0, f1, f2, f3⟩ := L.heads4 hg hf
  obtain ⟨a0, a1, a2, a3, a4⟩ := L.hdAt hg hf he (shdr_length _ f0) (shdr_length _ f1) (shdr_length _ f2) (shdr_length _ f3)
  have hc := L.count
  have hp1 := L.at1.le_length
  have hh : headerAt r.file 1 = some ⟨nc, 3, 0, 0, L.p1, (strBytes L.shstr).length, 0, 0, 0, 0⟩ := by
    rw [L.header hg hf (by omega)]
    have := shdr_read o.machine r.file _ nc 3 0 L.p1 _ 0 0 0 0 h1 f1 a1 (L.nameIdx hg hf e3) (by decide) (by decide) (by omega)
      (by decide) (by decide) (by decide) (by decide)
    rw [this, stored_len _ (by omega)]
  obtain ⟨i, g1, g2, g3⟩ := name_read L.chain L.nc (by decide)
  rw [e3] at g1; cases g1
  exact L.readSection hg hf hh g3 (by
    unfold bytesOf
    rw [if_neg (by simp)]
    exact L.at1.slice rfl)

theorem Layout.section2 : sectionAt r.file 2 =
    some ⟨nStrtab, 3, 0, (strBytes st.strtab).length, 0, 0, 0, 0, strBytes st.strtab⟩ := by
  obtain ⟨h0, h1, h2, h3, na, nb, nc, he, e1, e2, e3, f0, f1, f2, f3⟩ := L.heads4 hg hf
  obtain ⟨a0, a1, a2, a3, a4⟩ := L.hdAt hg hf he (shdr_length _ f0) (shdr_length _ f1) (shdr_length _ f2) (shdr_length _ f3)
  have hc := L.count
  have hp1 := L.at2.le_length
  have hh : headerAt r.file 2 = some ⟨na, 3, 0, 0, L.p2, (strBytes st.strtab).length, 0, 0, 0, 0⟩ := by
    rw [L.header hg hf (by omega)]
    have := shdr_read o.machine r.file _ na 3 0 L.p2 _ 0 0 0 0 h2 f2 a2 (L.nameIdx hg hf e1) (by decide) (by decide) (by omega)
      (by decide) (by decide) (by decide) (by decide)
    rw [this, stored_len _ (by omega)]
  obtain ⟨i, g1, g2, g3⟩ := name_read L.chain L.na (by decide)
  rw [e1] at g1; cases g1
  exact L.readSection hg hf hh g3 (by
    unfold bytesOf
    rw [if_neg (by simp)]
    exact L.at2.slice rfl)

theorem Layout.section3 (hl : L.w.st.nlocal < 2 ^ 32) : sectionAt r.file 3 =
    some ⟨nSymtab, 2, 0, L.syms.length, 2, L.w.st.nlocal, o.machine.symAlign, o.machine.symSize, L.syms⟩ := by
  obtain ⟨h0, h1, h2, h3, na, nb, nc, he, e1, e2, e3, f0, f1, f2, f3⟩ := L.heads4 hg hf
  obtain ⟨a0, a1, a2, a3, a4⟩ := L.hdAt hg hf he (shdr_length _ f0) (shdr_length _ f1) (shdr_length _ f2) (shdr_length _ f3)
  have hc := L.count
  have hp1 := L.at3.le_length
  have hh : headerAt r.file 3 = some ⟨nb, 2, 0, 0, L.p3, L.syms.length, 2, L.w.st.nlocal, o.machine.symAlign,
      o.machine.symSize⟩ := by
    rw [L.header hg hf (by omega)]
    have := shdr_read o.machine r.file _ nb 2 0 L.p3 _ 2 L.w.st.nlocal o.machine.symAlign o.machine.symSize h3 f3 a3
      (L.nameIdx hg hf e2) (by decide) (by decide) (by omega) (by decide) hl
      (by unfold Machine.symAlign; split <;> decide) (by unfold Machine.symSize; split <;> decide)
    rw [this, stored_len _ (by omega)]
  obtain ⟨i, g1, g2, g3⟩ := name_read L.chain L.nb (by decide)
  rw [e2] at g1; cases g1
  exact L.readSection hg hf hh g3 (by
    unfold bytesOf
    rw [if_neg (by simp)]
    exact L.at3.slice rfl)

/-- The header of a section of the object, and of its relocations. -/
theorem Layout.headAt {j : Nat} {s : Sect} (hj : o.sects[j]? = some s) :
    ∃ hd n q b, L.w.heads[j]? = some hd ∧ Placed o.machine st.symIndex r.file L.shstr j (4 + before o.sects j) s hd ∧
      nameIndex L.shstr (some hd.name) = some n ∧ nameIndex L.shstr hd.relName = some q ∧
      o.machine.writeShdr n hd.type hd.flags hd.offset hd.size hd.link 0 hd.align hd.entsize = some b ∧
      At r.file (L.p4 + o.sectIndex j * o.machine.shdrSize) b ∧
      (s.rels ≠ [] → ∃ b', o.machine.writeRelShdr q hd.relOffset hd.nreloc (o.sectIndex j) = some b' ∧
        At r.file (L.p4 + (o.sectIndex j + 1) * o.machine.shdrSize) b') := by
  have hjl : j < L.w.heads.length := by
    rw [L.heads]; exact (List.getElem?_eq_some_iff.mp hj).1
  obtain ⟨hd, hhd⟩ : ∃ hd, L.w.heads[j]? = some hd := ⟨L.w.heads[j], List.getElem?_eq_getElem hjl⟩
  have hp := L.placed j s hd hj hhd
  obtain ⟨h0, h1, h2, h3, na, nb, nc, he, e1, e2, e3, f0, f1, f2, f3⟩ := L.heads4 hg hf
  obtain ⟨a0, a1, a2, a3, a4⟩ := L.hdAt hg hf he (shdr_length _ f0) (shdr_length _ f1) (shdr_length _ f2) (shdr_length _ f3)
  obtain ⟨b, hb, hat⟩ := (headsBytes_ok L.headsEq).2.2 j hd hhd
  rw [before_eq L.heads (fun j s hd a b => (L.placed j s hd a b).nreloc)] at hb hat
  have hat := a4.sub hat
  rw [Nat.add_assoc, ← Nat.add_mul, show 4 + before o.sects j = o.sectIndex j from rfl] at hat
  unfold headBytes at hb
  split at hb
  · rename_i n q hn hq
    split at hb
    · cases hb
    · rename_i b1 hb1
      refine ⟨hd, n, q, b1, hhd, hp, hn, hq, hb1, ?_, ?_⟩
      · split at hb
        · cases hb; exact hat
        · rw [Option.map_eq_some_iff] at hb
          obtain ⟨c, hc, rfl⟩ := hb
          exact hat.left
      · intro hr
        rw [if_neg (by rw [hp.nreloc]; simp [hr])] at hb
        rw [Option.map_eq_some_iff] at hb
        obtain ⟨c, hc, rfl⟩ := hb
        refine ⟨c, ?_, ?_⟩
        · rw [show 3 + before o.sects j + 1 = o.sectIndex j by unfold Obj.sectIndex; omega] at hc
          exact hc
        · have := hat.right
          rw [shdr_length _ hb1] at this
          rwa [Nat.add_mul, Nat.one_mul, ← Nat.add_assoc]
  · cases hb

/-- A section of the object is read back. -/
theorem Layout.sectionRead {j : Nat} {s : Sect} (hj : o.sects[j]? = some s) :
    sectionAt r.file (o.sectIndex j) = some s.want ∧
    ∃ h, headerAt r.file (o.sectIndex j) = some h ∧ (s.align ≠ 0 → s.align ∣ h.offset) := by
  obtain ⟨hd, n, q, b, hhd, hp, hn, hq, hb, hat, _⟩ := L.headAt hg hf hj
  have hs := hg.sects s (List.mem_of_getElem? hj)
  have hc := L.count
  have hbl := before_le o.sects hj
  have hi : o.sectIndex j < L.n + 1 := by
    unfold Obj.sectIndex
    split at hbl <;> omega
  have hoff : hd.offset < 2 ^ 32 := by
    cases hnb : s.nobits
    · have := (hp.content hnb).1.le_length; omega
    · rw [hp.off0 hnb]; decide
  have hsize : hd.size < 2 ^ 32 := by
    rw [hp.size]
    cases hnb : s.nobits
    · have := (hp.content hnb).1.le_length
      simp only [Bool.false_eq_true, if_false]; omega
    · simpa using hs.length
  have hh : headerAt r.file (o.sectIndex j) = some ⟨n, s.type, s.flags, 0, hd.offset, hd.size, s.link, 0, s.align, s.entsize⟩ := by
    rw [L.header hg hf hi]
    rw [hp.type, hp.flags, hp.link, hp.align, hp.entsize] at hb
    have := shdr_read o.machine r.file _ n s.type s.flags hd.offset hd.size s.link 0 s.align s.entsize b hb hat
      (L.nameIdx hg hf hn) (by have := hs.type8; omega) hs.flags hoff hs.link (by decide) hs.align hs.entsize
    rw [this, stored_len _ hsize]
  constructor
  · have hnm : strAt L.shstr hd.name = some s.name := by rw [hp.name]; exact L.names j s hj
    obtain ⟨i, g1, g2, g3⟩ := name_read L.chain hnm hs.clean
    rw [hn] at g1; cases g1
    have hby : bytesOf r.file ⟨n, s.type, s.flags, 0, hd.offset, hd.size, s.link, 0, s.align, s.entsize⟩ =
        some (if s.nobits then [] else s.content) := by
      unfold bytesOf
      simp only
      cases hnb : s.nobits
      · have h8 : s.type ≠ 8 := fun e => by rw [(nobits_type hs).mpr e] at hnb; cases hnb
        rw [if_neg (by intro h; rcases h with h | h; exact hs.type0 h; exact h8 h)]
        have := (hp.content hnb).1
        rw [this.slice (by rw [hp.size, hnb]; rfl)]
        rfl
      · rw [if_pos (Or.inr ((nobits_type hs).mp hnb))]; rfl
    have := L.readSection hg hf hh g3 hby
    rw [this, hp.size]
    rfl
  · refine ⟨_, hh, ?_⟩
    intro h0
    cases hnb : s.nobits
    · exact (hp.content hnb).2.2 h0
    · show s.align ∣ hd.offset
      rw [hp.off0 hnb]; exact Nat.dvd_zero _

/-- The section of relocations of a section of the object is read back. -/
theorem Layout.relSectionRead {j : Nat} {s : Sect} (hj : o.sects[j]? = some s) (hr : s.rels ≠ []) :
    ∃ bs, relBytes o.machine st.symIndex s.rels = some bs ∧
    sectionAt r.file (o.sectIndex j + 1) = some ⟨o.machine.relPrefix ++ s.name, o.machine.relType, 0,
      s.rels.length * o.machine.relSize, 3, o.sectIndex j, o.machine.relAlign, o.machine.relSize, bs⟩ ∧
    ∃ h, headerAt r.file (o.sectIndex j + 1) = some h ∧ 4 ∣ h.offset := by
  obtain ⟨hd, n, q, b, hhd, hp, hn, hq, hb, hat, hrel⟩ := L.headAt hg hf hj
  obtain ⟨b', hb', hat'⟩ := hrel hr
  obtain ⟨bs, k, p1, p2, p3, p4, p5, p6⟩ := hp.rels hr
  have hs := hg.sects s (List.mem_of_getElem? hj)
  have hc := L.count
  have hcc := hg.count
  have hbl := before_le o.sects hj
  rw [if_neg hr] at hbl
  have hi : o.sectIndex j + 1 < L.n + 1 := by unfold Obj.sectIndex; omega
  have hlen := (relBytes_ok p1).1
  have hle := p2.le_length
  have hsz : o.machine.relSize * s.rels.length < 2 ^ 32 := by rw [Nat.mul_comm, ← hlen]; omega
  rw [hp.nreloc, relShdr_eq _ _ _ _ _ hsz] at hb'
  rw [p5] at hq
  have hh : headerAt r.file (o.sectIndex j + 1) = some ⟨q, o.machine.relType, 0, 0, hd.relOffset,
      s.rels.length * o.machine.relSize, 3, o.sectIndex j, o.machine.relAlign, o.machine.relSize⟩ := by
    rw [L.header hg hf hi]
    have := shdr_read o.machine r.file _ q o.machine.relType 0 hd.relOffset _ 3 (o.sectIndex j) o.machine.relAlign
      o.machine.relSize b' hb' hat' (L.nameIdx hg hf hq) (by cases o.machine <;> decide) (by decide) (by omega) (by decide)
      (by unfold Obj.sectIndex; omega) (by cases o.machine <;> decide) (by cases o.machine <;> decide)
    rw [this, stored_len _ hsz, Nat.mul_comm]
  refine ⟨bs, p1, ?_, _, hh, p4⟩
  obtain ⟨i, g1, g2, g3⟩ := name_read L.chain p6 (by
    simp only [List.mem_append, not_or]
    exact ⟨by cases o.machine <;> decide, hs.clean⟩)
  rw [hq] at g1; cases g1
  exact L.readSection hg hf hh g3 (by
    unfold bytesOf
    simp only
    rw [if_neg (by cases o.machine <;> decide)]
    exact p2.slice hlen.symm)

end
end Verif.Elf
