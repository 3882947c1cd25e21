import Verif.Coff.Layout
/-
Reading the file that was written.
-/
set_option linter.unusedSimpArgs false
namespace Verif.Coff
open Verif.Elf (Byte Name Num number slice field string le At le_length)

/-- The parts of the file. -/
structure Parts (o : Obj) (r : Result) where
  w : W
  syms : List Byte
  strs : List Byte
  sections : outSections o (countSyms o 0 o.syms).1 o.sects ⟨List.replicate (20 + 40 * o.sects.length) 0, 4, []⟩ = some w
  symsEq : syms = (symsBytes o w.heads o.syms w.str).1
  strsEq : strs = sectStrs o o.sects ++ symStrs o o.syms
  heads : w.heads.length = o.sects.length
  header : At r.file 0 (fileHeader o w.file.length (entriesIn o o.syms))
  headers : At r.file 20 (headsBytes o o.sects w.heads)
  file : ∀ pos bs, At w.file pos bs → 20 + 40 * o.sects.length ≤ pos → At r.file pos bs
  table : At r.file w.file.length syms
  strings : At r.file (w.file.length + syms.length) (le 4 (symsBytes o w.heads o.syms w.str).2.1 ++ strs)
  wstr : w.str = 4 + (sectStrs o o.sects).length
  placed : ∀ (j : Nat) s, o.sects[j]? = some s → ∃ hd, w.heads[j]? = some hd ∧
    Placed o (countSyms o 0 o.syms).1 (20 + 40 * o.sects.length) w.file (sectStrs o o.sects) s hd
  length : w.file.length + syms.length + 4 + strs.length ≤ r.file.length

theorem output_parts {o : Obj} {r : Result} (h : output o = some r) : Nonempty (Parts o r) := by
  unfold output at h
  simp only at h
  rcases hw : outSections o (countSyms o 0 o.syms).1 o.sects ⟨List.replicate (20 + 40 * o.sects.length) 0, 4, []⟩ with _ | w
  · rw [hw] at h; cases h
  · rw [hw] at h
    simp only at h
    cases h
    obtain ⟨h1, h2, hs, h3, h4, h5⟩ := outSections_ok hw (P := []) rfl
    simp only [List.nil_append, List.length_replicate] at h1 h3 h5
    have hl := h2.length_le
    simp only [List.length_replicate] at hl
    have ht : (countSyms o 0 o.syms).2 = entriesIn o o.syms := by rw [countSyms_total]; omega
    have hfront : (fileHeader o w.file.length (entriesIn o o.syms) ++ headsBytes o o.sects w.heads).length =
        20 + 40 * o.sects.length := by
      rw [List.length_append, fileHeader_length, headsBytes_length _ _ _ (by rw [h3, h4])]
    have patch : ∀ pos bs, At (w.file ++ (symsBytes o w.heads o.syms w.str).1 ++ le 4 (symsBytes o w.heads o.syms w.str).2.1 ++
        sectStrs o o.sects ++ symStrs o o.syms) pos bs → 20 + 40 * o.sects.length ≤ pos →
        At (finish o (countSyms o 0 o.syms).2 w).file pos bs := by
      intro pos bs ha hp
      unfold finish
      simp only [ht]
      exact ha.patch _ (by rw [hfront]; exact hp)
    refine ⟨⟨w, _, _, hw, rfl, rfl, by rw [h3, h4], ?_, ?_, ?_, ?_, ?_, h1, ?_, ?_⟩⟩
    · unfold finish
      simp only [ht]
      exact ⟨[], headsBytes o o.sects w.heads ++ _, by simp only [List.nil_append, List.append_assoc]; rfl, rfl⟩
    · unfold finish
      simp only [ht]
      exact ⟨fileHeader o w.file.length (entriesIn o o.syms), _, rfl, fileHeader_length _ _ _⟩
    · intro pos bs ha hp
      refine patch pos bs ?_ hp
      exact (((ha.append_right _).append_right _).append_right _).append_right _
    · refine patch _ _ ?_ hl
      exact (((At.end_ _ _).append_right _).append_right _).append_right _
    · refine patch _ _ ?_ (by omega)
      rw [← List.length_append, ← List.append_assoc]
      have := At.end_ (w.file ++ (symsBytes o w.heads o.syms w.str).1)
        (le 4 (symsBytes o w.heads o.syms w.str).2.1 ++ sectStrs o o.sects ++ symStrs o o.syms)
      simp only [List.append_assoc] at this ⊢
      exact this
    · intro j s hj
      obtain ⟨hd, a, b⟩ := h5 j s hj
      exact ⟨hd, by rw [h3]; exact a, b⟩
    · unfold finish
      simp only [ht]
      simp only [List.length_append, List.length_drop, le_length] at hfront ⊢
      omega

variable {o : Obj} {r : Result}

theorem sum_append_map (l : List Sect) : ((l.filter fun s => decide (8 < s.name.length)).map fun s => s.name.length + 1).sum + 4 =
    4 + ((l.filter fun s => decide (8 < s.name.length)).map fun s => s.name.length + 1).sum := by omega

theorem sectStrs_length (o : Obj) (l : List Sect) :
    (sectStrs o l).length ≤ ((l.filter fun s => decide (8 < s.name.length)).map fun s => s.name.length + 1).sum := by
  induction l with
  | nil => simp [sectStrs]
  | cons s l ih =>
    rw [sectStrs_cons, List.length_append]
    have e : (sectStr o s).length ≤ if 8 < s.name.length then s.name.length + 1 else 0 := by
      unfold sectStr longStr
      split
      · split <;> simp
      · simp
    by_cases h : 8 < s.name.length
    · rw [List.filter_cons_of_pos (by simpa using h)]
      rw [if_pos h] at e
      simp only [List.map_cons, List.sum_cons]; omega
    · rw [List.filter_cons_of_neg (by simpa using h)]
      rw [if_neg h] at e
      omega

/-- The file header is read back. -/
theorem Parts.hdr (p : Parts o r) (hs : o.sects.length < 0xfffe) (hf : r.file.length < 2 ^ 32) :
    ∃ flags, fileHdr r.file = some ⟨if o.format.amd64 then 0x8664 else 0x14c, o.sects.length, p.w.file.length, entriesIn o o.syms, 0, flags⟩ := by
  have h := p.header
  unfold fileHeader at h
  have hlen := p.length
  have hsy : p.syms.length = 18 * entriesIn o o.syms ∨ True := .inr trivial
  refine ⟨(if o.nullDbg then 4 else 0) + (if o.all then 0 else 8) + (if o.format.amd64 then 0 else 0x100), ?_⟩
  have hT : entriesIn o o.syms < 2 ^ 32 := by
    have : p.syms.length = 18 * entriesIn o o.syms := by
      rw [p.symsEq]
      have : ∀ (ss : List Sym) (str : Nat), (symsBytes o p.w.heads ss str).1.length = 18 * entriesIn o ss := by
        intro ss
        induction ss with
        | nil => intro str; rfl
        | cons s ss ih =>
          intro str
          unfold symsBytes
          rw [entriesIn_cons, puts_listed]
          by_cases hl : o.listed s = true
          · rw [if_pos hl, if_pos hl]; simp only [List.length_append, symBytes_length, ih]; omega
          · rw [if_neg hl, if_neg hl, ih]; omega
      exact this _ _
    omega
  have a1 := (h.left.left.left.left.left.left).field (by split <;> decide)
  have a2 := ((h.left.left.left.left.left.right' (q := 2) (by simp [le_length]))).field (by omega)
  have a3 := (h.left.left.left.right' (q := 8) (by simp [le_length])).field (by omega)
  have a4 := (h.left.left.right' (q := 12) (by simp [le_length])).field (by simpa using hT)
  have a5 := (h.left.right' (q := 16) (by simp [le_length])).field (by decide)
  have a6 := (h.right' (q := 18) (by simp [le_length])).field (by split <;> split <;> split <;> decide)
  unfold fileHdr
  simp only [a1, a2, a3, a4, a5, a6, Option.bind_eq_bind, Option.bind_some]

/-- The string table is read back. -/
theorem Parts.strTable (p : Parts o r) (ho : ObjOk o) (hf : r.file.length < 2 ^ 32) {h : FileHdr} (h1 : h.symptr = p.w.file.length)
    (h2 : h.nsyms = entriesIn o o.syms) : Coff.strings r.file h = some (le 4 (4 + p.strs.length) ++ p.strs) := by
  obtain ⟨c1, c2, _⟩ := symsBytes_ok p.w.heads (ss := o.syms) ho.syms p.wstr
  have hs := p.strings
  have hlen := p.length
  rw [c1, ← p.strsEq] at hs
  have e : h.symptr + 18 * h.nsyms = p.w.file.length + p.syms.length := by rw [h1, h2, p.symsEq, c2]
  unfold Coff.strings
  rw [e, hs.left.field (by omega)]
  simp only [Option.bind_eq_bind, Option.bind_some]
  exact hs.slice (by simp [le_length])

/-- A string in the table. -/
theorem at_table {strs : List Byte} {k : Nat} {bs : List Byte} (h : At strs k bs) (n : Nat) : At (le 4 n ++ strs) (4 + k) bs := by
  have := h.append_left (le 4 n)
  rw [le_length] at this
  exact this

/-- The sections are read back. -/
theorem Parts.sectionRead (p : Parts o r) (ho : ObjOk o) (hf : r.file.length < 2 ^ 32) {j : Nat} {s : Sect} (hj : o.sects[j]? = some s) :
    sectionAt o.format.win r.file j = some (o.wantSection s) := by
  have hmem : s ∈ o.sects := List.mem_of_getElem? hj
  have hk := ho.sects.sects s hmem
  obtain ⟨hd, hh, hp⟩ := p.placed j s hj
  obtain ⟨flags, hdr⟩ := p.hdr ho.sects.number hf
  have hstr := p.strTable ho hf (h := ⟨if o.format.amd64 then 0x8664 else 0x14c, o.sects.length, p.w.file.length,
    entriesIn o o.syms, 0, flags⟩) rfl rfl
  have hlt : j < o.sects.length := (List.getElem?_eq_some_iff.mp hj).1
  have hat : At r.file (20 + 40 * j) (headBytes o s hd) := p.headers.sub (headsBytes_at o _ _ j hj hh)
  have hfile : p.w.file.length < 2 ^ 32 := by have := p.length; omega
  unfold headBytes at hat
  obtain ⟨g1, g2, g3, g4⟩ := headFlags_read hk hd.nreloc
  have a1 := hat.left.left.left.left.left.left.left.left.left
  have a2 := (hat.left.left.left.left.left.left.right' (q := 20 + 40 * j + 16) (by simp [le_length, sectName_length])).field
    (by rw [hp.size]; exact hk.size)
  have a3 := (hat.left.left.left.left.left.right' (q := 20 + 40 * j + 20) (by simp [le_length, sectName_length])).field
    (by have := hp.ptrs.1; omega)
  have a4 := (hat.left.left.left.left.right' (q := 20 + 40 * j + 24) (by simp [le_length, sectName_length])).field
    (by have := hp.ptrs.2; omega)
  have a5 := (hat.left.left.right' (q := 20 + 40 * j + 32) (by simp [le_length, sectName_length])).field
    (by split <;> omega)
  have a6 := (hat.right' (q := 20 + 40 * j + 36) (by simp [le_length, sectName_length])).field g1
  have b1 : sectionName o.format.win (le 4 (4 + p.strs.length) ++ p.strs) (sectName s.name hd.strName) = some s.name := by
    have hlong : ∀ h : longName o s.name = true, ∃ q, hd.strName = 4 + q ∧ At (sectStrs o o.sects) q (s.name ++ [0]) := hp.name
    have hbound : hd.strName < 10 ^ 7 := by
      rcases hl : longName o s.name with _ | _
      · rw [hp.nameless hl]; decide
      · obtain ⟨q, q1, q2⟩ := hlong hl
        have := q2.le_length
        have := sectStrs_length o o.sects
        have := ho.sects.names
        omega
    refine sectionName_read hk.name hk.nonempty hk.short hk.slash hbound ?_
    intro hpe hl
    obtain ⟨q, q1, q2⟩ := hlong (by simp [longName, hpe, hl])
    rw [q1, p.strsEq]
    exact at_table (q2.append_right _) _
  have b2 : contents r.file hd.scnptr hd.size = some s.content := by
    unfold Sect.content contents
    rcases hb : s.bss with _ | _
    · obtain ⟨c1, c2, c3⟩ := hp.bytes hb
      by_cases h0 : s.length = 0
      · rw [if_pos (c2 h0)]
        have : s.chunks.flatMap Elf.Chunk.write = [] := List.length_eq_zero_iff.mp (by omega)
        simp [this]
      · obtain ⟨d1, d2⟩ := c3 h0
        rw [if_neg (by omega), (p.file _ _ d2 d1).slice (by rw [hp.size, c1])]
        rfl
    · rw [if_pos (hp.bss hb).1]; rfl
  have b3 : relsOf o.format.win r.file (headFlags o s hd.nreloc) hd.relptr (if 65536 ≤ hd.nreloc then 0xffff else hd.nreloc) =
      some (s.rels.map o.wantRel) := by
    unfold Sect.rels relsOf
    rcases hb : s.bss with _ | _
    · have hn := hp.nreloc hb
      by_cases h0 : s.relocs = []
      · rw [hn, h0]
        simp [relsAt]
      · obtain ⟨rs, c1, c2, c3⟩ := hp.rels hb (hk.relocs hb h0) h0
        have c4 := p.file _ _ c3 c2
        have hread : ∀ pos, At r.file pos rs → relsAt r.file pos s.relocs.length = some (s.relocs.map o.wantRel) := by
          intro pos ha
          refine relocsBytes_read c1 ha (fun q hq => ⟨(hk.reloc q hq).1, (hk.reloc q hq).2.1⟩) o.index ?_
          intro q hq
          obtain ⟨_, _, x, x1, x2⟩ := hk.reloc q hq
          have hi := countSyms_index o o.syms 0 q.sym x1 x2
          rw [Nat.zero_add] at hi
          refine ⟨hi, ?_⟩
          have hle : entriesIn o (o.syms.take q.sym) ≤ entriesIn o o.syms := by
            conv => rhs; rw [← List.take_append_drop q.sym o.syms]
            unfold entriesIn
            rw [List.filter_append, List.map_append, List.sum_append]
            omega
          obtain ⟨_, k2, _⟩ := symsBytes_ok p.w.heads (ss := o.syms) ho.syms p.wstr
          have h3 := p.length
          rw [p.symsEq, k2] at h3
          show entriesIn o (o.syms.take q.sym) < 2 ^ 32
          omega
        by_cases hbig : 65536 ≤ s.relocs.length ∧ o.format.win = true
        · rw [hn, if_pos ⟨hbig.2, by rw [← hn, g4, hn]; exact hbig, by rw [if_pos hbig.1]⟩]
          have e : overflow o s.relocs.length = le 4 (s.relocs.length + 1) ++ le 4 0 ++ le 2 0 := if_pos hbig
          rw [e] at c4
          have hlen : s.relocs.length + 1 < 256 ^ 4 := by
            have h1 := c4.le_length
            have : ∀ (l : List Reloc) bs, relocsBytes (countSyms o 0 o.syms).1 l = some bs → bs.length = 10 * l.length := by
              intro l
              induction l with
              | nil => intro bs h; cases h; rfl
              | cons a l ih =>
                intro bs h
                unfold relocsBytes at h
                rcases h1 : relocBytes (countSyms o 0 o.syms).1 a with _ | b
                · rw [h1] at h; cases h
                · rcases h2 : relocsBytes (countSyms o 0 o.syms).1 l with _ | bs'
                  · rw [h1, h2] at h; cases h
                  · rw [h1, h2] at h
                    cases h
                    have : b.length = 10 := by
                      unfold relocBytes at h1
                      split at h1
                      · cases h1; simp [le_length]
                      · cases h1
                    rw [List.length_append, this, ih _ h2, List.length_cons]; omega
            have := this _ _ c1
            simp only [List.length_append, le_length] at h1
            omega
          rw [c4.left.left.left.field hlen]
          simp only [Option.bind_eq_bind, Option.bind_some, Nat.add_sub_cancel, Bool.false_eq_true, if_false]
          exact hread _ (c4.right' (by simp [le_length]))
        · have e : overflow o s.relocs.length = [] := if_neg hbig
          rw [e, List.nil_append] at c4
          have hsm : s.relocs.length < 65536 := by
            rcases hw : o.format.win with _ | _
            · exact hk.count hw
            · simp only [hw, and_true] at hbig; omega
          rw [hn, if_neg (by rw [if_neg (by omega : ¬ 65536 ≤ s.relocs.length)]; rintro ⟨q1, q2, q3⟩; rw [← hn, g4, hn] at q2; exact hbig q2),
            if_neg (by omega)]
          exact hread _ c4
    · have hn := (hp.bss hb).2
      rw [hn]
      simp [relsAt]
  unfold sectionAt
  simp only [hdr, hstr, Option.bind_eq_bind, Option.bind_some, Nat.add_zero, guard, if_pos hlt, Option.pure_def,
    a1.slice (sectName_length _ _).symm, b1, a2, a3, a4, a5, a6, b2, b3]
  simp only [Obj.wantSection, hp.size, g2, g3]

/-! ### Symbols -/

theorem valueOf_want {s : Sym} (hk : SymOk o s) (hn : o.sects.length < 0xfffe) :
    (valueOf s).1 % 256 ^ 4 = (s.wantValue % 2 ^ 32).toNat ∧ (valueOf s).2.1 = s.wantSect ∧ s.wantSect < 2 ^ 16 := by
  have uint : ∀ v : Int, 0 ≤ v → v < 2 ^ 63 → getUint v % 256 ^ 4 = (v % 2 ^ 32).toNat := by
    intro v h0 h1
    unfold getUint
    rw [if_neg (by omega), if_pos h1]
    omega
  unfold valueOf Sym.wantValue Sym.wantSect
  rcases hkind : s.kind with ⟨k, off⟩ | ⟨v, b⟩ | _
  · obtain ⟨h1, h2⟩ := hk.label k off hkind
    simp only
    refine ⟨?_, ?_, ?_⟩
    · omega
    · trivial
    · omega
  · rcases v with v | _
    · obtain ⟨h1, h2⟩ := hk.equ v b hkind
      exact ⟨uint v h1 h2, rfl, by show 65535 < 2 ^ 16; decide⟩
    · exact ⟨rfl, rfl, by show 65535 < 2 ^ 16; decide⟩
  · simp only
    rcases hc : s.common with _ | _
    · rcases he : s.ext with _ | _ <;> exact ⟨rfl, rfl, by decide⟩
    · simp only [if_true, Bool.true_or]
      rcases hz : s.csize with v | _
      · obtain ⟨h1, h2⟩ := hk.common v hkind hc hz
        exact ⟨uint v h1 h2, rfl, by decide⟩
      · exact ⟨rfl, rfl, by decide⟩

theorem typeOf_want (s : Sym) : typeOf s = s.wantType := by
  unfold typeOf Sym.dataOf Sym.wantType
  rcases s.data with _ | d
  · simp only [if_true, decide_true, Bool.true_and]
  · simp only
    by_cases h : d.type = 0
    · by_cases hc : d.sclass = 0 <;> simp [h, hc]
    · by_cases hc : d.sclass = 0 <;> simp [h, hc]

theorem class_want (s : Sym) : s.dataOf.sclass = s.wantClass := by
  unfold Sym.dataOf Sym.wantClass
  have e : (s.ext || s.glob || s.common) = (s.ext || s.common || s.glob) := by
    cases s.glob <;> cases s.common <;> cases s.ext <;> rfl
  rcases s.data with _ | d
  · simp [e]
  · by_cases hc : d.sclass = 0 <;> simp [hc, e]

/-- A symbol is read back. -/
theorem Parts.symbolRead (p : Parts o r) (ho : ObjOk o) (hf : r.file.length < 2 ^ 32) {n : Nat} {s : Sym} (hn : o.syms[n]? = some s)
    (hl : o.listed s = true) : symbolAt r.file (o.index n) = some (o.wantSymbol s) ∧ o.index n < entriesIn o o.syms := by
  have hk := ho.syms s (List.mem_of_getElem? hn) hl
  obtain ⟨flags, hdr⟩ := p.hdr ho.sects.number hf
  have hstr := p.strTable ho hf (h := ⟨if o.format.amd64 then 0x8664 else 0x14c, o.sects.length, p.w.file.length,
    entriesIn o o.syms, 0, flags⟩) rfl rfl
  obtain ⟨c1, c2, c3⟩ := symsBytes_ok p.w.heads (ss := o.syms) ho.syms p.wstr
  obtain ⟨k, d1, d2, d3, d4, d5⟩ := c3 n s hn hl
  rw [← p.strsEq] at d2 d3 d4 d5
  have hlen := p.length
  have hidx : o.index n < entriesIn o o.syms := by
    have h1 := d1.le_length
    rw [c2, symBytes_length] at h1
    show entriesIn o (o.syms.take n) < entriesIn o o.syms
    omega
  refine ⟨?_, hidx⟩
  rw [← p.symsEq] at d1
  have hat : At r.file (p.w.file.length + 18 * o.index n) (symBytes o p.w.heads s k) := p.table.sub d1
  unfold symBytes at hat
  obtain ⟨v1, v2, v3⟩ := valueOf_want hk ho.sects.number
  generalize hq : p.w.file.length + 18 * o.index n = q at hat
  have a1 := hat.left.left.left.left.left.left
  have a2 := (hat.left.left.left.left.left.right' (q := q + 8) (by simp [nameBytes_length])).field_mod
  have a3 := (hat.left.left.left.left.right' (q := q + 12) (by simp [nameBytes_length, le_length])).field (by rw [v2]; exact v3)
  have a4 := (hat.left.left.left.right' (q := q + 14) (by simp [nameBytes_length, le_length])).field
    (by rw [typeOf_want]; exact hk.type)
  have a5 := (hat.left.left.right' (q := q + 16) (by simp [nameBytes_length, le_length])).field
    (by rw [class_want]; exact hk.sclass)
  have a6 := (hat.left.right' (q := q + 17) (by simp [nameBytes_length, le_length])).field
    (by cases s.dataOf.aux <;> decide)
  have a7 := hat.right' (q := q + 18) (by simp [nameBytes_length, le_length])
  rw [v1] at a2
  rw [v2] at a3
  rw [typeOf_want] at a4
  rw [class_want] at a5
  rw [dataOf_aux] at a6
  have b1 : nameIn (le 4 (4 + p.strs.length) ++ p.strs) (nameBytes (o.symName s) k) = some (o.wantName s) := by
    rw [symName_want]
    refine nameIn_read hk.name hk.nonempty (by omega) ?_
    intro hlong
    rw [← symName_want] at hlong ⊢
    obtain ⟨q, q1, q2⟩ := d4 hlong
    rw [q1]
    exact at_table q2 _
  have b2 : extraAt (le 4 (4 + p.strs.length) ++ p.strs) r.file (q + 18) s.aux.count s.wantClass = some (o.wantExtra s) := by
    unfold auxBytes at a7
    rw [dataOf_aux] at a7
    unfold extraAt Obj.wantExtra
    rcases ha : s.aux with _ | _ | _
    · rfl
    · obtain ⟨e1, kk, off, e2⟩ := hk.sect ha
      have hsect : ∃ x, o.sects[kk]? = some x := ⟨_, List.getElem?_eq_getElem (hk.label kk off e2).1⟩
      obtain ⟨x, hx⟩ := hsect
      obtain ⟨hd, hd1, hd2⟩ := p.placed kk x hx
      have hsz := (ho.sects.sects x (List.mem_of_getElem? hx)).size
      have hinfo : sectInfo p.w.heads s = (x.length, x.rels.length) := by
        unfold sectInfo
        rw [e2]
        simp only [hd1, hd2.size, Prod.mk.injEq, true_and]
        unfold Sect.rels
        rcases hb : x.bss with _ | _
        · exact hd2.nreloc hb
        · exact (hd2.bss hb).2
      rw [ha] at a7
      simp only at a7
      rw [hinfo] at a7
      have f1 := a7.left.left.left.field (by simpa using hsz)
      have f2 := (a7.left.left.right' (q := q + 18 + 4) (by simp [le_length])).field_mod
      rw [e1]
      simp only [Aux.count, Nat.one_ne_zero, if_false, if_true, Nat.reduceEqDiff, f1, f2, Option.bind_eq_bind, Option.bind_some, e2, hx]
      rfl
    · rw [ha] at a7
      simp only at a7
      rw [hk.file ha]
      have hlen18 : (if 14 < o.src.length then le 4 0 ++ le 4 (afterName 8 (o.symName s) k) ++ List.replicate 10 0
          else strncpy 14 o.src ++ List.replicate 4 0).length = 18 := by split <;> simp [le_length, strncpy_length]
      have hname := fileName_read (strs := le 4 (4 + p.strs.length) ++ p.strs) (k := afterName 8 (o.symName s) k) ho.src.2 ho.src.1
        (by omega) (by
          intro hlong
          obtain ⟨q, q1, q2⟩ := d5 ha hlong
          rw [q1]
          exact at_table q2 _)
      simp only [Aux.count, Nat.one_ne_zero, if_false, if_true, a7.slice hlen18.symm, hname, Option.bind_eq_bind, Option.bind_some]
  unfold symbolAt
  simp only [hdr, hstr, Option.bind_eq_bind, Option.bind_some, guard, if_pos hidx, Option.pure_def, hq,
    a1.slice (nameBytes_length _ _).symm, b1, a2, a3, a4, a5, a6, b2]
  rfl

theorem symbolsFrom_ok (p : Parts o r) (ho : ObjOk o) (hf : r.file.length < 2 ^ 32) (pre ss : List Sym) (h : o.syms = pre ++ ss)
    (fuel : Nat) (hfuel : entriesIn o ss ≤ fuel) :
    symbolsFrom r.file (entriesIn o o.syms) (entriesIn o pre) fuel = some ((ss.filter o.listed).map o.wantSymbol) := by
  have app : ∀ a b, entriesIn o (a ++ b) = entriesIn o a + entriesIn o b := by
    intro a b
    unfold entriesIn
    rw [List.filter_append, List.map_append, List.sum_append]
  induction ss generalizing pre fuel with
  | nil =>
    rw [List.append_nil] at h
    rcases fuel with _ | fuel
    · rfl
    · unfold symbolsFrom
      rw [if_pos (by rw [h])]
      rfl
  | cons s ss ih =>
    have h' : o.syms = (pre ++ [s]) ++ ss := by rw [h]; simp
    rw [entriesIn_cons] at hfuel
    by_cases hl : o.listed s = true
    · rw [if_pos hl] at hfuel
      rcases fuel with _ | fuel
      · omega
      · have hn : o.syms[pre.length]? = some s := by rw [h]; simp
        obtain ⟨h1, h2⟩ := p.symbolRead ho hf hn hl
        have e : o.index pre.length = entriesIn o pre := by
          show entriesIn o (o.syms.take pre.length) = _
          rw [h]; simp
        rw [e] at h1 h2
        unfold symbolsFrom
        rw [if_neg (by omega), h1]
        simp only [Option.bind_eq_bind, Option.bind_some]
        have hs : entriesIn o pre + (1 + (o.wantSymbol s).naux) = entriesIn o (pre ++ [s]) := by
          rw [app, entriesIn_cons, if_pos hl]
          rfl
        rw [hs, ih (pre ++ [s]) h' fuel (by omega), List.filter_cons_of_pos hl]
        rfl
    · rw [if_neg hl] at hfuel
      have hs : entriesIn o pre = entriesIn o (pre ++ [s]) := by
        rw [app, entriesIn_cons, if_neg hl]
        rfl
      rw [hs, ih (pre ++ [s]) h' fuel (by omega), List.filter_cons_of_neg hl]

end Verif.Coff
