import Verif.Macho.Layout
/-
Reading a Mach-O file.
-/
set_option linter.unusedSimpArgs false
namespace Verif.Macho
open Verif.Elf (Byte Name Num number slice field string le At le_length)
open Verif.Coff (strncpy strncpy_length alignBits alignBits_pow alignBits_zero shortName shortName_strncpy' string_read)

variable {o : Obj} {r : Result}

/-! ### The header and the commands -/

theorem Parts.frontAt (p : Parts o r) : At r.file 0 o.front := ⟨[], _, by rw [p.file]; rfl, rfl⟩

/-- The header of the file of an object. -/
def Obj.hdr (o : Obj) : Hdr := ⟨o.wide, if o.wide then 0x1000007 else 7, 1, o.ncmds, o.sizeCmds⟩

theorem ncmds_le (o : Obj) : o.ncmds ≤ 3 := by unfold Obj.ncmds; split <;> split <;> omega

theorem sizeCmds_lt (hn : o.sects.length ≤ 255) : o.sizeCmds < 2 ^ 30 := by
  unfold Obj.sizeCmds; split <;> split <;> (try split) <;> omega

theorem Parts.hdr (p : Parts o r) (hk : ObjOk o) : hdr r.file = some o.hdr := by
  have h := p.frontAt
  unfold Obj.front at h
  have h0 := h.left.left.left.left
  unfold fileHeader at h0
  have a0 := h0.left.left.left.left.left.left.left
  have a1 := h0.left.left.left.left.left.left.right' (q := 4) (by simp [le_length])
  have a3 := h0.left.left.left.left.right' (q := 12) (by simp [le_length])
  have a4 := h0.left.left.left.right' (q := 16) (by simp [le_length])
  have a5 := h0.left.left.right' (q := 20) (by simp [le_length])
  have hn := ncmds_le o
  have hz := sizeCmds_lt hk.number.2
  unfold Macho.hdr
  rw [a0.field (by split <;> decide), a1.field (by split <;> decide), a3.field (by decide), a4.field (by omega), a5.field (by omega)]
  unfold Obj.hdr
  cases o.wide <;> rfl

/-- Where the segment command is. -/
def Obj.segPos (o : Obj) : Nat := if o.wide then 56 else 52

theorem Parts.segAt (p : Parts o r) : At r.file o.segPos (segmentCmd o) := by
  have h := p.frontAt
  unfold Obj.front at h
  refine h.left.left.right' ?_
  rw [List.length_append, fileHeader_length, versionCmd_length]
  unfold Obj.segPos; split <;> rfl

theorem Parts.headsAt (p : Parts o r) : At r.file (if o.wide then o.segPos + 72 else o.segPos + 56) (headsBytes o o.sects o.heads 0) := by
  have h := p.frontAt
  unfold Obj.front at h
  refine h.left.right' ?_
  rw [List.length_append, List.length_append, fileHeader_length, versionCmd_length, segmentCmd_length]
  unfold Obj.segPos; split <;> rfl

/-- Where the symbol table command is. -/
def Obj.symPos (o : Obj) : Nat := (if o.wide then o.segPos + 72 else o.segPos + 56) + o.hsize * o.sects.length

theorem Parts.symAt (p : Parts o r) : At r.file o.symPos (symtabCmd o) := by
  have h := p.frontAt
  unfold Obj.front at h
  refine h.right' ?_
  rw [List.length_append, List.length_append, List.length_append, fileHeader_length, versionCmd_length, segmentCmd_length,
    headsBytes_length o _ _ _ (heads_length o)]
  unfold Obj.symPos Obj.segPos; split <;> omega

theorem segment_fields (h : At r.file o.segPos (segmentCmd o)) (hn : o.sects.length ≤ 255) :
    field r.file o.segPos 4 = some (if o.wide then 0x19 else 1) ∧
    field r.file (o.segPos + 4) 4 = some (if o.wide then 72 + 80 * o.sects.length else 56 + 68 * o.sects.length) ∧
    field r.file (if o.wide then o.segPos + 64 else o.segPos + 48) 4 = some o.sects.length := by
  unfold segmentCmd at h
  have a0 := h.left.left.left.left.left.left.left.left.left.left.left.left.left
  have a1 := h.left.left.left.left.left.left.left.left.left.left.left.left.right' (q := o.segPos + 4) (by simp [le_length])
  have a2 := h.left.right' (q := if o.wide then o.segPos + 64 else o.segPos + 48)
    (by cases hw : o.wide <;> simp [le_length, long_length, hw])
  exact ⟨a0.field (by split <;> decide), a1.field (by split <;> omega), a2.field (by omega)⟩

theorem Parts.commands (p : Parts o r) (hk : ObjOk o) :
    commandsAt r.file o.hdr.size o.hdr.ncmds = some ([(0x32, o.hdr.size), (if o.wide then 0x19 else 1, o.segPos)] ++
      if o.nsyms > 0 then [(2, o.symPos)] else []) := by
  have hn := hk.number.2
  have hne : o.sects.length > 0 := List.length_pos_iff.mpr hk.number.1
  have h := p.frontAt
  unfold Obj.front at h
  have v := h.left.left.left.right' (q := o.hdr.size)
    (by rw [fileHeader_length]; unfold Hdr.size Obj.hdr; cases o.wide <;> rfl)
  unfold versionCmd at v
  have v0 := (v.left.left.left.left.left).field (by decide)
  have v1 := (v.left.left.left.left.right' (q := o.hdr.size + 4) (by simp [le_length])).field (by decide)
  obtain ⟨s0, s1, _⟩ := segment_fields p.segAt hn
  have e1 : o.hdr.size + 24 = o.segPos := by unfold Hdr.size Obj.hdr Obj.segPos; cases o.wide <;> rfl
  have e2 : o.segPos + (if o.wide then 72 + 80 * o.sects.length else 56 + 68 * o.sects.length) = o.symPos := by
    unfold Obj.symPos Obj.hsize; split <;> omega
  have y := p.symAt
  unfold symtabCmd at y
  have y0 := (y.left.left.left.left.left).field (by decide)
  have y1 := (y.left.left.left.left.right' (q := o.symPos + 4) (by simp [le_length])).field (by decide)
  have hc : o.hdr.ncmds = if o.nsyms > 0 then 3 else 2 := by
    show o.ncmds = _
    unfold Obj.ncmds; rw [if_pos hne]; split <;> rfl
  rw [hc]
  by_cases hs : o.nsyms > 0
  · rw [if_pos hs, if_pos hs]
    simp only [commandsAt, v0, v1, Option.bind_eq_bind, Option.bind_some, e1, s0, s1, e2, y0, y1]
    rfl
  · rw [if_neg hs, if_neg hs]
    simp only [commandsAt, v0, v1, Option.bind_eq_bind, Option.bind_some, e1, s0, s1, e2]
    rfl

theorem Parts.commandsEnd (p : Parts o r) (hk : ObjOk o) :
    commandsEnd r.file o.hdr.size o.hdr.ncmds = some (o.hdr.size + o.hdr.cmdsize) := by
  have hn := hk.number.2
  have hne : o.sects.length > 0 := List.length_pos_iff.mpr hk.number.1
  have h := p.frontAt
  unfold Obj.front at h
  have v := h.left.left.left.right' (q := o.hdr.size)
    (by rw [fileHeader_length]; unfold Hdr.size Obj.hdr; cases o.wide <;> rfl)
  unfold versionCmd at v
  have v1 := (v.left.left.left.left.right' (q := o.hdr.size + 4) (by simp [le_length])).field (by decide)
  obtain ⟨s0, s1, _⟩ := segment_fields p.segAt hn
  have e1 : o.hdr.size + 24 = o.segPos := by unfold Hdr.size Obj.hdr Obj.segPos; cases o.wide <;> rfl
  have e2 : o.segPos + (if o.wide then 72 + 80 * o.sects.length else 56 + 68 * o.sects.length) = o.symPos := by
    unfold Obj.symPos Obj.hsize; split <;> omega
  have y := p.symAt
  unfold symtabCmd at y
  have y1 := (y.left.left.left.left.right' (q := o.symPos + 4) (by simp [le_length])).field (by decide)
  have hc : o.hdr.ncmds = if o.nsyms > 0 then 3 else 2 := by
    show o.ncmds = _
    unfold Obj.ncmds; rw [if_pos hne]; split <;> rfl
  have hz : o.hdr.cmdsize = 24 + (if o.wide then 72 + 80 * o.sects.length else 56 + 68 * o.sects.length) + if o.nsyms > 0 then 24 else 0 := by
    show o.sizeCmds = _
    unfold Obj.sizeCmds; rw [if_pos hne]
  rw [hc]
  by_cases hs : o.nsyms > 0
  · rw [if_pos hs] at hz ⊢
    simp only [Macho.commandsEnd, v1, Option.bind_eq_bind, Option.bind_some, e1, s1, e2, y1]
    congr 1
    omega
  · rw [if_neg hs] at hz ⊢
    simp only [Macho.commandsEnd, v1, Option.bind_eq_bind, Option.bind_some, e1, s1, e2]
    congr 1
    omega

theorem Parts.segCommand (p : Parts o r) (hk : ObjOk o) : command r.file o.hdr (if o.wide then 0x19 else 1) = some o.segPos := by
  unfold command
  rw [p.commands hk]
  simp only [Option.bind_eq_bind, Option.bind_some]
  cases o.wide <;> simp

theorem Parts.symCommand (p : Parts o r) (hk : ObjOk o) : command r.file o.hdr 2 = if o.nsyms > 0 then some o.symPos else none := by
  unfold command
  rw [p.commands hk]
  simp only [Option.bind_eq_bind, Option.bind_some]
  cases o.wide <;> by_cases hs : o.nsyms > 0 <;> simp [hs]

/-! ### The segment -/

theorem calcSects_vm (ss : List Sect) (vm off : Nat) : (calcSects ss vm off).2.1 ≤ vm + (ss.map fun s => s.length + s.align).sum := by
  induction ss generalizing vm off with
  | nil => simp [calcSects]
  | cons s ss ih =>
    have := ih (vm + s.length + padding s.align vm) (if s.written then off + s.length else off)
    have hp : padding s.align vm ≤ s.align := by unfold padding; split <;> omega
    simp only [calcSects, List.map_cons, List.sum_cons]
    omega

theorem calcSects_end (ss : List Sect) (vm off k : Nat) {s : Sect} {h : Head} (hk : ss[k]? = some s)
    (hh : (calcSects ss vm off).1[k]? = some h) : h.vmoff + s.length ≤ (calcSects ss vm off).2.1 := by
  have low : ∀ (ss : List Sect) (vm off : Nat), vm ≤ (calcSects ss vm off).2.1 := by
    intro ss
    induction ss with
    | nil => intro vm off; simp [calcSects]
    | cons y ss ih => intro vm off; have := ih (vm + y.length + padding y.align vm) (if y.written then off + y.length else off); simp only [calcSects]; omega
  induction ss generalizing vm off k with
  | nil => simp at hk
  | cons x ss ih =>
    cases k with
    | zero =>
      simp only [List.getElem?_cons_zero, Option.some.injEq] at hk
      subst hk
      simp only [calcSects, List.getElem?_cons_zero, Option.some.injEq] at hh
      subst hh
      have := low ss (vm + x.length + padding x.align vm) (if x.written then off + x.length else off)
      simp only [calcSects]; omega
    | succ k =>
      simp only [List.getElem?_cons_succ] at hk
      simp only [calcSects, List.getElem?_cons_succ] at hh
      exact ih _ _ _ hk hh

theorem calcSects_file (ss : List Sect) (hl : ∀ s ∈ ss, s.written = true → s.data.length = s.length) (vm off : Nat) :
    (calcSects ss vm off).2.2 = off + (ss.flatMap Sect.data).length := by
  induction ss generalizing vm off with
  | nil => simp [calcSects]
  | cons x ss ih =>
    simp only [calcSects, List.flatMap_cons, List.length_append]
    rw [ih (fun s hs => hl s (List.mem_cons_of_mem _ hs))]
    by_cases hx : x.written = true
    · rw [if_pos hx, hl x List.mem_cons_self hx]; omega
    · rw [if_neg hx]
      have : x.data = [] := by unfold Sect.data; rw [if_neg hx]
      rw [this]; simp

theorem written_iff {s : Sect} (h : SectOk o s) : s.written = true ↔ s.flags % 256 ≠ 1 := by
  unfold Sect.written
  rw [decide_eq_true_iff]
  constructor
  · intro h1 h2; omega
  · intro h1
    by_cases h2 : s.flags % 2 = 1
    · exact absurd (h.type h2) h1
    · omega

theorem data_length {s : Sect} (h : SectOk o s) (hw : s.written = true) : s.data.length = s.length := by
  unfold Sect.data
  rw [if_pos hw]
  exact h.length ((written_iff h).mp hw)

/-- Everything in the file is below its end. -/
theorem Parts.length (p : Parts o r) : r.file.length = o.relBase + o.relSize + o.nsize * o.nsyms + o.strLength := by
  rw [p.file]
  simp only [List.length_append, front_length, List.length_replicate, relocsBytes_length p.rels, symsBytes_length, strLength_eq]
  have h1 := p.base
  have h2 := relocs_total o.sects
  rw [nsyms_eq]
  unfold Obj.relSize
  omega

theorem Parts.segment (p : Parts o r) (hk : ObjOk o) (hf : r.file.length < 2 ^ 32) :
    ∃ fo, segment r.file o.hdr = some ⟨o.segPos, (calcSects o.sects 0 o.headSize).2.1, fo, o.data.length, o.sects.length⟩ ∧
      (o.nsyms > 0 → fo = o.headSize) := by
  have h := p.segAt
  obtain ⟨s0, s1, s2⟩ := segment_fields h hk.number.2
  have hv := calcSects_vm o.sects 0 o.headSize
  have hs := hk.size
  have hd := calcSects_file o.sects (fun s hm hw => data_length (hk.sects s hm) hw) 0 o.headSize
  have hl := p.length
  have hb := p.base
  have hne : o.sects.length > 0 := List.length_pos_iff.mpr hk.number.1
  have hn := hk.number.2
  have hsz : o.sizeCmds < 2 ^ 30 := by
    unfold Obj.sizeCmds; rw [if_pos hne]; split <;> split <;> omega
  have w : 2 ^ 32 ≤ 256 ^ (if o.wide then 8 else 4) := by split <;> decide
  unfold segmentCmd at h
  simp only at h
  unfold Obj.long at h
  have a1 := (h.left.left.left.left.left.left.right' (q := if o.wide then o.segPos + 32 else o.segPos + 28)
    (by cases hw : o.wide <;> simp [le_length, hw])).field (by omega)
  have a2 := (h.left.left.left.left.left.right' (q := if o.wide then o.segPos + 40 else o.segPos + 32)
    (by cases hw : o.wide <;> simp [le_length, hw])).field (by split <;> omega)
  have a3 := (h.left.left.left.left.right' (q := if o.wide then o.segPos + 48 else o.segPos + 36)
    (by cases hw : o.wide <;> simp [le_length, hw])).field (by unfold Obj.data at *; omega)
  refine ⟨(if o.wide then 32 else 28) + o.sizeCmds, ?_, ?_⟩
  · unfold Macho.segment
    rw [show (if o.hdr.wide then 0x19 else 1) = (if o.wide then 0x19 else 1) from rfl, p.segCommand hk]
    simp only [Option.bind_eq_bind, Option.bind_some, long]
    rw [show o.hdr.wide = o.wide from rfl, a1, a2, a3, s2]
    simp only [Option.bind_some]
    congr 2
    unfold Obj.data; omega
  · intro hp
    unfold Obj.sizeCmds Obj.headSize
    rw [if_pos hne, if_pos hp]
    split <;> omega

/-! ### Relocations -/

theorem relAt_read {ix : List (Option Nat)} {q : Reloc} {bs : List Byte} (h : relocBytes o ix q = some bs) {f : List Byte} {pos : Nat}
    (ha : At f pos bs) (h1 : q.addr < 2 ^ 32) (h2 : q.type < 16) (h3 : q.length < 4) {n : Nat} (hn : relocSym o ix q = some n) (hn' : n < 2 ^ 24) :
    relAt f pos = some ⟨q.addr, n, q.pcrel, q.length, q.ext, q.type⟩ := by
  unfold relocBytes at h
  rw [hn] at h
  simp only [Option.some.injEq] at h
  subst h
  have a1 := ha.left.field (by simpa using h1)
  have a2 := (ha.right' (q := pos + 4) (by simp [le_length])).field (by split <;> split <;> omega)
  unfold relAt
  rw [a1, a2]
  simp only [Option.bind_eq_bind, Option.bind_some, Option.some.injEq, Rel.mk.injEq, true_and]
  cases q.pcrel <;> cases q.ext <;> simp <;> omega

theorem relsAt_read {ix : List (Option Nat)} {rs : List Reloc} {bs : List Byte} (h : relocsBytes o ix rs = some bs) {f : List Byte}
    {pos : Nat} (ha : At f pos bs) (hr : ∀ q ∈ rs, q.addr < 2 ^ 32 ∧ q.type < 16 ∧ q.length < 4) (want : Reloc → Nat)
    (hix : ∀ q ∈ rs, ∀ n, relocSym o ix q = some n → n = want q ∧ n < 2 ^ 24) :
    relsAt f pos rs.length = some (rs.map fun q => ⟨q.addr, want q, q.pcrel, q.length, q.ext, q.type⟩) := by
  induction rs generalizing bs pos with
  | nil => rfl
  | cons q rs ih =>
    obtain ⟨h1, h2, h3⟩ := hr q (by simp)
    simp only [relocsBytes] at h
    split at h
    · rename_i c d e1 e2
      cases h
      have hs : ∃ n, relocSym o ix q = some n := by
        unfold relocBytes at e1
        split at e1
        · rename_i n hn; exact ⟨n, hn⟩
        · cases e1
      obtain ⟨n, hn⟩ := hs
      obtain ⟨g1, g2⟩ := hix q (by simp) n hn
      have a := relAt_read e1 ha.left h1 h2 h3 hn g2
      have b := ih e2 (ha.right' (q := pos + 8) (by rw [relocBytes_length e1])) (fun q hq => hr q (by simp [hq])) (fun q hq => hix q (by simp [hq]))
      simp only [List.length_cons, relsAt, a, b, Option.bind_eq_bind, Option.bind_some, List.map_cons, g1]
    · cases h

theorem relocSym_want (hk : ObjOk o) {q : Reloc} {n : Nat} (h : relocSym o (countSyms o 0 o.syms).1 q = some n)
    (hl : ∀ k off x, o.syms[q.sym]? = some x → x.kind = .label k off → k < 2 ^ 23) : n = o.wantNum q ∧ n < 2 ^ 24 := by
  unfold relocSym at h
  unfold Obj.wantNum
  by_cases he : q.ext = true
  · rw [if_pos he] at h ⊢
    split at h
    · rename_i i hi
      cases h
      have hlt : q.sym < o.syms.length := by
        by_contra hc
        have hlen : (countSyms o 0 o.syms).1.length = o.syms.length := by
          have : ∀ (ss : List Sym) (i : Nat), (countSyms o i ss).1.length = ss.length := by
            intro ss
            induction ss with
            | nil => intro i; rfl
            | cons s ss ih => intro i; unfold countSyms; split <;> simp [ih]
          exact this _ _
        rw [List.getElem?_eq_none (by omega)] at hi
        cases hi
      have := countSyms_index o o.syms 0 q.sym (List.getElem?_eq_getElem hlt)
      rw [hi] at this
      simp only [Option.some.injEq] at this
      split at this
      · simp only [Option.some.injEq] at this
        refine ⟨by rw [this]; unfold Obj.index; omega, ?_⟩
        have h1 := List.length_filter_le o.listed (o.syms.take q.sym)
        have h2 := hk.indexes
        simp only [List.length_take] at h1
        omega
      · cases this
    · cases h
  · rw [if_neg he] at h ⊢
    cases hx : o.syms[q.sym]? with
    | none =>
      rw [hx] at h
      simp only [Option.some.injEq] at h
      exact ⟨h.symm, by omega⟩
    | some x =>
      rw [hx] at h
      simp only at h ⊢
      cases hkd : x.kind with
      | label k off =>
        rw [hkd] at h
        simp only [Option.some.injEq] at h
        have := hl k off x hx hkd
        exact ⟨h.symm, by omega⟩
      | equ v =>
        rw [hkd] at h
        simp only [Option.some.injEq] at h
        exact ⟨h.symm, by omega⟩
      | other =>
        rw [hkd] at h
        simp only [Option.some.injEq] at h
        exact ⟨h.symm, by omega⟩

/-! ### Sections -/

theorem headFlags_read {s : Sect} (h : SectOk o s) :
    o.headFlags s < 2 ^ 32 ∧ o.headFlags s % 256 = s.flags % 256 ∧ o.headFlags s % 256 + o.headFlags s / 1024 * 1024 = s.flags ∧
      decide (o.headFlags s / 256 % 2 = 1) = !s.rels.isEmpty ∧ decide (o.headFlags s / 512 % 2 = 1) = s.rels.any o.other := by
  obtain ⟨h1, h2, h3⟩ := h.flags
  unfold Obj.headFlags
  have e8 : orBit 8 s.flags = s.flags + 256 := by
    unfold orBit; rw [if_neg (by omega)]
  have e9 : orBit 9 (s.flags + 256) = s.flags + 768 := by
    unfold orBit; rw [if_neg (by omega)]
  rw [e8, e9]
  have hw : s.zerofill = false → s.outRelocs = s.rels := by
    intro hz
    have hz' : s.flags % 256 ≠ 1 := by unfold Sect.zerofill at hz; exact of_decide_eq_false hz
    unfold Sect.outRelocs Sect.rels
    rw [if_pos ((written_iff h).mpr hz'), if_neg hz']
  by_cases hz : s.zerofill = false
  · have hr := hw hz
    rw [hr]
    by_cases hl : s.rels.length = 0
    · rw [if_neg (fun hh => hh.2 hl), List.length_eq_zero_iff.mp hl]
      refine ⟨by omega, rfl, by omega, ?_, ?_⟩
      · simp; omega
      · simp; omega
    · rw [if_pos ⟨hz, hl⟩]
      have he : s.rels.isEmpty = false := by
        cases hx : s.rels with
        | nil => rw [hx] at hl; exact absurd rfl hl
        | cons a b => rfl
      have hx : o.extReloc s = s.rels.any o.other := by unfold Obj.extReloc; rw [hr]; rfl
      rw [hx, he]
      by_cases ha : s.rels.any o.other = true
      · rw [if_pos ha, ha]
        refine ⟨by omega, by omega, by omega, ?_, ?_⟩
        · simp; omega
        · simp; omega
      · rw [if_neg ha]
        have ha' : s.rels.any o.other = false := by simpa using ha
        rw [ha']
        refine ⟨by omega, by omega, by omega, ?_, ?_⟩
        · simp; omega
        · simp; omega
  · rw [if_neg (fun hh => hz hh.1)]
    have hz' : s.flags % 256 = 1 := by
      by_contra hc
      exact hz (by unfold Sect.zerofill; exact decide_eq_false hc)
    have hr : s.rels = [] := by unfold Sect.rels; rw [if_pos hz']
    rw [hr]
    refine ⟨by omega, rfl, by omega, ?_, ?_⟩
    · simp; omega
    · simp; omega

theorem Parts.relBase_at (p : Parts o r) : At r.file o.relBase p.rs := by
  refine ⟨o.front ++ (o.data ++ List.replicate p.pad 0), symsBytes o o.syms 1 ++ ([0] ++ symStrs o o.syms), ?_, ?_⟩
  · conv => lhs; rw [p.file]
    simp [List.append_assoc]
  · simp only [List.length_append, front_length, List.length_replicate]
    have := p.base; omega

theorem Parts.data_at (p : Parts o r) : At r.file o.headSize o.data := by
  refine ⟨o.front, List.replicate p.pad 0 ++ (p.rs ++ (symsBytes o o.syms 1 ++ ([0] ++ symStrs o o.syms))), ?_, front_length o⟩
  conv => lhs; rw [p.file]
  simp [List.append_assoc]

theorem relBase_four (o : Obj) : o.relBase % 4 = 0 := by unfold Obj.relBase align4; omega

theorem sum_take_le (ss : List Sect) (k : Nat) : ((ss.take k).map fun s => s.outRelocs.length * 8).sum ≤ (ss.map fun s => s.outRelocs.length * 8).sum := by
  induction ss generalizing k with
  | nil => simp
  | cons s ss ih =>
    cases k with
    | zero => simp
    | succ k => have := ih k; simp only [List.take_succ_cons, List.map_cons, List.sum_cons]; omega

theorem sum_take_four (ss : List Sect) : (ss.map fun s => s.outRelocs.length * 8).sum % 4 = 0 := by
  induction ss with
  | nil => rfl
  | cons s ss ih => simp only [List.map_cons, List.sum_cons]; omega

theorem sectionAt_of {f : List Byte} {i : Nat} {h : Hdr} {g : Segment} (h1 : Macho.hdr f = some h) (h2 : Macho.segment f h = some g)
    (h3 : i < g.nsects) {P Q : Nat} (hP : (if h.wide then g.pos + 72 + 80 * i else g.pos + 56 + 68 * i) = P)
    (hQ : (if h.wide then P + 48 else P + 40) = Q) {name seg bytes : List Byte} {addr size off align reloff nreloc flags : Nat}
    {rels : List Rel} (h4 : slice f P 16 = some name) (h5 : slice f (P + 16) 16 = some seg) (h6 : long h f (P + 32) = some addr)
    (h7 : long h f (if h.wide then P + 40 else P + 36) = some size) (h8 : field f Q 4 = some off) (h9 : field f (Q + 4) 4 = some align)
    (h10 : field f (Q + 8) 4 = some reloff) (h11 : field f (Q + 12) 4 = some nreloc) (h12 : field f (Q + 16) 4 = some flags)
    (h13 : contents f flags off size = some bytes) (h14 : relsAt f reloff nreloc = some rels) :
    sectionAt f i = some ⟨shortName name, shortName seg, addr, size, 2 ^ align, flags % 256 + flags / 1024 * 1024,
      decide (flags / 256 % 2 = 1), decide (flags / 512 % 2 = 1), bytes, rels⟩ := by
  subst hP
  subst hQ
  unfold sectionAt
  refine Option.bind_eq_some_iff.mpr ⟨h, h1, Option.bind_eq_some_iff.mpr ⟨g, h2, Option.bind_eq_some_iff.mpr ⟨(), ?_, ?_⟩⟩⟩
  · rw [guard, if_pos h3]; rfl
  exact Option.bind_eq_some_iff.mpr ⟨_, h4, Option.bind_eq_some_iff.mpr ⟨_, h5, Option.bind_eq_some_iff.mpr ⟨_, h6,
    Option.bind_eq_some_iff.mpr ⟨_, h7, Option.bind_eq_some_iff.mpr ⟨_, h8, Option.bind_eq_some_iff.mpr ⟨_, h9,
    Option.bind_eq_some_iff.mpr ⟨_, h10, Option.bind_eq_some_iff.mpr ⟨_, h11, Option.bind_eq_some_iff.mpr ⟨_, h12,
    Option.bind_eq_some_iff.mpr ⟨_, h13, Option.bind_eq_some_iff.mpr ⟨_, h14, rfl⟩⟩⟩⟩⟩⟩⟩⟩⟩⟩⟩

theorem Parts.sectionRead (p : Parts o r) (hk : ObjOk o) (hf : r.file.length < 2 ^ 32) {j : Nat} {s : Sect} (hj : o.sects[j]? = some s) : sectionAt r.file j = some (o.wantSection (o.addr j) s) := by
  have hs := hk.sects s (List.mem_of_getElem? hj)
  obtain ⟨hlt, _⟩ := List.getElem?_eq_some_iff.mp hj
  obtain ⟨h, hh, hoff⟩ := calcSects_offset o.sects (fun s hm hw => data_length (hk.sects s hm) hw) 0 o.headSize j hj
  have hh' : o.heads[j]? = some h := hh
  obtain ⟨fo, hseg, _⟩ := p.segment hk hf
  have ha := p.headsAt.sub (headsBytes_at o o.sects o.heads 0 j hj hh')
  rw [Nat.zero_add] at ha
  generalize hR : ((o.sects.take j).map fun s => s.outRelocs.length * 8).sum = R at ha
  generalize hP : ((if o.wide then o.segPos + 72 else o.segPos + 56) + o.hsize * j) = P at ha
  have hR4 : R % 4 = 0 := by rw [← hR]; exact sum_take_four _
  have hRle : R ≤ o.relSize := by rw [← hR]; exact sum_take_le _ _
  have hlen := p.length
  have hsend := calcSects_end _ _ _ _ hj hh
  have hvm := calcSects_vm o.sects 0 o.headSize
  have hsz := hk.size
  have hb := p.base
  have haddr : o.addr j = h.vmoff := addr_eq hh'
  obtain ⟨f1, f2, f3, f4, f5⟩ := headFlags_read hs
  -- the fields
  unfold headBytes at ha
  have word : ∀ v q, v < 2 ^ 32 → At r.file q (o.word v) → long o.hdr r.file q = some v := by
    intro v q hv h
    unfold long
    unfold Obj.word at h
    rw [show o.hdr.wide = o.wide from rfl]
    cases hw : o.wide
    · rw [hw] at h
      simp only [Bool.false_eq_true, if_false, List.append_nil] at h ⊢
      exact h.field (by omega)
    · rw [hw] at h
      simp only [if_true] at h ⊢
      have := Elf.le64z_eq v hv
      unfold Elf.le64z at this
      rw [this] at h
      exact h.field (by omega)
  have b1 := ha.left.left.left.left.left.left.left.left
  have b2 := ha.left.left.left.left.left.left.left.right' (q := P + 16) (by simp [strncpy_length])
  have b3 := word _ _ (by omega) (ha.left.left.left.left.left.left.right' (q := P + 32) (by simp [strncpy_length]))
  have b4 := word _ _ (by omega) (ha.left.left.left.left.left.right' (q := if o.wide then P + 40 else P + 36)
    (by cases hw : o.wide <;> simp [strncpy_length, word_length, hw]))
  have b5 := ha.left.left.left.left.right' (q := if o.wide then P + 48 else P + 40)
    (by cases hw : o.wide <;> simp [strncpy_length, word_length, hw])
  generalize hQ : (if o.wide then P + 48 else P + 40) = Q at b5
  have b6 := (ha.left.left.left.right' (q := Q + 16)
    (by rw [← hQ]; cases hw : o.wide <;> cases s.zerofill <;> by_cases hr : s.outRelocs.length = 0 <;>
          simp [strncpy_length, word_length, le_length, hw, hr])).field (by simpa using f1)
  have hP' : (if o.wide then o.segPos + 72 + 80 * j else o.segPos + 56 + 68 * j) = P := by
    rw [← hP]; unfold Obj.hsize; split <;> rfl
  have d1 := b1.slice (strncpy_length _ _).symm
  have d2 := b2.slice (strncpy_length _ _).symm
  -- the rest depends on the kind
  by_cases hz : s.flags % 256 = 1
  · have hzf : s.zerofill = true := by unfold Sect.zerofill; exact decide_eq_true hz
    rw [hzf] at b5
    simp only [if_true] at b5
    have c1 := b5.left.left.left.field (by decide)
    have c2 := (b5.left.left.right' (q := Q + 4) (by simp [le_length])).field (by decide)
    have c3 := (b5.left.right' (q := Q + 8) (by simp [le_length])).field (by decide)
    have c4 := (b5.right' (q := Q + 12) (by simp [le_length])).field (by decide)
    have hcont : contents r.file (o.headFlags s) 0 s.length = some [] := by unfold contents; rw [f2, if_pos (Or.inl hz)]
    rw [sectionAt_of (p.hdr hk) hseg hlt hP' hQ d1 d2 b3 b4 c1 c2 c3 c4 b6 hcont rfl]
    unfold Obj.wantSection Sect.content Sect.rels Sect.wantAlign
    rw [shortName_strncpy' hs.name.2 hs.name.1, shortName_strncpy' hs.seg.2 hs.seg.1, if_pos hz, if_pos hz, haddr, f4, f5]
    unfold Sect.rels
    rw [if_pos hz]
    rw [f3]
    have := hs.zeros hz
    have e : (2 ^ 0 : Nat) = if s.align = 0 then 1 else s.align := by split <;> omega
    rw [e]
    rfl
  · have hzf : s.zerofill = false := by unfold Sect.zerofill; exact decide_eq_false hz
    have hw : s.written = true := (written_iff hs).mpr hz
    have hoff' := hoff hw
    have hdat := (p.data_at).sub (flatMap_at Sect.data o.sects hj)
    have hdl := data_length hs hw
    have hle := hdat.le_length
    rw [hzf] at b5
    simp only [Bool.false_eq_true, if_false] at b5
    have hal : alignBits 64 s.align - 1 < 2 ^ 32 ∧ 2 ^ (alignBits 64 s.align - 1) = s.wantAlign := by
      unfold Sect.wantAlign
      rcases hs.align with h0 | ⟨k, hk1, hk2⟩
      · rw [h0, alignBits_zero]; exact ⟨by decide, rfl⟩
      · rw [hk2, alignBits_pow 64 k (by omega), if_neg (by have := Nat.two_pow_pos k; omega)]
        exact ⟨by omega, by simp⟩
    have hrl : s.outRelocs = s.rels := by
      unfold Sect.outRelocs Sect.rels
      rw [if_pos hw, if_neg hz]
    obtain ⟨b, hb1, hb2⟩ := relocs_at o.sects p.rels hj
    rw [hR] at hb2
    have hrel := p.relBase_at.sub hb2
    have hrle := hrel.le_length
    rw [relocsBytes_length hb1] at hrle
    have c1 := b5.left.left.field (by omega)
    have c2 := (b5.left.right' (q := Q + 4) (by simp [le_length])).field (by simpa using hal.1)
    have c34 := b5.right' (q := Q + 8) (by simp [le_length])
    have hcont : contents r.file (o.headFlags s) h.offset s.length = some s.content := by
      unfold contents
      rw [f2, if_neg (by have := hs.flags.2.2; tauto), hoff', hdat.slice hdl.symm]
      unfold Sect.data Sect.content
      rw [if_pos hw, if_neg hz]
    have hrr : relsAt r.file (if s.outRelocs.length ≠ 0 then align4 (o.relBase + R) else 0) s.outRelocs.length = some (s.rels.map o.wantRel) := by
      by_cases hr : s.outRelocs.length = 0
      · rw [if_neg (by simpa using hr), hr]
        rw [← hrl, List.length_eq_zero_iff.mp hr]; rfl
      · rw [if_pos hr]
        have e : align4 (o.relBase + R) = o.relBase + R := by
          unfold align4; have := relBase_four o; omega
        rw [e, hrl]
        rw [hrl] at hb1
        refine relsAt_read hb1 hrel hs.reloc o.wantNum ?_
        intro q hq n hn
        refine relocSym_want hk hn ?_
        intro k off x hx hkd
        have := hk.labels x (List.mem_of_getElem? hx) k off hkd
        have := hk.number.2
        omega
    have fin : ∀ A, A = (if s.outRelocs.length ≠ 0 then align4 (o.relBase + R) else 0) →
        field r.file (Q + 8) 4 = some A → field r.file (Q + 12) 4 = some s.outRelocs.length →
        sectionAt r.file j = some (o.wantSection (o.addr j) s) := by
      intro A hA e1 e2
      rw [← hA] at hrr
      rw [sectionAt_of (p.hdr hk) hseg hlt hP' hQ d1 d2 b3 b4 c1 c2 e1 e2 b6 hcont hrr]
      rw [shortName_strncpy' hs.name.2 hs.name.1, shortName_strncpy' hs.seg.2 hs.seg.1, f3, f4, f5, hal.2, haddr]
      rfl
    by_cases hr : s.outRelocs.length = 0
    · rw [if_neg (by simpa using hr)] at c34
      have c3 := c34.left.field (by decide)
      have c4 := (c34.right' (q := Q + 12) (by simp [le_length])).field (by decide)
      exact fin 0 (by rw [if_neg (by simpa using hr)]) c3 (by rw [c4, hr])
    · rw [if_pos hr] at c34
      have e : align4 (o.relBase + R) = o.relBase + R := by
        unfold align4; have := relBase_four o; omega
      have c3 := c34.left.field (by rw [e]; omega)
      have c4 := (c34.right' (q := Q + 12) (by simp [le_length])).field (by omega)
      exact fin _ (by rw [if_pos hr]) c3 c4

/-! ### Symbols -/

theorem getUint_eq {v : Int} (h : 0 ≤ v ∧ v < 2 ^ 63) : (Coff.getUint v : Int) = v := by
  unfold Coff.getUint
  rw [if_neg (by omega), if_pos (by omega)]
  omega

theorem valueOf_want {s : Sym} (h : SymOk o s) :
    ((valueOf o s).1 : Int) = Obj.wantValue o.addr s ∧ (valueOf o s).2.1 = s.wantType ∧ (valueOf o s).2.2.1 = s.wantSect := by
  unfold valueOf Obj.wantValue Sym.wantType Sym.wantSect
  rcases hk : s.kind with ⟨k, off⟩ | ⟨_ | _⟩ | _
  all_goals rcases he : s.ext with _ | _
  all_goals rcases hc : s.common with _ | _
  all_goals try (have := h.elsewhere (by first | exact Or.inl he | exact Or.inr hc); rw [hk] at this; cases this; done)
  all_goals try (have := h.ext he; rw [hc] at this; cases this; done)
  all_goals simp only [Bool.false_eq_true, if_false, if_true, Bool.false_or, Bool.or_false, Bool.true_or, Bool.not_false, Bool.not_true,
    Bool.and_true, Bool.and_false]
  case label.false.false =>
    rcases s.glob with _ | _ <;> rcases s.priv with _ | _ <;> simp <;> omega
  case equ.int.false.false v =>
    have hv := getUint_eq (h.equ v hk)
    rcases s.glob with _ | _ <;> rcases s.priv with _ | _ <;> simp [hv]
  case equ.other.false.false =>
    rcases s.glob with _ | _ <;> rcases s.priv with _ | _ <;> simp
  case other.false.false =>
    rcases s.glob with _ | _ <;> rcases s.priv with _ | _ <;> simp
  case other.false.true =>
    rcases hcs : s.csize with _ | _ | _
    · simp
    · rename_i v
      have hv := getUint_eq (h.size v hk he hc hcs)
      simp [hv]
    · simp
  case other.true.false => simp

theorem wantType_lt (s : Sym) : s.wantType < 256 := by
  unfold Sym.wantType
  split <;> split <;> split <;> omega

theorem Parts.symbolRead (p : Parts o r) (hk : ObjOk o) (hf : r.file.length < 2 ^ 32) {n : Nat} {s : Sym} (hn : o.syms[n]? = some s)
    (hl : o.listed s = true) : symbolAt r.file (o.index n) = some (o.wantSymbol o.addr s) := by
  have hs := hk.syms s (List.mem_of_getElem? hn) hl
  obtain ⟨q, h1, h2⟩ := syms_at o o.syms 1 n hn hl
  have hlen := p.length
  have hidx : o.index n < o.nsyms := by
    rw [nsyms_eq]
    obtain ⟨hlt, hx⟩ := List.getElem?_eq_some_iff.mp hn
    unfold Obj.index
    conv => rhs; rw [← List.take_append_drop n o.syms]
    rw [List.filter_append, List.length_append]
    have : o.syms.drop n = s :: o.syms.drop (n + 1) := by rw [← hx]; simp
    rw [this, List.filter_cons_of_pos hl]; simp
  have hpos : o.nsyms > 0 := by omega
  -- the command
  have y := p.symAt
  unfold symtabCmd at y
  have hcnt : o.nsyms ≤ o.nsize * o.nsyms := Nat.le_mul_of_pos_left _ (by unfold Obj.nsize; split <;> omega)
  have hns : (if o.wide then 16 else 12) * o.nsyms = o.nsize * o.nsyms := rfl
  have y2 := (y.left.left.left.right' (q := o.symPos + 8) (by simp [le_length])).field (by omega)
  have y3 := (y.left.left.right' (q := o.symPos + 12) (by simp [le_length])).field (by omega)
  have y4 := (y.left.right' (q := o.symPos + 16) (by simp [le_length])).field (by rw [hns]; omega)
  have y5 := (y.right' (q := o.symPos + 20) (by simp [le_length])).field (by omega)
  have ht : symtab r.file o.hdr = some ⟨o.relBase + o.relSize, o.nsyms, o.nsize * o.nsyms + o.relBase + o.relSize, o.strLength⟩ := by
    unfold symtab
    rw [p.symCommand hk, if_pos hpos]
    simp only [Option.bind_eq_bind, Option.bind_some]
    rw [y2, y3, y4, y5]
    rfl
  have hrs : p.rs.length = o.relSize := by
    rw [relocsBytes_length p.rels]; have := relocs_total o.sects; unfold Obj.relSize; omega
  have hsy : At r.file (o.relBase + o.relSize) (symsBytes o o.syms 1) := by
    refine ⟨o.front ++ (o.data ++ (List.replicate p.pad 0 ++ p.rs)), [0] ++ symStrs o o.syms, ?_, ?_⟩
    · conv => lhs; rw [p.file]
      simp [List.append_assoc]
    · simp only [List.length_append, front_length, List.length_replicate, hrs]
      have := p.base; omega
  have hst : At r.file (o.nsize * o.nsyms + o.relBase + o.relSize) ([0] ++ symStrs o o.syms) := by
    refine ⟨o.front ++ (o.data ++ (List.replicate p.pad 0 ++ (p.rs ++ symsBytes o o.syms 1))), [], ?_, ?_⟩
    · conv => lhs; rw [p.file]
      simp [List.append_assoc]
    · simp only [List.length_append, front_length, List.length_replicate, hrs, symsBytes_length]
      rw [nsyms_eq]
      have := p.base; omega
  have hname : string ([0] ++ symStrs o o.syms) (1 + q) = some (o.wantName s) := by
    rw [globalName_want] at h1
    exact string_read (h1.append_left [0]) hs.name
  have hq : q < o.strLength := by
    have := h1.le_length
    rw [strLength_eq, List.length_append]; simp at this ⊢; omega
  have hb := hsy.sub h2
  unfold symBytes at hb
  obtain ⟨e1, e2, e3⟩ := valueOf_want hs
  rw [e2, e3] at hb
  generalize hP : o.relBase + o.relSize + o.nsize * ((o.syms.take n).filter o.listed).length = P at hb
  have hty := wantType_lt s
  have hse : s.wantSect < 256 := by
    unfold Sym.wantSect
    split
    · rename_i k off hkd
      have := hk.labels s (List.mem_of_getElem? hn) k off hkd
      have := hk.number.2
      omega
    · omega
  have c1 := hb.left.left.left.left.field (by omega)
  have c2 := (hb.left.left.left.right' (q := P + 4) (by simp [le_length])).field (by simpa using hty)
  have c3 := (hb.left.left.right' (q := P + 5) (by simp [le_length])).field (by simpa using hse)
  have c4 := (hb.left.right' (q := P + 6) (by simp [le_length])).field (by decide)
  have c5 := hb.right' (q := P + 8) (by simp [le_length])
  unfold Obj.long at c5
  have c5 := c5.field_mod
  unfold symbolAt
  rw [p.hdr hk]
  simp only [Option.bind_eq_bind, Option.bind_some]
  rw [ht]
  simp only [Option.bind_some]
  rw [hst.slice (strLength_eq o)]
  simp only [Option.bind_some]
  rw [guard, if_pos hidx]
  simp only [Option.pure_def, Option.bind_some]
  have hP' : (if o.hdr.wide then o.relBase + o.relSize + 16 * o.index n else o.relBase + o.relSize + 12 * o.index n) = P := by
    rw [← hP]
    unfold Obj.nsize Obj.index
    rw [show o.hdr.wide = o.wide from rfl]
    split <;> rfl
  rw [hP', c1]
  simp only [Option.bind_some]
  rw [hname]
  simp only [Option.bind_some]
  rw [c2, c3, c4]
  simp only [Option.bind_some]
  unfold long
  rw [show o.hdr.wide = o.wide from rfl, c5]
  simp only [Option.bind_some]
  unfold Obj.wantSymbol
  congr 2
  rw [← e1]
  cases o.wide <;> simp <;> omega

end Verif.Macho
