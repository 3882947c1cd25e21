import Verif.Xdf.Lemmas
/-
What a reader finds in an XDF file.
-/
set_option linter.unusedSimpArgs false
namespace Verif.Xdf
open Verif.Elf (Byte Name Num slice field string le At le_length)
open Verif.Coff (getUint string_read)

/-- The parts of a file. -/
structure Parts (o : Obj) (r : Result) where
  hs : List Head
  rest : List Byte
  sects : outSects o (o.strStart + (strsBytes o o.table).length) o.sects = some (hs, rest)
  named : ∀ s ∈ o.sects, (o.data s.sym).isSome = true
  file : r.file = (le 4 0x87654322 ++ (le 4 o.sects.length ++ (le 4 o.count ++ le 4 (o.strStart + (strsBytes o o.table).length - 16)))) ++
    ((o.sects.zip hs).flatMap (headBytes o) ++ (symsBytes o o.strStart o.table ++ (strsBytes o o.table ++ rest)))

theorem output_parts {o : Obj} {r : Result} (h : output o = some r) : Nonempty (Parts o r) := by
  unfold output at h
  simp only at h
  split at h
  · cases h
  · rename_i hs rest hr
    split at h
    · rename_i hn
      cases h
      exact ⟨hs, rest, hr, List.all_eq_true.mp hn, rfl⟩
    · cases h

theorem at_start (a b : List Byte) : At (a ++ b) 0 a := ⟨[], b, rfl, rfl⟩

variable {o : Obj} {r : Result}

theorem Parts.lengths (p : Parts o r) : ((o.sects.zip p.hs).flatMap (headBytes o)).length = 40 * o.sects.length := by
  rw [flat_length _ 40 (headBytes_length o), List.length_zip, (outSects_placed _ p.sects).1, Nat.min_self]

/-- Where the parts are. -/
theorem Parts.places (p : Parts o r) (ho : ObjOk o) : At r.file 16 ((o.sects.zip p.hs).flatMap (headBytes o)) ∧
    At r.file (16 + 40 * o.sects.length) (symsBytes o o.strStart o.table) ∧ At r.file o.strStart (strsBytes o o.table) ∧
    At r.file (o.strStart + (strsBytes o o.table).length) p.rest ∧ r.file.length = o.strStart + (strsBytes o o.table).length + p.rest.length := by
  have hl := p.lengths
  have hy := symsBytes_length o o.strStart o.table
  have hc : o.table.length = o.count := (count_eq ho).symm
  rw [hc] at hy
  have h4 : (le 4 0x87654322 ++ (le 4 o.sects.length ++ (le 4 o.count ++ le 4 (o.strStart + (strsBytes o o.table).length - 16)))).length = 16 := by
    simp [le_length]
  have e := p.file
  generalize le 4 0x87654322 ++ (le 4 o.sects.length ++ (le 4 o.count ++ le 4 (o.strStart + (strsBytes o o.table).length - 16))) = H at *
  generalize (o.sects.zip p.hs).flatMap (headBytes o) = S at *
  have hst : o.strStart = 16 + 40 * o.sects.length + 16 * o.count := rfl
  generalize symsBytes o o.strStart o.table = Y at *
  generalize strsBytes o o.table = T at *
  refine ⟨⟨H, Y ++ (T ++ p.rest), by simp [e], h4⟩, ⟨H ++ S, T ++ p.rest, by simp [e], by simp; omega⟩,
    ⟨H ++ S ++ Y, p.rest, by simp [e], by simp; omega⟩, ⟨H ++ S ++ Y ++ T, [], by simp [e], by simp; omega⟩, by rw [e]; simp; omega⟩

theorem Parts.hdr (p : Parts o r) (ho : ObjOk o) (hf : r.file.length < 2 ^ 32) :
    fileHdr r.file = some ⟨o.sects.length, o.count, o.strStart + (strsBytes o o.table).length - 16⟩ := by
  obtain ⟨_, _, _, _, hlen⟩ := p.places ho
  have hst : o.strStart = 16 + 40 * o.sects.length + 16 * o.count := rfl
  have h0 : At r.file 0 (le 4 0x87654322 ++ (le 4 o.sects.length ++ (le 4 o.count ++ le 4 (o.strStart + (strsBytes o o.table).length - 16)))) := by
    rw [p.file]
    exact at_start _ _
  have a1 : At r.file 4 (le 4 o.sects.length ++ (le 4 o.count ++ le 4 (o.strStart + (strsBytes o o.table).length - 16))) := h0.right' (by simp [le_length])
  have a2 : At r.file 8 (le 4 o.count ++ le 4 (o.strStart + (strsBytes o o.table).length - 16)) := a1.right' (by simp [le_length])
  have a3 : At r.file 12 (le 4 (o.strStart + (strsBytes o o.table).length - 16)) := a2.right' (by simp [le_length])
  unfold fileHdr
  simp only [h0.left.field (show 0x87654322 < 256 ^ 4 by omega), a1.left.field (by omega), a2.left.field (by omega), a3.field (by omega), Option.bind_eq_bind, Option.bind_some,
    guard, if_true, pure, eq_self]

theorem valueOf_want {s : Sym} (hk : SymOk o s) (hn : o.sects.length < 2 ^ 32 - 4) :
    (valueOf s).2.1 = (s.wantSymbol o).sect ∧ (valueOf s).1 = (s.wantSymbol o).value ∧ (valueOf s).2.2 = (s.wantSymbol o).flags ∧
      (valueOf s).2.1 < 2 ^ 32 ∧ (valueOf s).1 < 2 ^ 32 ∧ (valueOf s).2.2 < 2 ^ 32 := by
  unfold valueOf Sym.wantSymbol
  rcases hkind : s.kind with ⟨k, off⟩ | v | _
  · obtain ⟨h1, h2⟩ := hk.label k off hkind
    refine ⟨rfl, rfl, rfl, by simp only; omega, h2, ?_⟩
    simp only
    split <;> decide
  · obtain ⟨i, rfl, h1, h2⟩ := hk.equ v hkind
    have hg : getUint i = i.toNat := by
      unfold getUint
      rw [if_neg (by omega), if_pos (by omega)]
    refine ⟨rfl, hg, ?_, (by show 4294967294 < 2 ^ 32; omega), ?_, ?_⟩
    · simp only
      rcases s.glob with _ | _ <;> rfl
    · simp only [hg]
      omega
    · simp only
      rcases s.glob with _ | _ <;> decide
  · rcases s.ext with _ | _ <;> rcases s.glob with _ | _ <;> simp

theorem Parts.symbolRead (p : Parts o r) (ho : ObjOk o) (hf : r.file.length < 2 ^ 32) {j : Nat} {s : Sym} (hj : o.listed[j]? = some s) :
    symbolAt r.file j = some (s.wantSymbol o) := by
  have hmem : s ∈ o.listed := List.mem_of_getElem? hj
  obtain ⟨hm, ht⟩ := List.mem_filter.mp hmem
  have hk := ho.syms s hm ht
  obtain ⟨_, hp, hs, _, hlen⟩ := p.places ho
  have hst : o.strStart = 16 + 40 * o.sects.length + 16 * o.count := rfl
  obtain ⟨q, g1, g2⟩ := at_sym o o.table o.strStart j s hj
  have b1 := hp.sub g1
  have b2 := hs.sub g2
  have hql := b2.le_length
  have hjc : j < o.count := by rw [count_eq ho]; exact (List.getElem?_eq_some_iff.mp hj).1
  obtain ⟨v1, v2, v3, v4, v5, v6⟩ := valueOf_want hk (by omega)
  have hname : o.globalName s = (s.wantSymbol o).name := by
    unfold Obj.globalName Sym.wantSymbol
    rw [hk.common, Bool.or_false]
  have hz : ∀ b ∈ o.globalName s, b ≠ 0 := by
    intro b hb
    refine hk.name b ?_
    unfold Obj.globalName at hb
    split at hb
    · exact hb
    · simp [hb]
  unfold symBytes at b1
  have c1 : At r.file (16 + 40 * o.sects.length + 16 * j + 4) (le 4 (valueOf s).1 ++ (le 4 (o.strStart + q) ++ le 4 (valueOf s).2.2)) :=
    b1.right' (by simp [le_length])
  have c2 : At r.file (16 + 40 * o.sects.length + 16 * j + 8) (le 4 (o.strStart + q) ++ le 4 (valueOf s).2.2) := c1.right' (by simp [le_length])
  have c3 : At r.file (16 + 40 * o.sects.length + 16 * j + 12) (le 4 (valueOf s).2.2) := c2.right' (by simp [le_length])
  unfold symbolAt
  rw [p.hdr ho hf]
  simp only [Option.bind_eq_bind, Option.bind_some, guard, hjc, if_true, pure, b1.left.field v4, c1.left.field v5,
    c2.left.field (show o.strStart + q < 256 ^ 4 by simp at hql; omega), c3.field v6, string_read b2 hz]
  rw [v1, v2, v3, hname]

theorem relsRead {f : List Byte} (rs : List Reloc) (pos : Nat) (ha : At f pos (rs.flatMap (relocBytes o))) (hf : o.count < 2 ^ 32) (ho : ObjOk o)
    (hr : ∀ r ∈ rs, r.addr < 2 ^ 32 ∧ r.type < 256 ∧ r.size < 256 ∧ r.shift < 256 ∧ o.Has r.sym ∧ (∀ b, r.base = some b → o.Has b) ∧ (r.base = none → r.type ≠ 2)) :
    relsAt f pos rs.length = some (rs.map o.wantRel) := by
  have hix : ∀ n, o.Has n → o.data n = some (o.index n) ∧ o.index n < 2 ^ 32 := by
    rintro n ⟨x, x1, x2⟩
    refine ⟨data_eq ho x1 x2, ?_⟩
    have := (List.getElem?_eq_some_iff.mp (index_get o.syms x1 x2)).1
    have hc : o.count = (o.syms.filter (·.tabled)).length := count_eq ho
    unfold Obj.index
    omega
  induction rs generalizing pos with
  | nil => rfl
  | cons r rs ih =>
    obtain ⟨h1, h2, h3, h4, h5, h6, _⟩ := hr r (by simp)
    obtain ⟨d1, d2⟩ := hix _ h5
    have hb : baseOf o r = (o.wantRel r).base ∧ (o.wantRel r).base < 2 ^ 32 := by
      unfold baseOf Obj.wantRel
      rcases hbase : r.base with _ | b
      · exact ⟨rfl, show 0 < 2 ^ 32 by omega⟩
      · obtain ⟨e1, e2⟩ := hix b (h6 b hbase)
        exact ⟨by simp [e1], e2⟩
    rw [List.flatMap_cons] at ha
    have a0 := ha.left
    unfold relocBytes at a0
    rw [d1, hb.1] at a0
    have a1 := a0.right' (q := pos + 4) (by simp [le_length])
    have a2 := a1.right' (q := pos + 8) (by simp [le_length])
    have a3 := a2.right' (q := pos + 12) (by simp [le_length])
    have a4 := a3.right' (q := pos + 13) (by simp [le_length])
    have a5 := a4.right' (q := pos + 14) (by simp [le_length])
    have a6 : At f (pos + 16) (rs.flatMap (relocBytes o)) := ha.right' (by rw [relocBytes_length])
    have i := ih (pos + 16) a6 (fun r h => hr r (by simp [h]))
    have e : relAt f pos = some (o.wantRel r) := by
      unfold relAt
      simp only [Option.bind_eq_bind, Option.bind_some, a0.left.field h1, a1.left.field (show (some (o.index r.sym)).getD 0 < 256 ^ 4 from d2),
        a2.left.field hb.2, a3.left.field h2, a4.left.field h3, a5.left.field h4]
      rfl
    simp only [List.length_cons, relsAt, e, i, Option.bind_eq_bind, Option.bind_some, List.map_cons]

theorem le8_eq {a : Int} (h : 0 ≤ a ∧ a < 2 ^ 64) : le8 a = le 8 a.toNat := by
  unfold le8
  rw [Int.emod_eq_of_lt h.1 h.2]

theorem Parts.sectionRead (p : Parts o r) (ho : ObjOk o) (hf : r.file.length < 2 ^ 32) {j : Nat} {s : Sect} (hj : o.sects[j]? = some s) :
    sectionAt r.file j = some (o.wantSection s) := by
  have hk := ho.sects s (List.mem_of_getElem? hj)
  obtain ⟨hh, hp, hs, hd, hlen⟩ := p.places ho
  have hst : o.strStart = 16 + 40 * o.sects.length + 16 * o.count := rfl
  obtain ⟨h, g1, g2⟩ := (outSects_placed _ p.sects).2 j s hj
  have hz : (o.sects.zip p.hs)[j]? = some (s, h) := by rw [List.getElem?_zip_eq_some]; exact ⟨hj, g1⟩
  have b0 := hh.sub (at_flat (headBytes o) 40 (headBytes_length o) _ j _ hz)
  have hjn : j < o.sects.length := (List.getElem?_eq_some_iff.mp hj).1
  obtain ⟨x, x1, x2, x3, x4, x5⟩ := hk.sym
  have hgetx := index_get o.syms x1 x2
  have hidx : o.index s.sym < o.count := by
    have := (List.getElem?_eq_some_iff.mp hgetx).1
    have hc : o.count = (o.syms.filter (·.tabled)).length := count_eq ho
    unfold Obj.index
    omega
  have hsym := p.symbolRead ho hf (j := o.index s.sym) (s := x) hgetx
  have hname : (x.wantSymbol o).name = s.name := by simp [Sym.wantSymbol, x3, x4, x5]
  -- addresses
  have hA : physical s = le 8 (s.addr.getD 0).toNat ∧ (s.addr.getD 0).toNat < 256 ^ 8 := by
    unfold physical
    rcases ha : s.addr with _ | a
    · exact ⟨rfl, show 0 < 256 ^ 8 by omega⟩
    · have := hk.addr a ha
      exact ⟨le8_eq this, show a.toNat < 256 ^ 8 by omega⟩
  have hV : virtual s = le 8 (s.vaddr.getD (s.addr.getD 0)).toNat ∧ (s.vaddr.getD (s.addr.getD 0)).toNat < 256 ^ 8 := by
    unfold virtual
    rcases hv : s.vaddr with _ | v
    · rcases ha : s.addr with _ | a
      · exact ⟨rfl, show 0 < 256 ^ 8 by omega⟩
      · have := hk.addr a ha
        exact ⟨le8_eq this, show a.toNat < 256 ^ 8 by omega⟩
    · have := hk.vaddr v hv
      exact ⟨le8_eq this, show v.toNat < 256 ^ 8 by omega⟩
  unfold headBytes at b0
  simp only [hA.1, hV.1, data_eq ho x1 x2, Option.getD_some] at b0
  have b1 := b0.right' (q := 16 + 40 * j + 4) (by simp [le_length])
  have b2 := b1.right' (q := 16 + 40 * j + 12) (by simp [le_length])
  have b3 := b2.right' (q := 16 + 40 * j + 20) (by simp [le_length])
  have b4 := b3.right' (q := 16 + 40 * j + 22) (by simp [le_length])
  have b5 := b4.right' (q := 16 + 40 * j + 24) (by simp [le_length])
  have b6 := b5.right' (q := 16 + 40 * j + 28) (by simp [le_length])
  have b7 := b6.right' (q := 16 + 40 * j + 32) (by simp [le_length])
  have b8 := b7.right' (q := 16 + 40 * j + 36) (by simp [le_length])
  -- contents and relocations
  have key : h.ptr < 2 ^ 32 ∧ h.relptr < 2 ^ 32 ∧ h.nreloc < 2 ^ 32 ∧
      slice r.file h.ptr (if s.flags / 4 % 2 = 1 then 0 else s.length) = some (if s.flags / 4 % 2 = 1 then [] else s.chunks.flatMap Elf.Chunk.write) ∧
      relsAt r.file h.relptr h.nreloc = some (if s.flags / 4 % 2 = 1 then [] else s.relocs.map o.wantRel) := by
    by_cases hb : s.flags / 4 % 2 = 1
    · have hb' : s.bss = true := by unfold Sect.bss; simp [hb]
      obtain ⟨n1, n2⟩ := g2.none (.inl hb')
      rw [if_pos hb, if_pos hb, if_pos hb, n1, n2, g2.bss hb']
      exact ⟨by decide, by decide, by decide, by unfold slice; simp, rfl⟩
    · have hb' : s.bss = false := by unfold Sect.bss; simp only [decide_eq_false_iff_not]; exact hb
      rw [if_neg hb, if_neg hb, if_neg hb, g2.count hb']
      have hw : s.written.length = s.length := hk.length (by omega)
      by_cases h0 : s.length = 0
      · obtain ⟨n1, n2⟩ := g2.none (.inr h0)
        have hr0 : s.relocs = [] := by
          by_contra hne
          exact hk.relocs hne h0
        have hw0 : s.chunks.flatMap Elf.Chunk.write = [] := by rw [← List.length_eq_zero_iff, ← h0]; exact hw
        rw [n1, n2, hr0, h0, hw0]
        exact ⟨by decide, by decide, by decide, by unfold slice; simp, rfl⟩
      · obtain ⟨q, q1, q2, q3⟩ := g2.data hb' h0
        have q4 := hd.sub q2
        have q5 := q4.le_length
        rw [← q1] at q4 q5
        refine ⟨by omega, ?_⟩
        rw [q4.slice hw.symm]
        by_cases hr0 : s.relocs = []
        · rw [g2.norels hr0, hr0]
          exact ⟨by decide, by decide, rfl, rfl⟩
        · obtain ⟨q', y1, y2⟩ := g2.rels hb' h0 hr0
          have y3 := hd.sub y2
          have y4 := y3.le_length
          rw [← y1] at y3 y4
          rw [flat_length _ 16 (relocBytes_length o)] at y4
          exact ⟨by omega, by omega, rfl, relsRead s.relocs h.relptr y3 (by omega) ho hk.reloc⟩
  obtain ⟨k1, k2, k3, k4, k5⟩ := key
  unfold sectionAt
  rw [p.hdr ho hf]
  simp only [Option.bind_eq_bind, Option.bind_some, guard, hjn, if_true, pure, b0.left.field (show o.index s.sym < 256 ^ 4 by omega), b1.left.field hA.2,
    b2.left.field hV.2, b3.left.field hk.align, b4.left.field hk.flags, b5.left.field k1,
    b6.left.field (show h.size < 256 ^ 4 by rw [g2.size]; exact hk.size), b7.left.field k2, b8.field k3, hsym]
  rw [g2.size, k4, k5, Option.bind_some, Option.bind_some, hname]
  rfl

end Verif.Xdf
