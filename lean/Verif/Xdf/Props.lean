import Verif.Xdf.Read
/-
C89: XDF files.  What a reader finds and what a linker does is in `Verif.Xdf.Spec`.

Hypotheses of the theorems: `ObjOk` (with `SectOk` and `SymOk`), which says what the front ends make of a program and excludes the cases in which
the code is wrong; for each of these there is a witness below.
-/
set_option linter.unusedSimpArgs false
namespace Verif.Xdf
open Verif.Elf (Byte Name Num slice field string le At le_length)

/-- C89.  A file is made, without an error. -/
theorem made {o : Obj} (ho : ObjOk o) : ∃ f, output o = some ⟨f, 0⟩ := by
  obtain ⟨⟨hs, rest⟩, e⟩ := outSects_some ho o.sects ho.sects (o.strStart + (strsBytes o o.table).length)
  have hn : (o.sects.all fun s => (o.data s.sym).isSome) = true := by
    rw [List.all_eq_true]
    intro s hs
    obtain ⟨x, x1, x2, _⟩ := (ho.sects s hs).sym
    rw [data_eq ho x1 x2]
    rfl
  have hc : o.commons = 0 := by
    unfold Obj.commons
    rw [List.length_eq_zero_iff, List.filter_eq_nil_iff]
    intro s hs
    obtain ⟨hm, ht⟩ := List.mem_filter.mp hs
    rw [(ho.syms s hm ht).common]
    decide
  have hb : (o.table.filter Sym.bad).length = 0 := by
    rw [List.length_eq_zero_iff, List.filter_eq_nil_iff]
    intro s hs
    obtain ⟨hm, ht⟩ := List.mem_filter.mp hs
    unfold Sym.bad
    rcases hk : s.kind with ⟨k, off⟩ | v | _
    · simp
    · obtain ⟨i, rfl, _⟩ := (ho.syms s hm ht).equ v hk
      simp
    · simp
  unfold output
  simp only [e, hn, hc, hb, if_true]
  exact ⟨_, rfl⟩

/-- C89.  A reader of the file finds exactly the sections of the object, in their order, each with its name, addresses, alignment, flags, size, contents
    and relocations.

    Partial: a section for uninitialized data comes back without the data put into it, see `bss_data_lost`; and see `SectOk`. -/
theorem sections_read_partial {o : Obj} {r : Result} (ho : ObjOk o) (h : output o = some r) (hf : r.file.length < 2 ^ 32) :
    (∀ j s, o.sects[j]? = some s → sectionAt r.file j = some (o.wantSection s)) ∧ ∀ j, o.sects.length ≤ j → sectionAt r.file j = none := by
  obtain ⟨p⟩ := output_parts h
  refine ⟨fun j s hj => p.sectionRead ho hf hj, fun j hj => ?_⟩
  unfold sectionAt
  rw [p.hdr ho hf]
  simp only [Option.bind_eq_bind, Option.bind_some, guard, if_neg (Nat.not_lt.mpr hj), failure, Alternative.failure, Option.bind_none]

/-- C89.  A reader finds exactly the symbols of the object, in their order, and each under the index that relocations use for it.

    Partial: see `SymOk`. -/
theorem symbols_read_partial {o : Obj} {r : Result} (ho : ObjOk o) (h : output o = some r) (hf : r.file.length < 2 ^ 32) :
    (∀ j s, o.listed[j]? = some s → symbolAt r.file j = some (s.wantSymbol o)) ∧ (∀ j, o.listed.length ≤ j → symbolAt r.file j = none) ∧
      ∀ n s, o.syms[n]? = some s → s.tabled = true → symbolAt r.file (o.index n) = some (s.wantSymbol o) := by
  obtain ⟨p⟩ := output_parts h
  refine ⟨fun j s hj => p.symbolRead ho hf hj, fun j hj => ?_, fun n s hn ht => p.symbolRead ho hf (index_get o.syms hn ht)⟩
  have hc : ¬ j < o.count := by rw [count_eq ho]; omega
  unfold symbolAt
  rw [p.hdr ho hf]
  simp only [Option.bind_eq_bind, Option.bind_some, guard, if_neg hc, failure, Alternative.failure, Option.bind_none]

/-- What a linker makes of a symbol. -/
theorem value_want {o : Obj} {x : Sym} (hk : SymOk o x) (hn : o.sects.length < 2 ^ 32 - 4) (hext : x.kind = .other → x.ext = true) (k : Linker) :
    k.value (x.wantSymbol o) = o.address k x ∧ k.segment (x.wantSymbol o) = o.segment k x := by
  unfold Linker.value Linker.segment Obj.address Obj.segment Sym.wantSymbol
  rcases hkind : x.kind with ⟨i, off⟩ | v | _
  · obtain ⟨h1, _⟩ := hk.label i off hkind
    simp only
    rw [if_neg (by omega), if_neg (by omega), if_neg (by omega)]
    exact ⟨rfl, rfl⟩
  · obtain ⟨i, rfl, h1, h2⟩ := hk.equ v hkind
    simp only
    rw [if_neg (show ¬ ((2 : Nat) ^ 32 - 2 = 2 ^ 32 - 1) by omega), if_neg (show ¬ ((2 : Nat) ^ 32 - 2 = 2 ^ 32 - 1) by omega), if_pos trivial]
    exact ⟨by omega, rfl⟩
  · have he := hext hkind
    simp only [he, if_true, Bool.or_true]
    exact ⟨trivial, trivial⟩

/-- C89.  For every value that leaves a relocation in a section of the file, a reader finds that relocation at the place of the value, for a field of its
    size, and with it a linker puts in what the program asks for, wherever the sections and the other symbols are.  `stored` is what is left in
    the field.

    Partial: values that are relative to the current position must have no segment, WRT or shift, see `relative_wrt_lost`. -/
theorem references_linked_partial {o : Obj} {r : Result} (ho : ObjOk o) (h : output o = some r) (hf : r.file.length < 2 ^ 32)
    (j : Nat) (s : Sect) (hj : o.sects[j]? = some s) (hb : s.flags / 4 % 2 = 0) (i : Nat) (rl : Reloc) (hi : s.relocs[i]? = some rl)
    (v : Val) (bc offset : Nat) (stored : Int) (hv : outputValue v bc offset = .ok stored (some rl)) (n : Nat) (hn : v.rel = some n)
    (x : Sym) (hx : o.syms[n]? = some x) (hxe : x.kind = .other → x.ext = true) (w : Option Sym)
    (hw : v.segOf = false → ∀ m, v.wrt = some m → ∃ y, w = some y ∧ o.syms[m]? = some y ∧ (y.kind = .other → y.ext = true))
    (hnw : v.wrt = none → w = none)
    (hc : v.curposRel = true → v.segOf = false ∧ v.wrt = none ∧ v.rshift = 0) :
    ∃ sec q y, sectionAt r.file j = some sec ∧ sec.rels[i]? = some q ∧ q.addr = bc + offset ∧ q.size = v.size / 8 ∧ symbolAt r.file q.sym = some y ∧
      ∀ k : Linker, k.result q y (symbolAt r.file q.base) stored j = some (o.asked k v x w j bc) := by
  obtain ⟨p⟩ := output_parts h
  have hk := ho.sects s (List.mem_of_getElem? hj)
  obtain ⟨_, _, _, _, hlen⟩ := p.places ho
  have hst : o.strStart = 16 + 40 * o.sects.length + 16 * o.count := rfl
  have hn4 : o.sects.length < 2 ^ 32 - 4 := by omega
  obtain ⟨_, _, _, _, hsym, hbase, _⟩ := hk.reloc rl (List.mem_of_getElem? hi)
  have hsec := p.sectionRead ho hf hj
  have hrels : (o.wantSection s).rels[i]? = some (o.wantRel rl) := by
    unfold Obj.wantSection
    simp only
    rw [if_neg (by omega), List.getElem?_map, hi]
    rfl
  have read : ∀ m, o.Has m → ∀ y, o.syms[m]? = some y → (y.kind = .other → y.ext = true) →
      symbolAt r.file (o.index m) = some (y.wantSymbol o) ∧ ∀ k : Linker, k.value (y.wantSymbol o) = o.address k y ∧ k.segment (y.wantSymbol o) = o.segment k y := by
    intro m ⟨y', y1, y2⟩ y hy hye
    rw [hy] at y1
    injection y1 with y1
    rw [← y1] at y2
    exact ⟨p.symbolRead ho hf (index_get o.syms hy y2), value_want (ho.syms y (List.mem_of_getElem? hy) y2) hn4 hye⟩
  unfold outputValue at hv
  split at hv
  · cases hv
  · have hrl : rl = ⟨bc + offset, n, if v.segOf then none else v.wrt,
        if v.segOf then 8 else if v.wrt.isSome then 2 else if v.curposRel then 4 else 1, v.size / 8, v.rshift⟩ ∧
        stored = v.plus - if !v.segOf && v.wrt.isNone && v.curposRel then (bc : Int) else 0 := by
      simp only [hn, Option.map_some, Option.isSome_some, Bool.true_and] at hv
      rcases ha : v.abs with _ | a
      · simp only [ha] at hv
        injection hv with h1 h2
        injection h2 with h2
        exact ⟨h2.symm, by rw [← h1]; simp only [Val.plus, ha]; omega⟩
      · rcases a with a | _
        · simp only [ha] at hv
          injection hv with h1 h2
          injection h2 with h2
          exact ⟨h2.symm, by rw [← h1]; simp only [Val.plus, ha]; omega⟩
        · simp only [ha] at hv
          cases hv
    obtain ⟨rfl, hstored⟩ := hrl
    obtain ⟨hy, hvals⟩ := read n hsym x hx hxe
    refine ⟨_, _, _, hsec, hrels, rfl, rfl, hy, fun k => ?_⟩
    obtain ⟨e1, e2⟩ := hvals k
    unfold Linker.result Obj.asked
    simp only [Obj.wantRel]
    generalize v.plus = A at *
    rcases hseg : v.segOf with _ | _
    · simp only [hseg, Bool.false_eq_true, if_false, Bool.not_false, Bool.true_and] at hstored hbase ⊢
      rcases hwrt : v.wrt with _ | m
      · have hw0 := hnw hwrt
        simp only [hwrt, Option.isSome_none, Option.isNone_none, Bool.false_eq_true, if_false, Bool.true_and] at hstored ⊢
        rcases hcp : v.curposRel with _ | _
        · simp only [hcp, Bool.false_eq_true, if_false] at hstored ⊢
          rw [e1, hstored, hw0]
          show some (o.address k x / 2 ^ v.rshift + (A - 0)) = some ((o.address k x - 0) / 2 ^ v.rshift + A - 0)
          simp only [Int.sub_zero]
        · obtain ⟨_, _, h0⟩ := hc hcp
          simp only [hcp, if_true, h0, Int.pow_zero, Int.ediv_one] at hstored ⊢
          rw [e1, hstored, hw0]
          have hb0 : o.base k none = 0 := rfl
          simp only [Option.some.injEq, hb0, hcp, if_true, h0, Int.pow_zero, Int.ediv_one]
          omega
      · obtain ⟨y, y1, y2, y3⟩ := hw hseg m hwrt
        have hcp : v.curposRel = false := by
          rcases hcp : v.curposRel with _ | _
          · rfl
          · rw [(hc hcp).2.1] at hwrt; cases hwrt
        obtain ⟨g1, g2⟩ := read m (hbase m hwrt) y y2 y3
        simp only [hwrt, Option.isSome_some, Option.isNone_some, if_true, Bool.false_and, Bool.false_eq_true, if_false, hcp] at hstored ⊢
        rw [g1, y1, e1, hstored]
        simp only [Option.map_some, (g2 k).1, Int.sub_zero, Obj.base, hcp, Bool.false_eq_true, if_false]
    · have hcp : v.curposRel = false := by
        rcases hcp : v.curposRel with _ | _
        · rfl
        · rw [(hc hcp).1] at hseg; cases hseg
      simp only [hseg, if_true, Bool.not_true, Bool.false_and, Bool.false_eq_true, if_false, hcp] at hstored ⊢
      rw [e2, hstored]
      simp only [Int.sub_zero]

/-! ### A case -/

/-- A program with code that calls an external function and refers to its data, an EQU, and space. -/
def nText : Name := [0x2e#8, 0x74#8]
def nBss : Name := [0x2e#8, 0x62#8]
def nPuts : Name := [0x70#8, 0x75#8]
def nMsg : Name := [0x6d#8]
def nFive : Name := [0x66#8]
def callPuts : Val := ⟨some (.int (-5)), some 2, none, false, false, true, 0, 32⟩
def ddMsg : Val := ⟨some (.int 2), some 3, none, false, false, false, 0, 32⟩
def wrtMsg : Val := ⟨none, some 3, some 1, false, false, false, 4, 16⟩

def sample : Obj where
  pre := [0x5f#8]
  suf := []
  syms := [⟨nText, false, false, false, true, .label 0 0⟩, ⟨nBss, false, false, false, true, .label 1 0⟩, ⟨nPuts, true, false, false, true, .other⟩,
    ⟨nMsg, false, false, true, true, .label 0 12⟩, ⟨nFive, false, false, false, true, .equ (.int 5)⟩, ⟨[0x24#8], false, false, false, false, .label 0 4⟩]
  sects := [⟨nText, 0, some 0x1000, none, 0x20, 16, 14, [.bytes [0x90#8, 0x90#8, 0xe8#8, 0xf9#8, 0xff#8, 0xff#8, 0xff#8, 2#8, 0#8, 0#8, 0#8], .gap 1, .bytes [0#8, 0#8]],
      [⟨3, 2, none, 4, 4, 0⟩, ⟨7, 3, none, 1, 4, 0⟩, ⟨12, 3, some 1, 2, 2, 4⟩]⟩,
    ⟨nBss, 1, none, none, 0x24, 4, 64, [.gap 64], []⟩]

theorem sample_values : outputValue callPuts 2 1 = .ok (-7) (some ⟨3, 2, none, 4, 4, 0⟩) ∧ outputValue ddMsg 7 0 = .ok 2 (some ⟨7, 3, none, 1, 4, 0⟩) ∧
    outputValue wrtMsg 12 0 = .ok 0 (some ⟨12, 3, some 1, 2, 2, 4⟩) := by decide +kernel

theorem sample_ok : ObjOk sample := by
  constructor
  · intro s hs
    simp only [sample, List.mem_cons, List.not_mem_nil, or_false] at hs
    rcases hs with rfl | rfl
    · refine ⟨⟨_, rfl, rfl, rfl, rfl, rfl⟩, by decide, by decide, by decide, by decide, by decide, by decide, by decide, ?_⟩
      intro r hr
      simp only [List.mem_cons, List.not_mem_nil, or_false] at hr
      rcases hr with rfl | rfl | rfl
      · exact ⟨by decide, by decide, by decide, by decide, ⟨_, rfl, rfl⟩, (fun b h => by cases h), by decide⟩
      · exact ⟨by decide, by decide, by decide, by decide, ⟨_, rfl, rfl⟩, (fun b h => by cases h), by decide⟩
      · exact ⟨by decide, by decide, by decide, by decide, ⟨_, rfl, rfl⟩, (fun b h => by cases h; exact ⟨_, rfl, rfl⟩), by decide⟩
    · exact ⟨⟨_, rfl, rfl, rfl, rfl, rfl⟩, by decide, by decide, by decide, by decide, by decide, by decide, by decide, by intro r hr; cases hr⟩
  · intro s hs ht
    simp only [sample, List.mem_cons, List.not_mem_nil, or_false] at hs
    rcases hs with rfl | rfl | rfl | rfl | rfl | rfl
    · exact ⟨by decide, rfl, (fun k off h => by cases h; decide), (fun v h => by cases h)⟩
    · exact ⟨by decide, rfl, (fun k off h => by cases h; decide), (fun v h => by cases h)⟩
    · exact ⟨by decide, rfl, (fun k off h => by cases h), (fun v h => by cases h)⟩
    · exact ⟨by decide, rfl, (fun k off h => by cases h; decide), (fun v h => by cases h)⟩
    · exact ⟨by decide, rfl, (fun k off h => by cases h), (fun v h => by cases h; exact ⟨5, rfl, by decide, by decide⟩)⟩
    · cases ht

/-- The theorems apply to it. -/
example : ∃ r, output sample = some r ∧ r.file.length < 2 ^ 32 ∧ symbolAt r.file 3 = some ⟨0, 12, [0x5f#8, 0x6d#8], 2⟩ ∧
    (sectionAt r.file 0).map (fun s => (s.name, s.vaddr, s.rels.length)) = some (nText, 0x1000, 3) := by
  refine ⟨_, rfl, ?_, ?_, ?_⟩ <;> decide +kernel

example (k : Linker) : sample.asked k callPuts ⟨nPuts, true, false, false, true, .other⟩ none 0 2 = k.ext [0x5f#8, 0x70#8, 0x75#8] - 5 - (k.addr 0 + 2) := by
  show (k.ext [0x5f#8, 0x70#8, 0x75#8] - 0) / 2 ^ 0 + -5 - (k.addr 0 + (2 : Nat)) = _
  omega

/-! ### What is not so -/

def equObj (v : Int) : Obj := ⟨[], [], [⟨nFive, false, false, true, true, .equ (.int v)⟩], []⟩

/-- A negative EQU is 0 in the file, and one of more than 32 bits is cut, without an error. -/
theorem equ_lost : (output (equObj (-1))).map (fun r => (symbolAt r.file 0, r.errors)) = some (some ⟨2 ^ 32 - 2, 0, nFive, 6⟩, 0) ∧
    (output (equObj (2 ^ 32 + 7))).map (fun r => (symbolAt r.file 0, r.errors)) = some (some ⟨2 ^ 32 - 2, 7, nFive, 6⟩, 0) := by
  decide +kernel

def sectObj (flags align length : Nat) (chunks : List Elf.Chunk) (relocs : List Reloc) (syms : List Sym) : Obj :=
  ⟨[], [], ⟨nText, false, false, false, true, .label 0 0⟩ :: syms, [⟨nText, 0, none, none, flags, align, length, chunks, relocs⟩]⟩

/-- Data in a section with `bss` is lost, without an error. -/
theorem bss_data_lost : (output (sectObj 4 0 2 [.bytes [1#8, 2#8]] [] [])).map (fun r => ((sectionAt r.file 0).map fun s => (s.size, s.bytes), r.errors)) =
    some (some (2, []), 0) := by
  decide +kernel

/-- An alignment of 65536, by the directive `align`, is 0 in the file. -/
theorem align_lost : (output (sectObj 0 65536 1 [.bytes [1#8]] [] [])).map (fun r => ((sectionAt r.file 0).map fun s => s.align, r.errors)) = some (some 0, 0) := by
  decide +kernel

/-- `dd $` ends the program: `$` is not in the symbol table. -/
theorem here_ends : outputValue ⟨none, some 1, none, false, false, false, 0, 32⟩ 0 0 = .ok 0 (some ⟨0, 1, none, 1, 4, 0⟩) ∧
    output (sectObj 0 0 4 [.bytes [0#8, 0#8, 0#8, 0#8]] [⟨0, 1, none, 1, 4, 0⟩] [⟨[0x24#8], false, false, false, false, .label 0 0⟩]) = none := by
  decide +kernel

/-- A value relative to the current position with WRT is not relative any more: the relocation and what is stored are those of a value that is not. -/
theorem relative_wrt_lost (a : Option Num) (n m size bc offset : Nat) :
    outputValue ⟨a, some n, some m, false, false, true, 0, size⟩ bc offset = outputValue ⟨a, some n, some m, false, false, false, 0, size⟩ bc offset := by
  unfold outputValue
  simp

/-- Common variables are an error; the table then has more entries than the header says. -/
theorem common_error : (output ⟨[], [], [⟨nFive, false, true, false, true, .other⟩], []⟩).map (fun r => (r.errors, (fileHdr r.file).map (·.nsyms))) =
    some (1, some 0) := by
  decide +kernel

end Verif.Xdf
