import Verif.Rdf.Read
/-
C90: RDF files.  What a reader finds and what a linker does is in `Verif.Rdf.Spec`.

Hypotheses of the theorems: `ObjOk` (with `SectOk` and `SymOk`), which says what the front ends make of a program and excludes the cases in which
the code is wrong; for these there are witnesses below.
-/
set_option linter.unusedSimpArgs false
namespace Verif.Rdf
open Verif.Elf (Byte Name number Num le le_length number_le)

variable {o : Obj} {r : Result}

theorem isExp2_pow (e : Nat) : isExp2 (2 ^ e) = true := by
  unfold isExp2
  rw [Nat.and_two_pow_sub_one_eq_mod, Nat.mod_self]
  rfl

/-- C90.  A file is made, without an error or a warning. -/
theorem made (ho : ObjOk o) : ∃ f, output o = some ⟨f, 0, 0⟩ := by
  have h1 : o.sects.all Sect.sized = true := by
    rw [List.all_eq_true]
    intro s hs
    unfold Sect.sized
    by_cases hk : s.kept = true
    · have : s.written.length = s.length := (ho.sects s hs).length hk
      simp [this]
    · unfold Sect.kept at hk
      simp only [decide_eq_true_eq] at hk
      by_cases h0 : s.type = 0
      · simp [h0]
      · have : s.length = 0 := by tauto
        simp [this]
  have h2 : (o.syms.filter Sym.bad).length = 0 := by
    rw [List.length_eq_zero_iff, List.filter_eq_nil_iff]
    intro s hs hb
    unfold Sym.bad at hb
    simp only [Bool.and_eq_true, Bool.not_eq_true'] at hb
    obtain ⟨⟨⟨hp, _⟩, hc⟩, hb⟩ := hb
    have ht : s.tabled = true := by
      unfold Sym.passed at hp
      simp only [Bool.or_eq_false_iff, Bool.not_eq_false'] at hp
      exact hp.1.1
    obtain ⟨v, hv, _, _, _, e, he⟩ := (ho.syms s hs ht).common hc
    have : isExp2 s.calign = true := by
      rcases he with he | he
      · rw [he]; exact isExp2_pow e
      · rw [he]; rfl
    rw [hv, this] at hb
    cases hb
  have h3 : (o.syms.filter o.warned).length = 0 := by
    rw [List.length_eq_zero_iff, List.filter_eq_nil_iff]
    intro s hs hb
    unfold Obj.warned at hb
    simp only [Bool.and_eq_true, Bool.or_eq_true, decide_eq_true_eq] at hb
    obtain ⟨⟨ht, hl⟩, hb⟩ := hb
    have hk := ho.syms s hs ht
    have hv : s.glob = true ∨ s.common = true ∨ s.ext = true := by
      unfold Sym.isLocal at hl
      simp only [Bool.not_not, Bool.or_eq_true] at hl
      tauto
    rcases hb with hb | hb
    · rcases hv with h | h
      · obtain ⟨_, _, k, off, e⟩ := hk.glob h
        rw [hb] at e
        cases e
      · have := hk.other (by tauto)
        rw [hb] at this
        cases this
    · have hg : o.globalName s = o.outer s := by
        unfold Obj.globalName
        rw [if_pos (by rcases hv with h | h | h <;> simp [h])]
        rfl
      have := hk.length
      rw [hg] at hb
      omega
  have h4 : ((o.modules ++ o.libraries).filter fun n => 127 < n.length).length = 0 := by
    rw [List.length_eq_zero_iff, List.filter_eq_nil_iff]
    intro n hn hb
    have := (ho.names n hn).1
    simp only [decide_eq_true_eq] at hb
    omega
  unfold output
  rw [if_pos h1, h2, h3, h4]
  exact ⟨_, rfl⟩

/-- C90.  A reader finds in the file exactly what the program says: the names of modules and libraries; a record for each symbol that is exported,
    imported or common, with its name, flags, place or number, in order; the relocations; the size of uninitialized space; and the sections with
    their types, numbers and contents, in order.

    Partial: see `ObjOk`. -/
theorem file_read_partial (ho : ObjOk o) (h : output o = some r) (hf : r.file.length < 2 ^ 32) : read r.file = some (o.wantRecords, o.wantSegments) := by
  unfold output at h
  split at h
  · injection h with h
    subst h
    simp only [List.length_append, le_length, List.length_replicate] at hf
    have hhead : Pre o.header o.wantRecords := by
      unfold Obj.header Obj.wantRecords
      refine Pre.append (Pre.flatMap _ _ _ fun n hn => ?_) (Pre.append (Pre.flatMap _ _ _ fun n hn => ?_) (Pre.append ?_ (Pre.append ?_ ?_)))
      · obtain ⟨h1, h2⟩ := ho.names n (by simp [hn])
        exact name_record (by omega) h1 h2 (fun l => rfl)
      · obtain ⟨h1, h2⟩ := ho.names n (by simp [hn])
        exact name_record (by omega) h1 h2 (fun l => rfl)
      · exact syms_records ho o.syms 0 _ rfl (by simp [Obj.index])
      · exact relocs_records ho.sects 0 (by have := ho.number; omega)
      · have hb := ho.bss
        unfold Obj.bssSize
        generalize ((o.sects.filter fun s => s.type = 0).map (·.length)).sum = b at hb ⊢
        by_cases h0 : b = 0
        · rw [if_neg (by omega), if_pos h0]
          exact Pre.nil
        · rw [if_pos (by omega), if_neg h0]
          refine Pre.one (by omega) (by omega) (by simp [le_length]) ?_
          unfold record
          rw [if_neg (by omega), if_neg (by omega), if_neg (by omega), if_neg (by omega), if_pos rfl, num_le' 4 _ (by omega)]
          rfl
    have hseg := segments_read ho.sects (fun s hs hk => by have := segsBytes_length ho.sects 0 s hs hk; omega) 0 (by have := ho.number; omega)
      (segsBytes 0 o.sects ++ List.replicate 10 0).length (by rw [List.length_append, List.length_replicate]; omega)
    unfold read
    rw [bytes_append magic _ (n := 6) rfl]
    simp only [Option.bind_eq_bind, Option.bind_some]
    rw [show guard (magic = [0x52, 0x44, 0x4f, 0x46, 0x46, 0x32]) = some () from rfl]
    simp only [Option.bind_some]
    rw [num_le 4 _ _ (by simp only [List.length_append, List.length_replicate]; omega)]
    simp only [Option.bind_some]
    rw [guard, if_pos (by simp only [List.length_append, le_length, List.length_replicate]; omega)]
    simp only [pure, Option.bind_some]
    rw [num_le 4 _ _ (by omega)]
    simp only [Option.bind_some]
    rw [bytes_append o.header _ (by omega)]
    simp only [Option.bind_some]
    rw [hhead.whole, hseg]
    rfl
  · cases h

/-- C90.  What is left out or cut is reported: there is no warning exactly if no symbol that is exported, imported or common is an EQU or has a name of more
    than 63 bytes, and no name of a module or a library has more than 127. -/
theorem left_out_reported (h : output o = some r) :
    r.warnings = 0 ↔ (∀ s ∈ o.syms, s.tabled = true → s.glob = true ∨ s.common = true ∨ s.ext = true → s.kind ≠ .equ ∧ (o.outer s).length ≤ 63) ∧
      ∀ n ∈ o.modules ++ o.libraries, n.length ≤ 127 := by
  unfold output at h
  split at h
  · injection h with h
    subst h
    simp only [Nat.add_eq_zero_iff, List.length_eq_zero_iff, List.filter_eq_nil_iff, decide_eq_true_eq, Nat.not_lt]
    refine and_congr ?_ Iff.rfl
    refine forall₂_congr fun s hs => ?_
    unfold Obj.warned Sym.isLocal Obj.globalName Obj.outer
    by_cases hv : s.glob = true ∨ s.common = true ∨ s.ext = true
    · have e : (s.glob || s.common || s.ext) = true := by rcases hv with h | h | h <;> simp [h]
      rw [e]
      cases s.tabled <;> by_cases hk : s.kind = .equ <;> simp [hk, hv]
    · simp only [not_or, Bool.not_eq_true] at hv
      simp [hv.1, hv.2.1, hv.2.2]
  · cases h

/-- C90.  Sizes of common variables that are not numbers, and alignments that are not powers of 2, are errors. -/
theorem common_reported (h : output o = some r) {s : Sym} (hs : s ∈ o.syms) (ht : s.tabled = true) (hg : s.glob = false) (hc : s.common = true)
    (hk : s.kind = .other) (hb : s.csize = .other ∨ isExp2 s.calign = false) : r.errors ≠ 0 := by
  unfold output at h
  split at h
  · injection h with h
    subst h
    have : s ∈ o.syms.filter Sym.bad := by
      refine List.mem_filter.mpr ⟨hs, ?_⟩
      unfold Sym.bad Sym.passed Sym.isLocal
      rcases hb with hb | hb <;> simp [ht, hg, hc, hk, hb]
    exact fun e => by
      rw [List.length_eq_zero_iff] at e
      rw [e] at this
      cases this
  · cases h

/-- C90.  For every value that leaves a relocation in a section of the file, a reader finds that relocation, for the place and the size of the value, and with it
    a linker puts in what the program asks for, wherever the sections and the other symbols are.  `stored` is what is left in the field.

    Partial: see the witnesses `shift_lost`, `relative_lost`, `segment_wrong` for what is excluded: values that are shifted; values relative to the
    current position for labels that are not at the start of their section, if the current position is not at the start of its; segments of
    labels that are not at the start. -/
theorem references_linked_partial (ho : ObjOk o) (h : output o = some r) (hf : r.file.length < 2 ^ 32) (j : Nat) (s : Sect)
    (hj : o.sects[j]? = some s) (hs : s.type ≠ 0 ∧ s.length ≠ 0) (rl : Reloc) (hrl : rl ∈ s.relocs) (v : Val) (bc offset : Nat) (stored : Int)
    (hv : outputValue o v bc offset = .ok stored (some rl)) (n : Nat) (hn : v.rel = some n) (x : Sym) (hx : o.syms[n]? = some x)
    (hlab : ∀ k off, x.kind = .label k off → k < o.sects.length) (hsh : v.rshift = 0)
    (hcur : v.curposRel = true → v.segOf = false ∧ (bc = 0 ∨ ∀ k off, x.kind = .label k off → off = 0))
    (hseg : v.segOf = true → ∀ k off, x.kind = .label k off → off = 0) :
    ∃ rs ss ref, read r.file = some (rs, ss) ∧ .reloc v.segOf j v.curposRel (bc + offset) (v.size / 8) ref ∈ rs ∧
      ∀ k : Linker, k.result rs (.reloc v.segOf j v.curposRel (bc + offset) (v.size / 8) ref) stored = some (o.asked k v x j bc) := by
  have hread := file_read_partial ho h hf
  have hkept : s.kept = true := by unfold Sect.kept; exact decide_eq_true hs
  have hmem : wantReloc j rl ∈ o.wantRecords := by
    unfold Obj.wantRecords
    simp only [List.mem_append]
    right; right; right; left
    unfold Obj.wantRelocs
    refine List.mem_flatMap.mpr ⟨(s, j), List.mem_zipIdx_iff_getElem?.mpr hj, ?_⟩
    rw [if_pos hkept]
    exact List.mem_map.mpr ⟨rl, hrl, rfl⟩
  have store_eq : ∀ (minus plus : Nat) (q : Reloc), store v minus plus (some q) = .ok stored (some rl) →
      rl = q ∧ stored = (if minus > 0 then -(minus : Int) else plus) + v.plus := by
    intro minus plus q hst
    unfold store at hst
    unfold Val.plus
    rcases ha : v.abs with _ | a | _
    · simp only [ha] at hst
      injection hst with h1 h2
      injection h2 with h2
      exact ⟨h2.symm, by rw [← h1]; simp⟩
    · simp only [ha] at hst
      injection hst with h1 h2
      injection h2 with h2
      exact ⟨h2.symm, by rw [← h1]⟩
    · simp only [ha] at hst
      cases hst
  have hcs : v.curposRel = true → v.segOf = false := fun h => (hcur h).1
  have want_eq : ∀ ref, wantReloc j ⟨bc + offset, if v.segOf then .seg else if v.curposRel then .rel else .norm, v.size / 8, ref⟩ =
      .reloc v.segOf j v.curposRel (bc + offset) (v.size / 8) ref := by
    intro ref
    unfold wantReloc
    cases h1 : v.segOf <;> cases h2 : v.curposRel <;> first | rfl | (have := hcs h2; rw [h1] at this; cases this)
  unfold outputValue at hv
  split at hv
  · cases hv
  · split at hv
    · cases hv
    · simp only [hn, hx] at hv
      refine ⟨_, _, rl.refseg, hread, ?_, fun k => ?_⟩
      · rcases hk : x.kind with ⟨i, off⟩ | _ | _
        · simp only [hk] at hv
          obtain ⟨rfl, _⟩ := store_eq _ _ _ hv
          rw [want_eq] at hmem
          exact hmem
        all_goals
          simp only [hk] at hv
          split at hv
          · cases hv
          · obtain ⟨rfl, _⟩ := store_eq _ _ _ hv
            rw [want_eq] at hmem
            exact hmem
      · unfold Linker.result Obj.asked
        simp only [findSome_records, hsh, Int.pow_zero, Int.ediv_one]
        have ext : ∀ seg, x.kind = .other ∨ x.kind = .equ → o.data n = some seg →
            store v (if (!v.segOf && v.curposRel) = true then bc else 0) 0
              (some ⟨bc + offset, if v.segOf then .seg else if v.curposRel then .rel else .norm, v.size / 8, seg⟩) = .ok stored (some rl) →
            (match o.wantSyms.findSome? (Record.named rl.refseg) with
              | some name => if v.segOf then k.selExt name else k.ext name
              | none => if v.segOf then k.selector rl.refseg else k.addr rl.refseg) + stored - (if v.curposRel then k.addr j else 0) =
            (if v.segOf then o.selector k x else o.address k x) + v.plus - if v.curposRel then k.addr j + bc else 0 := by
          intro seg hk hd hstore
          obtain ⟨rfl, hst⟩ := store_eq _ _ _ hstore
          have h0 : o.index 0 = o.sects.length := by simp [Obj.index]
          unfold Obj.data at hd
          rw [← h0] at hd
          obtain ⟨y, y1, y2, y3⟩ := numbers_get o.syms 0 n seg rfl hd
          rw [Nat.zero_add] at y1 y3
          rw [hx] at y1
          injection y1 with y1
          subst y1
          have hfind : o.wantSyms.findSome? (Record.named seg) = some (o.outer x) := by
            rw [y3]
            exact findSome_some ho o.syms 0 n rfl (Nat.zero_le _) hx y2
          have ea : o.address k x = k.ext (o.outer x) := by
            unfold Obj.address
            rcases hk with hk | hk <;> rw [hk]
          have es : o.selector k x = k.selExt (o.outer x) := by
            unfold Obj.selector
            rcases hk with hk | hk <;> rw [hk]
          simp only [hfind, ea, es, hst]
          cases h1 : v.segOf <;> cases h2 : v.curposRel
          · simp
          · simp only [Bool.not_false, Bool.true_and, if_true, Bool.false_eq_true, if_false]
            split <;> omega
          · simp
          · have := hcs h2; rw [h1] at this; cases this
        rcases hk : x.kind with ⟨i, off⟩ | _ | _
        · simp only [hk] at hv
          obtain ⟨rfl, hst⟩ := store_eq _ _ _ hv
          have h0 : o.index 0 = o.sects.length := by simp [Obj.index]
          have hfind : o.wantSyms.findSome? (Record.named i) = none :=
            findSome_none ho o.syms 0 i rfl (by rw [h0]; exact hlab i off hk)
          have ea : o.address k x = k.addr i + off := by unfold Obj.address; rw [hk]
          have es : o.selector k x = k.selector i := by unfold Obj.selector; rw [hk]
          simp only [hfind, ea, es, hst]
          cases h1 : v.segOf <;> cases h2 : v.curposRel
          · simp; omega
          · have := (hcur h2).2
            simp only [Bool.not_false, Bool.true_and, if_true, Bool.false_eq_true, if_false]
            rcases this with h3 | h3
            · subst h3
              simp; omega
            · have := h3 i off hk
              subst this
              split <;> simp <;> omega
          · have := hseg h1 i off hk
            subst this
            simp
          · have := hcs h2; rw [h1] at this; cases this
        · simp only [hk] at hv
          split at hv
          · cases hv
          · rename_i seg hd
            exact congrArg some (ext seg (Or.inr hk) hd hv)
        · simp only [hk] at hv
          split at hv
          · cases hv
          · rename_i seg hd
            exact congrArg some (ext seg (Or.inl hk) hd hv)

/-! ### A case -/

def nMain : Name := [0x6d, 0x61]
def nPuts : Name := [0x70, 0x75]
def nBuf : Name := [0x62]

/-- `call puts`, `dd msg + 1`, and `dd buf` for a common variable. -/
def callPuts : Val := ⟨some (.int (-4)), some 1, none, false, false, true, 0, 32⟩
def ddMsg : Val := ⟨some (.int 1), some 2, none, false, false, false, 0, 32⟩
def ddBuf : Val := ⟨none, some 3, none, false, false, false, 0, 32⟩

def sample : Obj where
  pre := [0x5f]
  suf := []
  modules := [nMain]
  libraries := [nBuf]
  syms := [⟨nMain, false, false, true, true, .label 0 0, [.proc, .exp], .int 0, 0⟩, ⟨nPuts, true, false, false, true, .other, [.far, .near, .imp], .int 0, 0⟩,
    ⟨[0x78], false, false, false, true, .label 1 2, [], .int 0, 0⟩, ⟨nBuf, false, true, false, true, .other, [], .int 64, 8⟩,
    ⟨[0x24], false, false, false, false, .label 0 4, [], .int 0, 0⟩]
  sects := [⟨1, 0, 9, [.bytes [0x90, 0xe8, 0xfb, 0xff, 0xff, 0xff, 0, 0, 0]], [⟨2, .rel, 4, 3⟩]⟩, ⟨2, 0, 8, [.bytes [3, 0, 0, 0, 0, 0, 0, 0]], [⟨0, .norm, 4, 1⟩, ⟨4, .norm, 4, 4⟩]⟩,
    ⟨0, 0, 16, [.gap 16], []⟩]

theorem sample_values : outputValue sample callPuts 1 1 = .ok (-5) (some ⟨2, .rel, 4, 3⟩) ∧ outputValue sample ddMsg 0 0 = .ok 3 (some ⟨0, .norm, 4, 1⟩) ∧
    outputValue sample ddBuf 4 0 = .ok 0 (some ⟨4, .norm, 4, 4⟩) := by decide +kernel

theorem sample_ok : ObjOk sample := by
  constructor
  · decide
  · intro s hs
    simp only [sample, List.mem_cons, List.not_mem_nil, or_false] at hs
    rcases hs with rfl | rfl | rfl <;> exact ⟨by decide, by decide, by decide, by decide⟩
  · decide
  · decide
  · intro s hs ht
    simp only [sample, List.mem_cons, List.not_mem_nil, or_false] at hs
    rcases hs with rfl | rfl | rfl | rfl | rfl
    · exact ⟨by decide, by decide, (fun _ => ⟨rfl, rfl, _, _, rfl⟩), (by decide), (by decide), (fun k off h => by cases h; decide), (fun h => by cases h)⟩
    · exact ⟨by decide, by decide, (fun h => by cases h), (by decide), (by decide), (fun k off h => by cases h), (fun h => by cases h)⟩
    · exact ⟨by decide, by decide, (fun h => by cases h), (by decide), (by decide), (fun k off h => by cases h; decide), (fun h => by cases h)⟩
    · exact ⟨by decide, by decide, (fun h => by cases h), (by decide), (by decide), (fun k off h => by cases h),
        (fun _ => ⟨64, rfl, by decide, by decide, by decide, 3, Or.inl rfl⟩)⟩
    · cases ht
  · decide

/-- What is read from it. -/
example : sample.wantRecords = [.module_ nMain, .library nBuf, .exported 6 0 0 [0x5f, 0x6d, 0x61], .imported false 8 3 [0x5f, 0x70, 0x75], .common 4 64 8 [0x5f, 0x62],
      .reloc false 0 true 2 4 3, .reloc false 1 false 0 4 1, .reloc false 1 false 4 4 4, .bss 16] ∧
    sample.wantSegments = [⟨1, 0, 0, [0x90, 0xe8, 0xfb, 0xff, 0xff, 0xff, 0, 0, 0]⟩, ⟨2, 1, 0, [3, 0, 0, 0, 0, 0, 0, 0]⟩] := by decide +kernel

example : ∃ r, output sample = some r ∧ r.file.length < 2 ^ 32 ∧ read r.file = some (sample.wantRecords, sample.wantSegments) := by
  refine ⟨_, rfl, ?_, ?_⟩ <;> decide +kernel

/-! ### What is not so -/

/-- A label in the second section, at offset 8. -/
def twoSects : Obj := ⟨[], [], [], [], [⟨nMain, false, false, false, true, .label 1 8, [], .int 0, 0⟩], [⟨1, 0, 16, [.gap 16], []⟩, ⟨2, 0, 16, [.gap 16], []⟩]⟩
def itsLabel : Sym := ⟨nMain, false, false, false, true, .label 1 8, [], .int 0, 0⟩

/-- A value that is relative to the current position, for a label in another section, loses the offset of the label: `stored` should be 8 - 5, and with a
    linker that puts all at 0 comes out 8 short. -/
theorem relative_lost : outputValue twoSects ⟨none, some 0, none, false, false, true, 0, 32⟩ 5 0 = .ok (-5) (some ⟨5, .rel, 4, 1⟩) ∧
    (⟨fun _ => 0, fun _ => 0, fun _ => 0, fun _ => 0⟩ : Linker).result [] (.reloc false 0 true 5 4 1) (-5) = some (-5) ∧
    twoSects.asked ⟨fun _ => 0, fun _ => 0, fun _ => 0, fun _ => 0⟩ ⟨none, some 0, none, false, false, true, 0, 32⟩ itsLabel 0 5 = 3 := by decide +kernel

/-- The segment of a label has the offset of the label added. -/
theorem segment_wrong : outputValue twoSects ⟨none, some 0, none, true, false, false, 0, 16⟩ 5 0 = .ok 8 (some ⟨5, .seg, 2, 1⟩) ∧
    (⟨fun _ => 0, fun _ => 0, fun _ => 7, fun _ => 0⟩ : Linker).result [] (.reloc true 0 false 5 2 1) 8 = some 15 ∧
    twoSects.asked ⟨fun _ => 0, fun _ => 0, fun _ => 7, fun _ => 0⟩ ⟨none, some 0, none, true, false, false, 0, 16⟩ itsLabel 0 5 = 7 := by decide +kernel

/-- Shifts are dropped: the relocation and what is stored are those of the value without it. -/
theorem shift_lost (o : Obj) (v : Val) (bc offset : Nat) : outputValue o v bc offset = outputValue o { v with rshift := 0 } bc offset := by
  unfold outputValue store
  rfl

/-- A symbol declared as external and as global gets no number, and a reference to it ends the program. -/
theorem global_extern_ends : outputValue ⟨[], [], [], [], [⟨nPuts, true, false, true, true, .other, [], .int 0, 0⟩], [⟨1, 0, 4, [.gap 4], []⟩]⟩
      ⟨none, some 0, none, false, false, false, 0, 32⟩ 0 0 = .crash := by decide +kernel

/-- With a section of code and one for uninitialized data, labels of the latter are in segment 1; there is no such segment in the file, and the record for
    uninitialized data, which is for segment 2 in this format, does not say it. -/
theorem bss_unplaced : (output ⟨[], [], [], [], [⟨nBuf, false, false, true, true, .label 1 4, [], .int 0, 0⟩], [⟨1, 0, 1, [.bytes [0x90]], []⟩, ⟨0, 0, 8, [.gap 8], []⟩]⟩).map
      (fun r => (read r.file, r.errors, r.warnings)) =
    some (some ([.exported 0 1 4 nBuf, .bss 8], [⟨1, 0, 0, [0x90]⟩]), 0, 0) := by decide +kernel

/-- With more than 64 sections, an address in section 64 is taken for a relative one in section 0. -/
theorem many_sections : record 1 ((relocBytes 64 ⟨0, .norm, 4, 1⟩).drop 2) = some (wantReloc 0 ⟨0, .rel, 4, 1⟩) := by decide +kernel

end Verif.Rdf
