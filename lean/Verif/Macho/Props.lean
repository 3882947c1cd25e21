import Verif.Macho.Linked
/-
C83, C84, C85: the Mach-O object files.

The model is `Verif.Macho.Model`; how a file is read is in `Verif.Macho.Spec`, what a linker does in `Verif.Macho.Link`.
-/
namespace Verif.Macho
open Verif.Elf (Byte Name Num Chunk)

variable {o : Obj} {r : Result}

theorem Parts.noMoreSections (p : Parts o r) (hk : ObjOk o) (hf : r.file.length < 2 ^ 32) {i : Nat} (hi : o.sects.length ≤ i) :
    sectionAt r.file i = none := by
  obtain ⟨fo, hseg, _⟩ := p.segment hk hf
  cases hs : sectionAt r.file i with
  | none => rfl
  | some x =>
    unfold sectionAt at hs
    obtain ⟨h, h1, hs⟩ := Option.bind_eq_some_iff.mp hs
    obtain ⟨g, h2, hs⟩ := Option.bind_eq_some_iff.mp hs
    obtain ⟨u, h3, _⟩ := Option.bind_eq_some_iff.mp hs
    rw [p.hdr hk] at h1
    cases h1
    rw [hseg] at h2
    cases h2
    rw [guard, if_neg (by simpa using hi)] at h3
    cases h3

theorem Parts.noMoreSymbols (p : Parts o r) (hk : ObjOk o) (hf : r.file.length < 2 ^ 32) {i : Nat} (hi : (o.syms.filter o.listed).length ≤ i) :
    symbolAt r.file i = none := by
  cases hs : symbolAt r.file i with
  | none => rfl
  | some x =>
    unfold symbolAt at hs
    obtain ⟨h, h1, hs⟩ := Option.bind_eq_some_iff.mp hs
    obtain ⟨t, h2, hs⟩ := Option.bind_eq_some_iff.mp hs
    obtain ⟨u, _, hs⟩ := Option.bind_eq_some_iff.mp hs
    obtain ⟨u, h3, _⟩ := Option.bind_eq_some_iff.mp hs
    rw [p.hdr hk] at h1
    cases h1
    unfold symtab at h2
    obtain ⟨q, hq, h2⟩ := Option.bind_eq_some_iff.mp h2
    rw [p.symCommand hk] at hq
    split at hq
    · cases hq
      obtain ⟨a, _, h2⟩ := Option.bind_eq_some_iff.mp h2
      obtain ⟨b, hb, h2⟩ := Option.bind_eq_some_iff.mp h2
      obtain ⟨c, _, h2⟩ := Option.bind_eq_some_iff.mp h2
      obtain ⟨d, _, h2⟩ := Option.bind_eq_some_iff.mp h2
      cases h2
      have y := p.symAt
      unfold symtabCmd at y
      have hlen := p.length
      have hcnt : o.nsyms ≤ o.nsize * o.nsyms := Nat.le_mul_of_pos_left _ (by unfold Obj.nsize; split <;> omega)
      have y3 := (y.left.left.right' (q := o.symPos + 12) (by simp [Elf.le_length])).field (by omega)
      rw [y3] at hb
      cases hb
      rw [guard, if_neg (by show ¬ i < o.nsyms; rw [nsyms_eq]; omega)] at h3
      cases h3
    · cases hq

theorem wantSymbol_addr (hk : ObjOk o) {addr : Nat → Nat} (ha : ∀ j, j < o.sects.length → addr j = o.addr j) {s : Sym} (hs : s ∈ o.syms) :
    o.wantSymbol addr s = o.wantSymbol o.addr s := by
  unfold Obj.wantSymbol
  have : Obj.wantValue addr s = Obj.wantValue o.addr s := by
    unfold Obj.wantValue
    cases hkd : s.kind with
    | label k off =>
      have := ha k (hk.labels s hs k off hkd)
      simp [this]
    | equ v => cases v <;> rfl
    | other => rfl
  rw [this]

/-! ### C83 -/

/-- A Mach-O file has in it all sections of the program, in order and no others: a reader finds the name, the segment, the size, the
    alignment, the flags, the contents and the relocations; the segment covers them; the addresses are aligned and the sections do not overlap.

    Left out by `ObjOk`, and shown below: sections of an odd type other than zero-filled (`literals_lost`), and the alignment of
    zero-filled sections (`alignment_lost`). -/
theorem sections_read_partial (hk : ObjOk o) (h : output o = some r) (hf : r.file.length < 2 ^ 32) :
    (∃ a g, hdr r.file = some a ∧ a.wide = o.wide ∧ a.cpu = (if o.wide then 0x1000007 else 7) ∧ a.type = 1 ∧
      commandsEnd r.file a.size a.ncmds = some (a.size + a.cmdsize) ∧ segment r.file a = some g ∧
      (∀ j sec, sectionAt r.file j = some sec → sec.addr + sec.size ≤ g.vmsize) ∧
      (o.syms.any o.listed = true → Elf.slice r.file g.fileoff g.filesize = some (o.sects.flatMap Sect.content))) ∧
      (∃ addr, Laid o addr ∧ ∀ j s, o.sects[j]? = some s → sectionAt r.file j = some (o.wantSection (addr j) s)) ∧
      ∀ i, o.sects.length ≤ i → sectionAt r.file i = none := by
  obtain ⟨p⟩ := output_parts h
  obtain ⟨fo, hseg, hfo⟩ := p.segment hk hf
  refine ⟨⟨_, _, p.hdr hk, rfl, rfl, rfl, p.commandsEnd hk, hseg, ?_, ?_⟩, ⟨o.addr, laid o, fun j s hj => p.sectionRead hk hf hj⟩,
    fun i hi => p.noMoreSections hk hf hi⟩
  · intro j sec hsec
    by_cases hj : j < o.sects.length
    · have h1 := List.getElem?_eq_getElem hj
      rw [p.sectionRead hk hf h1] at hsec
      cases hsec
      have hh : (calcSects o.sects 0 o.headSize).1[j]? = some (o.heads[j]'(by rw [heads_length]; exact hj)) := List.getElem?_eq_getElem _
      have := calcSects_end _ _ _ _ h1 hh
      show o.addr j + o.sects[j].length ≤ _
      rw [addr_eq hh]
      exact this
    · rw [p.noMoreSections hk hf (by omega)] at hsec
      cases hsec
  · intro hl
    have hn : o.nsyms > 0 := by
      rw [nsyms_eq]
      obtain ⟨x, hx1, hx2⟩ := List.any_eq_true.mp hl
      exact List.length_pos_of_mem (List.mem_filter.mpr ⟨hx1, hx2⟩)
    rw [hfo hn]
    show Elf.slice r.file o.headSize o.data.length = _
    rw [p.data_at.slice rfl]
    congr 1
    unfold Obj.data
    have key : ∀ ss : List Sect, (∀ s ∈ ss, SectOk o s) → ss.flatMap Sect.data = ss.flatMap Sect.content := by
      intro ss hs
      induction ss with
      | nil => rfl
      | cons s ss ih =>
        rw [List.flatMap_cons, List.flatMap_cons, ih (fun s h => hs s (List.mem_cons_of_mem _ h))]
        congr 1
        have := written_iff (hs s List.mem_cons_self)
        unfold Sect.data Sect.content
        by_cases hw : s.written = true
        · rw [if_pos hw, if_neg (this.mp hw)]
        · rw [if_neg hw]
          by_cases hz : s.flags % 256 = 1
          · rw [if_pos hz]
          · exact absurd (this.mpr hz) hw
    exact key _ hk.sects

/-! ### C83, the versions -/

/-- How a reader finds for which system the file is (`LC_BUILD_VERSION`): the platform, the least version of the system, the version of the kit, and the
    number of tools that follow. -/
def versions (f : List Byte) : Option (Nat × Nat × Nat × Nat) := do
  let h ← hdr f
  let p ← command f h 0x32
  let platform ← Elf.field f (p + 8) 4
  let minos ← Elf.field f (p + 12) 4
  let sdk ← Elf.field f (p + 16) 4
  let tools ← Elf.field f (p + 20) 4
  some (platform, minos, sdk, tools)

/-- The file is for macOS, and has in it the versions of the program. -/
theorem versions_read (hk : ObjOk o) (h : output o = some r) (hm : o.minos < 2 ^ 32) (hs : o.sdk < 2 ^ 32) :
    versions r.file = some (1, o.minos, o.sdk, 0) := by
  obtain ⟨p⟩ := output_parts h
  have hc : command r.file o.hdr 0x32 = some o.hdr.size := by
    unfold command
    rw [p.commands hk]
    rfl
  have a := p.frontAt
  unfold Obj.front at a
  have v := a.left.left.left.right' (q := o.hdr.size)
    (by rw [fileHeader_length]; unfold Hdr.size Obj.hdr; cases o.wide <;> rfl)
  unfold versionCmd at v
  have v2 := (v.left.left.left.right' (q := o.hdr.size + 8) (by simp [Elf.le_length])).field (by decide)
  have v3 := (v.left.left.right' (q := o.hdr.size + 12) (by simp [Elf.le_length])).field (by omega)
  have v4 := (v.left.right' (q := o.hdr.size + 16) (by simp [Elf.le_length])).field (by omega)
  have v5 := (v.right' (q := o.hdr.size + 20) (by simp [Elf.le_length])).field (by decide)
  unfold versions
  rw [p.hdr hk]
  simp only [Option.bind_eq_bind, Option.bind_some, hc, v2, v3, v4, v5]

/-! ### C84 -/

/-- The symbol table has in it the symbols of the program that are to be there, in order and no others, each with its name, its kind and
    its value; for a label the value is the address of its section, as it is in the file, and the offset.

    Left out by `ObjOk`, and shown below: EQUs that are less than 0 (`negative_lost`). -/
theorem symbols_read_partial (hk : ObjOk o) (h : output o = some r) (hf : r.file.length < 2 ^ 32) {addr : Nat → Nat}
    (ha : ∀ j sec, sectionAt r.file j = some sec → addr j = sec.addr) :
    (∀ n s, o.syms[n]? = some s → o.listed s = true → symbolAt r.file (o.index n) = some (o.wantSymbol addr s)) ∧
      ∀ i, (o.syms.filter o.listed).length ≤ i → symbolAt r.file i = none := by
  obtain ⟨p⟩ := output_parts h
  refine ⟨fun n s hn hl => ?_, fun i hi => p.noMoreSymbols hk hf hi⟩
  rw [wantSymbol_addr hk ?_ (List.mem_of_getElem? hn)]
  · exact p.symbolRead hk hf hn hl
  · intro j hj
    exact ha j _ (p.sectionRead hk hf (List.getElem?_eq_getElem hj))

/-- An object for which a symbol has no value to be written is not accepted without an error. -/
theorem unknown_reported (h : output o = some r) {s : Sym} (hs : s ∈ o.syms) (hl : o.listed s = true) (hg : s.glob = true)
    (hx : s.ext = false) (hc : s.common = false) (hk : s.kind = .equ .other) : r.errors ≠ 0 := by
  obtain ⟨p⟩ := output_parts h
  rw [p.errors]
  unfold Obj.errors
  have hm : (valueOf o s).2.2.2 ∈ (o.syms.filter o.puts).map fun s => (valueOf o s).2.2.2 :=
    List.mem_map.mpr ⟨s, List.mem_filter.mpr ⟨hs, hl⟩, rfl⟩
  have h1 : (valueOf o s).2.2.2 = 1 := by
    unfold valueOf
    rw [hk, hx, hc, hg]
    rfl
  rw [h1] at hm
  have := List.single_le_sum (l := (o.syms.filter o.puts).map fun s => (valueOf o s).2.2.2) (fun _ _ => Nat.zero_le _) 1 hm
  omega

/-- Nor is one with a common variable whose size is not a number. -/
theorem unknown_size_reported (h : output o = some r) {s : Sym} (hs : s ∈ o.syms) (hl : o.listed s = true) (hx : s.ext = false)
    (hc : s.common = true) (hk : s.csize = some .other) : r.errors ≠ 0 := by
  obtain ⟨p⟩ := output_parts h
  rw [p.errors]
  unfold Obj.errors
  have hm : (valueOf o s).2.2.2 ∈ (o.syms.filter o.puts).map fun s => (valueOf o s).2.2.2 :=
    List.mem_map.mpr ⟨s, List.mem_filter.mpr ⟨hs, hl⟩, rfl⟩
  have h1 : 1 ≤ (valueOf o s).2.2.2 := by
    unfold valueOf
    simp only [hk, hx, hc, if_true, Bool.false_eq_true, if_false]
    exact Nat.le_add_left _ _
  have := List.single_le_sum (l := (o.syms.filter o.puts).map fun s => (valueOf o s).2.2.2) (fun _ _ => Nat.zero_le _) _ hm
  omega

/-! ### C85 -/

/-- What a symbol that is referred to is: a label of the program, or declared as external or common. -/
def Sym.Referred (x : Sym) : Prop :=
  ((∃ i off, x.kind = .label i off) ∧ x.ext = false ∧ x.common = false) ∨ (x.kind = .other ∧ (x.ext = true ∨ x.common = true))

/-- A reference that is accepted comes out of the linker as asked for, wherever the linker puts the sections and the symbols: the relocation is at
    the field and has its size, and what the linker computes from it and the number in the field is the address asked for.

    Missing: references relative to the current position in 32-bit files, in sections that are not the first (`relative_off`); fields
    of 8, 16 and 64 bits that are relative in 64-bit files; fields of 64 bits in 32-bit files. -/
theorem references_linked_partial (hk : ObjOk o) (h : output o = some r) (hf : r.file.length < 2 ^ 32) {j : Nat} {s : Sect}
    (hj : o.sects[j]? = some s) (hz : s.flags % 256 ≠ 1) {v : Val} {l : Loc} {n : Nat} {x : Sym} {stored : Int} {rl : Reloc}
    (hn : v.rel = some n) (hx : o.syms[n]? = some x) (href : x.Referred) (hv : outputValue o v l = .ok stored (some rl))
    (hm : rl ∈ s.relocs) (hb : if o.wide then v.curposRel = true → l.bytes = 4 else v.size ≤ 32 ∧ v.curposRel = false) :
    ∃ sec q, sectionAt r.file j = some sec ∧ q ∈ sec.rels ∧ q.addr = l.bc + l.offset ∧ 8 * 2 ^ q.length = v.size ∧
      ∀ k : Linker, ∃ res, k.resolve r.file j q stored = some res ∧ SameField v.size res (o.asked k v x j l) := by
  obtain ⟨p⟩ := output_parts h
  have hs := hk.sects s (List.mem_of_getElem? hj)
  have hrl : s.rels = s.relocs := by unfold Sect.rels; rw [if_neg hz]
  have hro : s.rels = s.outRelocs := by
    rw [hrl]; unfold Sect.outRelocs; rw [if_pos ((written_iff hs).mpr hz)]
  rw [← hrl] at hm
  obtain ⟨len, t, h1, h2, h3, h4⟩ := outputValue_eq hn hx hv
  refine ⟨_, o.wantRel rl, p.sectionRead hk hf hj, List.mem_map.mpr ⟨rl, hm, rfl⟩, by rw [h4]; rfl, ?_, ?_⟩
  · rw [h4]; exact (sizeCode_size h1).1
  · intro k
    cases hw : o.wide
    · rw [hw] at hb
      obtain ⟨b1, b2⟩ := hb
      obtain ⟨res, g1, g2⟩ := p.linked32 hk hf hw hj hn hx
        (by rcases href with h | h; exacts [.inl h.1, .inr h]) hv hm hro b1
        (by
          intro i off hi
          rcases href with h | h
          · exact h.2
          · rw [h.1] at hi; cases hi) k
      rw [b2] at g2
      exact ⟨res, g1, by simpa using g2⟩
    · rw [hw, if_pos rfl] at hb
      exact p.linked64 hk hf hw hj hn hx
        (by
          intro u hu
          rcases href with ⟨⟨i, off, hi⟩, _⟩ | h
          · rw [hi] at hu; cases hu
          · rw [h.1] at hu; cases hu)
        hv hm hro hb k

/-- In 32-bit files, what the linker makes of a relative reference is more than what is asked for by the address of the section in the
    file: it is right only in a section at address 0.  As the section `__LLVM,__asm` of one byte is always the first, it is not for the
    code (`relative_wrong`). -/
theorem relative_off (hk : ObjOk o) (h : output o = some r) (hf : r.file.length < 2 ^ 32) (hw : o.wide = false) {j : Nat} {s : Sect}
    (hj : o.sects[j]? = some s) (hz : s.flags % 256 ≠ 1) {v : Val} {l : Loc} {n : Nat} {x : Sym} {stored : Int} {rl : Reloc}
    (hn : v.rel = some n) (hx : o.syms[n]? = some x) (href : x.Referred) (hv : outputValue o v l = .ok stored (some rl))
    (hm : rl ∈ s.relocs) (hb : v.size ≤ 32) (hc : v.curposRel = true) :
    ∃ sec q, sectionAt r.file j = some sec ∧ q ∈ sec.rels ∧ q.addr = l.bc + l.offset ∧ 8 * 2 ^ q.length = v.size ∧
      ∀ k : Linker, ∃ res, k.resolve r.file j q stored = some res ∧ SameField v.size res (o.asked k v x j l + sec.addr) := by
  obtain ⟨p⟩ := output_parts h
  have hs := hk.sects s (List.mem_of_getElem? hj)
  have hrl : s.rels = s.relocs := by unfold Sect.rels; rw [if_neg hz]
  have hro : s.rels = s.outRelocs := by
    rw [hrl]; unfold Sect.outRelocs; rw [if_pos ((written_iff hs).mpr hz)]
  rw [← hrl] at hm
  obtain ⟨len, t, h1, h2, h3, h4⟩ := outputValue_eq hn hx hv
  refine ⟨_, o.wantRel rl, p.sectionRead hk hf hj, List.mem_map.mpr ⟨rl, hm, rfl⟩, by rw [h4]; rfl, ?_, ?_⟩
  · rw [h4]; exact (sizeCode_size h1).1
  · intro k
    obtain ⟨res, g1, g2⟩ := p.linked32 hk hf hw hj hn hx
      (by rcases href with h | h; exacts [.inl h.1, .inr h]) hv hm hro hb
      (by
          intro i off hi
          rcases href with h | h
          · exact h.2
          · rw [h.1] at hi; cases hi) k
    rw [hc] at g2
    exact ⟨res, g1, g2⟩

/-- What cannot be said in the file is reported: differences with a section, WRT other than `..gotpcrel`, SEG, shifts, sizes that there are no
    relocations for, and addresses of 32 bits in 64-bit files. -/
theorem unsupported_reported {v : Val} {l : Loc} {n : Nat} (hn : v.rel = some n)
    (h : v.sectionRel = true ∨ v.segOf = true ∨ v.rshift > 0 ∨ v.wrt = some false ∨ (v.wrt = some true ∧ v.curposRel = false) ∨
      (v.wrt = some true ∧ o.wide = false) ∨ v.size ∉ [8, 16, 32, 64] ∨ (o.wide = true ∧ v.curposRel = false ∧ v.size = 32)) :
    outputValue o v l = .error := by
  unfold outputValue
  by_cases h0 : v.sectionRel = true
  · rw [if_pos h0]
  rw [if_neg h0, hn]
  simp only
  cases hx : o.syms[n]? with
  | none => rfl
  | some x =>
    cases hs : sizeCode v.size with
    | none => rfl
    | some len =>
      simp only
      by_cases h1 : v.rshift > 0 ∨ v.segOf = true
      · rw [if_pos h1]
      rw [if_neg h1]
      have ht : relocType o v l = none := by
        have hsz : v.size ∈ [8, 16, 32, 64] := by
          unfold sizeCode at hs
          split at hs <;> first | (rename_i e; rw [e]; decide) | cases hs
        push Not at h1
        unfold relocType
        rcases h with h | h | h | h | h | h | h | h
        · exact absurd h h0
        · exact absurd h h1.2
        · omega
        · rw [if_neg (by rw [h]; simp), if_pos (by rw [h]; rfl)]
        · rw [if_neg (by rw [h.2]; simp), if_pos (by rw [h.1]; rfl)]
        · rw [if_neg (by rw [h.2]; simp), if_pos (by rw [h.1]; rfl)]
        · exact absurd hsz h
        · obtain ⟨a, b, c⟩ := h
          rw [if_neg (by rw [b]; simp)]
          split
          · rfl
          · rw [if_neg (by rw [b]; simp), if_pos ⟨a, c⟩]
      rw [ht]

/-! ### Examples -/

def ascii (l : List Nat) : Name := l.map (BitVec.ofNat 8)
/-- `__LLVM`, `__asm`, `__TEXT`, `__text`, `__DATA`, `__bss`, `_main`, `_puts`, `buf` -/
def sLlvm : Name := ascii [0x5f, 0x5f, 0x4c, 0x4c, 0x56, 0x4d]
def sAsm : Name := ascii [0x5f, 0x5f, 0x61, 0x73, 0x6d]
def sTEXT : Name := ascii [0x5f, 0x5f, 0x54, 0x45, 0x58, 0x54]
def sText : Name := ascii [0x5f, 0x5f, 0x74, 0x65, 0x78, 0x74]
def sDATA : Name := ascii [0x5f, 0x5f, 0x44, 0x41, 0x54, 0x41]
def sBss : Name := ascii [0x5f, 0x5f, 0x62, 0x73, 0x73]
def nMain : Name := ascii [0x5f, 0x6d, 0x61, 0x69, 0x6e]
def nPuts : Name := ascii [0x5f, 0x70, 0x75, 0x74, 0x73]
def nBuf : Name := ascii [0x62, 0x75, 0x66]
def nOne : Name := ascii [0x6f, 0x6e, 0x65]

/-- `global _main`, `extern _puts`, `buf` in `.bss`, `one equ 1`. -/
def syms : List Sym :=
  [⟨nMain, false, false, true, true, false, .label 1 0, false, none⟩, ⟨nPuts, true, false, false, true, false, .other, false, none⟩,
    ⟨nBuf, false, false, false, true, false, .label 2 4, false, none⟩, ⟨nOne, false, false, false, true, false, .equ (.int 1), false, none⟩]

/-- `call _puts`, `dq buf + 3`, `mov rax, [rel _puts wrt ..gotpcrel]` -/
def callPuts : Val := ⟨some 1, none, false, false, 0, true, true, 32, some (.int (-5))⟩
def dqBuf : Val := ⟨some 2, none, false, false, 0, false, false, 64, some (.int 3)⟩
def movPuts : Val := ⟨some 1, some true, false, false, 0, true, false, 32, some (.int (-7))⟩
def ddBuf : Val := ⟨some 2, none, false, false, 0, false, false, 32, some (.int 3)⟩

def marker : Sect := ⟨sLlvm, sAsm, 0, 0, 1, [.bytes (ascii [0])], []⟩
def bss : Sect := ⟨sDATA, sBss, 1, 0, 8, [.gap 8], []⟩

def sample64 : Obj :=
  ⟨true, 0xa0500, 0xa0500, [], [], false, syms,
    [marker,
      ⟨sTEXT, sText, 0x80000000, 16, 20, [.bytes (ascii [0xe8, 0, 0, 0, 0]), .bytes (ascii [3, 0, 0, 0, 0, 0, 0, 0]),
        .bytes (ascii [0x48, 0x8b, 5, 0, 0, 0, 0])], [⟨1, 1, true, 2, true, 2⟩, ⟨2, 5, false, 3, true, 0⟩, ⟨1, 16, true, 2, true, 3⟩]⟩, bss]⟩

def sample32 : Obj :=
  ⟨false, 0xa0400, 0xa0400, [], [], false, syms,
    [marker, ⟨sTEXT, sText, 0x80000000, 16, 9, [.bytes (ascii [0xe8, 0xfb, 0xff, 0xff, 0xff]), .bytes (ascii [32, 0, 0, 0])],
      [⟨1, 1, true, 2, true, 0⟩, ⟨2, 5, false, 2, false, 0⟩]⟩, bss]⟩

/-- The relocations and the bytes are those that the model makes. -/
example : outputValue sample64 callPuts ⟨0, 1, 4, false⟩ = .ok 0 (some ⟨1, 1, true, 2, true, 2⟩) ∧
    outputValue sample64 dqBuf ⟨5, 0, 8, false⟩ = .ok 3 (some ⟨2, 5, false, 3, true, 0⟩) ∧
    outputValue sample64 movPuts ⟨13, 3, 4, true⟩ = .ok 0 (some ⟨1, 16, true, 2, true, 3⟩) ∧
    outputValue sample32 callPuts ⟨0, 1, 4, false⟩ = .ok (-5) (some ⟨1, 1, true, 2, true, 0⟩) ∧
    outputValue sample32 ddBuf ⟨5, 0, 4, false⟩ = .ok 32 (some ⟨2, 5, false, 2, false, 0⟩) := by decide

theorem sample_ok : ∀ o ∈ [sample64, sample32], ObjOk o := by
  intro o ho
  simp only [List.mem_cons, List.not_mem_nil, or_false] at ho
  rcases ho with rfl | rfl
  all_goals
    refine ⟨?_, by decide, ?_, ?_, by decide, by decide⟩
    · intro s hs
      simp only [sample64, sample32, List.mem_cons, List.not_mem_nil, or_false] at hs
      rcases hs with rfl | rfl | rfl
      · exact ⟨by decide, by decide, by decide, by decide, .inl rfl, by decide, by decide, by decide⟩
      · exact ⟨by decide, by decide, by decide, by decide, .inr ⟨4, by decide, rfl⟩, by decide, by decide, by decide⟩
      · exact ⟨by decide, by decide, by decide, by decide, .inl rfl, by decide, by decide, by decide⟩
    · intro s hs _
      simp only [sample64, sample32, syms, List.mem_cons, List.not_mem_nil, or_false] at hs
      rcases hs with rfl | rfl | rfl | rfl <;>
        exact ⟨by decide, (by intro v hv; first | (cases hv; done) | (cases hv; decide)), by decide, (by intro v _ _ _ hc; cases hc), by decide⟩
    · intro s hs k off hk
      simp only [sample64, sample32, syms, List.mem_cons, List.not_mem_nil, or_false] at hs
      rcases hs with rfl | rfl | rfl | rfl <;> first | (cases hk; done) | (cases hk; decide)

/-- A test on the outcome. -/
def check (o : Obj) (p : Result → Bool) : Bool := match output o with | some r => p r | none => false

theorem check_some {o : Obj} {p : Result → Bool} (h : check o p = true) : ∃ r, output o = some r ∧ p r = true := by
  unfold check at h
  split at h
  · rename_i r hr; exact ⟨r, hr, h⟩
  · cases h

theorem sample_out : ∀ o ∈ [sample64, sample32], ∃ r, output o = some r ∧ r.errors = 0 ∧ r.file.length < 2 ^ 32 := by
  intro o ho
  have h : check o (fun r => decide (r.errors = 0) && decide (r.file.length < 2 ^ 32)) = true := by
    simp only [List.mem_cons, List.not_mem_nil, or_false] at ho
    rcases ho with rfl | rfl <;> decide +kernel
  obtain ⟨r, h1, h2⟩ := check_some h
  simp only [Bool.and_eq_true, decide_eq_true_eq] at h2
  exact ⟨r, h1, h2.1, h2.2⟩

/-- C83 and C84 for one of them. -/
example : ∃ r, output sample64 = some r ∧
    sectionAt r.file 0 = some ⟨sAsm, sLlvm, 0, 1, 1, 0, false, false, ascii [0], []⟩ ∧
    sectionAt r.file 2 = some ⟨sBss, sDATA, 36, 8, 1, 1, false, false, [], []⟩ ∧
    (sectionAt r.file 1).map (fun s => (s.addr, s.align, s.rels)) =
      some (16, 16, [⟨1, 1, true, 2, true, 2⟩, ⟨5, 2, false, 3, true, 0⟩, ⟨16, 1, true, 2, true, 3⟩]) ∧
    symbolAt r.file 0 = some ⟨nMain, 15, 2, 0, 16⟩ ∧ symbolAt r.file 1 = some ⟨nPuts, 1, 0, 0, 0⟩ ∧
    symbolAt r.file 2 = some ⟨nBuf, 14, 3, 0, 40⟩ ∧ symbolAt r.file 3 = some ⟨nOne, 2, 0, 0, 1⟩ ∧ symbolAt r.file 4 = none := by
  have h : check sample64 (fun r => decide (sectionAt r.file 0 = some ⟨sAsm, sLlvm, 0, 1, 1, 0, false, false, ascii [0], []⟩ ∧
    sectionAt r.file 2 = some ⟨sBss, sDATA, 36, 8, 1, 1, false, false, [], []⟩ ∧
    (sectionAt r.file 1).map (fun s => (s.addr, s.align, s.rels)) =
      some (16, 16, [⟨1, 1, true, 2, true, 2⟩, ⟨5, 2, false, 3, true, 0⟩, ⟨16, 1, true, 2, true, 3⟩]) ∧
    symbolAt r.file 0 = some ⟨nMain, 15, 2, 0, 16⟩ ∧ symbolAt r.file 1 = some ⟨nPuts, 1, 0, 0, 0⟩ ∧
    symbolAt r.file 2 = some ⟨nBuf, 14, 3, 0, 40⟩ ∧ symbolAt r.file 3 = some ⟨nOne, 2, 0, 0, 1⟩ ∧ symbolAt r.file 4 = none)) = true := by
    decide +kernel
  obtain ⟨r, h1, h2⟩ := check_some h
  exact ⟨r, h1, of_decide_eq_true h2⟩

/-- The versions of it. -/
example : ∃ r, output sample64 = some r ∧ versions r.file = some (1, 0xa0500, 0xa0500, 0) := by
  have h : check sample64 (fun r => decide (versions r.file = some (1, 0xa0500, 0xa0500, 0))) = true := by decide +kernel
  obtain ⟨r, h1, h2⟩ := check_some h
  exact ⟨r, h1, of_decide_eq_true h2⟩

/-- A common variable whose size is not known: one error. -/
example : ∃ r, output { sample64 with syms := syms ++ [⟨nOne, false, true, false, true, false, .other, false, some .other⟩] } = some r ∧ r.errors = 1 := by
  have h : check { sample64 with syms := syms ++ [⟨nOne, false, true, false, true, false, .other, false, some .other⟩] } (fun r => decide (r.errors = 1)) = true := by
    decide +kernel
  obtain ⟨r, h1, h2⟩ := check_some h
  exact ⟨r, h1, of_decide_eq_true h2⟩

/-- C85: the call, and the entry of the table. -/
example : ∃ r, output sample64 = some r ∧ ∃ sec q, sectionAt r.file 1 = some sec ∧ q ∈ sec.rels ∧ q.addr = 1 ∧ 8 * 2 ^ q.length = 32 ∧
    ∀ k : Linker, ∃ res, k.resolve r.file 1 q 0 = some res ∧ SameField 32 res (k.ext nPuts + -5 - (k.addr 1 + (0 : Nat))) := by
  obtain ⟨r, h1, _, h3⟩ := sample_out sample64 (by simp)
  exact ⟨r, h1, references_linked_partial (sample_ok _ (by simp)) h1 h3 (j := 1) rfl (by decide) (v := callPuts) (l := ⟨0, 1, 4, false⟩) rfl rfl
    (.inr ⟨rfl, .inl rfl⟩) (rl := ⟨1, 1, true, 2, true, 2⟩) (by decide) (by decide) (by decide)⟩

example : ∃ r, output sample64 = some r ∧ ∃ sec q, sectionAt r.file 1 = some sec ∧ q ∈ sec.rels ∧ q.addr = 16 ∧ 8 * 2 ^ q.length = 32 ∧
    ∀ k : Linker, ∃ res, k.resolve r.file 1 q 0 = some res ∧ SameField 32 res (k.got nPuts + -7 - (k.addr 1 + (13 : Nat))) := by
  obtain ⟨r, h1, _, h3⟩ := sample_out sample64 (by simp)
  exact ⟨r, h1, references_linked_partial (sample_ok _ (by simp)) h1 h3 (j := 1) rfl (by decide) (v := movPuts) (l := ⟨13, 3, 4, true⟩) rfl rfl
    (.inr ⟨rfl, .inl rfl⟩) (rl := ⟨1, 16, true, 2, true, 3⟩) (by decide) (by decide) (by decide)⟩

/-- The address of `buf` in a 32-bit file. -/
example : ∃ r, output sample32 = some r ∧ ∃ sec q, sectionAt r.file 1 = some sec ∧ q ∈ sec.rels ∧ q.addr = 5 ∧ 8 * 2 ^ q.length = 32 ∧
    ∀ k : Linker, ∃ res, k.resolve r.file 1 q 32 = some res ∧ SameField 32 res (k.addr 2 + (4 : Nat) + 3 - 0) := by
  obtain ⟨r, h1, _, h3⟩ := sample_out sample32 (by simp)
  exact ⟨r, h1, references_linked_partial (sample_ok _ (by simp)) h1 h3 (j := 1) rfl (by decide) (v := ddBuf) (l := ⟨5, 0, 4, false⟩) rfl rfl
    (.inl ⟨⟨_, _, rfl⟩, rfl, rfl⟩) (rl := ⟨2, 5, false, 2, false, 0⟩) (by decide) (by decide) (by decide)⟩

/-! ### Failing cases -/

/-- A call to an external function in a 32-bit file ends up 16 bytes after it, wherever the linker puts things: `__text` is at 16. -/
theorem relative_wrong : ∃ r, output sample32 = some r ∧ ∃ sec q, sectionAt r.file 1 = some sec ∧ sec.addr = 16 ∧ q ∈ sec.rels ∧ q.addr = 1 ∧
    ∀ k : Linker, ∃ res, k.resolve r.file 1 q (-5) = some res ∧ ¬ SameField 32 res (sample32.asked k callPuts syms[1] 1 ⟨0, 1, 4, false⟩) := by
  obtain ⟨r, h1, _, h3⟩ := sample_out sample32 (by simp)
  obtain ⟨sec, q, a1, a2, a3, a4, a5⟩ := relative_off (sample_ok sample32 (by simp)) h1 h3 rfl (j := 1) rfl (by decide) (v := callPuts)
    (l := ⟨0, 1, 4, false⟩) rfl rfl (.inr ⟨rfl, .inl rfl⟩) (stored := -5) (rl := ⟨1, 1, true, 2, true, 0⟩) (by decide) (by decide) (by decide) rfl
  obtain ⟨p⟩ := output_parts h1
  have e : sec.addr = 16 := by
    have := p.sectionRead (sample_ok sample32 (by simp)) h3 (j := 1) rfl
    rw [this] at a1
    cases a1
    decide
  refine ⟨r, h1, sec, q, a1, e, a2, a3, fun k => ?_⟩
  obtain ⟨res, b1, b2⟩ := a5 k
  refine ⟨res, b1, ?_⟩
  intro hc
  rw [e] at b2
  unfold SameField at b2 hc
  have := Int.dvd_sub hc b2
  have e2 : res - sample32.asked k callPuts syms[1] 1 ⟨0, 1, 4, false⟩ - (res - (sample32.asked k callPuts syms[1] 1 ⟨0, 1, 4, false⟩ + (16 : Nat))) = 16 := by
    push_cast; ring
  have this : (2 ^ 32 : Int) ∣ res - sample32.asked k callPuts syms[1] 1 ⟨0, 1, 4, false⟩ -
      (res - (sample32.asked k callPuts syms[1] 1 ⟨0, 1, 4, false⟩ + (16 : Nat))) := this
  rw [e2] at this
  exact absurd this (by decide)

/-- `section .literal4` (type 3) with `dd 1.0`: the bytes are not in the file, and what a reader finds are those of the header. -/
def literals : Obj :=
  ⟨true, 0xa0500, 0xa0500, [], [], false, [⟨nMain, false, false, true, true, false, .label 1 0, false, none⟩],
    [marker, ⟨sTEXT, sBss, 3, 4, 4, [.bytes (ascii [0, 0, 0x80, 0x3f])], []⟩]⟩

theorem literals_lost : ∃ r, output literals = some r ∧ r.errors = 0 ∧
    (sectionAt r.file 1).map (·.bytes) = some (ascii [0xcf, 0xfa, 0xed, 0xfe]) := by
  have h : check literals (fun r => decide (r.errors = 0 ∧ (sectionAt r.file 1).map (·.bytes) = some (ascii [0xcf, 0xfa, 0xed, 0xfe]))) = true := by
    decide +kernel
  obtain ⟨r, h1, h2⟩ := check_some h
  exact ⟨r, h1, of_decide_eq_true h2⟩

/-- `section .bss align=16`: the file says that any address will do. -/
def aligned : Obj := { literals with sects := [marker, { bss with align := 16 }] }

theorem alignment_lost : ∃ r, output aligned = some r ∧ r.errors = 0 ∧ (sectionAt r.file 1).map (·.align) = some 1 := by
  have h : check aligned (fun r => decide (r.errors = 0 ∧ (sectionAt r.file 1).map (·.align) = some 1)) = true := by decide +kernel
  obtain ⟨r, h1, h2⟩ := check_some h
  exact ⟨r, h1, of_decide_eq_true h2⟩

/-- `global one`, `one equ -1`: the value in the file is 0. -/
def negative : Obj := { literals with syms := [⟨nOne, false, false, true, true, false, .equ (.int (-1)), false, none⟩] }

theorem negative_lost : ∃ r, output negative = some r ∧ r.errors = 0 ∧ symbolAt r.file 0 = some ⟨nOne, 3, 0, 0, 0⟩ := by
  have h : check negative (fun r => decide (r.errors = 0 ∧ symbolAt r.file 0 = some ⟨nOne, 3, 0, 0, 0⟩)) = true := by decide +kernel
  obtain ⟨r, h1, h2⟩ := check_some h
  exact ⟨r, h1, of_decide_eq_true h2⟩

/-- `dq $` in a 64-bit file: the relocation is to a symbol that is not in the table, and a null pointer is dereferenced. -/
def here : Obj :=
  ⟨true, 0xa0500, 0xa0500, [], [], false, [⟨ascii [0x24], false, false, false, false, false, .label 1 0, false, none⟩],
    [marker, ⟨sTEXT, sText, 0x80000000, 0, 8, [.bytes (ascii [0, 0, 0, 0, 0, 0, 0, 0])], [⟨0, 0, false, 3, true, 0⟩]⟩]⟩

theorem here_crashes : outputValue here ⟨some 0, none, false, false, 0, false, false, 64, none⟩ ⟨0, 0, 8, false⟩ =
    .ok 0 (some ⟨0, 0, false, 3, true, 0⟩) ∧ output here = none := by decide

/-- Without symbols the segment is said to be at a place 24 bytes before its contents. -/
def unnamed : Obj := { literals with syms := [], sects := [marker] }

theorem segment_misplaced : ∃ r, output unnamed = some r ∧ r.errors = 0 ∧
    ((hdr r.file).bind (segment r.file)).map (·.fileoff) = some 208 ∧ unnamed.headSize = 232 := by
  have h : check unnamed (fun r => decide (r.errors = 0 ∧ ((hdr r.file).bind (segment r.file)).map (·.fileoff) = some 208 ∧
      unnamed.headSize = 232)) = true := by decide +kernel
  obtain ⟨r, h1, h2⟩ := check_some h
  exact ⟨r, h1, of_decide_eq_true h2⟩

end Verif.Macho
