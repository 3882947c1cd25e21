import Verif.Coff.Linked
/-
C74, C75, C76: the COFF files (`coff`, `win32`, `win64`).  What a reader finds is in `Verif.Coff.Spec`, what a linker does in
`Verif.Coff.Link`.

Hypotheses of the theorems: `ObjOk` (with `SectOk` and `SymOk`) and `RefOk`, which say what the front ends make of a program
and exclude the cases in which the code is wrong; for each of these there is a witness below.  The numbers are those that
the fields of the format hold.
-/
namespace Verif.Coff
open Verif.Elf (Byte Name Num number slice field string le At le_length)

/-! ### C74: sections -/

/-- C74.  A reader of the file finds the machine and the number of sections in the header, and each section of the object under its number,
    with its name, flags, alignment, size, contents and relocations; the name may be longer than the eight bytes there are for it, and there
    may be more relocations than the two bytes for their number can say.  There are no others.

    Partial: a section for uninitialized data comes back without the data put into it, see `bss_data_lost`; and see `SectOk`. -/
theorem sections_read_partial {o : Obj} {r : Result} (ho : ObjOk o) (h : output o = some r) (hf : r.file.length < 2 ^ 32) :
    (∃ e, fileHdr r.file = some e ∧ e.machine = (if o.format.amd64 then 0x8664 else 0x14c) ∧ e.nsects = o.sects.length ∧
      e.nsyms = o.entries ∧ e.optional = 0) ∧
    (∀ j s, o.sects[j]? = some s → sectionAt o.format.win r.file j = some (o.wantSection s)) ∧
    ∀ j, o.sects.length ≤ j → sectionAt o.format.win r.file j = none := by
  obtain ⟨p⟩ := output_parts h
  obtain ⟨fl, hh⟩ := p.hdr ho.sects.number hf
  refine ⟨⟨_, hh, rfl, rfl, rfl, rfl⟩, fun j s hj => p.sectionRead ho hf hj, ?_⟩
  intro j hj
  unfold sectionAt
  rw [hh]
  simp only [Option.bind_eq_bind, Option.bind_some]
  rcases strings r.file _ with _ | strs
  · rfl
  · simp only [Option.bind_some, guard, if_neg (by omega : ¬ j < o.sects.length)]
    rfl

/-! ### C75: symbols -/

/-- C75.  A reader of the file that goes through its symbol table finds exactly the symbols of the object that belong there, in their order
    and each once, as they were declared, and each under the index that relocations use for it.

    Partial: see `SymOk` for what is asked of symbols, and the witnesses below. -/
theorem symbols_read_partial {o : Obj} {r : Result} (ho : ObjOk o) (h : output o = some r) (hf : r.file.length < 2 ^ 32) :
    symbolsOf r.file = some ((o.syms.filter o.listed).map o.wantSymbol) ∧
    ∀ n s, o.syms[n]? = some s → o.listed s = true → symbolAt r.file (o.index n) = some (o.wantSymbol s) := by
  obtain ⟨p⟩ := output_parts h
  refine ⟨?_, fun n s hn hl => (p.symbolRead ho hf hn hl).1⟩
  obtain ⟨fl, hh⟩ := p.hdr ho.sects.number hf
  unfold symbolsOf
  rw [hh]
  exact symbolsFrom_ok p ho hf [] o.syms rfl _ (Nat.le_refl _)

/-- C75: the table is complete with no error if the sizes of the common variables and the values of the global EQUs are numbers. -/
theorem no_errors {o : Obj} {r : Result} (h : output o = some r) (hc : ∀ s ∈ o.syms, s.csize ≠ .other)
    (he : ∀ s ∈ o.syms, ∀ b, s.glob = true → s.kind ≠ .equ .other b) : r.errors = 0 := by
  unfold output at h
  simp only at h
  split at h
  · cases h
  · rename_i w hw
    cases h
    show (symsBytes o w.heads o.syms w.str).2.2 = 0
    have key : ∀ ss : List Sym, (∀ s ∈ ss, s ∈ o.syms) → ∀ str, (symsBytes o w.heads ss str).2.2 = 0 := by
      intro ss
      induction ss with
      | nil => intro _ _; rfl
      | cons s ss ih =>
        intro hm str
        have ih := ih (fun x hx => hm x (List.mem_cons_of_mem _ hx))
        have hs := hm s List.mem_cons_self
        unfold symsBytes
        split
        · have h0 : (valueOf s).2.2 = 0 := by
            unfold valueOf
            rcases hk : s.kind with ⟨k, off⟩ | ⟨v, b⟩ | _
            · rfl
            · rcases v with v | _
              · rfl
              · rcases hg : s.glob with _ | _
                · rfl
                · exact absurd hk (he s hs b hg)
            · simp only
              split
              · rcases hcs : s.csize with v | _
                · rfl
                · exact absurd hcs (hc s hs)
              · split <;> rfl
          simp only [h0, ih, Nat.zero_add]
        · exact ih str
    exact key o.syms (fun _ h => h) w.str

/-! ### C76: relocations -/

/-- C76.  Take a value that the program puts at `l` in section `j` and that refers to symbol `n`.  Then the relocation found in the file for it
    makes a linker put there what the program asks for: it is at the address of the value, of a type with as many bits as the value has, and
    for a symbol such that the linker's formula gives, in these bits, the number asked for.

    `field` is the number found in the place itself, the addend.

    Partial: `RefOk`, `Val.Wide`, and not for plain COFF for AMD64, for which no linker defines what is to be there; see the witnesses below. -/
theorem references_linked_partial {o : Obj} {r : Result} (ho : ObjOk o) (hr : RefOk o) (h : output o = some r) (hf : r.file.length < 2 ^ 32)
    (hfm : o.format ≠ .coff true) (j : Nat) (s : Sect) (hj : o.sects[j]? = some s) (i : Nat) (rl : Reloc) (hi : s.rels[i]? = some rl)
    (v : Val) (l : Loc) (stored : Int) (n : Nat) (x : Sym) (hv : outputValue o s.nobase v l = .ok stored (some rl))
    (hn : v.rel = some n) (hx : o.syms[n]? = some x) (refers : x.kind = .other → x.ext = true ∨ x.common = true)
    (hequ : ∀ e a, x.kind = .equ e a → o.listed x = true) (hwide : v.Wide o.format s.nobase) (hbytes : 8 * l.bytes = v.size) :
    ∃ sec q y f, sectionAt o.format.win r.file j = some sec ∧ sec.rels[i]? = some q ∧ q.addr = l.bc + l.offset ∧
      symbolAt r.file q.sym = some y ∧ o.format.formula q.type = some f ∧ f.bits = v.size ∧
      ∀ (k : Linker) (field : Int), SameField v.size field stored →
        SameField v.size (k.result o.format.win f y field (j + 1) q.addr) (o.asked k s.nobase v x j l) := by
  obtain ⟨p⟩ := output_parts h
  obtain ⟨hcx, m, dist, t, val, ty, c, h1, h2, h3, h4, h5, h6⟩ := outputValue_eq hn hx hv
  subst h6
  have k0 : Linker := ⟨fun _ => 0, fun _ => 0, 0, fun _ => 0, fun _ => 0⟩
  obtain ⟨y, y1, y2, y3, y4, y5⟩ := target_ok ho hr k0 hx refers hequ h1 h2
  obtain ⟨f, f1, f2, _⟩ := linked hfm k0 h3 hwide hbytes hcx y3 y4 y5 h4 j
  refine ⟨_, o.wantRel ⟨t, l.bc + l.offset, ty⟩, _, f, p.sectionRead ho hf hj, ?_, rfl, (p.symbolRead ho hf y1 y2).1, f1, f2, ?_⟩
  · simp only [Obj.wantSection, List.getElem?_map, hi, Option.map_some]
  · intro k fld hfld
    obtain ⟨y', z1, z2, z3, z4, z5⟩ := target_ok ho hr k hx refers hequ h1 h2
    rw [y1] at z1; cases z1
    obtain ⟨f', g1, g2, g3⟩ := linked hfm k h3 hwide hbytes hcx z3 z4 z5 h4 j
    rw [f1] at g1; cases g1
    rw [← g3]
    show SameField v.size (k.result o.format.win f (o.wantSymbol y) fld (j + 1) (l.bc + l.offset)) _
    unfold SameField at hfld ⊢
    have e : k.result o.format.win f (o.wantSymbol y) fld (j + 1) (l.bc + l.offset) -
        k.result o.format.win f (o.wantSymbol y) (c + dist) (j + 1) (l.bc + l.offset) = fld - stored := by
      unfold Linker.result
      rw [h5]
      omega
    rw [e]
    exact hfld

/-- C76: a relocation in `win64` names the symbol referred to, or the one after WRT. -/
theorem win64_named {o : Obj} (hw : o.format = .win64) {v : Val} {l : Loc} {nobase : Bool} {n : Nat} {x : Sym} {stored : Int} {rl : Reloc}
    (hn : v.rel = some n) (hx : o.syms[n]? = some x) (hv : outputValue o nobase v l = .ok stored (some rl)) :
    rl.sym = (match v.wrt with | some (.sym m) => m | _ => n) := by
  obtain ⟨_, m, dist, t, val, ty, c, h1, h2, _, _, _, rfl⟩ := outputValue_eq hn hx hv
  have ht : t = m := by
    unfold target at h2
    simp only [hw, Format.win, if_true, decide_true, Bool.not_true, Bool.and_false, Bool.false_eq_true, if_false, ite_self, Option.some.injEq, Prod.mk.injEq] at h2
    exact h2.1.symm
  subst ht
  show t = _
  unfold wrtTarget at h1
  split at h1
  · rename_i e; rw [e]; cases h1; rfl
  · rename_i e; rw [e]; cases h1; rfl
  · rename_i _ q e
    rw [e]
    split at h1
    · split at h1
      · cases h1; rfl
      · cases h1
    · cases h1

/-- C76: which values with no WRT, or WRT ..imagebase, for a symbol that is not COMMON are refused.  Nothing else ends in an error, and
    nothing ends the program. -/
theorem refused_iff {o : Obj} (hr : RefOk o) {v : Val} {l : Loc} {nobase : Bool} {n : Nat} {x : Sym} (hn : v.rel = some n)
    (hx : o.syms[n]? = some x) (hc : x.common = false) (hs : ∀ k off, x.kind = .label k off → k < o.sects.length)
    (hw : v.wrt = none ∨ v.wrt = some .imagebase) :
    (outputValue o nobase v l = .error ↔
      v.rshift ≠ 0 ∨ v.segOf = true ∧ (v.wrt ≠ none ∨ v.curposRel = true) ∨ v.sectionRel = true ∧ (v.wrt ≠ none ∨ v.curposRel = true) ∨
      v.abs = some .other ∨
      v.curposRel = true ∧ v.size ≠ 32 ∨
      v.curposRel = true ∧ o.format.amd64 = true ∧ v.ipRel = true ∧ ¬ (l.offset + l.bytes ≤ l.len ∧ l.len ≤ l.offset + l.bytes + 5) ∨
      v.curposRel = false ∧ v.segOf = false ∧ v.sectionRel = false ∧ o.format.amd64 = true ∧ v.size ≠ 32 ∧ v.size ≠ 64) ∧
    outputValue o nobase v l ≠ .internal := by
  have h1 : wrtTarget o n v.wrt = some (n, 0) := by rcases hw with h | h <;> rw [h] <;> rfl
  have h2 : ∃ t val, target o x n = some (t, val) := by
    unfold target
    rw [hc]
    simp only [Bool.false_eq_true, if_false]
    split
    · split
      · rename_i k off hl
        obtain ⟨x', g1, g2⟩ := label_eq hl
        rw [hx] at g1; cases g1
        obtain ⟨q, y, z1, _⟩ := hr.sects k (hs k off g2)
        rw [z1]
        exact ⟨_, _, rfl⟩
      · exact ⟨_, _, rfl⟩
    · exact ⟨_, _, rfl⟩
  obtain ⟨t, val, h2⟩ := h2
  have hsome : v.wrt.isSome = true ↔ v.wrt ≠ none := by rcases v.wrt with _ | _ <;> simp
  unfold outputValue
  by_cases hp : (decide (v.rshift > 0) || (v.segOf && (v.wrt.isSome || v.curposRel)) || (v.sectionRel && (v.wrt.isSome || v.curposRel))) = true
  · rw [if_pos hp]
    simp only [Bool.or_eq_true, Bool.and_eq_true, decide_eq_true_eq, hsome] at hp
    refine ⟨⟨fun _ => ?_, fun _ => rfl⟩, by simp⟩
    rcases hp with (h | h) | h
    · exact .inl (by omega)
    · exact .inr (.inl h)
    · exact .inr (.inr (.inl h))
  · rw [if_neg hp]
    simp only [Bool.or_eq_true, Bool.and_eq_true, decide_eq_true_eq, hsome, not_or] at hp
    obtain ⟨⟨p1, p2⟩, p3⟩ := hp
    rw [or_iff_right (by omega), or_iff_right p2, or_iff_right p3]
    simp only [hn, hx, h1, h2]
    generalize (if v.segOf then 0 else val + curpos o.format v l) = e
    have hty : relocType o.format v l (nobase || decide (v.wrt = some .imagebase)) = none ↔
      (v.curposRel = true ∧ v.size ≠ 32 ∨
      v.curposRel = true ∧ o.format.amd64 = true ∧ v.ipRel = true ∧ ¬ (l.offset + l.bytes ≤ l.len ∧ l.len ≤ l.offset + l.bytes + 5) ∨
      v.curposRel = false ∧ v.segOf = false ∧ v.sectionRel = false ∧ o.format.amd64 = true ∧ v.size ≠ 32 ∧ v.size ≠ 64) := by
      unfold relocType
      rcases v.curposRel with _ | _
      · rcases v.segOf with _ | _
        · rcases v.sectionRel with _ | _
          · rcases o.format.amd64 with _ | _
            · simp
            · simp only [Bool.false_eq_true, if_false, if_true, false_and, true_and, false_or]
              split
              · rename_i h; simp [h]
              · split
                · rename_i h; simp [h]
                · rename_i h1 h2; simp [h1, h2]
          · simp
        · simp
      · simp only [if_true, true_and, Bool.true_eq_false, false_and, or_false]
        split
        · rename_i h; simp [h]
        · rename_i h
          rcases o.format.amd64 with _ | _
          · simp; omega
          · rcases v.ipRel with _ | _
            · simp; omega
            · simp only [Bool.not_true, Bool.false_eq_true, if_false, if_true, true_and]
              split
              · rename_i h'; simp [h']; omega
              · rename_i h'; simp only [true_iff]; exact .inr h'
    rw [← hty]
    rcases relocType o.format v l (nobase || decide (v.wrt = some .imagebase)) with _ | ty
    · simp
    · rcases v.abs with _ | _ | _ <;> simp [addAbs]

/-! ### A case that meets the hypotheses -/

/-- An ASCII name. -/
def ascii (l : List Nat) : Name := l.map (BitVec.ofNat 8)
/-- `.text`, `.bss`, `.file`, `main`, `puts`, `loop`, `buf`, `.debug_info`, `a.asm` -/
def nText : Name := ascii [0x2e, 0x74, 0x65, 0x78, 0x74]
def nBss : Name := ascii [0x2e, 0x62, 0x73, 0x73]
def nFile : Name := ascii [0x2e, 0x66, 0x69, 0x6c, 0x65]
def nMain : Name := ascii [0x6d, 0x61, 0x69, 0x6e]
def nPuts : Name := ascii [0x70, 0x75, 0x74, 0x73]
def nLoop : Name := ascii [0x6c, 0x6f, 0x6f, 0x70]
def nBuf : Name := ascii [0x62, 0x75, 0x66]
def nInfo : Name := ascii [0x2e, 0x64, 0x65, 0x62, 0x75, 0x67, 0x5f, 0x69, 0x6e, 0x66, 0x6f]
def nAsm : Name := ascii [0x61, 0x2e, 0x61, 0x73, 0x6d]

/-- coff-objfmt.c:279-291 -/
def fileSym : Sym := ⟨nFile, false, false, true, false, .other, false, .int 0, some ⟨false, 0, 103, .file⟩⟩
/-- coff-objfmt.c:417-421 -/
def sectSym (name : Name) (k : Nat) : Sym := ⟨name, false, false, true, false, .label k 0, false, .int 0, some ⟨false, 0, 3, .sect⟩⟩
def local_ (name : Name) (k : Kind) : Sym := ⟨name, false, false, false, false, k, false, .int 0, none⟩
def global_ (name : Name) (k : Kind) : Sym := ⟨name, false, false, true, false, k, false, .int 0, none⟩
def extern_ (name : Name) : Sym := ⟨name, true, false, false, false, .other, false, .int 0, none⟩
def common_ (name : Name) (size : Int) : Sym := ⟨name, false, true, false, false, .other, false, .int size, none⟩

/-- `call puts` at 0, `dd loop+2` at 8, `dd buf` at 12. -/
def callPuts : Val := ⟨some 3, none, false, false, 0, true, true, 32, some (.int (-5))⟩
def ddLoop : Val := ⟨some 5, none, false, false, 0, false, false, 32, some (.int 2)⟩
def ddBuf : Val := ⟨some 4, none, false, false, 0, false, false, 32, none⟩

/-- A program with code, reserved space, a section with a long name and symbols of each sort. -/
def sampleOf (f : Format) (long : Name) (relocs : List Reloc) : Obj :=
  { format := f, src := nAsm, pre := [0x5f#8], suf := [], allSyms := false, nullDbg := true
    syms := [fileSym, sectSym nText 0, global_ nMain (.label 0 0), extern_ nPuts, common_ nBuf 16, local_ nLoop (.label 0 6),
      sectSym nBss 1, sectSym long 2, global_ nLoop (.equ (.int 7) false)]
    sects := [⟨nText, 0x60000020, false, 16, 16, [.bytes (ascii [0xe8, 0, 0, 0, 0, 0x90, 0x90, 0x90, 8, 0, 0, 0, 0, 0, 0, 0])], relocs⟩,
      ⟨nBss, 0xc0000080, false, 4, 32, [.gap 32], []⟩, ⟨long, 0x42000040, false, 1, 2, [.bytes (ascii [1, 2])], []⟩] }

def sample32 : Obj := sampleOf .win32 nInfo [⟨3, 1, 0x14⟩, ⟨1, 8, 6⟩, ⟨4, 12, 6⟩]
def sample64 : Obj := sampleOf .win64 nInfo [⟨3, 1, 4⟩, ⟨5, 8, 2⟩, ⟨4, 12, 2⟩]
def sampleDj : Obj := sampleOf (.coff false) nLoop [⟨3, 1, 0x14⟩, ⟨1, 8, 6⟩, ⟨4, 12, 6⟩]

/-- The relocations are those the code makes. -/
theorem sample_values :
    outputValue sample32 false callPuts ⟨0, 1, 4, 5⟩ = .ok 0 (some ⟨3, 1, 0x14⟩) ∧
    outputValue sample32 false ddLoop ⟨8, 0, 4, 4⟩ = .ok 8 (some ⟨1, 8, 6⟩) ∧
    outputValue sample32 false ddBuf ⟨12, 0, 4, 4⟩ = .ok 0 (some ⟨4, 12, 6⟩) ∧
    outputValue sample64 false callPuts ⟨0, 1, 4, 5⟩ = .ok 0 (some ⟨3, 1, 4⟩) ∧
    outputValue sample64 false ddLoop ⟨8, 0, 4, 4⟩ = .ok 2 (some ⟨5, 8, 2⟩) ∧
    outputValue sample64 false ddBuf ⟨12, 0, 4, 4⟩ = .ok 0 (some ⟨4, 12, 2⟩) ∧
    outputValue sampleDj false callPuts ⟨0, 1, 4, 5⟩ = .ok (-5) (some ⟨3, 1, 0x14⟩) ∧
    outputValue sampleDj false ddLoop ⟨8, 0, 4, 4⟩ = .ok 8 (some ⟨1, 8, 6⟩) ∧
    outputValue sampleDj false ddBuf ⟨12, 0, 4, 4⟩ = .ok 16 (some ⟨4, 12, 6⟩) := by decide +kernel

theorem sample32_sects : SectsOk sample32 := by
  refine ⟨?_, by decide, by decide⟩
  intro s hs
  simp only [sample32, sampleOf, List.mem_cons, List.not_mem_nil, or_false] at hs
  rcases hs with rfl | rfl | rfl
  · refine ⟨by decide, by decide, by decide, by decide, by decide, .inr ⟨4, by decide, rfl⟩, by decide, by decide, by decide, by decide, ?_⟩
    intro r hr
    simp only [List.mem_cons, List.not_mem_nil, or_false] at hr
    rcases hr with rfl | rfl | rfl <;> exact ⟨by decide, by decide, _, rfl, by decide⟩
  · exact ⟨by decide, by decide, by decide, by decide, by decide, .inr ⟨2, by decide, rfl⟩, by decide, by decide, by decide, by decide,
      by intro r hr; cases hr⟩
  · exact ⟨by decide, by decide, by decide, by decide, by decide, .inr ⟨0, by decide, rfl⟩, by decide, by decide, by decide, by decide,
      by intro r hr; cases hr⟩

theorem sample64_sects : SectsOk sample64 := by
  refine ⟨?_, by decide, by decide⟩
  intro s hs
  simp only [sample64, sampleOf, List.mem_cons, List.not_mem_nil, or_false] at hs
  rcases hs with rfl | rfl | rfl
  · refine ⟨by decide, by decide, by decide, by decide, by decide, .inr ⟨4, by decide, rfl⟩, by decide, by decide, by decide, by decide, ?_⟩
    intro r hr
    simp only [List.mem_cons, List.not_mem_nil, or_false] at hr
    rcases hr with rfl | rfl | rfl <;> exact ⟨by decide, by decide, _, rfl, by decide⟩
  · exact ⟨by decide, by decide, by decide, by decide, by decide, .inr ⟨2, by decide, rfl⟩, by decide, by decide, by decide, by decide,
      by intro r hr; cases hr⟩
  · exact ⟨by decide, by decide, by decide, by decide, by decide, .inr ⟨0, by decide, rfl⟩, by decide, by decide, by decide, by decide,
      by intro r hr; cases hr⟩

theorem sampleDj_sects : SectsOk sampleDj := by
  refine ⟨?_, by decide, by decide⟩
  intro s hs
  simp only [sampleDj, sampleOf, List.mem_cons, List.not_mem_nil, or_false] at hs
  rcases hs with rfl | rfl | rfl
  · refine ⟨by decide, by decide, by decide, by decide, by decide, .inr ⟨4, by decide, rfl⟩, by decide, by decide, by decide, by decide, ?_⟩
    intro r hr
    simp only [List.mem_cons, List.not_mem_nil, or_false] at hr
    rcases hr with rfl | rfl | rfl <;> exact ⟨by decide, by decide, _, rfl, by decide⟩
  · exact ⟨by decide, by decide, by decide, by decide, by decide, .inr ⟨2, by decide, rfl⟩, by decide, by decide, by decide, by decide,
      by intro r hr; cases hr⟩
  · exact ⟨by decide, by decide, by decide, by decide, by decide, .inr ⟨0, by decide, rfl⟩, by decide, by decide, by decide, by decide,
      by intro r hr; cases hr⟩

/-- The symbols of the three: what is asked of one of them, with the cases that depend on its kind left over. -/
theorem symOk_of {o : Obj} {s : Sym} (h1 : ∀ b ∈ o.wantName s, b ≠ 0) (h2 : o.wantName s ≠ []) (h3 : s.isAbs = false)
    (h4 : (match s.kind with
      | .label k off => decide (k < o.sects.length ∧ off < 2 ^ 32) | .equ (.int v) _ => decide (0 ≤ v ∧ v < 2 ^ 63) | _ => true) = true)
    (h5 : (match s.csize with | .int v => decide (0 ≤ v ∧ v < 2 ^ 63) | _ => true) = true) (h6 : s.wantType < 2 ^ 16) (h7 : s.wantClass < 256)
    (h8 : s.aux = .file → s.wantClass = 103) (h9 : s.aux = .sect → s.wantClass = 3 ∧ ∃ k off, s.kind = .label k off) : SymOk o s :=
  ⟨h1, h2, (by rw [h3]; intro h; cases h), (by intro k off hk; rw [hk] at h4; exact of_decide_eq_true h4), (by intro v b hk; rw [hk] at h4; exact of_decide_eq_true h4),
    (by intro v _ _ hc; rw [hc] at h5; exact of_decide_eq_true h5), h6, h7, h8, h9⟩

theorem sample32_ok : ObjOk sample32 := by
  refine ⟨sample32_sects, ?_, by decide⟩
  intro s hs _
  simp only [sample32, sampleOf, List.mem_cons, List.not_mem_nil, or_false] at hs
  rcases hs with rfl | rfl | rfl | rfl | rfl | rfl | rfl | rfl | rfl <;>
    exact symOk_of (by decide) (by decide) (by decide) (by decide) (by decide) (by decide) (by decide) (by decide)
      (by first | (intro h; cases h; done) | exact fun _ => ⟨by decide, _, _, rfl⟩)

theorem sample64_ok : ObjOk sample64 := by
  refine ⟨sample64_sects, ?_, by decide⟩
  intro s hs _
  simp only [sample64, sampleOf, List.mem_cons, List.not_mem_nil, or_false] at hs
  rcases hs with rfl | rfl | rfl | rfl | rfl | rfl | rfl | rfl | rfl <;>
    exact symOk_of (by decide) (by decide) (by decide) (by decide) (by decide) (by decide) (by decide) (by decide)
      (by first | (intro h; cases h; done) | exact fun _ => ⟨by decide, _, _, rfl⟩)

theorem sampleDj_ok : ObjOk sampleDj := by
  refine ⟨sampleDj_sects, ?_, by decide⟩
  intro s hs _
  simp only [sampleDj, sampleOf, List.mem_cons, List.not_mem_nil, or_false] at hs
  rcases hs with rfl | rfl | rfl | rfl | rfl | rfl | rfl | rfl | rfl <;>
    exact symOk_of (by decide) (by decide) (by decide) (by decide) (by decide) (by decide) (by decide) (by decide)
      (by first | (intro h; cases h; done) | exact fun _ => ⟨by decide, _, _, rfl⟩)

theorem sampleOf_ref {f : Format} {long : Name} {relocs : List Reloc}
    (h : ∀ k, k < 3 → ∃ n x, (sampleOf f long relocs).sectionSym k = some n ∧ (sampleOf f long relocs).syms[n]? = some x ∧ x.glob = true) :
    RefOk (sampleOf f long relocs) := by
  refine ⟨h, ?_, ?_, ?_⟩
  · intro s hs v b hk
    simp only [sampleOf, List.mem_cons, List.not_mem_nil, or_false] at hs
    rcases hs with rfl | rfl | rfl | rfl | rfl | rfl | rfl | rfl | rfl <;> first | (cases hk; done) | (cases hk; exact ⟨7, rfl, by decide, by decide⟩)
  · intro s hs hc
    simp only [sampleOf, List.mem_cons, List.not_mem_nil, or_false] at hs
    rcases hs with rfl | rfl | rfl | rfl | rfl | rfl | rfl | rfl | rfl <;> first | (cases hc; done) | exact ⟨rfl, by intro v h; cases h; decide⟩
  · intro s hs he
    simp only [sampleOf, List.mem_cons, List.not_mem_nil, or_false] at hs
    rcases hs with rfl | rfl | rfl | rfl | rfl | rfl | rfl | rfl | rfl <;> first | (cases he; done) | rfl

theorem sample32_ref : RefOk sample32 := sampleOf_ref (by
  intro k hk
  match k, hk with
  | 0, _ => exact ⟨1, _, by decide, rfl, rfl⟩
  | 1, _ => exact ⟨6, _, by decide, rfl, rfl⟩
  | 2, _ => exact ⟨7, _, by decide, rfl, rfl⟩)
theorem sample64_ref : RefOk sample64 := sampleOf_ref (by
  intro k hk
  match k, hk with
  | 0, _ => exact ⟨1, _, by decide, rfl, rfl⟩
  | 1, _ => exact ⟨6, _, by decide, rfl, rfl⟩
  | 2, _ => exact ⟨7, _, by decide, rfl, rfl⟩)
theorem sampleDj_ref : RefOk sampleDj := sampleOf_ref (by
  intro k hk
  match k, hk with
  | 0, _ => exact ⟨1, _, by decide, rfl, rfl⟩
  | 1, _ => exact ⟨6, _, by decide, rfl, rfl⟩
  | 2, _ => exact ⟨7, _, by decide, rfl, rfl⟩)

/-- A test on the outcome. -/
def check (o : Obj) (p : Result → Bool) : Bool := match output o with | some r => p r | none => false

theorem check_some {o : Obj} {p : Result → Bool} (h : check o p = true) : ∃ r, output o = some r ∧ p r = true := by
  unfold check at h
  split at h
  · rename_i r hr; exact ⟨r, hr, h⟩
  · cases h

/-- The files are written, without errors, and they are short. -/
theorem sample_out : ∀ o ∈ [sample32, sample64, sampleDj], ∃ r, output o = some r ∧ r.errors = 0 ∧ r.file.length < 2 ^ 32 := by
  intro o ho
  have h : check o (fun r => decide (r.errors = 0) && decide (r.file.length < 2 ^ 32)) = true := by
    simp only [List.mem_cons, List.not_mem_nil, or_false] at ho
    rcases ho with rfl | rfl | rfl <;> decide +kernel
  obtain ⟨r, h1, h2⟩ := check_some h
  simp only [Bool.and_eq_true, decide_eq_true_eq] at h2
  exact ⟨r, h1, h2.1, h2.2⟩

/-- C74 and C75 for one of them. -/
example : ∃ r, output sample32 = some r ∧
    sectionAt true r.file 2 = some ⟨nInfo, 0x42000040, 1, 2, ascii [1, 2], []⟩ ∧
    sectionAt true r.file 1 = some ⟨nBss, 0xc0000080, 4, 32, [], []⟩ ∧
    (sectionAt true r.file 0).map (·.rels) = some [⟨1, 5, 0x14⟩, ⟨8, 2, 6⟩, ⟨12, 6, 6⟩] ∧
    symbolsOf r.file = some [⟨[0x5f#8] ++ nFile, 0, 0xfffe, 0, 103, 1, .file nAsm⟩, ⟨[0x5f#8] ++ nText, 0, 1, 0, 3, 1, .sect 16 3⟩,
      ⟨[0x5f#8] ++ nMain, 0, 1, 0, 2, 0, .none⟩, ⟨[0x5f#8] ++ nPuts, 0, 0, 0, 2, 0, .none⟩, ⟨[0x5f#8] ++ nBuf, 16, 0, 0, 2, 0, .none⟩,
      ⟨[0x5f#8] ++ nBss, 0, 2, 0, 3, 1, .sect 32 0⟩, ⟨[0x5f#8] ++ nInfo, 0, 3, 0, 3, 1, .sect 2 0⟩,
      ⟨[0x5f#8] ++ nLoop, 7, 0xffff, 0, 2, 0, .none⟩] := by
  obtain ⟨r, h1, h2, h3⟩ := sample_out sample32 (by decide)
  have h5 := (sections_read_partial sample32_ok h1 h3).2.1
  refine ⟨r, h1, h5 2 _ rfl, h5 1 _ rfl, ?_, (symbols_read_partial sample32_ok h1 h3).1.trans (by decide +kernel)⟩
  rw [show sectionAt true r.file 0 = _ from h5 0 _ rfl]
  decide +kernel

/-- C76 for `call puts` in `win64` and for `dd buf`, a common variable, in `coff`. -/
example : ∃ r, output sample64 = some r ∧ ∃ sec q y f, sectionAt true r.file 0 = some sec ∧ sec.rels[0]? = some q ∧ q.addr = 1 ∧
    symbolAt r.file q.sym = some y ∧ formula64 q.type = some f ∧ f.bits = 32 ∧
      ∀ (k : Linker) (fld : Int), SameField 32 fld 0 →
        SameField 32 (k.result true f y fld 1 q.addr) (k.ext ([0x5f#8] ++ nPuts) + (-5) - (k.addr 1 + 0)) := by
  obtain ⟨r, h1, h2, h3⟩ := sample_out sample64 (by decide)
  exact ⟨r, h1, references_linked_partial sample64_ok sample64_ref h1 h3 (by decide) 0 _ rfl 0 _ rfl callPuts ⟨0, 1, 4, 5⟩ 0 3 _
    sample_values.2.2.2.1 rfl rfl (fun _ => .inl rfl) (by intro e a h; cases h) (.inl rfl) rfl⟩
example : ∃ r, output sampleDj = some r ∧ ∃ sec q y f, sectionAt false r.file 0 = some sec ∧ sec.rels[2]? = some q ∧ q.addr = 12 ∧
    symbolAt r.file q.sym = some y ∧ formula386 q.type = some f ∧ f.bits = 32 ∧
      ∀ (k : Linker) (fld : Int), SameField 32 fld 16 →
        SameField 32 (k.result false f y fld 1 q.addr) (k.ext ([0x5f#8] ++ nBuf) + 0 - 0) := by
  obtain ⟨r, h1, h2, h3⟩ := sample_out sampleDj (by decide)
  exact ⟨r, h1, references_linked_partial sampleDj_ok sampleDj_ref h1 h3 (by decide) 0 _ rfl 2 _ rfl ddBuf ⟨12, 0, 4, 4⟩ 16 4 _
    sample_values.2.2.2.2.2.2.2.2 rfl rfl (fun _ => .inr rfl) (by intro e a h; cases h) (.inl rfl) rfl⟩

/-- `refused_iff` for it: a relative value of 16 bits is refused. -/
example : outputValue sample32 false { callPuts with size := 16 } ⟨0, 1, 2, 3⟩ = .error :=
  (refused_iff sample32_ref (x := extern_ nPuts) rfl rfl rfl (by intro k off h; cases h) (.inl rfl)).1.mpr
    (.inr (.inr (.inr (.inr (.inl ⟨rfl, by decide⟩)))))

/-! ### Where the code is wrong -/

/-- A small object: the symbol of `.text` and one more symbol. -/
def one (f : Format) (pre : Name) (s : Sym) (sects : List Sect) : Obj :=
  { format := f, src := nAsm, pre := pre, suf := [], allSyms := false, nullDbg := true, syms := [sectSym nText 0, s], sects := sects }
def code (relocs : List Reloc) : Sect := ⟨nText, 0x60000020, false, 16, 4, [.bytes (ascii [0, 0, 0, 0])], relocs⟩

/-- In plain COFF a section whose name has more than eight bytes, such as `.debug_info`, has the name `/0` in its header; that name is not in the
    string table, and no error is reported. -/
theorem long_name_lost :
    check (one (.coff false) [] (sectSym nInfo 1) [code [], ⟨nInfo, 0x42000040, false, 1, 2, [.bytes (ascii [1, 2])], []⟩])
      (fun r => decide (r.errors = 0) && decide ((sectionAt false r.file 1).map (·.name) = some (ascii [0x2f, 0x30]))) = true := by
  decide +kernel

/-- A section named `/4` in `win32` is read as one whose name is in the string table. -/
theorem slash_name_lost :
    check (one .win32 [] (sectSym (ascii [0x2f, 0x34]) 1) [code [], ⟨ascii [0x2f, 0x34], 0x42000040, false, 1, 2, [.bytes (ascii [1, 2])], []⟩])
      (fun r => decide (r.errors = 0) && decide (sectionAt true r.file 1 = none)) = true := by
  decide +kernel

/-- Data put into a section for uninitialized data is lost, and no error is reported. -/
theorem bss_data_lost :
    check (one .win32 [] (sectSym nBss 1) [code [], ⟨nBss, 0xc0000080, false, 4, 1, [.bytes (ascii [0x55])], []⟩])
      (fun r => decide (r.errors = 0) && decide (sectionAt true r.file 1 = some ⟨nBss, 0xc0000080, 4, 1, [], []⟩)) = true := by
  decide +kernel

/-- `align 16384` in a section is written as an alignment of 8192, and no error is reported. -/
theorem large_alignment_lost :
    check (one .win32 [] (extern_ nPuts) [{ code [] with align := 16384 }])
      (fun r => decide (r.errors = 0) && decide ((sectionAt true r.file 0).map (·.align) = some 8192)) = true := by
  decide +kernel

/-- `main equ -1` with `global main` has the value 0. -/
theorem negative_equ_lost :
    check (one .win32 [] (global_ nMain (.equ (.int (-1)) false)) [code []])
      (fun r => decide (r.errors = 0) && decide (symbolAt r.file 2 = some ⟨nMain, 0, 0xffff, 0, 2, 0, .none⟩)) = true := by
  decide +kernel

/-- The prefix given on the command line is put before `.file` and before the names of the section symbols, but not before those of the sections. -/
theorem prefix_on_sections :
    check (one .win32 [0x5f#8] fileSym [code []])
      (fun r => decide (r.errors = 0) && decide ((sectionAt true r.file 0).map (·.name) = some nText) &&
        decide ((symbolsOf r.file).map (List.map (·.name)) = some [[0x5f#8] ++ nText, [0x5f#8] ++ nFile])) = true := by
  decide +kernel

/-- `dw label` in a 32-bit object has a relocation for 32 bits: a linker changes the two bytes after it also. -/
theorem word_reference_wide :
    let o := one .win32 [] (extern_ nPuts) [code []]
    let v : Val := ⟨some 1, none, false, false, 0, false, false, 16, none⟩
    outputValue o false v ⟨0, 0, 2, 2⟩ = .ok 0 (some ⟨1, 0, 6⟩) ∧ formula386 6 = some ⟨.addr, none, 32⟩ := by decide +kernel

/-- `dq puts wrt ..imagebase` in `win64` has a relocation for the address, from which the base of the image is not subtracted. -/
theorem wide_imagebase_wrong :
    let o := one .win64 [] (extern_ nPuts) [code []]
    let v : Val := ⟨some 1, some .imagebase, false, false, 0, false, false, 64, none⟩
    outputValue o false v ⟨0, 0, 8, 8⟩ = .ok 0 (some ⟨1, 0, 1⟩) ∧ v.asks false = .rva ∧
    formula64 1 = some ⟨.addr, none, 64⟩ := by decide +kernel

theorem relsAt_length (f : List Byte) (n : Nat) : ∀ (pos : Nat) (rs : List Rel), relsAt f pos n = some rs → rs.length = n := by
  induction n with
  | zero => intro pos rs h; cases h; rfl
  | succ n ih =>
    intro pos rs h
    unfold relsAt at h
    rcases h1 : relAt f pos with _ | q
    · rw [h1] at h; cases h
    · rcases h2 : relsAt f (pos + 10) n with _ | qs
      · rw [h1, h2] at h; cases h
      · rw [h1, h2] at h
        cases h
        rw [List.length_cons, ih _ _ h2]

/-- In plain COFF, relocations of a section with 65536 of them or more are lost: a reader finds 65535. -/
theorem many_relocations_lost {o : Obj} {r : Result} (h : output o = some r) (hw : o.format.win = false) (hn : o.sects.length < 0xfffe)
    (hf : r.file.length < 2 ^ 32) {j : Nat} {s : Sect} (hj : o.sects[j]? = some s) (hs : s.bss = false) (hm : 65536 ≤ s.relocs.length)
    {sec : Section} (hsec : sectionAt o.format.win r.file j = some sec) : sec.rels.length = 65535 := by
  obtain ⟨p⟩ := output_parts h
  obtain ⟨hd, hh, hp⟩ := p.placed j s hj
  obtain ⟨fl, hhdr⟩ := p.hdr hn hf
  have hat : At r.file (20 + 40 * j) (headBytes o s hd) := p.headers.sub (headsBytes_at o _ _ j hj hh)
  unfold headBytes at hat
  have a := (hat.left.left.right' (q := 20 + 40 * j + 32) (by simp [le_length, sectName_length])).field (by split <;> omega)
  rw [if_pos (by rw [hp.nreloc hs]; exact hm)] at a
  unfold sectionAt at hsec
  rw [hhdr, hw] at hsec
  simp only [Option.bind_eq_bind, Option.bind_eq_some_iff, Nat.add_zero] at hsec
  obtain ⟨_, h0, strs, _, _, _, _, _, _, _, _, _, _, _, _, _, nreloc, h1, _, _, _, _, rels, h2, h3⟩ := hsec
  cases h0
  simp only [Nat.add_zero] at h1
  rw [a] at h1
  cases h1
  cases h3
  simp only [relsOf, Bool.false_eq_true, false_and, if_false] at h2
  exact relsAt_length _ _ _ _ h2

end Verif.Coff
