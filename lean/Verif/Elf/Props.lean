import Verif.Elf.Linked
/-
C63, C64, C65: the ELF files.  What a reader finds is in `Verif.Elf.Spec`, what a linker does in `Verif.Elf.Link`.

Hypotheses of the theorems: `SectsOk`, `ObjOk` (with `SectOk` and `SymOk`) and `RefOk`, which say what the front ends
make of a program, and exclude the cases in which the code is wrong; for each of these there is a witness below.  The
numbers are those that the fields of the format hold.
-/
namespace Verif.Elf

theorem output_symbols {o : Obj} {r : Result} (h : output o = some r) : ∃ st, symbols o = some st := by
  unfold output at h
  rcases hs : symbols o with _ | st
  · rw [hs] at h; cases h
  · exact ⟨st, rfl⟩

/-! ### C63: sections -/

/-- C63.  A reader of the file finds the sections: the first four, then each section of the object with its name,
    type, flags, alignment and contents, and after it, if there are any, its relocations.  There are no others.  The
    contents are at a multiple of the alignment.

    Partial: a section without contents in the file (SHT_NOBITS) comes back without the data put into it, see
    `nobits_data_lost`. -/
theorem sections_read_partial {o : Obj} {r : Result} (ho : SectsOk o) (h : output o = some r)
    (hf : r.file.length < 2 ^ 32) :
    (∃ e, ehdr r.file = some e ∧ e.wide = o.machine.wide ∧ e.machine = (if o.machine = .x86 then 3 else 62) ∧
      e.shnum = 4 + before o.sects o.sects.length ∧ e.shstrndx = 1) ∧
    sectionAt r.file 0 = some ⟨[], 0, 0, 0, 0, 0, 0, 0, []⟩ ∧
    (∃ names, sectionAt r.file 1 = some ⟨nShstrtab, 3, 0, names.length, 0, 0, 0, 0, names⟩) ∧
    (∃ strs, sectionAt r.file 2 = some ⟨nStrtab, 3, 0, strs.length, 0, 0, 0, 0, strs⟩) ∧
    ∀ j s, o.sects[j]? = some s →
      sectionAt r.file (o.sectIndex j) = some s.want ∧
      (∃ h, headerAt r.file (o.sectIndex j) = some h ∧ (s.align ≠ 0 → s.align ∣ h.offset)) ∧
      (s.rels ≠ [] → ∃ bytes, sectionAt r.file (o.sectIndex j + 1) =
        some ⟨o.machine.relPrefix ++ s.name, o.machine.relType, 0, s.rels.length * o.machine.relSize, 3, o.sectIndex j,
          o.machine.relAlign, o.machine.relSize, bytes⟩) := by
  obtain ⟨st, hst⟩ := output_symbols h
  obtain ⟨L⟩ := output_layout hst h
  refine ⟨⟨_, L.ehdr ho hf, rfl, rfl, L.count, rfl⟩, L.section0 ho hf, ⟨_, L.section1 ho hf⟩, ⟨_, L.section2 ho hf⟩, ?_⟩
  intro j s hj
  obtain ⟨h1, h2⟩ := L.sectionRead ho hf hj
  refine ⟨h1, h2, ?_⟩
  intro hne
  obtain ⟨bs, _, h3, _⟩ := L.relSectionRead ho hf hj hne
  exact ⟨bs, h3⟩

/-! ### C64: symbols -/

/-- C64.  A reader of the file finds in its symbol table an empty symbol, one for the source file, and then exactly
    the symbols of the object that belong there, each once and each as it was declared, the local ones first.

    Partial: see `SymOk` for what is asked of symbols, and the witnesses below. -/
theorem symbols_read_partial {o : Obj} {r : Result} (ho : ObjOk o) (h : output o = some r) (he : r.errors = 0)
    (hf : r.file.length < 2 ^ 32) : ∃ t pos, o.Table r.file t pos := by
  obtain ⟨st, ls, gs, hst, I, _⟩ := symbols_inv o (fun s hs hc => by
    obtain ⟨n, hn⟩ := List.mem_iff_getElem?.mp hs
    exact (ho.syms n s hn).calign hc)
  obtain ⟨L⟩ := output_layout hst h
  exact ⟨_, _, L.table_read I ho hf he⟩

/-! ### C65: relocations -/

/-- C65.  Take a value that the program puts at `l` in section `j` and that refers to symbol `n`.  Then the relocation
    found in the file for it makes a linker put there what the program asks for: it is at the address of the value,
    of a type with as many bits as the value has, and for a symbol such that the linker's formula gives, in these
    bits, the number asked for.

    `field` is the number found in the place itself; it is the addend for machines whose relocations have none.

    Partial: `RefOk`, and only for what `Obj.asksFor` covers; see the witnesses below. -/
theorem references_linked_partial {o : Obj} {r : Result} (ho : ObjOk o) (hr : RefOk o) (h : output o = some r) (he : r.errors = 0)
    (hf : r.file.length < 2 ^ 32) (hw : o.machine.wide = false → r.file.length < 2 ^ 28) :
    ∃ t pos, o.Table r.file t pos ∧
    ∀ j s, o.sects[j]? = some s → ∀ i rl, s.rels[i]? = some rl →
    ∀ (v : Val) (l : Loc) (stored : Int) (n : Nat) (x : Sym), outputValue o.machine o.scope v l = .ok stored (some rl) →
    v.rel = some n → o.syms[n]? = some x → o.listed n x = true → (∀ e a, x.kind ≠ .equ e a) →
    ∃ bytes q y, sectionAt r.file (o.sectIndex j + 1) = some ⟨o.machine.relPrefix ++ s.name, o.machine.relType, 0,
        s.rels.length * o.machine.relSize, 3, o.sectIndex j, o.machine.relAlign, o.machine.relSize, bytes⟩ ∧
      relAt o.machine.wide (decide (o.machine ≠ .x86)) bytes i = some q ∧
      symbolAt o.machine.wide t.tab t.strs q.sym = some y ∧
      q.offset = l.bc + l.offset ∧
      ∀ (k : Linker) (want : Quantity) (b : Base) (field : Int), o.asksFor v n = some (want, b) → SameField v.size field stored →
        ∃ f, o.machine.formula q.type = some f ∧ f.bits = v.size ∧
          SameField v.size (k.result f y q.sym (q.addendIn field) (k.addr (o.sectIndex j) + q.offset))
            (k.quantity (o.address k n x) (pos n) want + Num.get v.abs - o.base k j l b) := by
  obtain ⟨st, ls, gs, hst, I, _⟩ := symbols_inv o (fun s hs hc => by
    obtain ⟨n, hn⟩ := List.mem_iff_getElem?.mp hs
    exact (ho.syms n s hn).calign hc)
  obtain ⟨L⟩ := output_layout hst h
  have hT := L.table_read I ho hf he
  refine ⟨_, _, hT, ?_⟩
  intro j s hj i rl hi v l stored n x hv hn hx hl hk
  have hne : s.rels ≠ [] := by intro h0; rw [h0] at hi; simp at hi
  obtain ⟨bs, h1, h2⟩ := L.relRead I ho hf he hw hj hne
  -- the relocation's symbol is listed
  obtain ⟨hacc, i', hi', hst', hrl⟩ := outputValue_eq hn hv
  obtain ⟨f1, f2, f3⟩ := handleAddend_fields o.machine i' ⟨(target o.machine o.scope v n l).1, l.bc + l.offset, v.curposRel, v.size,
    none, (wrtOf v.wrt).bind id, o.scope.isGot (target o.machine o.scope v n l).1⟩ l.offset
  rw [← hrl] at f1 f2 f3
  have hlist : ∃ y, o.syms[rl.sym]? = some y ∧ o.listed rl.sym y = true := by
    rw [f1]
    simp only
    obtain ⟨y, y1, y2, _⟩ := localTarget_same ho hr ⟨fun _ => 0, fun _ => 0, 0, fun _ => 0, fun _ => 0, fun _ _ => 0⟩ hx hk
      (bits := 0) (Nat.zero_le _)
    rcases target_cases o.machine o v n l with ht | ht
    · rw [ht]; exact ⟨x, hx, hl⟩
    · rw [ht]
      refine ⟨y, y1, ?_⟩
      rcases y2 with y2 | y2
      · rw [y2] at y1 ⊢
        rw [hx] at y1; cases y1; exact hl
      · exact y2
  obtain ⟨t, ht, hq⟩ := h2 i rl hi hlist
  obtain ⟨y, y1, y2⟩ := hlist
  refine ⟨bs, _, _, h1, hq, hT.sym rl.sym y y1 y2, f2, ?_⟩
  intro k want b field ha hfld
  obtain ⟨y', f, z1, z2, z3, z4, z5⟩ := linked ho hr k hn hx hl hk hv ha (posOf ls gs) j ht hfld
  rw [y1] at z1
  cases z1
  exact ⟨f, z3, z4, z5⟩

/-! ### A case that meets the hypotheses -/

/-- An ASCII name. -/
def ascii (l : List Nat) : Name := l.map (BitVec.ofNat 8)
def nText : Name := ascii [0x2e, 0x74, 0x65, 0x78, 0x74]
def nBss : Name := ascii [0x2e, 0x62, 0x73, 0x73]
def nMain : Name := ascii [0x6d, 0x61, 0x69, 0x6e]
def nPuts : Name := ascii [0x70, 0x75, 0x74, 0x73]
def nLoop : Name := ascii [0x6c, 0x6f, 0x6f, 0x70]
def nBuf : Name := ascii [0x62, 0x75, 0x66]

/-- A symbol that is not declared. -/
def local_ (name : Name) (k : Kind) : Sym := ⟨name, false, false, false, true, k, 0, 0, none, none, none⟩
/-- `global name` with a type. -/
def global_ (name : Name) (k : Kind) (type : Nat) : Sym := ⟨name, false, false, true, true, k, type, 0, none, none, none⟩
/-- `extern name` -/
def extern_ (name : Name) : Sym := ⟨name, true, false, false, false, .other, 0, 0, none, none, none⟩

/-- `call puts wrt ..plt` at 0 and `dd loop` at 8. -/
def callPuts : Val := ⟨some 3, some (.special 1), false, false, 0, true, 32, some (.int (-5))⟩
def ddLoop : Val := ⟨some 2, none, false, false, 0, false, 32, none⟩

/-- A program with code, reserved space, symbols of each sort, a relocation through the procedure linkage table and
    one for a local label. -/
def sample : Obj :=
  { machine := .amd64, src0 := nMain, src := nMain, pre := [], suf := [], allSyms := true
    syms := [local_ nText (.label 0 0), global_ nMain (.label 0 0) 2, local_ nLoop (.label 0 4), extern_ nPuts,
      ⟨nBuf, false, true, false, false, .other, 0, 0, none, some (.int 16), some 8⟩, local_ nBss (.label 1 0)]
    sects := [⟨nText, 1, 6, 16, 0, 0, 12, [.bytes (ascii [0xe8, 0, 0, 0, 0, 0x90, 0x90, 0x90, 0, 0, 0, 0])],
        [⟨3, 1, true, 32, some (-4), some 1, false⟩, ⟨0, 8, false, 32, some 4, none, false⟩]⟩,
      ⟨nBss, 8, 3, 4, 0, 0, 32, [.gap 32], []⟩]
    dirs := [.size 1 (some (.int 12))] }

theorem sample_sects : SectsOk sample := by
  refine ⟨?_, by decide⟩
  intro s hs
  simp only [sample, List.mem_cons, List.not_mem_nil, or_false] at hs
  rcases hs with rfl | rfl <;> exact ⟨by decide, by decide, by decide, by decide, by decide, by decide, by decide, by decide⟩

theorem sample_ok : ObjOk sample := by
  refine ⟨sample_sects, ?_, by decide, by decide, by decide⟩
  intro n s hs
  match n with
  | 0 => cases hs; exact ⟨by decide, by decide, by decide, by decide, by intro k off h; cases h; decide, by decide, by decide, by decide⟩
  | 1 => cases hs; exact ⟨by decide, by decide, by decide, by decide, by intro k off h; cases h; decide, by decide, by decide, by decide⟩
  | 2 => cases hs; exact ⟨by decide, by decide, by decide, by decide, by intro k off h; cases h; decide, by decide, by decide, by decide⟩
  | 3 => cases hs; exact ⟨by decide, by decide, by decide, by decide, (by intro k off h; cases h), by decide, by decide, by decide⟩
  | 4 => cases hs; exact ⟨by decide, by decide, by decide, by decide, (by intro k off h; cases h), by decide, by decide, by decide⟩
  | 5 => cases hs; exact ⟨by decide, by decide, by decide, by decide, by intro k off h; cases h; decide, by decide, by decide, by decide⟩
  | n + 6 => simp [sample] at hs

theorem sample_ref : RefOk sample := by
  constructor
  · intro n s hs
    match n with
    | 0 => cases hs; decide
    | 1 => cases hs; decide
    | 2 => cases hs; decide
    | 3 => cases hs; decide
    | 4 => cases hs; decide
    | 5 => cases hs; decide
    | n + 6 => simp [sample] at hs
  · intro n s k off hs
    match n with
    | 0 => cases hs; intro _ h; cases h; rfl
    | 1 => cases hs; intro _ h; cases h; rfl
    | 2 => cases hs; intro h; exact absurd h (by decide)
    | 3 => cases hs; intro _ h; cases h
    | 4 => cases hs; intro _ h; cases h
    | 5 => cases hs; intro _ h; cases h; rfl
    | n + 6 => simp [sample] at hs

/-- What the file says: a test on the outcome. -/
def check (o : Obj) (p : Result → Bool) : Bool := match output o with | some r => p r | none => false

theorem check_some {o : Obj} {p : Result → Bool} (h : check o p = true) : ∃ r, output o = some r ∧ p r = true := by
  unfold check at h
  split at h
  · rename_i r hr; exact ⟨r, hr, h⟩
  · cases h

/-- The file is written, without errors, and it is short. -/
theorem sample_out : ∃ r, output sample = some r ∧ r.errors = 0 ∧ r.file.length < 2 ^ 28 := by
  have h : check sample (fun r => decide (r.errors = 0) && decide (r.file.length < 2 ^ 28)) = true := by decide +kernel
  obtain ⟨r, h1, h2⟩ := check_some h
  simp only [Bool.and_eq_true, decide_eq_true_eq] at h2
  exact ⟨r, h1, h2.1, h2.2⟩

/-- C63, C64 and C65 for it. -/
example : ∃ r, output sample = some r ∧ sectionAt r.file 4 = some (sample.sects[0]).want ∧
    sectionAt r.file 6 = some (sample.sects[1]).want ∧ ∃ t pos, sample.Table r.file t pos := by
  obtain ⟨r, h1, h2, h3⟩ := sample_out
  have h4 : r.file.length < 2 ^ 32 := Nat.lt_trans h3 (by decide)
  have h5 := (sections_read_partial sample_sects h1 h4).2.2.2.2
  exact ⟨r, h1, (h5 0 _ rfl).1, (h5 1 _ rfl).1, symbols_read_partial sample_ok h1 h2 h4⟩

example : outputValue .amd64 sample.scope callPuts ⟨0, 1⟩ = .ok 0 (some ⟨3, 1, true, 32, some (-4), some 1, false⟩) ∧
    sample.asksFor callPuts 3 = some (.plt, .here) ∧
    outputValue .amd64 sample.scope ddLoop ⟨8, 0⟩ = .ok 0 (some ⟨0, 8, false, 32, some 4, none, false⟩) ∧
    sample.asksFor ddLoop 2 = some (.symbol, .none) := by decide +kernel

/-- C65: a relocation for a symbol that other files can see or define names this symbol, and not its section: the linker may put a definition of
    another file in its place. -/
theorem global_named {o : Obj} {v : Val} {l : Loc} {n : Nat} {s : Sym} {stored : Int} {rl : Reloc} (hn : v.rel = some n)
    (hs : o.syms[n]? = some s) (visible : s.glob = true ∨ s.ext = true ∨ s.common = true)
    (hv : outputValue o.machine o.scope v l = .ok stored (some rl)) : rl.sym = n := by
  obtain ⟨_, i, _, _, hrl⟩ := outputValue_eq hn hv
  have hsect : o.scope.sectSym n = none := by
    unfold Obj.scope
    simp only [hs]
    rw [if_pos (by rcases visible with h | h | h <;> simp [h])]
  have htar : (target o.machine o.scope v n l).1 = n := by
    rcases target_cases o.machine o v n l with h | h
    · exact h
    · rw [h]
      unfold localTarget
      rw [hsect]
  obtain ⟨f1, _, _⟩ := handleAddend_fields o.machine i ⟨(target o.machine o.scope v n l).1, l.bc + l.offset, v.curposRel, v.size,
    none, (wrtOf v.wrt).bind id, o.scope.isGot (target o.machine o.scope v n l).1⟩ l.offset
  rw [← hrl] at f1
  rw [f1]
  exact htar

/-- C65: exactly the values that cannot be put into an object are refused: segments, values relative to a section or
    shifted, absolute parts that are no number, and references for which there is no relocation. -/
theorem refused_iff (m : Machine) (sc : Scope) (v : Val) (l : Loc) :
    outputValue m sc v l = .error ↔
      v.segOf = true ∨ v.sectionRel = true ∨ v.rshift ≠ 0 ∨ v.abs = some .other ∨
        (∃ n, v.rel = some n) ∧ ¬ m.HasRelocation v.size v.wrt := by
  have acc : m.accepts v.size (wrtOf v.wrt) = true ↔ m.HasRelocation v.size v.wrt := by
    have plain : m.accepts v.size none = true ↔ (v.size = 8 ∨ v.size = 16 ∨ v.size = 32 ∨ v.size = 64 ∧ m.wide = true) := by
      constructor
      · exact size_of_accepts
      · rintro (h | h | h | ⟨h, hw⟩) <;> rw [h]
        · cases m <;> rfl
        · cases m <;> rfl
        · cases m <;> rfl
        · cases m <;> first | rfl | cases hw
    rcases v.wrt with _ | _ | i | _
    · exact plain
    · exact plain
    · simp only [wrtOf, Machine.accepts, Machine.HasRelocation, Option.bind_some]
      rcases m.ssyms[i]? with _ | x
      · simp
      · simp only [beq_iff_eq, Option.some.injEq, exists_eq_left']
        exact eq_comm
    · simp [wrtOf, Machine.accepts, Machine.HasRelocation]
  unfold outputValue
  by_cases h1 : (v.segOf || v.sectionRel || decide (v.rshift > 0)) = true
  · rw [if_pos h1]
    simp only [Bool.or_eq_true, decide_eq_true_iff] at h1
    simp only [true_iff]
    rcases h1 with (h | h) | h
    · exact .inl h
    · exact .inr (.inl h)
    · exact .inr (.inr (.inl (by omega)))
  · rw [if_neg h1]
    simp only [Bool.or_eq_true, decide_eq_true_iff, not_or] at h1
    have h2 : ¬ v.rshift ≠ 0 := by omega
    rw [or_iff_right h1.1.1, or_iff_right h1.1.2, or_iff_right h2]
    rcases hr : v.rel with _ | n
    · rcases ha : v.abs with _ | _ | _ <;> simp [addAbs]
    · simp only [exists_eq', true_and]
      rw [← acc]
      rcases hm : m.accepts v.size (wrtOf v.wrt) with _ | _
      · simp
      · rcases ha : v.abs with _ | _ | _ <;> simp [addAbs]

example : outputValue .amd64 sample.scope { callPuts with wrt := some .other } ⟨0, 1⟩ = .error ∧
    outputValue .amd64 sample.scope { callPuts with size := 16 } ⟨0, 1⟩ = .error := by decide +kernel

/-! ### Where the code is wrong -/

/-- A test on a symbol of the file, given its index. -/
def symIs (o : Obj) (r : Result) (i : Nat) (y : Symbol) : Bool :=
  match sectionAt r.file 2, sectionAt r.file 3 with
  | some strs, some tab => symbolAt o.machine.wide tab.bytes strs.bytes i == some y
  | _, _ => false

/-- A small object: `.text` and one more symbol. -/
def one (m : Machine) (pre : Name) (s : Sym) (dirs : List Dir) : Obj :=
  { machine := m, src0 := nMain, src := nMain, pre := pre, suf := [], allSyms := true
    syms := [local_ nText (.label 0 0), s]
    sects := [⟨nText, 1, 6, 16, 0, 0, 1, [.bytes (ascii [0x90])], []⟩]
    dirs := dirs }

/-- Data put into a section without contents, such as `.bss`, is lost, and no error is reported. -/
theorem nobits_data_lost :
    check { sample with sects := [⟨nText, 1, 6, 16, 0, 0, 0, [], []⟩, ⟨nBss, 8, 3, 4, 0, 0, 1, [.bytes (ascii [0x55])], []⟩] }
      (fun r => decide (r.errors = 0) && decide (sectionAt r.file 5 = some ⟨nBss, 8, 3, 1, 0, 0, 4, 0, []⟩)) = true := by
  decide +kernel

/-- `type main function` before `global main` drops the prefix given on the command line. -/
theorem type_drops_prefix :
    check (one .amd64 [0x5f#8] (global_ nMain (.label 0 0) 0) [.type 1 (some 2)])
      (fun r => decide (r.errors = 0) && symIs (one .amd64 [0x5f#8] (global_ nMain (.label 0 0) 0) [.type 1 (some 2)]) r 3
        ⟨nMain, 0, 0, 1, 2, 0, 4⟩) = true ∧
    check (one .amd64 [0x5f#8] (global_ nMain (.label 0 0) 2) [])
      (fun r => decide (r.errors = 0) && symIs (one .amd64 [0x5f#8] (global_ nMain (.label 0 0) 2) []) r 3
        ⟨[0x5f#8] ++ nMain, 0, 0, 1, 2, 0, 4⟩) = true := by
  decide +kernel

/-- The qualifiers of `global main:function hidden` are ignored if there is also `weak main`. -/
theorem weak_drops_qualifiers :
    check (one .amd64 [] ⟨nMain, false, false, true, true, .label 0 0, 2, 2, none, none, none⟩ [.weak 1])
      (fun r => decide (r.errors = 0) &&
        symIs (one .amd64 [] ⟨nMain, false, false, true, true, .label 0 0, 2, 2, none, none, none⟩ [.weak 1]) r 3
          ⟨nMain, 0, 0, 2, 0, 0, 4⟩) = true := by
  decide +kernel

/-- `weak puts` has no effect on a symbol that is EXTERN: it is STB_GLOBAL. -/
theorem weak_extern_lost :
    check (one .amd64 [] ⟨nPuts, true, false, true, false, .other, 0, 0, none, none, none⟩ [.weak 1])
      (fun r => decide (r.errors = 0) &&
        symIs (one .amd64 [] ⟨nPuts, true, false, true, false, .other, 0, 0, none, none, none⟩ [.weak 1]) r 3
          ⟨nPuts, 0, 0, 1, 0, 0, 0⟩) = true := by
  decide +kernel

/-- In a 32-bit file, a GLOBAL EQU with a value of more than 32 bits ends in an assertion. -/
theorem wide_equ_asserts : output (one .x86 [] (global_ nMain (.equ (.int (2 ^ 32)) false) 0) []) = none := by
  have h : check (one .x86 [] (global_ nMain (.equ (.int (2 ^ 32)) false) 0) []) (fun _ => true) = false := by decide +kernel
  unfold check at h
  split at h
  · cases h
  · rename_i hn; exact hn

/-- The relocations of a 64-bit file are said to be aligned to 8, but they are not. -/
theorem rela_misaligned :
    check { sample with
        sects := [⟨nText, 1, 6, 4, 0, 0, 12, [.bytes (ascii [0xe8, 0, 0, 0, 0, 0x90, 0x90, 0x90, 0, 0, 0, 0])],
          [⟨3, 1, true, 32, some (-4), some 1, false⟩]⟩, ⟨nBss, 8, 3, 4, 0, 0, 32, [.gap 32], []⟩] }
      (fun r => match headerAt r.file 5 with
        | some h => decide (r.errors = 0) && decide (h.align = 8) && decide (h.offset % 8 = 4)
        | none => false) = true := by
  decide +kernel

/-- `_GLOBAL_OFFSET_TABLE_ - $` in 32-bit code, in a field 1 byte into an instruction: the linker puts 1 too much
    there. -/
theorem got_relative_wrong :
    let sc : Scope := ⟨fun _ => none, fun n => n == 0⟩
    let v : Val := ⟨some 0, none, false, false, 0, true, 32, none⟩
    outputValue .x86 sc v ⟨0, 1⟩ = .ok 2 (some ⟨0, 1, true, 32, none, none, true⟩) ∧
    Machine.relocType .x86 ⟨0, 1, true, 32, none, none, true⟩ = some 10 ∧
    ∀ (k : Linker) (y : Symbol) (base : Int), k.result ⟨.got, true, 32⟩ y 0 2 (base + 1) = k.got - (base + 0) + 1 := by
  refine ⟨by decide, by decide, ?_⟩
  intro k y base
  simp only [Linker.result, Linker.quantity, if_true]
  ring

/-- `dd puts wrt ..plt` is accepted, although it is not relative; the linker subtracts the place all the same. -/
theorem plt_absolute_wrong :
    let v : Val := ⟨some 3, some (.special 1), false, false, 0, false, 32, none⟩
    outputValue .amd64 sample.scope v ⟨8, 0⟩ = .ok 0 (some ⟨3, 8, false, 32, some 0, some 1, false⟩) ∧
    Machine.relocType .amd64 ⟨3, 8, false, 32, some 0, some 1, false⟩ = some 4 ∧
    formula64 4 = some ⟨.plt, true, 32⟩ := by decide +kernel

end Verif.Elf
