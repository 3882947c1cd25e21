import Verif.Stabs.Read
/-
C91: a debugger that reads the stabs of a program finds its source file, its functions and the lines of its addresses.
-/
namespace Verif.Stabs
open Verif.Elf (Byte Name)

/-- Stabs are made for every program that has a section `.text`. -/
theorem made (o : Obj) (s : Sect) (hs : s ∈ o.sects) (hn : s.name = dotText) : ∃ r, generate o = some r := by
  unfold generate
  rw [if_neg]
  · exact ⟨_, rfl⟩
  · intro h
    have := List.all_eq_true.1 h s hs
    simp [hn] at this

/-- The first stab has the number of the others and the size of the strings, and more than 65535 stabs are reported. -/
theorem header_read_partial (o : Obj) (s : Sect) (rest : List Sect) (r : Result) (addr : Ref → Nat) (ho : o.sects = s :: rest) (hn : s.name = dotText)
    (h : generate o = some r) (hf : Fits o s r) :
    ∃ first others, readStabs addr r = some (first :: others) ∧ first.string = o.src ∧ first.type = 0 ∧ first.value = r.stabstr.length ∧
      (if others.length ≤ 65535 then first.desc = others.length ∧ r.warnings = 0 else r.warnings = 1) := by
  obtain ⟨n, v, h1, h2, h3⟩ := read_all (addr := addr) ho hn h hf
  refine ⟨_, _, h1, rfl, rfl, h3, ?_⟩
  have hw := (generate_eq ho hn h).2.2
  have hlen : ∀ st es, (stabsOf st es).length = es.length := by
    intro st es
    induction es generalizing st with
    | nil => rfl
    | cons e es ih => cases e <;> simp [stabsOf, ih]
  have hl : (tailOf o s).length = s.evs.length + 2 := by simp [tailOf, hlen]
  rw [hl] at hw
  rw [hw, h2]
  simp only [List.length_cons, List.length_append, List.length_map, List.length_nil]
  by_cases hc : s.evs.length + 2 > 0xffff
  · rw [if_neg (by omega), if_pos hc]
  · rw [if_pos (by omega), if_neg hc, if_neg hc]
    exact ⟨rfl, rfl⟩

/-- Where `.text` is the first section, a debugger finds the source file, at the start of the section, an end at the end of it, and at each place with
    labels the first label without a dot or dollar sign as a function, at its address.  Missing from the full property: other sections
    (`second_section_lost`), and the files of included lines. -/
theorem functions_read_partial (o : Obj) (s : Sect) (rest : List Sect) (r : Result) (addr : Ref → Nat) (base : Nat) (ho : o.sects = s :: rest)
    (hn : s.name = dotText) (h : generate o = some r) (hf : Fits o s r) (ha : Addrs s base addr) :
    ∃ l, readStabs addr r = some l ∧ (walk none l).files = [(o.src, base), ([], base + lengthOf s.bcs)] ∧
      (walk none l).funs = s.functions.map fun p => (p.1, base + p.2) := by
  obtain ⟨n, v, h1, -, -⟩ := read_all (addr := addr) ho hn h hf
  refine ⟨_, h1, ?_⟩
  have hw := walk_events (addr := addr) s.evs none ([], addr .last) (Sect.evs_clean hf)
  have e : walk none (⟨o.src, 0, n, v⟩ :: ⟨o.src, 0x64, 0, addr .text⟩ :: (s.evs.map (readOf addr) ++ [⟨[], 0x64, 0, addr .last⟩])) =
      { walk none (s.evs.map (readOf addr) ++ [⟨[], 0x64, 0, addr .last⟩]) with files := (o.src, addr .text) ::
        (walk none (s.evs.map (readOf addr) ++ [⟨[], 0x64, 0, addr .last⟩])).files } := rfl
  rw [e, hw]
  exact ⟨by simp only [ha.text, ha.last], Sect.fns ha⟩

/-- Where moreover the section starts with a function, other functions are only behind bytecodes without bytes, and lines are from 1 to 65535, a debugger
    finds for every address in a bytecode the line of that bytecode.  Missing from the full property: other functions
    (`second_function_wrong`), code before the first function (`first_line_lost`), later lines (`line_wraps`), other sections. -/
theorem lines_read_partial (o : Obj) (s : Sect) (rest : List Sect) (r : Result) (addr : Ref → Nat) (base : Nat) (ho : o.sects = s :: rest)
    (hn : s.name = dotText) (h : generate o = some r) (hf : Fits o s r) (ha : Addrs s base addr)
    (hstart : s.first.any funLabel = true) (hempty : ∀ b ∈ s.bcs, b.labels.any funLabel = true → b.len = 0)
    (hline : ∀ b ∈ s.bcs, 0 < b.line ∧ b.line < 65536) :
    ∃ l, readStabs addr r = some l ∧ ∀ off b a, s.HasAt off b → off ≤ a → a < off + b.len →
      lineOf (walk none l).lines (base + a) = some b.line := by
  obtain ⟨n, v, h1, -, -⟩ := read_all (addr := addr) ho hn h hf
  refine ⟨_, h1, ?_⟩
  have hw := walk_events (addr := addr) s.evs none ([], addr .last) (Sect.evs_clean hf)
  have e : walk none (⟨o.src, 0, n, v⟩ :: ⟨o.src, 0x64, 0, addr .text⟩ :: (s.evs.map (readOf addr) ++ [⟨[], 0x64, 0, addr .last⟩])) =
      { walk none (s.evs.map (readOf addr) ++ [⟨[], 0x64, 0, addr .last⟩]) with files := (o.src, addr .text) ::
        (walk none (s.evs.map (readOf addr) ++ [⟨[], 0x64, 0, addr .last⟩])).files } := rfl
  rw [e, hw]
  rintro off b a ⟨pre, post, hp, rfl⟩ h2 h3
  obtain ⟨f, hfn⟩ : ∃ f, s.first.find? funLabel = some f := by
    rw [← Option.isSome_iff_exists, List.find?_isSome]
    exact List.any_eq_true.1 hstart
  have hadd : addr (.label f) = base + 0 := ha.label f 0 (by simp [Sect.functions, hfn])
  have el : lns addr none s.evs = lns addr (some (base + 0)) (evs (some 0) 0 none 0 s.bcs) := by
    unfold Sect.evs evFun baseAfter
    rw [isFun_eq, hfn]
    simp only [Option.map_some, Option.toList_some, List.singleton_append, lns, hadd, Option.isSome_some, if_true]
  show lineOf (lns addr none s.evs) (base + a) = some b.line
  rw [el]
  have := lines_lemma (addr := addr) (base := base) s.bcs 0 0 0 none
    ⟨fun n k hm => ha.label n k (List.mem_append.2 (.inr hm)), hempty, hline⟩ (le_refl _) [] (by simp) (by simp) pre post b hp a (by omega) (by omega)
  rwa [List.nil_append] at this

/-! ### A program -/

/-- The file name `a`, and the names `f` and `g`. -/
def fileA : Name := [97]
def nameF : Name := [102]
def nameG : Name := [103]

/-- A function `f` of two instructions and a `g` behind an empty alignment: lines 2, 3 and 5. -/
def sampleText : Sect := ⟨dotText, [nameF], [⟨fileA, 2, 3, [[46, 76]]⟩, ⟨fileA, 3, 1, []⟩, ⟨fileA, 4, 0, [nameG]⟩, ⟨fileA, 5, 2, []⟩]⟩
def sample : Obj := ⟨fileA, [sampleText]⟩

def sampleAddr : Ref → Nat
  | .text => 0x1000
  | .last => 0x1006
  | .label n => if n = nameF then 0x1000 else 0x1004

/-- The hypotheses hold of the program, and this is what is read. -/
theorem sample_ok : ∃ r, generate sample = some r ∧ Fits sample sampleText r ∧ Addrs sampleText 0x1000 sampleAddr ∧
    sampleText.first.any funLabel = true ∧ (∀ b ∈ sampleText.bcs, b.labels.any funLabel = true → b.len = 0) ∧
    (∀ b ∈ sampleText.bcs, 0 < b.line ∧ b.line < 65536) ∧
    (readStabs sampleAddr r).map (walk none) = some ⟨[(fileA, 0x1000), ([], 0x1006)], [(nameF, 0x1000), (nameG, 0x1004)],
      [(2, 0x1000), (3, 0x1003), (4, 0x1004), (5, 0x1004)]⟩ := by
  refine ⟨_, rfl, ⟨by decide, by decide, by decide, by decide +kernel, by decide⟩, ⟨rfl, ?_, rfl⟩, by decide, by decide, by decide, by decide +kernel⟩
  intro n off h
  have : sampleText.functions = [(nameF, 0), (nameG, 4)] := by decide
  rw [this] at h
  simp only [List.mem_cons, Prod.mk.injEq, List.not_mem_nil, or_false] at h
  rcases h with ⟨rfl, rfl⟩ | ⟨rfl, rfl⟩ <;> rfl

example : sampleText.HasAt 3 ⟨fileA, 3, 1, []⟩ := ⟨[⟨fileA, 2, 3, [[46, 76]]⟩], _, rfl, rfl⟩

/-! ### Where the property fails -/

/-- What is read of a program, as the linker places `.text` at 0x1000 and labels where `lab` says. -/
def found (o : Obj) (lab : Name → Nat) : Option Info' :=
  (generate o).bind fun r => (readStabs (fun | .text => 0x1000 | .last => 0 | .label n => lab n) r).map (walk none)

/-- A second function: `f` has instructions of 3 bytes on lines 2 and 3, `g`, at 0x1006, has one on line 4.  Lines are counted from the start of the
    bytecode before the label (stabs-dbgfmt.c:252, 289), which is the last of `f`: line 3 is entered at 0x1006 instead of 0x1003 and line 4 at 0x1009
    instead of 0x1006, and so the start of `g` is read as line 3. -/
def two : Obj := ⟨fileA, [⟨dotText, [nameF], [⟨fileA, 2, 3, []⟩, ⟨fileA, 3, 3, [nameG]⟩, ⟨fileA, 4, 3, []⟩]⟩]⟩

theorem second_function_wrong : (found two fun n => if n = nameF then 0x1000 else 0x1006).map (·.lines) =
    some [(2, 0x1000), (3, 0x1006), (4, 0x1009)] ∧ (found two fun n => if n = nameF then 0x1000 else 0x1006).map (fun i => lineOf i.lines 0x1006) =
    some (some 3) := by decide +kernel

/-- `stabs_dbgfmt_generate_sections` returns 1, and that ends the traversal: where another section is first, nothing of `.text` is found. -/
def dataFirst : Obj := ⟨fileA, [⟨[46, 100], [], []⟩, ⟨dotText, [nameF], [⟨fileA, 2, 3, []⟩]⟩]⟩

theorem second_section_lost : (found dataFirst fun _ => 0x1000) = some ⟨[(fileA, 0x1000)], [], []⟩ := by decide +kernel

/-- A function that starts in the middle of a line's bytecodes: no line is entered for the rest of the line. -/
def middle : Obj := ⟨fileA, [⟨dotText, [], [⟨fileA, 2, 1, []⟩, ⟨fileA, 2, 0, [nameF]⟩, ⟨fileA, 2, 1, []⟩]⟩]⟩

theorem first_line_lost : (found middle fun _ => 0x1001).map (·.lines) = some [] := by decide +kernel

/-- Line numbers are cut to 16 bits without a word: line 65538 is read as line 2. -/
def long : Obj := ⟨fileA, [⟨dotText, [nameF], [⟨fileA, 65538, 3, []⟩]⟩]⟩

theorem line_wraps : (found long fun _ => 0x1000).map (·.lines) = some [(2, 0x1000)] ∧ (generate long).map (·.warnings) = some 0 := by decide +kernel

/-- The lines of an included file are read as lines of the source file. -/
def included : Obj := ⟨fileA, [⟨dotText, [nameF], [⟨fileA, 2, 3, []⟩, ⟨[98], 7, 3, []⟩]⟩]⟩

theorem file_lost : (found included fun _ => 0x1000) = some ⟨[(fileA, 0x1000), ([], 0)], [(nameF, 0x1000)], [(2, 0x1000), (7, 0x1003)]⟩ := by
  decide +kernel

/-- A program without a section `.text` crashes the assembler. -/
theorem no_text_crashes : generate ⟨fileA, [⟨[46, 100], [nameF], [⟨fileA, 2, 3, []⟩]⟩]⟩ = none := by decide +kernel

end Verif.Stabs
