/-
C71: an instruction is found by its name, and a name is refused only where it can not be used.
-/
import Verif.Match.NameLemmas
import Verif.Match.TableProps

namespace Verif.Match

open Verif.Intnum
open Verif.Expr
open Verif.Value
open Verif.Ea
open Verif.Insn

/-! ### C71: names are found -/

/-- C71: no name is in a table twice, be it for an instruction or for a prefix. -/
theorem names_distinct (p : Dialect) : ((entries p).map Entry.name).Nodup := by
  have h := (codes_distinct p).1
  rw [show (fun e : Entry => nameCode e.name) = nameCode ∘ Entry.name from rfl, ← List.map_map] at h
  exact List.Nodup.of_map _ h

theorem find_name {l : List Entry} (hd : (l.map Entry.name).Nodup) {e : Entry} (he : e ∈ l) {id : List Char}
    (h : SameName id e.name) : l.find? (fun e => e.name.toList = id.map lower) = some e := by
  induction l with
  | nil => cases he
  | cons d l ih =>
    rw [List.map_cons, List.nodup_cons] at hd
    rcases List.mem_cons.1 he with e1 | he
    · subst e1
      rw [List.find?_cons_of_pos (by simpa using h.symm)]
    · have hne : d.name ≠ e.name := fun e1 => hd.1 (e1 ▸ List.mem_map.2 ⟨e, he, rfl⟩)
      rw [List.find?_cons_of_neg (by
        intro e1
        have e1 : d.name.toList = id.map lower := of_decide_eq_true e1
        unfold SameName at h
        rw [h] at e1
        exact hne (String.toList_inj.1 e1))]
      exact ih hd.2 he

/-- C71: every instruction of the table of a syntax is found by its name in capital or small letters, and what becomes of it is for its entry to say;
    and so for the prefixes; nothing else is an instruction or a prefix. -/
theorem name_found (a : Setting) (id : List Char) :
    (∀ k ∈ keywordsOf a.parser.dialect, SameName id k.name → identify a id = .insn (k.check a)) ∧
    (∀ w ∈ prefixWords, w.has a.parser.dialect = true → SameName id w.name → identify a id = w.check a.mode) ∧
    ((∀ e ∈ entries a.parser.dialect, ¬ SameName id e.name) → identify a id = .unknown) := by
  have short : ∀ e ∈ entries a.parser.dialect, SameName id e.name → ¬ id.length > 16 := by
    intro e he h
    have := names_short _ e he
    unfold SameName at h
    rw [← h, List.length_map] at this
    omega
  have main : ∀ e ∈ entries a.parser.dialect, SameName id e.name → identify a id = match e with
      | .insn k => .insn (k.check a)
      | .pfx w => w.check a.mode := by
    intro e he h
    unfold identify
    rw [if_neg (short e he h), find_name (names_distinct _) he h]
    cases e <;> rfl
  refine ⟨fun k hk h => ?_, fun w hw hp h => ?_, fun h => ?_⟩
  · exact main (.insn k) (List.mem_append_left _ (List.mem_map.2 ⟨k, hk, rfl⟩)) h
  · exact main (.pfx w) (List.mem_append_right _ (List.mem_map.2 ⟨w, List.mem_filter.2 ⟨hw, hp⟩, rfl⟩)) h
  · unfold identify
    split
    · rfl
    · rw [List.find?_eq_none.2]
      intro e he h1
      exact h e he (of_decide_eq_true h1).symm

/-! ### C71: refusing a name in a mode -/

/-- C71: a name whose mode is not given outright is refused in a mode exactly if none of the forms that can be written with it is for
    this mode. -/
theorem mode_refusal_exact {n : RawInsn} (hn : n ∈ names) (plain : n.flagged = false) {a : Setting} {k : Keyword}
    (hk : k ∈ keywords a.parser.dialect n (groups.getD n.group [])) :
    ModeRefused (k.check a) ↔ ∀ f ∈ (k.insn a).group, Writable k a.parser f → ¬ ForMode a.mode f := by
  obtain ⟨_, h64, hn64, _⟩ := entry_of hk
  have i1 := autoFlag_iff hn plain hk n.only64 (fun r => r.flags.1) (fun f => f.only64) (fun r f h => (form_of h).2.2.2.1)
  have i2 := autoFlag_iff hn plain hk n.not64 (fun r => r.not64) (fun f => f.not64) (fun r f h => (form_of h).2.2.2.2.1)
  rw [← h64] at i1
  rw [← hn64] at i2
  unfold ModeRefused ForMode Keyword.check
  by_cases hm : a.mode = 64
  · simp only [hm, ne_eq, not_true_eq_false, false_and, if_false, true_and, if_true, Bool.not_eq_false]
    rw [← i2]
    cases k.not64
    · simp only [Bool.false_eq_true, if_false, iff_false]
      split <;> simp
    · simp
  · simp only [hm, ne_eq, not_false_eq_true, true_and, if_false, false_and, Bool.not_eq_false]
    rw [← i1]
    cases k.only64
    · simp only [Bool.false_eq_true, if_false, iff_false]
      split <;> simp
    · simp

theorem started_group {k : Keyword} {a : Setting} {x : IdInsn} (h : StartedBy k a x) :
    x.group = (k.insn a).group ∧ x.mode = a.mode ∧ x.parser = a.parser ∧ x.suffix = k.suffixBits ∧ x.cpu = a.cpu := by
  unfold StartedBy at h
  rw [h]
  exact ⟨rfl, rfl, rfl, rfl, rfl⟩

theorem fits_writable {leave : Leave} {c : Ctx} {nequ : Nat} {k : Keyword} {a : Setting} {x : IdInsn} (hx : StartedBy k a x) {f : Form}
    (h : Fits leave c nequ x f) : Writable k a.parser f ∧ ForMode a.mode f := by
  obtain ⟨_, h2, h3, h4, _⟩ := started_group hx
  have hp := h.parser
  have hm := h.mode
  rw [h3, h4] at hp
  rw [h2] at hm
  exact ⟨hp, hm⟩

/-- C71: where such a name is refused in a mode, no operands and prefixes could have made a line with it acceptable. -/
theorem refused_none_fits {n : RawInsn} (hn : n ∈ names) (plain : n.flagged = false) {a : Setting} {k : Keyword}
    (hk : k ∈ keywords a.parser.dialect n (groups.getD n.group [])) (refused : ModeRefused (k.check a)) {x : IdInsn} (hx : StartedBy k a x)
    (c : Ctx) (nequ : Nat) : ∀ f ∈ x.group, ¬ Fits .nothing c nequ x f := by
  intro f hf h
  obtain ⟨h1, h2⟩ := fits_writable hx h
  rw [(started_group hx).1] at hf
  exact (mode_refusal_exact hn plain hk).1 refused f hf h1 h2

/-! ### C71: refusing a name for the processor -/

/-- C71, in part: if the processors of a name are not given outright and all of the forms that can be written with it need the same,
    then where it is refused for them no line with it would be acceptable.  What is missing: names with forms for different processors; see
    `paddb_refused` and `bswap_refused`. -/
theorem processor_refusal_partial {n : RawInsn} (hn : n ∈ names) (plain : n.cpu = none) (hav : n.avx = false) {a : Setting} (any : a.cpu 0 = true)
    {k : Keyword} (hk : k ∈ keywords a.parser.dialect n (groups.getD n.group []))
    (same : ∀ f ∈ (k.insn a).group, ∀ f' ∈ (k.insn a).group, Writable k a.parser f → Writable k a.parser f' → f.cpu = f'.cpu)
    {l : List Nat} (refused : k.check a = .needsCpu l) {x : IdInsn} (hx : StartedBy k a x) (c : Ctx) (nequ : Nat) :
    ∀ f ∈ x.group, ¬ Fits .nothing c nequ x f := by
  intro f hf h
  obtain ⟨h1, _⟩ := fits_writable hx h
  obtain ⟨g1, _, _, _, g5⟩ := started_group hx
  rw [g1] at hf
  have hp := h.processor
  rw [g5] at hp
  have hp : ∀ j ∈ f.cpu, a.cpu j = true := by
    rcases hp with h | h
    · cases h
    · exact h
  obtain ⟨hg, _, _, hcpu, _⟩ := entry_of hk
  have hgroup : (k.insn a).group = (groups.getD n.group []).filterMap RawForm.form := by
    show k.group.filterMap _ = _
    rw [hg]
  have hc := names_checked n hn
  unfold nameChecked at hc
  simp only [Bool.and_eq_true, List.all_eq_true] at hc
  obtain ⟨⟨⟨made, _⟩, _⟩, _⟩ := hc
  have made := fun r hr => (made r hr).1
  have all : ∀ r ∈ (groups.getD n.group []).filter (applies a.parser.dialect k.suffix), ∀ j ∈ r.flags.2, a.cpu j = true := by
    intro r hr j hj
    obtain ⟨hr, ha⟩ := List.mem_filter.1 hr
    obtain ⟨f', e⟩ := Option.isSome_iff_exists.1 (made r hr)
    have hw := (applies_iff hn hk e).1 ha
    have hm : f' ∈ (k.insn a).group := by rw [hgroup]; exact List.mem_filterMap.2 ⟨r, hr, e⟩
    rw [same f hf f' hm h1 hw] at hp
    obtain ⟨_, _, _, _, _, e1, e2⟩ := form_of e
    refine hp j ?_
    rw [e1, List.take_append]
    exact List.mem_append_left _ (by rw [List.take_of_length_le e2]; exact hj)
  have need : ∀ j ∈ k.cpu, a.cpu j = true := by
    rw [hcpu]
    unfold autoCpu
    rw [plain]
    simp only [hav, Bool.false_eq_true, if_false]
    generalize (groups.getD n.group []).filter (applies a.parser.dialect k.suffix) = l at all
    cases l with
    | nil => intro j hj; cases hj
    | cons r rs => exact cpuLcd_fold (all r (by simp)) (fun q hq => all q (by simp [hq]))
  have hall : ((k.cpu ++ [0, 0, 0]).take 3).all a.cpu = true := by
    rw [List.all_eq_true]
    intro j hj
    rcases List.mem_append.1 (List.mem_of_mem_take hj) with hj | hj
    · exact need j hj
    · simp only [List.mem_cons, List.not_mem_nil, or_false, or_self] at hj
      rw [hj]
      exact any
  unfold Keyword.check at refused
  rw [hall] at refused
  split at refused
  · cases refused
  · split at refused <;> cases refused

/-- No entry has more than three processors or modifiers. -/
theorem keywords_short {n : RawInsn} (hn : n ∈ names) {p : Dialect} {k : Keyword} (hk : k ∈ keywords p n (groups.getD n.group [])) :
    n.modifiers.length ≤ 3 ∧ k.cpu.length ≤ 3 := by
  have hc := names_checked n hn
  unfold nameChecked at hc
  simp only [Bool.and_eq_true, List.all_eq_true, decide_eq_true_eq] at hc
  obtain ⟨⟨_, h⟩, h2⟩ := hc
  exact ⟨h, (h2 p (by cases p <;> simp) k hk).1.2⟩

/-! ### Cases -/

/-- A name of NASM with a list of operands: the processors it is refused for, if it is, and those of the form that would
    have been used. -/
def despite (n : RawInsn) (a : Setting) (ops : List Operand) : Option (List Nat × List Nat) :=
  match keywords .nasm n (groups.getD n.group []) with
  | [k] =>
    match k.check a, findMatch noSyms 1 0 { k.insn a with ops := ops } with
    | .needsCpu l, .ok (some f) => some (l, f.cpu)
    | _, _ => none
  | _ => none

set_option maxRecDepth 100000 in
/-- C71 fails for `paddb xmm0, xmm1` after `CPU nommx`, or after `CPU 686 sse2`: the form is one of SSE2 alone, but the name is
    refused as one of MMX.  (`cpu_lcd` takes the lowest of the features its forms need, but a feature does not bring the lower
    ones with it.) -/
theorem paddb_refused :
    names[466]? = some { name := "paddb", group := 78, modifiers := [252] } ∧
    despite { name := "paddb", group := 78, modifiers := [252] } { plainly 32 with cpu := fun k => decide (k ≠ 14) } [regOp 0x80, regOp 0x81] =
      some ([14], [16, 0, 0]) ∧
    despite { name := "paddb", group := 78, modifiers := [252] } { plainly 32 with cpu := fun k => decide (k ≤ 6 ∨ k = 16) }
      [regOp 0x80, regOp 0x81] = some ([14], [16, 0, 0]) := by
  refine ⟨rfl, ?_, ?_⟩ <;> with_unfolding_all decide +kernel

set_option maxRecDepth 100000 in
/-- C71 fails for `bswap rax` if no processor is enabled: the form needs none, but the name is refused as one of the 486, which only its
    first form needs.  (`cpu_lcd` takes the minimum of the first of two sets twice, instead of that of each.) -/
theorem bswap_refused :
    names[392]? = some { name := "bswap", group := 69 } ∧
    despite { name := "bswap", group := 69 } { plainly 64 with cpu := fun k => decide (k = 0) } [regOp 0x50] = some ([4], [0, 0, 0]) := by
  refine ⟨rfl, ?_⟩
  with_unfolding_all decide +kernel

set_option maxRecDepth 100000 in
/-- `bound` has no form for 64-bit mode and is refused there, but not otherwise. -/
example :
    names[260]? = some { name := "bound", group := 46 } ∧ ({ name := "bound", group := 46 } : RawInsn).flagged = false ∧
    (match keywords .nasm { name := "bound", group := 46 } (groups.getD 46 []) with
      | [k] => (match k.check (plainly 64), k.check (plainly 32) with | .not64, .insn _ => true | _, _ => false)
      | _ => false) = true := by
  refine ⟨rfl, rfl, ?_⟩
  with_unfolding_all decide +kernel

set_option maxRecDepth 100000 in
/-- `cmovne` has forms for the 686 only, and is refused on a 586; `processor_refusal_partial` says that this is right. -/
example :
    names[423]? = some { name := "cmovne", group := 72, modifiers := [5] } ∧
    (match keywords .nasm { name := "cmovne", group := 72, modifiers := [5] } (groups.getD 72 []) with
      | [k] => (match k.check { plainly 32 with cpu := fun j => decide (j ≤ 5) } with | .needsCpu l => decide (l = [6]) | _ => false) &&
          ((k.insn (plainly 32)).group.all fun f => decide (f.gasOnly = false → f.cpu = [6, 0, 0]))
      | _ => false) = true := by
  refine ⟨rfl, ?_⟩
  with_unfolding_all decide +kernel

set_option maxRecDepth 100000 in
/-- `AdD` and `LOCK`, and `addd`. -/
example :
    (match identify (plainly 32) ['A', 'd', 'D'], identify (plainly 32) ['L', 'O', 'C', 'K'], identify (plainly 32) ['a', 'd', 'd', 'd'] with
      | .insn (.insn x), .pfx v, .unknown => decide (x.modData = [0, 0, 0]) && decide (v = .lockrep 0xF0)
      | _, _, _ => false) = true := by
  with_unfolding_all decide +kernel

end Verif.Match
