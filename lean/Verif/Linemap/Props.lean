import Verif.Linemap.Lemmas

/-
C01, C02, C41: the line map.
-/
namespace Verif.Linemap

/-- Calls allowed on a line map in specification state `s`: a mapping is made at the current line
    (`v = 0`, what the parsers and front ends do), or at a line already reached whose predecessor
    is already mapped. -/
def OkOp (s : Spec.State) : Op → Prop
  | .set _ v _ _ => v = 0 ∨ ((s.pos (v - 1)).isSome ∧ v ≤ s.current)
  | _ => True

/-- Every operation of a history is allowed at the point where it is issued. -/
def OkHist : Spec.State → List Op → Prop
  | _, [] => True
  | s, op :: ops => OkOp s op ∧ OkHist (Spec.step s op) ops

theorem run_inv (ops : List Op) : ∀ {lm : Linemap} {s : Spec.State}, Inv lm s → OkHist s ops →
    Inv (run lm ops) (Spec.run s ops) := by
  induction ops with
  | nil => intro lm s h _; exact h
  | cons op ops ih =>
    intro lm s h hok
    refine ih (lm := step lm op) (s := Spec.step s op) ?_ hok.2
    cases op with
    | set f v fl inc => exact inv_set h f v fl inc hok.1
    | next => exact inv_next h
    | source bc t => exact inv_source h bc t

/-- **C01.**  After any allowed history, every mapped line is looked up at the position the
    pointwise specification gives it. -/
theorem lookup_correct (ops : List Op) (hok : OkHist Spec.init ops) (l : Nat) (hl : 0 < l)
    (p : String × Int) (hp : (Spec.run Spec.init ops).pos l = some p) :
    lookup (run create ops) l = some p := by
  have h := run_inv ops inv_init hok
  rw [h.agree, Option.map_eq_some_iff] at hp
  obtain ⟨m, hm, rfl⟩ := hp
  exact lookup_eq h.sorted l hl m hm

/-- The lookup is defined (no uninitialised read) as soon as one mapping has been made. -/
theorem lookup_defined (ops : List Op) (f : Option String) (fl inc : Int)
    (hok : OkHist Spec.init (.set f 0 fl inc :: ops)) (l : Nat) (hl : 0 < l) :
    (Spec.run Spec.init (.set f 0 fl inc :: ops)).pos l ≠ none := by
  have base : ∀ (ops : List Op) (s : Spec.State), (∀ l, 0 < l → s.pos l ≠ none) →
      ∀ l, 0 < l → (Spec.run s ops).pos l ≠ none := by
    intro ops
    induction ops with
    | nil => intro s h; exact h
    | cons op ops ih =>
      intro s h
      refine ih (Spec.step s op) ?_
      cases op with
      | set f v fl inc =>
        intro l hl
        simp only [Spec.step, Spec.set]
        split
        · exact h l hl
        · simp
      | next => exact h
      | source bc t => exact h
  refine base ops _ ?_ l hl
  intro l hl
  simp only [Spec.step, Spec.set, Spec.startOf, Spec.init]
  rw [if_pos trivial, if_neg (by omega)]
  simp

/-- A history with replaced mappings, inherited names and a mapping at an earlier line. -/
def exampleHist : List Op :=
  [.set (some "a.asm") 0 1 1, .next, .next, .set (some "b.inc") 0 10 2, .next,
   .set none 3 20 1, .next, .source (some 7) "mov ax, bx", .set none 0 100 0]

example : OkHist Spec.init exampleHist := by
  simp [OkHist, OkOp, exampleHist, Spec.step, Spec.set, Spec.init, Spec.startOf]

example : (Spec.run Spec.init exampleHist).pos 4 = some ("a.asm", 21) := by
  simp [exampleHist, Spec.run, Spec.step, Spec.set, Spec.init, Spec.startOf, Spec.inheritedName]

example : lookup (run create exampleHist) 4 = some ("a.asm", 21) := by decide

/-- The restriction in `OkOp` is needed: replacing from the very first mapped line appends instead
    of replacing (linemap.c:94-115), and lookups then return a stale mapping. -/
theorem set_at_first_line_wrong :
    let ops := [Op.set (some "a") 0 1 1, .next, .set (some "b") 0 50 1, .next,
      .set (some "d") 0 60 1, .set (some "c") 1 7 1]
    lookup (run create ops) 1 = some ("a", 1) ∧ (Spec.run Spec.init ops).pos 1 = some ("c", 7) ∧
    lookup (run create ops) 2 = some ("b", 50) ∧ (Spec.run Spec.init ops).pos 2 = some ("c", 8) := by
  refine ⟨by decide, ?_, by decide, ?_⟩ <;>
    simp [Spec.run, Spec.step, Spec.set, Spec.init, Spec.startOf]

/-- linemap.h: "filename: physical file name (if NULL, not changed)".  Not so when the mapping
    replaced is on the same line: the name of the mapping before it comes back. -/
theorem null_filename_changes_name :
    let lm := run create [Op.set (some "a") 0 1 1, .next, .set (some "b") 0 5 1]
    lookup lm 2 = some ("b", 5) ∧ lookup (set lm none 0 9 1) 2 = some ("a", 9) := by
  decide

/-! ### C02: poke -/

/-- **C02 (part).**  The poked line maps to the given position and no line before it changes.
    Missing from C02: the lines after it do *not* return to the original mapping, see
    `poke_does_not_restore`. -/
theorem poke_partial (ops : List Op) (hok : OkHist Spec.init ops) (f : String) (fl : Int) :
    let lm := run create ops
    ∃ lm', poke lm (some f) fl = some (lm.current + 1, lm') ∧
      lm'.current = lm.current + 2 ∧
      lookup lm' (lm.current + 1) = some (f, fl) ∧
      ∀ l p, 0 < l → l ≤ lm.current → (Spec.run Spec.init ops).pos l = some p →
        lookup lm' l = some p := by
  intro lm
  have h : Inv lm (Spec.run Spec.init ops) := run_inv ops inv_init hok
  generalize Spec.run Spec.init ops = s at h
  have h1 := inv_set (inv_next h) (some f) 0 fl 0 (Or.inl rfl)
  have h2 := inv_set (inv_next h1) (some f) 0
    (fl + 0 * (((lm.current + 1 + 1 : Nat) : Int) - 2 - ((lm.current + 1 : Nat) : Int))) 0
    (Or.inl rfl)
  have hp : poke lm (some f) fl = some (lm.current + 1,
      set (gotoNext (set (gotoNext lm) (some f) 0 fl 0)) (some f) 0
        (fl + 0 * (((lm.current + 1 + 1 : Nat) : Int) - 2 - ((lm.current + 1 : Nat) : Int))) 0) := by
    simp [poke, set, gotoNext, chooseName]
  refine ⟨_, hp, ?_, ?_, ?_⟩
  · simp [set, gotoNext]
  · have hpos : (lastLe (set (gotoNext (set (gotoNext lm) (some f) 0 fl 0)) (some f) 0
        (fl + 0 * (((lm.current + 1 + 1 : Nat) : Int) - 2 - ((lm.current + 1 : Nat) : Int)))
        0).maps (lm.current + 1)).map (fun m => posOf m (lm.current + 1)) = some (f, fl) := by
      rw [← h2.agree]
      have hc := h.cur
      simp [Spec.set, Spec.startOf, ← hc]
    obtain ⟨m, hm, hme⟩ := Option.map_eq_some_iff.1 hpos
    rw [lookup_eq h2.sorted _ (by omega) m hm, hme]
  · intro l p hl hle hsp
    have hpos : (lastLe (set (gotoNext (set (gotoNext lm) (some f) 0 fl 0)) (some f) 0
        (fl + 0 * (((lm.current + 1 + 1 : Nat) : Int) - 2 - ((lm.current + 1 : Nat) : Int)))
        0).maps l).map (fun m => posOf m l) = some p := by
      rw [← h2.agree, ← hsp]
      have hc := h.cur
      simp only [Spec.set, Spec.startOf, ← hc, if_true]
      rw [if_pos (by omega), if_pos (by omega)]
    obtain ⟨m, hm, hme⟩ := Option.map_eq_some_iff.1 hpos
    rw [lookup_eq h2.sorted _ hl m hm, hme]

/-- The negation of C02's last clause: in a file mapped line-for-line, after a poke the following
    lines stay glued to the poked position. -/
theorem poke_does_not_restore :
    let lm := run create [Op.set (some "a.asm") 0 1 1, .next, .next]
    lookup lm 3 = some ("a.asm", 3) ∧
    (poke lm (some "inc") 77).map (fun r => (lookup r.2 (r.1 + 1), lookup r.2 (r.1 + 2))) =
      some (some ("inc", 77), some ("inc", 77)) := by
  decide

/-! ### C41: source text -/

theorem run_sinv (ops : List Op) : ∀ {lm : Linemap} {s : Spec.State}, SInv lm s →
    SInv (run lm ops) (Spec.run s ops) := by
  induction ops with
  | nil => intro lm s h; exact h
  | cons op ops ih => intro lm s h; exact ih (sinv_step h op)

/-- **C41.**  The source text of a line is the last one recorded while that line was current;
    lines without one are reported as such; nothing outside the recorded lines is read. -/
theorem getSource_correct (ops : List Op) (l : Nat) (hl : 1 ≤ l) :
    getSource (run create ops) l =
      match (Spec.run Spec.init ops).src l with
      | some (bc, t) => .found bc t
      | none => .notFound := by
  have h := run_sinv ops sinv_init
  rw [h.agree l hl]
  unfold getSource
  split
  · next hgt => rw [List.getElem?_eq_none (by omega)]
  · rw [if_neg (by omega)]
    cases (run create ops).sources[l - 1]? with
    | none => rfl
    | some x =>
      obtain ⟨bc, t⟩ := x
      cases t <;> rfl

example : getSource (run create exampleHist) 5 = .found (some 7) "mov ax, bx" ∧
    getSource (run create exampleHist) 4 = .notFound := by decide

end Verif.Linemap
