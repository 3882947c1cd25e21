import Verif.Unwind.More
/-
C82: unwind information.
-/
namespace Verif.Unwind

/-- A procedure whose prologue is described by directives is recorded, and unless something is
    reported the system reads from its unwind information what they say: the operations from the
    last to the first, each at its place in the prologue, the length of the prologue, the frame and
    whether there is a handler; and it goes on reading behind it.  Missing for the full statement:
    sizes and offsets from 2^32 on, and registers of the wrong kind. -/
theorem unwind_read_partial (s : St) (hs : s.proc = none) (h : Bool) (start e z : Int) (l : List (Int × Dir))
    (hl : ∀ d ∈ l, d.2.isOp = true) (hf : ∀ d ∈ l, d.2.fits) (hp : ∀ d ∈ l, start ≤ d.1 ∧ d.1 ≤ e) :
    ∃ i : Info, s.dirs ((start, .procFrame h) :: l ++ [(e, .endProlog), (z, .endProc)]) =
        { s with proc := none, prologDone := false, out := s.out ++ [i] } ∧
      (i.errs start = [] → ∀ rest, readInfo (i.bytes start ++ rest) =
        some (⟨h, (e - start).toNat, (frame l).1 % 16, (frame l).2.toNat, l.reverse.map (fun d => ((d.1 - start).toNat, d.2.says))⟩, rest)) :=
  ⟨infoOf h e l, proc_recorded s hs h start e z l hl, fun herr rest => info_read h start e l hl hf hp herr rest⟩

/-- Nothing is reported for a prologue of at most 255 bytes and 85 operations that the system can be
    told about. -/
theorem unwind_accepted (s : St) (hs : s.proc = none) (h : Bool) (start e z : Int) (l : List (Int × Dir))
    (hl : ∀ d ∈ l, d.2.isOp = true) (hv : ∀ d ∈ l, d.2.valid) (hp : ∀ d ∈ l, start ≤ d.1 ∧ d.1 ≤ e)
    (he : start ≤ e ∧ e - start ≤ 255) (hn : l.length ≤ 85) :
    ∃ i : Info, s.dirs ((start, .procFrame h) :: l ++ [(e, .endProlog), (z, .endProc)]) =
        { s with proc := none, prologDone := false, out := s.out ++ [i] } ∧ i.errs start = [] :=
  ⟨infoOf h e l, proc_recorded s hs h start e z l hl, info_accepted h start e l hl hv hp he hn⟩

-- push rbp; lea rbp, [rsp+20h]; sub rsp, 1000h; save xmm6
example : ∀ d ∈ ([(1, .pushReg 5), (6, .setFrame 5 32), (13, .allocStack 4096), (18, .saveXmm 6 16)] : List (Int × Dir)),
    d.2.isOp = true ∧ d.2.valid ∧ d.2.fits ∧ (0 : Int) ≤ d.1 ∧ d.1 ≤ 18 := by
  intro d hd
  simp only [List.mem_cons, List.not_mem_nil, or_false] at hd
  rcases hd with rfl | rfl | rfl | rfl <;> simp [Dir.isOp, Dir.valid, Dir.fits]

/-- A directive for the prologue outside of one is reported. -/
theorem outside_reported (s : St) (pos : Int) (d : Dir) (hd : d.isOp = true ∨ d = .endProlog) (hs : s.proc = none ∨ s.prologDone = true) :
    ∃ e, s.dir pos d = { s with errs := s.errs ++ [e] } := by
  have key : ∀ f, ∃ e, s.checked f = { s with errs := s.errs ++ [e] } := by
    intro f
    unfold St.checked
    cases hp : s.proc with
    | none => exact ⟨.noProc, by cases s; simp_all⟩
    | some i =>
      rcases hs with h | h
      · rw [hp] at h; simp at h
      · exact ⟨.afterProlog, by simp only [h, ↓reduceIte]⟩
  rcases hd with hd | rfl
  · cases d <;> first | (simp [Dir.isOp] at hd; done) | exact key _
  · exact key _

example : St.init.proc = none := rfl

/-- Procedures within each other are reported. -/
theorem nested_reported (s : St) (pos : Int) (h : Bool) (hs : s.proc ≠ none) :
    s.dir pos (.procFrame h) = { s with errs := s.errs ++ [.nested] } := by
  cases hp : s.proc with
  | none => exact absurd hp hs
  | some i => simp only [St.dir, hp]

/-- The end of a procedure that has not been started, or whose prologue has not been ended, is reported, and no information is recorded for it. -/
theorem end_reported (s : St) (pos : Int) (hs : s.proc = none ∨ s.prologDone = false) :
    (s.dir pos .endProc).out = s.out ∧ (s.dir pos .endProc).proc = none ∧ ∃ e, (s.dir pos .endProc).errs = s.errs ++ [e] := by
  cases hp : s.proc with
  | none => simp only [St.dir, hp]; exact ⟨trivial, trivial, _, rfl⟩
  | some i =>
    have hd : s.prologDone = false := by
      rcases hs with h | h
      · rw [hp] at h; cases h
      · exact h
    simp only [St.dir, hp, hd, Bool.false_eq_true, if_false]
    exact ⟨trivial, trivial, _, rfl⟩

-- its hypotheses are met
example : (St.dirs ⟨none, false, [], []⟩ [(0, .procFrame false), (1, .pushReg 5), (9, .endProc)]).errs.length = 1 := by decide +kernel

/-- Each entry of the table of functions refers to the unwind information of its procedure, if
    nothing else is in the section. -/
theorem entries_point_partial (l : List (Info × Int)) :
    (XData.addAll ⟨[], []⟩ l).refs.length = l.length ∧
    ∀ k, (hk : k < l.length) → (hr : k < (XData.addAll ⟨[], []⟩ l).refs.length) →
      ∃ rest, (XData.addAll ⟨[], []⟩ l).data.drop (XData.addAll ⟨[], []⟩ l).refs[k] = (l[k]).1.bytes (l[k]).2 ++ rest := by
  obtain ⟨_, _, r, h1, h2, h3⟩ := addAll_points l ⟨[], []⟩ rfl
  simp only [List.nil_append] at h1
  subst h1
  exact ⟨h2, fun k hk hr => h3 k hk hr⟩

/-! ## Where it fails -/

/-- If something else was put into the section, the entry refers to the padding before the unwind
    information, which the system reads as something else. -/
theorem entry_misses :
    (XData.add ⟨[0], []⟩ (infoOf false 1 [(1, .pushReg 5)]) 0).refs = [1] ∧
    ((XData.add ⟨[0], []⟩ (infoOf false 1 [(1, .pushReg 5)]) 0).data.drop 1 ≠ (infoOf false 1 [(1, .pushReg 5)]).bytes 0) ∧
    readInfo ((XData.add ⟨[0], []⟩ (infoOf false 1 [(1, .pushReg 5)]) 0).data.drop 1) = none := by decide +kernel

/-- An allocation of 2^32 bytes and 16 is written as one of 16 bytes; there is a warning only. -/
theorem large_truncated :
    (infoOf false 7 [(7, .allocStack 4294967312)]).errs 0 = [] ∧
    readInfo ((infoOf false 7 [(7, .allocStack 4294967312)]).bytes 0) =
      some (⟨false, 7, 0, 0, [(7, .alloc 16)]⟩, []) := by decide +kernel

/-- The kind of a register is not looked at: `[pushreg xmm3]` says that `rbx` was pushed. -/
theorem kind_ignored (s : St) (k r : Nat) (pos : Int) : s.dir pos (.pushReg (16 * k + r)) = s.dir pos (.pushReg r) := by
  simp only [St.dir, Nat.mul_add_mod]

/-- Of two directives for the frame the information of the first is lost. -/
theorem first_frame_lost :
    readInfo ((infoOf false 9 [(4, .setFrame 5 32), (8, .setFrame 3 48)]).bytes 0) =
      some (⟨false, 9, 3, 48, [(8, .setFrame), (4, .setFrame)]⟩, []) := by decide +kernel

end Verif.Unwind
