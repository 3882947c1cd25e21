import Verif.Lines.Nasm
/-
C93: the lines that are assembled are the lines of the source file.
-/
namespace Verif.Lines

/-- Raw and GAS: every file of lines of any length, each with LF or CR LF at its end, perhaps with more text behind the last, is read as just these lines.
    Missing from the full property: carriage returns within lines (`return_cuts`) and zero characters (`zero_joins`). -/
theorem lines_read_partial (ls : List (Str × Bool)) (tail : Str) (hl : ∀ l ∈ ls, Plain l.1) (ht : Plain tail) (fuel : Nat)
    (hf : (ls.flatMap write ++ tail).length + 1 < fuel) :
    lines growRaw fuel (ls.flatMap write ++ tail) = some (ls.map (·.1) ++ (if tail = [] then [] else [tail])) :=
  lines_eq reads_raw trivial ls tail (fun l h => ⟨hl l h, trivial⟩) ⟨ht, trivial⟩ fuel hf

/-- CPP: the same for lines of up to 509 characters.  Missing: longer lines (`cpp_hangs`). -/
theorem cpp_lines_read_partial (ls : List (Str × Bool)) (tail : Str) (hl : ∀ l ∈ ls, Plain l.1 ∧ l.1.length ≤ 509)
    (ht : Plain tail ∧ tail.length ≤ 509) (fuel : Nat) (hf : (ls.flatMap write ++ tail).length + 1 < fuel) :
    lines growCpp fuel (ls.flatMap write ++ tail) = some (ls.map (·.1) ++ (if tail = [] then [] else [tail])) :=
  lines_eq reads_cpp (by simp) ls tail (fun l h => ⟨(hl l h).1, by have := (hl l h).2; cases l.2 <;> simp <;> omega⟩) ⟨ht.1, by have := ht.2; omega⟩ fuel hf

/-- CPP: a line of 511 characters or more is never read: however long the loop runs, it does not end. -/
theorem cpp_hangs (a rest : Str) (ha : Plain a) (hl : 511 ≤ a.length) (fuel : Nat) : getLine growCpp fuel (a ++ rest) = none := by
  have hn : '\n' ∉ a := fun h => (ha _ h).1 rfl
  have hz : '\x00' ∉ a := fun h => (ha _ h).2.2 rfl
  unfold getLine
  cases fuel with
  | zero => rfl
  | succ fuel =>
    unfold loop
    rw [show 512 - ([] : Str).length = 511 + 1 from rfl, fgets_long 511 a rest hn hl]
    have hz' : '\x00' ∉ a.take 511 := fun h => hz (List.mem_of_mem_take h)
    have hn' : '\n' ∉ a.take 511 := fun h => hn (List.mem_of_mem_take h)
    have hb := last_ne [] _ (take_ne (by omega) hl) hn'
    have hlen : (a.take 511).length = 511 := by simp; omega
    simp only [cstr_eq _ hz']
    rw [if_neg hb]
    simp only [List.nil_append] at hb ⊢
    rw [hlen, show growCpp 511 512 = 512 from rfl, loop_full fuel _ _ hlen hb]
    rfl

/-- NASM: every file of lines of any length, in any number of parts joined by backslashes, with LF or CR LF at their ends, is read as just these lines, and
    each has the number that its last part has in the file.  Missing: carriage returns, ^Z and zero characters within lines, and lines that end with a
    backslash after joining (`backslash_left`). -/
theorem nasm_lines_read_partial (ls : List Long) (tail : Str) (hl : ∀ l ∈ ls, l.Ok) (hp : Plain tail) (hz : ∀ c ∈ tail, c ≠ '\x1a') (fuel : Nat)
    (hf : (ls.flatMap Long.write ++ tail).length + 1 < fuel) :
    nasmLines fuel 0 (ls.flatMap Long.write ++ tail) = some (numbered 0 (ls ++ if tail = [] then [] else [⟨[], (tail, false)⟩])) :=
  nasmLines_eq ls tail hl hp hz fuel 0 hf

/-! ### Files -/

/-- A line of 1000 characters with CR LF, an empty one, and a last one without an end. -/
def sample : List (Str × Bool) := [(List.replicate 1000 'x', true), ([], false)]

theorem sample_plain : (∀ l ∈ sample, Plain l.1) ∧ Plain ['r', 'e', 't'] := by
  refine ⟨?_, by unfold Plain; decide⟩
  intro l h
  simp only [sample, List.mem_cons, List.not_mem_nil, or_false] at h
  rcases h with rfl | rfl
  · intro c hc
    obtain rfl := List.eq_of_mem_replicate hc
    decide
  · intro c hc
    simp at hc

example : (511 : Nat) ≤ (List.replicate 1000 'x').length ∧ Plain (List.replicate 1000 'x') :=
  ⟨by rw [List.length_replicate]; decide, sample_plain.1 (List.replicate 1000 'x', true) (List.mem_cons_self ..)⟩

/-- `db 1, \`, CR LF, `2`, LF, `ret`, LF: a line of two parts and one of one part. -/
def nasmSample : List Long := [⟨[("db 1, ".toList, true)], ("2".toList, false)⟩, ⟨[], ("ret".toList, false)⟩]

theorem nasmSample_ok : (∀ l ∈ nasmSample, l.Ok) ∧ nasmSample.flatMap Long.write = "db 1, \\\r\n2\nret\n".toList ∧
    numbered 0 nasmSample = [("db 1, 2".toList, 2), ("ret".toList, 3)] := by
  refine ⟨?_, by with_unfolding_all decide +kernel, by with_unfolding_all decide +kernel⟩
  intro l h
  simp only [nasmSample, List.mem_cons, List.not_mem_nil, or_false] at h
  rcases h with rfl | rfl
  · exact ⟨by unfold Plain; with_unfolding_all decide +kernel, by with_unfolding_all decide +kernel, by with_unfolding_all decide +kernel⟩
  · exact ⟨by unfold Plain; with_unfolding_all decide +kernel, by with_unfolding_all decide +kernel, by with_unfolding_all decide +kernel⟩

/-! ### Where the property fails -/

/-- A carriage return within a line ends it, and the rest is lost: files with CR at the end of each line are one line to raw and GAS. -/
theorem return_cuts : lines growRaw 40 "nop\rret\rhlt".toList = some ["nop".toList] := by with_unfolding_all decide +kernel

/-- A zero character hides the rest of its line with its end, and so the next line becomes part of it; line numbers are wrong from there on. -/
theorem zero_joins : lines growRaw 40 "nop\x00ret\nhlt\n".toList = some ["nophlt".toList] ∧
    nasmLines 40 0 "nop\x00ret\nhlt\n".toList = some [("nophlt".toList, 1)] := by with_unfolding_all decide +kernel

/-- ^Z within a line hides the rest of it. -/
theorem ctrlZ_cuts : nasmLines 40 0 "db 'a\x1ab'\nret\n".toList = some [("db 'a".toList, 1), ("ret".toList, 2)] := by with_unfolding_all decide +kernel

/-- Two backslashes at the end of a line, before an empty one: the one that is left joins the line to the one after the empty one. -/
theorem backslash_left : nasmLines 40 0 "nop\\\\\n\nret\n".toList = some [("nopret".toList, 3)] := by with_unfolding_all decide +kernel

end Verif.Lines
