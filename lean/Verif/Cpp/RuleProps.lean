import Verif.Cpp.Rule
/-
C100: the rule written for make names the target, the source and all files it includes.
-/
namespace Verif.Cpp

/-- All targets, sources and files: make reads the output as the rule of the target with the source and the files in their order, however the lines are
    broken, and, if asked for, a rule without names for each of the files.
    Missing from the full property: names with characters that mean something to make (`blank_name_split`). -/
theorem rule_read_partial (o : DepOpts) (target src : Str) (files : List Str) (ht : Name (targetText o target)) (hs : Name (nameText o src))
    (hf : ∀ n ∈ files, Name (nameText o n)) :
    readMake (depText o target src files) =
      (targetText o target, nameText o src :: files.map (nameText o)) :: (if o.empty then files.map (fun n => (nameText o n, [])) else []) := by
  have key : ∀ (n0 : Nat) (sep : Str) (s : Str), (sep = [':', ' '] ∨ sep = [':', ' ', '\\', '\n', ' ']) →
      (linesFrom [] (joinLines (targetText o target ++ (sep ++ nameText o src) ++ filesText o n0 files ++ '\n' :: s))).filterMap readRule =
        (targetText o target, nameText o src :: files.map (nameText o)) :: (linesFrom [] (joinLines s)).filterMap readRule := by
    intro n0 sep s hsep
    obtain ⟨t, h1, h2, h3, h4⟩ := files_line o files hf n0 ('\n' :: s)
    have hb1 : ∀ c ∈ targetText o target, c ≠ '\\' := fun c hc => (name_char ht hc).2.2.2.1
    have hb2 : ∀ c ∈ nameText o src, c ≠ '\\' := fun c hc => (name_char hs hc).2.2.2.1
    have hj : ∃ bl : Str, (bl = [' '] ∨ bl = [' ', ' ', ' ']) ∧ joinLines (targetText o target ++ (sep ++ nameText o src) ++ filesText o n0 files ++ '\n' :: s) =
        (targetText o target ++ ':' :: (bl ++ nameText o src ++ t)) ++ '\n' :: joinLines s := by
      rcases hsep with rfl | rfl
      · refine ⟨[' '], .inl rfl, ?_⟩
        rw [List.append_assoc, List.append_assoc, List.append_assoc, joinLines_plain _ _ hb1]
        show _ ++ joinLines (':' :: ' ' :: (nameText o src ++ (filesText o n0 files ++ '\n' :: s))) = _
        rw [joinLines_cons _ _ (by decide), joinLines_cons _ _ (by decide), joinLines_plain _ _ hb2, h1, joinLines_cons _ _ (by decide)]
        simp
      · refine ⟨[' ', ' ', ' '], .inr rfl, ?_⟩
        rw [List.append_assoc, List.append_assoc, List.append_assoc, joinLines_plain _ _ hb1]
        show _ ++ joinLines (':' :: ' ' :: '\\' :: '\n' :: ' ' :: (nameText o src ++ (filesText o n0 files ++ '\n' :: s))) = _
        rw [joinLines_cons _ _ (by decide), joinLines_cons _ _ (by decide), joinLines, joinLines_cons _ _ (by decide), joinLines_plain _ _ hb2, h1,
          joinLines_cons _ _ (by decide)]
        simp
    obtain ⟨bl, hbl, hj⟩ := hj
    have hw : words (bl ++ nameText o src ++ t) = nameText o src :: files.map (nameText o) := by
      rw [h4]
      rcases hbl with rfl | rfl
      · rw [List.singleton_append, words_lead, words_name _ hs]; rfl
      · rw [List.cons_append, List.cons_append, List.cons_append, List.nil_append, words_lead, words_lead, words_lead, words_name _ hs]; rfl
    rw [hj, linesFrom_line, List.nil_append, List.filterMap_cons, readRule_rule _ _ ht, hw]
    intro c hc
    simp only [List.mem_append, List.mem_cons] at hc
    rcases hc with hc | rfl | (hc | hc) | hc
    · exact (name_char ht hc).2.2.1
    · decide
    · rcases hbl with rfl | rfl <;> (simp at hc; rw [hc]; decide)
    · exact (name_char hs hc).2.2.1
    · exact h2 c hc
  have hsrc : ∃ sep n0, (sep = [':', ' '] ∨ sep = [':', ' ', '\\', '\n', ' ']) ∧ sourceText o target src = (sep ++ nameText o src, n0) := by
    unfold sourceText
    split
    · exact ⟨_, _, .inl rfl, rfl⟩
    · exact ⟨_, _, .inr rfl, rfl⟩
  obtain ⟨sep, n0, hsep, he⟩ := hsrc
  unfold readMake depText
  rw [he]
  simp only
  rw [List.append_assoc _ ['\n'], List.singleton_append, key n0 sep _ hsep]
  congr 1
  cases hemp : o.empty with
  | false =>
    simp [joinLines, linesFrom, readRule_blank]
  | true =>
    cases files with
    | nil => simp [joinLines, linesFrom, readRule_blank]
    | cons n l =>
      simp only [List.isEmpty_cons, Bool.not_false, Bool.and_self, if_true]
      rw [List.singleton_append, joinLines_cons _ _ (by decide), linesFrom, if_pos rfl, List.filterMap_cons, readRule_blank]
      exact empty_rules o (n :: l) hf

/-- The buffer of the empty rules always has room for the text and its final zero, and making it larger ends. -/
theorem buffer_enough (len alloc : Nat) : ∃ a, grow len alloc = some a ∧ len + 1 ≤ a ∧ alloc ≤ a := by
  unfold grow
  split
  · rename_i h
    have hp : ∀ n : Nat, n < 2 ^ n := fun n => Nat.lt_two_pow_self
    have : len < (if alloc = 0 then 4096 else alloc) * 2 ^ (len + 1 - 1) := by
      have h1 := hp len
      have h2 : 1 ≤ (if alloc = 0 then 4096 else alloc) := by split <;> omega
      calc len < 1 * 2 ^ len := by omega
        _ ≤ _ := Nat.mul_le_mul_right _ h2
    obtain ⟨a, h1, h2, h3⟩ := growTo_ok (len + 1) len (if alloc = 0 then 4096 else alloc) (by split <;> omega) ⟨this, by omega⟩
    refine ⟨a, h1, h2, ?_⟩
    split at h3 <;> omega
  · exact ⟨alloc, rfl, by omega, Nat.le_refl _⟩

/-- A rule on two lines with empty rules. -/
theorem dep_ok : depText ⟨false, true, true⟩ "a-rather-long-name-of-a-target.o".toList "a-rather-long-name-of-a-source.asm".toList ["inc\\a.inc".toList, "b.inc".toList] =
      "a-rather-long-name-of-a-target.o: a-rather-long-name-of-a-source.asm \\\n inc/a.inc b.inc\n\ninc/a.inc:\n\nb.inc:\n\n".toList ∧
    Name "inc/a.inc".toList ∧ Name "b.inc".toList ∧ Name "a-rather-long-name-of-a-target.o".toList ∧ Name "a-rather-long-name-of-a-source.asm".toList := by
  unfold Name
  refine ⟨by with_unfolding_all decide +kernel, ⟨by decide, by decide⟩, ⟨by decide, by decide⟩, ⟨by decide, by decide⟩, ⟨by decide, by decide⟩⟩

/-- A name with a blank is read as two names. -/
theorem blank_name_split : readMake (depText ⟨false, false, false⟩ "a.o".toList "a.asm".toList ["my file.inc".toList]) =
    [("a.o".toList, ["a.asm".toList, "my".toList, "file.inc".toList])] := by with_unfolding_all decide +kernel

end Verif.Cpp
