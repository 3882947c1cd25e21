import Verif.Cpp.Lemmas
/-
C98: options and names reach the C preprocessor as they are.  C99: the files that are included are told as the C preprocessor lists them.
-/
namespace Verif.Cpp

/-- All options and names: if the command line is not too long, the shell runs one command, and that is the C preprocessor with the directories, the
    requests in their order and the file, each as one argument.
    Missing from the full property: names with blanks and other characters that mean something to the shell (`name_split`, `command_run`). -/
theorem options_passed_partial (prog : Str) (hp : prog.length < size) (hprog : words prog ≠ []) (hsep : ∀ c ∈ prog, c ≠ ';' ∧ c ≠ '\n')
    (dirs : List Str) (rs : List Req) (extra : Option Str) (file : Str)
    (hd : ∀ d ∈ dirs, Plain d) (hr : ∀ r ∈ rs, Plain r.text) (he : ∀ e, extra = some e → Plain e) (hf : Plain file)
    (cmd : Str) (h : build prog (argsOf dirs rs) extra file = some cmd) : shell cmd = [words prog ++ wanted dirs rs extra file] := by
  rw [build_cut prog hp, cut] at h
  split at h
  case isFalse => simp at h
  obtain rfl := Option.some.inj h
  have ha : ∀ a ∈ argsOf dirs rs, Plain a.op ∧ Plain a.param := by
    intro a ha
    rw [argsOf_eq, List.mem_append, List.mem_map, List.mem_map] at ha
    rcases ha with ⟨d, hd', rfl⟩ | ⟨r, hr', rfl⟩
    · exact ⟨plain_I, hd d hd'⟩
    · have := hr r hr'
      cases r
      · exact ⟨plain_include, this⟩
      · exact ⟨plain_D, this⟩
      · exact ⟨plain_U, this⟩
      · exact ⟨plain_D, this⟩
  have hx : words ("-x assembler-with-cpp ".toList ++ file) = ["-x".toList, "assembler-with-cpp".toList, file] := by
    have e : "-x assembler-with-cpp ".toList ++ file = "-x".toList ++ ' ' :: ("assembler-with-cpp".toList ++ ' ' :: file) := rfl
    rw [e, words_blank, words_blank, words_plain file hf, words_plain "-x".toList ⟨by decide, by decide⟩,
      words_plain "assembler-with-cpp".toList ⟨by decide, by decide⟩]
    rfl
  have hm : (argsOf dirs rs).flatMap (fun a => [a.op, a.param]) = dirs.flatMap dirWords ++ rs.flatMap Req.words := by
    rw [argsOf_eq, List.flatMap_append, List.flatMap_map, List.flatMap_map]
    congr 1
    congr 1
    funext r
    cases r <;> rfl
  have hw : words (full prog (argsOf dirs rs) extra file) = words prog ++ wanted dirs rs extra file := by
    have e1 : full prog (argsOf dirs rs) extra file = prog ++ argsText (argsOf dirs rs) ++ extraText extra ++ ' ' :: ("-x assembler-with-cpp ".toList ++ file) := by
      unfold full
      rw [List.append_assoc _ _ file]
      rfl
    rw [e1]
    cases extra with
    | none =>
      rw [extraText, List.append_nil, words_args _ ha, hx, hm]
      simp [wanted]
    | some e =>
      rw [extraText, List.append_assoc _ (' ' :: e), List.cons_append, words_args _ ha, words_blank, hx, hm, words_plain e (he e rfl)]
      simp [wanted]
  have hone : ∀ c ∈ full prog (argsOf dirs rs) extra file, c ≠ ';' ∧ c ≠ '\n' := by
    intro c hc
    unfold full at hc
    simp only [List.mem_append] at hc
    rcases hc with (((hc | hc) | hc) | hc) | hc
    · exact hsep c hc
    · rcases mem_argsText _ c hc with rfl | ⟨a, ha', hc | hc⟩
      · decide
      · exact not_sep (ha a ha').1 hc
      · exact not_sep (ha a ha').2 hc
    · cases extra with
      | none => simp [extraText] at hc
      | some e =>
        rcases List.mem_cons.1 hc with rfl | hc
        · decide
        · exact not_sep (he e rfl) hc
    · revert c
      decide
    · exact not_sep hf hc
  unfold shell
  rw [partsFrom_one _ _ hone, List.nil_append, List.map_singleton, hw]
  cases hq : words prog with
  | nil => exact absurd hq hprog
  | cons a l => rfl

/-- The command line fits the memory that was taken for it, with its final zero. -/
theorem fits (prog : Str) (hp : prog.length < size) (args : List Arg) (extra : Option Str) (file cmd : Str) (h : build prog args extra file = some cmd) :
    cmd.length + 1 ≤ prog.length + size := by
  rw [build_cut prog hp, cut] at h
  split at h
  · rename_i hl
    obtain rfl := Option.some.inj h
    omega
  · simp at h

/-- A command line is refused just when it would be 32770 characters or longer, with a blank before each argument. -/
theorem refused_iff (prog : Str) (hp : prog.length < size) (dirs : List Str) (rs : List Req) (extra : Option Str) (file : Str) :
    build prog (argsOf dirs rs) extra file = none ↔ 32770 ≤ prog.length + room (wanted dirs rs extra file) := by
  rw [build_cut prog hp, cut]
  have hd : ∀ dirs : List Str, (argsText (dirs.map (fun d => ⟨"-I".toList, d⟩))).length = room (dirs.flatMap dirWords) := by
    intro dirs
    induction dirs with
    | nil => rfl
    | cons d ds ih => rw [List.map_cons, argsText_length, ih, List.flatMap_cons, room_append, dirWords, room_two]
  have hr : ∀ rs : List Req, (argsText (rs.map Req.arg)).length = room (rs.flatMap Req.words) := by
    intro rs
    induction rs with
    | nil => rfl
    | cons r rs ih =>
      rw [List.map_cons, argsText_length, ih, List.flatMap_cons, room_append, ← room_two]
      congr 1
      cases r <;> rfl
  have hx : " -x assembler-with-cpp ".toList.length = 23 := rfl
  have he : (extraText extra).length = room extra.toList := by
    cases extra with
    | none => rfl
    | some e => simp [extraText, room]; omega
  have hw : room ["-x".toList, "assembler-with-cpp".toList, file] = 23 + file.length := by
    have h1 : "-x".toList.length = 2 := rfl
    have h2 : "assembler-with-cpp".toList.length = 18 := rfl
    simp only [room, h1, h2]
    omega
  have : (full prog (argsOf dirs rs) extra file).length = prog.length + room (wanted dirs rs extra file) := by
    unfold full wanted
    rw [argsOf_eq, argsText_append, List.length_append, List.length_append, List.length_append, List.length_append, List.length_append, hd, hr, he, hx,
      room_append, room_append, room_append, hw]
    omega
  rw [this]
  unfold size
  split
  · simp; omega
  · simp; omega

/-- `cpp -I inc/ -D N=1 -x assembler-with-cpp a.asm`. -/
theorem cmdline_ok : build "cpp".toList (argsOf ["inc/".toList] [.define "N=1".toList]) none "a.asm".toList =
      some "cpp -I inc/ -D N=1 -x assembler-with-cpp a.asm".toList ∧ Plain "inc/".toList ∧ Plain "N=1".toList ∧ Plain "a.asm".toList ∧
    words "cpp".toList = ["cpp".toList] := by
  unfold Plain
  refine ⟨by with_unfolding_all decide +kernel, ⟨by decide, by decide⟩, ⟨by decide, by decide⟩, ⟨by decide, by decide⟩, by decide⟩

/-- A file name with a blank is two arguments. -/
theorem name_split : (build "cpp".toList (argsOf [] []) none "my file.asm".toList).map shell =
    some [["cpp".toList, "-x".toList, "assembler-with-cpp".toList, "my".toList, "file.asm".toList]] := by with_unfolding_all decide +kernel

/-- What is behind a semicolon in a name is run as a command. -/
theorem command_run : (build "cpp".toList (argsOf [] [.define "A=1;reboot".toList]) none "a.asm".toList).map shell =
    some [["cpp".toList, "-D".toList, "A=1".toList], ["reboot".toList, "-x".toList, "assembler-with-cpp".toList, "a.asm".toList]] := by
  with_unfolding_all decide +kernel

/-- All rules on one line: the files told are those of the rule, in its order.
    Missing from the full property: rules on more than one line (`continuation_told`, `source_told`), names with blanks. -/
theorem files_told_partial (max : Nat) (target src : Str) (names : List Str) (ht : ':' ∉ target) (hs : ' ' ∉ src)
    (hn : ∀ n ∈ names, n ≠ [] ∧ n.length < max ∧ ∀ c ∈ n, c ≠ ' ' ∧ ¬ c < ' ') : included max (rule target src names) = some names := by
  have h1 : ∀ (names : List Str), (∀ n ∈ names, n ≠ [] ∧ n.length < max ∧ ∀ c ∈ n, c ≠ ' ' ∧ ¬ c < ' ') → ∀ n ∈ names, 0 < max := fun names h n hm => by
    have := (h n hm).2.1
    omega
  have key : ∀ (names : List Str) (n : Str), (∀ m ∈ n :: names, m ≠ [] ∧ m.length < max ∧ ∀ c ∈ m, c ≠ ' ' ∧ ¬ c < ' ') → ∀ fuel,
      (n :: names).length < fuel → readAll max fuel (n ++ names.flatMap (fun n => ' ' :: n) ++ ['\n']) = n :: names := by
    intro names
    induction names with
    | nil =>
      intro n h fuel hf
      obtain ⟨k, rfl⟩ : ∃ k, fuel = k + 2 := ⟨fuel - 2, by simp at hf; omega⟩
      have hn := h n (by simp)
      have e : readName max [] (n ++ [].flatMap (fun n => ' ' :: n) ++ ['\n']) = (n.length, n, []) := by
        rw [List.flatMap_nil, List.append_nil, readName_chars max n [] _ hn.2.2 (by simp; omega), List.nil_append, readName, if_pos hn.2.1,
          if_neg (by decide), if_pos (by decide), readName, if_pos hn.2.1]
      have e2 : readName max [] [] = (0, [], []) := by rw [readName, if_pos (by simp; omega)]; rfl
      rw [readAll, e]
      obtain ⟨c, r, rfl⟩ := List.exists_cons_of_ne_nil hn.1
      simp only [List.length_cons]
      rw [readAll, e2]
    | cons m names ih =>
      intro n h fuel hf
      obtain ⟨k, rfl⟩ : ∃ k, fuel = k + 1 := ⟨fuel - 1, by omega⟩
      have hn := h n (by simp)
      have e : readName max [] (n ++ (m :: names).flatMap (fun n => ' ' :: n) ++ ['\n']) = (n.length, n, m ++ names.flatMap (fun n => ' ' :: n) ++ ['\n']) := by
        rw [List.append_assoc, readName_chars max n [] _ hn.2.2 (by simp; omega), List.nil_append, List.flatMap_cons, List.cons_append, List.cons_append, readName,
          if_pos hn.2.1, if_pos rfl]
      rw [readAll, e]
      obtain ⟨c, r, rfl⟩ := List.exists_cons_of_ne_nil hn.1
      simp only [List.length_cons]
      rw [ih m (fun x hx => h x (by simp at hx ⊢; tauto)) k (by simp at hf ⊢; omega)]
  unfold included rule
  have e : target ++ [':', ' '] ++ src ++ names.flatMap (fun n => ' ' :: n) ++ ['\n'] =
      target ++ ':' :: (' ' :: (src ++ names.flatMap (fun n => ' ' :: n) ++ ['\n'])) := by simp
  rw [e, skipTarget_colon _ _ ht]
  simp only [List.drop_succ_cons, List.drop_zero]
  cases names with
  | nil =>
    rw [List.flatMap_nil, List.append_nil, skipSource_none _ (by simp [hs])]
  | cons n names =>
    have e : src ++ (n :: names).flatMap (fun n => ' ' :: n) ++ ['\n'] = src ++ ' ' :: (n ++ names.flatMap (fun n => ' ' :: n) ++ ['\n']) := by simp
    rw [e, skipSource_blank _ _ hs]
    simp only
    rw [key names n hn]
    have : ∀ names : List Str, names.length ≤ (names.flatMap (fun n => ' ' :: n)).length := by
      intro names
      induction names with
      | nil => simp
      | cons n names ih => rw [List.flatMap_cons, List.length_append, List.length_cons, List.length_cons]; omega
    have := this names
    simp only [List.length_append, List.length_cons, List.length_nil]
    omega

/-- `a.o: a.S b.h c.h`. -/
theorem rule_ok : rule "a.o".toList "a.S".toList ["b.h".toList, "c.h".toList] = "a.o: a.S b.h c.h\n".toList ∧
    included 16384 "a.o: a.S b.h c.h\n".toList = some ["b.h".toList, "c.h".toList] := by
  refine ⟨rfl, ?_⟩
  have := files_told_partial 16384 "a.o".toList "a.S".toList ["b.h".toList, "c.h".toList] (by decide) (by decide)
    (by intro n hn; simp only [List.mem_cons, List.not_mem_nil, or_false] at hn
        rcases hn with rfl | rfl
        · exact ⟨by decide, by decide, by decide⟩
        · exact ⟨by decide, by decide, by decide⟩)
  exact this

/-- A rule of the C preprocessor on two lines: a file `\` is told. -/
theorem continuation_told : included 16384 "a.o: a.S b.h \\\n c.h\n".toList = some ["b.h".toList, "\\".toList, "c.h".toList] := by with_unfolding_all decide +kernel

/-- A rule with its source on the second line: the source is told as an included file. -/
theorem source_told : included 16384 "a.o: \\\n a.S b.h\n".toList = some ["a.S".toList, "b.h".toList] := by with_unfolding_all decide +kernel

/-- Without any output of the C preprocessor, as when it fails, there is no end. -/
theorem no_output_endless : included 16384 [] = none := rfl

/-- A name of as many characters as the buffer has is cut, and the rest is told as another file. -/
theorem long_name_cut : included 4 "a: a bcde.h\n".toList = some ["bcd".toList, ".h".toList] := by with_unfolding_all decide +kernel

end Verif.Cpp
