import Verif.Cmdline.Lemmas
/-
C92: the command line is read as it is written.
-/
namespace Verif.Cmdline

/-- A command line of any number of options, values and files, in any order, is read as just these, in order. -/
theorem items_read (takes : Nat → Str → Option Str → Bool) (T : List Opt) (hT : TableOk T) (items : List Item) (h : ∀ x ∈ items, x.Ok takes T) :
    parse takes T (items.flatMap (Item.args T)) = items.flatMap (Item.events T) := by
  have := items_append hT items h []
  simpa [parse] using this

/-- Behind `--` everything is a file, whatever it looks like. -/
theorem rest_files (takes : Nat → Str → Option Str → Bool) (T : List Opt) (hT : TableOk T) (items : List Item) (h : ∀ x ∈ items, x.Ok takes T)
    (files : List Str) :
    parse takes T (items.flatMap (Item.args T) ++ ['-', '-'] :: files) = items.flatMap (Item.events T) ++ files.map .file := by
  rw [items_append hT items h]
  rfl

/-- A letter that takes a value, before another option or at the end, is an error, and what follows is read as if it were not there. -/
theorem value_missing (takes : Nat → Str → Option Str → Bool) (T : List Opt) (hT : TableOk T) (items : List Item) (h : ∀ x ∈ items, x.Ok takes T)
    (i : Nat) (hi : Letter T i true) (hn : ¬ Names T [letter T i]) (rest : List Str) (hr : ∀ a ∈ rest.head?, a.head? = some '-') :
    parse takes T (items.flatMap (Item.args T) ++ ['-', letter T i] :: rest) = items.flatMap (Item.events T) ++ .needs i :: parse takes T rest := by
  rw [items_append hT items h, parse_needs hT hi hn rest hr]

/-- What is wrong is told: yasm does not go on exactly if an option has no value. -/
theorem errors_told (es : List Ev) : errors es ≠ 0 ↔ ∃ i, Ev.needs i ∈ es := by
  unfold errors
  rw [Ne, List.length_eq_zero_iff, List.filter_eq_nil_iff]
  constructor
  · intro h
    push Not at h
    obtain ⟨e, he, h⟩ := h
    cases e with
    | needs i => exact ⟨i, he⟩
    | _ => simp at h
  · rintro ⟨i, hi⟩ h
    exact h _ hi rfl

/-! ### The options of yasm -/

theorem table_ok : TableOk table := ⟨by with_unfolding_all decide +kernel, by with_unfolding_all decide +kernel, by with_unfolding_all decide +kernel,
  by with_unfolding_all decide +kernel⟩

/-- `yasm -f elf64 -Wno-orphan-labels --prefix=_ -omain.o -O2 --foo main.asm --version` -/
def sample : List Item := [.separate 6 "elf64".toList, .flag 15 "no-orphan-labels".toList, .longValue 33 ['_'], .joined 10 "main.o".toList,
  .optimize ['2'], .unknown "--foo".toList, .file "main.asm".toList, .long 0]

theorem not_names {T : List Opt} {s : Str} (h : T.all (fun o => !longMatch s o) = true) : ¬ Names T s := by
  intro hn
  obtain ⟨o, ho, hm⟩ := names_iff.1 hn
  have := List.all_eq_true.1 h o ho
  simp [hm] at this

theorem sample_ok : ∀ x ∈ sample, x.Ok (fun _ _ _ => true) table := by
  intro x hx
  simp only [sample, List.mem_cons, List.not_mem_nil, or_false] at hx
  rcases hx with rfl | rfl | rfl | rfl | rfl | rfl | rfl | rfl
  · exact ⟨⟨_, 'f', rfl, by with_unfolding_all decide +kernel, rfl⟩, by with_unfolding_all decide +kernel,
      not_names (by with_unfolding_all decide +kernel), rfl⟩
  · exact ⟨⟨_, 'W', rfl, by with_unfolding_all decide +kernel, rfl⟩, not_names (by with_unfolding_all decide +kernel), rfl⟩
  · exact ⟨⟨_, "prefix".toList, rfl, by with_unfolding_all decide +kernel, rfl⟩, rfl⟩
  · exact ⟨⟨_, 'o', rfl, by with_unfolding_all decide +kernel, rfl⟩, by with_unfolding_all decide +kernel,
      not_names (by with_unfolding_all decide +kernel), rfl⟩
  · exact ⟨by with_unfolding_all decide +kernel, by with_unfolding_all decide +kernel, not_names (by with_unfolding_all decide +kernel)⟩
  · exact .inl ⟨"foo".toList, by with_unfolding_all decide +kernel, by with_unfolding_all decide +kernel,
      not_names (by with_unfolding_all decide +kernel)⟩
  · exact .inl (by with_unfolding_all decide +kernel)
  · exact ⟨⟨_, "version".toList, rfl, by with_unfolding_all decide +kernel, rfl⟩, rfl⟩

example : sample.flatMap (Item.args table) = ["-f", "elf64", "-Wno-orphan-labels", "--prefix=_", "-omain.o", "-O2", "--foo", "main.asm",
    "--version"].map String.toList := by with_unfolding_all decide +kernel

/-! ### Where the property fails -/

/-- Reading a line with handlers that take everything. -/
def read (args : List String) : List Ev := parse (fun _ _ _ => true) table (args.map String.toList)

/-- Long names with one dash, which the code means to allow (yasm-options.c:134), are taken for the letter they start with, if an option before has that
    letter: `-suffix=_x` redirects the messages, `-objfile=x` writes to the file `bjfile=x`. -/
theorem one_dash_wrong : read ["-suffix=_x"] = [.call 22 "suffix=_x".toList none] ∧
    read ["-objfile=x"] = [.call 10 "objfile=x".toList (some "bjfile=x".toList)] ∧
    read ["-mapfile=x"] = [.call 11 "mapfile".toList (some "x".toList)] := by with_unfolding_all decide +kernel

/-- Text behind a letter that takes no value is dropped: `-syntax` is `-s`; so is the value of a long option that takes none. -/
theorem text_dropped : read ["-syntax"] = [.call 22 "syntax".toList none] ∧ read ["--version=3"] = [.call 0 "version=3".toList none] := by
  with_unfolding_all decide +kernel

/-- A value that starts with a dash cannot stand for itself: `-o -` is an error, and the dash is the input file. -/
theorem dash_value : read ["-o", "-"] = [.needs 10, .file "-".toList] ∧ errors (read ["-o", "-"]) = 1 := by with_unfolding_all decide +kernel

/-- A long option has no value behind a space: `--arch x86` is an error, and `x86` the input file. -/
theorem long_space : read ["--arch", "x86"] = [.needs 3, .file "x86".toList] := by with_unfolding_all decide +kernel

end Verif.Cmdline
