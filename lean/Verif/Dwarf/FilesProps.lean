/-
C58: file numbers and the header of the line number section.
-/
import Verif.Dwarf.Props

namespace Verif.Dwarf

open Verif.Intnum

set_option linter.unusedSimpArgs false

/-! ### File numbers -/

/-- The directory numbers in a table are in range. -/
def FileTable.Fine (t : FileTable) : Prop := ∀ e, some e ∈ t.files → e.dir ≤ t.dirs.length

theorem addDir_text (dirs : List (List Char)) (d : List Char) :
    (if (addDir dirs d).2 = 0 then [] else (addDir dirs d).1.getD ((addDir dirs d).2 - 1) []) = d ∧
    (addDir dirs d).2 ≤ (addDir dirs d).1.length ∧ ∃ more, (addDir dirs d).1 = dirs ++ more := by
  unfold addDir
  by_cases h : d.length > 0
  · rw [if_pos h]
    by_cases h2 : dirs.findIdx (fun x => decide (x = d)) ≥ dirs.length
    · simp only [if_pos h2]
      refine ⟨?_, by simp, [d], rfl⟩
      rw [if_neg (by omega), Nat.add_sub_cancel]
      simp
    · simp only [if_neg h2]
      refine ⟨?_, by omega, [], by simp⟩
      rw [if_neg (by omega), Nat.add_sub_cancel]
      have hlt : dirs.findIdx (fun x => decide (x = d)) < dirs.length := by omega
      have := List.findIdx_getElem (w := hlt)
      rw [List.getD_eq_getElem?_getD, List.getElem?_eq_getElem hlt, Option.getD_some]
      simpa using this
  · rw [if_neg h]
    have : d = [] := List.length_eq_zero_iff.1 (by omega)
    exact ⟨by simp [this], by simp, [], by simp⟩

theorem put_get (files : List (Option FileEntry)) (i j : Nat) (e : FileEntry) :
    (put files i e)[j]?.join = if j = i then some e else files[j]?.join := by
  unfold put
  by_cases h : i < files.length
  · rw [if_pos h, List.getElem?_set]
    by_cases hj : i = j
    · subst hj; simp [h]
    · rw [if_neg hj, if_neg (fun h => hj h.symm)]
  · rw [if_neg h]
    by_cases hj : j = i
    · subst hj
      rw [if_pos rfl, List.getElem?_append_right (by simp; omega)]
      simp
      rw [show j - (files.length + (j - files.length)) = 0 by omega]
      rfl
    · rw [if_neg hj]
      by_cases hl : j < files.length
      · rw [List.append_assoc, List.getElem?_append_left hl]
      · rw [List.getElem?_eq_none (by omega : files.length ≤ j), List.append_assoc, List.getElem?_append_right (by omega)]
        by_cases hk : j < i
        · rw [List.getElem?_append_left (by simp; omega), List.getElem?_replicate]
          split <;> rfl
        · rw [List.getElem?_eq_none (by simp; omega)]

theorem put_mem (files : List (Option FileEntry)) (i : Nat) (e x : FileEntry) (h : some x ∈ put files i e) :
    x = e ∨ some x ∈ files := by
  unfold put at h
  by_cases hi : i < files.length
  · rw [if_pos hi] at h
    rcases List.mem_or_eq_of_mem_set h with h | h
    · exact Or.inr h
    · cases h; exact Or.inl rfl
  · rw [if_neg hi] at h
    rcases List.mem_append.1 h with h | h
    · rcases List.mem_append.1 h with h | h
      · exact Or.inr h
      · have := (List.mem_replicate.1 h).2; cases this
    · have := List.mem_singleton.1 h; cases this; exact Or.inl rfl

/-- What an entry stands for, given the directories. -/
def entryName (dirs : List (List Char)) (e : FileEntry) : List Char × List Char :=
  (if e.dir = 0 then [] else dirs.getD (e.dir - 1) [], e.name)

theorem named_eq (t : FileTable) (n : Nat) : t.named n = (t.files[n]?.join).map (entryName t.dirs) := by
  unfold FileTable.named
  cases t.files[n]? with
  | none => rfl
  | some x => cases x <;> rfl

theorem entryName_more (dirs more : List (List Char)) (e : FileEntry) (h : e.dir ≤ dirs.length) :
    entryName (dirs ++ more) e = entryName dirs e := by
  unfold entryName
  by_cases h0 : e.dir = 0
  · rw [if_pos h0, if_pos h0]
  · rw [if_neg h0, if_neg h0, List.getD_eq_getElem?_getD, List.getD_eq_getElem?_getD, List.getElem?_append_left (by omega)]

/-- C58: adding a file makes its number stand for its directory and name, and leaves the other numbers alone; a
    number asked for is the one given; otherwise no other file is displaced. -/
theorem add_file (t : FileTable) (ht : t.Fine) (num : Nat) (path : List Char) :
    let r := addFile t num path
    r.1.Fine ∧ r.1.named r.2 = some (Verif.File.splitpath path) ∧ (∀ j, j ≠ r.2 → r.1.named j = t.named j) ∧
    (num ≠ 0 → r.2 = num - 1) ∧ (num = 0 → t.named r.2 = none ∨ t.named r.2 = some (Verif.File.splitpath path)) := by
  obtain ⟨h1, h2, more, h3⟩ := addDir_text t.dirs (Verif.File.splitpath path).1
  intro r
  have hr : r = addFile t num path := rfl
  obtain ⟨e, he⟩ : ∃ e : FileEntry, e = ⟨(Verif.File.splitpath path).2, (addDir t.dirs (Verif.File.splitpath path).1).2⟩ := ⟨_, rfl⟩
  have hr1 : r.1 = ⟨t.dirs ++ more, put t.files (slot t.files num e) e⟩ := by rw [hr, he]; simp only [addFile, h3]
  have hr2 : r.2 = slot t.files num e := by rw [hr, he]; rfl
  have hen : entryName (t.dirs ++ more) e = Verif.File.splitpath path := by
    rw [he, entryName, ← h3, h1]
  have hed : e.dir ≤ (t.dirs ++ more).length := by rw [he, ← h3]; exact h2
  refine ⟨?_, ?_, ?_, ?_, ?_⟩
  · rw [hr1]
    intro x hx
    rcases put_mem _ _ _ _ hx with rfl | hx
    · exact hed
    · have := ht x hx
      rw [List.length_append]; omega
  · rw [named_eq, hr1, hr2, put_get, if_pos rfl, Option.map_some, hen]
  · intro j hj
    rw [hr2] at hj
    rw [named_eq, named_eq, hr1, put_get, if_neg hj]
    cases hx : t.files[j]?.join with
    | none => rfl
    | some x =>
      have : some x ∈ t.files := by
        cases hy : t.files[j]? with
        | none => rw [hy] at hx; cases hx
        | some y => rw [hy] at hx; exact List.mem_of_getElem? (by rw [hy, ← hx]; rfl)
      rw [Option.map_some, Option.map_some, entryName_more _ _ _ (ht x this)]
  · intro hn
    rw [hr2, slot, if_neg hn]
  · intro hn
    rw [hr2, slot, if_pos hn, named_eq]
    by_cases hlt : t.files.findIdx (fun x => decide (x = none ∨ x = some e)) < t.files.length
    · have := List.findIdx_getElem (w := hlt)
      have := of_decide_eq_true this
      rcases this with h | h
      · left; rw [List.getElem?_eq_getElem hlt, h]; rfl
      · right
        rw [List.getElem?_eq_getElem hlt, h]
        have hm : some e ∈ t.files := by rw [← h]; exact List.getElem_mem hlt
        rw [Option.join_some, Option.map_some, ← entryName_more _ more _ (ht e hm), hen]
    · left; rw [List.getElem?_eq_none (by omega)]; rfl

/-- The empty table. -/
def FileTable.empty : FileTable := ⟨[], []⟩

example : FileTable.empty.Fine := by intro e h; simp [FileTable.empty] at h
example : (addFile (addFile FileTable.empty 3 "/usr/src/a.c".toList).1 0 "/usr/src/b.c".toList).1.named 2 =
    some ("/usr/src".toList, "a.c".toList) := by decide
example : (addFile (addFile FileTable.empty 3 "/usr/src/a.c".toList).1 0 "/usr/src/b.c".toList).2 = 0 := by decide

/-- There is a file for every number. -/
def FileTable.Full (t : FileTable) : Prop := ∀ x ∈ t.files, x ≠ none

theorem add_full (t : FileTable) (h : t.Full) (path : List Char) : (addFile t 0 path).1.Full := by
  intro x hx
  show x ≠ none
  unfold addFile at hx
  simp only at hx
  unfold slot put at hx
  rw [if_pos rfl] at hx
  by_cases hi : t.files.findIdx (fun x => decide (x = none ∨ x = some (⟨(Verif.File.splitpath path).2, (addDir t.dirs (Verif.File.splitpath path).1).2⟩ : FileEntry))) < t.files.length
  · rw [if_pos hi] at hx
    rcases List.mem_or_eq_of_mem_set hx with h' | h'
    · exact h x h'
    · rw [h']; simp
  · rw [if_neg hi] at hx
    have hle := List.findIdx_le_length (p := fun x => decide (x = none ∨ x = some (⟨(Verif.File.splitpath path).2, (addDir t.dirs (Verif.File.splitpath path).1).2⟩ : FileEntry))) (xs := t.files)
    rw [show t.files.findIdx (fun x => decide (x = none ∨ x = some (⟨(Verif.File.splitpath path).2, (addDir t.dirs (Verif.File.splitpath path).1).2⟩ : FileEntry))) - t.files.length = 0 by omega] at hx
    rcases List.mem_append.1 hx with h' | h'
    · rcases List.mem_append.1 h' with h' | h'
      · exact h x h'
      · simp at h'
    · rw [List.mem_singleton.1 h']; simp

/-- All the files of the source have numbers. -/
theorem sources_named (paths : List (List Char)) : ∀ (t : FileTable), t.Fine → t.Full →
    (addSources t paths).Fine ∧ (addSources t paths).Full ∧
    (∀ i x, t.named i = some x → (addSources t paths).named i = some x) ∧
    ∀ p ∈ paths, ∃ i, (addSources t paths).named i = some (Verif.File.splitpath p) := by
  induction paths with
  | nil =>
    intro t h1 h2
    exact ⟨h1, h2, fun _ _ h => h, by intro p hp; simp at hp⟩
  | cons p ps ih =>
    intro t h1 h2
    obtain ⟨a1, a2, a3, _, a5⟩ := add_file t h1 0 p
    obtain ⟨i1, i2, i3, i4⟩ := ih (addFile t 0 p).1 a1 (add_full t h2 p)
    have hs : addSources t (p :: ps) = addSources (addFile t 0 p).1 ps := rfl
    rw [hs]
    refine ⟨i1, i2, ?_, ?_⟩
    · intro i x hx
      apply i3
      by_cases hi : i = (addFile t 0 p).2
      · rw [hi] at hx ⊢
        rcases a5 rfl with h | h
        · rw [h] at hx; cases hx
        · rw [a2, ← h, hx]
      · rw [a3 i hi, hx]
    · intro q hq
      rcases List.mem_cons.1 hq with rfl | hq
      · exact ⟨_, i3 _ _ a2⟩
      · exact i4 q hq

theorem equals_named (t : FileTable) (e : FileEntry) (d name : List Char) :
    filenameEquals t (some e) d name = some (decide (entryName t.dirs e = (d, name))) := by
  unfold filenameEquals entryName
  by_cases h : e.dir = 0
  · simp only [if_pos h]
    congr 1
    rw [Bool.eq_iff_iff]
    rw [Bool.and_eq_true, decide_eq_true_iff, decide_eq_true_iff, decide_eq_true_iff, Prod.mk.injEq, List.length_eq_zero_iff]
    exact ⟨fun h => ⟨h.1.symm, h.2⟩, fun h => ⟨h.1.symm, h.2⟩⟩
  · simp only [if_neg h]
    congr 1
    rw [Bool.eq_iff_iff]
    simp

theorem search_named (t : FileTable) (d name : List Char) (xs : List (Option FileEntry)) : ∀ i,
    (∀ x ∈ xs, x ≠ none) → (∃ e, some e ∈ xs ∧ entryName t.dirs e = (d, name)) →
    ∃ n e, searchFile t d name xs i = .ok (i + n) ∧ xs[n]? = some (some e) ∧ entryName t.dirs e = (d, name) := by
  induction xs with
  | nil => rintro i _ ⟨e, h, _⟩; simp at h
  | cons x xs ih =>
    intro i hfull hex
    cases x with
    | none => exact absurd rfl (hfull none (List.mem_cons_self ..))
    | some x =>
      rw [searchFile, equals_named]
      by_cases h : entryName t.dirs x = (d, name)
      · simp only [h, decide_true]
        exact ⟨0, x, rfl, rfl, h⟩
      · simp only [h, decide_false]
        obtain ⟨e, he, hn⟩ := hex
        have : some e ∈ xs := by
          rcases List.mem_cons.1 he with h' | h'
          · cases h'; exact absurd hn h
          · exact h'
        obtain ⟨n, e', h1, h2, h3⟩ := ih (i + 1) (fun x hx => hfull x (List.mem_cons_of_mem _ hx)) ⟨e, this, hn⟩
        exact ⟨n + 1, e', by rw [h1]; congr 1; omega, by rw [List.getElem?_cons_succ]; exact h2, h3⟩

/-- C58: when line numbers are made for the assembly source, every source file is found in the table, and its number
    stands for its directory and name. -/
theorem source_number (paths : List (List Char)) (p : List Char) (hp : p ∈ paths) (last : Nat)
    (hl : last ≤ (addSources FileTable.empty paths).files.length) :
    ∃ n, fileNumber (addSources FileTable.empty paths) last p = .ok n ∧ 1 ≤ n ∧
      n ≤ (addSources FileTable.empty paths).files.length ∧
      (addSources FileTable.empty paths).named (n - 1) = some (Verif.File.splitpath p) := by
  obtain ⟨h1, h2, _, h4⟩ := sources_named paths FileTable.empty (by intro e h; simp [FileTable.empty] at h)
    (by intro e h; simp [FileTable.empty] at h)
  obtain ⟨t, ht⟩ : ∃ t, addSources FileTable.empty paths = t := ⟨_, rfl⟩
  rw [ht] at h1 h2 h4 hl ⊢
  obtain ⟨i, hi⟩ := h4 p hp
  rw [named_eq] at hi
  have hex : ∃ e, some e ∈ t.files ∧ entryName t.dirs e = Verif.File.splitpath p := by
    cases hx : t.files[i]? with
    | none => rw [hx] at hi; cases hi
    | some x =>
      cases x with
      | none => rw [hx] at hi; cases hi
      | some e =>
        rw [hx] at hi
        exact ⟨e, List.mem_of_getElem? hx, by simpa using hi⟩
  obtain ⟨n, e, s1, s2, s3⟩ := search_named t (Verif.File.splitpath p).1 (Verif.File.splitpath p).2 t.files 0 h2 hex
  have found : ∃ n, (searchFile t (Verif.File.splitpath p).1 (Verif.File.splitpath p).2 t.files 0).map (· + 1) = .ok n ∧ 1 ≤ n ∧
      n ≤ t.files.length ∧ t.named (n - 1) = some (Verif.File.splitpath p) := by
    refine ⟨n + 1, by rw [s1]; simp [Except.map], by omega, ?_, ?_⟩
    · have := (List.getElem?_eq_some_iff.1 s2).1; omega
    · rw [named_eq, Nat.add_sub_cancel, s2, Option.join_some, Option.map_some, s3]
  unfold fileNumber
  by_cases h0 : last > 0
  · simp only [if_pos h0]
    have hlt : last - 1 < t.files.length := by omega
    have hne := h2 _ (List.getElem_mem hlt)
    obtain ⟨e', he'⟩ := Option.ne_none_iff_exists'.1 hne
    rw [List.getD_eq_getElem?_getD, List.getElem?_eq_getElem hlt, Option.getD_some, he', equals_named]
    by_cases hn : entryName t.dirs e' = ((Verif.File.splitpath p).1, (Verif.File.splitpath p).2)
    · simp only [hn, decide_true]
      refine ⟨last, rfl, h0, hl, ?_⟩
      rw [named_eq, List.getElem?_eq_getElem hlt, he', Option.join_some, Option.map_some, hn]
    · simp only [hn, decide_false]
      exact found
  · simp only [if_neg h0]
    exact found

example : fileNumber (addSources FileTable.empty ["a.asm".toList, "inc/m.inc".toList, "a.asm".toList]) 1 "inc/m.inc".toList = .ok 2 := by
  with_unfolding_all decide +kernel

/-! ### The header -/

/-- The bytes of the strings in a table end where they should. -/
def Plain (s : List Char) : Prop := s ≠ [] ∧ ∀ b ∈ chars s, b ≠ 0

instance (s : List Char) : Decidable (Plain s) := by unfold Plain; infer_instance

theorem string_back (bs rest : List Byte) (h : ∀ b ∈ bs, b ≠ 0) : readString (bs ++ 0 :: rest) = some (bs, rest) := by
  induction bs with
  | nil => rfl
  | cons b bs ih =>
    rw [List.cons_append, readString, if_neg (h b (List.mem_cons_self ..)), ih fun b hb => h b (List.mem_cons_of_mem _ hb)]
    rfl

theorem chars_ne (s : List Char) (h : Plain s) : ∃ b bs, chars s = b :: bs := by
  cases s with
  | nil => exact absurd rfl h.1
  | cons c s => exact ⟨_, _, rfl⟩

theorem dirs_back (dirs : List (List Char)) (h : ∀ d ∈ dirs, Plain d) : ∀ (n : Nat) (rest : List Byte), dirs.length < n →
    readDirs n (dirsBytes dirs ++ rest) = some (dirs.map chars, rest) := by
  induction dirs with
  | nil =>
    intro n rest hn
    cases n with
    | zero => omega
    | succ n => rfl
  | cons d ds ih =>
    intro n rest hn
    cases n with
    | zero => omega
    | succ n =>
      have hd := h d (List.mem_cons_self ..)
      have e : dirsBytes (d :: ds) ++ rest = chars d ++ 0 :: (dirsBytes ds ++ rest) := by
        simp [dirsBytes, List.append_assoc]
      rw [e, readDirs, string_back _ _ hd.2]
      obtain ⟨b, bs, hb⟩ := chars_ne d hd
      rw [List.map_cons, hb]
      simp only
      rw [ih (fun x hx => h x (List.mem_cons_of_mem _ hx)) n rest (by simp at hn; omega)]
      rfl

/-- A file entry that is read back. -/
def FileEntry.Good (e : FileEntry) : Prop := Plain e.name ∧ e.dir < 2 ^ 32

theorem num_back (b rest : List Byte) (v : Int) (h : leb false b = some (v, b.length)) : readNum (b ++ rest) = some (v, rest) := by
  unfold readNum
  rw [leb_append _ _ _ _ h]
  simp only [Option.map_some, List.drop_left]

theorem zero_back (rest : List Byte) : readNum (0 :: rest) = some (0, rest) := rfl

theorem dir_uleb (d : Nat) (h : d < 2 ^ 32) : ∃ bs, getUleb (BitVec.ofNat 64 d) = some bs ∧
    bs.length = (sizeUleb (BitVec.ofNat 64 d)).toNat ∧ leb false bs = some ((d : Int), bs.length) := by
  have hn : (BitVec.ofNat 64 d).toNat = d := by rw [BitVec.toNat_ofNat]; omega
  have hi := small_toInt (BitVec.ofNat 64 d) (by omega)
  rw [hn] at hi
  obtain ⟨bs, h1, h2, h3⟩ := (sleb_uleb_long (BitVec.ofNat 64 d) (by omega)).2 (by omega)
  exact ⟨bs, h1, h2, by rw [h3, hi]⟩

theorem files_back (files : List (Option FileEntry)) (h : ∀ x ∈ files, ∃ e, x = some e ∧ e.Good) :
    ∃ bs n, filesBytes files = some bs ∧ filesLen files = .ok n ∧ bs.length = n + 1 ∧ files.length < bs.length ∧
      ∀ (k : Nat) (rest : List Byte), files.length < k →
      readFiles k (bs ++ rest) = some (files.map (fun x => (x.elim [] (fun e => chars e.name), x.elim 0 (fun e => (e.dir : Int)))), rest) := by
  induction files with
  | nil =>
    refine ⟨[0], 0, rfl, rfl, rfl, by simp, ?_⟩
    intro k rest hk
    cases k with
    | zero => omega
    | succ k => rfl
  | cons x xs ih =>
    obtain ⟨bs, n, h1, h2, h3, h4, h5⟩ := ih fun x hx => h x (List.mem_cons_of_mem _ hx)
    obtain ⟨e, rfl, hp, hd⟩ := h x (List.mem_cons_self ..)
    obtain ⟨d, d1, d2, d3⟩ := dir_uleb e.dir hd
    have hlen : (chars e.name).length = e.name.length := by simp [chars]
    refine ⟨(chars e.name ++ 0 :: d ++ [0, 0]) ++ bs, _, by simp only [filesBytes, fileBytes, d1, h1, Option.map_some],
      by simp only [filesLen, fileLen, h2]; rfl, ?_, ?_, ?_⟩
    · simp only [List.length_append, List.length_cons, List.length_nil, hlen, h3, d2]
      omega
    · simp only [List.length_append, List.length_cons, List.length_nil]; omega
    · intro k rest hk
      cases k with
      | zero => omega
      | succ k =>
        have e1 : (chars e.name ++ 0 :: d ++ [0, 0]) ++ bs ++ rest = chars e.name ++ 0 :: (d ++ 0 :: 0 :: (bs ++ rest)) := by
          simp [List.append_assoc]
        rw [e1, readFiles, string_back _ _ hp.2]
        obtain ⟨b, cs, hb⟩ := chars_ne e.name hp
        rw [List.map_cons, Option.elim_some, Option.elim_some, hb]
        simp only [num_back d _ _ d3, zero_back]
        rw [h5 k rest (by simp at hk; omega)]
        rfl

theorem dword_val (n : Nat) (h : n < 2 ^ 32) : leVal (dword n) = n := by
  simp only [dword, leVal, BitVec.toNat_ofNat]
  omega

theorem dirs_length (dirs : List (List Char)) : (dirsBytes dirs).length = (dirs.map fun d => d.length + 1).sum + 1 ∧
    dirs.length < (dirsBytes dirs).length := by
  induction dirs with
  | nil => exact ⟨rfl, by decide⟩
  | cons d ds ih =>
    have : dirsBytes (d :: ds) = chars d ++ 0 :: dirsBytes ds := by simp [dirsBytes, List.append_assoc]
    rw [this]
    simp only [List.length_append, List.length_cons, List.map_cons, List.sum_cons, chars, List.length_map]
    unfold chars at ih
    omega

theorem take_4 (n : Nat) (xs : List Byte) : (dword n ++ xs).take 4 = dword n ∧ (dword n ++ xs).drop 4 = xs := ⟨rfl, rfl⟩

/-- C58 (partial: for file names and directories that are not empty, and a section below 4 GB): a debugger reads from
    the section its version, the parameters the program is written for, the number of operands of each instruction,
    the directories and files of the tables in order, and the program; and the section ends where it says. -/
theorem unit_partial (min : Byte) (t : FileTable) (opsLen : Nat) (program rest : List Byte) (hl : program.length = opsLen)
    (hd : ∀ d ∈ t.dirs, Plain d) (hf : ∀ x ∈ t.files, ∃ e, x = some e ∧ e.Good)
    (hsmall : ∀ n, sppLen t = .ok n → headLen + n + opsLen < 2 ^ 32) :
    ∃ bs, lineUnit min t opsLen program = .ok (some bs) ∧
      readUnit (bs ++ rest) = some (⟨2, header min.toNat, [0, 1, 1, 1, 1, 0, 0, 0, 1, 0, 0, 1], t.dirs.map chars,
        t.files.map (fun x => (x.elim [] (fun e => chars e.name), x.elim 0 (fun e => (e.dir : Int)))), program⟩, rest) := by
  obtain ⟨fb, n, h1, h2, h3, h4, h5⟩ := files_back t.files hf
  obtain ⟨hdl, hdl'⟩ := dirs_length t.dirs
  obtain ⟨N, hN⟩ : ∃ N, N = 4 + 5 + opcodeLengths.length + (t.dirs.map fun d => d.length + 1).sum + 1 + n + 1 := ⟨_, rfl⟩
  have hs : sppLen t = .ok N := by simp only [sppLen, h2, hN]
  have hsm := hsmall N hs
  have h12 : opcodeLengths.length = 12 := rfl
  have hh : headLen = 6 := rfl
  obtain ⟨body, hbody⟩ : ∃ body, body = [min, 1, -5, 14, 13] ++ opcodeLengths ++ dirsBytes t.dirs ++ fb := ⟨_, rfl⟩
  have hblen : body.length = N - 4 := by
    rw [hbody]
    simp only [List.length_append, List.length_cons, List.length_nil, hdl, h3, h12]
    omega
  obtain ⟨pro, hpro⟩ : ∃ pro, pro = dword (N - 4) ++ body ++ program := ⟨_, rfl⟩
  have hplen : pro.length = N + opsLen := by
    rw [hpro]
    simp only [List.length_append, hblen, hl]
    have : (dword (N - 4)).length = 4 := rfl
    omega
  have hb : lineUnit min t opsLen program = .ok (some (dword (headLen + N + opsLen - 4) ++ word 2 ++ pro)) := by
    simp only [lineUnit, hs, sppBytes, h1, Option.map_some, headBytes]
    rw [hpro, hbody]
    simp only [List.append_assoc]
  refine ⟨_, hb, ?_⟩
  have e1 : dword (headLen + N + opsLen - 4) ++ word 2 ++ pro ++ rest = dword (headLen + N + opsLen - 4) ++ ((word 2 ++ pro) ++ rest) := by
    simp only [List.append_assoc]
  rw [e1, readUnit, (take_4 _ _).1, (take_4 _ _).2, dword_val _ (by omega)]
  have hw : (word 2 ++ pro).length = headLen + N + opsLen - 4 := by
    rw [List.length_append, hplen]
    have : (word 2).length = 2 := rfl
    omega
  simp only
  rw [if_neg ?_]
  · rw [← hw, List.take_left]
    have e2 : List.drop (4 + (word 2 ++ pro).length) (dword (word 2 ++ pro).length ++ (word 2 ++ pro ++ rest)) = rest := by
      rw [← List.drop_drop, (take_4 _ _).2, List.drop_left]
    rw [e2]
    have e3 : (word 2 ++ pro).drop 2 = pro := rfl
    have e4 : leVal ((word 2 ++ pro).take 2) = 2 := rfl
    rw [e3, e4]
    have key : readPrologue 2 pro = some (⟨2, header min.toNat, [0, 1, 1, 1, 1, 0, 0, 0, 1, 0, 0, 1], t.dirs.map chars,
        t.files.map (fun x => (x.elim [] (fun e => chars e.name), x.elim 0 (fun e => (e.dir : Int)))), program⟩) := by
      have e5 : pro.drop 4 = min :: 1 :: -5 :: 14 :: 13 :: (opcodeLengths ++ (dirsBytes t.dirs ++ (fb ++ program))) := by
        rw [hpro, List.append_assoc, (take_4 _ _).2, hbody]
        simp only [List.append_assoc, List.cons_append, List.nil_append]
      have e6 : leVal (pro.take 4) = N - 4 := by
        rw [hpro, List.append_assoc, (take_4 _ _).1, dword_val _ (by omega)]
      have e7 : pro.drop (4 + leVal (pro.take 4)) = program := by
        rw [e6, ← List.drop_drop]
        rw [hpro, List.append_assoc, (take_4 _ _).2, ← hblen, List.drop_left]
      unfold readPrologue
      rw [e5]
      simp only
      have h13 : (13 : Byte).toNat - 1 = 12 := rfl
      rw [h13, if_neg (by rw [List.length_append]; omega)]
      have e8 : (opcodeLengths ++ (dirsBytes t.dirs ++ (fb ++ program))).drop 12 = dirsBytes t.dirs ++ (fb ++ program) := rfl
      have e9 : (opcodeLengths ++ (dirsBytes t.dirs ++ (fb ++ program))).take 12 = opcodeLengths := rfl
      rw [e8, e9, dirs_back t.dirs hd _ _ (by omega)]
      simp only
      rw [h5 _ _ (by omega)]
      simp only
      rw [e7]
      rfl
    rw [key]
    rfl
  · have hd4 : (dword (headLen + N + opsLen - 4)).length = 4 := rfl
    rw [List.length_append, List.length_append, hd4, hw]
    omega

/-- A small table. -/
def demoTable : FileTable := addSources FileTable.empty ["a.asm".toList, "inc/m.inc".toList]

example : (∀ d ∈ demoTable.dirs, Plain d) := by decide
example : demoTable.files = [some ⟨"a.asm".toList, 0⟩, some ⟨"m.inc".toList, 1⟩] := by decide

/-- C58 fails for a path that ends in a slash: the table is read only up to there. -/
theorem empty_name_wrong :
    let t := addSources FileTable.empty ["a.asm".toList, "inc/".toList, "b.asm".toList]
    t.named 2 = some ([], "b.asm".toList) ∧
    (filesBytes t.files).bind (fun bs => (readFiles 10 bs).map fun r => r.1.length) = some 1 := by
  decide +kernel

/-- C57, C58: the table of a program is read with the parameters found in the header (partial likewise). -/
theorem unit_table_partial (t : FileTable) (program rest : List Byte) (rows : List Row) (hrows : table (header 1) program = some rows)
    (hd : ∀ d ∈ t.dirs, Plain d) (hf : ∀ x ∈ t.files, ∃ e, x = some e ∧ e.Good)
    (hsmall : ∀ n, sppLen t = .ok n → headLen + n + program.length < 2 ^ 32) :
    ∃ bs u, lineUnit 1 t program.length program = .ok (some bs) ∧ readUnit (bs ++ rest) = some (u, rest) ∧
      table u.header u.program = some rows := by
  obtain ⟨bs, h1, h2⟩ := unit_partial 1 t program.length program rest rfl hd hf hsmall
  exact ⟨bs, _, h1, h2, hrows⟩

end Verif.Dwarf
