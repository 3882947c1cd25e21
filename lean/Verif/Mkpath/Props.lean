import Verif.Mkpath.Model
/-
C105: the directories a path needs are made.
-/
namespace Verif.Mkpath

/-- A name of a file or a directory. -/
def Name (n : Str) : Prop := n ≠ [] ∧ '/' ∉ n

/-- Directories as text, each with its slash. -/
def dirText (names : List Str) : Str := names.flatMap (fun n => n ++ ['/'])

theorem partsFrom_slash (a b cur : Str) : partsFrom cur (a ++ '/' :: b) = partsFrom cur a ++ partsFrom [] b := by
  induction a generalizing cur with
  | nil =>
    simp only [List.nil_append, partsFrom, if_true]
    split <;> rfl
  | cons c a ih =>
    simp only [List.cons_append, partsFrom]
    split
    · split
      · exact ih []
      · rw [ih []]; rfl
    · exact ih _

theorem partsFrom_name (n cur : Str) (h : '/' ∉ n) : partsFrom cur n = if cur ++ n = [] then [] else [cur ++ n] := by
  induction n generalizing cur with
  | nil => simp [partsFrom]
  | cons c n ih =>
    rw [partsFrom, if_neg (fun e => h (by simp [e])), ih _ (fun hm => h (by simp [hm]))]
    simp

theorem parts_dir (l : List Str) (hl : ∀ n ∈ l, Name n) (s : Str) : partsFrom [] (dirText l ++ s) = l ++ partsFrom [] s := by
  induction l with
  | nil => rfl
  | cons n l ih =>
    have hn := hl n (by simp)
    have e : dirText (n :: l) ++ s = n ++ '/' :: (dirText l ++ s) := by simp [dirText]
    rw [e, partsFrom_slash, partsFrom_name n [] hn.2, List.nil_append, if_neg hn.1, ih (fun m hm => hl m (by simp [hm]))]
    rfl

theorem key_dir (l : List Str) (n : Str) (hl : ∀ m ∈ l, Name m) (hn : Name n) : key (dirText l ++ n) = (false, l ++ [n]) := by
  unfold key
  rw [parts_dir l hl, partsFrom_name n [] hn.2, List.nil_append, if_neg hn.1]
  congr 1
  have : ∀ m : Str, Name m → ∀ s : Str, ((m ++ s).head? == some '/') = false := by
    rintro m ⟨h1, h2⟩ s
    obtain ⟨c, r, rfl⟩ := List.exists_cons_of_ne_nil h1
    have : c ≠ '/' := fun e => h2 (by simp [e])
    simp [this]
  cases l with
  | nil => simpa [dirText] using this n hn []
  | cons m l =>
    have e : dirText (m :: l) ++ n = m ++ ('/' :: (dirText l ++ n)) := by simp [dirText]
    rw [e]
    exact this m (hl m (by simp)) _

theorem loop_skip (lth : Nat) (d : Disk) (n ts r : Str) (h : '/' ∉ n) : loop lth d ts (n ++ r) = loop lth d (ts ++ n) r := by
  induction n generalizing ts with
  | nil => simp
  | cons c n ih =>
    rw [List.cons_append, loop, if_neg (fun e => h (by simp [e])), ih _ (fun hm => h (by simp [hm]))]
    simp

/-- At a slash: the directory is there or is made, and nothing else changes. -/
theorem atSlash_ok (d : Disk) (lth : Nat) (l : List Str) (n : Str) (hl : ∀ m ∈ l, Name m) (hn : Name n) (hp : l = [] ∨ (false, l) ∈ d.dirs)
    (hf : (false, l ++ [n]) ∉ d.files) : ∃ d', atSlash d lth (dirText l ++ n) = .next d' ∧ d'.files = d.files ∧
      ∀ k, k ∈ d'.dirs ↔ k ∈ d.dirs ∨ k = (false, l ++ [n]) := by
  have hne : dirText l ++ n ≠ [] := by simp [hn.1]
  have hk := key_dir l n hl hn
  unfold atSlash
  by_cases hd : (false, l ++ [n]) ∈ d.dirs
  · have : stat d (dirText l ++ n) = .dir := by
      unfold stat
      rw [if_neg hne, hk, if_neg hf, if_pos (.inr hd)]
    rw [this]
    refine ⟨d, rfl, rfl, fun k => ⟨.inl, ?_⟩⟩
    rintro (h | rfl)
    · exact h
    · exact hd
  · have hs : stat d (dirText l ++ n) = .missing := by
      unfold stat
      rw [if_neg hne, hk, if_neg hf, if_neg (by simp [hd])]
    rw [hs]
    have hm : mkdir d (dirText l ++ n) = some { d with dirs := (false, l ++ [n]) :: d.dirs } := by
      unfold mkdir
      rw [if_neg hne, if_neg (by simp [hs]), hk, if_pos (by simpa using hp)]
    simp only [hm]
    refine ⟨_, rfl, rfl, fun k => ?_⟩
    rw [List.mem_cons]
    exact or_comm

theorem loop_ok (lth : Nat) (l ns : List Str) (n : Str) (hl : ∀ m ∈ l, Name m) (hn : Name n) (hns : ∀ m ∈ ns, Name m) (d : Disk)
    (hp : l = [] ∨ (false, l) ∈ d.dirs) (hf : ∀ k, 0 < k → (false, l ++ (n :: ns).take k) ∉ d.files) :
    ∃ d', loop lth d (dirText l) (n ++ ns.flatMap (fun m => '/' :: m)) = (d', lth) ∧ d'.files = d.files ∧
      ∀ k, k ∈ d'.dirs ↔ k ∈ d.dirs ∨ ∃ i, 0 < i ∧ i ≤ (n :: ns).length ∧ k = (false, l ++ (n :: ns).take i) := by
  induction ns generalizing l n d with
  | nil =>
    obtain ⟨d', h1, h2, h3⟩ := atSlash_ok d lth l n hl hn hp (by simpa using hf 1 (by omega))
    refine ⟨d', ?_, h2, ?_⟩
    · rw [loop_skip _ _ _ _ _ hn.2, List.flatMap_nil, loop, h1]
    · intro k
      rw [h3]
      constructor
      · rintro (h | rfl)
        · exact .inl h
        · exact .inr ⟨1, by omega, by simp, by simp⟩
      · rintro (h | ⟨i, hi, hi2, rfl⟩)
        · exact .inl h
        · obtain rfl : i = 1 := by simp at hi2; omega
          exact .inr (by simp)
  | cons m ns ih =>
    obtain ⟨d1, h1, h2, h3⟩ := atSlash_ok d lth l n hl hn hp (by simpa using hf 1 (by omega))
    have hl' : ∀ x ∈ l ++ [n], Name x := by
      intro x hx
      rcases List.mem_append.1 hx with hx | hx
      · exact hl x hx
      · simp at hx; rw [hx]; exact hn
    obtain ⟨d2, h4, h5, h6⟩ := ih (l ++ [n]) m hl' (hns m (by simp)) (fun x hx => hns x (by simp [hx])) d1 (.inr ((h3 _).2 (.inr rfl))) (by
      intro k hk
      rw [h2]
      have := hf (k + 1) (by omega)
      simpa using this)
    refine ⟨d2, ?_, h5.trans h2, ?_⟩
    · rw [loop_skip _ _ _ _ _ hn.2, List.flatMap_cons, List.cons_append, loop, if_pos rfl, h1]
      have e : dirText l ++ n ++ ['/'] = dirText (l ++ [n]) := by simp [dirText]
      simp only
      rw [e]
      exact h4
    · intro k
      rw [h6, h3]
      constructor
      · rintro ((h | rfl) | ⟨i, hi, hi2, rfl⟩)
        · exact .inl h
        · exact .inr ⟨1, by omega, by simp, by simp⟩
        · exact .inr ⟨i + 1, by omega, by simp only [List.length_cons] at hi2 ⊢; omega, by simp⟩
      · rintro (h | ⟨i, hi, hi2, rfl⟩)
        · exact .inl (.inl h)
        · obtain ⟨j, rfl⟩ : ∃ j, i = j + 1 := ⟨i - 1, by omega⟩
          cases j with
          | zero => exact .inl (.inr (by simp))
          | succ j => exact .inr ⟨j + 1, by omega, by simp only [List.length_cons] at hi2 ⊢; omega, by simp⟩

theorem text_eq (n : Str) (ns : List Str) : dirText (n :: ns) = n ++ ns.flatMap (fun m => '/' :: m) ++ ['/'] := by
  induction ns generalizing n with
  | nil => simp [dirText]
  | cons m ns ih =>
    have e : dirText (n :: m :: ns) = n ++ '/' :: dirText (m :: ns) := by simp [dirText]
    rw [e, ih]
    simp

theorem last_slash (a f : Str) (h : '/' ∉ f) : lastSlash (a ++ '/' :: f) = a.length := by
  unfold lastSlash
  have : (a ++ '/' :: f).reverse = f.reverse ++ '/' :: a.reverse := by simp
  rw [this, List.dropWhile_append_of_pos (by
    intro c hc
    have : c ≠ '/' := fun e => h (by rw [← e]; exact List.mem_reverse.1 hc)
    simp [this]), List.dropWhile_cons_of_neg (by simp)]
  simp

/-- All disks and all paths from the current directory: if none of the directories is another file, all of them are there afterwards, nothing else has been
    made or lost, and the result is the length of the path up to the last slash.
    Missing from the full property: paths from the root (`root_not_made`), and paths with `.`, `..` or doubled slashes. -/
theorem dirs_made_partial (d : Disk) (n : Str) (ns : List Str) (f : Str) (hn : Name n) (hns : ∀ m ∈ ns, Name m) (hf : '/' ∉ f)
    (hd : ∀ k, 0 < k → (false, (n :: ns).take k) ∉ d.files) :
    ∃ d', createpath d (dirText (n :: ns) ++ f) = (d', (dirText (n :: ns)).length - 1) ∧ d'.files = d.files ∧
      ∀ k, k ∈ d'.dirs ↔ k ∈ d.dirs ∨ ∃ i, 0 < i ∧ i ≤ (n :: ns).length ∧ k = (false, (n :: ns).take i) := by
  have e : dirText (n :: ns) ++ f = (n ++ ns.flatMap (fun m => '/' :: m)) ++ '/' :: f := by rw [text_eq]; simp
  have hlen : (dirText (n :: ns)).length - 1 = (n ++ ns.flatMap (fun m => '/' :: m)).length := by rw [text_eq]; simp
  unfold createpath
  rw [e, last_slash _ _ hf, List.take_left', hlen]
  · obtain ⟨d', h1, h2, h3⟩ := loop_ok (n ++ ns.flatMap (fun m => '/' :: m)).length [] ns n (by simp) hn hns d (.inl rfl) (by simpa using hd)
    exact ⟨d', h1, h2, by simpa using h3⟩
  · rfl

/-- `obj/x86/a.o` on a disk with `obj`. -/
theorem path_ok : (createpath ⟨[(false, ["obj".toList])], []⟩ "obj/x86/a.o".toList).1.dirs = [(false, ["obj".toList, "x86".toList]), (false, ["obj".toList])] ∧
    (createpath ⟨[(false, ["obj".toList])], []⟩ "obj/x86/a.o".toList).2 = 7 ∧ dirText ["obj".toList, "x86".toList] ++ "a.o".toList = "obj/x86/a.o".toList ∧
    Name "obj".toList ∧ Name "x86".toList := by
  unfold Name
  refine ⟨by with_unfolding_all decide +kernel, by with_unfolding_all decide +kernel, rfl, by decide, by decide⟩

/-- All paths from the root with a directory: nothing is made, and the result is 0, as making the directory with the empty name fails. -/
theorem root_not_made (d : Disk) (s f : Str) (hf : '/' ∉ f) : createpath d (('/' :: s) ++ '/' :: f) = (d, 0) := by
  unfold createpath
  rw [last_slash _ _ hf, List.take_left' rfl, loop, if_pos rfl]
  rfl

/-- A file in the place of a directory is not told: the result is as if the directories were there. -/
theorem file_not_told : (createpath ⟨[], [(false, ["obj".toList])]⟩ "obj/x86/a.o".toList).2 = 7 := by with_unfolding_all decide +kernel

end Verif.Mkpath
