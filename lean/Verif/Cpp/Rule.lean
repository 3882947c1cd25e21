import Verif.Cpp.Lemmas
/-
The rule for make that names the files a source depends on: frontends/yasm/yasm.c:272-389 `do_generate_make_dependencies`.  The files are given; opening
and closing the output is not modelled.
-/
namespace Verif.Cpp

/-- The options: whether the target was given with -MT (`makedep_target`), `makedep_dos2unix_slash`, `makedep_with_empty_recipts`. -/
structure DepOpts where
  named : Bool
  slash : Bool
  empty : Bool
  deriving DecidableEq, Repr

/-- yasm.c:272-281 `dos2unix_slash`. -/
def dos2unix (s : Str) : Str := s.map (fun c => if c = '\\' then '/' else c)

/-- yasm.c:328-332, 344-346: the text of a name. -/
def nameText (o : DepOpts) (n : Str) : Str := if o.slash then dos2unix n else n

/-- yasm.c:314-318: the text of the target. -/
def targetText (o : DepOpts) (t : Str) : Str := if !o.slash || !o.named then t else dos2unix t

/-- yasm.c:335-346: the included files; `linelen` is the length of the line so far. -/
def filesText (o : DepOpts) : Nat → List Str → Str
  | _, [] => []
  | linelen, n :: l =>
    if linelen + (1 + n.length) ≤ 72 then [' '] ++ nameText o n ++ filesText o (linelen + (1 + n.length)) l
    else [' ', '\\', '\n', ' '] ++ nameText o n ++ filesText o (1 + n.length) l

/-- yasm.c:348-371: the rules without recipes. -/
def emptyText (o : DepOpts) (l : List Str) : Str := l.flatMap (fun n => nameText o n ++ [':', '\n', '\n'])

/-- yasm.c:320-332: the separator and the source. -/
def sourceText (o : DepOpts) (target src : Str) : Str × Nat :=
  if target.length + (2 + src.length) ≤ 72 then ([':', ' '] ++ nameText o src, target.length + (2 + src.length))
  else ([':', ' ', '\\', '\n', ' '] ++ nameText o src, 1 + src.length)

/-- yasm.c:309-381: all of the output. -/
def depText (o : DepOpts) (target src : Str) (files : List Str) : Str :=
  targetText o target ++ (sourceText o target src).1 ++ filesText o (sourceText o target src).2 files ++ ['\n'] ++
    (if o.empty && !files.isEmpty then ['\n'] ++ emptyText o files else [])

/-- yasm.c:356-365: the size of the buffer of the empty rules for `len` characters, doubled until it is larger; `none` is a loop without an end. -/
def growTo : Nat → Nat → Nat → Option Nat
  | 0, _, _ => none
  | fuel + 1, len, alloc => if len ≥ alloc then growTo fuel len (alloc * 2) else some alloc

def grow (len alloc : Nat) : Option Nat :=
  if len ≥ alloc then growTo (len + 1) len (if alloc = 0 then 4096 else alloc) else some alloc

/-! ### Specification: how make reads -/

/-- A backslash at the end of a line is read as a blank, together with the end of the line. -/
def joinLines : Str → Str
  | '\\' :: '\n' :: s => ' ' :: joinLines s
  | c :: s => c :: joinLines s
  | [] => []

/-- Lines; `cur` is the line so far. -/
def linesFrom : Str → Str → List Str
  | cur, [] => [cur]
  | cur, c :: s => if c = '\n' then cur :: linesFrom [] s else linesFrom (cur ++ [c]) s

/-- A line that is not blank is a rule: a target, a colon and the names of files. -/
def readRule (l : Str) : Option (Str × List Str) :=
  if words l = [] then none else some (l.takeWhile (· ≠ ':'), words ((l.dropWhile (· ≠ ':')).drop 1))

def readMake (s : Str) : List (Str × List Str) := (linesFrom [] (joinLines s)).filterMap readRule

/-- Names without characters that mean something to make. -/
def Name (s : Str) : Prop := s ≠ [] ∧ ∀ c ∈ s, c ∉ " \t\n\\:".toList

/-! ### Lemmas -/

theorem joinLines_cons (c : Char) (s : Str) (h : c ≠ '\\') : joinLines (c :: s) = c :: joinLines s := by
  rw [joinLines]
  rintro s' rfl
  exact absurd rfl h

theorem joinLines_plain (a s : Str) (h : ∀ c ∈ a, c ≠ '\\') : joinLines (a ++ s) = a ++ joinLines s := by
  induction a with
  | nil => rfl
  | cons c a ih => rw [List.cons_append, joinLines_cons _ _ (h c (by simp)), ih (fun d hd => h d (by simp [hd]))]; rfl

theorem linesFrom_line (a s cur : Str) (h : ∀ c ∈ a, c ≠ '\n') : linesFrom cur (a ++ '\n' :: s) = (cur ++ a) :: linesFrom [] s := by
  induction a generalizing cur with
  | nil => simp [linesFrom]
  | cons c a ih =>
    rw [List.cons_append, linesFrom, if_neg (h c (by simp)), ih _ (fun d hd => h d (by simp [hd]))]
    simp

theorem name_char {s : Str} (h : Name s) {c : Char} (hc : c ∈ s) : c ≠ ' ' ∧ c ≠ '\t' ∧ c ≠ '\n' ∧ c ≠ '\\' ∧ c ≠ ':' := by
  have := h.2 c hc
  refine ⟨?_, ?_, ?_, ?_, ?_⟩ <;> (rintro rfl; exact this (by decide))

theorem wordsFrom_name (w cur : Str) (h : ∀ c ∈ w, c ≠ ' ' ∧ c ≠ '\t') : wordsFrom cur w = if cur ++ w = [] then [] else [cur ++ w] := by
  induction w generalizing cur with
  | nil => simp [wordsFrom]
  | cons c w ih =>
    have hc := h c (by simp)
    rw [wordsFrom, if_neg (by simp [hc.1, hc.2]), ih _ (fun d hd => h d (by simp [hd]))]
    simp

theorem words_name (w : Str) (h : Name w) : words w = [w] := by
  unfold words
  rw [wordsFrom_name w [] (fun c hc => ⟨(name_char h hc).1, (name_char h hc).2.1⟩), List.nil_append, if_neg h.1]

theorem words_lead (b : Str) : words (' ' :: b) = words b := words_blank [] b

/-- The files on one line: a text without ends of lines that has these words. -/
theorem files_line (o : DepOpts) (l : List Str) (h : ∀ n ∈ l, Name (nameText o n)) (n0 : Nat) (s : Str) :
    ∃ t, joinLines (filesText o n0 l ++ s) = t ++ joinLines s ∧ (∀ c ∈ t, c ≠ '\n') ∧ (t = [] ∨ ∃ t', t = ' ' :: t') ∧
      ∀ a, words (a ++ t) = words a ++ l.map (nameText o) := by
  induction l generalizing n0 with
  | nil => exact ⟨[], rfl, by simp, .inl rfl, by simp⟩
  | cons n l ih =>
    have hn := h n (by simp)
    have hb : ∀ c ∈ nameText o n, c ≠ '\\' := fun c hc => (name_char hn hc).2.2.2.1
    rw [filesText]
    split
    · obtain ⟨t, h1, h2, h3, h4⟩ := ih (fun m hm => h m (by simp [hm])) (n0 + (1 + n.length))
      refine ⟨' ' :: nameText o n ++ t, ?_, ?_, .inr ⟨_, rfl⟩, ?_⟩
      · rw [List.append_assoc, List.append_assoc, List.singleton_append, joinLines_cons _ _ (by decide), joinLines_plain _ _ hb, h1]
        simp
      · intro c hc
        rcases List.mem_append.1 hc with hc | hc
        · rcases List.mem_cons.1 hc with rfl | hc
          · decide
          · exact (name_char hn hc).2.2.1
        · exact h2 c hc
      · intro a
        rw [List.cons_append, words_blank, h4, words_name _ hn]
        simp
    · obtain ⟨t, h1, h2, h3, h4⟩ := ih (fun m hm => h m (by simp [hm])) (1 + n.length)
      refine ⟨' ' :: ' ' :: ' ' :: nameText o n ++ t, ?_, ?_, .inr ⟨_, rfl⟩, ?_⟩
      · rw [List.append_assoc, List.append_assoc]
        show joinLines (' ' :: '\\' :: '\n' :: ' ' :: (nameText o n ++ (filesText o (1 + n.length) l ++ s))) = _
        rw [joinLines_cons _ _ (by decide), joinLines, joinLines_cons _ _ (by decide), joinLines_plain _ _ hb, h1]
        simp
      · intro c hc
        rcases List.mem_append.1 hc with hc | hc
        · rcases List.mem_cons.1 hc with rfl | hc
          · decide
          rcases List.mem_cons.1 hc with rfl | hc
          · decide
          rcases List.mem_cons.1 hc with rfl | hc
          · decide
          · exact (name_char hn hc).2.2.1
        · exact h2 c hc
      · intro a
        rw [List.cons_append, words_blank, List.cons_append, words_lead, List.cons_append, words_lead, h4, words_name _ hn]
        simp

theorem readRule_rule (t b : Str) (h : Name t) : readRule (t ++ ':' :: b) = some (t, words b) := by
  have h1 : ∀ c ∈ t, (decide (c ≠ ':')) = true := fun c hc => by simp [(name_char h hc).2.2.2.2]
  have e1 : (t ++ ':' :: b).takeWhile (· ≠ ':') = t := by
    rw [List.takeWhile_append_of_pos h1, List.takeWhile_cons_of_neg (by simp), List.append_nil]
  have e2 : (t ++ ':' :: b).dropWhile (· ≠ ':') = ':' :: b := by
    rw [List.dropWhile_append_of_pos h1, List.dropWhile_cons_of_neg (by simp)]
  have h3 : words (t ++ ':' :: b) ≠ [] := by
    obtain ⟨c, r, rfl⟩ := List.exists_cons_of_ne_nil h.1
    have hc := name_char h (c := c) (by simp)
    have : ∀ (s cur : Str), cur ≠ [] → wordsFrom cur s ≠ [] := by
      intro s
      induction s with
      | nil => intro cur hc; simp [wordsFrom, hc]
      | cons d s ih =>
        intro cur hc
        rw [wordsFrom]
        split
        · simp
        · exact ih _ (by simp)
    unfold words
    rw [List.cons_append, wordsFrom, if_neg (by simp [hc.1, hc.2.1])]
    exact this _ _ (by simp)
  unfold readRule
  rw [if_neg h3, e1, e2]
  rfl

theorem readRule_blank : readRule [] = none := by
  unfold readRule
  rw [if_pos (by decide)]

theorem empty_rules (o : DepOpts) (l : List Str) (h : ∀ n ∈ l, Name (nameText o n)) :
    (linesFrom [] (joinLines (emptyText o l))).filterMap readRule = l.map (fun n => (nameText o n, [])) := by
  induction l with
  | nil => simp [emptyText, joinLines, linesFrom, readRule_blank]
  | cons n l ih =>
    have hn := h n (by simp)
    have e : emptyText o (n :: l) = nameText o n ++ ':' :: '\n' :: '\n' :: emptyText o l := by simp [emptyText]
    have e2 : nameText o n ++ ':' :: '\n' :: '\n' :: joinLines (emptyText o l) = (nameText o n ++ [':']) ++ '\n' :: ('\n' :: joinLines (emptyText o l)) := by simp
    rw [e, joinLines_plain _ _ (fun c hc => (name_char hn hc).2.2.2.1), joinLines_cons _ _ (by decide), joinLines_cons _ _ (by decide), joinLines_cons _ _ (by decide), e2,
      linesFrom_line _ _ _ (by
        intro c hc
        rcases List.mem_append.1 hc with hc | hc
        · exact (name_char hn hc).2.2.1
        · simp at hc; rw [hc]; decide), linesFrom, if_pos rfl, List.nil_append, List.filterMap_cons, readRule_rule _ _ hn, List.filterMap_cons, readRule_blank]
    simp only
    rw [ih (fun m hm => h m (by simp [hm]))]
    rfl

theorem growTo_ok (fuel len alloc : Nat) (h0 : 0 < alloc) (hf : len < alloc * 2 ^ (fuel - 1) ∧ 0 < fuel) : ∃ a, growTo fuel len alloc = some a ∧ len < a ∧ alloc ≤ a := by
  induction fuel generalizing alloc with
  | zero => omega
  | succ k ih =>
    rw [growTo]
    split
    · rename_i hl
      cases k with
      | zero => simp at hf; omega
      | succ k =>
        obtain ⟨a, h1, h2, h3⟩ := ih (alloc * 2) (by omega) ⟨by
          have := hf.1
          simp only [Nat.add_sub_cancel] at this ⊢
          rw [Nat.pow_succ] at this
          rw [Nat.mul_assoc, Nat.mul_comm 2]
          exact this, by omega⟩
        exact ⟨a, h1, h2, by omega⟩
    · exact ⟨alloc, rfl, by omega, Nat.le_refl _⟩

end Verif.Cpp
