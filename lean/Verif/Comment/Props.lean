import Verif.Comment.Spec
/-
C95: comments of GAS sources are removed, and nothing else is.
-/
namespace Verif.Comment

/-! ### Lemmas -/

theorem clean_false (s : Str) : clean false s = match cut '/' '*' s with
    | none => (s, false)
    | some r => (r.1 ++ (clean true r.2).1, (clean true r.2).2) := by
  induction s with
  | nil => simp [clean, cut]
  | cons c s ih =>
    cases s with
    | nil => simp [clean, cut]
    | cons d s =>
      rw [clean, cut]
      by_cases h : c = '/' ∧ d = '*'
      · simp [h]
      · rw [if_neg h, if_neg h, ih]
        cases cut '/' '*' (d :: s) <;> simp

theorem clean_true (s : Str) : clean true s = match cut '*' '/' s with
    | none => ([], true)
    | some r => clean false r.2 := by
  induction s with
  | nil => simp [clean, cut]
  | cons c s ih =>
    cases s with
    | nil => simp [clean, cut]
    | cons d s =>
      rw [clean, cut]
      by_cases h : c = '*' ∧ d = '/'
      · simp [h]
      · rw [if_neg h, if_neg h, ih]
        cases cut '*' '/' (d :: s) <;> simp

theorem cut_length {a b : Char} {s : Str} {r : Str × Str} (h : cut a b s = some r) : r.1.length + r.2.length + 2 = s.length := by
  induction s generalizing r with
  | nil => simp [cut] at h
  | cons c s ih =>
    cases s with
    | nil => simp [cut] at h
    | cons d s =>
      rw [cut] at h
      split at h
      · obtain rfl := Option.some.inj h
        simp
      · cases hc : cut a b (d :: s) with
        | none => simp [hc] at h
        | some q =>
          rw [hc] at h
          obtain rfl := Option.some.inj h
          have := ih hc
          simp at this ⊢
          omega

theorem cut_app {a b : Char} {s : Str} {r : Str × Str} (h : cut a b s = some r) : s = r.1 ++ a :: b :: r.2 := by
  induction s generalizing r with
  | nil => simp [cut] at h
  | cons c s ih =>
    cases s with
    | nil => simp [cut] at h
    | cons d s =>
      rw [cut] at h
      split at h
      · rename_i hc
        obtain rfl := Option.some.inj h
        simp [hc]
      · cases hc : cut a b (d :: s) with
        | none => simp [hc] at h
        | some q =>
          rw [hc] at h
          obtain rfl := Option.some.inj h
          have := ih hc
          simp [this]

theorem inside_eq (fuel : Nat) (s : Str) (hf : s.length < fuel) : inside fuel s = clean true s := by
  induction fuel generalizing s with
  | zero => omega
  | succ fuel ih =>
    rw [inside, clean_true]
    cases h : cut '*' '/' s with
    | none => rfl
    | some r =>
      simp only
      rw [clean_false]
      cases h' : cut '/' '*' r.2 with
      | none => rfl
      | some q =>
        have h1 := cut_length h
        have h2 := cut_length h'
        simp only
        rw [ih q.2 (by omega)]

theorem strBound_none (s : Str) (h : '"' ∉ s) : strBound s = none := by
  fun_induction strBound s with
  | case1 => rfl
  | case2 => simp at h
  | case3 => simp at h
  | case4 c s h1 h2 ih => rw [ih fun hm => h (List.mem_cons_of_mem _ hm)]; rfl

theorem blank_clean (b t : Str) (hb : ∀ c ∈ b, isSpace c = true) : clean false (b ++ t) = (b ++ (clean false t).1, (clean false t).2) := by
  induction b with
  | nil => rfl
  | cons c b ih =>
    have hc : c ≠ '/' := fun e => absurd (hb c (by simp)) (by rw [e]; decide)
    have ih := ih fun c h => hb c (by simp [h])
    cases hbt : b ++ t with
    | nil =>
      obtain ⟨rfl, rfl⟩ := List.append_eq_nil_iff.1 hbt
      simp [clean]
    | cons d s =>
      rw [List.cons_append, hbt, clean, if_neg (fun h => hc h.1), ← hbt, ih]
      simp

theorem blank_open (b t : Str) (hb : ∀ c ∈ b, isSpace c = true) : clean true (b ++ t) = clean true t := by
  induction b with
  | nil => rfl
  | cons c b ih =>
    have hc : c ≠ '*' := fun e => absurd (hb c (by simp)) (by rw [e]; decide)
    have ih := ih fun c h => hb c (by simp [h])
    cases hbt : b ++ t with
    | nil =>
      obtain ⟨rfl, rfl⟩ := List.append_eq_nil_iff.1 hbt
      simp [clean]
    | cons d s => rw [List.cons_append, hbt, clean, if_neg (fun h => hc h.1), ← hbt, ih]

theorem blank_space (l : Str) : ∀ c ∈ l.takeWhile isSpace, isSpace c = true := by
  induction l with
  | nil => simp
  | cons c l ih =>
    intro d h
    rw [List.takeWhile_cons] at h
    split at h
    · rename_i hc
      rcases List.mem_cons.1 h with rfl | h
      · exact hc
      · exact ih d h
    · simp at h

/-- Lines that are the same but for white space at the start. -/
def Same (a b : Str × Bool) : Prop := a.1.dropWhile isSpace = b.1.dropWhile isSpace ∧ a.2 = b.2

theorem dropWhile_blank (b t : Str) (hb : ∀ c ∈ b, isSpace c = true) : (b ++ t).dropWhile isSpace = t.dropWhile isSpace :=
  List.dropWhile_append_of_pos hb

/-! ### The property -/

/-- Every line without quotes, within a comment or not: the text outside of comments is what is left (white space at the start of the line aside), and the
    comment is open for the next line if it is.
    Missing from the full property: lines that are comments as a whole, within a comment (`hash_keeps_open`), and lines with quotes (`string_kept`,
    `after_string_kept`, `second_string_lost`). -/
theorem comments_removed_partial (o : Bool) (l : Str) (hq : '"' ∉ l) (hc : NoLineComment l) : Same (kill o l) (clean o l) := by
  have hl : l = l.takeWhile isSpace ++ l.dropWhile isSpace := (List.takeWhile_append_dropWhile ..).symm
  have hb := blank_space l
  unfold kill
  simp only
  rw [if_neg (by rintro (h | h); exacts [hc.1 h, hc.2 h])]
  cases o with
  | true =>
    rw [if_pos rfl, inside_eq _ _ (by omega)]
    have e : clean true l = clean true (l.dropWhile isSpace) := by
      conv => lhs; rw [hl]
      exact blank_open _ _ hb
    rw [e]
    exact ⟨dropWhile_blank _ _ hb, rfl⟩
  | false =>
    rw [if_neg (by decide)]
    have hq' : '"' ∉ l.dropWhile isSpace := fun h => hq (by rw [hl]; exact List.mem_append_right _ h)
    have e : clean false l = (l.takeWhile isSpace ++ (clean false (l.dropWhile isSpace)).1, (clean false (l.dropWhile isSpace)).2) := by
      conv => lhs; rw [hl]
      exact blank_clean _ _ hb
    rw [e, clean_false]
    unfold findComment
    cases h : cut '/' '*' (l.dropWhile isSpace) with
    | none =>
      simp only
      rw [← hl]
      exact ⟨rfl, rfl⟩
    | some r =>
      have hi : inner (l.dropWhile isSpace) r.1.length ((l.dropWhile isSpace).length + 1) 0 = true := by
        rw [inner, List.drop_zero, strBound_none _ hq']
      have := cut_length h
      simp only [hi, if_true]
      rw [inside_eq _ _ (by omega)]
      exact ⟨rfl, rfl⟩

/-- Whole files of such lines: the text outside of comments, line by line, white space at the start aside. -/
theorem file_cleaned_partial (o : Bool) (ls : List Str) (h : ∀ l ∈ ls, '"' ∉ l ∧ NoLineComment l) :
    (killAll o ls).map (List.dropWhile isSpace) = (cleanAll o ls).map (List.dropWhile isSpace) := by
  induction ls generalizing o with
  | nil => rfl
  | cons l ls ih =>
    have := comments_removed_partial o l (h l (by simp)).1 (h l (by simp)).2
    rw [killAll, cleanAll, List.map_cons, List.map_cons, this.1, this.2, ih _ fun l hl => h l (by simp [hl])]

/-- A line with a quote before the first `/*` is left as it is: what is in a string is never taken for a comment, if no comment is before it. -/
theorem string_kept (l a b : Str) (hc : NoLineComment l) (hl : l.dropWhile isSpace = a ++ '"' :: b) (ha : '"' ∉ a) (hb : '\\' ∉ a)
    (hn : cut '/' '*' (a ++ ['"']) = none) : kill false l = (l, false) := by
  unfold kill
  simp only
  rw [if_neg (by rintro (h | h); exacts [hc.1 h, hc.2 h]), if_neg (by decide)]
  have hbound : ∀ (a b : Str), '"' ∉ a → '\\' ∉ a → strBound (a ++ '"' :: b) = some a.length := by
    intro a b ha hb
    induction a with
    | nil => rfl
    | cons c a ih =>
      have h1 : c ≠ '"' := fun e => ha (by simp [e])
      have h2 : c ≠ '\\' := fun e => hb (by simp [e])
      rw [List.cons_append, strBound, ih (fun h => ha (by simp [h])) (fun h => hb (by simp [h]))]
      · rfl
      · exact fun e => h1 e
      · exact fun _ e _ => h2 e
  have hcut : ∀ (a b : Str) (r : Str × Str), cut '/' '*' (a ++ '"' :: b) = some r → cut '/' '*' (a ++ ['"']) = none → a.length < r.1.length := by
    intro a b
    induction a with
    | nil =>
      intro r h _
      cases b with
      | nil => simp [cut] at h
      | cons d b =>
        rw [List.nil_append, cut, if_neg (by simp)] at h
        cases hq : cut '/' '*' (d :: b) with
        | none => simp [hq] at h
        | some q =>
          rw [hq] at h
          obtain rfl := Option.some.inj h
          simp
    | cons c a ih =>
      intro r h hn
      have e1 : ∃ d s, a ++ '"' :: b = d :: s ∧ ∃ s', a ++ ['"'] = d :: s' := by
        cases a with
        | nil => exact ⟨'"', b, rfl, [], rfl⟩
        | cons d a => exact ⟨d, _, rfl, _, rfl⟩
      obtain ⟨d, s, e, s', e'⟩ := e1
      rw [List.cons_append, e, cut] at h
      rw [List.cons_append, e', cut] at hn
      by_cases hd : c = '/' ∧ d = '*'
      · rw [if_pos hd] at hn
        cases hn
      · rw [if_neg hd] at h hn
        cases hq : cut '/' '*' (d :: s) with
        | none => simp [hq] at h
        | some q =>
          rw [hq] at h
          obtain rfl := Option.some.inj h
          have := ih q (by rw [e]; exact hq) (by rw [e']; simpa using hn)
          simp
          omega
  unfold findComment
  cases h : cut '/' '*' (l.dropWhile isSpace) with
  | none => rfl
  | some r =>
    rw [hl] at h
    have hlt := hcut a b r h hn
    have hin : ∀ fuel s, (∃ k, strBound ((l.dropWhile isSpace).drop s) = some k ∧ s + k ≤ r.1.length) → inner (l.dropWhile isSpace) r.1.length fuel s = false := by
      intro fuel
      induction fuel with
      | zero => exact fun _ _ => rfl
      | succ fuel ih =>
        rintro s ⟨k, hk, hle⟩
        rw [inner, hk]
        simp only
        rw [if_neg (by omega)]
        cases hj : strBound ((l.dropWhile isSpace).drop (s + k + 1)) with
        | none => rfl
        | some j =>
          simp only
          by_cases hg : s + k + 1 + j > r.1.length
          · rw [if_pos hg]
          · rw [if_neg hg]
            apply ih
            refine ⟨0, ?_, by omega⟩
            have hz : ∀ (s : Str) (j : Nat), strBound s = some j → strBound (s.drop j) = some 0 := by
              intro s
              fun_induction strBound s with
              | case1 => intro j h; cases h
              | case2 => intro j h; obtain rfl := Option.some.inj h; rfl
              | case3 s ih =>
                intro j h
                cases hs : strBound s with
                | none => simp [hs] at h
                | some i =>
                  rw [hs] at h
                  obtain rfl := Option.some.inj h
                  exact ih i hs
              | case4 c s h1 h2 ih =>
                intro j h
                cases hs : strBound s with
                | none => simp [hs] at h
                | some i =>
                  rw [hs] at h
                  obtain rfl := Option.some.inj h
                  exact ih i hs
            have := hz _ _ hj
            rw [List.drop_drop] at this
            exact this
    have := hin ((l.dropWhile isSpace).length + 1) 0 ⟨a.length, by rw [List.drop_zero, hl]; exact hbound a b ha hb, by omega⟩
    simp only [this]
    rfl

/-! ### Lines -/

/-- Two comments, the second one left open. -/
def sample : List Str := ["mov /* a */ %eax, /* b".toList, " c */ %ebx".toList]

theorem sample_ok : (∀ l ∈ sample, '"' ∉ l ∧ NoLineComment l) ∧ cleanAll false sample = ["mov  %eax, ".toList, " %ebx".toList] := by
  unfold NoLineComment
  with_unfolding_all decide +kernel

example : NoLineComment " .ascii \"/*\"".toList ∧ (" .ascii \"/*\"".toList).dropWhile isSpace = ".ascii ".toList ++ '"' :: "/*\"".toList ∧
    '"' ∉ ".ascii ".toList ∧ '\\' ∉ ".ascii ".toList ∧ cut '/' '*' (".ascii ".toList ++ ['"']) = none := by
  unfold NoLineComment
  with_unfolding_all decide +kernel

/-! ### Where the property fails -/

/-- A line that starts with `#` within a comment is dropped with the end of the comment: the comment stays open, and what follows is lost. -/
theorem hash_keeps_open : killAll false ["/* a".toList, "# b */".toList, "nop".toList] = [[], [], []] := by with_unfolding_all decide +kernel

/-- A comment behind a string is not removed, so a directive on its second line is acted on. -/
theorem after_string_kept : killAll false [".ascii \"a\" /* b".toList, ".else */".toList] = [".ascii \"a\" /* b".toList, ".else */".toList] := by
  with_unfolding_all decide +kernel

/-- Behind a comment strings are not seen: `/*` in one opens a comment that loses the rest. -/
theorem second_string_lost : killAll false ["/* a */ .ascii \"/*\"".toList, "nop".toList] = [" .ascii \"".toList, []] := by with_unfolding_all decide +kernel

end Verif.Comment
