import Verif.Pp.LexSpec
import Mathlib.Tactic.Tauto
/-
Lemmas about lines of text and lines of tokens.
-/
namespace Verif.Pp

/-- A character that means nothing by itself. -/
def ordinary (c : Nat) : Bool :=
  !isSpace c && decide (c ≠ 39 ∧ c ≠ 34 ∧ c ≠ 59 ∧ c ≠ 37)

theorem cleanF_ordinary (n : Nat) (c : Nat) (s : Name) (h : ordinary c = true) :
    cleanF (n + 1) (c :: s) = c :: cleanF n s := by
  unfold ordinary isSpace at h
  simp only [Bool.and_eq_true, Bool.not_eq_true', decide_eq_false_iff_not, decide_eq_true_eq] at h
  rw [cleanF]
  · rw [if_neg h.1]
  · exact h.2.1
  · exact h.2.2.1
  · intro s h'; exact absurd h' h.2.2.2.2
  · intro s h'; exact absurd h' h.2.2.2.2
  · exact h.2.2.2.1

/-- More fuel does not matter. -/
theorem cleanF_fuel : ∀ (n m : Nat) (l : Name), l.length ≤ n → l.length ≤ m → cleanF n l = cleanF m l
  | _, _, [], _, _ => by simp [cleanF]
  | 0, _, c :: s, h, _ => by simp at h
  | _, 0, c :: s, _, h => by simp at h
  | n + 1, m + 1, c :: s, hn, hm => by
    have drop_le : ∀ (p : Nat → Bool) (l : Name), (l.dropWhile p).length ≤ l.length :=
      fun p l => (List.dropWhile_sublist p).length_le
    have ih : ∀ r : Name, r.length ≤ s.length → cleanF n r = cleanF m r := by
      intro r hr
      simp only [List.length_cons] at hn hm
      exact cleanF_fuel n m r (by omega) (by omega)
    by_cases h1 : c = 39
    · subst h1
      simp only [cleanF]
      rw [ih]
      rw [List.length_drop]; have := drop_le (fun x => decide (x ≠ 39)) s; omega
    by_cases h2 : c = 34
    · subst h2
      simp only [cleanF]
      rw [ih]
      rw [List.length_drop]; have := drop_le (fun x => decide (x ≠ 34)) s; omega
    by_cases h3 : c = 59
    · subst h3; simp [cleanF]
    by_cases h4 : ∃ r, c = 37 ∧ s = 123 :: r
    · obtain ⟨r, rfl, rfl⟩ := h4
      simp only [cleanF]
      rw [ih]
      rw [List.length_drop]; have := drop_le (fun x => decide (x ≠ 125)) r
      simp only [List.length_cons]; omega
    by_cases h5 : ∃ r, c = 37 ∧ s = 37 :: r
    · obtain ⟨r, rfl, rfl⟩ := h5
      simp only [cleanF]
      rw [ih]; simp
    have eq : ∀ k, cleanF (k + 1) (c :: s) =
        if c = 32 ∨ (9 ≤ c ∧ c ≤ 13) then
          match s.dropWhile (fun c => decide (c = 32 ∨ (9 ≤ c ∧ c ≤ 13))) with
          | [] => []
          | 59 :: _ => []
          | r => 32 :: cleanF k r
        else c :: cleanF k s := by
      intro k
      rw [cleanF]
      · rfl
      · exact h1
      · exact h2
      · intro r h h'; exact h4 ⟨r, h, h'⟩
      · intro r h h'; exact h5 ⟨r, h, h'⟩
      · exact h3
    rw [eq n, eq m]
    split
    · have := drop_le (fun c => decide (c = 32 ∨ (9 ≤ c ∧ c ≤ 13))) s
      cases hd : s.dropWhile (fun c => decide (c = 32 ∨ (9 ≤ c ∧ c ≤ 13))) with
      | nil => rfl
      | cons d r =>
        have : cleanF n (d :: r) = cleanF m (d :: r) := ih _ (by rw [← hd]; exact this)
        split
        · rfl
        · rfl
        · rw [this]
    · rw [ih s (by omega)]

theorem clean_ordinary (c : Nat) (s : Name) (h : ordinary c = true) : clean (c :: s) = c :: clean s := by
  unfold clean; rw [List.length_cons, cleanF_ordinary _ _ _ h]

theorem clean_run (p : Nat → Bool) (hp : ∀ c, p c = true → ordinary c = true) : ∀ s : Name,
    clean s = s.takeWhile p ++ clean (s.dropWhile p)
  | [] => rfl
  | c :: s => by
    by_cases h : p c = true
    · rw [List.takeWhile_cons, List.dropWhile_cons]
      simp only [h, ↓reduceIte, List.cons_append]
      rw [clean_ordinary c s (hp c h), clean_run p hp s]
    · rw [List.takeWhile_cons, List.dropWhile_cons]
      simp [h]

theorem digit_ordinary (c : Nat) (h : isDigit c = true) : ordinary c = true := by
  unfold isDigit at h; unfold ordinary isSpace; simp at h ⊢; omega

theorem num_ordinary (c : Nat) (h : isNumChar c = true) : ordinary c = true := by
  unfold isNumChar isAlpha isDigit at h; unfold ordinary isSpace; simp at h ⊢; omega

theorem id_ordinary (c : Nat) (h : isIdChar c = true) : ordinary c = true := by
  unfold isIdChar isIdStart isAlpha isDigit at h; unfold ordinary isSpace; simp at h ⊢; omega

theorem idstart_id (c : Nat) (h : isIdStart c = true) : isIdChar c = true := by
  unfold isIdChar; simp [h]

/-- A percent sign that opens nothing. -/
theorem clean_percent (s : Name) (h : ∀ d r, s = d :: r → d ≠ 123 ∧ d ≠ 37) : clean (37 :: s) = 37 :: clean s := by
  unfold clean
  rw [List.length_cons]
  rw [cleanF]
  · rw [if_neg (by omega)]
  · decide
  · decide
  · intro r _ e; exact (h _ _ e).1 rfl
  · intro r _ e; exact (h _ _ e).2 rfl
  · decide

theorem drop1_le (p : Nat → Bool) (s : Name) : ((s.dropWhile p).drop 1).length ≤ s.length := by
  have := (List.dropWhile_sublist (l := s) p).length_le
  rw [List.length_drop]; omega

theorem clean_string (c : Nat) (hc : c = 39 ∨ c = 34) (s : Name) :
    clean (c :: s) = c :: (s.takeWhile (fun x => decide (x ≠ c)) ++ c :: clean ((s.dropWhile (fun x => decide (x ≠ c))).drop 1)) := by
  unfold clean
  rcases hc with rfl | rfl
  · simp only [List.length_cons, cleanF]
    rw [cleanF_fuel _ _ _ (drop1_le _ _) (Nat.le_refl _)]
  · simp only [List.length_cons, cleanF]
    rw [cleanF_fuel _ _ _ (drop1_le _ _) (Nat.le_refl _)]

theorem clean_brace (s : Name) :
    clean (37 :: 123 :: s) = 37 :: (s.takeWhile (fun x => decide (x ≠ 125)) ++ clean ((s.dropWhile (fun x => decide (x ≠ 125))).drop 1)) := by
  unfold clean
  simp only [List.length_cons, cleanF]
  rw [cleanF_fuel _ _ _ (Nat.le_succ_of_le (drop1_le _ _)) (Nat.le_refl _)]

theorem clean_two (s : Name) : clean (37 :: 37 :: s) = 37 :: 37 :: clean s := by
  unfold clean
  simp only [List.length_cons, cleanF]
  rw [cleanF_fuel _ _ _ (Nat.le_succ _) (Nat.le_refl _)]

theorem clean_comment (s : Name) : clean (59 :: s) = [] := by
  unfold clean; simp [cleanF]

theorem clean_space (c : Nat) (s : Name) (h : isSpace c = true) :
    clean (c :: s) = if (s.dropWhile isSpace).isEmpty || first (fun x => decide (x = 59)) (s.dropWhile isSpace) then []
      else 32 :: clean (s.dropWhile isSpace) := by
  have hc : c = 32 ∨ (9 ≤ c ∧ c ≤ 13) := by unfold isSpace at h; simpa using h
  unfold clean
  rw [List.length_cons, cleanF]
  · rw [if_pos hc]
    have hle := (List.dropWhile_sublist (l := s) isSpace).length_le
    show (match s.dropWhile isSpace with
      | [] => []
      | 59 :: _ => []
      | r => 32 :: cleanF s.length r) = _
    cases hd : s.dropWhile isSpace with
    | nil => rfl
    | cons d r =>
      rw [hd] at hle
      by_cases h9 : d = 59
      · subst h9; rfl
      · simp only [first, h9, decide_false, List.isEmpty_cons, Bool.or_self, Bool.false_eq_true, ↓reduceIte]
        rw [cleanF_fuel (d :: r).length s.length _ (Nat.le_refl _) hle]
        split
        · rename_i e; exact absurd e (by simp)
        · rename_i e; injection e with e1 e2; exact absurd e1 h9
        · rfl
  · omega
  · omega
  · intro r h; omega
  · intro r h; omega
  · omega

theorem takeWhile_id (p : Nat → Bool) (c : Nat) (s : Name) (h : p c = true) :
    (c :: s).takeWhile p = c :: s.takeWhile p ∧ (c :: s).dropWhile p = s.dropWhile p := by
  simp [List.takeWhile_cons, List.dropWhile_cons, h]

/-- One turn of the loop. -/
theorem lexOne_clean (c : Nat) (s : Name) :
    clean (c :: s) = ((lexOne c s).1.map Tok.text).getD [] ++ clean (lexOne c s).2 := by
  unfold lexOne
  by_cases h37 : c = 37
  · subst h37
    rw [if_pos rfl]
    cases s with
    | nil => rfl
    | cons d r =>
      simp only
      split
      · rename_i h
        have hd : ordinary d = true ∧ d ≠ 123 ∧ d ≠ 37 := by
          have : isDigit d = true ∨ d = 45 ∨ d = 43 := by
            simp only [Bool.or_eq_true, Bool.and_eq_true, decide_eq_true_eq] at h
            tauto
          rcases this with h' | rfl | rfl
          · exact ⟨digit_ordinary d h', by unfold isDigit at h'; simp at h'; omega, by unfold isDigit at h'; simp at h'; omega⟩
          · decide
          · decide
        rw [clean_percent _ (by intro a b e; cases e; exact hd.2), clean_ordinary d r hd.1,
          clean_run isDigit digit_ordinary r]
        rfl
      · split
        · rename_i h; subst h
          rw [clean_brace]; rfl
        · rename_i hnd h123
          split
          · rename_i h
            by_cases hp : d = 37
            · subst hp
              rw [clean_two, clean_run isIdChar id_ordinary r]; rfl
            · have hd : ordinary d = true := by
                have : isIdChar d = true ∨ d = 33 ∨ d = 36 := by
                  simp only [Bool.or_eq_true, Bool.and_eq_true, decide_eq_true_eq] at h
                  rcases h with h | ⟨h, _⟩
                  · exact Or.inl h
                  · rcases h with (h | h) | h
                    · exact Or.inr (Or.inl h)
                    · exact absurd h hp
                    · exact Or.inr (Or.inr h)
                rcases this with h' | rfl | rfl
                · exact id_ordinary d h'
                · decide
                · decide
              rw [clean_percent _ (by intro a b e; cases e; exact ⟨h123, hp⟩), clean_ordinary d r hd,
                clean_run isIdChar id_ordinary r]
              rfl
          · split
            · rename_i hp; subst hp
              rw [clean_two]; rfl
            · rename_i hp
              rw [clean_percent _ (by intro a b e; cases e; exact ⟨h123, hp⟩)]; rfl
  · rw [if_neg h37]
    split
    · rename_i h
      have hc : ordinary c = true := by
        simp only [Bool.or_eq_true, Bool.and_eq_true, decide_eq_true_eq] at h
        rcases h with h | ⟨rfl, _⟩
        · exact id_ordinary c (idstart_id c h)
        · decide
      rw [clean_ordinary c s hc, clean_run isIdChar id_ordinary s]; rfl
    · split
      · rename_i h
        rw [clean_string c h]; simp
      · rename_i hq
        split
        · rename_i h
          have hc : ordinary c = true := by
            simp only [Bool.or_eq_true, decide_eq_true_eq] at h
            rcases h with h | rfl
            · exact digit_ordinary c h
            · decide
          rw [clean_ordinary c s hc, clean_run isNumChar num_ordinary s]; rfl
        · split
          · rename_i h
            rw [clean_space c s h]
            simp only
            split
            · rfl
            · rfl
          · rename_i hs
            split
            · rename_i h; subst h; rw [clean_comment]; rfl
            · rename_i h59
              have hc : ordinary c = true := by
                unfold ordinary
                simp only [Bool.and_eq_true, Bool.not_eq_true', decide_eq_true_eq]
                exact ⟨by simpa using hs, by tauto⟩
              rw [clean_ordinary c s hc]
              cases s with
              | nil => rfl
              | cons d r =>
                simp only
                split
                · rename_i hpr
                  have hd : ordinary d = true := by
                    have : ∀ q ∈ pairs, ordinary q.2 = true := by decide
                    exact this _ (by simpa using hpr)
                  rw [clean_ordinary d r hd]; rfl
                · rfl

theorem lexOne_less (c : Nat) (s : Name) : (lexOne c s).2.length ≤ s.length := by
  have dw : ∀ (p : Nat → Bool) (l : Name), (l.dropWhile p).length ≤ l.length :=
    fun p l => (List.dropWhile_sublist p).length_le
  unfold lexOne
  split
  · split
    · simp
    · rename_i d r
      split
      · have := dw isDigit r; simp only [List.length_cons]; omega
      · split
        · have := drop1_le (fun x => decide (x ≠ 125)) r; simp only [List.length_cons]; omega
        · split
          · have := dw isIdChar r; simp only [List.length_cons]; omega
          · split
            · simp
            · simp
  · split
    · exact dw _ _
    · split
      · exact drop1_le _ _
      · split
        · exact dw _ _
        · split
          · simp only
            split
            · simp
            · exact dw _ _
          · split
            · simp
            · split
              · split <;> simp
              · simp

/-- White space is written as one space. -/
theorem lexOne_white (c : Nat) (s : Name) (t : Tok) (h : (lexOne c s).1 = some t) (hw : t.ty = .white) :
    t.text = [32] := by
  unfold lexOne at h
  repeat' split at h
  all_goals first
    | (simp only [Option.some.injEq] at h; subst h; first | rfl | (simp at hw))
    | (simp at h; done)
    | (simp only at h; split at h; (simp at h); (simp only [Option.some.injEq] at h; subst h; rfl))

theorem detoken_cons (outer : Name → Name) (t : Tok) (l : List Tok) (h1 : t.isOuter = false)
    (h2 : t.ty = .white → t.text = [32]) : detoken outer (t :: l) = t.text ++ detoken outer l := by
  unfold detoken
  rw [List.flatMap_cons]
  congr 1
  by_cases hw : t.ty = .white
  · rw [if_pos hw, h2 hw]
  · rw [if_neg hw, h1]; rfl

theorem tokeniseF_clean (outer : Name → Name) : ∀ (n : Nat) (line : Name), line.length ≤ n →
    (∀ t ∈ tokeniseF n line, t.isOuter = false) → detoken outer (tokeniseF n line) = clean line
  | _, [], _, _ => by simp [tokeniseF, detoken, clean, cleanF]
  | 0, c :: s, h, _ => by simp at h
  | n + 1, c :: s, h, ho => by
    have hl := lexOne_less c s
    simp only [List.length_cons] at h
    simp only [tokeniseF] at ho ⊢
    have ih := tokeniseF_clean outer n (lexOne c s).2 (by omega)
      (fun t ht => ho t (List.mem_append_right _ ht))
    rw [lexOne_clean c s]
    cases hx : (lexOne c s).1 with
    | none => simpa using ih
    | some t =>
      rw [hx] at ho
      simp only [Option.toList_some, List.cons_append, List.nil_append, Option.map_some, Option.getD_some]
      rw [detoken_cons outer t _ (ho t (by simp)) (fun hw => lexOne_white c s t hx hw), ih]

/-- A token begins with the character it was found at, or it is a space. -/
theorem lexOne_head (c : Nat) (s : Name) (t : Tok) (h : (lexOne c s).1 = some t) :
    (∃ r, t.text = c :: r) ∨ t.text = [32] := by
  unfold lexOne at h
  repeat' split at h
  all_goals first
    | (simp only [Option.some.injEq] at h; subst h; first | (left; exact ⟨_, rfl⟩) | (right; rfl) | (rename_i hc _ _ _ _ _; left; exact ⟨_, by rw [hc]⟩))
    | (simp at h; done)
    | (simp only at h; split at h; (simp at h); (simp only [Option.some.injEq] at h; subst h; right; rfl))
    | (simp only [Option.some.injEq] at h; subst h; subst_vars; left; exact ⟨_, rfl⟩)

theorem first_dropWhile (p : Nat → Bool) : ∀ s : Name, first p (s.dropWhile p) = false
  | [] => rfl
  | c :: s => by
    by_cases h : p c = true
    · rw [List.dropWhile_cons]; simp only [h, ↓reduceIte]; exact first_dropWhile p s
    · rw [List.dropWhile_cons]; simp only [h, ↓reduceIte]; simpa [first] using h

/-- A name or a number stops where the line cannot go on with it. -/
theorem lexOne_stop (c : Nat) (s : Name) (t : Tok) (h : (lexOne c s).1 = some t) :
    (t.ty = .id → first isIdChar (lexOne c s).2 = false ∧ (first isIdStart t.text = true ∨ first (· = 36) t.text = true) ∧
      t.text.all isIdChar = true) ∧
    (t.ty = .num → first isNumChar (lexOne c s).2 = false) := by
  unfold lexOne at h ⊢
  by_cases h37 : c = 37
  · simp only [h37, ↓reduceIte] at h ⊢
    repeat' split at h
    all_goals (simp only [Option.some.injEq] at h; subst h; simp)
  · simp only [h37, ↓reduceIte] at h ⊢
    by_cases h1 : (isIdStart c || (decide (c = 36) && first isIdStart s)) = true
    · simp only [h1, ↓reduceIte, Option.some.injEq] at h ⊢
      subst h
      refine ⟨fun _ => ⟨first_dropWhile _ _, ?_, ?_⟩, by simp⟩
      · simp only [Bool.or_eq_true, Bool.and_eq_true, decide_eq_true_eq] at h1
        rcases h1 with h | ⟨h, _⟩
        · exact Or.inl h
        · exact Or.inr (by simp [first, h])
      · rw [List.all_cons, Bool.and_eq_true]
        constructor
        · simp only [Bool.or_eq_true, Bool.and_eq_true, decide_eq_true_eq] at h1
          rcases h1 with h | ⟨h, _⟩
          · exact idstart_id c h
          · subst h; decide
        · exact List.all_takeWhile
    · by_cases h2 : c = 39 ∨ c = 34
      · simp only [h1, Bool.false_eq_true, h2, ↓reduceIte, Option.some.injEq] at h ⊢
        subst h; simp
      · by_cases h3 : (isDigit c || decide (c = 36)) = true
        · simp only [h1, Bool.false_eq_true, h2, h3, ↓reduceIte, Option.some.injEq] at h ⊢
          subst h
          exact ⟨by simp, fun _ => first_dropWhile _ _⟩
        · by_cases h4 : isSpace c = true
          · simp only [h1, Bool.false_eq_true, h2, h3, h4, ↓reduceIte] at h ⊢
            split at h
            · simp at h
            · simp only [Option.some.injEq] at h; subst h; simp
          · by_cases h5 : c = 59
            · subst h5; simp only [h1, Bool.false_eq_true, h2, h3, h4, ↓reduceIte] at h; simp at h
            · simp only [h1, Bool.false_eq_true, h2, h3, h4, h5, ↓reduceIte] at h ⊢
              repeat' split at h
              all_goals (simp only [Option.some.injEq] at h; subst h; simp)

/-- The first token of a line begins as the line does. -/
theorem tokeniseF_head (p : Nat → Bool) (hp : p 32 = false) (n : Nat) (line : Name) (h : first p line = false) (b : Tok)
    (l : List Tok) (e : tokeniseF n line = b :: l) : first p b.text = false := by
  cases n with
  | zero => cases line <;> simp [tokeniseF] at e
  | succ n =>
    cases line with
    | nil => simp [tokeniseF] at e
    | cons c s =>
      simp only [tokeniseF] at e
      cases hx : (lexOne c s).1 with
      | none =>
        have hnil : (lexOne c s).2 = [] := by
          unfold lexOne at hx ⊢
          repeat' split at hx
          all_goals first
            | (simp at hx; done)
            | (simp only at hx; split at hx <;> simp_all; done)
            | (subst_vars; rfl)
        rw [hx, hnil] at e
        cases n <;> simp [tokeniseF] at e
      | some t =>
        rw [hx] at e
        simp only [Option.toList_some, List.cons_append, List.nil_append, List.cons.injEq] at e
        rw [← e.1]
        rcases lexOne_head c s t hx with ⟨r, hr⟩ | hr
        · rw [hr]; exact h
        · rw [hr]; exact hp

theorem tokeniseF_whole : ∀ (n : Nat) (line : Name) (l1 l2 : List Tok) (a b : Tok),
    tokeniseF n line = l1 ++ a :: b :: l2 →
    (a.ty = .id → first isIdChar b.text = false) ∧ (a.ty = .num → first isNumChar b.text = false)
  | 0, line, l1, l2, a, b, e => by cases line <;> simp [tokeniseF] at e
  | n + 1, [], l1, l2, a, b, e => by simp [tokeniseF] at e
  | n + 1, c :: s, l1, l2, a, b, e => by
    simp only [tokeniseF] at e
    cases hx : (lexOne c s).1 with
    | none => rw [hx] at e; exact tokeniseF_whole n _ l1 l2 a b e
    | some t =>
      rw [hx] at e
      simp only [Option.toList_some, List.cons_append, List.nil_append] at e
      cases l1 with
      | nil =>
        simp only [List.nil_append, List.cons.injEq] at e
        rw [← e.1]
        have hs := lexOne_stop c s t hx
        exact ⟨fun h => tokeniseF_head isIdChar rfl n _ (hs.1 h).1 b l2 e.2,
          fun h => tokeniseF_head isNumChar rfl n _ (hs.2 h) b l2 e.2⟩
      | cons q l1 =>
        simp only [List.cons_append, List.cons.injEq] at e
        exact tokeniseF_whole n _ l1 l2 a b e.2

end Verif.Pp
