import Verif.Param.Spec
namespace Verif.Param
open Verif.Comment (Str isSpace)

theorem takeWhile_stop (p : Char → Bool) (a t : Str) (x : Char) (hx : p x = false) : ((a ++ x :: t).takeWhile p).length ≤ a.length := by
  induction a with
  | nil => simp [List.takeWhile_cons, hx]
  | cons c a ih =>
    rw [List.cons_append, List.takeWhile_cons]
    split
    · simpa using ih
    · simp

/-- A token that starts in a text does not go beyond it, if a backslash is behind. -/
theorem tok_within (c : Char) (a t : Str) : (tok c (a ++ '\\' :: t)).2 ≤ a.length := by
  unfold tok
  split
  · split
    · rename_i h
      cases a with
      | nil => simp at h
      | cons d a =>
        have := takeWhile_stop isHex a t '\\' (by decide)
        simp only [List.cons_append, List.drop_succ_cons, List.drop_zero, List.length_cons]
        omega
    · exact takeWhile_stop _ a t _ (by decide)
  · split
    · rename_i h
      cases a with
      | nil =>
        exfalso
        simp only [List.nil_append, List.take_succ_cons, List.take_zero, ops, List.map_cons, List.map_nil, List.contains_iff_mem] at h
        revert h
        simp
      | cons d a => simp
    · split
      · exact takeWhile_stop _ a t _ (by decide)
      · simp

theorem tok_le (c : Char) (a : Str) : (tok c a).2 ≤ a.length := by
  have tl : ∀ (p : Char → Bool) (l : Str), (l.takeWhile p).length ≤ l.length := fun p l => (List.takeWhile_sublist p).length_le
  unfold tok
  split
  · split
    · rename_i h
      cases a with
      | nil => simp at h
      | cons d a =>
        have := tl isHex a
        simp only [List.drop_succ_cons, List.drop_zero, List.length_cons]
        omega
    · exact tl _ a
  · split
    · rename_i h
      cases a with
      | nil =>
        exfalso
        simp only [List.take_nil, ops, List.map_cons, List.map_nil, List.contains_iff_mem] at h
        revert h
        simp
      | cons d a => simp
    · split
      · exact tl _ a
      · simp

theorem split_space (s : Str) : s.takeWhile isSpace ++ s.dropWhile isSpace = s := List.takeWhile_append_dropWhile

/-- White space only. -/
theorem scan_blank (s : Str) (h : s.dropWhile isSpace = []) : scan s = none := by
  unfold scan
  rw [h]

theorem spaces_of {s : Str} (h : s.dropWhile isSpace = []) : ∀ c ∈ s, isSpace c = true := by
  intro c hc
  induction s with
  | nil => simp at hc
  | cons d s ih =>
    rw [List.dropWhile_cons] at h
    split at h
    · rename_i hd
      rcases List.mem_cons.1 hc with rfl | hc
      · exact hd
      · exact ih h hc
    · simp at h

theorem takeWhile_app (s t : Str) (h : ∀ c ∈ s, isSpace c = true) (x : Char) (hx : isSpace x = false) :
    (s ++ x :: t).takeWhile isSpace = s ∧ (s ++ x :: t).dropWhile isSpace = x :: t := by
  induction s with
  | nil => simp [List.takeWhile_cons, List.dropWhile_cons, hx]
  | cons c s ih =>
    have hc := h c (by simp)
    have ih := ih fun c h' => h c (by simp [h'])
    simp [List.takeWhile_cons, List.dropWhile_cons, hc, ih]

theorem tok_backslash (t : Str) : tok '\\' t = (.chr '\\', 0) := by
  have h : ops.contains ('\\' :: t.take 1) = false := by
    cases t with
    | nil => decide
    | cons d t =>
      simp only [List.take_succ_cons, List.take_zero, ops, List.map_cons, List.map_nil]
      simp
  unfold tok
  rw [if_neg (by decide), h, if_neg (by decide), if_neg (by decide)]

/-- Text before a backslash. -/
theorem walk_text (val : Str → Option Str) (n : Nat) : ∀ (a : Str), a.length ≤ n → '\\' ∉ a → ∀ (t done : Str) (fuel : Nat), (a ++ '\\' :: t).length < fuel →
    ∃ fuel', t.length < fuel' ∧ walk val fuel done false (a ++ '\\' :: t) = walk val fuel' (done ++ (a ++ ['\\'])) true t := by
  induction n with
  | zero =>
    intro a ha _ t done fuel hf
    obtain rfl := List.length_eq_zero_iff.1 (Nat.le_zero.1 ha)
    obtain ⟨fuel, rfl⟩ : ∃ k, fuel = k + 1 := ⟨fuel - 1, by omega⟩
    refine ⟨fuel, by simp at hf; omega, ?_⟩
    rw [walk]
    have : scan ([] ++ '\\' :: t) = some (['\\'], .chr '\\', t) := by
      unfold scan
      have := takeWhile_app [] t (by simp) '\\' (by decide)
      rw [this.1, this.2]
      simp [tok_backslash]
    rw [this]
    simp
  | succ n ih =>
    intro a ha hb t done fuel hf
    obtain ⟨fuel, rfl⟩ : ∃ k, fuel = k + 1 := ⟨fuel - 1, by omega⟩
    cases hd : a.dropWhile isSpace with
    | nil =>
      refine ⟨fuel, by simp at hf; omega, ?_⟩
      rw [walk]
      have : scan (a ++ '\\' :: t) = some (a ++ ['\\'], .chr '\\', t) := by
        unfold scan
        have := takeWhile_app a t (spaces_of hd) '\\' (by decide)
        rw [this.1, this.2]
        simp [tok_backslash]
      rw [this]
      simp
    | cons c r =>
      have ea : a = a.takeWhile isSpace ++ c :: r := by rw [← hd, split_space]
      have hc : isSpace c = false := by
        have := List.head?_dropWhile_not isSpace a
        rw [hd] at this
        simpa using this
      have hcb : c ≠ '\\' := fun e => hb (by rw [ea, e]; simp)
      have hsp : ∀ d ∈ a.takeWhile isSpace, isSpace d = true := fun d h => by
        have := List.all_takeWhile (p := isSpace) (l := a)
        exact List.all_eq_true.1 this d h
      have hk := tok_within c r t
      have hs : scan (a ++ '\\' :: t) = some (a.takeWhile isSpace ++ c :: r.take (tok c (r ++ '\\' :: t)).2, (tok c (r ++ '\\' :: t)).1,
          r.drop (tok c (r ++ '\\' :: t)).2 ++ '\\' :: t) := by
        unfold scan
        have e2 : a ++ '\\' :: t = a.takeWhile isSpace ++ c :: (r ++ '\\' :: t) := by
          conv => lhs; rw [ea]
          simp
        rw [e2]
        have := takeWhile_app _ (r ++ '\\' :: t) hsp c hc
        rw [this.1, this.2]
        simp only
        rw [List.take_append_of_le_length hk, List.drop_append_of_le_length hk]
      have hnt : (tok c (r ++ '\\' :: t)).1 ≠ .chr '\\' := by
        unfold tok
        split
        · split <;> simp
        · split
          · simp
          · split
            · simp
            · simpa using hcb
      have hlen : a.length = (a.takeWhile isSpace).length + (r.length + 1) := by
        conv => lhs; rw [ea]
        simp
      obtain ⟨fuel', h1, h2⟩ := ih (r.drop (tok c (r ++ '\\' :: t)).2) (by rw [List.length_drop]; omega)
        (fun h => hb (by rw [ea]; exact List.mem_append_right _ (List.mem_cons_of_mem _ (List.mem_of_mem_drop h)))) t
        (done ++ (a.takeWhile isSpace ++ c :: r.take (tok c (r ++ '\\' :: t)).2)) fuel (by simp at hf ⊢; omega)
      refine ⟨fuel', h1, ?_⟩
      rw [walk, hs]
      simp only [hnt, decide_false]
      rw [if_neg (by decide), h2]
      congr 1
      conv => rhs; rw [ea]
      simp only [List.append_assoc, List.cons_append]
      rw [← List.append_assoc (r.take _), List.take_append_drop]

/-- Text at the end. -/
theorem walk_end (val : Str → Option Str) (n : Nat) : ∀ (a : Str), a.length ≤ n → '\\' ∉ a → ∀ (done : Str) (fuel : Nat), walk val fuel done false a = done ++ a := by
  induction n with
  | zero =>
    intro a ha _ done fuel
    obtain rfl := List.length_eq_zero_iff.1 (Nat.le_zero.1 ha)
    cases fuel with
    | zero => rfl
    | succ fuel => rw [walk, scan_blank [] rfl]
  | succ n ih =>
    intro a ha hb done fuel
    cases fuel with
    | zero => rfl
    | succ fuel =>
      rw [walk]
      cases hd : a.dropWhile isSpace with
      | nil => rw [scan_blank a hd]
      | cons c r =>
        have ea : a = a.takeWhile isSpace ++ c :: r := by rw [← hd, split_space]
        have hcb : c ≠ '\\' := fun e => hb (by rw [ea, e]; simp)
        have hlen : a.length = (a.takeWhile isSpace).length + (r.length + 1) := by
          conv => lhs; rw [ea]
          simp
        have hs : scan a = some (a.takeWhile isSpace ++ c :: r.take (tok c r).2, (tok c r).1, r.drop (tok c r).2) := by
          unfold scan
          rw [hd]
        have hnt : (tok c r).1 ≠ .chr '\\' := by
          unfold tok
          split
          · split <;> simp
          · split
            · simp
            · split
              · simp
              · simpa using hcb
        rw [hs]
        simp only [hnt, decide_false]
        rw [if_neg (by decide), ih _ (by rw [List.length_drop]; omega)
          (fun h => hb (by rw [ea]; exact List.mem_append_right _ (List.mem_cons_of_mem _ (List.mem_of_mem_drop h))))]
        conv => rhs; rw [ea]
        simp only [List.append_assoc, List.cons_append]
        rw [List.take_append_drop]

theorem takeWhile_next (r t : Str) (hr : r.all isNext = true) (ht : ∀ c, t.head? = some c → isNext c = false) : (r ++ t).takeWhile isNext = r := by
  induction r with
  | nil =>
    cases t with
    | nil => rfl
    | cons c t => simp [List.takeWhile_cons, ht c rfl]
  | cons c r ih =>
    rw [List.all_cons, Bool.and_eq_true] at hr
    rw [List.cons_append, List.takeWhile_cons, if_pos hr.1, ih hr.2]

/-- A name is one token. -/
theorem scan_name (n t : Str) (hn : Name n) (ht : ∀ c, t.head? = some c → isNext c = false) : scan (n ++ t) = some (n, .id n, t) := by
  obtain ⟨c, r, rfl, hc, hr⟩ := hn
  have hs : isSpace c = false := by
    by_contra h
    simp only [isSpace, Bool.not_eq_false, Bool.or_eq_true, decide_eq_true_eq] at h
    rcases h with ((((rfl | rfl) | rfl) | rfl) | rfl) | rfl <;> revert hc <;> decide
  have hdg : c.isDigit = false := by
    by_contra h
    simp only [Bool.not_eq_false] at h
    simp only [Bool.or_eq_true, decide_eq_true_eq] at hc
    rcases hc with (hc | rfl) | rfl
    · simp only [Char.isDigit, Char.isAlpha, Char.isUpper, Char.isLower, Bool.and_eq_true, Bool.or_eq_true, decide_eq_true_eq, ge_iff_le, UInt32.le_iff_toNat_le] at h hc
      simp at h hc
      omega
    all_goals revert h; decide
  have hop : ops.contains (c :: (r ++ t).take 1) = false := by
    by_contra h
    simp only [Bool.not_eq_false, List.contains_iff_mem, ops, List.map_cons, List.map_nil, List.mem_cons, List.not_mem_nil, or_false] at h
    rcases h with h | h | h | h | h | h | h | h | h | h | h | h
    all_goals
      have e := congrArg List.head? h
      simp only [List.head?_cons] at e
      have e := Option.some.inj e
      subst e
      revert hc
      decide
  have htk : tok c (r ++ t) = (.id (c :: r), r.length) := by
    unfold tok
    rw [if_neg (by simp [hdg]), hop, if_neg (by decide), if_pos (by unfold isFirst; rw [hc]; rfl), takeWhile_next r t hr ht]
  unfold scan
  have := takeWhile_app [] (r ++ t) (by simp) c hs
  rw [List.nil_append] at this
  rw [List.cons_append, this.1, this.2]
  simp [htk]

/-- References and the text behind them, from behind the first backslash on. -/
theorem walk_refs (val : Str → Option Str) (v : Str → Str) (rs : List (Str × Str)) (hn : ∀ r ∈ rs, Name r.1)
    (ht : ∀ r ∈ rs, '\\' ∉ r.2 ∧ ∀ c, r.2.head? = some c → isNext c = false) (hv : ∀ r ∈ rs, val r.1 = some (v r.1)) (done a : Str) (ha : '\\' ∉ a)
    (fuel : Nat) (hf : (a ++ writeRefs rs).length < fuel) : walk val fuel done false (a ++ writeRefs rs) = done ++ (a ++ meanRefs v rs) := by
  induction rs generalizing done a fuel with
  | nil =>
    rw [writeRefs, meanRefs, List.append_nil]
    exact walk_end val a.length a (Nat.le_refl _) ha done fuel
  | cons r rs ih =>
    rw [writeRefs] at hf ⊢
    obtain ⟨fuel', h1, h2⟩ := walk_text val a.length a (Nat.le_refl _) ha (r.1 ++ (r.2 ++ writeRefs rs)) done fuel hf
    rw [h2]
    obtain ⟨k, rfl⟩ : ∃ k, fuel' = k + 1 := ⟨fuel' - 1, by omega⟩
    have hr := ht r (by simp)
    have hl : 1 ≤ r.1.length := by
      obtain ⟨c, q, e, _⟩ := hn r (by simp)
      rw [e]
      simp
    have hs := scan_name r.1 (r.2 ++ writeRefs rs) (hn r (by simp)) (by
      intro c hc
      cases h2 : r.2 with
      | nil =>
        rw [h2, List.nil_append] at hc
        cases rs with
        | nil => simp [writeRefs] at hc
        | cons q rs =>
          rw [writeRefs, List.head?_cons] at hc
          obtain rfl := Option.some.inj hc
          decide
      | cons d s =>
        rw [h2, List.cons_append, List.head?_cons] at hc
        exact hr.2 c (by rw [h2]; exact hc))
    rw [walk, hs]
    simp only [if_true, hv r (by simp)]
    have e : (done ++ (a ++ ['\\']) ++ r.1).take ((done ++ (a ++ ['\\']) ++ r.1).length - (r.1.length + 1)) = done ++ a := by
      have : done ++ (a ++ ['\\']) ++ r.1 = (done ++ a) ++ ('\\' :: r.1) := by simp
      rw [this]
      apply List.take_left'
      simp
      omega
    rw [e, ih (fun r h => hn r (by simp [h])) (fun r h => ht r (by simp [h])) (fun r h => hv r (by simp [h])) _ _ hr.1 _ (by simp only [List.length_append] at h1 ⊢; omega)]
    simp [meanRefs]

/-! ### Arguments -/

theorem writeArgs_head (a : Str × Str) (as : List (Str × Str)) (h : ArgOk a) : (writeArgs (a :: as)).dropWhile isSpace = writeArgs (a :: as) := by
  have hd : ∀ (c : Char) (s : Str), isSpace c = false → (c :: s).dropWhile isSpace = c :: s := fun c s hc => by simp [List.dropWhile_cons, hc]
  rcases a with ⟨w, b⟩
  cases w with
  | nil =>
    cases as with
    | nil => rfl
    | cons a' as => exact hd ',' _ (by decide)
  | cons c w =>
    have hc := (h.1 c (by simp)).1
    cases as with
    | nil => exact hd c _ hc
    | cons a' as => exact hd c _ hc

theorem takeWhile_arg (w t : Str) (hw : ∀ c ∈ w, isSpace c = false ∧ c ≠ ',') (ht : t = [] ∨ ∃ s, t = ',' :: s) :
    (w ++ t).takeWhile (fun c => !isSpace c && c ≠ ',') = w := by
  induction w with
  | nil => rcases ht with rfl | ⟨s, rfl⟩ <;> simp [List.takeWhile_cons]
  | cons c w ih =>
    have := hw c (by simp)
    rw [List.cons_append, List.takeWhile_cons, if_pos (by simp [this]), ih fun c h => hw c (by simp [h])]

/-- The argument of a number; missing ones are empty. -/
theorem arguments_eq (as : List (Str × Str)) (h : ∀ a ∈ as, ArgOk a) (fuel : Nat) (hf : (writeArgs as).length < fuel) (j : Nat) :
    ((arguments fuel (writeArgs as))[j]?).getD [] = ((as.map (·.1))[j]?).getD [] := by
  induction as generalizing fuel j with
  | nil =>
    cases fuel with
    | zero => rfl
    | succ fuel => simp [writeArgs, arguments]
  | cons a as ih =>
    obtain ⟨fuel, rfl⟩ : ∃ k, fuel = k + 1 := ⟨fuel - 1, by omega⟩
    have ha := h a (by simp)
    cases as with
    | nil =>
      rw [writeArgs]
      cases hw : a.1 with
      | nil =>
        cases j <;> simp [arguments, hw]
      | cons c s =>
        have := takeWhile_arg a.1 [] ha.1 (.inl rfl)
        rw [List.append_nil, hw] at this
        rw [arguments]
        simp only [this, List.drop_length, List.dropWhile_nil]
        cases j with
        | zero => simp [hw]
        | succ j => cases fuel <;> simp [arguments]
    | cons a' as =>
      have e : writeArgs (a :: a' :: as) = a.1 ++ (',' :: (a.2 ++ writeArgs (a' :: as))) := rfl
      rw [e] at hf ⊢
      obtain ⟨c, s, hcs⟩ : ∃ c s, a.1 ++ (',' :: (a.2 ++ writeArgs (a' :: as))) = c :: s := by
        cases a.1 with
        | nil => exact ⟨_, _, rfl⟩
        | cons c s => exact ⟨_, _, rfl⟩
      have htw := takeWhile_arg a.1 (',' :: (a.2 ++ writeArgs (a' :: as))) ha.1 (.inr ⟨_, rfl⟩)
      have hdrop : (a.1 ++ (',' :: (a.2 ++ writeArgs (a' :: as)))).drop a.1.length = ',' :: (a.2 ++ writeArgs (a' :: as)) := List.drop_left ..
      have hsp : (',' :: (a.2 ++ writeArgs (a' :: as))).dropWhile isSpace = ',' :: (a.2 ++ writeArgs (a' :: as)) := by
        rw [List.dropWhile_cons, if_neg (by decide)]
      have hsp2 : (a.2 ++ writeArgs (a' :: as)).dropWhile isSpace = writeArgs (a' :: as) := by
        rw [List.dropWhile_append_of_pos ha.2, writeArgs_head a' as (h a' (by simp))]
      have step : arguments (fuel + 1) (a.1 ++ (',' :: (a.2 ++ writeArgs (a' :: as)))) = a.1 :: arguments fuel (writeArgs (a' :: as)) := by
        rw [hcs, arguments]
        rw [hcs] at htw hdrop
        simp only [htw, hdrop, hsp, hsp2]
      rw [step]
      cases j with
      | zero => simp
      | succ j =>
        have := ih (fun a h' => h a (by simp [h'])) fuel (by simp at hf; omega) j
        simpa using this

end Verif.Param
