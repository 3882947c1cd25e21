import Verif.Pp.TokLemmas
/-
Lemmas on condition codes and ranges of parameters.
-/
namespace Verif.Pp

theorem lower_lower (c : Nat) : lower (lower c) = lower c := by
  unfold lower
  by_cases h : 65 ≤ c ∧ c ≤ 90
  · rw [if_pos h, if_neg (by omega)]
  · rw [if_neg h, if_neg h]

theorem stricmp_lower : ∀ a b : Name, stricmp (a.map lower) b = stricmp a b
  | [], [] => rfl
  | [], _ :: _ => rfl
  | _ :: _, [] => rfl
  | a :: as, b :: bs => by
    simp only [List.map_cons, stricmp, lower_lower, stricmp_lower as bs]

theorem ccSearch_lower (w : Name) : ∀ n lo hi, ccSearch (w.map lower) n lo hi = ccSearch w n lo hi
  | 0, _, _ => rfl
  | n + 1, lo, hi => by
    simp only [ccSearch, stricmp_lower, ccSearch_lower w n]

theorem cc_table : ∀ p ∈ ccNumber, ∃ i ∈ ccSearch p.1 33 0 32, conditions[i]? = some p.1 ∧
    ∃ j ∈ inverseCcs[i]?.join, (conditions[j]?.getD [], opposite p.2) ∈ ccNumber := by decide +kernel

theorem atoi_sign (k : Nat) (hk : 1 ≤ k) (c : Nat) (hc : c = 43 ∨ c = 45) :
    isRef ⟨.ppid, 37 :: c :: dec k⟩ = true ∧ (37 :: c :: dec k).contains 58 = false := by
  obtain ⟨d, r, e, h1, h2⟩ := dec_head k hk
  have hd := dec_digit k
  constructor
  · rw [e]; rcases hc with rfl | rfl <;> simp [isRef]
  · have : (58 : Nat) ∉ (37 :: c :: dec k) := by
      intro h
      rcases List.mem_cons.1 h with h | h
      · omega
      · rcases List.mem_cons.1 h with h | h
        · omega
        · have := hd 58 h; omega
    simpa using this

theorem findCc_arg (w : Name) (s : Option Name) (R : List Tok)
    (hR : R = [] ∨ ∃ R', R = space s ++ comma :: R') :
    findCc (⟨.id, w⟩ :: R) = some (ccSearch w 33 0 32) := by
  rcases hR with rfl | ⟨R', rfl⟩
  · simp [findCc, skipWhite]
  · have : skipWhite (space s ++ comma :: R') = comma :: R' := skipWhite_space _ _ _ (by simp [comma])
    have h1 : skipWhite (⟨.id, w⟩ :: (space s ++ comma :: R')) = ⟨.id, w⟩ :: (space s ++ comma :: R') := rfl
    have h2 : headIs 44 (comma :: R') = true := rfl
    unfold findCc
    rw [h1]
    simp [this, h2]

/-! ## Ranges -/

/-- Arguments one after another, the empty ones left out. -/
def rangeFrom : Bool → List Arg → List Tok
  | _, [] => []
  | first, a :: as => (if !first && a.len != 0 then [comma] else []) ++ a.value ++ rangeFrom (first && a.len == 0) as

theorem range_eq (f : Frame Arg) (hr : f.rotate = 0) (b : Nat) (hb : b ≤ f.params.length) :
    ∀ (n k : Nat) (first : Bool), b - k < n → k ≤ b →
      range f ((b : Int) - 1) n (k : Int) first = some (rangeFrom first ((f.params.take b).drop k))
  | 0, k, first, h, _ => by omega
  | n + 1, k, first, h, hk => by
    simp only [range]
    by_cases hkb : k < b
    · rw [if_pos (by omega), if_neg (by omega)]
      have hrot : (if f.params.length > 1 then ((k : Int) + f.rotate).tmod f.params.length else (k : Int)) = k := by
        split
        · rw [hr, Int.add_zero]
          exact Int.tmod_eq_of_lt (by omega) (by omega)
        · rfl
      simp only [hrot]
      rw [if_neg (by omega)]
      have hlt : k < f.params.length := by omega
      rw [Int.toNat_natCast, List.getElem?_eq_getElem hlt]
      simp only
      have ih := range_eq f hr b hb n (k + 1) (first && (f.params[k]).len == 0) (by omega) (by omega)
      have e1 : ((k : Int) + 1) = ((k + 1 : Nat) : Int) := by omega
      rw [e1, ih]
      have e2 : (f.params.take b).drop k = f.params[k] :: (f.params.take b).drop (k + 1) := by
        rw [List.drop_eq_getElem_cons (by rw [List.length_take]; omega)]
        congr 1
        simp
      rw [e2]
      rfl
    · rw [if_neg (by omega)]
      have : k = b := by omega
      subst this
      have : (f.params.take k).drop k = [] := List.drop_eq_nil_of_le (by rw [List.length_take]; omega)
      rw [this]; rfl

theorem rangeFrom_join : ∀ (as : List Arg) (first : Bool), (∀ a ∈ as, a.len ≤ a.tail.length) →
    rangeFrom first as =
      (let vs := (as.map Arg.value).filter (fun v => !v.isEmpty)
       (if first || vs.isEmpty then [] else [comma]) ++ (vs.intersperse [comma]).flatten)
  | [], first, _ => by simp [rangeFrom]
  | a :: as, first, h => by
    have ha := h a (by simp)
    have ih := rangeFrom_join as (first && a.len == 0) (fun x hx => h x (by simp [hx]))
    simp only [rangeFrom, ih]
    by_cases h0 : a.len = 0
    · have hv : a.value = [] := by simp [Arg.value, h0]
      simp [h0, hv]
    · have hv : a.value ≠ [] := by
        simp only [Arg.value]
        intro hx
        have := congrArg List.length hx
        rw [List.length_take] at this
        simp at this
        rcases this with h1 | h1
        · exact h0 h1
        · rw [h1] at ha; simp at ha; omega
      have hv' : a.value.isEmpty = false := by simpa using hv
      simp only [List.map_cons, List.filter_cons, hv', Bool.not_false, ↓reduceIte, h0]
      cases hvs : (as.map Arg.value).filter (fun v => !v.isEmpty) with
      | nil => cases first <;> simp [h0]
      | cons v vs => cases first <;> simp [h0]

theorem digitsVal_stop : ∀ (a : Name) (acc : Nat) (r : Name), (∀ c ∈ a, 48 ≤ c ∧ c ≤ 57) →
    digitsVal acc (a ++ 58 :: r) = digitsVal acc a
  | [], acc, r, _ => by simp [digitsVal]
  | c :: a, acc, r, h => by
    have hc := h c (by simp)
    simp only [List.cons_append, digitsVal, if_pos hc]
    exact digitsVal_stop a _ r (fun x hx => h x (by simp [hx]))

theorem atoi_dec_colon (n : Nat) (h : 1 ≤ n) (s : Name) : atoi (dec n ++ 58 :: s) = n := by
  obtain ⟨d, r, e, h1, h2⟩ := dec_head n h
  have hv : digitsVal 0 (dec n ++ 58 :: s) = n := by rw [digitsVal_stop _ _ _ (dec_digit n), dec_val]
  unfold atoi
  rw [e] at hv ⊢
  have hw : decide (d = 32 ∨ (9 ≤ d ∧ d ≤ 13)) = false := by simp; omega
  rw [List.cons_append, List.dropWhile_cons, hw]
  simp only [Bool.false_eq_true, ↓reduceIte]
  rw [List.cons_append] at hv
  split
  · rename_i h3; cases h3; omega
  · rename_i h3; cases h3; omega
  · rw [hv]

theorem dropWhile_colon : ∀ (a r : Name), (∀ c ∈ a, 48 ≤ c ∧ c ≤ 57) →
    (a ++ 58 :: r).dropWhile (fun c => decide (c ≠ 58)) = 58 :: r
  | [], r, _ => by simp [List.dropWhile_cons]
  | c :: a, r, h => by
    have hc := h c (by simp)
    have : c ≠ 58 := by omega
    rw [List.cons_append, List.dropWhile_cons]
    simp only [this, ne_eq, not_false_eq_true, decide_true, ↓reduceIte]
    exact dropWhile_colon a r (fun x hx => h x (by simp [hx]))

end Verif.Pp
