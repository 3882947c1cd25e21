import Verif.Outname.Model
/-
C102: the output does not take the place of the source.
-/
namespace Verif.Outname

theorem lastDot_dot (a b : Str) (h : '.' ∉ b) : lastDot (a ++ '.' :: b) = some (a, b) := by
  have hb : lastDot b = none := by
    induction b with
    | nil => rfl
    | cons c b ih =>
      rw [lastDot, ih (fun hm => h (by simp [hm]))]
      exact if_neg (fun e => h (by simp [e]))
  induction a with
  | nil => rw [List.nil_append, lastDot, hb]; rfl
  | cons c a ih => rw [List.cons_append, lastDot, ih]

theorem lastDot_none (b : Str) (h : '.' ∉ b) : lastDot b = none := by
  induction b with
  | nil => rfl
  | cons c b ih =>
    rw [lastDot, ih (fun hm => h (by simp [hm]))]
    exact if_neg (fun e => h (by simp [e]))

/-- Every name either has no dot or has a last one. -/
theorem dots (s : Str) : '.' ∉ s ∨ ∃ a b, s = a ++ '.' :: b ∧ '.' ∉ b := by
  induction s with
  | nil => exact .inl (by simp)
  | cons c s ih =>
    rcases ih with h | ⟨a, b, rfl, h⟩
    · by_cases hc : c = '.'
      · subst hc
        exact .inr ⟨[], s, rfl, h⟩
      · exact .inl (by simp [h, Ne.symm hc])
    · exact .inr ⟨c :: a, b, rfl, h⟩

/-- The extension of the source is replaced by the other one of the object format. -/
theorem replaced (stem x e : Str) (hx : '.' ∉ x) (hn : x ≠ e) : objName (stem ++ '.' :: x) (some e) = stem ++ '.' :: e := by
  have h := lastDot_dot stem x hx
  unfold objName
  split
  · rename_i h0; simp at h0
  · rename_i c s h0
    rw [← h0]
    unfold replaceExt
    rw [h]
    simp only
    rw [if_neg hn]
    simp

/-- The extension of the source is removed if the object format has none. -/
theorem removed (stem x : Str) (hx : '.' ∉ x) : objName (stem ++ '.' :: x) none = stem := by
  have h := lastDot_dot stem x hx
  unfold objName
  split
  · rename_i h0; simp at h0
  · rename_i c s h0
    rw [← h0]
    unfold replaceExt
    rw [h]

/-- The extension of the object format is added to a name without one. -/
theorem added (name e : Str) (hne : name ≠ []) (h : '.' ∉ name) : objName name (some e) = name ++ '.' :: e := by
  unfold objName
  split
  · exact absurd rfl hne
  · rename_i c s
    unfold replaceExt
    rw [lastDot_none _ h]
    simp

/-- Otherwise the output is `yasm.out`. -/
theorem default_used (stem x : Str) (hx : '.' ∉ x) : objName (stem ++ '.' :: x) (some x) = "yasm.out".toList ∧ objName [] (some x) = "yasm.out".toList ∧
    objName [] none = "yasm.out".toList ∧ ∀ name, '.' ∉ name → objName name none = "yasm.out".toList := by
  refine ⟨?_, rfl, rfl, ?_⟩
  · have h := lastDot_dot stem x hx
    unfold objName
    split
    · rfl
    · rename_i c s h0
      rw [← h0]
      unfold replaceExt
      rw [h]
      simp
  · intro name hn
    unfold objName
    split
    · rfl
    · unfold replaceExt
      rw [lastDot_none _ hn]

/-- All names and all object formats, but for one with the extension `out`, which no object format has: the output has not the name of the source. -/
theorem source_safe (base : Str) (ext : Option Str) (he : ext ≠ some "out".toList) : objName base ext ≠ base := by
  cases base with
  | nil => exact fun h => absurd (show "yasm.out".toList = ([] : Str) from h) (by decide)
  | cons c s =>
    rcases dots (c :: s) with h | ⟨a, b, hab, h⟩
    · cases ext with
      | none =>
        rw [(default_used [] [] (by simp)).2.2.2 _ h]
        intro e
        rw [← e] at h
        exact h (by decide)
      | some e =>
        rw [added _ _ (by simp) h]
        intro hh
        have := congrArg List.length hh
        simp at this
    · rw [hab]
      cases ext with
      | none =>
        rw [removed a b h]
        intro hh
        have := congrArg List.length hh
        simp at this
      | some e =>
        by_cases hn : b = e
        · subst hn
          rw [(default_used a b h).1]
          intro hh
          have h1 := lastDot_dot a b h
          rw [← hh] at h1
          have h2 : lastDot "yasm.out".toList = some ("yasm".toList, "out".toList) := by decide
          rw [h2] at h1
          have := congrArg Prod.snd (Option.some.inj h1)
          exact he (congrArg some this.symm)
        · rw [replaced a b e h hn]
          intro hh
          have := List.append_cancel_left hh
          exact hn (List.cons.inj this).2.symm

/-- All names: no write goes past the memory that was taken. -/
theorem within (orig dflt : Str) (ext : Option Str) : ∀ k ∈ (replaceExt orig ext dflt).ends, k ≤ (replaceExt orig ext dflt).size := by
  have hl : ∀ a b, lastDot orig = some (a, b) → a.length < orig.length := by
    intro a b h
    rcases dots orig with hd | ⟨a', b', hab, hb⟩
    · rw [lastDot_none _ hd] at h; simp at h
    · subst hab
      rw [lastDot_dot _ _ hb] at h
      obtain ⟨rfl, rfl⟩ := Prod.mk.inj (Option.some.inj h)
      simp
  intro k
  unfold replaceExt
  split
  · rename_i a b e h1
    have := hl a b h1
    split <;> (simp only [outlen, List.mem_cons, List.not_mem_nil, or_false]; intro hk; split <;> omega)
  · rename_i a b h1
    have := hl a _ h1
    simp only [outlen, List.mem_cons, List.not_mem_nil, or_false]; intro hk; split <;> omega
  · simp only [outlen, List.mem_cons, List.not_mem_nil, or_false]; intro hk; split <;> omega
  · simp only [outlen, List.mem_cons, List.not_mem_nil, or_false]; intro hk; split <;> omega

/-- The user is told just if the default takes the place of the name of the source. -/
theorem told_iff (c : Char) (s : Str) (ext : Option Str) : (replaceExt (c :: s) ext "yasm.out".toList).told = true ↔
    (ext = none ∧ '.' ∉ c :: s) ∨ ∃ stem x, c :: s = stem ++ '.' :: x ∧ '.' ∉ x ∧ ext = some x := by
  rcases dots (c :: s) with h | ⟨a, b, hab, h⟩
  · have hno : ¬ ∃ stem x, c :: s = stem ++ '.' :: x ∧ '.' ∉ x ∧ ext = some x := by
      rintro ⟨a, b, hab, -⟩
      exact h (by rw [hab]; simp)
    unfold replaceExt
    rw [lastDot_none _ h]
    cases ext with
    | none => simp only [true_and, true_iff]; exact .inl h
    | some e => simp only [Bool.false_eq_true, false_iff]; rintro (⟨h1, -⟩ | h2); · simp at h1
                exact hno h2
  · have hd : '.' ∈ c :: s := by rw [hab]; simp
    unfold replaceExt
    rw [hab, lastDot_dot _ _ h]
    cases ext with
    | none =>
      simp only [Bool.false_eq_true, false_iff]
      rintro (⟨-, h1⟩ | ⟨_, _, _, _, h2⟩)
      · exact h1 (by simp)
      · simp at h2
    | some e =>
      simp only
      by_cases hn : b = e
      · subst hn
        rw [if_pos rfl]
        simp only [true_iff]
        exact .inr ⟨a, b, rfl, h, rfl⟩
      · rw [if_neg hn]
        simp only [Bool.false_eq_true, false_iff]
        rintro (⟨h1, -⟩ | ⟨a', b', h1, h2, h3⟩)
        · simp at h1
        · have h4 := lastDot_dot a b h
          rw [h1, lastDot_dot _ _ h2] at h4
          have := congrArg Prod.snd (Option.some.inj h4)
          exact hn (this.symm.trans (Option.some.inj h3).symm)

/-- `a.b.asm` gives `a.b.o`, `boot.asm` gives `boot` for a format without an extension, `a.o` gives `yasm.out`. -/
theorem names_ok : objName "a.b.asm".toList (some "o".toList) = "a.b.o".toList ∧ objName "boot.asm".toList none = "boot".toList ∧
    objName "a.o".toList (some "o".toList) = "yasm.out".toList ∧ objName "boot".toList none = "yasm.out".toList := by decide

/-- A source `.asm` gets an output without a name, for a format without an extension. -/
theorem empty_name : objName ".asm".toList none = [] := by decide

end Verif.Outname
