import Verif.Pp.Sim
/-
The binary search for the name of a directive finds what is in the table.
-/
namespace Verif.Pp

theorem stricmp_swap : ∀ a b : Name, stricmp a b = .gt ↔ stricmp b a = .lt
  | [], [] => by simp [stricmp]
  | [], b :: bs => by simp [stricmp]
  | a :: as, [] => by simp [stricmp]
  | a :: as, b :: bs => by
    have ih := stricmp_swap as bs
    simp only [stricmp]
    rcases Nat.lt_trichotomy (lower a) (lower b) with h | h | h
    · simp [h, Nat.ne_of_lt h, Nat.ne_of_gt h, Nat.lt_asymm h]
    · simp [h, ih]
    · simp [h, Nat.ne_of_lt h, Nat.ne_of_gt h, Nat.lt_asymm h]

theorem stricmp_trans : ∀ a b c : Name, stricmp a b = .lt → stricmp b c = .lt → stricmp a c = .lt
  | [], [], _ => by simp [stricmp]
  | _, _ :: _, [] => by simp [stricmp]
  | [], _ :: _, _ :: _ => by simp [stricmp]
  | _ :: _, [], _ => by simp [stricmp]
  | a :: as, b :: bs, c :: cs => by
    have ih := stricmp_trans as bs cs
    simp only [stricmp]
    rcases Nat.lt_trichotomy (lower a) (lower b) with h | h | h
    · rcases Nat.lt_trichotomy (lower b) (lower c) with g | g | g
      · simp [h, Nat.ne_of_lt h, g, Nat.ne_of_lt g, Nat.lt_trans h g, Nat.ne_of_lt (Nat.lt_trans h g)]
      · rw [← g]; simp [h, Nat.ne_of_lt h]
      · simp [Nat.ne_of_gt g, Nat.lt_asymm g]
    · rw [h]
      rcases Nat.lt_trichotomy (lower b) (lower c) with g | g | g
      · simp [g, Nat.ne_of_lt g]
      · simpa [g] using ih
      · simp [Nat.ne_of_gt g, Nat.lt_asymm g]
    · simp [Nat.ne_of_gt h, Nat.lt_asymm h]

theorem stricmp_congr : ∀ a b c : Name, stricmp a b = .eq → stricmp c a = stricmp c b
  | [], [], _, _ => rfl
  | [], _ :: _, _, h => by simp [stricmp] at h
  | _ :: _, [], _, h => by simp [stricmp] at h
  | a :: as, b :: bs, [], _ => rfl
  | a :: as, b :: bs, c :: cs, h => by
    simp only [stricmp] at h ⊢
    by_cases h1 : lower a = lower b
    · rw [if_pos h1] at h
      rw [h1, stricmp_congr as bs cs h]
    · rw [if_neg h1] at h; split at h <;> cases h

/-- The name at a place of the table. -/
def entry (k : Nat) : Name := directives[k]?.getD []

theorem table_sorted : ∀ i < 66, ∀ j < 66, i < j → stricmp (entry i) (entry j) = .lt := by
  decide +kernel

/-- Below `lo` every name of the table comes before the word, from `hi` on after it. -/
def Between (w : Name) (lo hi : Nat) : Prop :=
  lo ≤ hi ∧ hi ≤ 66 ∧ (∀ i < lo, stricmp w (entry i) = .gt) ∧ ∀ i < 66, hi ≤ i → stricmp w (entry i) = .lt

theorem search_step {w : Name} {lo hi k : Nat} (h : Between w lo hi) (h1 : lo ≤ k) (h2 : k < hi) :
    (stricmp w (entry k) = .lt → Between w lo k) ∧ (stricmp w (entry k) = .gt → Between w (k + 1) hi) := by
  obtain ⟨a, b, c, d⟩ := h
  constructor
  · intro hk
    refine ⟨h1, by omega, c, ?_⟩
    intro i hi6 hki
    by_cases e : k = i
    · subst e; exact hk
    · exact stricmp_trans _ _ _ hk (table_sorted k (by omega) i hi6 (by omega))
  · intro hk
    refine ⟨by omega, b, ?_, d⟩
    intro i hik
    by_cases e : i = k
    · subst e; exact hk
    · rw [stricmp_swap] at hk ⊢
      exact stricmp_trans _ _ _ (table_sorted i (by omega) k (by omega) (by omega)) hk

/-- The search ends at an equal name, or at the place where the word would belong. -/
theorem search_end (w : Name) : ∀ n lo hi, hi - lo < n → Between w lo hi →
    (∃ k < 66, stricmp w (entry k) = .eq ∧
      ((k ≠ ppArg ∧ k ≠ ppLocal ∧ k ≠ ppStacksize ∧ search w n lo hi = ⟨some k, true⟩) ∨
       ((k = ppArg ∨ k = ppLocal ∨ k = ppStacksize) ∧ (search w n lo hi).found = false))) ∨
    (∃ p, search w n lo hi = ⟨idxOf p, false⟩ ∧ Between w p p)
  | 0, _, _, h, _ => by omega
  | n + 1, lo, hi, h, hb => by
    by_cases hlt : lo < hi
    · have hk1 : lo ≤ (hi + lo - 1) / 2 := by omega
      have hk2 : (hi + lo - 1) / 2 < hi := by omega
      have h66 := hb.2.1
      simp only [search]
      rw [if_pos hlt]
      have hs := search_step hb hk1 hk2
      have he : directives[(hi + lo - 1) / 2]?.getD [] = entry ((hi + lo - 1) / 2) := rfl
      rw [he]
      cases hc : stricmp w (entry ((hi + lo - 1) / 2)) with
      | eq =>
        left
        refine ⟨_, by omega, hc, ?_⟩
        by_cases hx : (hi + lo - 1) / 2 ≠ ppArg ∧ (hi + lo - 1) / 2 ≠ ppLocal ∧
            (hi + lo - 1) / 2 ≠ ppStacksize
        · left; exact ⟨hx.1, hx.2.1, hx.2.2, by simp only [if_pos hx]⟩
        · right
          refine ⟨by unfold ppArg ppLocal ppStacksize at hx ⊢; omega, by simp only [if_neg hx]⟩
      | lt => exact search_end w n lo _ (by omega) (hs.1 hc)
      | gt => exact search_end w n _ hi (by omega) (hs.2 hc)
    · right
      have : lo = hi := by have := hb.1; omega
      subst this
      exact ⟨lo, by simp [search], hb⟩

theorem look_end (w : Name) :
    (∃ k < 66, stricmp w (entry k) = .eq ∧
      ((k ≠ ppArg ∧ k ≠ ppLocal ∧ k ≠ ppStacksize ∧ look w = ⟨some k, true⟩) ∨
       ((k = ppArg ∨ k = ppLocal ∨ k = ppStacksize) ∧ (look w).found = false))) ∨
    (∃ p, look w = ⟨idxOf p, false⟩ ∧ Between w p p) :=
  search_end w 67 0 66 (by omega)
    ⟨by omega, by omega, by intro i h; omega, by intro i h h'; omega⟩

/-- No two places of the table have equal names. -/
theorem entry_inj {w : Name} {i j : Nat} (hi : i < 66) (hj : j < 66)
    (h1 : stricmp w (entry i) = .eq) (h2 : stricmp w (entry j) = .eq) : i = j := by
  have e : stricmp (entry i) (entry j) = .eq := by
    rw [stricmp_eq_iff] at *; rw [← h1, h2]
  have e' : stricmp (entry j) (entry i) = .eq := by
    rw [stricmp_eq_iff] at *; exact e.symm
  rcases Nat.lt_trichotomy i j with h | h | h
  · rw [table_sorted i hi j hj h] at e; cases e
  · exact h
  · rw [table_sorted j hj i hi h] at e'; cases e'

theorem entry_of {k : Nat} {d : Name} (h : directives[k]? = some d) : k < 66 ∧ entry k = d := by
  refine ⟨?_, by simp [entry, h]⟩
  have := List.getElem?_eq_some_iff.1 h
  obtain ⟨hk, _⟩ := this
  exact hk

theorem entry_get {k : Nat} (h : k < 66) : directives[k]? = some (entry k) := by
  have hl : k < directives.length := h
  simp [entry, List.getElem?_eq_getElem hl]

end Verif.Pp
