import Verif.Cstr.Model
/-
C101: strings are compared without regard to case.
-/
namespace Verif.Cstr

/-- The letters of a string made small: A to Z are 65 to 90, a to z are 97 to 122. -/
def small (s : Str) : List Nat := s.map (fun c => if c ∈ List.range' 65 26 then c + 32 else c)

/-- The number tells how two strings are ordered: zero if they are equal, negative if the first is before the second in the order of dictionaries. -/
def Tells (r : Int) (a b : List Nat) : Prop := (r = 0 ↔ a = b) ∧ (r < 0 ↔ a < b) ∧ (0 < r ↔ b < a)

theorem lower_eq (c : Nat) : (if c ∈ List.range' 65 26 then c + 32 else c) = lower c := by
  unfold lower
  have : c ∈ List.range' 65 26 ↔ 65 ≤ c ∧ c ≤ 90 := by
    rw [List.mem_range'_1]
    omega
  simp only [this]

theorem lower_zero (c : Nat) : lower c = 0 ↔ c = 0 := by
  unfold lower
  split <;> omega

theorem small_cons (c : Nat) (s : Str) : small (c :: s) = lower c :: small s := by
  unfold small
  rw [List.map_cons, lower_eq]

theorem tells_cons (r : Int) (x : Nat) (a b : List Nat) (h : Tells r a b) : Tells r (x :: a) (x :: b) := by
  obtain ⟨h1, h2, h3⟩ := h
  refine ⟨by simp [h1], ?_, ?_⟩
  · rw [h2, List.cons_lt_cons_iff]; simp
  · rw [h3, List.cons_lt_cons_iff]; simp

theorem tells_head (x y : Nat) (a b : List Nat) (h : x ≠ y) : Tells ((x : Int) - y) (x :: a) (y :: b) := by
  refine ⟨?_, ?_, ?_⟩
  · simp [h]; omega
  · rw [List.cons_lt_cons_iff]; simp [h]; omega
  · rw [List.cons_lt_cons_iff]; simp [Ne.symm h]

theorem tells_short (y : Nat) (b : List Nat) (h : y ≠ 0) : Tells ((0 : Int) - y) [] (y :: b) := by
  refine ⟨?_, ?_, ?_⟩
  · simp [h]
  · simp; omega
  · simp

theorem tells_long (x : Nat) (a : List Nat) (h : x ≠ 0) : Tells ((x : Int) - 0) (x :: a) [] := by
  refine ⟨?_, ?_, ?_⟩
  · simp [h]
  · simp
  · simp; omega

theorem tells_nil : Tells 0 [] [] := ⟨by simp, by simp, by simp⟩

theorem lower_0 : lower 0 = 0 := rfl

theorem cf_nil_cons (f b : Nat) (t : Str) :
    casecmpFrom (f + 1) [] (b :: t) = if lower 0 = lower b then some 0 else some ((lower 0 : Int) - (lower b : Int)) := rfl
theorem cf_cons_nil (f a : Nat) (s : Str) :
    casecmpFrom (f + 1) (a :: s) [] = if lower a = lower 0 then (if a = 0 then some 0 else none) else some ((lower a : Int) - (lower 0 : Int)) := rfl
theorem cf_cons (f a b : Nat) (s t : Str) :
    casecmpFrom (f + 1) (a :: s) (b :: t) = if lower a = lower b then (if a = 0 then some 0 else casecmpFrom f s t) else some ((lower a : Int) - (lower b : Int)) := rfl

theorem nc_nil_cons (n b : Nat) (t : Str) :
    ncasecmp (n + 1) [] (b :: t) = if lower 0 ≠ lower b then some ((lower 0 : Int) - (lower b : Int)) else some 0 := rfl
theorem nc_cons_nil (n a : Nat) (s : Str) :
    ncasecmp (n + 1) (a :: s) [] = if lower a ≠ lower 0 then some ((lower a : Int) - (lower 0 : Int)) else if a = 0 then some 0 else if n = 0 then some 0 else none := rfl
theorem nc_cons (n a b : Nat) (s t : Str) :
    ncasecmp (n + 1) (a :: s) (b :: t) = if lower a ≠ lower b then some ((lower a : Int) - (lower b : Int)) else if a = 0 then some 0 else ncasecmp n s t := rfl

/-- All strings: the comparison ends within the strings and tells how they are ordered without regard to case. -/
theorem compared (s t : Str) (hs : ∀ c ∈ s, c ≠ 0) (ht : ∀ c ∈ t, c ≠ 0) : ∃ r, casecmp s t = some r ∧ Tells r (small s) (small t) := by
  unfold casecmp
  induction s generalizing t with
  | nil =>
    cases t with
    | nil => exact ⟨0, rfl, tells_nil⟩
    | cons b t =>
      have hb : lower b ≠ 0 := fun e => ht b (by simp) ((lower_zero b).1 e)
      refine ⟨(0 : Int) - lower b, ?_, ?_⟩
      · rw [List.length_nil, cf_nil_cons, lower_0, if_neg (Ne.symm hb)]
        rfl
      · rw [small_cons]
        exact tells_short _ _ hb
  | cons a s ih =>
    have ha : lower a ≠ 0 := fun e => hs a (by simp) ((lower_zero a).1 e)
    rw [List.length_cons]
    cases t with
    | nil =>
      refine ⟨(lower a : Int) - 0, ?_, ?_⟩
      · rw [cf_cons_nil, lower_0, if_neg ha]
        rfl
      · rw [small_cons]
        exact tells_long _ _ ha
    | cons b t =>
      rw [cf_cons]
      by_cases h : lower a = lower b
      · rw [if_pos h, if_neg (hs a (by simp))]
        obtain ⟨r, h1, h2⟩ := ih t (fun c hc => hs c (by simp [hc])) (fun c hc => ht c (by simp [hc]))
        refine ⟨r, h1, ?_⟩
        rw [small_cons, small_cons, ← h]
        exact tells_cons _ _ _ _ h2
      · rw [if_neg h]
        refine ⟨_, rfl, ?_⟩
        rw [small_cons, small_cons]
        exact tells_head _ _ _ _ h

/-- All strings and all counts: at most that many characters of each are compared. -/
theorem compared_up_to (n : Nat) (s t : Str) (hs : ∀ c ∈ s, c ≠ 0) (ht : ∀ c ∈ t, c ≠ 0) :
    ∃ r, ncasecmp n s t = some r ∧ Tells r (small (s.take n)) (small (t.take n)) := by
  induction n generalizing s t with
  | zero => exact ⟨0, rfl, by simpa [small] using tells_nil⟩
  | succ n ih =>
    cases s with
    | nil =>
      cases t with
      | nil => exact ⟨0, rfl, tells_nil⟩
      | cons b t =>
        have hb : lower b ≠ 0 := fun e => ht b (by simp) ((lower_zero b).1 e)
        refine ⟨(0 : Int) - lower b, ?_, ?_⟩
        · rw [nc_nil_cons, lower_0, if_pos (Ne.symm hb)]
          rfl
        · rw [List.take_succ_cons, small_cons]
          exact tells_short _ _ hb
    | cons a s =>
      have ha : lower a ≠ 0 := fun e => hs a (by simp) ((lower_zero a).1 e)
      cases t with
      | nil =>
        refine ⟨(lower a : Int) - 0, ?_, ?_⟩
        · rw [nc_cons_nil, lower_0, if_pos ha]
          rfl
        · rw [List.take_succ_cons, small_cons]
          exact tells_long _ _ ha
      | cons b t =>
        rw [nc_cons]
        by_cases h : lower a = lower b
        · rw [if_neg (fun hn => hn h), if_neg (hs a (by simp))]
          obtain ⟨r, h1, h2⟩ := ih s t (fun c hc => hs c (by simp [hc])) (fun c hc => ht c (by simp [hc]))
          refine ⟨r, h1, ?_⟩
          rw [List.take_succ_cons, List.take_succ_cons, small_cons, small_cons, ← h]
          exact tells_cons _ _ _ _ h2
        · rw [if_pos h]
          refine ⟨_, rfl, ?_⟩
          rw [List.take_succ_cons, List.take_succ_cons, small_cons, small_cons]
          exact tells_head _ _ _ _ h

/-- "Mov" and "mOV" are equal, "MOV" is before "movsx", and "MOVSX" and "movzx" are equal up to three characters. -/
theorem compare_ok : casecmp [77, 111, 118] [109, 79, 86] = some 0 ∧ casecmp [77, 79, 86] [109, 111, 118, 115, 120] = some (-115) ∧
    ncasecmp 3 [77, 79, 86, 83, 88] [109, 111, 118, 122, 120] = some 0 ∧ small [77, 111, 118] = small [109, 79, 86] := by decide

end Verif.Cstr
