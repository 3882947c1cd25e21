import Verif.Sort.Model
import Verif.Sort.Spec
/- Correctness of the merge sort. -/
set_option linter.unusedSimpArgs false
namespace Verif.Sort

variable {α : Type}

/-! The searches -/

/-- r is the boundary between the indices with gt and those without. -/
def Bound (gt : Nat → Bool) (t r : Nat) : Prop :=
  r ≤ t ∧ (∀ k, k < r → gt k = true) ∧ (∀ k, r ≤ k → k < t → gt k = false)

/-- Indices with gt come first. -/
def Mono (gt : Nat → Bool) (t : Nat) : Prop := ∀ i j, i ≤ j → j < t → gt j = true → gt i = true

theorem Mono.false {gt : Nat → Bool} {t i j : Nat} (h : Mono gt t) (hij : i ≤ j) (hj : j < t) (hi : gt i = false) :
    gt j = false := by
  cases hg : gt j with
  | false => rfl
  | true => rw [h i j hij hj hg] at hi; simp at hi

theorem bin_ok (gt : Nat → Bool) (T : Nat) (hm : Mono gt T) (b t : Nat) (hb : b < t) (ht : t ≤ T)
    (h1 : ∀ k, k ≤ b → gt k = true) (h2 : ∀ k, t ≤ k → k < T → gt k = false) : Bound gt T (bin gt b t) := by
  unfold bin
  split
  · rename_i h
    simp only
    have hp1 : b < b + (t - b) / 2 := by omega
    have hp2 : b + (t - b) / 2 < t := by omega
    generalize b + (t - b) / 2 = p at *
    split
    · rename_i hg
      exact bin_ok gt T hm p t hp2 ht (fun k hk => hm k p hk (by omega) hg) h2
    · rename_i hg
      simp only [Bool.not_eq_true] at hg
      exact bin_ok gt T hm b p hp1 (by omega) h1 (fun k hk hkT => hm.false hk hkT hg)
  · have : t = b + 1 := by omega
    exact ⟨ht, fun k hk => h1 k (by omega), h2⟩
termination_by t - b

theorem fast_ok (gt : Nat → Bool) (T : Nat) (hm : Mono gt T) (j : Nat) : ∀ b t, t = b + 2 ^ j → t ≤ T →
    (∀ k, k ≤ b → gt k = true) → (∀ k, t ≤ k → k < T → gt k = false) → Bound gt T (fast gt j b t) := by
  induction j with
  | zero =>
    intro b t he ht h1 h2
    simp only [fast]
    exact ⟨ht, fun k hk => h1 k (by omega), h2⟩
  | succ j ih =>
    intro b t he ht h1 h2
    have h2j := Nat.two_pow_pos j
    rw [Nat.pow_succ] at he
    simp only [fast]
    split
    · rename_i hg
      exact ih _ _ (by omega) ht (fun k hk => hm k _ hk (by omega) hg) h2
    · rename_i hg
      simp only [Bool.not_eq_true] at hg
      exact ih _ _ rfl (by omega) h1 (fun k hk hkT => hm.false hk hkT hg)

theorem expo_ok (gt : Nat → Bool) (T : Nat) (hm : Mono gt T) (j b : Nat) (hb : b < T)
    (h1 : ∀ k, k ≤ b → gt k = true) : Bound gt T (expo gt T j b).1 := by
  unfold expo
  have h2j := Nat.two_pow_pos j
  simp only
  split
  · rename_i hp
    split
    · rename_i hg
      exact expo_ok gt T hm (j + 1) _ hp (fun k hk => hm k _ hk hp hg)
    · rename_i hg
      simp only [Bool.not_eq_true] at hg
      exact fast_ok gt T hm j b _ rfl (by omega) h1 (fun k hk hkT => hm.false hk hkT hg)
  · split
    · rename_i hp hg
      exact bin_ok gt T hm b _ hg.1 (by omega) h1 (fun k hk hkT => hm.false hk hkT hg.2)
    · rename_i hp hg
      refine bin_ok gt T hm (T - 1) T (by omega) (Nat.le_refl _) ?_ (fun k h1 h2 => by omega)
      intro k hk
      by_cases hkb : k ≤ b
      · exact h1 k hkb
      · have hgt : gt (T - 1) = true := by
          cases hh : gt (T - 1) with
          | true => rfl
          | false => exact absurd ⟨by omega, hh⟩ hg
        exact hm k (T - 1) hk (by omega) hgt
termination_by T - b
decreasing_by omega

theorem linear_ok (gt : Nat → Bool) (T : Nat) (hm : Mono gt T) (k : Nat) : ∀ b, b < T →
    (∀ k, k ≤ b → gt k = true) → Bound gt T (linear gt T k b).1 := by
  induction k with
  | zero => intro b hb h1; exact expo_ok gt T hm 0 b hb h1
  | succ k ih =>
    intro b hb h1
    simp only [linear]
    split
    · rename_i h
      exact ih _ h.1 (fun k hk => hm k _ hk h.1 h.2)
    · rename_i h
      refine ⟨hb, fun k hk => h1 k (by omega), ?_⟩
      intro i hi hiT
      have : gt (b + 1) = false := by
        cases hg : gt (b + 1) with
        | false => rfl
        | true => exact absurd ⟨by omega, hg⟩ h
      exact hm.false hi hiT this

theorem search_ok (big : Bool) (gt : Nat → Bool) (T : Nat) (hm : Mono gt T) (hT : 0 < T) (h0 : gt 0 = true) :
    Bound gt T (search big gt T).1 ∧ 0 < (search big gt T).1 := by
  have h1 : ∀ k, k ≤ 0 → gt k = true := by
    intro k hk
    rw [Nat.le_zero.1 hk]
    exact h0
  have key : Bound gt T (search big gt T).1 := by
    unfold search
    split
    · exact expo_ok gt T hm 0 0 hT h1
    · exact linear_ok gt T hm 6 0 hT h1
  refine ⟨key, ?_⟩
  rcases Nat.eq_zero_or_pos (search big gt T).1 with h | h
  · have := key.2.2 0 (by omega) hT
    rw [h0] at this; simp at this
  · exact h

/-! Comparison -/

theorem Lawful.gt_swap {cmp : α → α → Int} (h : Lawful cmp) {a b : α} : cmp a b > 0 ↔ cmp b a < 0 := by
  have := h.swap a b
  omega
theorem Lawful.eq_swap {cmp : α → α → Int} (h : Lawful cmp) {a b : α} : cmp a b = 0 ↔ cmp b a = 0 := by
  have := h.swap a b; have := h.swap b a; omega
theorem Lawful.le_of_gt {cmp : α → α → Int} (h : Lawful cmp) {a b : α} (hg : cmp a b > 0) : cmp b a ≤ 0 := by
  have := h.gt_swap.1 hg; omega
/-- x equals y and z is above y: z is above x. -/
theorem Lawful.ne_of_lt {cmp : α → α → Int} (h : Lawful cmp) {x y z : α} (hy : cmp x y = 0) (hz : cmp y z < 0) :
    cmp x z ≠ 0 := by
  intro hxz
  have h1 : cmp z x ≤ 0 := by have := (h.eq_swap (a := x) (b := z)).1 hxz; omega
  have h2 := h.trans z x y h1 (by omega)
  have := (h.swap z y).1 h2
  omega

/-! Rearrangements that keep equal elements in order -/

/-- The same elements, equal ones in the same order. -/
structure Stab (cmp : α → α → Int) (l r : List α) : Prop where
  perm : r.Perm l
  stable : ∀ x, equals cmp x r = equals cmp x l

theorem Stab.refl {cmp : α → α → Int} (l : List α) : Stab cmp l l := ⟨.refl _, fun _ => rfl⟩
theorem Stab.trans {cmp : α → α → Int} {a b c : List α} (h1 : Stab cmp a b) (h2 : Stab cmp b c) : Stab cmp a c :=
  ⟨h2.perm.trans h1.perm, fun x => (h2.stable x).trans (h1.stable x)⟩
theorem equals_append {cmp : α → α → Int} (x : α) (a b : List α) :
    equals cmp x (a ++ b) = equals cmp x a ++ equals cmp x b := by simp [equals]
theorem Stab.append {cmp : α → α → Int} {a b c d : List α} (h1 : Stab cmp a b) (h2 : Stab cmp c d) :
    Stab cmp (a ++ c) (b ++ d) :=
  ⟨h1.perm.append h2.perm, fun x => by rw [equals_append, equals_append, h1.stable, h2.stable]⟩
/-- An element may move over elements it differs from. -/
theorem Stab.move {cmp : α → α → Int} (h : Lawful cmp) (l : List α) (b : α) (hl : ∀ x ∈ l, cmp x b ≠ 0) :
    Stab cmp (l ++ [b]) (b :: l) := by
  refine ⟨List.perm_append_singleton b l |>.symm, ?_⟩
  intro x
  rw [equals_append]
  by_cases hx : cmp x b = 0
  · have : equals cmp x l = [] := by
      simp only [equals, List.filter_eq_nil_iff, decide_eq_true_eq]
      intro y hy hxy
      apply hl y hy
      -- y = x = b
      have h1 : cmp y x ≤ 0 := by have := (h.eq_swap (a := x) (b := y)).1 hxy; omega
      have h2 : cmp y b ≤ 0 := h.trans y x b h1 (by omega)
      have h3 : cmp b x ≤ 0 := by have := (h.eq_swap (a := x) (b := b)).1 hx; omega
      have h4 : cmp b y ≤ 0 := h.trans b x y h3 (by omega)
      have := (h.swap b y).1 h4
      omega
    rw [this]
    have e1 : equals cmp x (b :: l) = b :: equals cmp x l := by simp [equals, hx]
    have e2 : equals cmp x [b] = [b] := by simp [equals, hx]
    rw [e1, e2, this]; rfl
  · have e1 : equals cmp x (b :: l) = equals cmp x l := by simp [equals, hx]
    have e2 : equals cmp x [b] = [] := by simp [equals, hx]
    rw [e1, e2, List.append_nil]

/-! Merging -/

theorem beyond_mono {cmp : α → α → Int} (h : Lawful cmp) (q : α) (sense : Int) (hs : sense = -1 ∨ sense = 0)
    (run : List α) (ha : Ascending cmp run) : Mono (beyond cmp q sense run) run.length := by
  intro i j hij hj hg
  unfold beyond at *
  have hi : i < run.length := by omega
  rw [List.getElem?_eq_getElem hj] at hg
  rw [List.getElem?_eq_getElem hi]
  simp only [decide_eq_true_eq] at *
  rcases Nat.lt_or_eq_of_le hij with hlt | rfl
  · have hle := List.pairwise_iff_getElem.1 ha i j hi hj hlt
    rcases hs with rfl | rfl
    · have h1 : cmp run[j] q ≤ 0 := (h.swap _ _).2 (by omega)
      have := (h.swap _ _).1 (h.trans _ _ _ hle h1)
      omega
    · -- q > run[j] ≥ run[i]
      have h1 := h.gt_swap.1 hg
      rcases Int.lt_trichotomy (cmp q run[i]) 0 with hh | hh | hh
      · have := h.trans q _ _ (by omega) hle; omega
      · have := h.trans q _ _ (by omega) hle; omega
      · exact hh
  · exact hg

theorem ascending_append {cmp : α → α → Int} {a b : List α} :
    Ascending cmp (a ++ b) ↔ Ascending cmp a ∧ Ascending cmp b ∧ ∀ x ∈ a, ∀ y ∈ b, cmp x y ≤ 0 :=
  List.pairwise_append

theorem merge_ok {cmp : α → α → Int} (h : Lawful cmp) : ∀ (big : Bool) (f1 f2 : List α), Ascending cmp f1 →
    Ascending cmp f2 → Ascending cmp (merge cmp big f1 f2).1 ∧ Stab cmp (f1 ++ f2) (merge cmp big f1 f2).1
  | big, [], f2, _, h2 => by simp only [merge, List.nil_append]; exact ⟨h2, Stab.refl _⟩
  | big, a :: as, [], h1, _ => by simp only [merge, List.append_nil]; exact ⟨h1, Stab.refl _⟩
  | big, a :: as, b :: bs, h1, h2 => by
    have hbs : Ascending cmp bs := (List.pairwise_cons.1 h2).2
    have hb : ∀ y ∈ bs, cmp b y ≤ 0 := (List.pairwise_cons.1 h2).1
    have has : Ascending cmp as := (List.pairwise_cons.1 h1).2
    have hasle : ∀ y ∈ as, cmp a y ≤ 0 := (List.pairwise_cons.1 h1).1
    by_cases hab : cmp a b ≤ 0
    · have hm := beyond_mono h b (-1) (Or.inl rfl) (a :: as) h1
      have h0 : beyond cmp b (-1) (a :: as) 0 = true := by
        have := (h.swap _ _).1 hab
        simp only [beyond, List.getElem?_cons_zero, decide_eq_true_eq]; omega
      obtain ⟨hB, hpos⟩ := search_ok big _ _ hm (by simp) h0
      rw [merge]
      simp only [hab, if_true]
      generalize search big (beyond cmp b (-1) (a :: as)) (a :: as).length = r at *
      generalize hl : a :: as = l at *
      have hsplit := List.take_append_drop r.1 l
      obtain ⟨g1, g2⟩ := merge_ok h r.2 (l.drop r.1) bs
        (h1.sublist (List.drop_sublist _ _)) hbs
      generalize (merge cmp r.2 (l.drop r.1) bs).1 = m at *
      -- elements copied are not above b, the others are above b
      have hlow : ∀ x ∈ l.take r.1, cmp x b ≤ 0 := by
        intro x hx
        obtain ⟨k, hk, rfl⟩ := List.mem_iff_getElem.1 hx
        simp only [List.length_take] at hk
        have := hB.2.1 k (by omega)
        unfold beyond at this
        rw [List.getElem?_eq_getElem (by omega)] at this
        simp only [decide_eq_true_eq] at this
        rw [List.getElem_take]
        exact (h.swap _ _).2 (by omega)
      have hhigh : ∀ x ∈ l.drop r.1, cmp x b > 0 := by
        intro x hx
        obtain ⟨k, hk, rfl⟩ := List.mem_iff_getElem.1 hx
        simp only [List.length_drop] at hk
        have := hB.2.2 (r.1 + k) (by omega) (by omega)
        unfold beyond at this
        rw [List.getElem?_eq_getElem (by omega)] at this
        simp only [decide_eq_false_iff_not] at this
        rw [List.getElem_drop]
        exact h.gt_swap.2 (by omega)
      have hmm : ∀ y ∈ m, cmp b y ≤ 0 := by
        intro y hy
        rcases List.mem_append.1 (g2.perm.mem_iff.1 hy) with hy | hy
        · have := h.le_of_gt (hhigh y hy); omega
        · exact hb y hy
      refine ⟨?_, ?_⟩
      · refine ascending_append.2 ⟨h1.sublist (List.take_sublist _ _), List.pairwise_cons.2 ⟨hmm, g1⟩, ?_⟩
        intro x hx y hy
        rcases List.mem_cons.1 hy with rfl | hy
        · exact hlow x hx
        · exact h.trans _ b _ (hlow x hx) (hmm y hy)
      · have s1 : Stab cmp (l.drop r.1 ++ [b]) (b :: l.drop r.1) := Stab.move h _ b (fun x hx => by
          have := hhigh x hx; omega)
        have s2 : Stab cmp (l.drop r.1 ++ b :: bs) (b :: m) := by
          have e1 : l.drop r.1 ++ b :: bs = (l.drop r.1 ++ [b]) ++ bs := by simp
          rw [e1]
          refine (s1.append (Stab.refl bs)).trans ?_
          exact (Stab.refl [b]).append g2
        have s3 := (Stab.refl (cmp := cmp) (l.take r.1)).append s2
        rw [← List.append_assoc, hsplit] at s3
        exact s3
    · have hba : cmp a b > 0 := by omega
      have hm := beyond_mono h a 0 (Or.inr rfl) (b :: bs) h2
      have h0 : beyond cmp a 0 (b :: bs) 0 = true := by
        simp only [beyond, List.getElem?_cons_zero, decide_eq_true_eq]; omega
      obtain ⟨hB, hpos⟩ := search_ok big _ _ hm (by simp) h0
      rw [merge]
      simp only [hab, if_false]
      generalize search big (beyond cmp a 0 (b :: bs)) (b :: bs).length = r at *
      generalize hl : b :: bs = l at *
      have hsplit := List.take_append_drop r.1 l
      obtain ⟨g1, g2⟩ := merge_ok h r.2 as (l.drop r.1) has
        (h2.sublist (List.drop_sublist _ _))
      generalize (merge cmp r.2 as (l.drop r.1)).1 = m at *
      have hlow : ∀ x ∈ l.take r.1, cmp a x > 0 := by
        intro x hx
        obtain ⟨k, hk, rfl⟩ := List.mem_iff_getElem.1 hx
        simp only [List.length_take] at hk
        have := hB.2.1 k (by omega)
        unfold beyond at this
        rw [List.getElem?_eq_getElem (by omega)] at this
        simp only [decide_eq_true_eq] at this
        rw [List.getElem_take]
        exact this
      have hhigh : ∀ x ∈ l.drop r.1, cmp a x ≤ 0 := by
        intro x hx
        obtain ⟨k, hk, rfl⟩ := List.mem_iff_getElem.1 hx
        simp only [List.length_drop] at hk
        have := hB.2.2 (r.1 + k) (by omega) (by omega)
        unfold beyond at this
        rw [List.getElem?_eq_getElem (by omega)] at this
        simp only [decide_eq_false_iff_not] at this
        rw [List.getElem_drop]
        omega
      have hmm : ∀ y ∈ m, cmp a y ≤ 0 := by
        intro y hy
        rcases List.mem_append.1 (g2.perm.mem_iff.1 hy) with hy | hy
        · exact hasle y hy
        · exact hhigh y hy
      refine ⟨?_, ?_⟩
      · refine ascending_append.2 ⟨h2.sublist (List.take_sublist _ _), List.pairwise_cons.2 ⟨hmm, g1⟩, ?_⟩
        intro x hx y hy
        rcases List.mem_cons.1 hy with rfl | hy
        · exact h.le_of_gt (hlow x hx)
        · exact h.trans _ a _ (h.le_of_gt (hlow x hx)) (hmm y hy)
      · -- move the copied elements before a and as
        have habove : ∀ y ∈ a :: as, ∀ x ∈ l.take r.1, cmp y x ≠ 0 := by
          intro y hy x hx
          have hax : cmp x a < 0 := h.gt_swap.1 (hlow x hx)
          rcases List.mem_cons.1 hy with rfl | hy
          · have := hlow x hx; omega
          · intro hyx
            have h3 : cmp x y = 0 := h.eq_swap.1 hyx
            have h4 : cmp a y ≤ 0 := hasle y hy
            have h5 : cmp y x ≤ 0 := by omega
            have := h.trans a y x h4 h5
            have := hlow x hx; omega
        have moveAll : ∀ (xs ys : List α), (∀ y ∈ ys, ∀ x ∈ xs, cmp y x ≠ 0) → Stab cmp (ys ++ xs) (xs ++ ys) := by
          intro xs
          induction xs with
          | nil => intro ys _; simpa using Stab.refl ys
          | cons x xs ih =>
            intro ys hys
            have e1 : ys ++ x :: xs = (ys ++ [x]) ++ xs := by simp
            rw [e1]
            refine ((Stab.move h ys x (fun y hy => hys y hy x (by simp))).append (Stab.refl xs)).trans ?_
            exact (Stab.refl [x]).append (ih ys (fun y hy z hz => hys y hy z (by simp [hz])))
        have s1 : Stab cmp (a :: as ++ l) (l.take r.1 ++ (a :: as) ++ l.drop r.1) := by
          have := (moveAll (l.take r.1) (a :: as) habove).append (Stab.refl (cmp := cmp) (l.drop r.1))
          rw [List.append_assoc, hsplit] at this
          exact this
        refine s1.trans ?_
        rw [List.append_assoc]
        exact (Stab.refl _).append ((Stab.refl [a]).append g2)
termination_by _ f1 f2 => f1.length + f2.length
decreasing_by
  all_goals (try subst hl); simp only [List.length_drop, List.length_cons]; omega

/-! Passes -/

/-- All runs ascend. -/
def Runs (cmp : α → α → Int) (rs : List (List α)) : Prop := ∀ r ∈ rs, Ascending cmp r

theorem pass_ok {cmp : α → α → Int} (h : Lawful cmp) (big : Bool) (rs : List (List α)) (hr : Runs cmp rs) :
    Runs cmp (pass cmp big rs).1 ∧ Stab cmp rs.flatten (pass cmp big rs).1.flatten := by
  match rs with
  | [] => exact ⟨hr, Stab.refl _⟩
  | [_] => exact ⟨hr, Stab.refl _⟩
  | a :: b :: rs =>
    obtain ⟨m1, m2⟩ := merge_ok h big a b (hr a (by simp)) (hr b (by simp))
    obtain ⟨p1, p2⟩ := pass_ok h (merge cmp big a b).2 rs (fun r hr' => hr r (by simp [hr']))
    simp only [pass]
    refine ⟨?_, ?_⟩
    · intro r hr'
      rcases List.mem_cons.1 hr' with rfl | hr'
      · exact m1
      · exact p1 r hr'
    · simp only [List.flatten_cons, ← List.append_assoc]
      exact m2.append p2

theorem passes_ok {cmp : α → α → Int} (h : Lawful cmp) (big : Bool) (rs : List (List α)) (hr : Runs cmp rs) :
    Ascending cmp (passes cmp big rs) ∧ Stab cmp rs.flatten (passes cmp big rs) := by
  unfold passes
  split
  · obtain ⟨p1, p2⟩ := pass_ok h big rs hr
    obtain ⟨q1, q2⟩ := passes_ok h (pass cmp big rs).2 (pass cmp big rs).1 p1
    exact ⟨q1, p2.trans q2⟩
  · refine ⟨?_, Stab.refl _⟩
    match rs with
    | [] => exact List.Pairwise.nil
    | [r] => simpa using hr r (by simp)
    | _ :: _ :: _ => simp at *
termination_by rs.length
decreasing_by rw [pass_length]; omega

/-! Insertion sort -/

theorem insertDown_ok {cmp : α → α → Int} (h : Lawful cmp) (l : List α) (x : α) (hl : Ascending cmp l.reverse) :
    Ascending cmp (insertDown cmp l x).reverse ∧ Stab cmp (l.reverse ++ [x]) (insertDown cmp l x).reverse := by
  induction l with
  | nil => exact ⟨by simp [insertDown, Ascending], by simpa [insertDown] using Stab.refl _⟩
  | cons u us ih =>
    simp only [List.reverse_cons] at hl
    obtain ⟨a1, _, a3⟩ := ascending_append.1 hl
    simp only [insertDown]
    split
    · rename_i hle
      refine ⟨?_, by simpa using Stab.refl _⟩
      simp only [List.reverse_cons]
      refine ascending_append.2 ⟨hl, by simp [Ascending], ?_⟩
      intro y hy z hz
      simp only [List.mem_singleton] at hz; subst hz
      rcases List.mem_append.1 hy with hy | hy
      · exact h.trans _ u _ (a3 y hy u (by simp)) hle
      · simp only [List.mem_singleton] at hy; subst hy; exact hle
    · rename_i hgt
      obtain ⟨i1, i2⟩ := ih a1
      simp only [List.reverse_cons]
      refine ⟨ascending_append.2 ⟨i1, by simp [Ascending], ?_⟩, ?_⟩
      · intro y hy z hz
        simp only [List.mem_singleton] at hz; subst hz
        rcases List.mem_append.1 (i2.perm.mem_iff.1 hy) with hy | hy
        · exact a3 y hy z (by simp)
        · simp only [List.mem_singleton] at hy; subst hy
          exact h.le_of_gt (by omega)
      · rw [List.append_assoc]
        have s1 : Stab cmp ([u] ++ [x]) ([x] ++ [u]) := Stab.move h [u] x (by
          intro y hy; simp only [List.mem_singleton] at hy; subst hy; omega)
        refine ((Stab.refl us.reverse).append s1).trans ?_
        rw [← List.append_assoc]
        exact i2.append (Stab.refl [u])

theorem insertionSort_ok {cmp : α → α → Int} (h : Lawful cmp) (l : List α) :
    Ascending cmp (insertionSort cmp l) ∧ Stab cmp l (insertionSort cmp l) := by
  have key : ∀ (l acc : List α), Ascending cmp acc.reverse →
      Ascending cmp (l.foldl (insertDown cmp) acc).reverse ∧
      Stab cmp (acc.reverse ++ l) (l.foldl (insertDown cmp) acc).reverse := by
    intro l
    induction l with
    | nil => intro acc ha; exact ⟨ha, by simpa using Stab.refl _⟩
    | cons x l ih =>
      intro acc ha
      obtain ⟨i1, i2⟩ := insertDown_ok h acc x ha
      obtain ⟨j1, j2⟩ := ih _ i1
      refine ⟨j1, ?_⟩
      have e : acc.reverse ++ x :: l = (acc.reverse ++ [x]) ++ l := by simp
      rw [e]
      exact (i2.append (Stab.refl l)).trans j2
  simpa [insertionSort] using key l [] (by simp [Ascending])

/-! The first runs -/

/-- Strictly descending. -/
def Descending (cmp : α → α → Int) (l : List α) : Prop := l.Pairwise fun a b => cmp a b > 0

theorem Lawful.gt_trans {cmp : α → α → Int} (h : Lawful cmp) {a b c : α} (h1 : cmp a b > 0) (h2 : cmp b c > 0) :
    cmp a c > 0 := by
  rcases Int.lt_or_le 0 (cmp a c) with hh | hh
  · exact hh
  · have h3 := h.le_of_gt h2
    have := h.trans a c b hh h3
    omega

theorem reverse_ok {cmp : α → α → Int} (h : Lawful cmp) (l : List α) (hd : Descending cmp l) :
    Ascending cmp l.reverse ∧ Stab cmp l l.reverse := by
  induction l with
  | nil => exact ⟨by simp [Ascending], Stab.refl _⟩
  | cons a l ih =>
    obtain ⟨h1, h2⟩ := List.pairwise_cons.1 hd
    obtain ⟨i1, i2⟩ := ih h2
    simp only [List.reverse_cons]
    refine ⟨ascending_append.2 ⟨i1, by simp [Ascending], ?_⟩, ?_⟩
    · intro x hx y hy
      simp only [List.mem_singleton] at hy; subst hy
      exact h.le_of_gt (h1 x (by simpa using hx))
    · refine ⟨?_, ?_⟩
      · exact (List.perm_append_singleton a l.reverse).trans (List.Perm.cons a (List.reverse_perm l))
      · intro x
        rw [equals_append, i2.stable]
        by_cases hx : cmp x a = 0
        · have : equals cmp x l = [] := by
            simp only [equals, List.filter_eq_nil_iff, decide_eq_true_eq]
            intro y hy hxy
            have h3 := h1 y hy
            have h4 : cmp a x ≤ 0 := by have := h.eq_swap.1 hx; omega
            have := h.trans a x y h4 (by omega)
            omega
          rw [this]
          simp [equals, hx]
          simpa [equals] using this
        · simp [equals, hx]

/-- The run being built: ascending, or descending if the sense says so. -/
def Sense (cmp : α → α → Int) (sense : Bool) (l : List α) : Prop :=
  if sense then Descending cmp l else Ascending cmp l

theorem closeRun_ok {cmp : α → α → Int} (h : Lawful cmp) (sense : Bool) (l : List α) (hs : Sense cmp sense l) :
    Ascending cmp (closeRun sense l) ∧ Stab cmp l (closeRun sense l) := by
  cases sense
  · exact ⟨hs, Stab.refl _⟩
  · exact reverse_ok h l hs

/-- The elements of the pairs in order. -/
def unpair : List (α × α) → List α
  | [] => []
  | p :: ps => p.1 :: p.2 :: unpair ps

theorem unpair_append (a b : List (α × α)) : unpair (a ++ b) = unpair a ++ unpair b := by
  induction a with
  | nil => rfl
  | cons p a ih => simp [unpair, ih]

theorem unpair_pairs : ∀ (l : List α), l.length % 2 = 0 → unpair (pairs l) = l
  | [], _ => rfl
  | [_], h => by simp at h
  | a :: b :: l, h => by
    simp only [pairs, unpair]
    rw [unpair_pairs l (by simp only [List.length_cons] at h; omega)]

/-- A pair has the sense. -/
def PairSense (cmp : α → α → Int) (sense : Bool) (p : α × α) : Prop := decide (cmp p.1 p.2 > 0) = sense

theorem sense_pair {cmp : α → α → Int} {sense : Bool} {a b : α} (h : PairSense cmp sense (a, b)) :
    Sense cmp sense [a, b] := by
  cases sense
  · simp only [PairSense, decide_eq_false_iff_not] at h
    simp [Sense, Ascending]; omega
  · simp only [PairSense, decide_eq_true_eq] at h
    simp [Sense, Descending]; omega

theorem natural_ok {cmp : α → α → Int} (h : Lawful cmp) (sense : Bool) (ps : List (α × α))
    (hps : ∀ p ∈ ps, PairSense cmp sense p) : ∀ (pre : List α) (last : α), Sense cmp sense (pre ++ [last]) →
    Runs cmp (natural cmp sense (pre ++ [last]) last ps) ∧
    Stab cmp (pre ++ [last] ++ unpair ps) (natural cmp sense (pre ++ [last]) last ps).flatten := by
  induction ps with
  | nil =>
    intro pre last hs
    obtain ⟨c1, c2⟩ := closeRun_ok h sense _ hs
    simp only [natural, unpair, List.append_nil, List.flatten_cons, List.flatten_nil]
    exact ⟨by intro r hr; simp only [List.mem_singleton] at hr; subst hr; exact c1, c2⟩
  | cons p ps ih =>
    obtain ⟨a, b⟩ := p
    intro pre last hs
    have hp := hps (a, b) (by simp)
    have ih := ih (fun p hp => hps p (by simp [hp]))
    simp only [natural, unpair]
    split
    · rename_i hcmp
      have hcmp : decide (cmp last a > 0) = sense := by simpa using hcmp
      have hs' : Sense cmp sense (pre ++ [last] ++ [a] ++ [b]) := by
        have hp2 := sense_pair hp
        cases sense
        · simp only [Sense, Bool.false_eq_true, if_false] at *
          simp only [decide_eq_false_iff_not] at hcmp
          have hla : cmp last a ≤ 0 := by omega
          have hab : cmp a b ≤ 0 := (List.pairwise_cons.1 hp2).1 b (by simp)
          obtain ⟨b1, _, b3⟩ := ascending_append.1 hs
          have hx : ∀ x ∈ pre ++ [last], cmp x a ≤ 0 := by
            intro x hx
            rcases List.mem_append.1 hx with hx | hx
            · exact h.trans _ last _ (b3 x hx last (by simp)) hla
            · simp only [List.mem_singleton] at hx; subst hx; exact hla
          rw [List.append_assoc (pre ++ [last])]
          refine ascending_append.2 ⟨hs, hp2, ?_⟩
          intro x hx' y hy
          simp only [List.singleton_append, List.mem_cons, List.not_mem_nil, or_false] at hy
          rcases hy with rfl | rfl
          · exact hx x hx'
          · exact h.trans _ a _ (hx x hx') hab
        · simp only [Sense, if_true] at *
          simp only [decide_eq_true_eq] at hcmp
          have hab : cmp a b > 0 := (List.pairwise_cons.1 hp2).1 b (by simp)
          obtain ⟨b1, _, b3⟩ := List.pairwise_append.1 hs
          have hx : ∀ x ∈ pre ++ [last], cmp x a > 0 := by
            intro x hx
            rcases List.mem_append.1 hx with hx | hx
            · exact h.gt_trans (b3 x hx last (by simp)) hcmp
            · simp only [List.mem_singleton] at hx; subst hx; exact hcmp
          rw [List.append_assoc (pre ++ [last])]
          refine List.pairwise_append.2 ⟨hs, hp2, ?_⟩
          intro x hx' y hy
          simp only [List.singleton_append, List.mem_cons, List.not_mem_nil, or_false] at hy
          rcases hy with rfl | rfl
          · exact hx x hx'
          · exact h.gt_trans (hx x hx') hab
      have := ih (pre ++ [last] ++ [a]) b hs'
      simpa [List.append_assoc] using this
    · obtain ⟨c1, c2⟩ := closeRun_ok h sense _ hs
      obtain ⟨i1, i2⟩ := ih [a] b (sense_pair hp)
      refine ⟨?_, ?_⟩
      · intro r hr
        rcases List.mem_cons.1 hr with rfl | hr
        · exact c1
        · exact i1 r hr
      · simp only [List.flatten_cons]
        exact c2.append i2

theorem pairRuns_ok {cmp : α → α → Int} (h : Lawful cmp) (sense : Bool) (ps : List (α × α))
    (hps : ∀ p ∈ ps, PairSense cmp sense p) :
    Runs cmp (pairRuns sense ps) ∧ Stab cmp (unpair ps) (pairRuns sense ps).flatten := by
  induction ps with
  | nil => exact ⟨by simp [Runs, pairRuns], Stab.refl _⟩
  | cons p ps ih =>
    obtain ⟨i1, i2⟩ := ih (fun p hp => hps p (by simp [hp]))
    have hp := sense_pair (hps p (by simp))
    obtain ⟨c1, c2⟩ := closeRun_ok h sense _ hp
    have e : (if sense = true then [p.2, p.1] else [p.1, p.2]) = closeRun sense [p.1, p.2] := by
      cases sense <;> rfl
    simp only [pairRuns, List.map_cons, List.flatten_cons, unpair, e]
    refine ⟨?_, ?_⟩
    · intro r hr
      rcases List.mem_cons.1 hr with rfl | hr
      · exact c1
      · exact i1 r hr
    · exact c2.append i2

theorem joinTail_ok {cmp : α → α → Int} (h : Lawful cmp) (rs : List (List α)) (tail : List α) (hr : Runs cmp rs)
    (ht : Ascending cmp tail) : Runs cmp (joinTail cmp rs tail) ∧ (joinTail cmp rs tail).flatten = rs.flatten ++ tail := by
  have base : Runs cmp (rs ++ [tail]) ∧ (rs ++ [tail]).flatten = rs.flatten ++ tail := by
    refine ⟨?_, by simp⟩
    intro r hr'
    rcases List.mem_append.1 hr' with hr' | hr'
    · exact hr r hr'
    · simp only [List.mem_singleton] at hr'; subst hr'; exact ht
  unfold joinTail
  split
  · rename_i r x h1 h2
    split
    · rename_i y h3
      split
      · exact base
      · rename_i hle
        obtain ⟨rs', rfl⟩ := List.getLast?_eq_some_iff.1 h1
        obtain ⟨r', rfl⟩ := List.getLast?_eq_some_iff.1 h3
        obtain ⟨tail', rfl⟩ := List.head?_eq_some_iff.1 h2
        refine ⟨?_, by simp⟩
        intro s hs
        simp only [List.dropLast_concat, List.mem_append, List.mem_singleton] at hs
        rcases hs with hs | rfl
        · exact hr s (by simp [hs])
        · have hlast := hr (r' ++ [y]) (by simp)
          obtain ⟨b1, _, b3⟩ := ascending_append.1 hlast
          have hx := List.pairwise_cons.1 ht
          have hy : cmp y x ≤ 0 := by omega
          refine ascending_append.2 ⟨hlast, ht, ?_⟩
          intro a ha b hb
          have hax : cmp a x ≤ 0 := by
            rcases List.mem_append.1 ha with ha | ha
            · exact h.trans _ y _ (b3 a ha y (by simp)) hy
            · simp only [List.mem_singleton] at ha; subst ha; exact hy
          rcases List.mem_cons.1 hb with rfl | hb
          · exact hax
          · exact h.trans _ x _ hax (hx.1 b hb)
    · exact base
  · exact base

theorem runs_ok {cmp : α → α → Int} (h : Lawful cmp) (tail : List α) (ht : Ascending cmp tail) :
    ∀ (sense : Bool) (ps : List (α × α)), (∀ p, ps.head? = some p → PairSense cmp sense p) →
    Runs cmp (runs cmp sense tail ps) ∧ Stab cmp (unpair ps ++ tail) (runs cmp sense tail ps).flatten
  | sense, [], _ => by
    simp only [runs, unpair, List.nil_append, List.flatten_cons, List.flatten_nil, List.append_nil]
    exact ⟨by intro r hr; simp only [List.mem_singleton] at hr; subst hr; exact ht, Stab.refl _⟩
  | sense, p :: ps, hp => by
    have hp := hp p rfl
    have hg : ∀ q ∈ sameSense cmp sense ps, PairSense cmp sense q := by
      intro q hq
      have := List.all_eq_true.1 (List.all_takeWhile (p := fun p : α × α => decide (cmp p.1 p.2 > 0) == sense) (l := ps)) q hq
      simpa [PairSense] using this
    have hsplit : sameSense cmp sense ps ++ ps.drop (sameSense cmp sense ps).length = ps := by
      have := List.takeWhile_append_dropWhile (p := fun p : α × α => decide (cmp p.1 p.2 > 0) == sense) (l := ps)
      have e : ps.drop (sameSense cmp sense ps).length =
          ps.dropWhile (fun p : α × α => decide (cmp p.1 p.2 > 0) == sense) := by
        have h2 := congrArg (List.drop (sameSense cmp sense ps).length) this
        simp only [sameSense] at h2 ⊢
        rw [List.drop_left] at h2
        exact h2.symm
      rw [e]; exact this
    have hrest : ∀ q, (ps.drop (sameSense cmp sense ps).length).head? = some q → PairSense cmp (!sense) q := by
      intro q hq
      have e : ps.drop (sameSense cmp sense ps).length =
          ps.dropWhile (fun p : α × α => decide (cmp p.1 p.2 > 0) == sense) := by
        have := List.takeWhile_append_dropWhile (p := fun p : α × α => decide (cmp p.1 p.2 > 0) == sense) (l := ps)
        have h2 := congrArg (List.drop (sameSense cmp sense ps).length) this
        simp only [sameSense] at h2 ⊢
        rw [List.drop_left] at h2
        exact h2.symm
      rw [e] at hq
      have := List.head?_dropWhile_not (fun p : α × α => decide (cmp p.1 p.2 > 0) == sense) ps
      rw [hq] at this
      simp only [PairSense]
      simp only [Bool.eq_false_iff] at this
      cases sense <;> simp_all
    obtain ⟨i1, i2⟩ := runs_ok h tail ht (!sense) (ps.drop (sameSense cmp sense ps).length) hrest
    rw [runs]
    simp only
    have hall : ∀ q ∈ p :: sameSense cmp sense ps, PairSense cmp sense q := by
      intro q hq
      rcases List.mem_cons.1 hq with rfl | hq
      · exact hp
      · exact hg q hq
    have e0 : unpair (p :: ps) = unpair (p :: sameSense cmp sense ps) ++ unpair (ps.drop (sameSense cmp sense ps).length) := by
      rw [← unpair_append, List.cons_append, hsplit]
    rw [e0]
    split
    · obtain ⟨a1, a2⟩ := pairRuns_ok h sense _ hall
      refine ⟨?_, ?_⟩
      · intro r hr
        rcases List.mem_append.1 hr with hr | hr
        · exact a1 r hr
        · exact i1 r hr
      · rw [List.flatten_append, List.append_assoc]
        exact a2.append i2
    · obtain ⟨a1, a2⟩ := natural_ok h sense _ hg [p.1] p.2 (sense_pair hp)
      change Runs cmp (natural cmp sense [p.1, p.2] p.2 (sameSense cmp sense ps)) at a1
      change Stab cmp (unpair (p :: sameSense cmp sense ps))
        (natural cmp sense [p.1, p.2] p.2 (sameSense cmp sense ps)).flatten at a2
      split
      · rename_i hemp
        obtain ⟨j1, j2⟩ := joinTail_ok h _ tail a1 ht
        refine ⟨j1, ?_⟩
        rw [j2, List.isEmpty_iff.1 hemp]
        simp only [unpair, List.append_nil]
        exact a2.append (Stab.refl tail)
      · refine ⟨?_, ?_⟩
        · intro r hr
          rcases List.mem_append.1 hr with hr | hr
          · exact a1 r hr
          · exact i1 r hr
        · rw [List.flatten_append, List.append_assoc]
          exact a2.append i2
termination_by _ ps => ps.length
decreasing_by simp only [List.length_drop, List.length_cons]; omega

theorem setup_ok {cmp : α → α → Int} (h : Lawful cmp) (l : List α) :
    Runs cmp (setup cmp l) ∧ Stab cmp l (setup cmp l).flatten := by
  unfold setup
  simp only
  split
  · obtain ⟨a, b⟩ := insertionSort_ok h l
    exact ⟨by intro r hr; simp only [List.mem_singleton] at hr; subst hr; exact a, by simpa using b⟩
  · rename_i hn
    generalize hi : 4 + l.length % 2 = i
    obtain ⟨a, b⟩ := insertionSort_ok h (l.drop (l.length - i))
    have hsplit := List.take_append_drop (l.length - i) l
    have heven : (l.take (l.length - i)).length % 2 = 0 := by
      rw [List.length_take]
      omega
    have hun := unpair_pairs _ heven
    have key : Stab cmp l (unpair (pairs (l.take (l.length - i))) ++ insertionSort cmp (l.drop (l.length - i))) := by
      have := (Stab.refl (cmp := cmp) (l.take (l.length - i))).append b
      rw [hsplit] at this
      rwa [hun]
    cases hp : pairs (l.take (l.length - i)) with
    | nil =>
      rw [hp] at key
      simp only [unpair, List.nil_append] at key
      exact ⟨by intro r hr; simp only [List.mem_singleton] at hr; subst hr; exact a, by simpa using key⟩
    | cons p ps =>
      simp only
      obtain ⟨r1, r2⟩ := runs_ok h _ a (decide (cmp p.1 p.2 > 0)) (p :: ps) (by
        intro q hq; simp only [List.head?_cons, Option.some.injEq] at hq; subst hq; rfl)
      rw [hp] at key
      exact ⟨r1, key.trans r2⟩

theorem mergesort_ok {cmp : α → α → Int} (h : Lawful cmp) (l : List α) : StableSortOf cmp l (mergesort cmp l) := by
  unfold mergesort
  split
  · rename_i he
    rw [List.isEmpty_iff] at he; subst he
    exact ⟨.refl _, by simp [Ascending], fun _ => rfl⟩
  · obtain ⟨s1, s2⟩ := setup_ok h l
    obtain ⟨p1, p2⟩ := passes_ok h false _ s1
    have := s2.trans p2
    exact ⟨this.perm, p1, this.stable⟩

end Verif.Sort
