/-
Lemmas about the Unix path functions.
-/
import Verif.File.Path
import Verif.File.PathSpec

set_option linter.unusedSimpArgs false
set_option linter.unusedVariables false

namespace Verif.File

open Spec

theorem parts_ne_nil (l : List Char) : parts l ≠ [] := by
  cases l with
  | nil => simp [parts]
  | cons c t =>
    unfold parts
    by_cases h : c = '/'
    · simp [h]
    · rw [if_neg h]; cases parts t <;> simp

theorem parts_slash (a b : List Char) : parts (a ++ '/' :: b) = parts a ++ parts b := by
  induction a with
  | nil => simp [parts]
  | cons c t ih =>
    rw [List.cons_append]
    by_cases h : c = '/'
    · simp [parts, h, ih]
    · simp only [parts, if_neg h, ih]
      cases hp : parts t with
      | nil => exact absurd hp (parts_ne_nil t)
      | cons p ps => rfl

theorem parts_free {c : List Char} (h : '/' ∉ c) : parts c = [c] := by
  induction c with
  | nil => rfl
  | cons a t ih =>
    simp only [List.mem_cons, not_or] at h
    simp only [parts, if_neg (Ne.symm h.1), ih h.2]

theorem enter_nil (abs : Bool) (ns : List (List Char)) : enter abs ns [] = ns := by simp [enter]
theorem enter_dot (abs : Bool) (ns : List (List Char)) : enter abs ns ['.'] = ns := by simp [enter]

theorem foldl_filter (abs : Bool) (l : List (List Char)) : ∀ ns,
    (l.filter (· ≠ [])).foldl (enter abs) ns = l.foldl (enter abs) ns := by
  induction l with
  | nil => intro ns; rfl
  | cons p t ih =>
    intro ns
    by_cases h : p = []
    · subst h; rw [List.filter_cons_of_neg (by simp), List.foldl_cons, enter_nil, ih]
    · simp only [ne_eq, h, not_false_eq_true, decide_true, List.filter_cons_of_pos, List.foldl_cons]
      exact ih _

theorem isAbs_append {o : List Char} (h : o ≠ []) (t : List Char) : isAbs (o ++ t) = isAbs o := by
  cases o with
  | nil => exact absurd rfl h
  | cons a s => rfl

/-- Ends in a slash, or is empty: something a relative path can be appended to. -/
def Dir (o : List Char) : Prop := o = [] ∨ ∃ a, o = a ++ ['/']

/-- Names collected by a directory prefix. -/
def collected (abs : Bool) (o : List Char) : List (List Char) := (parts o).foldl (enter abs) []

theorem resolve_dir {o : List Char} (h : Dir o) {t : List Char} (ht : isAbs t = false) :
    resolve (o ++ t) = (isAbs o, (parts t).foldl (enter (isAbs o)) (collected (isAbs o) o)) := by
  rcases h with rfl | ⟨a, rfl⟩
  · simp only [List.nil_append, resolve, ht, collected]
    rfl
  · rw [resolve, isAbs_append (by simp), List.append_assoc, List.singleton_append, parts_slash,
      List.foldl_append, collected]
    rw [show a ++ ['/'] = a ++ '/' :: [] from rfl, parts_slash]
    simp [parts, enter_nil]

theorem collected_snoc (abs : Bool) {o : List Char} (h : Dir o) {c : List Char} (hc : '/' ∉ c) :
    collected abs (o ++ c ++ ['/']) = enter abs (collected abs o) c := by
  have e : parts (o ++ c ++ ['/']) = parts (o ++ c) ++ [[]] := by
    rw [show o ++ c ++ ['/'] = (o ++ c) ++ '/' :: [] from rfl, parts_slash]; rfl
  unfold collected
  rw [e, List.foldl_append]
  simp only [List.foldl_cons, List.foldl_nil, enter_nil]
  rcases h with rfl | ⟨a, rfl⟩
  · rw [List.nil_append, parts_free hc]; simp [parts, enter_nil]
  · rw [List.append_assoc, List.singleton_append, parts_slash, parts_free hc,
      show a ++ ['/'] = a ++ '/' :: [] from rfl, parts_slash]
    simp [parts, enter_nil]

/-! ### Doubled slashes -/

theorem collapse_head (l : List Char) : (collapse l).head? = l.head? := by
  induction l with
  | nil => rfl
  | cons c t ih =>
    unfold collapse
    by_cases h : c = '/' ∧ t.head? = some '/'
    · rw [if_pos h, ih, h.2, h.1]; rfl
    · rw [if_neg h]; rfl

theorem collapse_parts (l : List Char) :
    (parts (collapse l)).head? = (parts l).head? ∧
    (parts (collapse l)).tail.filter (· ≠ []) = (parts l).tail.filter (· ≠ []) := by
  induction l with
  | nil => exact ⟨rfl, rfl⟩
  | cons c t ih =>
    obtain ⟨ih1, ih2⟩ := ih
    unfold collapse
    by_cases h : c = '/' ∧ t.head? = some '/'
    · rw [if_pos h]
      obtain ⟨rfl, ht⟩ := h
      cases t with
      | nil => simp at ht
      | cons a s =>
        simp only [List.head?_cons, Option.some.injEq] at ht
        subst ht
        have e1 : parts ('/' :: s) = [] :: parts s := by simp [parts]
        have e2 : parts ('/' :: '/' :: s) = [] :: [] :: parts s := by simp [parts]
        rw [ih1, ih2, e1, e2]
        simp
    · rw [if_neg h]
      by_cases hc : c = '/'
      · have e1 : ∀ x, parts (c :: x) = [] :: parts x := by intro x; simp [parts, hc]
        rw [e1, e1]
        refine ⟨rfl, ?_⟩
        simp only [List.tail_cons]
        cases hp : parts t with
        | nil => exact absurd hp (parts_ne_nil t)
        | cons p ps =>
          cases hq : parts (collapse t) with
          | nil => exact absurd hq (parts_ne_nil _)
          | cons q qs =>
            rw [hp, hq] at ih1 ih2
            simp only [List.head?_cons, Option.some.injEq, List.tail_cons] at ih1 ih2
            rw [List.filter_cons, List.filter_cons, ih2, ih1]
      · simp only [parts, if_neg hc]
        cases hp : parts t with
        | nil => exact absurd hp (parts_ne_nil t)
        | cons p ps =>
          cases hq : parts (collapse t) with
          | nil => exact absurd hq (parts_ne_nil _)
          | cons q qs =>
            rw [hp, hq] at ih1 ih2
            simp only [List.head?_cons, Option.some.injEq, List.tail_cons] at ih1 ih2
            simp only [List.head?_cons, ih1, List.tail_cons, ih2, and_self]

theorem collapse_filter (l : List Char) :
    (parts (collapse l)).filter (· ≠ []) = (parts l).filter (· ≠ []) := by
  obtain ⟨h1, h2⟩ := collapse_parts l
  cases hp : parts l with
  | nil => exact absurd hp (parts_ne_nil _)
  | cons p ps =>
    cases hq : parts (collapse l) with
    | nil => exact absurd hq (parts_ne_nil _)
    | cons q qs =>
      rw [hp, hq] at h1 h2
      simp only [List.head?_cons, Option.some.injEq, List.tail_cons] at h1 h2
      rw [List.filter_cons, List.filter_cons, h2, h1]

theorem collapse_foldl (abs : Bool) (l : List Char) (ns : List (List Char)) :
    (parts (collapse l)).foldl (enter abs) ns = (parts l).foldl (enter abs) ns := by
  rw [← foldl_filter, collapse_filter, foldl_filter]

theorem collapse_isAbs (l : List Char) : isAbs (collapse l) = isAbs l := by
  unfold isAbs; rw [collapse_head]

theorem resolve_collapse (l : List Char) : resolve (collapse l) = resolve l := by
  unfold resolve; rw [collapse_isAbs, collapse_foldl]

theorem collapse_length (l : List Char) : (collapse l).length ≤ l.length := by
  induction l with
  | nil => simp [collapse]
  | cons c t ih => unfold collapse; split <;> simp only [List.length_cons] <;> omega

/-- No two slashes in a row. -/
def NoDouble (o : List Char) : Prop := ∀ x y, o ≠ x ++ '/' :: '/' :: y

theorem collapse_noDouble (l : List Char) : NoDouble (collapse l) := by
  induction l with
  | nil => intro x y h; cases x <;> simp [collapse] at h
  | cons c t ih =>
    unfold collapse
    by_cases h : c = '/' ∧ t.head? = some '/'
    · rw [if_pos h]; exact ih
    · rw [if_neg h]
      intro x y hx
      cases x with
      | nil =>
        simp only [List.nil_append, List.cons.injEq] at hx
        apply h
        refine ⟨hx.1, ?_⟩
        rw [← collapse_head, hx.2]; rfl
      | cons a x' =>
        simp only [List.cons_append, List.cons.injEq] at hx
        exact ih x' y hx.2

theorem collapse_mem_parts {l c : List Char} (h : c ∈ parts (collapse l)) : c = [] ∨ c ∈ parts l := by
  by_cases hc : c = []
  · exact .inl hc
  · right
    have : c ∈ (parts (collapse l)).filter (· ≠ []) := by simp [h, hc]
    rw [collapse_filter] at this
    exact (List.mem_filter.1 this).1

/-! ### Adding the slash back -/

/-- `addSlash` seen from the front. -/
def slashed (h : List Char) : List Char := (addSlash h.reverse).reverse

theorem slashed_nil : slashed [] = [] := rfl

theorem slashed_snoc (h : List Char) (c : Char) :
    slashed (h ++ [c]) = if c = '/' then h ++ ['/'] else h ++ [c, '/'] := by
  unfold slashed
  rw [List.reverse_append, List.reverse_singleton, List.singleton_append]
  by_cases hc : c = '/'
  · subst hc; simp [addSlash]
  · rw [if_neg hc]
    have : addSlash (c :: h.reverse) = '/' :: c :: h.reverse := by
      unfold addSlash
      split
      · rename_i he; simp at he
      · rename_i he; simp at he; exact absurd he.1 hc
      · rfl
    rw [this]; simp

theorem slashed_cases (h : List Char) :
    h = [] ∧ slashed h = [] ∨
    (∃ a, h = a ++ ['/'] ∧ slashed h = h) ∨
    (h ≠ [] ∧ (∀ a, h ≠ a ++ ['/']) ∧ slashed h = h ++ ['/']) := by
  rcases List.eq_nil_or_concat h with rfl | ⟨a, c, rfl⟩
  · exact .inl ⟨rfl, rfl⟩
  · right
    rw [List.concat_eq_append, slashed_snoc]
    by_cases hc : c = '/'
    · subst hc; left; exact ⟨a, rfl, by simp⟩
    · right
      rw [if_neg hc]
      refine ⟨by simp, ?_, by simp⟩
      intro b hb
      have := (List.append_inj' hb rfl).2
      simp at this; exact hc this

theorem slashed_dir (h : List Char) : Dir (slashed h) := by
  rcases slashed_cases h with ⟨_, e⟩ | ⟨a, e1, e2⟩ | ⟨_, _, e⟩
  · exact .inl e
  · exact .inr ⟨a, by rw [e2, e1]⟩
  · exact .inr ⟨h, e⟩

theorem rejoin_eq (h t : List Char) : rejoin h t = slashed h ++ t := by
  unfold rejoin
  rcases slashed_cases h with ⟨e0, e⟩ | ⟨a, e1, e2⟩ | ⟨e0, e1, e⟩
  · rw [if_pos (.inl e0), e, e0]
  · rw [if_pos (.inr (by rw [e1]; simp)), e2]
  · rw [if_neg, e]
    · simp
    · rintro (h1 | h1)
      · exact e0 h1
      · rcases List.eq_nil_or_concat h with rfl | ⟨b, c, rfl⟩
        · exact e0 rfl
        · rw [List.concat_eq_append] at h1 e1
          simp at h1
          subst h1; exact e1 b rfl

theorem slashed_parts_filter (h : List Char) :
    (parts (slashed h)).filter (· ≠ []) = (parts h).filter (· ≠ []) := by
  rcases slashed_cases h with ⟨e0, e⟩ | ⟨a, e1, e2⟩ | ⟨e0, e1, e⟩
  · rw [e, e0]
  · rw [e2]
  · rw [e, show h ++ ['/'] = h ++ '/' :: [] from rfl, parts_slash]
    simp [parts]

theorem slashed_isAbs (h : List Char) : isAbs (slashed h) = isAbs h := by
  rcases slashed_cases h with ⟨e0, e⟩ | ⟨a, e1, e2⟩ | ⟨e0, e1, e⟩
  · rw [e, e0]
  · rw [e2]
  · rw [e, isAbs_append e0]

theorem slashed_collected (abs : Bool) (h : List Char) :
    collected abs (slashed h) = collected abs h := by
  unfold collected; rw [← foldl_filter, slashed_parts_filter, foldl_filter]

theorem resolve_slashed {h : List Char} {t : List Char} (ht : isAbs t = false) :
    resolve (slashed h ++ t) = (isAbs h, (parts t).foldl (enter (isAbs h)) (collected (isAbs h) h)) := by
  rw [resolve_dir (slashed_dir h) ht, slashed_isAbs, slashed_collected]

theorem resolve_slashed_collapse {h t : List Char} (ht : isAbs t = false) :
    resolve (slashed (collapse h) ++ t) = resolve (slashed h ++ t) := by
  rw [resolve_slashed ht, resolve_slashed ht, collapse_isAbs]
  unfold collected; rw [collapse_foldl]

/-! ### Splitting -/

theorem dropWhile_nil {p : Char → Bool} {l : List Char} :
    l.dropWhile p = [] ↔ ∀ x ∈ l, p x = true := by
  induction l with
  | nil => simp
  | cons a t ih =>
    by_cases h : p a = true
    · simp [List.dropWhile, h, ih]
    · simp [List.dropWhile, h]


theorem strrchr_eq (seen t : List Char) :
    strrchr seen t =
      if '/' ∈ t then some (t.reverse.dropWhile (· ≠ '/') ++ seen, tailText t) else none := by
  induction t generalizing seen with
  | nil => simp [strrchr]
  | cons c t ih =>
    unfold strrchr
    rw [ih]
    by_cases h : '/' ∈ t
    · rw [if_pos h, if_pos (List.mem_cons_of_mem _ h)]
      have e1 : (c :: t).reverse.dropWhile (· ≠ '/') = t.reverse.dropWhile (· ≠ '/') ++ [c] := by
        rw [List.reverse_cons, List.dropWhile_append]
        rw [if_neg]
        rw [List.isEmpty_iff, dropWhile_nil]
        intro hall
        have := hall '/' (by simpa using h)
        simp at this
      have e2 : tailText (c :: t) = tailText t := by
        unfold tailText
        rw [List.reverse_cons, List.takeWhile_append]
        rw [if_neg]
        intro hl
        have h1 := List.takeWhile_append_dropWhile (p := fun x => decide (x ≠ '/')) (l := t.reverse)
        have h2 : t.reverse.dropWhile (fun x => decide (x ≠ '/')) = [] := by
          apply List.eq_nil_of_length_eq_zero
          have := congrArg List.length h1
          rw [List.length_append] at this
          omega
        rw [dropWhile_nil] at h2
        have := h2 '/' (by simpa using h)
        simp at this
      rw [e1, e2]; simp
    · rw [if_neg h]
      have hfree : ∀ x ∈ t.reverse, decide (x ≠ '/') = true := by
        intro x hx
        simp only [ne_eq, decide_not, Bool.not_eq_eq_eq_not, Bool.not_true, decide_eq_false_iff_not]
        rintro rfl; exact h (by simpa using hx)
      by_cases hc : c = '/'
      · subst hc
        rw [if_pos rfl, if_pos (by simp)]
        have e1 : ('/' :: t).reverse.dropWhile (· ≠ '/') = ['/'] := by
          rw [List.reverse_cons, List.dropWhile_append]
          rw [if_pos]
          · simp
          · rw [List.isEmpty_iff, dropWhile_nil]; exact hfree
        have e2 : tailText ('/' :: t) = t := by
          unfold tailText
          rw [List.reverse_cons, List.takeWhile_append_of_pos hfree]
          simp
        rw [e1, e2]; rfl
      · rw [if_neg hc, if_neg (by simp [h, Ne.symm hc])]

theorem dir_tail (p : List Char) : dirText p ++ tailText p = p := by
  unfold dirText tailText
  rw [← List.reverse_append, List.takeWhile_append_dropWhile, List.reverse_reverse]

theorem tail_free (p : List Char) : '/' ∉ tailText p := by
  unfold tailText
  intro h
  rw [List.mem_reverse] at h
  have := List.all_takeWhile (p := fun x => decide (x ≠ '/')) (l := p.reverse)
  rw [List.all_eq_true] at this
  have := this '/' h
  simp at this

theorem dirText_dir (p : List Char) : Dir (dirText p) := by
  unfold dirText
  cases hr : p.reverse.dropWhile (· ≠ '/') with
  | nil => exact .inl rfl
  | cons c t =>
    right
    have : c = '/' := by
      have := List.head?_dropWhile_not (fun x => decide (x ≠ '/')) p.reverse
      rw [hr] at this
      simpa using this
    subst this
    exact ⟨t.reverse, by simp⟩

theorem splitpath_eq (p : List Char) :
    splitpath p = ((stripSlashes (stripDots (dirText p).reverse)).reverse, tailText p) := by
  unfold splitpath
  rw [strrchr_eq]
  by_cases h : '/' ∈ p
  · rw [if_pos h]
    simp [dirText]
  · rw [if_neg h]
    have hfree : ∀ x ∈ p.reverse, decide (x ≠ '/') = true := by
      intro x hx
      simp only [ne_eq, decide_not, Bool.not_eq_eq_eq_not, Bool.not_true, decide_eq_false_iff_not]
      rintro rfl; exact h (by simpa using hx)
    have e1 : p.reverse.dropWhile (· ≠ '/') = [] := dropWhile_nil.2 hfree
    have e2 : tailText p = p := by
      have := dir_tail p
      unfold dirText at this
      rw [e1] at this
      simpa using this
    unfold dirText
    rw [e1, e2]
    rfl

/-- Reversed directory prefixes: empty, or a slash comes first. -/
def RDir (r : List Char) : Prop := r = [] ∨ r.head? = some '/'

theorem rdir_dir {r : List Char} (h : RDir r) : Dir r.reverse := by
  rcases h with rfl | h
  · exact .inl rfl
  · cases r with
    | nil => simp at h
    | cons c t => simp at h; subst h; exact .inr ⟨t.reverse, by simp⟩

theorem dir_rdir {o : List Char} (h : Dir o) : RDir o.reverse := by
  rcases h with rfl | ⟨a, rfl⟩
  · exact .inl rfl
  · right; simp

theorem stripDots_spec (r : List Char) : RDir r → (∀ c ∈ parts r.reverse, ¬ dotted c) →
    RDir (stripDots r) ∧ ∀ t, isAbs t = false → resolve ((stripDots r).reverse ++ t) = resolve (r.reverse ++ t) := by
  fun_induction stripDots r with
  | case1 t => intro h _; exact ⟨h, fun _ _ => rfl⟩
  | case2 t hn ih =>
    intro h hd
    have ht : RDir t := by
      cases t with
      | nil => exact .inl rfl
      | cons d t' =>
        right
        by_cases hs : d = '/'
        · rw [hs]; rfl
        · exfalso
          have hdot : d ≠ '.' := by rintro rfl; exact hn t' rfl
          have e : ('/' :: '.' :: d :: t').reverse = (t'.reverse ++ [d, '.']) ++ '/' :: [] := by simp
          rw [e, parts_slash] at hd
          have : ∀ x : List Char, ∃ c ∈ parts (x ++ [d, '.']), dotted c := by
            intro x
            induction x with
            | nil =>
              refine ⟨[d, '.'], ?_, [], d, rfl, hdot⟩
              rw [List.nil_append, parts_free (by simp [Ne.symm hs])]
              simp
            | cons a y ih =>
              obtain ⟨c, hc, u, d', e', hd'⟩ := ih
              rw [List.cons_append]
              unfold parts
              by_cases ha : a = '/'
              · rw [if_pos ha]; exact ⟨c, List.mem_cons_of_mem _ hc, u, d', e', hd'⟩
              · rw [if_neg ha]
                cases hp : parts (y ++ [d, '.']) with
                | nil => exact absurd hp (parts_ne_nil _)
                | cons p ps =>
                  rw [hp] at hc
                  rcases List.mem_cons.1 hc with rfl | hc
                  · exact ⟨a :: c, by simp, a :: u, d', by rw [e']; rfl, hd'⟩
                  · exact ⟨c, by simp [hc], u, d', e', hd'⟩
          obtain ⟨c, hc, hdd⟩ := this t'.reverse
          exact hd c (by simp [hc]) hdd
    have hsub : ∀ c ∈ parts t.reverse, ¬ dotted c := by
      intro c hc
      rcases rdir_dir ht with e | ⟨a, e⟩
      · rw [e] at hc
        simp [parts] at hc
        subst hc
        rintro ⟨x, d, hx, _⟩
        cases x <;> simp at hx
      · rw [e, show a ++ ['/'] = a ++ '/' :: [] from rfl, parts_slash] at hc
        apply hd
        have e2 : ('/' :: '.' :: t).reverse = a ++ '/' :: ['.', '/'] := by
          simp [e]
        rw [e2, parts_slash]
        rcases List.mem_append.1 hc with hc | hc
        · exact List.mem_append_left _ hc
        · apply List.mem_append_right
          simp [parts] at hc ⊢
          exact .inr hc
    obtain ⟨i1, i2⟩ := ih ht hsub
    refine ⟨i1, ?_⟩
    intro t0 ht0
    rw [i2 t0 ht0]
    have e : ('/' :: '.' :: t).reverse = t.reverse ++ ['.'] ++ ['/'] := by simp
    rw [e]
    have hD := rdir_dir ht
    rw [resolve_dir hD ht0, resolve_dir (.inr ⟨_, rfl⟩) ht0, collected_snoc _ hD (by simp), enter_dot]
    have : isAbs (t.reverse ++ ['.'] ++ ['/']) = isAbs t.reverse := by
      cases hr : t.reverse with
      | nil => rfl
      | cons a b => rfl
    rw [this]
  | case3 t h1 h2 => intro h _; exact ⟨h, fun _ _ => rfl⟩

theorem stripSlashes_spec (r : List Char) : RDir r → ∀ t, isAbs t = false →
    resolve (slashed (stripSlashes r).reverse ++ t) = resolve (r.reverse ++ t) := by
  fun_induction stripSlashes r with
  | case1 c t ih =>
    intro h t0 ht0
    by_cases hc : c = '/'
    · rw [ih (.inr (by rw [hc]; rfl)) t0 ht0]
      subst hc
      have e : ('/' :: '/' :: t).reverse = (t.reverse ++ ['/']) ++ [] ++ ['/'] := by simp
      have e2 : ('/' :: t).reverse = t.reverse ++ ['/'] := by simp
      rw [e, e2, resolve_dir (.inr ⟨_, rfl⟩) ht0, resolve_dir (.inr ⟨_, rfl⟩) ht0,
        collected_snoc _ (.inr ⟨_, rfl⟩) (by simp), enter_nil]
      have : isAbs (t.reverse ++ ['/'] ++ [] ++ ['/']) = isAbs (t.reverse ++ ['/']) := by
        rw [List.append_nil, isAbs_append (by simp)]
      rw [this]
    · have e : stripSlashes (c :: t) = c :: t := by
        unfold stripSlashes
        split
        · rename_i he; simp at he; exact absurd he.1 hc
        · rfl
      rw [e, List.reverse_cons, slashed_snoc, if_neg hc]
      simp
  | case2 t h =>
    intro hr t0 ht0
    rcases hr with rfl | hr
    · rfl
    · cases t with
      | nil => simp at hr
      | cons a s =>
        simp at hr
        subst hr
        cases s with
        | nil => rfl
        | cons b u => exact absurd rfl (h b u)

theorem strip_suffix (r : List Char) : stripSlashes (stripDots r) <:+ r := by
  have h1 : ∀ r, stripDots r <:+ r := by
    intro r
    fun_induction stripDots r with
    | case1 t => exact List.suffix_refl _
    | case2 t hn ih => exact ih.trans ((List.suffix_cons _ _).trans (List.suffix_cons _ _))
    | case3 t _ _ => exact List.suffix_refl _
  have h2 : ∀ r, stripSlashes r <:+ r := by
    intro r
    fun_induction stripSlashes r with
    | case1 c t ih => exact ih.trans (List.suffix_cons _ _)
    | case2 t _ => exact List.suffix_refl _
  exact (h2 _).trans (h1 _)

theorem isAbs_free {t : List Char} (h : '/' ∉ t) : isAbs t = false := by
  cases t with
  | nil => rfl
  | cons a s => simp at h; simp [isAbs, Ne.symm h.1]

theorem head_resolve {p : List Char} (hd : ∀ c ∈ parts (dirText p), ¬ dotted c) {t : List Char}
    (ht : isAbs t = false) :
    resolve (slashed (splitpath p).1 ++ t) = resolve (dirText p ++ t) := by
  rw [splitpath_eq]
  dsimp only
  have hr := dir_rdir (dirText_dir p)
  obtain ⟨i1, i2⟩ := stripDots_spec _ hr (by rw [List.reverse_reverse]; exact hd)
  rw [stripSlashes_spec _ i1 t ht, i2 t ht, List.reverse_reverse]

/-! ### Scanning -/

theorem skipSlashes_isAbs (t : List Char) : isAbs (skipSlashes t) = false := by
  fun_induction skipSlashes t with
  | case1 t ih => exact ih
  | case2 t h =>
    unfold isAbs
    cases t with
    | nil => rfl
    | cons a s =>
      simp only [List.head?_cons, Option.some.injEq, decide_eq_false_iff_not]
      rintro rfl; exact h s rfl

theorem skipSlashes_foldl (abs : Bool) (t : List Char) (ns : List (List Char)) :
    (parts (skipSlashes t)).foldl (enter abs) ns = (parts t).foldl (enter abs) ns := by
  fun_induction skipSlashes t with
  | case1 t ih => rw [ih]; simp [parts, enter_nil]
  | case2 t h => rfl

theorem skipSlashes_leaves {t : List Char} (h : LeavesDir (skipSlashes t)) : LeavesDir t := by
  fun_induction skipSlashes t with
  | case1 t ih => exact .slash _ (ih h)
  | case2 t _ => exact h

/-- What the scanning loop keeps true of the output so far (seen from the front). -/
structure Clean (o : List Char) : Prop where
  dir : Dir o
  double : NoDouble o

theorem noDouble_prefix {a b : List Char} (h : NoDouble (a ++ b)) : NoDouble a := by
  intro x y e
  apply h x (y ++ b)
  rw [e]; simp

theorem takeWhile_free (t : List Char) : '/' ∉ (t.takeWhile (· ≠ '/')) := by
  intro h
  have := List.all_takeWhile (p := fun x => decide (x ≠ '/')) (l := t)
  rw [List.all_eq_true] at this
  have := this '/' h
  simp at this

theorem dropWhile_rdir (t : List Char) : RDir (t.dropWhile (· ≠ '/')) := by
  cases hr : t.dropWhile (· ≠ '/') with
  | nil => exact .inl rfl
  | cons c s =>
    right
    have := List.head?_dropWhile_not (fun x => decide (x ≠ '/')) t
    rw [hr] at this
    simpa using this

theorem scan_spec (out to : List Char) : Clean out.reverse → isAbs to = false →
    ((∀ c ∈ parts out.reverse, c ≠ ['.']) ∨ ¬ LeavesDir to) →
    resolve ((scan out to).1.reverse ++ (scan out to).2) = resolve (out.reverse ++ to) ∧
    isAbs (scan out to).2 = false ∧ Dir (scan out to).1.reverse := by
  fun_induction scan out to with
  | case1 out t ih =>
    intro hc ht hdot
    have hlv : (∀ c ∈ parts out.reverse, c ≠ ['.']) ∨ ¬ LeavesDir (skipSlashes t) := by
      rcases hdot with h | h
      · exact .inl h
      · right; intro hl; exact h (.here _ (skipSlashes_leaves hl))
    obtain ⟨i1, i2, i3⟩ := ih hc (skipSlashes_isAbs t) hlv
    refine ⟨?_, i2, i3⟩
    rw [i1, resolve_dir hc.dir (skipSlashes_isAbs t), resolve_dir hc.dir ht, skipSlashes_foldl]
    have e : parts ('.' :: '/' :: t) = ['.'] :: parts t := by
      rw [show '.' :: '/' :: t = ['.'] ++ '/' :: t from rfl, parts_slash]; rfl
    rw [e, List.foldl_cons, enter_dot]
  | case2 t => intro hc ht _; exact ⟨rfl, ht, hc.dir⟩
  | case3 out t h0 h1 => intro hc ht _; exact ⟨rfl, ht, hc.dir⟩
  | case4 out t h0 h1 ih =>
    intro hc ht hdot
    have hnd : ∀ c ∈ parts out.reverse, c ≠ ['.'] := by
      rcases hdot with h | h
      · exact h
      · exact absurd (.up t) h
    -- the output is `x/` for some x
    obtain ⟨x, hx⟩ : ∃ x, out = '/' :: x := by
      have := dir_rdir hc.dir
      rw [List.reverse_reverse] at this
      rcases this with h | h
      · exact absurd h h0
      · cases out with
        | nil => simp at h
        | cons a s => simp at h; exact ⟨s, by rw [h]⟩
    have eup : parts ('.' :: '.' :: '/' :: t) = ['.', '.'] :: parts t := by
      rw [show '.' :: '.' :: '/' :: t = ['.', '.'] ++ '/' :: t from rfl, parts_slash]; rfl
    by_cases h2 : 1 < out.length
    · have hbo : backOne out = backUp out := if_pos h2
      rw [hbo] at ih ⊢
      subst hx
      have hx0 : x ≠ [] := by rintro rfl; simp at h2
      let c := (x.takeWhile (· ≠ '/')).reverse
      let o := (x.dropWhile (· ≠ '/')).reverse
      have hb : (backUp ('/' :: x)).reverse = o := rfl
      have hO : ('/' :: x).reverse = o ++ c ++ ['/'] := by
        rw [List.reverse_cons, ← List.reverse_append, List.takeWhile_append_dropWhile]
      have hcf : '/' ∉ c := by
        intro h; exact takeWhile_free x (by simpa [c] using h)
      have hDo : Dir o := rdir_dir (dropWhile_rdir x)
      have hc0 : c ≠ [] := by
        intro hcn
        rw [hcn, List.append_nil] at hO
        rcases hDo with ho | ⟨a, ho⟩
        · rw [ho] at hO
          have := congrArg List.length hO
          simp at this
          exact hx0 this
        · rw [ho] at hO
          apply hc.double a []
          rw [hO]; simp
      have hcm : c ∈ parts ('/' :: x).reverse := by
        rw [hO]
        rcases hDo with ho | ⟨a, ho⟩
        · rw [ho, List.nil_append, show c ++ ['/'] = c ++ '/' :: [] from rfl, parts_slash, parts_free hcf]
          simp
        · rw [ho, show a ++ ['/'] ++ c ++ ['/'] = a ++ '/' :: (c ++ '/' :: []) by simp, parts_slash,
            parts_slash, parts_free hcf]
          simp
      have hc1 : c ≠ ['.'] := hnd c hcm
      have hc2 : c ≠ ['.', '.'] := by
        intro he
        have hxr : x = c.reverse ++ o.reverse := by
          simp only [c, o, List.reverse_reverse, List.takeWhile_append_dropWhile]
        rw [he] at hxr
        rw [hxr] at h1
        simp [endsUp] at h1
      have hclean : Clean o := ⟨hDo, by
        have := hc.double
        rw [hO, List.append_assoc] at this
        exact noDouble_prefix this⟩
      have hnd' : ∀ d ∈ parts o, d ≠ ['.'] := by
        intro d hd
        rcases hDo with ho | ⟨a, ho⟩
        · rw [ho] at hd; simp [parts] at hd; subst hd; simp
        · rw [ho, show a ++ ['/'] = a ++ '/' :: [] from rfl, parts_slash] at hd
          rcases List.mem_append.1 hd with hd | hd
          · apply hnd
            rw [hO, ho, show a ++ ['/'] ++ c ++ ['/'] = a ++ '/' :: (c ++ ['/']) by simp, parts_slash]
            exact List.mem_append_left _ hd
          · simp [parts] at hd; subst hd; simp
      obtain ⟨i1, i2, i3⟩ := ih (by rw [hb]; exact hclean) (skipSlashes_isAbs t)
        (.inl (by rw [hb]; exact hnd'))
      refine ⟨?_, i2, i3⟩
      rw [i1, hb, resolve_dir hDo (skipSlashes_isAbs t), skipSlashes_foldl, hO,
        resolve_dir (.inr ⟨_, rfl⟩) ht, eup, List.foldl_cons, collected_snoc _ hDo hcf]
      have hab : isAbs (o ++ c ++ ['/']) = isAbs o := by
        by_cases ho : o = []
        · rw [ho, List.nil_append, isAbs_append hc0, isAbs_free hcf]; rfl
        · rw [List.append_assoc, isAbs_append ho]
      rw [hab]
      have hpop : ∀ ns, enter (isAbs o) (enter (isAbs o) ns c) ['.', '.'] = ns := by
        intro ns
        simp only [enter, hc0, hc1, hc2, or_self, if_false]
        simp [hc2]
      rw [hpop]
    · have hbo : backOne out = out := if_neg h2
      rw [hbo] at ih ⊢
      have hx0 : x = [] := by
        rw [hx] at h2
        cases x with
        | nil => rfl
        | cons a b => simp at h2
      obtain ⟨i1, i2, i3⟩ := ih hc (skipSlashes_isAbs t) (.inl hnd)
      refine ⟨?_, i2, i3⟩
      rw [i1, resolve_dir hc.dir (skipSlashes_isAbs t), skipSlashes_foldl, resolve_dir hc.dir ht, eup,
        List.foldl_cons]
      have hroot : enter (isAbs out.reverse) (collected (isAbs out.reverse) out.reverse) ['.', '.'] =
          collected (isAbs out.reverse) out.reverse := by
        rw [hx, hx0]; decide
      rw [hroot]
  | case5 out to h1 h2 => intro hc ht _; exact ⟨rfl, ht, hc.dir⟩

theorem scan_length (out to : List Char) :
    (scan out to).1.length + (scan out to).2.length ≤ out.length + to.length := by
  fun_induction scan out to with
  | case1 out t ih =>
    have := skipSlashes_length t
    simp only [List.length_cons]; omega
  | case2 t => exact Nat.le_refl _
  | case3 out t h0 h1 => exact Nat.le_refl _
  | case4 out t h0 h1 ih =>
    have := skipSlashes_length t
    have hb : (backOne out).length ≤ out.length := by
      unfold backOne
      split
      · cases out with
        | nil => simp [backUp]
        | cons a s =>
          simp only [backUp, List.length_cons]
          have := (List.dropWhile_suffix (fun x : Char => decide (x ≠ '/')) (l := s)).length_le
          omega
      · exact Nat.le_refl _
    simp only [List.length_cons] at *; omega
  | case5 out to h1 h2 => exact Nat.le_refl _

theorem addSlash_length (r : List Char) : (addSlash r).length ≤ r.length + 1 := by
  fun_cases addSlash r <;> simp

end Verif.File
