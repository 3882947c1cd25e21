import Verif.Warnopt.Model
import Verif.Errwarn.Lemmas
import Mathlib.Data.List.Induction
/-
C103: the last option for a warning counts.
-/
namespace Verif.Warnopt
open Verif.Errwarn (Global warnSet enabled_iff bit_one bit warnEnable warnDisable warnDisableAll)

/-! ### Specification -/

/-- The classes of warnings that have a name, with the name. -/
inductive Named : Nat → Str → Prop
  | unrec : Named 2 "unrecognized-char".toList
  | orphan : Named 4 "orphan-labels".toList
  | uninit : Named 5 "uninit-contents".toList
  | size : Named 6 "size-override".toList
  | segreg : Named 8 "segreg-in-64bit".toList

/-- The warnings that are on at the start: all but orphan labels, size override and segment registers. -/
def startsOn (c : Nat) : Bool := c = 1 || c = 2 || c = 3 || c = 5 || c = 7

/-- An option turns the class on, or off, or says nothing about it. -/
def On (c : Nat) (o : Str) : Prop := ∃ n, Named c n ∧ o = 'W' :: n
def Off (c : Nat) (o : Str) : Prop := (∃ r, o = 'w' :: r) ∨ ∃ n, Named c n ∧ o = "Wno-".toList ++ n

/-- The class `c` is told after these options. -/
inductive Told (c : Nat) : List Str → Prop
  | start : startsOn c = true → Told c []
  | on {l o} : On c o → Told c (l ++ [o])
  | keep {l o} : ¬ Off c o → Told c l → Told c (l ++ [o])

/-- Warnings are errors after these options. -/
inductive Werror : List Str → Prop
  | on {l} : Werror (l ++ ["Werror".toList])
  | keep {l o} : o ≠ "Wno-error".toList → Werror l → Werror (l ++ [o])

/-! ### Lemmas -/

theorem enable_bit (g : Global) (c d : Nat) (h : c < 64) : (warnEnable g d).enabled.getLsbD c = (g.enabled.getLsbD c || decide (c = d)) := by
  unfold warnEnable
  rw [BitVec.getLsbD_or, bit_one]
  simp only [h, decide_true, Bool.true_and]

theorem disable_bit (g : Global) (c d : Nat) (h : c < 64) : (warnDisable g d).enabled.getLsbD c = (g.enabled.getLsbD c && !decide (c = d)) := by
  unfold warnDisable
  rw [BitVec.getLsbD_and, BitVec.getLsbD_not, bit_one]
  simp only [h, decide_true, Bool.true_and]

theorem all_bit (g : Global) (c : Nat) : (warnDisableAll g).enabled.getLsbD c = false := by
  simp [warnDisableAll]

theorem named_fun {c : Nat} {n m : Str} (h : Named c n) (h2 : Named c m) : n = m := by
  cases h <;> cases h2 <;> rfl

theorem named_inj {c d : Nat} {n : Str} (h : Named c n) (h2 : Named d n) : c = d := by
  generalize e : n = m at h2
  cases h <;> cases h2 <;> first | rfl | (exact absurd e (by decide))

/-- What a name does. -/
inductive Does (st : State) (on : Bool) : Str → Option State → Prop
  | err : Does st on "error".toList (some { st with werror := on })
  | cls {d n} : Named d n → Does st on n (some { st with g := action on st.g d })
  | none {n} : (∀ d, ¬ Named d n) → n ≠ "error".toList → Does st on n none

theorem does (st : State) (on : Bool) (n : Str) : Does st on n (byName st on n) := by
  unfold byName
  split
  · rename_i h
    subst h
    exact .none (by intro d h; cases h) (by decide)
  split
  · rename_i h; subst h; exact .err
  split
  · rename_i h; subst h; exact .cls .unrec
  split
  · rename_i h; subst h; exact .cls .orphan
  split
  · rename_i h; subst h; exact .cls .uninit
  split
  · rename_i h; subst h; exact .cls .size
  split
  · rename_i h; subst h; exact .cls .segreg
  · rename_i h0 h1 h2 h3 h4 h5 h6
    refine .none ?_ h1
    intro d h
    cases h
    · exact h2 rfl
    · exact h3 rfl
    · exact h4 rfl
    · exact h5 rfl
    · exact h6 rfl

theorem named_no {d : Nat} {n r : Str} (h : Named d n) (e : n = 'n' :: 'o' :: '-' :: r) : False := by
  cases h <;> (have := congrArg List.head? e; revert this; simp)

theorem prefix_cases (s : Str) : (∃ r, s = 'n' :: 'o' :: '-' :: r ∧ prefixNo s = (false, r)) ∨ ((∀ r, s ≠ 'n' :: 'o' :: '-' :: r) ∧ prefixNo s = (true, s)) := by
  unfold prefixNo
  split
  · exact .inl ⟨_, rfl, rfl⟩
  · rename_i h
    exact .inr ⟨fun r e => h r e, rfl⟩

theorem action_bit (on : Bool) (g : Global) (c d : Nat) (h : c < 64) :
    (action on g d).enabled.getLsbD c = if c = d then on else g.enabled.getLsbD c := by
  unfold action
  cases on with
  | true => rw [if_pos rfl, enable_bit _ _ _ h]; by_cases e : c = d <;> simp [e]
  | false => rw [if_neg (by simp), disable_bit _ _ _ h]; by_cases e : c = d <;> simp [e]

/-- One option: a class is on after it just if it turns it on, or was on and is not turned off. -/
theorem step_bit (st : State) (o : Str) (c : Nat) (h : c < 64) :
    (step st o).g.enabled.getLsbD c = true ↔ On c o ∨ (¬ Off c o ∧ st.g.enabled.getLsbD c = true) := by
  unfold step
  split
  · rename_i r
    have hoff : Off c ('w' :: r) := .inl ⟨r, rfl⟩
    have hon : ¬ On c ('w' :: r) := by
      rintro ⟨n, -, e⟩
      simp at e
    simp only [handler, if_true, Option.getD_some, all_bit, hon, hoff, not_true_eq_false, false_and, or_false, Bool.false_eq_true]
  · rename_i r
    have honr : On c ('W' :: r) ↔ Named c r := by
      constructor
      · rintro ⟨n, hn, e⟩
        rw [(List.cons.inj e).2]
        exact hn
      · exact fun hn => ⟨r, hn, rfl⟩
    have hoffr : Off c ('W' :: r) ↔ ∃ n, Named c n ∧ r = 'n' :: 'o' :: '-' :: n := by
      constructor
      · rintro (⟨_, e⟩ | ⟨n, hn, e⟩)
        · simp at e
        · exact ⟨n, hn, (List.cons.inj e).2⟩
      · rintro ⟨n, hn, rfl⟩
        exact .inr ⟨n, hn, rfl⟩
    rw [honr, hoffr]
    unfold handler
    rw [if_neg (by decide)]
    rw [List.drop_succ_cons, List.drop_zero]
    rcases prefix_cases r with ⟨r', rfl, hp⟩ | ⟨hno, hp⟩
    · rw [hp]
      simp only
      have hnn : ¬ Named c ('n' :: 'o' :: '-' :: r') := fun hn => named_no hn rfl
      have hex : (∃ n, Named c n ∧ 'n' :: 'o' :: '-' :: r' = 'n' :: 'o' :: '-' :: n) ↔ Named c r' := by
        constructor
        · rintro ⟨n, hn, e⟩
          simp at e
          rw [e]
          exact hn
        · exact fun hn => ⟨r', hn, rfl⟩
      rw [hex]
      simp only [hnn, false_or]
      generalize hb : byName st false r' = b
      have hd := does st false r'
      rw [hb] at hd
      cases hd with
      | err =>
        have : ¬ Named c "error".toList := by intro h; generalize e : "error".toList = m at h; cases h <;> exact absurd e (by decide)
        simp only [Option.getD_some, this, not_false_eq_true, true_and, false_or]
      | cls hn =>
        rename_i d
        rw [Option.getD_some]
        simp only
        rw [action_bit _ _ _ _ h]
        by_cases e : c = d
        · subst e; simp [hn]
        · have : ¬ Named c r' := fun h2 => e (named_inj h2 hn)
          simp [e, this]
      | none h1 h2 => simp [h1 c]
    · rw [hp]
      simp only
      have hex : ¬ ∃ n, Named c n ∧ r = 'n' :: 'o' :: '-' :: n := fun ⟨n, _, e⟩ => hno n e
      simp only [hex, not_false_eq_true, true_and]
      generalize hb : byName st true r = b
      have hd := does st true r
      rw [hb] at hd
      cases hd with
      | err =>
        have : ¬ Named c "error".toList := by intro h; generalize e : "error".toList = m at h; cases h <;> exact absurd e (by decide)
        simp only [Option.getD_some, this, not_false_eq_true, true_and, false_or]
      | cls hn =>
        rename_i d
        rw [Option.getD_some]
        simp only
        rw [action_bit _ _ _ _ h]
        by_cases e : c = d
        · subst e; simp [hn]
        · have : ¬ Named c r := fun h2 => e (named_inj h2 hn)
          simp [e, this]
      | none h1 h2 => simp [h1 c]
  · rename_i h1 h2
    have hon : ¬ On c o := by
      rintro ⟨n, -, e⟩
      exact h2 _ e
    have hoff : ¬ Off c o := by
      rintro (⟨r, e⟩ | ⟨n, -, e⟩)
      · exact h1 _ e
      · exact h2 _ e
    simp [hon, hoff]

theorem run_snoc (l : List Str) (o : Str) : run (l ++ [o]) = step (run l) o := by
  unfold run
  rw [List.foldl_append]
  rfl

theorem told_snoc (c : Nat) (l : List Str) (o : Str) : Told c (l ++ [o]) ↔ On c o ∨ (¬ Off c o ∧ Told c l) := by
  constructor
  · intro h
    generalize e : l ++ [o] = m at h
    cases h with
    | start => simp at e
    | on h =>
      obtain ⟨-, h2⟩ := List.append_inj' e rfl
      rw [(List.cons.inj h2).1]
      exact .inl h
    | keep h1 h2 =>
      obtain ⟨e1, e2⟩ := List.append_inj' e rfl
      rw [(List.cons.inj e2).1, e1]
      exact .inr ⟨h1, h2⟩
  · rintro (h | ⟨h1, h2⟩)
    · exact .on h
    · exact .keep h1 h2

/-! ### Theorems -/

/-- All sequences of options and all classes: the last option that names a class counts, `-w` naming all of them. -/
theorem last_counts (opts : List Str) (c : Nat) (hc : c < 64) : (run opts).g.enabled.getLsbD c = true ↔ Told c opts := by
  induction opts using List.reverseRecOn with
  | nil =>
    have : ∀ c : Fin 64, (run []).g.enabled.getLsbD c.val = startsOn c.val := by decide
    rw [this ⟨c, hc⟩]
    constructor
    · exact .start
    · intro h
      generalize e : ([] : List Str) = m at h
      cases h with
      | start h => exact h
      | on => simp at e
      | keep => simp at e
  | append_singleton l o ih => rw [run_snoc, step_bit _ _ _ hc, told_snoc, ih]

/-- What is seen: a warning is kept after the options just if its class is told. -/
theorem warning_kept_iff (opts : List Str) (c : Nat) (hc : c < 64) (msg : String) :
    (warnSet (run opts).g c msg).warns = (run opts).g.warns ++ [(c, msg)] ↔ Told c opts := by
  rw [← last_counts opts c hc]
  unfold warnSet
  split
  · rename_i h
    rw [enabled_iff _ _ hc] at h
    simp [h]
  · rename_i h
    rw [enabled_iff _ _ hc] at h
    simpa using h

/-- Warnings are errors just if the last of `-Werror` and `-Wno-error` is `-Werror`; `-w` does not change this. -/
theorem werror_iff (opts : List Str) : (run opts).werror = true ↔ Werror opts := by
  have hs : ∀ (st : State) (o : Str), (step st o).werror = true ↔ o = "Werror".toList ∨ (o ≠ "Wno-error".toList ∧ st.werror = true) := by
    intro st o
    unfold step
    split
    · rename_i r
      have h1 : 'w' :: r ≠ "Werror".toList := fun e => by exact absurd (List.cons.inj e).1 (by decide)
      have h2 : 'w' :: r ≠ "Wno-error".toList := fun e => by exact absurd (List.cons.inj e).1 (by decide)
      simp only [handler, if_true, Option.getD_some, h1, h2, false_or, ne_eq, not_false_eq_true, true_and]
    · rename_i r
      have e1 : 'W' :: r = "Werror".toList ↔ r = "error".toList := ⟨fun e => (List.cons.inj e).2, fun e => by rw [e]; rfl⟩
      have e2 : 'W' :: r = "Wno-error".toList ↔ r = 'n' :: 'o' :: '-' :: "error".toList := ⟨fun e => (List.cons.inj e).2, fun e => by rw [e]; rfl⟩
      rw [Ne, e1, e2]
      unfold handler
      rw [if_neg (by decide), List.drop_succ_cons, List.drop_zero]
      rcases prefix_cases r with ⟨r', rfl, hp⟩ | ⟨hno, hp⟩
      · rw [hp]
        simp only
        have n1 : ¬ 'n' :: 'o' :: '-' :: r' = "error".toList := fun e => by exact absurd (List.cons.inj e).1 (by decide)
        have n2 : 'n' :: 'o' :: '-' :: r' = 'n' :: 'o' :: '-' :: "error".toList ↔ r' = "error".toList := by simp
        rw [n2]
        simp only [n1, false_or]
        generalize hb : byName st false r' = b
        have hd := does st false r'
        rw [hb] at hd
        cases hd with
        | err => simp
        | cls hn =>
          have : r' ≠ "error".toList := by rintro rfl; generalize e : "error".toList = m at hn; cases hn <;> exact absurd e (by decide)
          rw [Option.getD_some]
          simp only [this, not_false_eq_true, true_and]
        | none h1 h2 => simp only [Option.getD_none, h2, not_false_eq_true, true_and]
      · rw [hp]
        simp only
        have n2 : ¬ r = 'n' :: 'o' :: '-' :: "error".toList := hno _
        simp only [n2, not_false_eq_true, true_and]
        generalize hb : byName st true r = b
        have hd := does st true r
        rw [hb] at hd
        cases hd with
        | err => simp
        | cls hn =>
          have : r ≠ "error".toList := by rintro rfl; generalize e : "error".toList = m at hn; cases hn <;> exact absurd e (by decide)
          rw [Option.getD_some]
          simp only [this, false_or]
        | none h1 h2 => simp only [Option.getD_none, h2, false_or]
    · rename_i h1 h2
      have e1 : o ≠ "Werror".toList := fun e => h2 _ e
      have e2 : o ≠ "Wno-error".toList := fun e => h2 _ e
      simp only [e1, e2, ne_eq, not_false_eq_true, true_and, false_or]
  induction opts using List.reverseRecOn with
  | nil =>
    constructor
    · intro h; exact absurd h (by decide)
    · intro h
      generalize e : ([] : List Str) = m at h
      cases h with
      | on => simp at e
      | keep => simp at e
  | append_singleton l o ih =>
    rw [run_snoc, hs]
    constructor
    · rintro (rfl | ⟨h1, h2⟩)
      · exact .on
      · exact .keep h1 (ih.1 h2)
    · intro h
      generalize e : l ++ [o] = m at h
      cases h with
      | on =>
        obtain ⟨-, h2⟩ := List.append_inj' e rfl
        exact .inl (List.cons.inj h2).1
      | keep h1 h2 =>
        obtain ⟨e1, e2⟩ := List.append_inj' e rfl
        rw [(List.cons.inj e2).1]
        exact .inr ⟨h1, ih.2 (by rw [e1]; exact h2)⟩

/-- `-Worphan-labels -Wno-size-override -w -Wuninit-contents -Werror`. -/
def opts : List Str := ["Worphan-labels".toList, "Wno-size-override".toList, "w".toList, "Wuninit-contents".toList, "Werror".toList]

theorem opts_ok : Told 5 opts ∧ ¬ Told 4 opts ∧ ¬ Told 1 opts ∧ Werror opts ∧ Told 1 [] := by
  refine ⟨?_, ?_, ?_, ?_, .start rfl⟩
  · rw [← last_counts _ _ (by decide)]; with_unfolding_all decide +kernel
  · rw [← last_counts _ _ (by decide)]; with_unfolding_all decide +kernel
  · rw [← last_counts _ _ (by decide)]; with_unfolding_all decide +kernel
  · exact .on (l := opts.take 4)

/-- Once `-w` has been given, no option turns the general warnings on again. -/
theorem general_off (l r : List Str) (t : Str) : ¬ Told 1 (l ++ ['w' :: t] ++ r) := by
  induction r using List.reverseRecOn with
  | nil =>
    rw [List.append_nil, told_snoc]
    rintro (⟨n, hn, -⟩ | ⟨h, -⟩)
    · cases hn
    · exact h (.inl ⟨t, rfl⟩)
  | append_singleton r o ih =>
    rw [← List.append_assoc, told_snoc]
    rintro (⟨n, hn, -⟩ | ⟨-, h⟩)
    · cases hn
    · exact ih h

end Verif.Warnopt
