import Verif.Pp.SmacLemmas
import Mathlib.Data.List.Nodup
import Mathlib.Data.List.Perm.Subperm
/-
More about single-line macros: whole lines, and macros without parameters.
-/
namespace Verif.Pp

theorem expandAgain_mono (T : SMacs) : ∀ (n : Nat) (b : List Nat) (e : List SErr) (l : List Tok) (x : SOut),
    expandAgain T n b e l = x → x ≠ .running → ∀ k, n ≤ k → expandAgain T k b e l = x
  | 0, b, e, l, x, h, hx, _, _ => by rw [expandAgain] at h; exact absurd h.symm hx
  | n + 1, b, e, l, x, h, hx, k, hk => by
    obtain ⟨k, rfl⟩ : ∃ j, k = j + 1 := ⟨k - 1, by omega⟩
    rw [expandAgain] at h ⊢
    cases hm : mainLoop T n ⟨b, l.map .tok, [], e⟩ with
    | none => rw [hm] at h; exact absurd h.symm hx
    | some y =>
      rw [hm] at h
      rw [mainLoop_mono T n _ y hm k (by omega)]
      cases y with
      | none => exact h
      | some s =>
        simp only at h ⊢
        split
        · rename_i hg
          rw [if_pos hg] at h
          exact expandAgain_mono T n _ _ _ x h hx k (by omega)
        · rename_i hg
          rw [if_neg hg] at h
          exact h

theorem becomes_expand (T : SMacs) {l r : List Tok} (h : Becomes T l r) :
    ∃ n, ∀ k, n ≤ k → expandAgain T k [] [] l = .line r [] := by
  induction h with
  | done l r x hE hJ =>
    obtain ⟨n, hn⟩ := mainLoop_turns T (by have := expands_turns T true [] l r hE [] [] [] (fun _ => rfl); simpa using this) rfl
    refine ⟨n + 1, fun k hk => ?_⟩
    obtain ⟨k, rfl⟩ : ∃ j, k = j + 1 := ⟨k - 1, by omega⟩
    rw [expandAgain, hn k (by omega)]
    simp only [glue_joined hJ _ (Nat.le_refl _), Bool.false_eq_true, ↓reduceIte]
  | again l r x y hE hJ _ ih =>
    obtain ⟨n, hn⟩ := mainLoop_turns T (by have := expands_turns T true [] l r hE [] [] [] (fun _ => rfl); simpa using this) rfl
    obtain ⟨j, hj⟩ := ih
    refine ⟨n + j + 1, fun k hk => ?_⟩
    obtain ⟨k, rfl⟩ : ∃ j, k = j + 1 := ⟨k - 1, by omega⟩
    rw [expandAgain, hn k (by omega)]
    simp only [glue_joined hJ _ (Nat.le_refl _), ↓reduceIte]
    exact hj k (by omega)

/-- Every macro is one of the first `N` and has no parameters. -/
def Plain (N : Nat) (T : SMacs) : Prop := ∀ t m, m ∈ T.cands t → m < N ∧ (T.mac m).nparam = 0

theorem plain_expands (N : Nat) (T : SMacs) (hT : Plain N T) : ∀ (d : Nat) (busy : List Nat), busy.Nodup → (∀ m ∈ busy, m < N) →
    N ≤ busy.length + d → ∀ (l : List Tok) (top : Bool), ∃ r, Expands T top busy l r := by
  intro d
  induction d with
  | zero =>
    intro busy hn hb hd l
    induction l with
    | nil => exact fun top => ⟨[], .nil _ _⟩
    | cons t l ih =>
      intro top
      obtain ⟨r, hr⟩ := ih top
      by_cases hw : t.ty = .white
      · exact ⟨t :: r, .other _ _ _ _ _ (Or.inl hw) hr⟩
      · cases hc : T.cands t with
        | nil => exact ⟨t :: r, .other _ _ _ _ _ (Or.inr hc) hr⟩
        | cons m ms =>
          have hm := hT t m (by rw [hc]; exact List.mem_cons_self)
          have hmem : m ∈ busy := by
            have hs : busy ⊆ List.range N := fun x hx => List.mem_range.mpr (hb x hx)
            have := (List.subperm_of_subset hn hs).perm_of_length_le (by rw [List.length_range]; omega)
            exact this.mem_iff.mpr (List.mem_range.mpr hm.1)
          by_cases hbody : (T.mac m).body = []
          · exact ⟨r, .empty _ _ _ _ _ m ms hw hc hm.2 hbody hr⟩
          · exact ⟨t :: r, .own _ _ _ _ _ m ms hw hc hm.2 hbody hmem hr⟩
  | succ d ihd =>
    intro busy hn hb hd l
    induction l with
    | nil => exact fun top => ⟨[], .nil _ _⟩
    | cons t l ih =>
      intro top
      obtain ⟨r, hr⟩ := ih top
      by_cases hw : t.ty = .white
      · exact ⟨t :: r, .other _ _ _ _ _ (Or.inl hw) hr⟩
      · cases hc : T.cands t with
        | nil => exact ⟨t :: r, .other _ _ _ _ _ (Or.inr hc) hr⟩
        | cons m ms =>
          have hm := hT t m (by rw [hc]; exact List.mem_cons_self)
          by_cases hbody : (T.mac m).body = []
          · exact ⟨r, .empty _ _ _ _ _ m ms hw hc hm.2 hbody hr⟩
          · by_cases hmem : m ∈ busy
            · exact ⟨t :: r, .own _ _ _ _ _ m ms hw hc hm.2 hbody hmem hr⟩
            · obtain ⟨r1, hr1⟩ := ihd (m :: busy) (List.nodup_cons.mpr ⟨hmem, hn⟩)
                (by intro x hx
                    rcases List.mem_cons.mp hx with rfl | hx
                    · exact hm.1
                    · exact hb x hx)
                (by rw [List.length_cons]; omega) (fill [] (T.mac m).body) false
              exact ⟨r1 ++ r, .simple _ _ _ _ _ _ m ms hw hc hm.2 hbody hmem hr1 hr⟩

/-- No name is followed by what would join it. -/
def apart : List Tok → Bool
  | [] => true
  | [_] => true
  | t :: u :: r => !(t.word && u.joins) && apart (u :: r)

theorem apart_cons (t : Tok) (r : List Tok) (h : ∀ u, r.head? = some u → (t.word && u.joins) = false) (hr : apart r = true) :
    apart (t :: r) = true := by
  cases r with
  | nil => rfl
  | cons u r => simp [apart, hr, h u rfl]

theorem joined_head {l r : List Tok} {b : Bool} (h : Joined l r b) : ∀ t, l.head? = some t →
    ∃ u, r.head? = some u ∧ u.ty = t.ty := by
  induction h with
  | nil => intro t h; simp at h
  | lone t => intro t' h; simp at h; subst h; exact ⟨t, rfl, rfl⟩
  | join t u l r b _ _ _ ih => intro t' h; simp at h; subst h; exact ih ⟨t.ty, t.text ++ u.text⟩ rfl
  | plus t u v l r b _ _ _ _ _ ih => intro t' h; simp at h; subst h; exact ih _ rfl
  | plusWhite t u v w l r b _ _ _ _ _ ih => intro t' h; simp at h; subst h; exact ih _ rfl
  | keep t u l r b _ _ _ => intro t' h; simp at h; subst h; exact ⟨t, rfl, rfl⟩

theorem joined_apart {l r : List Tok} {b : Bool} (h : Joined l r b) : apart r = true := by
  induction h with
  | nil => rfl
  | lone t => rfl
  | join t u l r b _ _ _ ih => exact ih
  | plus t u v l r b _ _ _ _ _ ih => exact ih
  | plusWhite t u v w l r b _ _ _ _ _ ih => exact ih
  | keep t u l r b hk hj ih =>
    refine apart_cons t r ?_ ih
    intro x hx
    obtain ⟨y, hy, hty⟩ := joined_head hj u rfl
    rw [hx] at hy
    cases hy
    by_cases ht : t.word = true
    · have hu := (hk ht).1
      have : x.joins = u.joins := by simp [Tok.joins, Tok.word, hty]
      rw [this, hu]; simp
    · simp [ht]

theorem joined_total : ∀ (n : Nat) (l : List Tok), l.length ≤ n → ∃ r b, Joined l r b
  | _, [], _ => ⟨_, _, .nil⟩
  | _, [t], _ => ⟨_, _, .lone t⟩
  | 0, t :: u :: l, h => by simp at h
  | n + 1, t :: u :: l, h => by
    simp only [List.length_cons] at h
    have keep : (t.word = true → u.joins = false ∧ (u.ty = .white → l.head? ≠ some ⟨.ppid, [37, 43]⟩)) →
        ∃ r b, Joined (t :: u :: l) r b := by
      intro hk
      obtain ⟨r, b, hj⟩ := joined_total n (u :: l) (by simp only [List.length_cons]; omega)
      exact ⟨_, _, .keep t u l r b hk hj⟩
    by_cases ht : t.word = true
    · by_cases hu : u.joins = true
      · obtain ⟨r, b, hj⟩ := joined_total n (⟨t.ty, t.text ++ u.text⟩ :: l) (by simp only [List.length_cons]; omega)
        exact ⟨_, _, .join t u l r b ht hu hj⟩
      · by_cases hp : u.ty = .white ∧ l.head? = some ⟨.ppid, [37, 43]⟩
        · obtain ⟨hw, hl⟩ := hp
          cases l with
          | nil => simp at hl
          | cons v l =>
            have hv : v = ⟨.ppid, [37, 43]⟩ := by simpa using hl
            simp only [List.length_cons] at h
            cases l with
            | nil =>
              obtain ⟨r, b, hj⟩ := joined_total n [t] (by simp only [List.length_cons, List.length_nil]; omega)
              exact ⟨_, _, .plus t u v [] r b ht hw hv (by simp) hj⟩
            | cons w l =>
              simp only [List.length_cons] at h
              by_cases hww : w.ty = .white
              · obtain ⟨r, b, hj⟩ := joined_total n (t :: l) (by simp only [List.length_cons]; omega)
                exact ⟨_, _, .plusWhite t u v w l r b ht hw hv hww hj⟩
              · obtain ⟨r, b, hj⟩ := joined_total n (t :: w :: l) (by simp only [List.length_cons]; omega)
                exact ⟨_, _, .plus t u v (w :: l) r b ht hw hv (by intro x hx; simp at hx; subst hx; exact hww) hj⟩
        · exact keep (fun _ => ⟨by simpa using hu, fun a b => hp ⟨a, b⟩⟩)
    · exact keep (fun h => absurd h ht)

end Verif.Pp
