import Verif.Param.Lemmas
/-
The values of `.set` symbols in lines: gas-preproc.c:1113-1153 `substitute_values`.  Symbols are given by a function; `%ld` writes a number in decimal.
-/
namespace Verif.Param
open Verif.Comment (Str isSpace)

/-- gas-preproc.c:1128: sprintf with "%ld". -/
def decimal (v : Int) : Str := (toString v).toList

/-- gas-preproc.c:1122-1145: the loop; `done` is the line up to the cursor. -/
def subst (val : Str → Option Int) : Nat → Str → Str → Str
  | 0, done, s => done ++ s
  | fuel + 1, done, s =>
    match scan s with
    | none => done ++ s
    | some (text, .id n, rest) =>
      match val n with
      | some v => subst val fuel ((done ++ text).take ((done ++ text).length - n.length) ++ decimal v) rest
      | none => subst val fuel (done ++ text) rest
    | some (text, _, rest) => subst val fuel (done ++ text) rest

/-- gas-preproc.c:1113-1153 `substitute_values`. -/
def substLine (val : Str → Option Int) (line : Str) : Str := subst val (line.length + 1) [] line

/-! ### Specification -/

/-- A line as words, decimal numbers and other characters. -/
inductive Piece where
  | word (n : Str)
  | num (n : Str)
  | other (s : Str)
  deriving DecidableEq, Repr

def Piece.text : Piece → Str
  | .word n => n
  | .num n => n
  | .other s => s

/-- Words with a value are replaced by it. -/
def Piece.mean (val : Str → Option Int) : Piece → Str
  | .word n => match val n with | some v => decimal v | none => n
  | .num n => n
  | .other s => s

def text (ps : List Piece) : Str := ps.flatMap Piece.text
def mean (val : Str → Option Int) (ps : List Piece) : Str := ps.flatMap (Piece.mean val)

/-- Words are letters, digits and some signs, and end where these do; a word that starts with a percent sign (a register) has more than that; numbers
    are decimal; other characters are not in words or numbers. -/
def PiecesOk : List Piece → Prop
  | [] => True
  | .word n :: ps => (∃ c r, n = c :: r ∧ isFirst c = true ∧ r.all isNext = true ∧ (c = '%' → r ≠ [])) ∧
      (∀ c, (text ps).head? = some c → isNext c = false) ∧ PiecesOk ps
  | .num n :: ps => (∃ c r, n = c :: r ∧ n.all Char.isDigit = true) ∧ (∀ c, (text ps).head? = some c → c.isDigit = false ∧ c ≠ 'x') ∧ PiecesOk ps
  | .other s :: ps => s.all (fun c => !isFirst c && !c.isDigit) = true ∧ PiecesOk ps

/-! ### Lemmas -/

/-- What other characters are followed by. -/
def Edge (w : Str) : Prop := ∀ x, w.head? = some x → (isFirst x = true ∨ x.isDigit = true)

theorem op_edge (c x : Char) (hc : isFirst c = false) (hx : isFirst x = true ∨ x.isDigit = true) (h : [c, x] ∈ ops) : False := by
  simp only [ops, List.map_cons, List.map_nil, List.mem_cons, List.not_mem_nil, or_false] at h
  rcases h with h | h | h | h | h | h | h | h | h | h | h | h
  all_goals
    have h1 : some c = _ := congrArg List.head? h
    have h2 : some x = _ := congrArg (fun l => (List.tail l).head?) h
    have h1 := Option.some.inj h1
    have h2 := Option.some.inj h2
    subst h1
    subst h2
    revert hc hx
    decide

theorem tok_other (c : Char) (r w : Str) (hf : isFirst c = false) (hd : c.isDigit = false) (hw : Edge w) :
    (tok c (r ++ w)).2 ≤ r.length ∧ ∀ n, (tok c (r ++ w)).1 ≠ .id n := by
  unfold tok
  rw [if_neg (by simp [hd])]
  split
  · rename_i h
    refine ⟨?_, by simp⟩
    cases r with
    | nil =>
      exfalso
      rw [List.nil_append, List.contains_iff_mem] at h
      cases w with
      | nil =>
        simp only [List.take_nil, ops, List.map_cons, List.map_nil] at h
        revert h
        simp
      | cons x w => exact op_edge c x hf (hw x rfl) h
    | cons d r => simp
  · rw [if_neg (by simp [hf])]
    simp

theorem subst_other (val : Str → Option Int) (n : Nat) : ∀ (a : Str), a.length ≤ n → a.all (fun c => !isFirst c && !c.isDigit) = true →
    ∀ (w done : Str) (fuel : Nat), Edge w → (a ++ w).length < fuel → ∃ fuel' a1 a2, a = a1 ++ a2 ∧ (∀ c ∈ a2, isSpace c = true) ∧ (a2 ++ w).length < fuel' ∧
      subst val fuel done (a ++ w) = subst val fuel' (done ++ a1) (a2 ++ w) := by
  induction n with
  | zero =>
    intro a ha _ w done fuel _ hf
    obtain rfl := List.length_eq_zero_iff.1 (Nat.le_zero.1 ha)
    exact ⟨fuel, [], [], rfl, by simp, hf, by simp⟩
  | succ n ih =>
    intro a ha hp w done fuel hw hf
    cases hd : a.dropWhile isSpace with
    | nil => exact ⟨fuel, [], a, rfl, spaces_of hd, hf, by simp⟩
    | cons c r =>
      obtain ⟨fuel, rfl⟩ : ∃ k, fuel = k + 1 := ⟨fuel - 1, by omega⟩
      have ea : a = a.takeWhile isSpace ++ c :: r := by rw [← hd, split_space]
      have hc : isSpace c = false := by
        have := List.head?_dropWhile_not isSpace a
        rw [hd] at this
        simpa using this
      have hsp : ∀ d ∈ a.takeWhile isSpace, isSpace d = true := fun d h => by
        have := List.all_takeWhile (p := isSpace) (l := a)
        exact List.all_eq_true.1 this d h
      have hpc := List.all_eq_true.1 hp c (by rw [ea]; simp)
      simp only [Bool.and_eq_true, Bool.not_eq_true'] at hpc
      obtain ⟨hk, hid⟩ := tok_other c r w hpc.1 hpc.2 hw
      have hs : scan (a ++ w) = some (a.takeWhile isSpace ++ c :: r.take (tok c (r ++ w)).2, (tok c (r ++ w)).1, r.drop (tok c (r ++ w)).2 ++ w) := by
        unfold scan
        have e2 : a ++ w = a.takeWhile isSpace ++ c :: (r ++ w) := by
          conv => lhs; rw [ea]
          simp
        rw [e2]
        have := takeWhile_app _ (r ++ w) hsp c hc
        rw [this.1, this.2]
        simp only
        rw [List.take_append_of_le_length hk, List.drop_append_of_le_length hk]
      have hlen : a.length = (a.takeWhile isSpace).length + (r.length + 1) := by
        conv => lhs; rw [ea]
        simp
      obtain ⟨fuel', a1, a2, h1, h2, h3, h4⟩ := ih (r.drop (tok c (r ++ w)).2) (by rw [List.length_drop]; omega)
        (List.all_eq_true.2 fun d h => List.all_eq_true.1 hp d (by rw [ea]; exact List.mem_append_right _ (List.mem_cons_of_mem _ (List.mem_of_mem_drop h)))) w
        (done ++ (a.takeWhile isSpace ++ c :: r.take (tok c (r ++ w)).2)) fuel hw (by simp at hf ⊢; omega)
      refine ⟨fuel', a.takeWhile isSpace ++ c :: r.take (tok c (r ++ w)).2 ++ a1, a2, ?_, h2, h3, ?_⟩
      · rw [List.append_assoc, ← h1, List.append_assoc, List.cons_append, List.take_append_drop, ← ea]
      · rw [← List.append_assoc done, ← h4]
        rw [subst, hs]
        generalize (tok c (r ++ w)).1 = tk at hid
        cases tk with
        | id n => exact absurd rfl (hid n)
        | num => rfl
        | op => rfl
        | chr c => rfl

theorem not_space {c : Char} (h : isFirst c = true ∨ c.isDigit = true) : isSpace c = false := by
  by_contra hs
  simp only [isSpace, Bool.not_eq_false, Bool.or_eq_true, decide_eq_true_eq] at hs
  rcases hs with ((((rfl | rfl) | rfl) | rfl) | rfl) | rfl <;> revert h <;> decide

theorem tok_word (c : Char) (r t : Str) (hc : isFirst c = true) (hr : r.all isNext = true) (hp : c = '%' → r ≠ [])
    (ht : ∀ c, t.head? = some c → isNext c = false) : tok c (r ++ t) = (.id (c :: r), r.length) := by
  have hdg : c.isDigit = false := by
    by_contra h
    simp only [Bool.not_eq_false] at h
    simp only [isFirst, Bool.or_eq_true, decide_eq_true_eq] at hc
    rcases hc with ((hc | rfl) | rfl) | rfl
    · simp only [Char.isDigit, Char.isAlpha, Char.isUpper, Char.isLower, Bool.and_eq_true, Bool.or_eq_true, decide_eq_true_eq, ge_iff_le, UInt32.le_iff_toNat_le] at h hc
      simp at h hc
      omega
    all_goals revert h; decide
  have hop : ops.contains (c :: (r ++ t).take 1) = false := by
    by_contra h
    simp only [Bool.not_eq_false, List.contains_iff_mem, ops, List.map_cons, List.map_nil, List.mem_cons, List.not_mem_nil, or_false] at h
    have h2 : c = '%' ∧ (r ++ t).take 1 = ['%'] := by
      rcases h with h | h | h | h | h | h | h | h | h | h | h | h
      case inr.inr.inr.inl => exact List.cons.inj (show c :: (r ++ t).take 1 = ['%', '%'] from h)
      all_goals
        exfalso
        have e := congrArg List.head? h
        simp only [List.head?_cons] at e
        have e := Option.some.inj e
        subst e
        revert hc
        decide
    cases r with
    | nil => exact hp h2.1 rfl
    | cons d r =>
      obtain rfl : d = '%' := by simpa using h2.2
      rw [List.all_cons, Bool.and_eq_true] at hr
      revert hr
      rw [show isNext '%' = false by decide]
      simp
  unfold tok
  rw [if_neg (by simp [hdg]), hop, if_neg (by decide), if_pos hc, takeWhile_next r t hr ht]

theorem takeWhile_digits (r t : Str) (hr : r.all Char.isDigit = true) (ht : ∀ c, t.head? = some c → c.isDigit = false) : (r ++ t).takeWhile Char.isDigit = r := by
  induction r with
  | nil =>
    cases t with
    | nil => rfl
    | cons c t => rw [List.nil_append, List.takeWhile_cons, if_neg (by rw [ht c rfl]; decide)]
  | cons c r ih =>
    rw [List.all_cons, Bool.and_eq_true] at hr
    rw [List.cons_append, List.takeWhile_cons, if_pos hr.1, ih hr.2]

theorem tok_num (c : Char) (r t : Str) (hn : (c :: r).all Char.isDigit = true) (ht : ∀ c, t.head? = some c → c.isDigit = false ∧ c ≠ 'x') :
    tok c (r ++ t) = (.num, r.length) := by
  rw [List.all_cons, Bool.and_eq_true] at hn
  unfold tok
  rw [if_pos hn.1, if_neg, takeWhile_digits r t hn.2 fun c h => (ht c h).1]
  rintro ⟨_, h⟩
  cases r with
  | nil => exact (ht 'x' h).2 rfl
  | cons d r =>
    obtain rfl : d = 'x' := by simpa using h
    rw [List.all_cons, Bool.and_eq_true] at hn
    exact absurd hn.2.1 (by decide)

theorem scan_at (a2 : Str) (h : ∀ c ∈ a2, isSpace c = true) (c : Char) (s : Str) (hc : isSpace c = false) :
    scan (a2 ++ c :: s) = some (a2 ++ c :: s.take (tok c s).2, (tok c s).1, s.drop (tok c s).2) := by
  unfold scan
  have := takeWhile_app a2 s h c hc
  rw [this.1, this.2]

theorem subst_pieces (val : Str → Option Int) (ps : List Piece) (h : PiecesOk ps) (a done : Str) (ha : a.all (fun c => !isFirst c && !c.isDigit) = true)
    (fuel : Nat) (hf : (a ++ text ps).length < fuel) : subst val fuel done (a ++ text ps) = done ++ (a ++ mean val ps) := by
  induction ps generalizing a done fuel with
  | nil =>
    have e : text [] = [] := rfl
    rw [e] at hf ⊢
    obtain ⟨fuel', a1, a2, h1, h2, h3, h4⟩ := subst_other val a.length a (Nat.le_refl _) ha [] done fuel (by simp [Edge]) hf
    rw [h4]
    have hb : scan (a2 ++ []) = none := scan_blank _ (by rw [List.dropWhile_append_of_pos h2]; rfl)
    cases fuel' with
    | zero => omega
    | succ k =>
      rw [subst, hb, h1]
      simp [mean]
  | cons p ps ih =>
    have e : text (p :: ps) = p.text ++ text ps := rfl
    have em : mean val (p :: ps) = p.mean val ++ mean val ps := rfl
    rw [e] at hf ⊢
    rw [em]
    cases p with
    | other s =>
      have := ih h.2 (a ++ s) done (by rw [List.all_append, ha, h.1]; rfl) fuel (by simpa [Piece.text] using hf)
      simpa [Piece.text, Piece.mean] using this
    | word n =>
      obtain ⟨⟨c, r, rfl, hc, hr, hp⟩, hh, hps⟩ := h
      simp only [Piece.text] at hf ⊢
      obtain ⟨fuel', a1, a2, h1, h2, h3, h4⟩ := subst_other val a.length a (Nat.le_refl _) ha (c :: r ++ text ps) done fuel
        (by intro x hx; obtain rfl : c = x := by simpa using hx
            exact .inl hc) hf
      rw [h4]
      obtain ⟨k, rfl⟩ : ∃ k, fuel' = k + 1 := ⟨fuel' - 1, by omega⟩
      have hs := scan_at a2 h2 c (r ++ text ps) (not_space (.inl hc))
      rw [tok_word c r (text ps) hc hr hp hh] at hs
      simp only [List.take_left', List.drop_left'] at hs
      rw [List.cons_append, subst, hs]
      simp only
      have hk : ([] ++ text ps).length < k := by simp at h3 ⊢; omega
      cases hv : val (c :: r) with
      | none =>
        simp only
        have := ih hps [] (done ++ a1 ++ (a2 ++ c :: r)) rfl k hk
        rw [List.nil_append, List.nil_append] at this
        rw [this, h1]
        simp [Piece.mean, hv]
      | some v =>
        simp only
        have et : (done ++ a1 ++ (a2 ++ c :: r)).take ((done ++ a1 ++ (a2 ++ c :: r)).length - (c :: r).length) = done ++ a1 ++ a2 := by
          rw [← List.append_assoc (done ++ a1) a2]
          apply List.take_left'
          rw [List.length_append (as := done ++ a1 ++ a2)]
          omega
        rw [et]
        have := ih hps [] (done ++ a1 ++ a2 ++ decimal v) rfl k hk
        rw [List.nil_append, List.nil_append] at this
        rw [this, h1]
        simp [Piece.mean, hv]
    | num n =>
      obtain ⟨⟨c, r, rfl, hn⟩, hh, hps⟩ := h
      have hc : c.isDigit = true := by
        rw [List.all_cons, Bool.and_eq_true] at hn
        exact hn.1
      simp only [Piece.text] at hf ⊢
      obtain ⟨fuel', a1, a2, h1, h2, h3, h4⟩ := subst_other val a.length a (Nat.le_refl _) ha (c :: r ++ text ps) done fuel
        (by intro x hx; obtain rfl : c = x := by simpa using hx
            exact .inr hc) hf
      rw [h4]
      obtain ⟨k, rfl⟩ : ∃ k, fuel' = k + 1 := ⟨fuel' - 1, by omega⟩
      have hs := scan_at a2 h2 c (r ++ text ps) (not_space (.inr hc))
      rw [tok_num c r (text ps) hn hh] at hs
      simp only [List.take_left', List.drop_left'] at hs
      rw [List.cons_append, subst, hs]
      simp only
      have hk : ([] ++ text ps).length < k := by simp at h3 ⊢; omega
      have := ih hps [] (done ++ a1 ++ (a2 ++ c :: r)) rfl k hk
      rw [List.nil_append, List.nil_append] at this
      rw [this, h1]
      simp [Piece.mean]

end Verif.Param
