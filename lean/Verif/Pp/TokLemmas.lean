import Verif.Pp.TokSpec
import Verif.Pp.Lookup
import Mathlib.Tactic.IntervalCases
/-
Lemmas on arguments and references.
-/
namespace Verif.Pp

/-! ## Decimal numbers -/

theorem decF_digit : ∀ f n, ∀ c ∈ decF f n, 48 ≤ c ∧ c ≤ 57
  | 0, n, c, h => by simp [decF] at h
  | f + 1, n, c, h => by
    simp only [decF] at h
    split at h
    · simp at h; omega
    · rw [List.mem_append] at h
      rcases h with h | h
      · exact decF_digit f _ c h
      · simp at h; omega

theorem digitsVal_append : ∀ (a : Name) (acc d : Nat), (∀ c ∈ a, 48 ≤ c ∧ c ≤ 57) → d < 10 →
    digitsVal acc (a ++ [48 + d]) = digitsVal acc a * 10 + d
  | [], acc, d, _, hd => by
    have : (48 ≤ 48 + d ∧ 48 + d ≤ 57) := by omega
    simp only [List.nil_append, digitsVal, if_pos this]; omega
  | c :: a, acc, d, h, hd => by
    have hc := h c (by simp)
    simp only [List.cons_append, digitsVal, if_pos hc]
    exact digitsVal_append a _ d (fun x hx => h x (by simp [hx])) hd

theorem decF_val : ∀ f n, n < f → digitsVal 0 (decF f n) = n
  | 0, n, h => by omega
  | f + 1, n, h => by
    simp only [decF]
    split
    · have : (48 ≤ 48 + n ∧ 48 + n ≤ 57) := by omega
      simp only [digitsVal, if_pos this]; omega
    · rw [digitsVal_append _ _ _ (decF_digit _ _) (by omega), decF_val f (n / 10) (by omega)]; omega

theorem decF_head : ∀ f n, n < f → 1 ≤ n → ∃ d r, decF f n = d :: r ∧ 49 ≤ d ∧ d ≤ 57
  | 0, n, h, _ => by omega
  | f + 1, n, h, h1 => by
    simp only [decF]
    split
    · exact ⟨_, _, rfl, by omega, by omega⟩
    · obtain ⟨d, r, e, h2⟩ := decF_head f (n / 10) (by omega) (by omega)
      exact ⟨d, r ++ [48 + n % 10], by rw [e]; rfl, h2⟩

theorem dec_digit (n : Nat) : ∀ c ∈ dec n, 48 ≤ c ∧ c ≤ 57 := decF_digit _ _

theorem dec_val (n : Nat) : digitsVal 0 (dec n) = n := decF_val _ _ (by omega)

theorem dec_head (n : Nat) (h : 1 ≤ n) : ∃ d r, dec n = d :: r ∧ 49 ≤ d ∧ d ≤ 57 :=
  decF_head _ _ (by omega) h

theorem atoi_dec (n : Nat) (h : 1 ≤ n) : atoi (dec n) = n := by
  obtain ⟨d, r, e, h1, h2⟩ := dec_head n h
  have hv := dec_val n
  unfold atoi
  rw [e] at hv ⊢
  have hw : decide (d = 32 ∨ (9 ≤ d ∧ d ≤ 13)) = false := by simp; omega
  rw [List.dropWhile_cons, hw]
  simp only [Bool.false_eq_true, ↓reduceIte]
  split
  · rename_i h3; cases h3; omega
  · rename_i h3; cases h3; omega
  · rw [hv]

/-- A run of digits before a point can be told from what follows. -/
theorem digits_split : ∀ (a b x y : Name), (∀ c ∈ a, 48 ≤ c ∧ c ≤ 57) → (∀ c ∈ b, 48 ≤ c ∧ c ≤ 57) →
    a ++ 46 :: x = b ++ 46 :: y → a = b ∧ x = y
  | [], [], x, y, _, _, h => by simpa using h
  | [], b :: bs, x, y, _, hb, h => by
    have := hb b (by simp)
    simp only [List.nil_append, List.cons_append, List.cons.injEq] at h; omega
  | a :: as, [], x, y, ha, _, h => by
    have := ha a (by simp)
    simp only [List.nil_append, List.cons_append, List.cons.injEq] at h; omega
  | a :: as, b :: bs, x, y, ha, hb, h => by
    simp only [List.cons_append, List.cons.injEq] at h
    obtain ⟨h1, h2⟩ := digits_split as bs x y (fun c hc => ha c (by simp [hc]))
      (fun c hc => hb c (by simp [hc])) h.2
    exact ⟨by rw [h.1, h1], h2⟩

theorem dec_inj {m n : Nat} (h : dec m = dec n) : m = n := by
  rw [← dec_val m, h, dec_val]

/-! ## Marking off -/

theorem skipWhite_space (w : Option Name) (t : Tok) (r : List Tok) (h : t.ty ≠ .white) :
    skipWhite (space w ++ t :: r) = t :: r := by
  cases w <;> simp [space, skipWhite, h]

theorem is_eq (c : Nat) (t : Tok) : t.is c = true ↔ t = ⟨.other, [c]⟩ := by
  cases t; simp [Tok.is]

theorem white_is (c : Nat) (t : Tok) (h : t.ty = .white) : t.is c = false := by
  simp [Tok.is, h]

theorem dropWhile_upto (c : Nat) : ∀ (ts r : List Tok), (⟨.other, [c]⟩ : Tok) ∉ ts →
    (ts ++ ⟨.other, [c]⟩ :: r).dropWhile (fun t => !t.is c) = ⟨.other, [c]⟩ :: r
  | [], r, _ => by simp [List.dropWhile_cons, Tok.is]
  | t :: ts, r, h => by
    have ht : t.is c = false := by
      by_contra hc
      have := (is_eq c t).1 (by simpa using hc)
      simp [this] at h
    rw [List.cons_append, List.dropWhile_cons]
    simp only [ht, Bool.not_false, if_true]
    exact dropWhile_upto c ts r (by simp at h; exact h.2)

theorem dropWhile_none (c : Nat) : ∀ (ts : List Tok), (⟨.other, [c]⟩ : Tok) ∉ ts →
    ts.dropWhile (fun t => !t.is c) = []
  | [], _ => rfl
  | t :: ts, h => by
    have ht : t.is c = false := by
      by_contra hc
      have := (is_eq c t).1 (by simpa using hc)
      simp [this] at h
    rw [List.dropWhile_cons]
    simp only [ht, Bool.not_false, if_true]
    exact dropWhile_none c ts (by simp at h; exact h.2)

theorem space_not (c : Nat) (w : Option Name) : (⟨.other, [c]⟩ : Tok) ∉ space w := by
  cases w <;> simp [space]

/-- The first tokens of an argument. -/
theorem toks_head {a : Written} (h : a.ok) : ∃ t r, a.toks = t :: r ∧ t.ty ≠ .white := by
  cases a with
  | plain ts => obtain ⟨_, ⟨t, r, e, h1, _⟩, _⟩ := h; exact ⟨t, r, e, h1⟩
  | braced ts => exact ⟨_, _, rfl, by simp [open']⟩

/-- What the marking of one argument leaves for the next. -/
theorem marks_more (n : Nat) (s : Spaced) (hs : s.arg.ok) (R : List Tok) :
    marks (n + 1) (space s.before ++ (s.arg.toks ++ (space s.after ++ comma :: R))) =
      ⟨s.arg.toks ++ (space s.after ++ comma :: R), 0⟩ :: marks n R := by
  obtain ⟨t, r, e, ht⟩ := toks_head hs
  have hsk : skipWhite (space s.before ++ (s.arg.toks ++ (space s.after ++ comma :: R))) =
      s.arg.toks ++ (space s.after ++ comma :: R) := by
    rw [e]; exact skipWhite_space _ _ _ ht
  obtain ⟨y, ys, he⟩ : ∃ y ys, space s.before ++ (s.arg.toks ++ (space s.after ++ comma :: R)) = y :: ys := by
    rw [e]; cases s.before <;> exact ⟨_, _, rfl⟩
  rw [he] at hsk ⊢
  simp only [marks]
  rw [hsk]
  congr 1
  cases ha : s.arg with
  | plain ts =>
    rw [ha] at hs
    obtain ⟨hc, ⟨t', r', e', h1, h2⟩, _⟩ := hs
    have hb : headIs 123 ((Written.plain ts).toks ++ (space s.after ++ comma :: R)) = false := by
      subst e'
      simp only [Written.toks, List.cons_append, headIs]
      by_contra hx
      exact h2 ((is_eq 123 t').1 (by simpa using hx))
    rw [hb]
    simp only [Bool.false_eq_true, ↓reduceIte, Written.toks]
    rw [← List.append_assoc, show comma = (⟨.other, [44]⟩ : Tok) from rfl, dropWhile_upto 44]
    rw [List.mem_append]
    rintro (h | h)
    · exact hc h
    · exact space_not _ _ h
  | braced ts =>
    rw [ha] at hs
    have hb : headIs 123 ((Written.braced ts).toks ++ (space s.after ++ comma :: R)) = true := by
      simp [Written.toks, headIs, open', Tok.is]
    rw [hb]
    simp only [↓reduceIte, Written.toks]
    have : open' :: (ts ++ [close']) ++ (space s.after ++ comma :: R) =
        (open' :: ts) ++ ⟨.other, [125]⟩ :: (space s.after ++ comma :: R) := by
      simp [close']
    rw [this, dropWhile_upto 125]
    · simp only
      rw [skipWhite_space _ _ _ (by simp [comma])]
      rw [show comma :: R = [] ++ (⟨.other, [44]⟩ : Tok) :: R from rfl, dropWhile_upto 44 _ _ (by simp)]
      rfl
    · intro hx
      simp only [List.mem_cons] at hx
      rcases hx with hx | hx
      · simp [open'] at hx
      · exact hs hx

/-- The last argument. -/
theorem marks_last (n : Nat) (s : Spaced) (hs : s.arg.ok) :
    marks (n + 1) (space s.before ++ s.arg.toks) = [⟨s.arg.toks, 0⟩] := by
  obtain ⟨t, r, e, ht⟩ := toks_head hs
  have hsk : skipWhite (space s.before ++ s.arg.toks) = s.arg.toks := by
    rw [e]; exact skipWhite_space _ _ _ ht
  obtain ⟨y, ys, he⟩ : ∃ y ys, space s.before ++ s.arg.toks = y :: ys := by
    rw [e]; cases s.before <;> exact ⟨_, _, rfl⟩
  rw [he] at hsk ⊢
  simp only [marks]
  rw [hsk]
  congr 1
  cases ha : s.arg with
  | plain ts =>
    rw [ha] at hs
    obtain ⟨hc, ⟨t', r', e', h1, h2⟩, _⟩ := hs
    have hb : headIs 123 ((Written.plain ts).toks) = false := by
      subst e'
      simp only [Written.toks, headIs]
      by_contra hx
      exact h2 ((is_eq 123 t').1 (by simpa using hx))
    rw [hb]
    simp only [Bool.false_eq_true, ↓reduceIte, Written.toks]
    rw [dropWhile_none 44 _ hc]
  | braced ts =>
    rw [ha] at hs
    have hb : headIs 123 ((Written.braced ts).toks) = true := by
      simp [Written.toks, headIs, open', Tok.is]
    rw [hb]
    simp only [↓reduceIte, Written.toks]
    have : open' :: (ts ++ [close']) = (open' :: ts) ++ ⟨.other, [125]⟩ :: [] := by
      simp [close']
    rw [this, dropWhile_upto 125]
    · cases n <;> simp [skipWhite, marks]
    · intro hx
      simp only [List.mem_cons] at hx
      rcases hx with hx | hx
      · simp [open'] at hx
      · exact hs hx

/-- The rest of the line from each argument on. -/
def rests : List Spaced → List Arg
  | [] => []
  | [s] => [⟨s.arg.toks, 0⟩]
  | s :: r => ⟨s.arg.toks ++ (space s.after ++ comma :: render r), 0⟩ :: rests r

theorem marks_render : ∀ (ss : List Spaced) (n : Nat), (∀ s ∈ ss, s.arg.ok) → (render ss).length < n →
    marks n (render ss) = rests ss
  | [], n, _, h => by cases n <;> simp [render, rests, marks]
  | [s], n, hs, h => by
    obtain ⟨n, rfl⟩ : ∃ k, n = k + 1 := ⟨n - 1, by omega⟩
    exact marks_last n s (hs s (by simp))
  | s :: s' :: r, n, hs, h => by
    obtain ⟨n, rfl⟩ : ∃ k, n = k + 1 := ⟨n - 1, by omega⟩
    simp only [render, rests]
    rw [marks_more n s (hs s (by simp))]
    congr 1
    apply marks_render (s' :: r) n (fun x hx => hs x (by simp [hx]))
    simp only [render, List.length_append, List.length_cons] at h ⊢
    omega

theorem argLen_plain (W : Option Name) (R : List Tok) (hR : R = [] ∨ ∃ R', R = space W ++ comma :: R') :
    ∀ ts : List Tok, comma ∉ ts → (∀ t ∈ ts.getLast?, t.ty ≠ .white) →
      argLen true false (ts ++ R) = ts.length
  | [], _, _ => by
    rcases hR with rfl | ⟨R', rfl⟩
    · rfl
    · cases W <;> simp [space, argLen, comma, Tok.is, headIs]
  | t :: ts, hc, hl => by
    have ht : t.is 44 = false := by
      by_contra hx
      have := (is_eq 44 t).1 (by simpa using hx)
      simp [this, comma] at hc
    have ih := argLen_plain W R hR ts (by simp at hc; exact hc.2) (by
      intro x hx; apply hl
      cases ts with
      | nil => simp at hx
      | cons a as => simpa using hx)
    have hw : (decide (t.ty = .white) && headIs 44 (ts ++ R)) = false := by
      by_cases hx : t.ty = .white
      · cases ts with
        | nil => exact absurd hx (hl t (by simp))
        | cons a as =>
          simp only [List.cons_append, headIs, Bool.and_eq_false_iff]
          right
          by_contra hy
          have := (is_eq 44 a).1 (by simpa using hy)
          simp [this, comma] at hc
      · simp [hx]
    simp only [List.cons_append, argLen, ht, Bool.and_false, Bool.false_and, Bool.false_eq_true, ↓reduceIte,
      Bool.true_and, hw, ih, List.length_cons]

theorem argLen_braced (R : List Tok) : ∀ ts : List Tok, close' ∉ ts →
    argLen false true (ts ++ close' :: R) = ts.length
  | [], _ => by simp [argLen, close', Tok.is]
  | t :: ts, hc => by
    have ht : t.is 125 = false := by
      by_contra hx
      have := (is_eq 125 t).1 (by simpa using hx)
      simp [this, close'] at hc
    have ih := argLen_braced R ts (by simp at hc; exact hc.2)
    simp only [List.cons_append, argLen, ht, Bool.and_false, Bool.false_and, Bool.false_eq_true, ↓reduceIte,
      ih, List.length_cons]

theorem argLen_all : ∀ ts : List Tok, argLen false false ts = ts.length
  | [] => rfl
  | t :: ts => by simp [argLen, argLen_all ts]

theorem cut_value (s : Spaced) (hs : s.arg.ok) (R : List Tok)
    (hR : R = [] ∨ ∃ R', R = space s.after ++ comma :: R') :
    (cutArg true ⟨s.arg.toks ++ R, 0⟩).value = s.arg.value := by
  cases ha : s.arg with
  | plain ts =>
    rw [ha] at hs
    obtain ⟨hc, ⟨t', r', e', h1, h2⟩, hl⟩ := hs
    have hsk : skipWhite (ts ++ R) = ts ++ R := by
      subst e'; simp [skipWhite, h1]
    have hb : headIs 123 (ts ++ R) = false := by
      subst e'
      simp only [List.cons_append, headIs]
      by_contra hx
      exact h2 ((is_eq 123 t').1 (by simpa using hx))
    simp only [cutArg, Written.toks, hsk, hb, Bool.false_eq_true, ↓reduceIte, Arg.value, Written.value,
      argLen_plain s.after R hR ts hc hl]
    simp
  | braced ts =>
    rw [ha] at hs
    have hsk : skipWhite (open' :: (ts ++ [close']) ++ R) = open' :: (ts ++ close' :: R) := by
      simp [skipWhite, open']
    simp only [cutArg, Written.toks, hsk, Arg.value, Written.value]
    have hb : headIs 123 (open' :: (ts ++ close' :: R)) = true := by simp [headIs, open', Tok.is]
    simp only [hb, ↓reduceIte, List.tail_cons, argLen_braced R ts hs]
    simp

theorem rests_value : ∀ (ss : List Spaced), (∀ s ∈ ss, s.arg.ok) →
    (rests ss).map (fun a => (cutArg true a).value) = ss.map (·.arg.value)
  | [], _ => rfl
  | [s], h => by
    simp only [rests, List.map_cons, List.map_nil]
    rw [← List.append_nil s.arg.toks, cut_value s (h s (by simp)) [] (Or.inl rfl)]
  | s :: s' :: r, h => by
    simp only [rests, List.map_cons]
    rw [cut_value s (h s (by simp)) _ (Or.inr ⟨_, rfl⟩)]
    congr 1
    exact rests_value (s' :: r) (fun x hx => h x (by simp [hx]))

theorem rests_get : ∀ (ss : List Spaced) (k : Nat) (s : Spaced), ss[k]? = some s →
    ∃ R, (rests ss)[k]? = some ⟨s.arg.toks ++ R, 0⟩ ∧ space s.before ++ (s.arg.toks ++ R) = render (ss.drop k)
  | [], k, s, h => by simp at h
  | [s0], k, s, h => by
    cases k with
    | zero => simp at h; subst h; exact ⟨[], by simp [rests], by simp [render]⟩
    | succ k => simp at h
  | s0 :: s' :: r, k, s, h => by
    cases k with
    | zero =>
      simp at h; subst h
      exact ⟨_, by simp [rests]; rfl, by simp [render]⟩
    | succ k =>
      obtain ⟨R, h1, h2⟩ := rests_get (s' :: r) k s (by simpa using h)
      exact ⟨R, by simpa [rests] using h1, by simpa using h2⟩

/-! ## References -/

theorem isRef_digit (d : Nat) (r : Name) (h : 48 ≤ d ∧ d ≤ 57) : isRef ⟨.ppid, 37 :: d :: r⟩ = true := by
  simp [isRef, h.1, h.2]

theorem paramAt_eq (f : Frame Arg) (k : Nat) (hk : 1 ≤ k) (hr : 0 ≤ f.rotate) (hn : k ≤ f.params.length) :
    paramAt f ((k : Int) - 1) =
      some f.params[(k - 1 + f.rotate.toNat) % f.params.length]? := by
  unfold paramAt
  rw [if_neg (by omega)]
  obtain ⟨r, hr'⟩ := Int.eq_ofNat_of_zero_le hr
  by_cases h1 : f.params.length > 1
  · rw [if_pos h1, hr']
    have e : ((k : Int) - 1 + (r : Int)) = ((k - 1 + r : Nat) : Int) := by omega
    have e2 : ((k - 1 + r : Nat) : Int).tmod (f.params.length : Int) =
        (((k - 1 + r) % f.params.length : Nat) : Int) := rfl
    simp only [e, e2]
    rw [if_neg (by omega)]
    rw [Int.toNat_natCast, Int.toNat_natCast]
  · rw [if_neg h1]
    have hl : f.params.length = 1 := by omega
    have hk1 : k = 1 := by omega
    simp [hl, hk1, Nat.mod_one]

theorem expandTok_arg (f : Frame Arg) (k : Nat) (hk : 1 ≤ k) (hr : 0 ≤ f.rotate) :
    expandTok (some f) ⟨.ppid, 37 :: dec k⟩ = some (argument f k) := by
  obtain ⟨d, r, e, h1, h2⟩ := dec_head k hk
  have hd := dec_digit k
  have ha := atoi_dec k hk
  unfold expandTok
  rw [e] at hd ha ⊢
  rw [isRef_digit d r ⟨by omega, h2⟩]
  have hc : (37 :: d :: r).contains 58 = false := by
    have : (58 : Nat) ∉ (37 :: d :: r) := by
      intro h
      rcases List.mem_cons.1 h with h | h
      · omega
      · have := hd 58 h; omega
    simpa using this
  simp only [hc, Bool.false_eq_true, ↓reduceIte, List.drop_succ_cons, List.drop_zero, ha]
  have key : (match paramAt f ((k : Int) - 1) with
      | none => none
      | some none => some []
      | some (some a) => some a.value) = some (argument f k) := by
    by_cases hn : k ≤ f.params.length
    · rw [paramAt_eq f k hk hr hn]
      unfold argument
      rw [if_pos hn]
      cases f.params[(k - 1 + f.rotate.toNat) % f.params.length]? <;> rfl
    · unfold paramAt argument
      rw [if_pos (by omega), if_neg hn]
  split
  · rename_i h3; cases h3; omega
  · rename_i h3; cases h3; omega
  · rename_i h3; cases h3; omega
  · rename_i h3; cases h3; omega
  · exact key

theorem expandTok_ref (f : Frame Arg) (x : Ref) (hx : x.ok) (hr : 0 ≤ f.rotate) :
    expandTok (some f) x.toTok = some (x.meaning f) := by
  cases x with
  | tok t =>
    have hn : isRef t = false := by
      unfold isRef
      by_cases ht : t.ty = .ppid
      · obtain ⟨c, r, e, hc⟩ := hx ht
        rw [e]; simp [ht]; omega
      · simp [ht]
    simp [expandTok, Ref.toTok, hn, Ref.meaning]
  | count =>
    have h1 : isRef ⟨.ppid, [37, 48]⟩ = true := by decide
    have h2 : ([37, 48] : Name).contains 58 = false := by decide
    simp [expandTok, Ref.toTok, h1, Ref.meaning]
  | own y =>
    have h1 : isRef ⟨.ppid, 37 :: 37 :: y⟩ = true := by simp [isRef]
    have h2 : (37 :: 37 :: y).contains 58 = false := by
      have : (58 : Nat) ∉ (37 :: 37 :: y) := by
        intro h; simp at h; exact hx h
      simpa using this
    simp only [expandTok, Ref.toTok, h1, h2, Ref.meaning]
    simp
  | arg k => exact expandTok_arg f k hx hr

theorem expandToks_refs (f : Frame Arg) (hr : 0 ≤ f.rotate) : ∀ xs : List Ref, (∀ x ∈ xs, x.ok) →
    expandToks (some f) (xs.map Ref.toTok) = some (xs.flatMap (Ref.meaning f))
  | [], _ => rfl
  | x :: xs, h => by
    simp only [List.map_cons, expandToks, expandTok_ref f x (h x (by simp)) hr,
      expandToks_refs f hr xs (fun y hy => h y (by simp [hy])), List.flatMap_cons]

/-! ## Lines stay directives -/

theorem entry_letter : ∀ k < 66, (entry k).head? = some 37 ∧
    ∃ c ∈ (entry k)[1]?, 97 ≤ c ∧ c ≤ 122 := by decide +kernel

theorem found_letter {w : Name} (h : (look w).found = true) :
    ∃ c r, w = 37 :: c :: r ∧ (97 ≤ c ∧ c ≤ 122 ∨ 65 ≤ c ∧ c ≤ 90) := by
  have key : ∃ k < 66, stricmp w (entry k) = .eq := by
    rcases look_end w with ⟨k, hk, he, _⟩ | ⟨p, hp, _⟩
    · exact ⟨k, hk, he⟩
    · rw [hp] at h; cases h
  obtain ⟨k, hk, he⟩ := key
  rw [stricmp_eq_iff] at he
  obtain ⟨h1, c, h2, h3⟩ := entry_letter k hk
  cases hx : entry k with
  | nil => rw [hx] at h1; simp at h1
  | cons a as =>
    cases as with
    | nil => rw [hx] at h2; simp at h2
    | cons b bs =>
      rw [hx] at h1 h2 he
      simp at h1 h2
      subst h1 h2
      cases w with
      | nil => simp at he
      | cons x xs =>
        cases xs with
        | nil => simp at he
        | cons y ys =>
          simp only [List.map_cons, List.cons.injEq] at he
          obtain ⟨e1, e2, _⟩ := he
          refine ⟨y, ys, ?_, ?_⟩
          · have : x = 37 := by
              simp only [lower] at e1
              split at e1 <;> split at e1 <;> omega
            rw [this]
          · simp only [lower] at e2
            split at e2 <;> split at e2 <;> omega

theorem isRef_letter {t : Tok} {c : Nat} {r : Name} (e : t.text = 37 :: c :: r)
    (hc : 97 ≤ c ∧ c ≤ 122 ∨ 65 ≤ c ∧ c ≤ 90) : isRef t = false := by
  unfold isRef; rw [e]; simp; omega

theorem paste_ppid (t : Tok) (h : t.ty = .ppid) : ∀ r, ∃ r', paste (t :: r) = t :: r'
  | [] => ⟨[], rfl⟩
  | b :: r => by
    have : joined t b = none := by simp [joined, h]
    exact ⟨paste (b :: r), by simp [paste, this]⟩

theorem paste_white (w t : Tok) (hw : w.ty = .white) (h : t.ty = .ppid) (r : List Tok) :
    ∃ r', paste (w :: t :: r) = w :: t :: r' := by
  obtain ⟨r', e⟩ := paste_ppid t h r
  have : joined w t = none := by simp [joined, h, hw]
  exact ⟨r', by simp [paste, this, e]⟩

theorem expandTok_self {f : Option (Frame Arg)} {t : Tok} (h : isRef t = false) : expandTok f t = some [t] := by
  simp [expandTok, h]

theorem tokWord_cons {t : Tok} {r : List Tok} (h : t.ty ≠ .white) (r' : List Tok) :
    tokWord (t :: r) = tokWord (t :: r') := by
  simp [tokWord, skipWhite, h]

theorem tokWord_white {w t : Tok} {r : List Tok} (h : w.ty = .white) (r' : List Tok) :
    tokWord (w :: t :: r) = tokWord (w :: t :: r') := by
  simp [tokWord, skipWhite, h]

/-- Substituting parameters leaves a directive the directive it is. -/
theorem tok_word (f : Option (Frame Arg)) (l : List Tok) (w : Name) (hw : tokWord l = some w)
    (hf : (look w).found = true) : tokWord ((expandLine f l).getD l) = some w := by
  cases hx : expandLine f l with
  | none => simpa using hw
  | some l' =>
    simp only [Option.getD_some]
    unfold expandLine at hx
    obtain ⟨c, r, e, hc⟩ := found_letter hf
    cases l with
    | nil => simp [tokWord, skipWhite] at hw
    | cons t ts =>
      by_cases ht : t.ty = .white
      · cases ts with
        | nil => simp [tokWord, skipWhite, ht] at hw
        | cons u us =>
          have hu : u.ty = .ppid ∧ u.text = w := by
            simp only [tokWord, skipWhite, ht, ↓reduceIte] at hw
            split at hw
            · refine ⟨by assumption, ?_⟩
              split at hw
              · split at hw
                · cases hw
                · injection hw
              · injection hw
            · cases hw
          have hr1 : isRef t = false := by simp [isRef, ht]
          have hr2 : isRef u = false := isRef_letter (by rw [hu.2, e]) hc
          simp only [expandToks, expandTok_self hr1, expandTok_self hr2] at hx
          cases hy : expandToks f us with
          | none => rw [hy] at hx; simp at hx
          | some us' =>
            rw [hy] at hx
            simp at hx
            obtain ⟨r', e'⟩ := paste_white t u ht hu.1 us'
            rw [e'] at hx
            rw [← hx, ← hw]
            exact tokWord_white ht us
      · have hu : t.ty = .ppid ∧ t.text = w := by
          simp only [tokWord, skipWhite, ht, ↓reduceIte] at hw
          split at hw
          · refine ⟨by assumption, ?_⟩
            split at hw
            · split at hw
              · cases hw
              · injection hw
            · injection hw
          · cases hw
        have hr2 : isRef t = false := isRef_letter (by rw [hu.2, e]) hc
        simp only [expandToks, expandTok_self hr2] at hx
        cases hy : expandToks f ts with
        | none => rw [hy] at hx; simp at hx
        | some us' =>
          rw [hy] at hx
          simp at hx
          obtain ⟨r', e'⟩ := paste_ppid t hu.1 us'
          rw [e'] at hx
          rw [← hx, ← hw]
          exact tokWord_cons ht ts

end Verif.Pp
