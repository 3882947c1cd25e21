import Verif.Pp.SmacSpec
/-
Lemmas about the expansion of single-line macros.
-/
namespace Verif.Pp

theorem is_sym (c : Nat) (t : Tok) : t.is c = true ↔ t = sym c := by
  cases t; simp [Tok.is, sym]

theorem is_not (c : Nat) (t : Tok) : t.is c = false ↔ t ≠ sym c := by
  rw [← Bool.not_eq_true, not_congr (is_sym c t)]

theorem sym_white (c : Nat) : (sym c).ty ≠ .white := by simp [sym]

theorem Blank.tail {t : Tok} {l : List Tok} (h : Blank (t :: l)) : Blank l :=
  fun u hu => h u (List.mem_cons_of_mem _ hu)

theorem skipWs_stop (b : List Nat) (X : List SItem) (u : Tok) (hu : u.ty ≠ .white) : ∀ w : List Tok, Blank w →
    skipWs b (w.map .tok ++ .tok u :: X) = (b, w, .tok u :: X)
  | [], _ => by simp [skipWs, hu]
  | t :: w, h => by
    have ih := skipWs_stop b X u hu w h.tail
    simp only [List.map_cons, List.cons_append, skipWs, h t List.mem_cons_self, ↓reduceIte, ih]

theorem skipWs_end (b : List Nat) : ∀ w : List Tok, Blank w → skipWs b (w.map .tok) = (b, w, [])
  | [], _ => by simp [skipWs]
  | t :: w, h => by
    have ih := skipWs_end b w h.tail
    simp only [List.map_cons, skipWs, h t List.mem_cons_self, ↓reduceIte, ih]

/-! ## Arguments -/

/-- The effect of going over tokens on what the scan returns. -/
def Scanned.past (p : List Tok) (x : Scanned) : Scanned := { x with over := p ++ x.over }

theorem past_past (p q : List Tok) (x : Scanned) : (x.past q).past p = x.past (p ++ q) := by
  simp [Scanned.past]

theorem scan_one (b : List Nat) (s s' : Scan) (t : Tok) (X : List SItem) (h : s.turn t X = some (s', [])) :
    scanArgs b s (.tok t :: X) = (scanArgs b s' X).past [t] := by
  rw [scanArgs, h]; simp [Scanned.past]

/-- White space before an argument. -/
theorem scan_lead (b : List Nat) (done : List (List SItem × Nat)) (X : List SItem) : ∀ w : List Tok, Blank w →
    scanArgs b ⟨done, w.map .tok ++ X, 0, 0, 0, 0⟩ (w.map .tok ++ X) = (scanArgs b ⟨done, X, 0, 0, 0, 0⟩ X).past w
  | [], _ => rfl
  | t :: w, h => by
    have ht : t.ty = .white := h t List.mem_cons_self
    simp only [List.map_cons, List.cons_append]
    rw [scan_one b _ ⟨done, w.map .tok ++ X, 0, 0, 0, 0⟩ t _ (by simp [Scan.turn, ht]), scan_lead b done X w h.tail, past_past]
    rfl

/-- White space after an argument. -/
theorem scan_trail (b : List Nat) (X : List SItem) : ∀ (w : List Tok) (s : Scan), Blank w → s.braces ≤ 0 → s.size ≠ 0 →
    ∃ k, scanArgs b s (w.map .tok ++ X) = (scanArgs b { s with white := k } X).past w
  | [], s, _, _, _ => ⟨s.white, rfl⟩
  | t :: w, s, h, hb, hs => by
    have ht : t.ty = .white := h t List.mem_cons_self
    obtain ⟨k, hk⟩ := scan_trail b X w { s with white := s.white + 1 } h.tail hb hs
    refine ⟨k, ?_⟩
    simp only [List.map_cons, List.cons_append]
    rw [scan_one b s { s with white := s.white + 1 } t _ (by simp [Scan.turn, ht, hb, hs]), hk, past_past]
    rfl

/-- And after an empty one. -/
theorem scan_trail0 (b : List Nat) (X : List SItem) : ∀ (w : List Tok) (s : Scan), Blank w → s.braces ≤ 0 → s.size = 0 →
    ∃ st, scanArgs b s (w.map .tok ++ X) = (scanArgs b { s with start := st } X).past w
  | [], s, _, _, _ => ⟨s.start, rfl⟩
  | t :: w, s, h, hb, hs => by
    have ht : t.ty = .white := h t List.mem_cons_self
    obtain ⟨k, hk⟩ := scan_trail0 b X w { s with start := w.map .tok ++ X } h.tail hb hs
    refine ⟨k, ?_⟩
    simp only [List.map_cons, List.cons_append]
    rw [scan_one b s { s with start := w.map .tok ++ X } t _ (by simp [Scan.turn, ht, hb, hs]), hk, past_past]
    rfl

/-- What a token that is not white space does to the depth. -/
def deeper (d : Nat) (t : Tok) : Nat := if t = sym 40 then d + 1 else if t = sym 41 then d - 1 else d

theorem closed_cons (d : Nat) (t : Tok) (r : List Tok) (h : closed d (t :: r) = true) :
    closed (deeper d t) r = true ∧ (t = sym 41 → d ≠ 0) ∧ (t = sym 44 → d ≠ 0) := by
  rw [closed] at h
  unfold deeper
  by_cases h1 : t = sym 40
  · subst h1; simp only [↓reduceIte] at h ⊢
    exact ⟨h, by simp [sym], by simp [sym]⟩
  · by_cases h2 : t = sym 41
    · subst h2
      simp only [h1, ↓reduceIte, Bool.and_eq_true, decide_eq_true_eq] at h ⊢
      exact ⟨h.2, fun _ => by omega, by simp [sym]⟩
    · by_cases h3 : t = sym 44
      · subst h3
        simp only [h1, h2, ↓reduceIte, Bool.and_eq_true, decide_eq_true_eq] at h ⊢
        exact ⟨h.2, fun e => absurd e (by simp), fun _ => by omega⟩
      · simp only [h1, h2, h3, ↓reduceIte] at h ⊢
        exact ⟨h, fun e => absurd e (by simp), fun e => absurd e (by simp)⟩

/-- A token of an argument. -/
theorem turn_core (s : Scan) (t : Tok) (X : List SItem) (hb : s.braces = 0) (ht : t.ty ≠ .white)
    (h0 : s.size ≠ 0 ∨ t ≠ sym 123) (hc : t = sym 41 → s.paren ≠ 0) (hk : t = sym 44 → s.paren ≠ 0) :
    s.turn t X = some ({ s with size := s.size + s.white + 1, white := 0, paren := deeper s.paren t }, []) := by
  have hb' : s.braces ≤ 0 := by omega
  have hnb : ¬ s.braces < 0 := by omega
  have hpos : ¬ s.braces > 0 := by omega
  unfold Scan.turn deeper
  simp only [ht, false_and, ↓reduceIte, is_sym]
  by_cases h1 : t = sym 40
  · subst h1
    simp [sym, hb, Scan.count]
  · by_cases h2 : t = sym 41
    · subst h2
      have := hc rfl
      simp [sym, hb, Scan.count, this]
    · by_cases h3 : t = sym 44
      · subst h3
        have := hk rfl
        simp [sym, hb, Scan.count, this]
      · by_cases h4 : t = sym 123
        · have hsz : s.size ≠ 0 := by
            rcases h0 with h | h
            · exact h
            · exact absurd h4 h
          subst h4
          simp [sym, hb, Scan.count, hsz]
        · simp [h1, h2, h3, h4, hb, Scan.count]

/-- The size and the white space after an argument with more than one token. -/
def sizes : Nat → Nat → List Tok → Nat × Nat
  | sz, wh, [] => (sz, wh)
  | sz, wh, t :: r => if t.ty = .white then sizes sz (wh + 1) r else sizes (sz + wh + 1) 0 r

theorem sizes_sum : ∀ (sz wh : Nat) (p : List Tok), (sizes sz wh p).1 + (sizes sz wh p).2 = sz + wh + p.length
  | sz, wh, [] => by simp [sizes]
  | sz, wh, t :: r => by
    rw [sizes]
    split
    · rw [sizes_sum]; simp only [List.length_cons]; omega
    · rw [sizes_sum]; simp only [List.length_cons]; omega

theorem sizes_last : ∀ (sz wh : Nat) (p : List Tok), p ≠ [] → (∀ t, p.getLast? = some t → t.ty ≠ .white) →
    (sizes sz wh p).2 = 0
  | sz, wh, [], h, _ => absurd rfl h
  | sz, wh, [t], _, h => by
    have := h t (by simp)
    simp [sizes, this]
  | sz, wh, t :: u :: r, _, h => by
    rw [sizes]
    split
    · exact sizes_last _ _ (u :: r) (by simp) (by intro x hx; exact h x (by rw [List.getLast?_cons_cons]; exact hx))
    · exact sizes_last _ _ (u :: r) (by simp) (by intro x hx; exact h x (by rw [List.getLast?_cons_cons]; exact hx))

/-- The tokens of an argument after the first. -/
theorem scan_core (b : List Nat) (X : List SItem) : ∀ (p : List Tok) (s : Scan), s.braces = 0 → s.size ≠ 0 →
    closed s.paren p = true →
    scanArgs b s (p.map .tok ++ X) =
      (scanArgs b { s with size := (sizes s.size s.white p).1, white := (sizes s.size s.white p).2, paren := 0 } X).past p
  | [], s, hb, hs, hc => by
    have : s.paren = 0 := by simpa [closed] using hc
    simp only [List.map_nil, List.nil_append, sizes, Scanned.past]
    rw [← this]
  | t :: p, s, hb, hs, hc => by
    simp only [List.map_cons, List.cons_append]
    have h3 := closed_cons _ _ _ hc
    by_cases ht : t.ty = .white
    · have hd : deeper s.paren t = s.paren := by
        unfold deeper
        rw [if_neg (by intro e; rw [e] at ht; simp [sym] at ht), if_neg (by intro e; rw [e] at ht; simp [sym] at ht)]
      rw [scan_one b s { s with white := s.white + 1 } t _ (by simp [Scan.turn, ht, hb, hs]),
        scan_core b X p { s with white := s.white + 1 } hb hs (by rw [hd] at h3; exact h3.1), past_past]
      simp only [sizes, ht, ↓reduceIte]
      rfl
    · rw [scan_one b s _ t _ (turn_core s t _ hb ht (Or.inl hs) h3.2.1 h3.2.2),
        scan_core b X p { s with size := s.size + s.white + 1, white := 0, paren := deeper s.paren t } hb (by simp) h3.1,
        past_past]
      simp only [sizes, ht, ↓reduceIte]
      rfl

theorem toks_map : ∀ (p : List Tok) (X : List SItem), toks (p.map .tok ++ X) = p ++ toks X
  | [], _ => rfl
  | t :: p, X => by simp [toks, toks_map p X]

/-- An argument, up to the separator. -/
theorem scan_arg (b : List Nat) (done : List (List SItem × Nat)) (a p : List Tok) (X : List SItem) (h : IsArg a p) :
    ∃ s : Scan, scanArgs b ⟨done, a.map .tok ++ X, 0, 0, 0, 0⟩ (a.map .tok ++ X) = (scanArgs b s X).past a ∧
      s.done = done ∧ s.paren = 0 ∧ s.braces = 0 ∧ argValue (s.start, s.size) = some p := by
  obtain ⟨w1, w2, hw1, hw2, rfl, hc, hh, hl⟩ := h
  simp only [List.map_append, List.append_assoc]
  rw [scan_lead b done _ w1 hw1]
  cases p with
  | nil =>
    obtain ⟨st, hst⟩ := scan_trail0 b X w2 ⟨done, w2.map .tok ++ X, 0, 0, 0, 0⟩ hw2 (Int.le_refl _) rfl
    refine ⟨_, by simp only [List.map_nil, List.nil_append]; rw [hst, past_past], rfl, rfl, rfl, ?_⟩
    simp [argValue]
  | cons t p =>
    have h3 := closed_cons _ _ _ hc
    have ht := hh t rfl
    simp only [List.map_cons, List.cons_append]
    rw [scan_one b _ _ t _ (turn_core _ t _ rfl ht.1 (Or.inr ht.2) h3.2.1 h3.2.2), scan_core b _ p _ rfl (by simp) h3.1]
    simp only [Nat.add_zero, Nat.zero_add]
    have hsum := sizes_sum 1 0 p
    have hlast : (sizes 1 0 p).2 = 0 := by
      cases p with
      | nil => rfl
      | cons u r =>
        exact sizes_last 1 0 (u :: r) (by simp) (by intro x hx; exact hl x (by rw [List.getLast?_cons_cons]; exact hx))
    obtain ⟨k, hk⟩ := scan_trail b X w2
      ⟨done, .tok t :: (p.map .tok ++ (w2.map .tok ++ X)), (sizes 1 0 p).1, (sizes 1 0 p).2, 0, 0⟩ hw2 (Int.le_refl _)
      (by simp only; omega)
    refine ⟨⟨done, .tok t :: (p.map .tok ++ (w2.map .tok ++ X)), (sizes 1 0 p).1, k, 0, 0⟩, ?_, rfl, rfl, rfl, ?_⟩
    · rw [hk, past_past, past_past, past_past]; simp
    have hn : (sizes 1 0 p).1 = p.length + 1 := by omega
    simp only [argValue, hn]
    rw [if_neg (by omega)]
    simp [toks, toks_map]

/-- What a token does to the depth of braces. -/
def bracier (d : Nat) (t : Tok) : Nat := if t = sym 123 then d + 1 else if t = sym 125 then d - 1 else d

theorem braced_cons (d : Nat) (t : Tok) (r : List Tok) (h : braced d (t :: r) = true) :
    braced (bracier d t) r = true ∧ (t = sym 125 → d ≠ 0) := by
  rw [braced] at h
  unfold bracier
  by_cases h1 : t = sym 123
  · subst h1; simp only [↓reduceIte] at h ⊢
    exact ⟨h, by simp [sym]⟩
  · by_cases h2 : t = sym 125
    · subst h2
      simp only [h1, ↓reduceIte, Bool.and_eq_true, decide_eq_true_eq] at h ⊢
      exact ⟨h.2, fun _ => by omega⟩
    · simp only [h1, h2, ↓reduceIte] at h ⊢
      exact ⟨h, fun e => absurd e (by simp)⟩

theorem turn_braced (s : Scan) (d : Nat) (t : Tok) (X : List SItem) (hb : s.braces = (d : Int) + 1) (hw : s.white = 0)
    (hc : t = sym 125 → d ≠ 0) :
    s.turn t X = some ({ s with size := s.size + 1, braces := ((bracier d t : Nat) : Int) + 1 }, []) := by
  have h1 : ¬ s.braces ≤ 0 := by omega
  have h2 : s.braces > 0 := by omega
  have h3 : ¬ s.braces < 0 := by omega
  have h4 : ¬ s.braces = 0 := by omega
  unfold Scan.turn bracier
  simp only [h1, and_false, ↓reduceIte, is_sym, h2, true_or, and_true, h4]
  by_cases h5 : t = sym 123
  · subst h5
    simp only [↓reduceIte, Scan.count, hw, Nat.add_zero]
    rw [if_neg (by omega), if_neg (by omega)]
    simp only [hb, ← hw]
    rfl
  · by_cases h6 : t = sym 125
    · subst h6
      have hd := hc rfl
      have : ¬ s.braces = 1 := by omega
      simp only [h5, ↓reduceIte, this, Scan.count, hw, Nat.add_zero]
      rw [if_neg (by omega), if_neg (by omega)]
      have e : s.braces - 1 = ((d - 1 : Nat) : Int) + 1 := by omega
      simp only [e, ← hw]
    · simp only [h5, h6, ↓reduceIte, Scan.count, hw, Nat.add_zero, h3, ← hb]

theorem scan_braced (b : List Nat) (X : List SItem) : ∀ (p : List Tok) (d : Nat) (s : Scan), s.braces = (d : Int) + 1 →
    s.white = 0 → braced d p = true →
    scanArgs b s (p.map .tok ++ X) = (scanArgs b { s with size := s.size + p.length, braces := 1 } X).past p
  | [], d, s, hb, hw, hc => by
    have : d = 0 := by simpa [braced] using hc
    subst this
    have : s.braces = 1 := by simpa using hb
    simp only [List.map_nil, List.nil_append, Scanned.past, List.length_nil, Nat.add_zero, ← this]
  | t :: p, d, s, hb, hw, hc => by
    have h3 := braced_cons _ _ _ hc
    simp only [List.map_cons, List.cons_append]
    rw [scan_one b s _ t _ (turn_braced s d t _ hb hw h3.2),
      scan_braced b X p (bracier d t) { s with size := s.size + 1, braces := ((bracier d t : Nat) : Int) + 1 } rfl hw h3.1, past_past]
    simp only [List.length_cons, List.singleton_append]
    rw [show s.size + 1 + p.length = s.size + (p.length + 1) by omega]

theorem scan_close (b : List Nat) (s : Scan) (X : List SItem) (hp : s.paren = 0) (hb : s.braces ≤ 0) :
    scanArgs b s (.tok (sym 41) :: X) = ⟨b, s.done ++ [(s.start, s.size)], [sym 41], X, []⟩ := by
  rw [scanArgs]
  have : s.turn (sym 41) X = none := by simp [Scan.turn, sym, Tok.is, hp, hb]
  rw [this]

theorem scan_args (b : List Nat) (X : List SItem) (l : List Tok) (ps : List (List Tok)) (rest : List Tok) (h : Args l ps rest) :
    ∀ done, ∃ qs over, scanArgs b ⟨done, l.map .tok ++ X, 0, 0, 0, 0⟩ (l.map .tok ++ X) =
      ⟨b, done ++ qs, over, rest.map .tok ++ X, []⟩ ∧ qs.map argValue = ps.map some ∧ over ++ rest = l := by
  induction h with
  | last a p rest ha =>
    intro done
    obtain ⟨s, h1, h2, h3, h4, h5⟩ := scan_arg b done a p (.tok (sym 41) :: (rest.map .tok ++ X)) ha
    refine ⟨[(s.start, s.size)], a ++ [sym 41], ?_, by simp [h5], by simp⟩
    simp only [List.map_append, List.map_cons, List.append_assoc, List.cons_append]
    rw [h1, scan_close b s _ h3 (by omega), h2]
    rfl
  | lastBraced a p rest ha =>
    intro done
    obtain ⟨w1, w2, hw1, hw2, rfl, hp⟩ := ha
    simp only [List.map_append, List.map_cons, List.append_assoc, List.cons_append]
    rw [scan_lead b done _ w1 hw1]
    rw [scan_one b _ ⟨done, p.map .tok ++ (.tok (sym 125) :: (w2.map .tok ++ (.tok (sym 41) :: (rest.map .tok ++ X)))), 0, 0, 0, 1⟩
      (sym 123) _ (by simp [Scan.turn, sym, Tok.is])]
    rw [scan_braced b _ p 0 _ rfl rfl hp]
    rw [scan_one b _ ⟨done, p.map .tok ++ (.tok (sym 125) :: (w2.map .tok ++ (.tok (sym 41) :: (rest.map .tok ++ X)))), p.length, 0, 0, -1⟩
      (sym 125) _ (by simp [Scan.turn, sym, Tok.is])]
    by_cases hz : p.length = 0
    · obtain ⟨st, hst⟩ := scan_trail0 b (.tok (sym 41) :: (rest.map .tok ++ X)) w2
        ⟨done, p.map .tok ++ (.tok (sym 125) :: (w2.map .tok ++ (.tok (sym 41) :: (rest.map .tok ++ X)))), p.length, 0, 0, -1⟩
        hw2 (by simp) hz
      refine ⟨[(st, p.length)], w1 ++ [sym 123] ++ p ++ [sym 125] ++ w2 ++ [sym 41], ?_, ?_, by simp⟩
      · rw [hst, scan_close b _ _ rfl (by simp)]
        simp [Scanned.past]
      · have : p = [] := List.length_eq_zero_iff.mp hz
        subst this
        simp [argValue]
    · obtain ⟨k, hk⟩ := scan_trail b (.tok (sym 41) :: (rest.map .tok ++ X)) w2
        ⟨done, p.map .tok ++ (.tok (sym 125) :: (w2.map .tok ++ (.tok (sym 41) :: (rest.map .tok ++ X)))), p.length, 0, 0, -1⟩
        hw2 (by simp) hz
      refine ⟨[(p.map .tok ++ (.tok (sym 125) :: (w2.map .tok ++ (.tok (sym 41) :: (rest.map .tok ++ X)))), p.length)],
        w1 ++ [sym 123] ++ p ++ [sym 125] ++ w2 ++ [sym 41], ?_, ?_, by simp⟩
      · rw [hk, scan_close b _ _ rfl (by simp)]
        simp [Scanned.past]
      · simp only [List.map_cons, List.map_nil, argValue, hz, ↓reduceIte]
        cases p with
        | nil => simp at hz
        | cons u p =>
          simp only [List.map_cons, List.cons_append]
          simp [toks, toks_map]
  | more a p l ps rest ha _ ih =>
    intro done
    obtain ⟨s, h1, h2, h3, h4, h5⟩ := scan_arg b done a p (.tok (sym 44) :: (l.map .tok ++ X)) ha
    obtain ⟨qs, over, k1, k2, k3⟩ := ih (done ++ [(s.start, s.size)])
    refine ⟨(s.start, s.size) :: qs, a ++ sym 44 :: over, ?_, by simp [h5, k2], by simp [k3]⟩
    simp only [List.map_append, List.map_cons, List.append_assoc, List.cons_append]
    rw [h1, scan_one b s ⟨done ++ [(s.start, s.size)], l.map .tok ++ X, 0, 0, 0, 0⟩ (sym 44) _ ?_, k1]
    · simp [Scanned.past]
    · simp only [Scan.turn, sym, Tok.is, h2, h3, h4]; simp

theorem fillBody_fill (qs : List (List SItem × Nat)) (ps : List (List Tok)) (h : qs.map argValue = ps.map some) :
    ∀ body, fillBody qs body = some (fill ps body)
  | [] => rfl
  | .tok t :: r => by
    rw [fillBody, fillBody_fill qs ps h r]; simp [fill]
  | .param i :: r => by
    have hi : argValue (qs.getD i ([], 0)) = some (ps.getD i []) := by
      have := congrArg (fun l => l[i]?) h
      simp only [List.getElem?_map] at this
      rw [List.getD_eq_getElem?_getD, List.getD_eq_getElem?_getD]
      cases hq : qs[i]? with
      | none =>
        rw [hq] at this
        cases hp : ps[i]? with
        | none => simp [argValue]
        | some x => rw [hp] at this; simp at this
      | some q =>
        rw [hq] at this
        cases hp : ps[i]? with
        | none => rw [hp] at this; simp at this
        | some x => rw [hp] at this; simpa using this
    rw [fillBody, hi, fillBody_fill qs ps h r]; simp [fill]

/-! ## The main loop -/

/-- Turns of the main loop. -/
inductive Turns (T : SMacs) : SSt → SSt → Prop
  | refl (s) : Turns T s s
  | step (s s' s'') : s.step T = .next s' → Turns T s' s'' → Turns T s s''

theorem Turns.trans {T : SMacs} {a b c : SSt} (h : Turns T a b) : Turns T b c → Turns T a c := by
  induction h with
  | refl => exact id
  | step s s' s'' h _ ih => exact fun k => .step _ _ _ h (ih k)

theorem Turns.one {T : SMacs} {a b : SSt} (h : a.step T = .next b) : Turns T a b := .step _ _ _ h (.refl _)

theorem release_fresh (m : Nat) (b : List Nat) (h : m ∉ b) : release m (m :: b) = b := by
  unfold release
  rw [List.filter_cons]
  simp only [ne_eq, not_true, decide_false, Bool.false_eq_true, ↓reduceIte]
  rw [List.filter_eq_self]
  intro x hx
  simp only [decide_eq_true_eq]
  intro e; subst e; exact h hx

theorem expands_turns (T : SMacs) (top : Bool) (busy : List Nat) (l r : List Tok) (h : Expands T top busy l r) :
    ∀ (X : List SItem) (out : List Tok) (errs : List SErr), (top = true → X = []) →
      Turns T ⟨busy, l.map .tok ++ X, out, errs⟩ ⟨busy, X, out ++ r, errs⟩ := by
  induction h with
  | nil => intro X out errs _; simp; exact .refl _
  | other top busy t l r ht _ ih =>
    intro X out errs hX
    refine Turns.trans (Turns.one (b := ⟨busy, l.map .tok ++ X, out ++ [t], errs⟩) ?_) ?_
    · simp only [List.map_cons, List.cons_append, SSt.step]
      rcases ht with ht | ht
      · simp [ht, SSt.copy]
      · simp [ht, SSt.copy]
    · have := ih X (out ++ [t]) errs hX; simpa using this
  | own top busy t l r m ms hw hm hn hb hbusy _ ih =>
    intro X out errs hX
    refine Turns.trans (Turns.one (b := ⟨busy, l.map .tok ++ X, out ++ [t], errs⟩) ?_) ?_
    · simp [SSt.step, hw, hm, hn, hb, hbusy, SSt.copy]
    · have := ih X (out ++ [t]) errs hX; simpa using this
  | empty top busy t l r m ms hw hm hn hb _ ih =>
    intro X out errs hX
    refine Turns.trans (Turns.one (b := ⟨busy, l.map .tok ++ X, out, errs⟩) ?_) ?_
    · simp [SSt.step, hw, hm, hn, hb]
    · exact ih X out errs hX
  | simple top busy t l r1 r2 m ms hw hm hn hb hbusy _ _ ih1 ih2 =>
    intro X out errs hX
    refine Turns.trans (Turns.one (b := ⟨m :: busy, (fill [] (T.mac m).body).map .tok ++ .fin m :: (l.map .tok ++ X), out, errs⟩) ?_) ?_
    · simp [SSt.step, hw, hm, hn, hb, hbusy, fillBody_fill [] [] rfl]
    · refine Turns.trans (ih1 (.fin m :: (l.map .tok ++ X)) out errs (by simp)) ?_
      refine Turns.trans (Turns.one (b := ⟨busy, l.map .tok ++ X, out ++ r1, errs⟩) ?_) ?_
      · simp [SSt.step, release_fresh m busy hbusy]
      · have := ih2 X (out ++ r1) errs hX; simpa using this
  | name top busy t w u l r m ms hw hm hn hbl hu hu40 _ ih =>
    intro X out errs hX
    refine Turns.trans (Turns.one (b := ⟨busy, (w ++ u :: l).map .tok ++ X, out ++ [t], errs⟩) ?_) ?_
    · have hs := skipWs_stop busy (l.map .tok ++ X) u hu w hbl
      have h40 : u.is 40 = false := (is_not 40 u).mpr hu40
      simp only [List.cons_append, List.map_cons, List.map_append, List.append_assoc, SSt.step, hw, ↓reduceIte, hm, hn, hs, h40]
      simp [SSt.copy]
    · have := ih X (out ++ [t]) errs hX; simpa using this
  | nameLast busy t w m ms hw hm hn hbl =>
    intro X out errs hX
    have := hX rfl
    subst this
    have hs := skipWs_end busy w hbl
    refine Turns.trans (Turns.one (b := ⟨busy, w.map .tok ++ [], out ++ [t], errs⟩) ?_) ?_
    · simp only [List.map_cons, List.append_nil, SSt.step, hw, ↓reduceIte, hm, hn, hs]
      simp [SSt.copy]
    · clear hs hm
      have : ∀ (w : List Tok) (out : List Tok), Blank w → Turns T ⟨busy, w.map .tok ++ [], out, errs⟩ ⟨busy, [], out ++ w, errs⟩ := by
        intro w
        induction w with
        | nil => intro out _; simp; exact .refl _
        | cons x w ih =>
          intro out hb
          refine Turns.trans (Turns.one (b := ⟨busy, w.map .tok ++ [], out ++ [x], errs⟩) ?_) ?_
          · simp [SSt.step, hb x List.mem_cons_self, SSt.copy]
          · have := ih (out ++ [x]) hb.tail; simpa using this
      have := this w (out ++ [t]) hbl
      simpa using this
  | call top busy t w l ps rest r1 r2 m ms k hw hm hn hbl hargs hk hbusy _ _ ih1 ih2 =>
    intro X out errs hX
    obtain ⟨qs, over, h1, h2, h3⟩ := scan_args busy X l ps rest hargs []
    have hlen : qs.length = ps.length := by simpa using congrArg List.length h2
    refine Turns.trans (Turns.one (b := ⟨k :: busy, (fill ps (T.mac k).body).map .tok ++ .fin k :: (rest.map .tok ++ X), out, errs⟩) ?_) ?_
    · have hs := skipWs_stop busy (l.map .tok ++ X) (sym 40) (sym_white 40) w hbl
      have h40 : (sym 40).is 40 = true := rfl
      simp only [List.cons_append, List.map_cons, List.map_append, List.append_assoc, SSt.step, hw, ↓reduceIte, hm, hn, hs, h40, h1,
        List.nil_append, hlen, hk, hbusy, fillBody_fill qs ps h2]
      simp
    · refine Turns.trans (ih1 (.fin k :: (rest.map .tok ++ X)) out errs (by simp)) ?_
      refine Turns.trans (Turns.one (b := ⟨busy, rest.map .tok ++ X, out ++ r1, errs⟩) ?_) ?_
      · simp [SSt.step, release_fresh k busy hbusy]
      · have := ih2 X (out ++ r1) errs hX; simpa using this
  | callOwn top busy t w l ps rest r m ms k hw hm hn hbl hargs hk hbusy _ ih =>
    intro X out errs hX
    obtain ⟨qs, over, h1, h2, h3⟩ := scan_args busy X l ps rest hargs []
    have hlen : qs.length = ps.length := by simpa using congrArg List.length h2
    refine Turns.trans (Turns.one (b := ⟨busy, (w ++ sym 40 :: l).map .tok ++ X, out ++ [t], errs⟩) ?_) ?_
    · have hs := skipWs_stop busy (l.map .tok ++ X) (sym 40) (sym_white 40) w hbl
      have h40 : (sym 40).is 40 = true := rfl
      simp only [List.cons_append, List.map_cons, List.map_append, List.append_assoc, SSt.step, hw, ↓reduceIte, hm, hn, hs, h40, h1,
        List.nil_append, hlen, hk, hbusy]
      rw [← h3]
      simp [SSt.copy]
    · have := ih X (out ++ [t]) errs hX; simpa using this

theorem mainLoop_turns (T : SMacs) {s s' : SSt} (h : Turns T s s') (he : s'.todo = []) :
    ∃ n, ∀ k, n ≤ k → mainLoop T k s = some (some s') := by
  induction h with
  | refl s =>
    refine ⟨1, fun k hk => ?_⟩
    obtain ⟨k, rfl⟩ : ∃ j, k = j + 1 := ⟨k - 1, by omega⟩
    simp [mainLoop, SSt.step, he]
  | step s s' s'' hs _ ih =>
    obtain ⟨n, hn⟩ := ih he
    refine ⟨n + 1, fun k hk => ?_⟩
    obtain ⟨k, rfl⟩ : ∃ j, k = j + 1 := ⟨k - 1, by omega⟩
    rw [mainLoop, hs]
    exact hn k (by omega)

/-- More fuel does not change the outcome of the main loop. -/
theorem mainLoop_mono (T : SMacs) : ∀ (n : Nat) (s : SSt) (x), mainLoop T n s = some x → ∀ k, n ≤ k → mainLoop T k s = some x
  | 0, s, x, h, _, _ => by simp [mainLoop] at h
  | n + 1, s, x, h, k, hk => by
    obtain ⟨k, rfl⟩ : ∃ j, k = j + 1 := ⟨k - 1, by omega⟩
    rw [mainLoop] at h ⊢
    cases hs : s.step T with
    | stop => rw [hs] at h; exact h
    | freed => rw [hs] at h; exact h
    | next s' => rw [hs] at h; exact mainLoop_mono T n s' x h k (by omega)

/-! ## Joining -/

theorem glue_joined {l r : List Tok} {b : Bool} (h : Joined l r b) : ∀ n, l.length ≤ n → glue n l = (r, b) := by
  induction h with
  | nil => intro n _; cases n <;> rfl
  | lone t => intro n _; cases n <;> rfl
  | join t u l r b ht hu _ ih =>
    intro n hn
    simp only [List.length_cons] at hn
    obtain ⟨n, rfl⟩ : ∃ j, n = j + 1 := ⟨n - 1, by omega⟩
    simp only [glue, ht, hu, ↓reduceIte]
    rw [ih n (by simp only [List.length_cons]; omega)]
  | plus t u v l r b ht hu hv hw _ ih =>
    intro n hn
    simp only [List.length_cons] at hn
    obtain ⟨n, rfl⟩ : ∃ j, n = j + 1 := ⟨n - 1, by omega⟩
    subst hv
    have hj : u.joins = false := by simp [Tok.joins, Tok.word, hu]
    have hs : skipWhite l = l := by
      cases l with
      | nil => rfl
      | cons x l => simp [skipWhite, hw x rfl]
    simp only [glue, ht, hj, hu, ↓reduceIte, glue.headPlus, Tok.plus, decide_true, and_self, Bool.false_eq_true, List.drop_one,
      List.tail_cons, hs]
    exact ih n (by simp only [List.length_cons]; omega)
  | plusWhite t u v w l r b ht hu hv hw _ ih =>
    intro n hn
    simp only [List.length_cons] at hn
    obtain ⟨n, rfl⟩ : ∃ j, n = j + 1 := ⟨n - 1, by omega⟩
    subst hv
    have hj : u.joins = false := by simp [Tok.joins, Tok.word, hu]
    simp only [glue, ht, hj, hu, ↓reduceIte, glue.headPlus, Tok.plus, decide_true, and_self, Bool.false_eq_true, List.drop_one,
      List.tail_cons, skipWhite, hw]
    exact ih n (by simp only [List.length_cons]; omega)
  | keep t u l r b hk _ ih =>
    intro n hn
    simp only [List.length_cons] at hn
    obtain ⟨n, rfl⟩ : ∃ j, n = j + 1 := ⟨n - 1, by omega⟩
    have := ih n (by simp only [List.length_cons]; omega)
    by_cases ht : t.word = true
    · obtain ⟨h1, h2⟩ := hk ht
      have : ¬ (u.ty = .white ∧ glue.headPlus l = true) := by
        rintro ⟨a, b⟩
        apply h2 a
        cases l with
        | nil => simp [glue.headPlus] at b
        | cons x l => simpa [glue.headPlus, Tok.plus] using b
      simp only [glue, ht, h1, ↓reduceIte, this, Bool.false_eq_true]
      rw [ih n (by simp only [List.length_cons]; omega)]
    · simp only [glue, ht, ↓reduceIte, Bool.false_eq_true]
      rw [this]

end Verif.Pp
