import Verif.Gas.Spec
namespace Verif.Gas
variable {L : Lang}

/-- From one point of a run to another. -/
def To (a b : St L × List (Line L)) : Prop := ∃ n, ∀ fuel, run (n + fuel) a.1 a.2 = run fuel b.1 b.2

theorem To.refl (a : St L × List (Line L)) : To a a := ⟨0, fun fuel => by rw [Nat.zero_add]⟩

theorem To.trans {a b c : St L × List (Line L)} (h : To a b) (h' : To b c) : To a c := by
  obtain ⟨n, hn⟩ := h
  obtain ⟨m, hm⟩ := h'
  exact ⟨n + m, fun fuel => by rw [Nat.add_assoc, hn, hm]⟩

theorem To.step {s : St L} {l : Line L} {rest : List (Line L)} {b : St L × List (Line L)} (hf : s.fatal = false) (h : s.line rest l = some b) :
    To (s, l :: rest) b := ⟨1, fun fuel => by rw [Nat.add_comm, run, hf]; simp [h]⟩

theorem run_fail {s s' : St L} {l : Line L} {rest r : List (Line L)} (hf : s.fatal = false) (h : s.line rest l = some (s', r)) (hf' : s'.fatal = true)
    (k : Nat) : run (2 + k) s (l :: rest) = some (.done s') := by
  rw [show 2 + k = k + 1 + 1 by omega]
  simp only [run, hf, h, hf', if_true]
  rfl

theorem collect_lines (p : Prog L) (k : Nat) (rest : List (Line L)) :
    collectRept (k + 1) (p.lines ++ rest) = (collectRept (k + 1) rest).map fun r => (p.lines ++ r.1, r.2) := by
  induction p generalizing k rest with
  | nil => simp [Prog.lines]
  | text t p ih => simp [Prog.lines, collectRept, ih, Function.comp_def]
  | set a p ih => simp [Prog.lines, collectRept, ih, Function.comp_def]
  | cond c y p ihy ih => simp [Prog.lines, collectRept, ih, ihy, Function.comp_def]
  | condElse c y n p ihy ihn ih => simp [Prog.lines, collectRept, ih, ihy, ihn, Function.comp_def]
  | rept e b p ihb ih =>
    simp only [Prog.lines, List.cons_append, List.append_assoc, collectRept]
    rw [ihb (k + 1)]
    simp only [collectRept]
    rw [if_neg (by omega), Nat.add_sub_cancel, ih]
    simp [Function.comp_def]

/-- A whole program that is skipped. -/
theorem skip_lines (p : Prog L) (s : St L) (hf : s.fatal = false) (hs : 1 ≤ s.skip) (rest : List (Line L)) : To (s, p.lines ++ rest) (s, rest) := by
  induction p generalizing s rest with
  | nil => exact To.refl _
  | text t p ih =>
    refine To.trans (To.step (by exact hf) (b := (s, p.lines ++ rest)) ?_) (ih s hf hs rest)
    simp only [St.line, St.text]
    rw [if_neg (by omega)]
    rfl
  | set a p ih =>
    refine To.trans (To.step (by exact hf) (b := (s, p.lines ++ rest)) ?_) (ih s hf hs rest)
    simp only [St.line, St.skipped]
    rw [if_neg (by omega)]
    rfl
  | cond c y p ihy ih =>
    simp only [Prog.lines, List.cons_append, List.append_assoc]
    refine To.trans (To.step (by exact hf) (b := ({ s with skip := s.skip + 1 }, y.lines ++ (Line.endif :: (p.lines ++ rest)))) ?_) ?_
    · simp only [St.line, St.skipped]
      rw [if_neg (by omega)]
    refine To.trans (ihy _ (by exact hf) (by simp) _) (To.trans (To.step (by exact hf) (b := (s, p.lines ++ rest)) ?_) (ih s hf hs rest))
    simp only [St.line, St.skipped]
    rw [if_neg (by omega)]
    simp
  | condElse c y n p ihy ihn ih =>
    simp only [Prog.lines, List.cons_append, List.append_assoc]
    refine To.trans (To.step (by exact hf) (b := ({ s with skip := s.skip + 1 }, y.lines ++ (Line.els :: (n.lines ++ (Line.endif :: (p.lines ++ rest)))))) ?_) ?_
    · simp only [St.line, St.skipped]
      rw [if_neg (by omega)]
    refine To.trans (ihy _ (by exact hf) (by simp) _) ?_
    refine To.trans (To.step (by exact hf) (b := ({ s with skip := s.skip + 1 }, n.lines ++ (Line.endif :: (p.lines ++ rest)))) ?_) ?_
    · simp only [St.line, St.skipped]
      rw [if_neg (by omega), if_neg (by omega)]
    refine To.trans (ihn _ (by exact hf) (by simp) _) (To.trans (To.step (by exact hf) (b := (s, p.lines ++ rest)) ?_) (ih s hf hs rest))
    simp only [St.line, St.skipped]
    rw [if_neg (by omega)]
    simp
  | rept e b p ihb ih =>
    simp only [Prog.lines, List.cons_append, List.append_assoc]
    refine To.trans (To.step (by exact hf) (b := (s, b.lines ++ (Line.endr :: (p.lines ++ rest)))) ?_) ?_
    · simp only [St.line, St.skipped]
      rw [if_neg (by omega)]
    refine To.trans (ihb s hf hs _) (To.trans (To.step (by exact hf) (b := (s, p.lines ++ rest)) ?_) (ih s hf hs rest))
    simp only [St.line, St.skipped]
    rw [if_neg (by omega)]

/-- The state after a program: what it has assembled, and a depth. -/
def St.after (s : St L) (r : L.State × List L.Out) (d : Nat) : St L := { s with env := r.1, out := r.2, depth := d }

/-- A program that is not skipped. -/
theorem run_lines (hL : L.Total) (p : Prog L) (s : St L) (hf : s.fatal = false) (hs : s.skip = 0) (rest : List (Line L)) :
    ∃ d, s.depth ≤ d ∧ (p.NoElse → d = s.depth) ∧ To (s, p.lines ++ rest) (s.after (p.exec (s.env, s.out)) d, rest) := by
  induction p generalizing s rest with
  | nil => exact ⟨s.depth, Nat.le_refl _, fun _ => rfl, To.refl _⟩
  | text t p ih =>
    obtain ⟨d, h1, h2, h3⟩ := ih { s with out := s.out ++ [L.subst s.env t] } hf hs rest
    refine ⟨d, h1, h2, To.trans (To.step (by exact hf) ?_) h3⟩
    simp only [St.line, St.text, hs, if_true]
    rfl
  | set a p ih =>
    obtain ⟨d, h1, h2, h3⟩ := ih { s with env := L.set s.env a } hf hs rest
    refine ⟨d, h1, h2, To.trans (To.step (by exact hf) ?_) h3⟩
    simp only [St.line, St.directive, hs, if_true]
    rfl
  | cond c y p ihy ih =>
    simp only [Prog.lines, List.cons_append, List.append_assoc]
    obtain ⟨b, hb⟩ := hL s.env c
    cases b with
    | true =>
      obtain ⟨d, h1, h2, h3⟩ := ihy { s with depth := s.depth + 1 } hf hs (Line.endif :: (p.lines ++ rest))
      simp only at h1 h2 h3
      obtain ⟨d', g1, g2, g3⟩ := ih (s.after (y.exec (s.env, s.out)) (d - 1)) hf hs rest
      refine ⟨d', by simp only [St.after] at g1; omega, fun hn => by rw [g2 hn.2]; simp only [St.after]; rw [h2 hn.1]; rfl, ?_⟩
      refine To.trans (To.step (by exact hf) ?_) (To.trans h3 (To.trans (To.step (by exact hf) (b := (s.after (y.exec (s.env, s.out)) (d - 1), p.lines ++ rest)) ?_) ?_))
      · simp only [St.line, St.directive, hs, if_true, hb, St.handleIf]
      · simp only [St.line, St.directive, St.after, hs, if_true]
        rw [if_neg (by omega)]
      · simp only [Prog.exec, hb, if_true]
        exact g3
    | false =>
      obtain ⟨d', g1, g2, g3⟩ := ih s hf hs rest
      refine ⟨d', g1, fun hn => g2 hn.2, ?_⟩
      refine To.trans (To.step (by exact hf) (b := ({ s with skip := 1 }, y.lines ++ (Line.endif :: (p.lines ++ rest)))) ?_)
        (To.trans (skip_lines y _ (by exact hf) (by simp) _) (To.trans (To.step (by exact hf) (b := (s, p.lines ++ rest)) ?_) ?_))
      · simp [St.line, St.directive, hs, hb, St.handleIf]
      · simp only [St.line, St.skipped]
        rw [if_neg (by decide)]
        simp [← hs]
      · simp only [Prog.exec, hb]
        exact g3
  | condElse c y n p ihy ihn ih =>
    simp only [Prog.lines, List.cons_append, List.append_assoc]
    obtain ⟨b, hb⟩ := hL s.env c
    cases b with
    | true =>
      obtain ⟨d, h1, h2, h3⟩ := ihy { s with depth := s.depth + 1 } hf hs (Line.els :: (n.lines ++ (Line.endif :: (p.lines ++ rest))))
      simp only at h1 h2 h3
      obtain ⟨d', g1, g2, g3⟩ := ih (s.after (y.exec (s.env, s.out)) d) hf hs rest
      refine ⟨d', by simp only [St.after] at g1; omega, fun hn => hn.elim, ?_⟩
      refine To.trans (To.step (by exact hf) ?_) (To.trans h3 (To.trans (To.step (by exact hf)
        (b := ({ s.after (y.exec (s.env, s.out)) d with skip := 1 }, n.lines ++ (Line.endif :: (p.lines ++ rest)))) ?_)
        (To.trans (skip_lines n _ (by exact hf) (by simp) _) (To.trans (To.step (by exact hf) (b := (s.after (y.exec (s.env, s.out)) d, p.lines ++ rest)) ?_) ?_))))
      · simp only [St.line, St.directive, hs, if_true, hb, St.handleIf]
      · simp only [St.line, St.directive, St.after, hs, if_true]
        rw [if_neg (by omega)]
      · simp only [St.line, St.skipped]
        rw [if_neg (by decide)]
        simp [St.after, hs]
      · simp only [Prog.exec, hb, if_true]
        exact g3
    | false =>
      obtain ⟨d, h1, h2, h3⟩ := ihn { s with depth := s.depth + 1 } hf hs (Line.endif :: (p.lines ++ rest))
      simp only at h1 h2 h3
      obtain ⟨d', g1, g2, g3⟩ := ih (s.after (n.exec (s.env, s.out)) (d - 1)) hf hs rest
      refine ⟨d', by simp only [St.after] at g1; omega, fun hn => hn.elim, ?_⟩
      refine To.trans (To.step (by exact hf) (b := ({ s with skip := 1 }, y.lines ++ (Line.els :: (n.lines ++ (Line.endif :: (p.lines ++ rest)))))) ?_)
        (To.trans (skip_lines y _ (by exact hf) (by simp) _) (To.trans (To.step (by exact hf)
          (b := ({ s with depth := s.depth + 1 }, n.lines ++ (Line.endif :: (p.lines ++ rest)))) ?_) (To.trans h3 (To.trans (To.step (by exact hf) (b := (s.after (n.exec (s.env, s.out)) (d - 1), p.lines ++ rest)) ?_) ?_))))
      · simp [St.line, St.directive, hs, hb, St.handleIf]
      · simp only [St.line, St.skipped]
        rw [if_neg (by decide)]
        simp [← hs]
      · simp only [St.line, St.directive, St.after, hs, if_true]
        rw [if_neg (by omega)]
      · simp only [Prog.exec, hb]
        exact g3
  | rept e b p ihb ih =>
    simp only [Prog.lines, List.cons_append, List.append_assoc]
    have rep : ∀ (n : Nat) (s : St L), s.fatal = false → s.skip = 0 → ∀ rest, ∃ d, s.depth ≤ d ∧ (b.NoElse → d = s.depth) ∧
        To (s, (List.replicate n b.lines).flatten ++ rest) (s.after (times b.exec n (s.env, s.out)) d, rest) := by
      intro n
      induction n with
      | zero => exact fun s _ _ rest => ⟨s.depth, Nat.le_refl _, fun _ => rfl, To.refl _⟩
      | succ n ihn =>
        intro s hf hs rest
        rw [List.replicate_succ, List.flatten_cons, List.append_assoc]
        obtain ⟨d, h1, h2, h3⟩ := ihb s hf hs ((List.replicate n b.lines).flatten ++ rest)
        obtain ⟨d', g1, g2, g3⟩ := ihn (s.after (b.exec (s.env, s.out)) d) hf hs rest
        exact ⟨d', Nat.le_trans h1 g1, fun hn => by rw [g2 hn]; exact h2 hn, To.trans h3 g3⟩
    obtain ⟨d, h1, h2, h3⟩ := rep (L.count s.env e).toNat s hf hs (p.lines ++ rest)
    obtain ⟨d', g1, g2, g3⟩ := ih (s.after (times b.exec (L.count s.env e).toNat (s.env, s.out)) d) hf hs rest
    refine ⟨d', Nat.le_trans h1 g1, fun hn => by rw [g2 hn.2]; exact h2 hn.1, ?_⟩
    refine To.trans (To.step (by exact hf) ?_) (To.trans h3 g3)
    simp only [St.line, St.directive, hs, if_true]
    rw [collect_lines b 0]
    simp [collectRept]

end Verif.Gas
