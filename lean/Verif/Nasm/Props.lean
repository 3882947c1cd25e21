import Verif.Nasm.Lemmas
/-
C87: names and labels in NASM source stand for what the program says.
-/
namespace Verif.Nasm

/-- What a statement does to the state, the symbols and the code. -/
structure Did (keyword : Name → Bool) (s : St) (past : List Stmt) (st : Stmt) (s' : St) : Prop where
  inv : Inv s' (st :: past)
  errs : s'.errs = s.errs
  defs : ∀ env, s'.defs.map (fun d => (d.1, d.2.meaning env)) = s.defs.map (fun d => (d.1, d.2.meaning env)) ++ st.defines env past
  code : ∀ env, s'.code.map (fun d => (d.1, d.2.made env)) = s.code.map (fun d => (d.1, d.2.made env)) ++ st.makes env past

/-- The state after the label of a line. -/
def labelled (s : St) (past : List Stmt) : Option (Word × Bool) → St
  | none => s
  | some (w, _) => St.define { s with base := if w.ordinary then some (w.full none) else s.base } (w.full (scope past))

theorem define_fields (s : St) (n : Name) :
    (s.define n).base = s.base ∧ (s.define n).sect = s.sect ∧ (s.define n).prev = s.prev ∧ (s.define n).absstart = s.absstart ∧
      (s.define n).abspos = s.abspos ∧ (s.define n).len = s.len ∧ (s.define n).code = s.code ∧ (s.define n).errs = s.errs := by
  obtain ⟨base, sect, prev, absstart, abspos, len, defs, code, errs⟩ := s
  cases abspos <;> cases prev <;> exact ⟨rfl, rfl, rfl, rfl, rfl, rfl, rfl, rfl⟩

theorem labelled_base (s : St) (past : List Stmt) (hi : Inv s past) (l : Option (Word × Bool)) (b : Option Body) :
    (labelled s past l).base = scope (.line l b :: past) := by
  cases l with
  | none => exact hi.base
  | some x =>
    obtain ⟨w, c⟩ := x
    unfold labelled
    rw [(define_fields _ _).1]
    simp only [scope, hi.base]

theorem labelled_fields (s : St) (past : List Stmt) (l : Option (Word × Bool)) :
    (labelled s past l).sect = s.sect ∧ (labelled s past l).prev = s.prev ∧ (labelled s past l).absstart = s.absstart ∧
      (labelled s past l).abspos = s.abspos ∧ (labelled s past l).len = s.len ∧ (labelled s past l).code = s.code ∧
      (labelled s past l).errs = s.errs := by
  cases l with
  | none => exact ⟨rfl, rfl, rfl, rfl, rfl, rfl, rfl⟩
  | some x =>
    obtain ⟨w, c⟩ := x
    unfold labelled
    obtain ⟨_, h1, h2, h3, h4, h5, h6, h7⟩ := define_fields { s with base := if w.ordinary then some (w.full none) else s.base } (w.full (scope past))
    exact ⟨h1, h2, h3, h4, h5, h6, h7⟩

theorem labelled_defs (s : St) (past : List Stmt) (hi : Inv s past) (l : Option (Word × Bool)) (b : Option Body) (env : Env) :
    (labelled s past l).defs.map (fun d => (d.1, d.2.meaning env)) =
      s.defs.map (fun d => (d.1, d.2.meaning env)) ++ (Stmt.line l b).defines env past := by
  cases l with
  | none => simp [labelled, Stmt.defines]
  | some x =>
    obtain ⟨w, c⟩ := x
    simp only [labelled, Stmt.defines, St.define, point]
    cases hh : home past with
    | some k =>
      obtain ⟨h1, h2, h3⟩ := hi.code k hh
      simp [h3, h1, Def.meaning]
    | none =>
      obtain ⟨a, e, h1, h2, h3⟩ := hi.abs hh
      simp [h2, Def.meaning, (h3 env).2]

theorem setBase_eq (s : St) (past : List Stmt) (hi : Inv s past) (w : Word) (k : Kind) (hk : k = .id ↔ w.ordinary = true) :
    s.setBase k (w.full s.base) = { s with base := if w.ordinary then some (w.full none) else s.base } := by
  unfold St.setBase
  by_cases h : k = .id
  · rw [if_pos h, if_pos (hk.mp h)]
    have := hk.mp h
    cases w <;> first | rfl | (simp [Word.ordinary] at this)
  · rw [if_neg h, if_neg (fun e => h (hk.mpr e))]

/-- The code of a line, with or without TIMES. -/
theorem body_value (keyword : Name → Bool) (s : St) (past : List Stmt) (hi : Inv s past) (sc : Option Name) (b : Body) (ok : b.Ok keyword) :
    ∃ p : Piece, (∀ env, p.made env = b.made env sc (here env past) (start env past)) ∧
      p.times.isSome = b.times.isSome ∧
      match b.times with
      | none => parseExp keyword { s with base := sc } b.toks = (some p, none)
      | some e => parseTimes keyword { s with base := sc } b.toks.tail = (some p, none) ∧ b.toks = .times :: b.toks.tail := by
  obtain ⟨xs, hxs, vxs⟩ := resolveAll_value keyword s past hi sc b.operands ok.operands
  cases ht : b.times with
  | none =>
    refine ⟨⟨b.mnemonic, b.reserve, xs, none⟩, fun env => ?_, rfl, ?_⟩
    · unfold Piece.made Body.made
      simp only [vxs, ht]
      rfl
    · unfold Body.toks
      rw [ht]
      simp only [List.nil_append, parseExp, hxs]
  | some e =>
    obtain ⟨x, hx, vx⟩ := resolve_value keyword s past hi sc e (ok.times e ht)
    refine ⟨⟨b.mnemonic, b.reserve, xs, some x⟩, fun env => ?_, rfl, ?_⟩
    · unfold Piece.made Body.made
      simp only [vxs, ht, Option.map_some, vx]
    · unfold Body.toks
      rw [ht]
      simp only [List.cons_append, List.nil_append, List.tail_cons, parseTimes, parseExp, hx, hxs, and_self]

/-- The state as far as expressions see it does not change with the definition. -/
theorem resolve_congr (keyword : Name → Bool) (s t : St) (h : s.base = t.base ∧ s.abspos = t.abspos ∧ s.prev = t.prev ∧ s.absstart = t.absstart ∧
    s.sect = t.sect) (e : Src) : resolve keyword s e = resolve keyword t e := by
  obtain ⟨h1, h2, h3, h4, h5⟩ := h
  induction e with
  | num v => rfl
  | word w => simp only [resolve, h1]
  | here => simp only [resolve, h2, h3]
  | start => simp only [resolve, h4, h5]
  | op o a b iha ihb => simp only [resolve, iha, ihb]

theorem resolveAll_congr (keyword : Name → Bool) (s t : St) (h : s.base = t.base ∧ s.abspos = t.abspos ∧ s.prev = t.prev ∧
    s.absstart = t.absstart ∧ s.sect = t.sect) (es : List Src) : resolveAll keyword s es = resolveAll keyword t es := by
  induction es with
  | nil => rfl
  | cons e es ih => simp only [resolveAll, resolve_congr keyword s t h, ih]

theorem parseExp_congr (keyword : Name → Bool) (s t : St) (h : s.base = t.base ∧ s.abspos = t.abspos ∧ s.prev = t.prev ∧
    s.absstart = t.absstart ∧ s.sect = t.sect) (ts : List Tok) : parseExp keyword s ts = parseExp keyword t ts := by
  unfold parseExp
  split <;> simp only [resolveAll_congr keyword s t h]

theorem parseTimes_congr (keyword : Name → Bool) (s t : St) (h : s.base = t.base ∧ s.abspos = t.abspos ∧ s.prev = t.prev ∧
    s.absstart = t.absstart ∧ s.sect = t.sect) (ts : List Tok) : parseTimes keyword s ts = parseTimes keyword t ts := by
  unfold parseTimes
  split
  · simp only [resolve_congr keyword s t h, parseExp_congr keyword s t h]
  · rfl

/-- Does the list start with a colon? -/
theorem body_toks_head (b : Body) : (∃ r, b.toks = .times :: r) ∨ ∃ m r os, b.toks = [.code m r os] := by
  unfold Body.toks
  cases b.times with
  | none => exact .inr ⟨_, _, _, rfl⟩
  | some e => exact .inl ⟨_, rfl⟩

theorem parseNamed_code (keyword : Name → Bool) (s : St) (k : Kind) (n : Name) (c : Bool) (m : Nat) (r : Option Nat) (os : List Src) :
    parseNamed keyword s k n (colonToks c ++ [.code m r os]) =
      ((s.setBase k n).define n, (parseExp keyword (s.setBase k n) [.code m r os]).1, (parseExp keyword (s.setBase k n) [.code m r os]).2) := by
  cases c <;> rfl

theorem parseNamed_times (keyword : Name → Bool) (s : St) (k : Kind) (n : Name) (c : Bool) (ts : List Tok) :
    parseNamed keyword s k n (colonToks c ++ .times :: ts) =
      ((s.setBase k n).define n, (parseTimes keyword ((s.setBase k n).define n) ts).1, (parseTimes keyword ((s.setBase k n).define n) ts).2) := by
  cases c <;> rfl

theorem parseNamed_none (keyword : Name → Bool) (s : St) (k : Kind) (n : Name) (c : Bool) :
    parseNamed keyword s k n (colonToks c ++ []) = ((s.setBase k n).define n, none, none) := by
  cases c <;> rfl

theorem parseNamed_equ (keyword : Name → Bool) (s : St) (k : Kind) (n : Name) (c : Bool) (e : Src) (x : Ex) (h : resolve keyword s e = some x) :
    parseNamed keyword s k n (colonToks c ++ [.equ, .expr e]) = ({ s with defs := s.defs ++ [(n, .equ x)] }, none, none) := by
  cases c <;> simp only [colonToks, if_true, Bool.false_eq_true, if_false, List.nil_append, List.cons_append, parseNamed, h]

/-- A line with code: the label has been defined, and the piece is the one meant. -/
theorem parseLine_body (keyword : Name → Bool) (s : St) (past : List Stmt) (hi : Inv s past) (l : Option (Word × Bool)) (b : Body)
    (okw : ∀ w c, l = some (w, c) → w.Ok keyword) (ok : b.Ok keyword) :
    ∃ p : Piece, (∀ env, p.made env = b.made env (scope (.line l (some b) :: past)) (here env past) (start env past)) ∧
      p.times.isSome = b.times.isSome ∧ parseLine keyword s (Stmt.line l (some b)).toks = (labelled s past l, some p, none) := by
  obtain ⟨p, h1, h2, h3⟩ := body_value keyword s past hi (scope (.line l (some b) :: past)) b ok
  refine ⟨p, h1, h2, ?_⟩
  have hb := labelled_base s past hi l (some b)
  cases l with
  | none =>
    have he : ({ s with base := scope (.line none (some b) :: past) } : St) = s := by
      have : s.base = scope (.line none (some b) :: past) := hi.base
      rw [← this]
    rw [he] at h3
    show parseLine keyword s b.toks = (s, some p, none)
    cases ht : b.times with
    | none =>
      rw [ht] at h3
      simp only at h3
      rcases body_toks_head b with ⟨r, e⟩ | ⟨m, r, os, e⟩
      · unfold Body.toks at e; rw [ht] at e; simp at e
      · rw [e] at h3 ⊢
        simp only [parseLine, h3]
    | some e =>
      rw [ht] at h3
      obtain ⟨h3, h4⟩ := h3
      rw [h4]
      simp only [parseLine, List.tail_cons, h3]
  | some x =>
    obtain ⟨w, c⟩ := x
    obtain ⟨k, hk1, hk2⟩ := lexWord_word keyword s.base w (okw w c rfl)
    have hset := setBase_eq s past hi w k hk2
    have hlab : labelled s past (some (w, c)) = (s.setBase k (w.full s.base)).define (w.full s.base) := by
      unfold labelled
      rw [hset, hi.base]
    have hsc : scope (.line (some (w, c)) (some b) :: past) = if w.ordinary then some (w.full none) else s.base := by
      simp only [scope, hi.base]
    rw [hsc, ← hset] at h3
    show parseLine keyword s (.word w.text :: colonToks c ++ b.toks) = _
    rw [hlab, List.cons_append]
    simp only [parseLine, hk1]
    cases ht : b.times with
    | none =>
      rw [ht] at h3
      simp only at h3
      rcases body_toks_head b with ⟨r, e⟩ | ⟨m, r, os, e⟩
      · unfold Body.toks at e; rw [ht] at e; simp at e
      · rw [e] at h3 ⊢
        rw [parseNamed_code, h3]
    | some e =>
      rw [ht] at h3
      obtain ⟨h3, h4⟩ := h3
      rw [h4, parseNamed_times]
      have hd := define_fields (s.setBase k (w.full s.base)) (w.full s.base)
      rw [parseTimes_congr keyword _ (s.setBase k (w.full s.base)) ⟨hd.1, hd.2.2.2.2.1, hd.2.2.1, hd.2.2.2.1, hd.2.1⟩, h3]

theorem parseLine_label (keyword : Name → Bool) (s : St) (past : List Stmt) (hi : Inv s past) (l : Option (Word × Bool))
    (okw : ∀ w c, l = some (w, c) → w.Ok keyword) :
    parseLine keyword s (Stmt.line l none).toks = (labelled s past l, none, none) := by
  cases l with
  | none => rfl
  | some x =>
    obtain ⟨w, c⟩ := x
    obtain ⟨k, hk1, hk2⟩ := lexWord_word keyword s.base w (okw w c rfl)
    have hset := setBase_eq s past hi w k hk2
    show parseLine keyword s (.word w.text :: colonToks c ++ []) = _
    rw [List.cons_append]
    simp only [parseLine, hk1]
    rw [parseNamed_none]
    unfold labelled
    rw [hset, hi.base]

theorem labelled_inv (s : St) (past : List Stmt) (hi : Inv s past) (l : Option (Word × Bool)) :
    Inv (labelled s past l) (.line l none :: past) := by
  obtain ⟨h1, h2, h3, h4, h5, _, _⟩ := labelled_fields s past l
  refine ⟨labelled_base s past hi l none, h1.trans hi.sect, fun k => ?_, fun k hk => ?_, fun hh => ?_⟩
  · rw [h5]; exact hi.len k
  · rw [h2, h3, h4]; exact hi.code k hk
  · rw [h3, h4]; exact hi.abs hh

theorem line_did (keyword : Name → Bool) (s : St) (past : List Stmt) (hi : Inv s past) (l : Option (Word × Bool)) (b : Option Body)
    (ok : (Stmt.line l b).Ok keyword past) : Did keyword s past (.line l b) (step keyword s (Stmt.line l b).toks) := by
  obtain ⟨okw, okb, okr⟩ := ok
  have hf := labelled_fields s past l
  obtain ⟨f1, f2, f3, f4, f5, f6, f7⟩ := hf
  cases b with
  | none =>
    have hp := parseLine_label keyword s past hi l okw
    have hs : step keyword s (Stmt.line l none).toks = labelled s past l := by unfold step; rw [hp]; rfl
    rw [hs]
    refine ⟨labelled_inv s past hi l, f7, fun env => labelled_defs s past hi l none env, fun env => ?_⟩
    rw [f6]
    simp [Stmt.makes]
  | some b =>
    obtain ⟨p, h1, h2, h3⟩ := parseLine_body keyword s past hi l b okw (okb b rfl)
    have hs : step keyword s (Stmt.line l (some b)).toks = place (labelled s past l) (some p) := by unfold step; rw [h3]
    rw [hs]
    cases hh : home past with
    | some k =>
      obtain ⟨c1, c2, c3⟩ := hi.code k hh
      have hsect := hi.sect
      rw [hh] at hsect
      have hpl : place (labelled s past l) (some p) = { labelled s past l with
          code := (labelled s past l).code ++ [(k, p)], len := fun j => if j = k then (labelled s past l).len k + 1 else (labelled s past l).len j,
          prev := some ⟨k, (labelled s past l).len k + 1⟩ } := by
        unfold place
        simp only [f4, c3, f1, hsect]
      have hpie : ∀ j, pieces j (.line l (some b) :: past) = pieces j past + if some k = some j then 1 else 0 := by
        intro j; simp only [pieces, hh]
      have hhome : home (.line l (some b) :: past) = some k := hh
      rw [hpl]
      refine ⟨⟨labelled_base s past hi l (some b), ?_, fun j => ?_, fun j hj => ?_, fun hn => ?_⟩, f7, fun env => ?_, fun env => ?_⟩
      · show (labelled s past l).sect = _
        rw [f1, hsect, hhome]
      · show (if j = k then (labelled s past l).len k + 1 else (labelled s past l).len j) = _
        rw [f5, hpie j]
        by_cases hjk : j = k
        · subst hjk; simp [hi.len]
        · have : ¬ some k = some j := by intro e; injection e with e; exact hjk e.symm
          rw [if_neg hjk, if_neg this, hi.len]; rfl
      · rw [hhome] at hj
        injection hj with hj
        subst hj
        refine ⟨?_, f3.trans c2, f4.trans c3⟩
        show some (Place.mk k ((labelled s past l).len k + 1)) = _
        rw [f5, hpie k, hi.len, if_pos rfl]
      · rw [hhome] at hn; cases hn
      · exact labelled_defs s past hi l (some b) env
      · show ((labelled s past l).code ++ [(k, p)]).map _ = _
        rw [f6, List.map_append, List.map_cons, List.map_nil, h1 env]
        simp only [Stmt.makes, hh]
    | none =>
      obtain ⟨a, e, c1, c2, c3⟩ := hi.abs hh
      obtain ⟨r1, r2⟩ := okr hh b rfl
      obtain ⟨size, hsz⟩ := Option.isSome_iff_exists.mp r1
      have hm : ∀ env, p.mnemonic = b.mnemonic ∧ p.reserve = b.reserve ∧
          p.operands.map (·.value env) = b.operands.map (·.value env (scope (.line l (some b) :: past)) (here env past) (start env past)) ∧
          p.times.map (·.value env) = b.times.map (·.value env (scope (.line l (some b) :: past)) (here env past) (start env past)) := by
        intro env
        have := h1 env
        unfold Piece.made Body.made at this
        injection this with a b c d
        exact ⟨a, b, c, d⟩
      have hres : p.reserve = some size := by rw [(hm ⟨fun _ => 0, fun _ => 0⟩).2.1, hsz]
      cases hop : b.operands with
      | nil => exact absurd hop r2
      | cons o os =>
        cases hpo : p.operands with
        | nil =>
          have := (hm ⟨fun _ => 0, fun _ => 0⟩).2.2.1
          rw [hpo, hop] at this
          cases this
        | cons n ns =>
          have hn : ∀ env, n.value env = o.value env (scope (.line l (some b) :: past)) (here env past) (start env past) := by
            intro env
            have := (hm env).2.2.1
            rw [hpo, hop, List.map_cons, List.map_cons] at this
            injection this
          have hpl : ∃ x, place (labelled s past l) (some p) = { labelled s past l with abspos := some (.op .add e x) } ∧
              ∀ env, x.value env = b.space env (scope (.line l (some b) :: past)) (here env past) (start env past) := by
            unfold place
            simp only [f4, c2, hres, hpo]
            refine ⟨_, rfl, fun env => ?_⟩
            have ht := (hm env).2.2.2
            unfold Body.space
            rw [hop, hsz]
            cases hpt : p.times with
            | none =>
              rw [hpt] at ht
              cases hbt : b.times with
              | none => simp [Ex.value, Op.eval, hn env]
              | some t => rw [hbt] at ht; cases ht
            | some y =>
              rw [hpt] at ht
              cases hbt : b.times with
              | none => rw [hbt] at ht; cases ht
              | some t =>
                rw [hbt, Option.map_some, Option.map_some] at ht
                injection ht with ht
                simp [Ex.value, Op.eval, hn env, ht]
          obtain ⟨x, hpl, hx⟩ := hpl
          have hhome : home (.line l (some b) :: past) = none := hh
          rw [hpl]
          refine ⟨⟨labelled_base s past hi l (some b), ?_, fun j => ?_, fun j hj => ?_, fun _ => ?_⟩, f7, fun env => ?_, fun env => ?_⟩
          · show (labelled s past l).sect = _
            rw [f1, hi.sect]
            rfl
          · show (labelled s past l).len j = _
            rw [f5, hi.len]
            simp only [pieces, hh]
            rfl
          · rw [hhome] at hj; cases hj
          · refine ⟨a, .op .add e x, f3.trans c1, rfl, fun env => ⟨(c3 env).1, ?_⟩⟩
            show e.value env + x.value env = _
            rw [(c3 env).2, hx env]
            have hhe : here env past = (address env past).2 := by unfold here; rw [hh]
            have hst : start env past = (address env past).1 := by unfold start; rw [hh]
            rw [hhe, hst]
            rfl
          · exact labelled_defs s past hi l (some b) env
          · show (labelled s past l).code.map _ = _
            rw [f6]
            simp [Stmt.makes, hh]

theorem step_did (keyword : Name → Bool) (s : St) (past : List Stmt) (hi : Inv s past) (st : Stmt) (ok : st.Ok keyword past) :
    Did keyword s past st (step keyword s st.toks) := by
  cases st with
  | line l b => exact line_did keyword s past hi l b ok
  | equ w c e =>
    obtain ⟨k, hk1, hk2⟩ := lexWord_word keyword s.base w ok.1
    obtain ⟨x, hx, vx⟩ := resolve_value keyword s past hi (scope past) e ok.2
    have he : ({ s with base := scope past } : St) = s := by rw [← hi.base]
    rw [he] at hx
    have hp : parseLine keyword s (Stmt.equ w c e).toks = ({ s with defs := s.defs ++ [(w.full s.base, .equ x)] }, none, none) := by
      show parseLine keyword s (.word w.text :: colonToks c ++ [.equ, .expr e.src]) = _
      rw [List.cons_append]
      simp only [parseLine, hk1]
      exact parseNamed_equ keyword s k _ c e.src x hx
    have hs : step keyword s (Stmt.equ w c e).toks = { s with defs := s.defs ++ [(w.full s.base, .equ x)] } := by unfold step; rw [hp]; rfl
    rw [hs]
    refine ⟨⟨hi.base, hi.sect, hi.len, hi.code, hi.abs⟩, rfl, fun env => ?_, fun env => ?_⟩
    · show (s.defs ++ [(w.full s.base, Def.equ x)]).map _ = _
      rw [List.map_append, hi.base]
      simp [Stmt.defines, Def.meaning, vx env]
    · simp [Stmt.makes]
  | sect k =>
    have hs : step keyword s (Stmt.sect k).toks = { s with sect := some k, absstart := none, abspos := none, prev := some ⟨k, s.len k⟩ } := rfl
    rw [hs]
    refine ⟨⟨hi.base, rfl, hi.len, fun j hj => ?_, fun h => by cases h⟩, rfl, fun env => by simp [Stmt.defines], fun env => by simp [Stmt.makes]⟩
    have hj : some k = some j := hj
    injection hj with hj
    subst hj
    refine ⟨?_, rfl, rfl⟩
    show some (Place.mk k (s.len k)) = _
    rw [hi.len]
    rfl
  | absolute e =>
    obtain ⟨x, hx, vx⟩ := argument_value keyword s e ok
    have hs : step keyword s (Stmt.absolute e).toks = { s with absstart := some x, abspos := some x, sect := none, prev := none } := by
      have hp : parseLine keyword s (Stmt.absolute e).toks = ({ s with absstart := some x, abspos := some x, sect := none, prev := none }, none, none) := by
        show parseLine keyword s [.absolute (some e.src)] = _
        simp only [parseLine, hx]
      unfold step
      rw [hp]
      rfl
    rw [hs]
    refine ⟨⟨hi.base, rfl, hi.len, fun j hj => (by cases hj), fun _ => ⟨x, x, rfl, rfl, fun env => ⟨vx env, vx env⟩⟩⟩, rfl,
      fun env => by simp [Stmt.defines], fun env => by simp [Stmt.makes]⟩

theorem run_did (keyword : Name → Bool) (s : St) (past : List Stmt) (hi : Inv s past) (p : List Stmt) (ok : AllOk keyword past p) (env : Env) :
    let t := (p.map Stmt.toks).foldl (step keyword) s
    t.errs = s.errs ∧ t.defs.map (fun d => (d.1, d.2.meaning env)) = s.defs.map (fun d => (d.1, d.2.meaning env)) ++ allDefines env past p ∧
      t.code.map (fun d => (d.1, d.2.made env)) = s.code.map (fun d => (d.1, d.2.made env)) ++ allMakes env past p := by
  induction p generalizing s past with
  | nil => simp [allDefines, allMakes]
  | cons st p ih =>
    obtain ⟨o1, o2⟩ := ok
    obtain ⟨d1, d2, d3, d4⟩ := step_did keyword s past hi st o1
    obtain ⟨i1, i2, i3⟩ := ih (step keyword s st.toks) (st :: past) d1 o2
    simp only [List.map_cons, List.foldl_cons, allDefines, allMakes]
    refine ⟨i1.trans d2, ?_, ?_⟩
    · rw [i2, d3, List.append_assoc]
    · rw [i3, d4, List.append_assoc]

theorem init_inv : Inv St.init [] :=
  ⟨rfl, rfl, fun _ => rfl, fun k hk => by cases hk; exact ⟨rfl, rfl, rfl⟩, fun h => by cases h⟩

/-- C87: a program without errors of form is accepted; each label is defined once for each time it is written, in order, under its full name, and
    stands for the place of what follows it or for the address after `absolute`; and each instruction gets the values that its operands have in
    the source, with the names in the scope of the last ordinary label. -/
theorem labels_meant (keyword : Name → Bool) (p : List Stmt) (ok : AllOk keyword [] p) (env : Env) :
    (run keyword (p.map Stmt.toks)).errs = [] ∧
      (run keyword (p.map Stmt.toks)).defs.map (fun d => (d.1, d.2.meaning env)) = allDefines env [] p ∧
      (run keyword (p.map Stmt.toks)).code.map (fun d => (d.1, d.2.made env)) = allMakes env [] p := by
  have h := run_did keyword St.init [] init_inv p ok env
  exact h

/-- Which words are keywords in the cases below. -/
def someKeywords (n : Name) : Bool := ["mov", "eax", "loop"].map String.toList |>.contains n

/-- ```
    start: mov .tail            ; start.tail
    .tail  times 3 db $ - start
    $eax   resd loop2           ; a name although it is a register
    .tail: equ $ - $$           ; eax.tail
           section 1
    ..@k   db .tail             ; still eax.tail
           absolute $mov
    field  times 2 resw 4
    .size  equ $ - $$
           resb field.size
    last
           section 0
    final: db last
    ``` -/
def sample : List Stmt :=
  let w (s : String) : Word := .plain s.toList
  let t : Word := .loc "tail".toList
  [.line (some (w "start", true)) (some ⟨1, none, [.word t], none⟩),
    .line (some (t, false)) (some ⟨2, none, [.op .sub .here (.word (w "start"))], some (.num 3)⟩),
    .line (some (.forced "eax".toList, false)) (some ⟨3, some 4, [.word (w "loop2")], none⟩),
    .equ t true (.op .sub .here .start),
    .sect 1,
    .line (some (.special "@k".toList, false)) (some ⟨2, none, [.word t], none⟩),
    .absolute (.word (.forced "mov".toList)),
    .line (some (w "field", false)) (some ⟨4, some 2, [.num 4], some (.num 2)⟩),
    .equ (.loc "size".toList) false (.op .sub .here .start),
    .line none (some ⟨5, some 1, [.word (w "field.size")], none⟩),
    .line (some (w "last", false)) none,
    .sect 0,
    .line (some (w "final", true)) (some ⟨2, none, [.word (w "last")], none⟩)]

theorem word_ok (w : Word) (keyword : Name → Bool) (h : (match w with
    | .plain n => !keyword n && !n.isEmpty && n.head? != some '.' && n.head? != some '$' && n.take 2 != ['@', '@']
    | .forced n => !n.isEmpty && n.head? != some '.' && !(n.head?.map isDigit |>.getD false)
    | .loc t => !t.isEmpty && t.head? != some '.'
    | .forcedLoc t => !t.isEmpty && t.head? != some '.'
    | .special _ => true) = true) : w.Ok keyword := by
  cases w with
  | plain n => simp at h; exact ⟨h.1.1.1.1, h.1.1.1.2, h.1.1.2, h.1.2, h.2⟩
  | forced n =>
    simp at h
    refine ⟨h.1.1, h.1.2, fun c hc => ?_⟩
    have hc : n.head? = some c := hc
    rw [hc] at h
    simpa using h.2
  | loc t => simp at h; exact h
  | forcedLoc t => simp at h; exact h
  | special t => trivial

/-- The hypotheses of `labels_meant` are met by it. -/
theorem sample_ok : AllOk someKeywords [] sample := by
  have k (w : Word) (h) : w.Ok someKeywords := word_ok w someKeywords h
  have b1 (m r) (e : SEx) (he : e.Ok someKeywords) : Body.Ok someKeywords ⟨m, r, [e], none⟩ :=
    ⟨fun x hx => by rw [List.mem_singleton] at hx; rw [hx]; exact he, fun _ h => by cases h⟩
  have b2 (m r) (e t : SEx) (he : e.Ok someKeywords) (ht : t.Ok someKeywords) : Body.Ok someKeywords ⟨m, r, [e], some t⟩ :=
    ⟨fun x hx => by rw [List.mem_singleton] at hx; rw [hx]; exact he, fun _ h => by cases h; exact ht⟩
  have l1 (w : Word) (c : Bool) (b : Option Body) (past) (hw : w.Ok someKeywords) (hb : ∀ x, b = some x → x.Ok someKeywords)
      (hr : home past = none → ∀ x, b = some x → x.reserve.isSome ∧ x.operands ≠ []) : Stmt.Ok someKeywords past (.line (some (w, c)) b) :=
    ⟨fun _ _ h => by cases h; exact hw, hb, hr⟩
  have nh (past : List Stmt) (b : Option Body) (h : home past ≠ none) : home past = none → ∀ x, b = some x → x.reserve.isSome ∧ x.operands ≠ [] :=
    fun e => absurd e h
  refine ⟨l1 _ _ _ _ (k _ (by decide)) (fun _ h => ?_) (nh _ _ (by decide)),
    l1 _ _ _ _ (k _ (by decide)) (fun _ h => ?_) (nh _ _ (by decide)),
    l1 _ _ _ _ (k _ (by decide)) (fun _ h => ?_) (nh _ _ (by decide)),
    ⟨k _ (by decide), trivial, trivial⟩, trivial,
    l1 _ _ _ _ (k _ (by decide)) (fun _ h => ?_) (nh _ _ (by decide)),
    k (.forced _) (by decide),
    l1 _ _ _ _ (k _ (by decide)) (fun _ h => ?_) (fun _ _ h => ?_),
    ⟨k _ (by decide), trivial, trivial⟩,
    ⟨(fun _ _ h => by cases h), fun _ h => ?_, fun _ _ h => ?_⟩,
    l1 _ _ _ _ (k _ (by decide)) (fun _ h => by cases h) (fun _ _ h => by cases h), trivial,
    l1 _ _ _ _ (k _ (by decide)) (fun _ h => ?_) (nh _ _ (by decide)), trivial⟩
  · cases h; exact b1 _ _ _ (k _ (by decide))
  · cases h; exact b2 _ _ _ _ ⟨trivial, k _ (by decide)⟩ trivial
  · cases h; exact b1 _ _ _ (k _ (by decide))
  · cases h; exact b1 _ _ _ (k _ (by decide))
  · cases h; exact b2 _ _ _ _ trivial trivial
  · cases h; exact ⟨rfl, by simp⟩
  · cases h; exact b1 _ _ _ (k _ (by decide))
  · cases h; exact ⟨rfl, by simp⟩
  · cases h; exact b1 _ _ _ (k _ (by decide))

/-- What its labels stand for, if `mov` is 100 and `field.size` 7. -/
example : (run someKeywords (sample.map Stmt.toks)).defs.map (fun d => (d.1, d.2.meaning
      ⟨fun n => if n = "mov".toList then 100 else if n = "field.size".toList then 7 else 0, fun p => 10 * p.idx + p.sect⟩)) =
    [("start".toList, .label ⟨0, 0⟩), ("start.tail".toList, .label ⟨0, 1⟩), ("eax".toList, .label ⟨0, 2⟩), ("eax.tail".toList, .value 30),
      ("..@k".toList, .label ⟨1, 0⟩), ("field".toList, .value 100), ("field.size".toList, .value 16), ("last".toList, .value 123),
      ("final".toList, .label ⟨0, 3⟩)] := by
  with_unfolding_all decide +kernel

/-! ### What is reported -/

/-- C87: after `absolute`, whatever was before, a line with code that reserves nothing is reported and adds nothing: neither code nor space. -/
theorem code_after_absolute_reported (keyword : Name → Bool) (p : List Stmt) (ok : AllOk keyword [] p) (abs : home p.reverse = none)
    (m : Nat) (os : List SEx) (hos : ∀ e ∈ os, e.Ok keyword) (env : Env) :
    let t := run keyword (p.map Stmt.toks ++ [(Stmt.line none (some ⟨m, none, os, none⟩)).toks])
    t.errs = [.onlyReserve] ∧ t.code.map (fun d => (d.1, d.2.made env)) = allMakes env [] p ∧
      (t.abspos.map (·.value env)) = some (address env p.reverse).2 := by
  have hinv : ∀ (q : List Stmt) (s : St) (past : List Stmt), Inv s past → AllOk keyword past q →
      Inv ((q.map Stmt.toks).foldl (step keyword) s) (q.reverse ++ past) := by
    intro q
    induction q with
    | nil => intro s past hi _; exact hi
    | cons st q ih =>
      intro s past hi ho
      have := ih (step keyword s st.toks) (st :: past) (step_did keyword s past hi st ho.1).inv ho.2
      simpa using this
  have hi := hinv p St.init [] init_inv ok
  rw [List.append_nil] at hi
  obtain ⟨h1, _, h3⟩ := labels_meant keyword p ok env
  have hrun : run keyword (p.map Stmt.toks ++ [(Stmt.line none (some ⟨m, none, os, none⟩)).toks]) =
      step keyword (run keyword (p.map Stmt.toks)) [.code m none (os.map SEx.src)] := by
    unfold run; rw [List.foldl_append]; rfl
  have hi : Inv (run keyword (p.map Stmt.toks)) p.reverse := hi
  generalize run keyword (p.map Stmt.toks) = s at *
  obtain ⟨x, y, hx, hy, hv⟩ := hi.abs abs
  obtain ⟨es, hes, _⟩ := resolveAll_value keyword s p.reverse hi s.base os hos
  have hes : resolveAll keyword s (os.map SEx.src) = some es := hes
  have hstep : step keyword s [.code m none (os.map SEx.src)] = s.error .onlyReserve := by
    have hp : parseLine keyword s [.code m none (os.map SEx.src)] = (s, some ⟨m, none, es, none⟩, none) := by
      simp only [parseLine, parseExp, hes]
    unfold step
    rw [hp]
    have : place s (some ⟨m, none, es, none⟩) = s.error .onlyReserve := by
      unfold place
      simp only [hy]
    exact this
  rw [hrun, hstep]
  refine ⟨?_, h3, ?_⟩
  · show s.errs ++ _ = _
    rw [h1]; rfl
  · show s.abspos.map _ = _
    rw [hy]
    exact congrArg some (hv env).2

/-! ### Where names do not stand for what is written -/

/-- `$5` is a name, but `$05` is a number; so a digit after the dollar sign means one thing or the other with the number of digits. -/
theorem forced_digit_witness : lexWord someKeywords none "$5".toList = .name .id "5".toList ∧
    lexWord someKeywords none "$05".toList = .num 5 ∧ lexWord someKeywords none "$1x".toList = .name .id "1x".toList := by
  with_unfolding_all decide +kernel

/-- `absolute $eax` is at the symbol `eax`, but `absolute $eax + 4` is at a symbol whose name has the dollar sign in it. -/
theorem forced_in_directive_witness :
    (run someKeywords [[.absolute (some (.word "$eax".toList))]]).abspos = some (.sym "eax".toList) ∧
      (run someKeywords [[.absolute (some (.op .add (.word "$eax".toList) (.num 4)))]]).abspos =
        some (.op .add (.sym "$eax".toList) (.num 4)) := by
  with_unfolding_all decide +kernel

/-- `absolute @x` is at the symbol `x`, although `@x` is another symbol everywhere else. -/
theorem at_in_directive_witness :
    (run someKeywords [[.word "@x".toList], [.absolute (some (.word "@x".toList))]]).abspos = some (.sym "x".toList) ∧
      (run someKeywords [[.word "@x".toList], [.absolute (some (.word "@x".toList))]]).defs = [("@x".toList, .label ⟨0, 0⟩)] := by
  with_unfolding_all decide +kernel

/-- A local name in a directive is not in the scope of the last label: `absolute .b` is at a symbol `.b` that is not the label before. -/
theorem local_in_directive_witness :
    let t := run someKeywords [[.word "a".toList], [.word ".b".toList], [.absolute (some (.word ".b".toList))]]
    t.defs = [("a".toList, .label ⟨0, 0⟩), ("a.b".toList, .label ⟨0, 0⟩)] ∧ t.abspos = some (.sym ".b".toList) ∧ t.errs = [] := by
  with_unfolding_all decide +kernel

/-- `absolute "a"` is not reported; after it labels are not defined, and that is not reported either. -/
theorem absolute_string_witness :
    let t := run someKeywords [[.absolute none], [.word "lost".toList, .colon]]
    t.defs = [] ∧ t.errs = [] ∧ t.abspos = none := by
  with_unfolding_all decide +kernel

/-- `@@x` is a local label outside of TASM mode too, and what it is depends on the label before. -/
theorem at_at_witness : (run someKeywords [[.word "a".toList], [.word "@@x".toList]]).defs =
    [("a".toList, .label ⟨0, 0⟩), ("a@@x".toList, .label ⟨0, 0⟩)] := by
  with_unfolding_all decide +kernel

end Verif.Nasm
