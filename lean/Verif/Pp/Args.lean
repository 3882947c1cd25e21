import Verif.Pp.TokMore
import Verif.Pp.Sample
/-
C79: the parameters of a macro call.
-/
namespace Verif.Pp

/-! ## From the call to the parameters -/

/-- The arguments of a call are what is written between the commas, without the white space around
    it or the braces: commas in braces are part of the argument. -/
theorem arguments_read (ss : List Spaced) (h : ∀ s ∈ ss, s.arg.ok) (n : Nat) (hn : (render ss).length < n) :
    (marks n (render ss)).map (fun a => (cutArg true a).value) = ss.map (·.arg.value) := by
  rw [marks_render ss n h hn]; exact rests_value ss h

/-- The last parameter of a macro with `+` is the rest of the line, commas and all; if the
    argument is in braces, it is what is in them. -/
theorem greedy_argument (ss : List Spaced) (h : ∀ s ∈ ss, s.arg.ok) (n : Nat) (hn : (render ss).length < n)
    (k : Nat) (s : Spaced) (hk : ss[k]? = some s) :
    ∃ a, (marks n (render ss))[k]? = some a ∧
      (∀ ts, s.arg = .plain ts → space s.before ++ (cutArg false a).value = render (ss.drop k)) ∧
      (∀ ts, s.arg = .braced ts → (cutArg false a).value = ts) := by
  obtain ⟨R, h1, h2⟩ := rests_get ss k s hk
  refine ⟨_, by rw [marks_render ss n h hn]; exact h1, ?_, ?_⟩
  · intro ts e
    have hs := h s (List.mem_of_getElem? hk)
    rw [e] at hs
    obtain ⟨hc, ⟨t', r', e', h3, h4⟩, hl⟩ := hs
    rw [← h2, e]
    congr 1
    have hsk : skipWhite (ts ++ R) = ts ++ R := by
      subst e'; simp [skipWhite, h3]
    have hb : headIs 123 (ts ++ R) = false := by
      subst e'
      simp only [List.cons_append, headIs]
      by_contra hx
      exact h4 ((is_eq 123 t').1 (by simpa using hx))
    simp only [cutArg, Written.toks, hsk, hb, Bool.false_eq_true, ↓reduceIte, Arg.value, argLen_all]
    exact List.take_length
  · intro ts e
    have hs := h s (List.mem_of_getElem? hk)
    rw [e] at hs ⊢
    have hsk : skipWhite (open' :: (ts ++ [close']) ++ R) = open' :: (ts ++ close' :: R) := by
      simp [skipWhite, open']
    have hb : headIs 123 (open' :: (ts ++ close' :: R)) = true := by simp [headIs, open', Tok.is]
    simp only [cutArg, Written.toks, hsk, Arg.value, hb, ↓reduceIte, List.tail_cons, argLen_braced R ts hs]
    simp

theorem mapIdx_value (l : List Arg) :
    (List.mapIdx (fun _ p => cutArg true p) l).map Arg.value = l.map (fun a => (cutArg true a).value) := by
  apply List.ext_getElem?
  intro i
  simp only [List.getElem?_map, List.getElem?_mapIdx, Option.map_map]
  rfl

/-- The parameters of a call of a macro without `+`: the arguments of the call, then those of the
    defaults in the heading that are still needed. -/
theorem call_parameters {U : Type} {c a ct tn hd' sm} (h : Head Arg) (hp : h.plus = false) (h0 : 0 ≤ h.min) (ss ds : List Spaced) (hs : ∀ s ∈ ss, s.arg.ok)
    (hd : ∀ s ∈ ds, s.arg.ok) (n n' : Nat) (hn : (render ss).length < n) (hn' : (render ds).length < n')
    (hdef : h.defaults = marks n' (render ds)) (hmin : h.min ≤ (marks n (render ss)).length) :
    (cutParams (tokSig U c a ct tn hd' sm) h (marks n (render ss))).map Arg.value =
      ss.map (·.arg.value) ++ (ds.map (·.arg.value)).drop (ss.length - h.min.toNat) := by
  have hlen : (marks n (render ss)).length = ss.length := by
    have := congrArg List.length (arguments_read ss hs n hn)
    simpa using this
  have hm : (cutParams (tokSig U c a ct tn hd' sm) h (marks n (render ss))).map Arg.value =
      (fullParams h (marks n (render ss))).map (fun a => (cutArg true a).value) := by
    unfold cutParams
    simp only [hp, Bool.not_false, Bool.true_or]
    exact mapIdx_value _
  rw [hm]
  unfold fullParams
  simp only [hp, Bool.false_eq_true, false_and, ↓reduceIte, List.map_append, List.map_drop]
  rw [arguments_read ss hs n hn, hdef, arguments_read ds hd n' hn', hlen]
  congr 2
  omega

section
open Sample

/-- ` p , { q , r } ,s` -/
def sampleArgs : List Spaced :=
  [⟨some [32], .plain [id' ['p']], some [32]⟩, ⟨some [32], .braced [id' ['q'], ot ',', id' ['r']], none⟩,
   ⟨none, .plain [id' ['s'], ws, ot '+', ws, num 1], none⟩]

example : ∀ s ∈ sampleArgs, s.arg.ok := by
  intro s hs
  simp only [sampleArgs, List.mem_cons, List.not_mem_nil, or_false] at hs
  rcases hs with rfl | rfl | rfl
  · exact ⟨by decide, ⟨_, _, rfl, by decide, by decide⟩, by decide⟩
  · show close' ∉ _; decide
  · exact ⟨by decide, ⟨_, _, rfl, by decide, by decide⟩, by decide⟩

example : (marks 20 (render sampleArgs)).map (fun a => (cutArg true a).value) =
    [[id' ['p']], [id' ['q'], ot ',', id' ['r']], [id' ['s'], ws, ot '+', ws, num 1]] := by decide +kernel

end

/-! ## From the parameters to the body -/

/-- In the body `%k` is replaced by the k-th argument, counted from the one the list was rotated
    to; `%0` by the number of arguments; `%%x` by a name with the number of the call in it.  All
    other tokens stay. -/
theorem references_replaced (f : Frame Arg) (hr : 0 ≤ f.rotate) (xs : List Ref) (h : ∀ x ∈ xs, x.ok) :
    expandToks (some f) (xs.map Ref.toTok) = some (xs.flatMap (Ref.meaning f)) := expandToks_refs f hr xs h

section
open Sample

/-- Three arguments, rotated by one, in call 7. -/
def sampleFrame : Frame Arg := ⟨(marks 20 (render sampleArgs)).map (cutArg true), 1, 7⟩

example : (([.tok (id' ['a']), .tok ws, .arg 1, .count, .own [120], .arg 3, .arg 4] : List Ref)).flatMap
      (Ref.meaning sampleFrame) =
    [id' ['a'], ws, id' ['q'], ot ',', id' ['r'], num 3, id' ['.', '.', '@', '7', '.', 'x'], id' ['p']] := by
  decide +kernel

example : ∀ x ∈ ([.tok (id' ['a']), .tok ws, .arg 1, .count, .own [120], .arg 3, .arg 4] : List Ref), x.ok := by
  intro x hx
  simp only [List.mem_cons, List.not_mem_nil, or_false] at hx
  rcases hx with rfl | rfl | rfl | rfl | rfl | rfl | rfl <;>
    simp [Ref.ok, id', ws]

end

/-- The local names of different calls differ, and those of one call differ if the names do. -/
theorem own_names_apart (f g : Frame Arg) (x y : Name)
    (h : Ref.meaning f (.own x) = Ref.meaning g (.own y)) : f.unique = g.unique ∧ x = y := by
  simp only [Ref.meaning, List.cons.injEq, Tok.mk.injEq, and_true, true_and] at h
  have h : dec f.unique ++ 46 :: x = dec g.unique ++ 46 :: y := by simpa using h
  obtain ⟨h1, h2⟩ := digits_split _ _ _ _ (dec_digit _) (dec_digit _) h
  exact ⟨dec_inj h1, h2⟩

/-- `%+k` is the condition code given as the k-th argument, and `%-k` a condition code that is true
    exactly when that one is not. -/
theorem condition_codes (f : Frame Arg) (hr : 0 ≤ f.rotate) (k : Nat) (hk : 1 ≤ k) (hn : k ≤ f.params.length)
    (a : Arg) (ha : f.params[(k - 1 + f.rotate.toNat) % f.params.length]? = some a)
    (w : Name) (s : Option Name) (R : List Tok) (ht : a.tail = ⟨.id, w⟩ :: R)
    (hR : R = [] ∨ ∃ R', R = space s ++ comma :: R') (c : Nat) (hc : (w.map lower, c) ∈ ccNumber) :
    expandTok (some f) ⟨.ppid, 37 :: 43 :: dec k⟩ = some [⟨.id, w.map lower⟩] ∧
    ∃ v, expandTok (some f) ⟨.ppid, 37 :: 45 :: dec k⟩ = some [⟨.id, v⟩] ∧ (v, opposite c) ∈ ccNumber := by
  obtain ⟨i, h1, h2, j, h3, h4⟩ := cc_table _ hc
  rw [ccSearch_lower] at h1
  have h1 : ccSearch w 33 0 32 = some i := h1
  have hp := paramAt_eq f k hk hr hn
  have hcc := findCc_arg w s R hR
  obtain ⟨r1, c1⟩ := atoi_sign k hk 43 (Or.inl rfl)
  obtain ⟨r2, c2⟩ := atoi_sign k hk 45 (Or.inr rfl)
  constructor
  · unfold expandTok
    rw [r1]
    simp only [c1, Bool.false_eq_true, ↓reduceIte, atoi_dec k hk, hp, ha, ht, hcc, h1, h2, Option.getD_some]
  · refine ⟨_, ?_, h4⟩
    have h3 : inverseCcs[i]?.join = some j := h3
    unfold expandTok
    rw [r2]
    simp only [c2, Bool.false_eq_true, ↓reduceIte, atoi_dec k hk, hp, ha, ht, hcc, h1, h3]

example : (([110, 90] : Name).map lower, 5) ∈ ccNumber := by decide      -- `nZ`

/-- `%a:b` is the arguments from the a-th to the b-th with commas between them, the empty ones left
    out, if the list is not rotated. -/
theorem range_partial (f : Frame Arg) (hr : f.rotate = 0) (hl : ∀ a ∈ f.params, a.len ≤ a.tail.length)
    (a b : Nat) (ha : 1 ≤ a) (hab : a ≤ b) (hb : b ≤ f.params.length) :
    expandTok (some f) ⟨.ppid, 37 :: (dec a ++ 58 :: dec b)⟩ =
      some (((((f.params.take b).drop (a - 1)).map Arg.value).filter (fun v => !v.isEmpty)).intersperse
        [comma]).flatten := by
  obtain ⟨d, r, e, h1, h2⟩ := dec_head a ha
  have hd := dec_digit a
  have hat := atoi_dec_colon a ha (dec b)
  have hbt := atoi_dec b (by omega)
  have href : isRef ⟨.ppid, 37 :: (dec a ++ 58 :: dec b)⟩ = true := by
    rw [e]; exact isRef_digit d _ ⟨by omega, h2⟩
  have hcol : (37 :: (dec a ++ 58 :: dec b)).contains 58 = true := by simp
  have hdw : (37 :: (dec a ++ 58 :: dec b)).dropWhile (fun c => decide (c ≠ 58)) = 58 :: dec b := by
    rw [List.dropWhile_cons]
    simp only [show decide ((37 : Nat) ≠ 58) = true from rfl, ↓reduceIte]
    exact dropWhile_colon _ _ hd
  unfold expandTok
  rw [href]
  simp only [hcol, ↓reduceIte, hdw, List.drop_succ_cons, List.drop_zero, hat, hbt]
  rw [if_neg (by omega)]
  have e1 : ((a : Int) - 1) = ((a - 1 : Nat) : Int) := by omega
  rw [e1, range_eq f hr b hb _ (a - 1) true (by omega) (by omega),
    rangeFrom_join _ _ (fun x hx => hl x (List.mem_of_mem_take (List.mem_of_mem_drop hx)))]
  simp

/-- Two neighbouring identifiers, or an identifier and a number, become one. -/
theorem pasted (a b : Tok) (ha : a.ty = .id) (hb : b.ty = .id ∨ b.ty = .num) :
    paste [a, b] = [⟨.id, a.text ++ b.text⟩] := by
  rcases hb with hb | hb <;> simp [paste, joined, ha, hb]

/-- Joining tokens leaves the text of a line as it is, where no two tokens of white space meet. -/
theorem paste_text : ∀ l : List Tok, (∀ i : Nat, ∀ a b, l[i]? = some a → l[i + 1]? = some b →
      ¬ (a.ty = .white ∧ b.ty = .white)) →
    (paste l).flatMap Tok.text = l.flatMap Tok.text
  | [], _ => rfl
  | [_], _ => rfl
  | a :: b :: r, h => by
    have h0 := h 0 a b rfl rfl
    have ih1 := paste_text (b :: r) (fun i x y hx hy => h (i + 1) x y hx hy)
    have ih2 := paste_text r (fun i x y hx hy => h (i + 2) x y hx hy)
    simp only [paste]
    cases hj : joined a b with
    | none => simp only [List.flatMap_cons] at ih1 ⊢; rw [ih1]
    | some c =>
      have : c.text = a.text ++ b.text := by
        unfold joined at hj
        split at hj
        · rename_i h1 h2; exact absurd ⟨h1, h2⟩ h0
        · cases hj; rfl
        · cases hj; rfl
        · cases hj; rfl
        · cases hj
      simp only [List.flatMap_cons, ih2, this, List.append_assoc]

example : paste [⟨.id, [97]⟩, ⟨.num, [49]⟩, ⟨.white, [32]⟩, ⟨.id, [98]⟩] =
    [⟨.id, [97, 49]⟩, ⟨.white, [32]⟩, ⟨.id, [98]⟩] := by decide

/-! ## Labels -/

/-- The token `%00`. -/
def zeros : Tok := ⟨.ppid, [37, 48, 48]⟩

def colon : Tok := ⟨.other, [58]⟩

/-- A line is looked at for a call in two places: its first word, and the word after the first if
    that is a label.  In the second case the label is put before the body, with a colon, unless
    `%00` is used in the body. -/
theorem label_call (lead w1 w2 : Option Name) (lab name : Tok) (hl : lab.ty = .id) (hn : name.ty = .id)
    (withColon : Bool) (rest : List Tok) :
    let after := space w1 ++ ((if withColon then colon :: space w2 else []) ++ name :: rest)
    ∃ c1 c2, tokCalls (space lead ++ lab :: after) = [c1, c2] ∧
      c1.name = lab.text ∧ c1.params = marks (after.length + 1) after ∧ (∀ body, c1.pre body = []) ∧
      c2.name = name.text ∧ c2.params = marks (rest.length + 1) rest ∧
      (∀ body, (∀ l ∈ body, ∀ t ∈ l, t.isZeros = false) → c2.pre body =
        [space lead ++ lab :: (space w1 ++ (if withColon then colon :: space w2 else [colon]))]) ∧
      (∀ body, (∃ l ∈ body, zeros ∈ l) → c2.pre body = []) ∧
      c1.fill = fillLabel none ∧ c2.fill = fillLabel (some lab) := by
  intro after
  have hlw : lab.ty ≠ .white := by simp [hl]
  have hnw : name.ty ≠ .white := by simp [hn]
  have hnc : name.is 58 = false := by simp [Tok.is, hn]
  have e0 : skipWhite (space lead ++ lab :: after) = lab :: after := skipWhite_space _ _ _ hlw
  have e1 : (space lead ++ lab :: after).take ((space lead ++ lab :: after).length - (lab :: after).length) =
      space lead := by
    rw [List.length_append, Nat.add_sub_cancel, List.take_left']; rfl
  have hz : ∀ body : List (List Tok), (∀ l ∈ body, ∀ t ∈ l, t.isZeros = false) →
      body.any (fun l => l.any Tok.isZeros) = false := by
    intro body h
    rw [List.any_eq_false]
    intro l hl'
    rw [Bool.not_eq_true, List.any_eq_false]
    intro t ht; rw [h l hl' t ht]; simp
  have hz' : ∀ body : List (List Tok), (∃ l ∈ body, zeros ∈ l) →
      body.any (fun l => l.any Tok.isZeros) = true := by
    rintro body ⟨l, h1, h2⟩
    rw [List.any_eq_true]
    refine ⟨l, h1, ?_⟩
    rw [List.any_eq_true]
    exact ⟨zeros, h2, by decide⟩
  cases withColon with
  | true =>
    have e2 : skipWhite after = colon :: (space w2 ++ name :: rest) := by
      show skipWhite (space w1 ++ ((colon :: space w2) ++ name :: rest)) = _
      exact skipWhite_space _ _ _ (by simp [colon])
    have ea : after = space w1 ++ colon :: (space w2 ++ name :: rest) := rfl
    have e3 : after.take (after.length - (colon :: (space w2 ++ name :: rest)).length) = space w1 := by
      rw [ea, List.length_append, Nat.add_sub_cancel, List.take_left']; rfl
    have e4 : skipWhite (space w2 ++ name :: rest) = name :: rest := skipWhite_space _ _ _ hnw
    have e5 : (colon :: (space w2 ++ name :: rest)).take
        ((colon :: (space w2 ++ name :: rest)).length - (name :: rest).length) = colon :: space w2 := by
      have : (colon :: (space w2 ++ name :: rest)).length - (name :: rest).length = (colon :: space w2).length := by
        simp only [List.length_cons, List.length_append]; omega
      rw [this, ← List.cons_append, List.take_left']; rfl
    have hc : headIs 58 (colon :: (space w2 ++ name :: rest)) = true := rfl
    refine ⟨⟨lab.text, marks (after.length + 1) after, fun _ => [], fillLabel none⟩,
      ⟨name.text, marks (rest.length + 1) rest, fun body => if body.any (fun l => l.any Tok.isZeros) then []
        else [space lead ++ [lab] ++ space w1 ++ (colon :: space w2) ++ []], fillLabel (some lab)⟩,
      ?_, rfl, rfl, fun _ => rfl, rfl, rfl, ?_, ?_, rfl, rfl⟩
    rotate_left
    · intro body h; simp [hz body h]
    · intro body h; simp [hz' body h]
    · unfold tokCalls
      rw [e0]
      simp only [hl, true_or, ↓reduceIte, e1, e2, e3, hc, List.tail_cons, e4, e5, hn]
  | false =>
    have ea : after = space w1 ++ name :: rest := rfl
    have e2 : skipWhite after = name :: rest := by rw [ea]; exact skipWhite_space _ _ _ hnw
    have e3 : after.take (after.length - (name :: rest).length) = space w1 := by
      rw [ea, List.length_append, Nat.add_sub_cancel, List.take_left']; rfl
    have hc : headIs 58 (name :: rest) = false := hnc
    refine ⟨⟨lab.text, marks (after.length + 1) after, fun _ => [], fillLabel none⟩,
      ⟨name.text, marks (rest.length + 1) rest, fun body => if body.any (fun l => l.any Tok.isZeros) then []
        else [space lead ++ [lab] ++ space w1 ++ [] ++ [⟨.other, [58]⟩]], fillLabel (some lab)⟩,
      ?_, rfl, rfl, fun _ => rfl, rfl, rfl, ?_, ?_, rfl, rfl⟩
    rotate_left
    · intro body h; simp [hz body h, colon]
    · intro body h; simp [hz' body h]
    · unfold tokCalls
      rw [e0]
      simp only [hl, true_or, ↓reduceIte, e1, e2, e3, hc, Bool.false_eq_true, hn]

/-- In the lines of the body `%00` is replaced by the label, or dropped if there is none. -/
theorem zeros_replaced (label : Option Tok) (l : List Tok)
    (h : ∀ t ∈ l, t = zeros ∨ t.ty ≠ .ppid ∨ ∃ c d r, t.text = c :: d :: r ∧ d ≠ 48) :
    fillLabel label l = (l.map (fun t => if t = zeros then label.toList else [t])).flatten := by
  induction l with
  | nil => rfl
  | cons t l ih =>
    have ih := ih (fun x hx => h x (by simp [hx]))
    have hd : fillLabel label (t :: l) = (if t.isZeros then label.toList else [t]) ++ fillLabel label l := by
      simp [fillLabel]
    rw [hd, ih, List.map_cons, List.flatten_cons]
    congr 1
    rcases h t (by simp) with h1 | h1 | ⟨c, d, r, h1, h2⟩
    · subst h1; rw [if_pos rfl]; rfl
    · have : t ≠ zeros := by rintro rfl; exact h1 rfl
      rw [if_neg this]; simp [Tok.isZeros, h1]
    · have : t ≠ zeros := by
        rintro rfl
        simp only [zeros, List.cons.injEq] at h1
        exact h2 h1.2.1.symm
      rw [if_neg this]
      have hz : t.isZeros = false := by
        unfold Tok.isZeros; rw [h1]
        simp only [Bool.and_eq_false_iff]
        right
        split
        · rename_i he; simp only [List.cons.injEq] at he; exact absurd he.2.1 h2
        · rfl
      rw [hz]; rfl

section
open Sample

/-- `x: m p` with the body lines `%00 1` and `a`: no line of its own for the label. -/
example : result 20 [MACRO 'm' 1 [], [pp ['0', '0'], ws, num 1], say 'a', ENDMACRO,
      [id' ['x'], ot ':', ws, id' ['m'], ws, id' ['p']]] =
    ([some [id' ['x'], ws, num 1], some (say 'a')], some .done) := by decide +kernel

/-- `x m p` with the body line `a`: the label comes first. -/
example : result 20 [MACRO 'm' 1 [], say 'a', ENDMACRO, [id' ['x'], ws, id' ['m'], ws, id' ['p']]] =
    ([some [id' ['x'], ws, ot ':'], some (say 'a')], some .done) := by decide +kernel

end

section wrong
open Sample

/-- Three arguments `x`, `y`, `z`. -/
def three (rotate : Int) : Frame Arg :=
  ⟨[⟨[id' ['x']], 1⟩, ⟨[id' ['y']], 1⟩, ⟨[id' ['z']], 1⟩], rotate, 0⟩

/-- When the list has been rotated, the order of a range is wrong: `%1:3` after `%rotate 1` should
    be `y,z,x`. -/
theorem range_rotated_wrong :
    expandTok (some (three 1)) (pp ['1', ':', '3']) =
      some [id' ['y'], ot ',', id' ['x'], ot ',', id' ['z']] := by decide +kernel

/-- … or arguments are missing. -/
theorem range_rotated_missing :
    expandTok (some (three 2)) (pp ['1', ':', '3']) = some [id' ['z']] := by decide +kernel

/-- A range from 0 reads before the first parameter. -/
theorem range_from_zero : expandTok (some (three 0)) (pp ['0', ':', '2']) = none := by decide +kernel

/-- A condition code asked of a parameter that is not there crashes the assembler. -/
theorem missing_condition_crashes : expandTok (some (three 0)) (pp ['+', '4']) = none := by decide +kernel

/-- A condition code in braces is not taken for one. -/
theorem braced_condition_refused :
    expandTok (some ⟨(marks 9 [ws, ot '{', id' ['z'], ot '}']).map (cutArg true), 0, 0⟩) (pp ['+', '1']) =
      some [] := by decide +kernel

/-- Of three identifiers in a row only the first two become one. -/
theorem three_not_pasted : paste [id' ['a'], id' ['b'], id' ['c']] = [id' ['a', 'b'], id' ['c']] := by
  decide +kernel

end wrong

end Verif.Pp
