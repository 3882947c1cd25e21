/-
Lemmas: the in-place decoder against the grammar of escapes.
-/
import Verif.File.UnescapeSpec

set_option linter.unusedSimpArgs false
set_option linter.unusedVariables false

namespace Verif.File

open Spec

theorem isdigit_iff (c : Nat) : isdigit c = true ↔ isDec c := by
  have : bytes "0123456789" = [48,49,50,51,52,53,54,55,56,57] := by decide
  simp only [isdigit, isDec, this, List.mem_cons, List.not_mem_nil, or_false, Bool.and_eq_true,
    decide_eq_true_eq]
  omega

theorem isxdigit_iff (c : Nat) : isxdigit c = true ↔ isHex c := by
  have : bytes "0123456789abcdefABCDEF" = [48,49,50,51,52,53,54,55,56,57,97,98,99,100,101,102,
    65,66,67,68,69,70] := by decide
  simp only [isxdigit, isHex, this, List.mem_cons, List.not_mem_nil, or_false, Bool.and_eq_true,
    Bool.or_eq_true, decide_eq_true_eq]
  omega

theorem mem_digits {c : Nat} (h : isDec c) : digit c = c - 48 ∧ 48 ≤ c ∧ c ≤ 57 := by
  have : ∀ c ∈ bytes "0123456789", digit c = c - 48 ∧ 48 ≤ c ∧ c ≤ 57 := by decide
  exact this c h

theorem mem_hex {c : Nat} (h : isHex c) : digit c = hexDigit c ∧ digit c < 16 := by
  have : ∀ c ∈ bytes "0123456789abcdefABCDEF", digit c = hexDigit c ∧ digit c < 16 := by decide
  exact this c h

/-- The part of the string still to be read. -/
def rest (len : Nat) (mem : List Nat) (s : Nat) : List Nat := (mem.take len).drop s

theorem rd_eq (len : Nat) (mem : List Nat) (s k : Nat) : rd len mem (s + k) = (rest len mem s)[k]? := by
  unfold rd rest
  rw [List.getElem?_drop, List.getElem?_take]

theorem rd_eq0 (len : Nat) (mem : List Nat) (s : Nat) : rd len mem s = (rest len mem s)[0]? :=
  rd_eq len mem s 0

theorem rest_tail {len : Nat} {mem : List Nat} {s : Nat} {c : Nat} {t : List Nat}
    (h : rest len mem s = c :: t) : rest len mem (s + 1) = t := by
  unfold rest at *
  rw [← List.drop_drop, h]; rfl

theorem rest_length {len : Nat} {mem : List Nat} (hl : len ≤ mem.length) (s : Nat) :
    (rest len mem s).length = len - s := by
  simp [rest, Nat.min_eq_left hl]

theorem rest_drop (len : Nat) (mem : List Nat) (s k : Nat) :
    rest len mem (s + k) = (rest len mem s).drop k := by
  simp [rest, List.drop_drop]

theorem rest_set {len : Nat} {mem : List Nat} {s o v : Nat} (h : o < s) :
    rest len (mem.set o v) s = rest len mem s := by
  unfold rest
  rw [List.take_set, List.drop_set_of_lt h]

theorem skipHex_eq {len : Nat} {mem : List Nat} (hl : len ≤ mem.length) :
    ∀ (r : List Nat) (s : Nat), rest len mem s = r →
      skipHex len mem s = some (s + ((r.takeWhile isxdigit).length - 2)) := by
  intro r
  induction r with
  | nil =>
    intro s h
    have hn := rest_length hl s
    rw [h] at hn
    rw [skipHex, if_neg (by simp at hn; omega)]; simp
  | cons a t ih =>
    intro s h
    have hn := rest_length hl s
    rw [h] at hn
    have ht := rest_tail h
    rw [skipHex]
    rw [rd_eq0, rd_eq, rd_eq, h]
    cases t with
    | nil =>
      rw [if_neg (by simp at hn; omega)]
      by_cases ha : isxdigit a = true <;> simp [List.takeWhile, ha]
    | cons b t2 =>
      cases t2 with
      | nil =>
        rw [if_neg (by simp at hn; omega)]
        by_cases ha : isxdigit a = true <;> by_cases hb : isxdigit b = true <;>
          simp [List.takeWhile, ha, hb]
      | cons c t3 =>
        rw [if_pos (by simp at hn; omega)]
        simp only [List.getElem?_cons_zero, List.getElem?_cons_succ]
        by_cases ha : isxdigit a = true
        · rw [if_pos ha]
          by_cases hb : isxdigit b = true
          · rw [if_pos hb]
            by_cases hc : isxdigit c = true
            · rw [if_pos hc, ih _ ht]
              simp [List.takeWhile, ha, hb, hc]; omega
            · rw [if_neg hc]; simp [List.takeWhile, ha, hb, hc]
          · rw [if_neg hb]; simp [List.takeWhile, ha, hb]
        · rw [if_neg ha]; simp [List.takeWhile, ha]

theorem value_append (base : Nat) (a b : List Nat) :
    value base (a ++ b) = value base a * base ^ b.length + value base b := by
  have h : ∀ (l : List Nat) (v : Nat), l.foldl (fun v c => v * base + digit c) v =
      v * base ^ l.length + l.foldl (fun v c => v * base + digit c) 0 := by
    intro l
    induction l with
    | nil => intro v; simp
    | cons c t ih =>
      intro v
      simp only [List.foldl_cons, List.length_cons]
      rw [ih, ih (0 * base + digit c), Nat.add_mul, Nat.pow_succ, Nat.mul_assoc,
        Nat.mul_comm base, Nat.zero_mul, Nat.zero_add]
      omega
  simp only [value, List.foldl_append]
  rw [h b]

theorem takeWhile_spec (p : Nat → Bool) (l : List Nat) :
    (∀ d ∈ l.takeWhile p, p d = true) ∧
    (∀ c, (l.drop (l.takeWhile p).length).head? = some c → p c ≠ true) ∧
    l.takeWhile p ++ l.drop (l.takeWhile p).length = l := by
  induction l with
  | nil => simp
  | cons a t ih =>
    obtain ⟨h1, h2, h3⟩ := ih
    by_cases ha : p a = true
    · simp only [List.takeWhile, ha, List.length_cons, List.drop_succ_cons, List.cons_append, h3]
      refine ⟨?_, h2, trivial⟩
      intro d hd
      rcases List.mem_cons.1 hd with rfl | hd
      · exact ha
      · exact h1 d hd
    · simp [List.takeWhile, ha]

/-- After skipping, the last two digits give the value of them all. -/
theorem hexTail_eq {len : Nat} {mem : List Nat} (hl : len ≤ mem.length) {r : List Nat} {s : Nat}
    (h : rest len mem s = r) :
    hexTail len mem (s + ((r.takeWhile isxdigit).length - 2)) =
      some (value 16 (r.takeWhile isxdigit) % 256, s + (r.takeWhile isxdigit).length) := by
  obtain ⟨h1, h2, h3⟩ := takeWhile_spec isxdigit r
  generalize hrun : r.takeWhile isxdigit = run at *
  generalize htl : r.drop run.length = tl at *
  have hlen : r.length = len - s := by rw [← h, rest_length hl]
  unfold hexTail
  -- the digits but the last two
  rcases Nat.lt_or_ge run.length 2 with hlt | hge
  · have e0 : run.length - 2 = 0 := by omega
    rw [e0, Nat.add_zero, rd_eq, rd_eq0, h]
    match run, hlt with
    | [], _ =>
      simp only [List.nil_append, List.length_nil, Nat.add_zero] at *
      subst h3
      cases tl with
      | nil => rw [if_neg (by simp at hlen; omega)]; simp [value]
      | cons c t =>
        rw [if_pos (by simp at hlen; omega)]
        have := h2 c rfl
        simp [this, value]
    | [a], _ =>
      have ha := h1 a (by simp)
      have hd := mem_hex ((isxdigit_iff a).1 ha)
      simp only [List.singleton_append] at h3
      subst h3
      rw [if_pos (by simp at hlen; omega)]
      simp only [List.getElem?_cons_zero, List.getElem?_cons_succ, ha, if_true]
      have hv : value 16 [a] % 256 = hexDigit a := by
        simp only [value, List.foldl_cons, List.foldl_nil]; omega
      rw [hv]
      cases tl with
      | nil => rw [if_neg (by simp at hlen; omega)]; simp
      | cons c t =>
        rw [if_pos (by simp at hlen; omega)]
        have := h2 c rfl
        simp [this]
  · -- run = pre ++ [a, b]
    obtain ⟨pre, a, b, rfl⟩ : ∃ pre a b, run = pre ++ [a, b] := by
      refine ⟨run.take (run.length - 2), run[run.length - 2], run[run.length - 1], ?_⟩
      have e1 : run.drop (run.length - 2) = [run[run.length - 2], run[run.length - 1]] := by
        rw [List.drop_eq_getElem_cons (by omega)]
        congr 1
        rw [List.drop_eq_getElem_cons (by omega)]
        have e2 : run.length - 2 + 1 = run.length - 1 := by omega
        simp only [e2]
        congr 1
        apply List.drop_eq_nil_of_le; omega
      rw [← e1, List.take_append_drop]
    have e0 : (pre ++ [a, b]).length - 2 = pre.length := by simp
    rw [e0]
    have ha := h1 a (by simp)
    have hb := h1 b (by simp)
    have hda := mem_hex ((isxdigit_iff a).1 ha)
    have hdb := mem_hex ((isxdigit_iff b).1 hb)
    have hr : rest len mem (s + pre.length) = a :: b :: tl := by
      rw [rest_drop, h, ← h3]; simp
    rw [rd_eq len mem (s + pre.length) 1, rd_eq0 len mem (s + pre.length), hr]
    have hlen2 : len - (s + pre.length) = (a :: b :: tl).length := by rw [← hr, rest_length hl]
    simp only [List.length_cons] at hlen2
    rw [if_pos (by omega)]
    simp only [List.getElem?_cons_zero, List.getElem?_cons_succ, ha, hb, if_true]
    rw [if_pos (by omega), value_append]
    have hv : value 16 [a, b] = hexDigit a * 16 + hexDigit b := by
      simp only [value, List.foldl_cons, List.foldl_nil]; omega
    rw [hv]
    simp only [List.length_append, List.length_cons, List.length_nil]
    congr 2
    have : (16 : Nat) ^ (0 + 1 + 1) = 256 := by decide
    rw [this]; omega

theorem wr_ok {len : Nat} {mem : List Nat} {o : Nat} (hl : len ≤ mem.length) (h : o < len) (v : Nat) :
    wr len mem o v = some (mem.set o (v % 256)) := by
  unfold wr; rw [if_pos ⟨h, by omega⟩]

theorem put_eq {len : Nat} {u : U} (hl : len ≤ u.mem.length) (h : u.o < len) (v s : Nat) :
    put len u v s = some ⟨u.mem.set u.o (v % 256), s, u.o + 1, u.warns⟩ := by
  unfold put; rw [wr_ok hl h]

theorem value8_1 (a : Nat) (h : isDec a) : value 8 [a] = a - 48 := by
  simp [value, (mem_digits h).1]

theorem value8_2 (a b : Nat) (h : isDec a) (h' : isDec b) : value 8 [a, b] = (a - 48) * 8 + (b - 48) := by
  simp [value, (mem_digits h).1, (mem_digits h').1]

theorem value8_3 (a b c : Nat) (h : isDec a) (h' : isDec b) (h'' : isDec c) :
    value 8 [a, b, c] = ((a - 48) * 8 + (b - 48)) * 8 + (c - 48) := by
  simp [value, (mem_digits h).1, (mem_digits h').1, (mem_digits h'').1]

theorem rd_set_self {len : Nat} {mem : List Nat} {o v : Nat} (hl : len ≤ mem.length) (h : o < len) :
    rd len (mem.set o v) o = some v := by
  unfold rd
  rw [if_pos h, List.getElem?_set_self (by omega)]

/-- The octal escape. -/
theorem octal_eq {len : Nat} {u : U} (hl : len ≤ u.mem.length) (ho : u.o < u.s) (hs : u.s < len)
    {a : Nat} {t : List Nat} (h : rest len u.mem u.s = a :: t) (ha : isDec a) :
    ∃ ds tl b w, a :: t = ds ++ tl ∧ Escape ds tl.head? b w ∧ ds ≠ [] ∧
      octal len u = some ⟨u.mem.set u.o (b % 256), u.s + ds.length, u.o + 1, u.warns + w.toNat⟩ ∧ b < 256 := by
  have hol : u.o < len := by omega
  have hlen : len - u.s = (a :: t).length := by rw [← h, rest_length hl]
  simp only [List.length_cons] at hlen
  have hda := mem_digits ha
  have l1 : ∀ v, len ≤ (u.mem.set u.o v).length := by intro v; simpa using hl
  unfold octal
  rw [rd_eq0, h]
  simp only [List.getElem?_cons_zero]
  rw [wr_ok hl hol]
  dsimp only
  rw [rd_eq, rest_set ho, h]
  simp only [List.getElem?_cons_succ]
  have one : ∀ next : Option Nat, (∀ c, next = some c → ¬ isDec c) →
      Escape [a] next (value 8 [a] % 256) ([a].any (fun d => decide ('7'.toNat < d))) :=
    fun next hn => Escape.octal (by simpa using ha) (by simp) (by simp) (fun _ => hn)
  have w1 : (if a > 55 then 1 else 0) = ([a].any (fun d => decide ('7'.toNat < d))).toNat := by
    have : '7'.toNat = 55 := rfl
    simp only [List.any_cons, List.any_nil, Bool.or_false, this]
    by_cases hx : 55 < a <;> simp [hx]
  cases t with
  | nil =>
    rw [if_neg (by simp at hlen; omega)]
    refine ⟨[a], [], _, _, rfl, one none (by simp), by simp, ?_, ?_⟩
    · rw [← w1, value8_1 a ha, Nat.mod_mod]; rfl
    · omega
  | cons b t2 =>
    simp only [List.length_cons] at hlen
    rw [if_pos (by omega)]
    simp only [List.getElem?_cons_zero]
    by_cases hb : isdigit b = true
    · have hbd := (isdigit_iff b).1 hb
      have hdb := mem_digits hbd
      rw [if_pos hb, rd_set_self hl hol]
      dsimp only
      rw [wr_ok (l1 _) hol]
      dsimp only
      rw [rd_eq, List.set_set, rest_set ho, h]
      simp only [List.getElem?_cons_succ]
      have w2 : (if a > 55 ∨ b > 55 then 1 else 0) =
          ([a, b].any (fun d => decide ('7'.toNat < d))).toNat := by
        have : '7'.toNat = 55 := rfl
        simp only [List.any_cons, List.any_nil, Bool.or_false, this]
        by_cases hx : 55 < a <;> by_cases hy : 55 < b <;> simp [hx, hy]
      have two : ∀ next : Option Nat, (∀ c, next = some c → ¬ isDec c) →
          Escape [a, b] next (value 8 [a, b] % 256) ([a, b].any (fun d => decide ('7'.toNat < d))) :=
        fun next hn => Escape.octal (by simp [ha, hbd]) (by simp) (by simp) (fun _ => hn)
      have v2 : ((a - 48) % 256 * 8 % 256 + (b - 48)) % 256 = value 8 [a, b] % 256 := by
        rw [value8_2 a b ha hbd]; omega
      rw [v2]
      cases t2 with
      | nil =>
        rw [if_neg (by simp at hlen; omega)]
        refine ⟨[a, b], [], _, _, rfl, two none (by simp), by simp, ?_, ?_⟩
        · rw [← w2, Nat.mod_mod]; rfl
        · omega
      | cons c t3 =>
        simp only [List.length_cons] at hlen
        rw [if_pos (by omega)]
        simp only [List.getElem?_cons_zero]
        by_cases hc : isdigit c = true
        · have hcd := (isdigit_iff c).1 hc
          have hdc := mem_digits hcd
          rw [if_pos hc, rd_set_self hl hol]
          dsimp only
          rw [wr_ok (l1 _) hol]
          dsimp only
          have w3 : (if a > 55 ∨ b > 55 ∨ c > 55 then 1 else 0) =
              ([a, b, c].any (fun d => decide ('7'.toNat < d))).toNat := by
            have : '7'.toNat = 55 := rfl
            simp only [List.any_cons, List.any_nil, Bool.or_false, this]
            by_cases hx : 55 < a <;> by_cases hy : 55 < b <;> by_cases hz : 55 < c <;> simp [hx, hy, hz]
          have v3 : (value 8 [a, b] % 256 * 8 % 256 + (c - 48)) % 256 = value 8 [a, b, c] % 256 := by
            rw [value8_2 a b ha hbd, value8_3 a b c ha hbd hcd]; omega
          refine ⟨[a, b, c], t3, value 8 [a, b, c] % 256, _, rfl,
            Escape.octal (by simp [ha, hbd, hcd]) (by simp) (by simp) (by simp), by simp, ?_, by omega⟩
          rw [w3, v3, List.set_set, Nat.mod_mod]; rfl
        · rw [if_neg hc]
          have hcd : ¬ isDec c := fun x => hc ((isdigit_iff c).2 x)
          refine ⟨[a, b], c :: t3, _, _, rfl, two _ ?_, by simp, ?_, ?_⟩
          · intro x hx; simp at hx; subst hx; exact hcd
          · rw [← w2, Nat.mod_mod]; rfl
          · omega
    · rw [if_neg hb]
      have hbd : ¬ isDec b := fun x => hb ((isdigit_iff b).2 x)
      refine ⟨[a], b :: t2, _, _, rfl, one _ ?_, by simp, ?_, ?_⟩
      · intro x hx; simp at hx; subst hx; exact hbd
      · rw [← w1, value8_1 a ha, Nat.mod_mod]; rfl
      · omega

/-- One escape: it is one of the grammar's, and the writer stores its byte. -/
theorem escape_eq {len : Nat} {u : U} (hl : len ≤ u.mem.length) (ho : u.o < u.s) (hs : u.s < len)
    {a : Nat} {t : List Nat} (h : rest len u.mem u.s = a :: t) :
    ∃ e tl b w, a :: t = e ++ tl ∧ Escape e tl.head? b w ∧ e ≠ [] ∧
      escape len u = some ⟨u.mem.set u.o (b % 256), u.s + e.length, u.o + 1, u.warns + w.toNat⟩ ∧
      (b < 256 ∨ b = a) := by
  have hol : u.o < len := by omega
  unfold escape
  rw [rd_eq0, h]
  simp only [List.getElem?_cons_zero]
  have L : ∀ v, letter a = some v → v < 256 →
      ∃ e tl b w, a :: t = e ++ tl ∧ Escape e tl.head? b w ∧ e ≠ [] ∧
      put len u v (u.s + 1) =
        some ⟨u.mem.set u.o (b % 256), u.s + e.length, u.o + 1, u.warns + w.toNat⟩ ∧ (b < 256 ∨ b = a) := by
    intro v hv hlt
    exact ⟨[a], t, v, false, rfl, Escape.letter hv, by simp, by rw [put_eq hl hol]; simp, .inl hlt⟩
  by_cases h1 : a = 98
  · rw [if_pos h1]; exact L 8 (by subst h1; decide) (by omega)
  rw [if_neg h1]
  by_cases h2 : a = 102
  · rw [if_pos h2]; exact L 12 (by subst h2; decide) (by omega)
  rw [if_neg h2]
  by_cases h3 : a = 110
  · rw [if_pos h3]; exact L 10 (by subst h3; decide) (by omega)
  rw [if_neg h3]
  by_cases h4 : a = 114
  · rw [if_pos h4]; exact L 13 (by subst h4; decide) (by omega)
  rw [if_neg h4]
  by_cases h5 : a = 116
  · rw [if_pos h5]; exact L 9 (by subst h5; decide) (by omega)
  rw [if_neg h5]
  by_cases h6 : a = 120
  · rw [if_pos h6]
    have ht := rest_tail h
    rw [skipHex_eq hl t _ ht]
    dsimp only
    rw [hexTail_eq hl ht]
    dsimp only
    rw [put_eq hl hol]
    obtain ⟨g1, g2, g3⟩ := takeWhile_spec isxdigit t
    refine ⟨120 :: t.takeWhile isxdigit, t.drop (t.takeWhile isxdigit).length,
      value 16 (t.takeWhile isxdigit) % 256, false, ?_, ?_, by simp, ?_, .inl (by omega)⟩
    · rw [h6, List.cons_append, g3]
    · exact Escape.hex (fun d hd => (isxdigit_iff d).1 (g1 d hd))
        (fun c hc hx => g2 c hc ((isxdigit_iff c).2 hx))
    · simp; omega
  rw [if_neg h6]
  by_cases h7 : isdigit a = true
  · rw [if_pos h7]
    obtain ⟨ds, tl, b, w, e1, e2, e3, e4, e5⟩ := octal_eq hl ho hs h ((isdigit_iff a).1 h7)
    exact ⟨ds, tl, b, w, e1, e2, e3, e4, .inl e5⟩
  rw [if_neg h7]
  refine ⟨[a], t, a, false, rfl, Escape.self ?_ h6 (fun x => h7 ((isdigit_iff a).2 x)), by simp, ?_, .inr rfl⟩
  · unfold letter
    have : 'b'.toNat = 98 ∧ 'f'.toNat = 102 ∧ 'n'.toNat = 110 ∧ 'r'.toNat = 114 ∧ 't'.toNat = 116 := by
      decide
    rw [this.1, this.2.1, this.2.2.1, this.2.2.2.1, this.2.2.2.2]
    rw [if_neg h1, if_neg h2, if_neg h3, if_neg h4, if_neg h5]
  · rw [put_eq hl hol]; simp

theorem take_set_succ {mem : List Nat} {o v : Nat} (h : o < mem.length) :
    (mem.set o v).take (o + 1) = mem.take o ++ [v] := by
  rw [List.take_add_one, List.getElem?_set_self h]
  simp [List.take_set_of_le]

theorem uloop_spec (len : Nat) : ∀ (n : Nat) (u : U), len - u.s ≤ n → len ≤ u.mem.length → u.o ≤ u.s →
    u.s ≤ len → (∀ c ∈ rest len u.mem u.s, c < 256) →
    ∃ u' d w, uloop len n u = .done u' ∧ Decodes (rest len u.mem u.s) d w ∧
      u'.mem.take u'.o = u.mem.take u.o ++ d ∧ u'.o = u.o + d.length ∧ u'.o ≤ len ∧
      u'.mem.length = u.mem.length ∧ u'.mem.drop len = u.mem.drop len ∧ u'.warns = u.warns + w ∧
      (∀ c ∈ d, c < 256) := by
  intro n
  induction n with
  | zero =>
    intro u hn hl ho hs hb
    have hr : rest len u.mem u.s = [] := by
      apply List.eq_nil_of_length_eq_zero; rw [rest_length hl]; omega
    refine ⟨u, [], 0, ?_, ?_, by simp, by simp, by omega, rfl, rfl, by simp, by simp⟩
    · rw [uloop, if_neg (by omega)]
    · rw [hr]; exact .nil
  | succ n ih =>
    intro u hn hl ho hs hb
    rw [uloop]
    by_cases hlt : u.s < len
    · rw [if_pos hlt]
      have hlen := rest_length hl u.s
      cases hr : rest len u.mem u.s with
      | nil => rw [hr] at hlen; simp at hlen; omega
      | cons c t =>
        rw [hr] at hlen hb
        simp only [List.length_cons] at hlen
        -- the continuation, once a round has been understood
        have fin : ∀ (b k w : Nat) (tl : List Nat), t = (c :: t).tail → (c :: t).drop k = tl → 0 < k →
            k ≤ (c :: t).length → b < 256 →
            round len u = some ⟨u.mem.set u.o b, u.s + k, u.o + 1, u.warns + w⟩ →
            (∀ d w', Decodes tl d w' → Decodes (c :: t) (b :: d) (w' + w)) →
            ∃ u' d w, (match round len u with
              | none => Outcome.overrun | some u' => uloop len n u') = .done u' ∧
              Decodes (c :: t) d w ∧
              u'.mem.take u'.o = u.mem.take u.o ++ d ∧ u'.o = u.o + d.length ∧ u'.o ≤ len ∧
              u'.mem.length = u.mem.length ∧ u'.mem.drop len = u.mem.drop len ∧
              u'.warns = u.warns + w ∧ (∀ c ∈ d, c < 256) := by
          intro b k w tl _ htl hk hkl hb256 hround hdec
          simp only [List.length_cons] at hkl
          have hrest : rest len (u.mem.set u.o b) (u.s + k) = tl := by
            rw [rest_set (by omega), rest_drop, hr, htl]
          obtain ⟨u', d, w', i1, i2, i3, i4, i5, i6, i7, i8, i9⟩ := ih
            ⟨u.mem.set u.o b, u.s + k, u.o + 1, u.warns + w⟩ (by dsimp only; omega) (by simpa using hl)
            (by dsimp only; omega) (by dsimp only; omega)
            (by dsimp only; rw [hrest]; intro x hx; rw [← htl] at hx; exact hb x (List.mem_of_mem_drop hx))
          dsimp only at i2 i3 i4 i6 i7 i8
          rw [hrest] at i2
          rw [hround]
          refine ⟨u', b :: d, w' + w, i1, hdec d w' i2, ?_, ?_, i5, ?_, ?_, ?_, ?_⟩
          · rw [i3, take_set_succ (by omega)]; simp
          · rw [i4]; simp; omega
          · rw [i6]; simp
          · rw [i7, List.drop_set_of_lt (by omega)]
          · rw [i8]; omega
          · intro x hx
            rcases List.mem_cons.1 hx with rfl | hx
            · exact hb256
            · exact i9 x hx
        have hc256 : c < 256 := hb c (by simp)
        by_cases hesc : c = 92 ∧ u.s + 1 < len
        · have hround : round len u = escape len { u with s := u.s + 1 } := by
            unfold round
            rw [rd_eq0, hr]
            simp only [List.getElem?_cons_zero]
            rw [if_pos hesc]
          cases t with
          | nil => simp at hlen; omega
          | cons a t =>
            have ht : rest len u.mem (u.s + 1) = a :: t := rest_tail hr
            obtain ⟨e, tl, b, w, e1, e2, e3, e4, e5⟩ :=
              escape_eq (u := { u with s := u.s + 1 }) hl (by dsimp only; omega) hesc.2 ht
            have hb256 : b < 256 := by
              rcases e5 with h | rfl
              · exact h
              · exact hb b (by simp)
            dsimp only at e4
            rw [Nat.mod_eq_of_lt hb256] at e4
            have hel : 0 < e.length := List.length_pos_iff.2 e3
            apply fin b (1 + e.length) w.toNat tl rfl
            · rw [e1, Nat.add_comm, List.drop_succ_cons, List.drop_left]
            · omega
            · rw [e1]; simp; omega
            · exact hb256
            · rw [hround, e4]; simp only [Nat.add_assoc]
            · intro d w' hd
              rw [hesc.1, e1]
              exact Decodes.esc e2 hd
        · have hround : round len u = put len u c (u.s + 1) := by
            unfold round
            rw [rd_eq0, hr]
            simp only [List.getElem?_cons_zero]
            rw [if_neg hesc]
          apply fin c 1 0 t rfl
          · simp
          · omega
          · simp
          · exact hc256
          · rw [hround, put_eq hl (by omega), Nat.mod_eq_of_lt hc256]; rfl
          · intro d w' hd
            by_cases h92 : c = 92
            · have : t = [] := by
                cases t with
                | nil => rfl
                | cons _ _ => simp at hlen; exact absurd ⟨h92, by omega⟩ hesc
              subst this
              cases hd
              rw [h92]; exact .last
            · exact .plain h92 hd
    · rw [if_neg hlt]
      have hr : rest len u.mem u.s = [] := by
        apply List.eq_nil_of_length_eq_zero; rw [rest_length hl]; omega
      refine ⟨u, [], 0, rfl, ?_, by simp, by simp, by omega, rfl, rfl, by simp, by simp⟩
      rw [hr]; exact .nil

theorem munch {P : Nat → Prop} [DecidablePred P] {ds s : List Nat} (hd : ∀ d ∈ ds, P d)
    (hn : ∀ c, s.head? = some c → ¬ P c) : (ds ++ s).takeWhile (fun c => decide (P c)) = ds := by
  induction ds with
  | nil =>
    cases s with
    | nil => rfl
    | cons c t => simp [List.takeWhile, hn c rfl]
  | cons a t ih =>
    simp only [List.cons_append, List.takeWhile, hd a (by simp), decide_true]
    rw [ih (fun d h => hd d (List.mem_cons_of_mem _ h))]

/-- The escape at the front of a text, as a function of the text. -/
def front : List Nat → List Nat × Nat × Bool
  | [] => ([], 0, false)
  | c :: t =>
    match letter c with
    | some b => ([c], b, false)
    | none =>
      if c = 'x'.toNat then
        ('x'.toNat :: t.takeWhile (fun c => decide (isHex c)),
          value 16 (t.takeWhile (fun c => decide (isHex c))) % 256, false)
      else if isDec c then
        let ds := ((c :: t).take 3).takeWhile (fun c => decide (isDec c))
        (ds, value 8 ds % 256, ds.any (fun d => decide ('7'.toNat < d)))
      else ([c], c, false)

theorem escape_front {e s : List Nat} {b : Nat} {w : Bool} (h : Escape e s.head? b w) :
    front (e ++ s) = (e, b, w) := by
  generalize hn : s.head? = next at h
  cases h with
  | letter h => simp [front, h]
  | hex hd hx =>
    subst hn
    rename_i ds
    simp only [List.cons_append, front]
    rw [show letter 'x'.toNat = none by decide]
    simp [munch hd hx]
  | octal hd h0 h3 hx =>
    subst hn
    have key : ((e ++ s).take 3).takeWhile (fun c => decide (isDec c)) = e := by
      by_cases hl : e.length < 3
      · rw [List.take_append, List.take_of_length_le (by omega)]
        apply munch hd
        intro c hc
        apply hx hl
        cases s with
        | nil => simp at hc
        | cons x y =>
          rw [show 3 - e.length = (2 - e.length) + 1 by omega, List.take_succ_cons] at hc
          simpa using hc
      · have he : e.length = 3 := by omega
        rw [List.take_append, List.take_of_length_le (by omega), show 3 - e.length = 0 by omega,
          List.take_zero]
        exact munch hd (by simp)
    cases e with
    | nil => exact absurd rfl h0
    | cons c t =>
      have hc : isDec c := hd c (by simp)
      have hl : letter c = none := by
        have : ∀ c ∈ bytes "0123456789", letter c = none := by decide
        exact this c hc
      have hxx : c ≠ 'x'.toNat := by
        have : ∀ c ∈ bytes "0123456789", c ≠ 'x'.toNat := by decide
        exact this c hc
      rw [List.cons_append] at key
      rw [List.cons_append]
      simp only [front, hl]
      rw [if_neg hxx, if_pos hc]
      simp only [key]
  | self h1 h2 h3 =>
    simp only [List.cons_append, List.nil_append, front, h1]
    rw [if_neg h2, if_neg h3]

theorem escape_ne_nil {e : List Nat} {n : Option Nat} {b : Nat} {w : Bool} (h : Escape e n b w) :
    e ≠ [] := by
  cases h with
  | octal _ h0 _ _ => exact h0
  | _ => simp

theorem decodes_unique {s t : List Nat} {w : Nat} (h : Decodes s t w) :
    ∀ {t' w'}, Decodes s t' w' → t = t' ∧ w = w' := by
  induction h with
  | nil =>
    intro t' w' h'
    cases h' with
    | nil => exact ⟨rfl, rfl⟩
  | last =>
    intro t' w' h'
    generalize hs : ['\\'.toNat] = s at h'
    cases h' with
    | nil => simp at hs
    | last => exact ⟨rfl, rfl⟩
    | plain h _ =>
      simp only [List.cons.injEq] at hs
      exact absurd hs.1.symm h
    | esc he _ =>
      have := escape_ne_nil he
      simp at hs
      exact absurd hs.1 this
  | plain h _ ih =>
    rename_i c s t w _
    intro t' w' h'
    generalize hs : c :: s = s' at h'
    cases h' with
    | nil => simp at hs
    | last => simp only [List.cons.injEq] at hs; exact absurd hs.1 h
    | plain _ h2 =>
      simp only [List.cons.injEq] at hs
      obtain ⟨rfl, rfl⟩ := hs
      obtain ⟨rfl, rfl⟩ := ih h2
      exact ⟨rfl, rfl⟩
    | esc _ _ =>
      simp only [List.cons_append, List.cons.injEq] at hs
      exact absurd hs.1 h
  | esc he _ ih =>
    rename_i e b s t w o _
    intro t' w' h'
    generalize hs : '\\'.toNat :: e ++ s = s' at h'
    have hne := escape_ne_nil he
    cases h' with
    | nil => simp at hs
    | last => simp at hs; exact absurd hs.1 hne
    | plain h _ =>
      simp only [List.cons_append, List.cons.injEq] at hs
      exact absurd hs.1.symm h
    | esc he' hr' =>
      simp only [List.cons_append, List.cons.injEq, true_and] at hs
      have f1 := escape_front he
      have f2 := escape_front he'
      rw [hs] at f1
      rw [f1] at f2
      simp only [Prod.mk.injEq] at f2
      obtain ⟨rfl, rfl, rfl⟩ := f2
      have := List.append_cancel_left hs
      subst this
      obtain ⟨rfl, rfl⟩ := ih hr'
      exact ⟨rfl, rfl⟩

end Verif.File
