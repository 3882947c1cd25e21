import Verif.Cmdline.Spec
namespace Verif.Cmdline

variable {takes : Nat → Str → Option Str → Bool} {T : List Opt}

theorem isSpace_iff (c : Char) : isSpace c = true ↔ c ∈ [' ', '\t', '\n', '\x0b', '\x0c', '\r'] := by simp [isSpace, or_assoc]

theorem longMatch_iff {s : Str} {o : Opt} : longMatch s o = true ↔ ∃ l t, o.lopt = some l ∧ s = l ++ t ∧ Ends t := by
  unfold longMatch
  cases ho : o.lopt with
  | none => simp
  | some l =>
    simp only [Bool.and_eq_true, List.isPrefixOf_iff_prefix, Option.some.injEq]
    constructor
    · rintro ⟨⟨t, rfl⟩, h⟩
      rw [List.drop_left] at h
      refine ⟨l, t, rfl, rfl, ?_⟩
      cases t with
      | nil => exact .inl rfl
      | cons c t =>
        refine .inr ⟨c, t, rfl, ?_⟩
        simpa [isSpace, or_assoc] using h
    · rintro ⟨l', t, rfl, rfl, h⟩
      refine ⟨⟨t, rfl⟩, ?_⟩
      rw [List.drop_left]
      rcases h with rfl | ⟨c, t, rfl, h⟩
      · rfl
      · simpa [isSpace, or_assoc] using h

theorem names_iff {s : Str} : Names T s ↔ ∃ o ∈ T, longMatch s o = true := by
  unfold Names
  simp only [longMatch_iff]

theorem findIdx_none {p : Opt → Bool} (h : ∀ o ∈ T, p o = false) : T.findIdx? p = none := by
  rw [List.findIdx?_eq_none_iff]
  exact h

theorem findIdx_some {p : Opt → Bool} {i : Nat} {o : Opt} (hi : T[i]? = some o) (hp : p o = true)
    (h : ∀ (j : Nat) (a : Opt), j < i → T[j]? = some a → p a = false) : T.findIdx? p = some i := by
  rw [List.findIdx?_eq_some_iff_getElem]
  obtain ⟨hl, rfl⟩ := List.getElem?_eq_some_iff.1 hi
  refine ⟨hl, hp, fun j hj => ?_⟩
  have := h j T[j] hj (List.getElem?_eq_getElem _)
  simp [this]

theorem pair {R : Opt → Opt → Prop} (h : T.Pairwise R) {i j : Nat} {a b : Opt} (hj : T[j]? = some a) (hi : T[i]? = some b) (hl : j < i) : R a b := by
  obtain ⟨h1, rfl⟩ := List.getElem?_eq_some_iff.1 hj
  obtain ⟨h2, rfl⟩ := List.getElem?_eq_some_iff.1 hi
  exact List.pairwise_iff_getElem.1 h j i h1 h2 hl

/-- A name followed by its end is only its own. -/
theorem find_long (hT : TableOk T) {i : Nat} {o : Opt} {l t : Str} (hi : T[i]? = some o) (hl : o.lopt = some l) (ht : t = [] ∨ ∃ u, t = '=' :: u) :
    T.findIdx? (longMatch (l ++ t)) = some i := by
  refine findIdx_some hi (longMatch_iff.2 ⟨l, t, hl, rfl, ?_⟩) fun j a hj ha => ?_
  · rcases ht with rfl | ⟨u, rfl⟩
    · exact .inl rfl
    · exact .inr ⟨_, _, rfl, .inl rfl⟩
  · rw [Bool.eq_false_iff]
    intro hm
    obtain ⟨l', t', h1, h2, h3⟩ := longMatch_iff.1 hm
    have hne : l' ≠ l := by
      rintro rfl
      rcases pair hT.names ha hi hj with h | h
      · simp [h] at h1
      · exact h (h1.trans hl.symm)
    have c1 := (hT.name o (List.mem_of_getElem? hi) l hl).2
    have c2 := (hT.name a (List.mem_of_getElem? ha) l' h1).2
    rcases List.append_eq_append_iff.1 h2 with ⟨u, rfl, hu⟩ | ⟨u, rfl, hu⟩
    · -- `l' = l ++ u`, and `t = u ++ t'`
      cases u with
      | nil => simp at hne
      | cons c u =>
        rcases ht with rfl | ⟨v, rfl⟩
        · simp at hu
        · obtain ⟨rfl, -⟩ := List.cons.inj hu
          exact (c2 '=' (by simp)).1 rfl
    · cases u with
      | nil => simp at hne
      | cons c u =>
        rcases h3 with rfl | ⟨d, w, rfl, h3⟩
        · simp at hu
        · obtain ⟨rfl, -⟩ := List.cons.inj hu
          have := c1 d (by simp)
          rcases h3 with h3 | h3
          · exact this.1 h3
          · exact this.2 h3

theorem find_short (hT : TableOk T) {i : Nat} {o : Opt} {c : Char} {s : Str} (hi : T[i]? = some o) (hc : o.sopt = some c) (hn : ¬ Names T (c :: s)) :
    T.findIdx? (fun o => shortMatch (c :: s) o || longMatch (c :: s) o) = some i := by
  refine findIdx_some hi (by simp [shortMatch, hc]) fun j a hj ha => ?_
  rw [Bool.or_eq_false_iff]
  constructor
  · rw [Bool.eq_false_iff]
    intro hm
    have hm : some c = a.sopt := of_decide_eq_true hm
    rcases pair hT.letters ha hi hj with h | h
    · simp [h] at hm
    · exact h (hm.symm.trans hc.symm)
  · rw [Bool.eq_false_iff]
    exact fun hm => hn (names_iff.2 ⟨a, List.mem_of_getElem? ha, hm⟩)

theorem letter_eq {i : Nat} {o : Opt} {c : Char} (hi : T[i]? = some o) (hc : o.sopt = some c) : letter T i = c := by simp [letter, hi, hc]
theorem name_eq {i : Nat} {o : Opt} {l : Str} (hi : T[i]? = some o) (hl : o.lopt = some l) : name T i = l := by simp [name, hi, hl]

theorem splitEq_name {l v : Str} (h : ∀ c ∈ l, c ≠ '=') : splitEq (l ++ '=' :: v) = some (l, v) := by
  induction l with
  | nil => rfl
  | cons c l ih => simp [splitEq, h c (by simp), ih fun d hd => h d (by simp [hd])]

theorem splitEq_none {l : Str} (h : ∀ c ∈ l, c ≠ '=') : splitEq l = none := by
  induction l with
  | nil => rfl
  | cons c l ih => simp [splitEq, h c (by simp), ih fun d hd => h d (by simp [hd])]

/-! ### The cases of `parse` -/

theorem parse_long (s : Str) (hs : s ≠ []) (rest : List Str) : parse takes T (('-' :: '-' :: s) :: rest) =
    (match T.findIdx? (longMatch s) with
    | none => notFound ('-' :: '-' :: s)
    | some i => match T[i]? with | none => [] | some o => byLong takes i o ['-', '-'] s) ++ parse takes T rest := by
  cases s with
  | nil => exact absurd rfl hs
  | cons c s =>
    rw [parse]
    · rfl
    · simp

theorem parse_short (c : Char) (s : Str) (hc : c ≠ '-') (rest : List Str) : parse takes T (('-' :: c :: s) :: rest) =
    match T.findIdx? (fun o => shortMatch (c :: s) o || longMatch (c :: s) o) with
    | none => notFound ('-' :: c :: s) ++ parse takes T rest
    | some i =>
      match T[i]? with
      | none => parse takes T rest
      | some o =>
        if shortMatch (c :: s) o then
          if o.param then
            if s ≠ [] then called takes i (c :: s) (some s) ('-' :: c :: s) ++ parse takes T rest
            else
              match rest with
              | [] => [.needs i]
              | p :: rest' =>
                if p.head? = some '-' then .needs i :: parse takes T (p :: rest')
                else called takes i [c] (some p) p ++ parse takes T rest'
          else called takes i (c :: s) none ('-' :: c :: s) ++ parse takes T rest
        else byLong takes i o ['-'] (c :: s) ++ parse takes T rest := by
  rw [parse]
  · rfl
  all_goals simp [hc]

theorem parse_file (a : Str) (ha : a.head? ≠ some '-') (rest : List Str) : parse takes T (a :: rest) = .file a :: parse takes T rest := by
  cases a with
  | nil => rw [parse] <;> simp
  | cons c a =>
    have : c ≠ '-' := by simpa using ha
    rw [parse] <;> simp [this]

theorem parse_needs (hT : TableOk T) {i : Nat} (hi : Letter T i true) (hn : ¬ Names T [letter T i]) (rest : List Str)
    (hr : ∀ a ∈ rest.head?, a.head? = some '-') : parse takes T (['-', letter T i] :: rest) = .needs i :: parse takes T rest := by
  obtain ⟨o, c, h1, h2, h3⟩ := hi
  rw [letter_eq h1 h2] at hn ⊢
  have hd : c ≠ '-' := fun h => hT.dash o (List.mem_of_getElem? h1) (h ▸ h2)
  rw [parse_short c [] hd, find_short hT h1 h2 hn]
  simp only [h1, h3, shortMatch, h2, List.head?_cons, decide_true, if_true, ne_eq, not_true_eq_false, if_false]
  cases rest with
  | nil => rfl
  | cons p rest =>
    have := hr p rfl
    simp only [this, if_true]

theorem item_append (hT : TableOk T) (x : Item) (h : x.Ok takes T) (rest : List Str) :
    parse takes T (x.args T ++ rest) = x.events T ++ parse takes T rest := by
  cases x with
  | flag i text =>
    obtain ⟨⟨o, c, h1, h2, h3⟩, hn, ht⟩ := h
    simp only [Item.args, Item.events]
    rw [letter_eq h1 h2] at hn ht ⊢
    have hd : c ≠ '-' := fun h => hT.dash o (List.mem_of_getElem? h1) (h ▸ h2)
    rw [List.singleton_append, parse_short c text hd, find_short hT h1 h2 hn]
    simp [h1, h3, shortMatch, h2, called, ht]
  | joined i v =>
    obtain ⟨⟨o, c, h1, h2, h3⟩, hv, hn, ht⟩ := h
    simp only [Item.args, Item.events]
    rw [letter_eq h1 h2] at hn ht ⊢
    have hd : c ≠ '-' := fun h => hT.dash o (List.mem_of_getElem? h1) (h ▸ h2)
    rw [List.singleton_append, parse_short c v hd, find_short hT h1 h2 hn]
    simp [h1, h3, shortMatch, h2, called, ht, hv]
  | separate i v =>
    obtain ⟨⟨o, c, h1, h2, h3⟩, hv, hn, ht⟩ := h
    simp only [Item.args, Item.events]
    rw [letter_eq h1 h2] at hn ht ⊢
    have hd : c ≠ '-' := fun h => hT.dash o (List.mem_of_getElem? h1) (h ▸ h2)
    rw [List.cons_append, parse_short c [] hd, find_short hT h1 h2 hn]
    simp [h1, h3, shortMatch, h2, called, ht, hv]
  | long i =>
    obtain ⟨⟨o, l, h1, h2, h3⟩, ht⟩ := h
    simp only [Item.args, Item.events]
    rw [name_eq h1 h2] at ht ⊢
    have hl := hT.name o (List.mem_of_getElem? h1) l h2
    have hf := find_long hT (t := []) h1 h2 (.inl rfl)
    rw [List.append_nil] at hf
    rw [List.singleton_append, parse_long l hl.1, hf]
    simp [h1, h3, byLong, called, ht]
  | longValue i v =>
    obtain ⟨⟨o, l, h1, h2, h3⟩, ht⟩ := h
    simp only [Item.args, Item.events]
    rw [name_eq h1 h2] at ht ⊢
    have hl := hT.name o (List.mem_of_getElem? h1) l h2
    have hf := find_long hT (t := '=' :: v) h1 h2 (.inr ⟨_, rfl⟩)
    rw [List.singleton_append, parse_long (l ++ '=' :: v) (by simp), hf]
    simp [h1, h3, byLong, called, ht, splitEq_name fun c hc => (hl.2 c hc).1]
  | valueless i =>
    obtain ⟨o, l, h1, h2, h3⟩ := h
    simp only [Item.args, Item.events]
    rw [name_eq h1 h2]
    have hl := hT.name o (List.mem_of_getElem? h1) l h2
    have hf := find_long hT (t := []) h1 h2 (.inl rfl)
    rw [List.append_nil] at hf
    rw [List.singleton_append, parse_long l hl.1, hf]
    simp [h1, h3, byLong, splitEq_none fun c hc => (hl.2 c hc).1]
  | unknown a =>
    simp only [Item.args, Item.events, List.singleton_append]
    rcases h with ⟨s, rfl, hs, hn⟩ | ⟨c, s, rfl, h1, h2, h3, hn⟩
    · have hf : T.findIdx? (longMatch s) = none := findIdx_none fun o ho => by
        rw [Bool.eq_false_iff]
        exact fun hm => hn (names_iff.2 ⟨o, ho, hm⟩)
      rw [parse_long s hs, hf]
      rfl
    · have hf : T.findIdx? (fun o => shortMatch (c :: s) o || longMatch (c :: s) o) = none := findIdx_none fun o ho => by
        rw [Bool.or_eq_false_iff]
        refine ⟨?_, ?_⟩
        · have := h3 o ho
          exact decide_eq_false fun (h : some _ = o.sopt) => this h.symm
        · rw [Bool.eq_false_iff]
          exact fun hm => hn (names_iff.2 ⟨o, ho, hm⟩)
      rw [parse_short c s h1, hf]
      have : other ('-' :: c :: s) = false := by
        unfold other
        split
        · next h => simp at h; exact absurd h.1 h2
        · rfl
      simp [notFound, this]
  | optimize d =>
    obtain ⟨h1, h3, hn⟩ := h
    simp only [Item.args, Item.events, List.singleton_append, List.nil_append]
    have hf : T.findIdx? (fun o => shortMatch ('O' :: d) o || longMatch ('O' :: d) o) = none := findIdx_none fun o ho => by
      rw [Bool.or_eq_false_iff]
      refine ⟨?_, ?_⟩
      · have := h3 o ho
        exact decide_eq_false fun (h : some _ = o.sopt) => this h.symm
      · rw [Bool.eq_false_iff]
        exact fun hm => hn (names_iff.2 ⟨o, ho, hm⟩)
    rw [parse_short 'O' d (by decide), hf]
    have : other ('-' :: 'O' :: d) = true := h1
    simp [notFound, this]
  | file a =>
    simp only [Item.args, Item.events, List.singleton_append]
    rcases h with h | rfl
    · exact parse_file a h rest
    · rw [parse]

theorem items_append (hT : TableOk T) (items : List Item) (h : ∀ x ∈ items, x.Ok takes T) (rest : List Str) :
    parse takes T (items.flatMap (Item.args T) ++ rest) = items.flatMap (Item.events T) ++ parse takes T rest := by
  induction items with
  | nil => rfl
  | cons x items ih =>
    rw [List.flatMap_cons, List.flatMap_cons, List.append_assoc, item_append hT x (h x (by simp)), ih fun y hy => h y (by simp [hy]), List.append_assoc]

end Verif.Cmdline
