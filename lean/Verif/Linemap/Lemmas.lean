import Verif.Linemap.Spec

set_option linter.unusedSimpArgs false

namespace Verif.Linemap

/-- Last mapping whose line is at most `l`. -/
def lastLe (maps : List Mapping) (l : Nat) : Option Mapping :=
  (maps.filter (fun m => m.line ≤ l)).getLast?

abbrev Sorted (maps : List Mapping) : Prop := maps.Pairwise (fun a b => a.line ≤ b.line)

def posOf (m : Mapping) (l : Nat) : String × Int :=
  (m.filename, m.fileLine + m.lineInc * ((l : Int) - m.line))

theorem sorted_get {maps : List Mapping} (h : Sorted maps) {i j : Nat} {a b : Mapping}
    (hij : i ≤ j) (ha : maps[i]? = some a) (hb : maps[j]? = some b) : a.line ≤ b.line := by
  rcases Nat.lt_or_eq_of_le hij with hlt | heq
  · obtain ⟨hi, rfl⟩ := List.getElem?_eq_some_iff.1 ha
    obtain ⟨hj, rfl⟩ := List.getElem?_eq_some_iff.1 hb
    exact (List.pairwise_iff_getElem.1 h) i j hi hj hlt
  · subst heq; rw [ha] at hb; cases hb; exact Nat.le_refl _

/-- In a sorted list the elements satisfying a downward closed bound form a prefix. -/
theorem filter_prefix {maps : List Mapping} (h : Sorted maps) (p : Nat → Bool)
    (hp : ∀ a b, a ≤ b → p b = true → p a = true) :
    maps.filter (fun m => p m.line) = maps.take (maps.countP (fun m => p m.line)) := by
  induction maps with
  | nil => rfl
  | cons m ms ih =>
    have hs := (List.pairwise_cons.1 h)
    by_cases hm : p m.line = true
    · simp [List.filter_cons, hm, List.countP_cons, ih hs.2]
    · have : ∀ x ∈ ms, ¬ p x.line = true := fun x hx hc => hm (hp _ _ (hs.1 x hx) hc)
      have h0 : ms.countP (fun m => p m.line) = 0 := List.countP_eq_zero.2 (by simpa using this)
      have h1 : ms.filter (fun m => p m.line) = [] := by simpa [List.filter_eq_nil_iff] using this
      simp [List.filter_cons, hm, List.countP_cons, h0, h1]

/-- index characterisation -/
theorem get_lt_count {maps : List Mapping} (h : Sorted maps) (p : Nat → Bool)
    (hp : ∀ a b, a ≤ b → p b = true → p a = true) {i : Nat} {m : Mapping}
    (hm : maps[i]? = some m) : p m.line = true ↔ i < maps.countP (fun m => p m.line) := by
  induction maps generalizing i with
  | nil => simp at hm
  | cons a ms ih =>
    have hs := (List.pairwise_cons.1 h)
    by_cases ha : p a.line = true
    · cases i with
      | zero => simp at hm; subst hm; simp [List.countP_cons, ha]
      | succ i => simp at hm; rw [ih hs.2 hm]; simp [List.countP_cons, ha]
    · have : ∀ x ∈ ms, ¬ p x.line = true := fun x hx hc => ha (hp _ _ (hs.1 x hx) hc)
      have h0 : ms.countP (fun m => p m.line) = 0 := List.countP_eq_zero.2 (by simpa using this)
      have hmem : m ∈ a :: ms := List.mem_of_getElem? hm
      have hmf : ¬ p m.line = true := by
        rcases List.mem_cons.1 hmem with rfl | hx
        · exact ha
        · exact this _ hx
      simp [List.countP_cons, ha, h0, hmf]

theorem scanBack_eq {maps : List Mapping} (h : Sorted maps) (vl : Nat) (n : Nat)
    (hn : n ≤ maps.length) (hc : maps.countP (fun m => m.line < vl) ≤ n) :
    scanBack maps vl n =
      if maps.countP (fun m => m.line < vl) = 0 then none
      else some (maps.countP (fun m => m.line < vl)) := by
  have hp : ∀ a b, a ≤ b → decide (b < vl) = true → decide (a < vl) = true := by
    intro a b hab hb; simp at *; omega
  induction n with
  | zero => simp only [scanBack]; rw [if_pos (by omega)]
  | succ i ih =>
    have hi : i < maps.length := by omega
    have hg : maps[i]? = some maps[i] := List.getElem?_eq_getElem hi
    have key := get_lt_count h (fun x => decide (x < vl)) hp hg
    simp only [decide_eq_true_eq] at key
    simp only [scanBack, hg]
    by_cases hlt : maps[i].line < vl
    · have := key.1 hlt
      rw [if_pos hlt, if_neg (by omega)]
      congr 1; omega
    · have := mt key.2 hlt
      rw [if_neg hlt]
      exact ih (by omega) (by omega)

theorem keep_eq {maps : List Mapping} (h : Sorted maps) (vl : Nat) :
    keep maps vl = if maps.countP (fun m => m.line < vl) = 0 then maps
      else maps.filter (fun m => m.line < vl) := by
  have hp : ∀ a b, a ≤ b → decide (b < vl) = true → decide (a < vl) = true := by
    intro a b hab hb; simp at *; omega
  have hle : maps.countP (fun m => m.line < vl) ≤ maps.length := List.countP_le_length
  have hpre := filter_prefix h (fun x => decide (x < vl)) hp
  unfold keep
  rw [scanBack_eq h vl _ (Nat.le_refl _) hle]
  by_cases h0 : maps.countP (fun m => m.line < vl) = 0
  · simp [h0]
  · simp only [h0, if_false]
    rw [hpre]
    split
    · rfl
    · rw [List.take_of_length_le (by omega)]

theorem startStep_pow (size : Nat) : ∀ fuel k, 2 ^ k ≤ max size 1 → size < 2 ^ k * 2 ^ (fuel + 1) →
    ∃ j, startStep size fuel (2 ^ k) = 2 ^ j ∧ 2 ^ j ≤ max size 1 ∧ size < 2 * 2 ^ j := by
  intro fuel
  induction fuel with
  | zero => intro k hk hf; exact ⟨k, rfl, hk, by rw [Nat.mul_comm]; simpa using hf⟩
  | succ n ih =>
    intro k hk hf
    simp only [startStep]
    split
    · have : 2 ^ k * 2 = 2 ^ (k + 1) := rfl
      rw [this]
      refine ih (k + 1) ?_ ?_
      · rw [← this]; omega
      · calc size < 2 ^ k * 2 ^ (n + 1 + 1) := hf
          _ = 2 ^ (k + 1) * 2 ^ (n + 1) := by rw [← Nat.pow_add, ← Nat.pow_add]; congr 1; omega
    · exact ⟨k, rfl, hk, by omega⟩

theorem search_zero (maps : List Mapping) (line : Nat) (fuel v : Nat) :
    search maps line fuel 0 v = v := by
  cases fuel <;> simp [search]

theorem search_eq {maps : List Mapping} (h : Sorted maps) (line : Nat) (c : Nat)
    (hc : maps.countP (fun m => m.line ≤ line) = c) :
    ∀ fuel k v, k < fuel → v < c ∨ (c = 0 ∧ v = 0) → c ≤ v + 2 * 2 ^ k →
      search maps line fuel (2 ^ k) v = c - 1 := by
  have hp : ∀ a b, a ≤ b → decide (b ≤ line) = true → decide (a ≤ line) = true := by
    intro a b hab hb; simp at *; omega
  intro fuel
  induction fuel with
  | zero => intro k v hk; omega
  | succ n ih =>
    intro k v hk hv hcb
    have hpos : 0 < 2 ^ k := Nat.pos_of_ne_zero (by simp)
    simp only [search, Nat.ne_of_gt hpos, if_false]
    have key : probe maps line v (2 ^ k) = if v + 2 ^ k < c then v + 2 ^ k else v := by
      unfold probe
      cases hg : maps[v + 2 ^ k]? with
      | none =>
        have hlen : maps.length ≤ v + 2 ^ k := List.getElem?_eq_none_iff.1 hg
        have : c ≤ maps.length := hc ▸ List.countP_le_length
        simp only []
        rw [if_neg (by omega)]
      | some m =>
        have := get_lt_count h (fun x => decide (x ≤ line)) hp hg
        simp only [decide_eq_true_eq, hc] at this
        simp only [this]
    rw [key]
    cases k with
    | zero =>
      have : (2 : Nat) ^ 0 / 2 = 0 := by decide
      rw [this, search_zero]
      simp only [Nat.pow_zero] at *
      split <;> omega
    | succ k =>
      have e : 2 ^ (k + 1) / 2 = 2 ^ k := by rw [Nat.pow_succ]; omega
      have e2 : 2 ^ (k + 1) = 2 * 2 ^ k := by rw [Nat.pow_succ]; omega
      rw [e]
      apply ih k _ (by omega)
      · split <;> omega
      · split <;> omega

theorem lastLe_eq {maps : List Mapping} (h : Sorted maps) (l : Nat) (m : Mapping)
    (hm : lastLe maps l = some m) :
    maps[maps.countP (fun m => m.line ≤ l) - 1]? = some m := by
  have hp : ∀ a b, a ≤ b → decide (b ≤ l) = true → decide (a ≤ l) = true := by
    intro a b hab hb; simp at *; omega
  unfold lastLe at hm
  rw [filter_prefix h (fun x => decide (x ≤ l)) hp] at hm
  have hle : maps.countP (fun m => m.line ≤ l) ≤ maps.length := List.countP_le_length
  rw [List.getLast?_eq_getElem?, List.length_take, Nat.min_eq_left hle, List.getElem?_take] at hm
  split at hm
  · exact hm
  · cases hm

theorem lookup_eq {lm : Linemap} (h : Sorted lm.maps) (l : Nat) (hl : 0 < l) (m : Mapping)
    (hm : lastLe lm.maps l = some m) : lookup lm l = some (posOf m l) := by
  have hget := lastLe_eq h l m hm
  unfold lookup
  have hsz : lm.maps.length < 2 ^ 0 * 2 ^ (lm.maps.length + 1) := by
    rw [Nat.pow_zero, Nat.one_mul]
    exact Nat.lt_trans (Nat.lt_two_pow_self) (Nat.pow_lt_pow_right (by omega) (by omega))
  obtain ⟨j, hj, hjle, hjlt⟩ := startStep_pow lm.maps.length lm.maps.length 0 (by simp; omega) hsz
  rw [Nat.pow_zero] at hj
  have hcle : lm.maps.countP (fun m => m.line ≤ l) ≤ lm.maps.length := List.countP_le_length
  have hjf : j < lm.maps.length + 1 := by
    have : j < 2 ^ j := Nat.lt_two_pow_self
    have hne : 0 < lm.maps.length := by
      cases hmm : lm.maps with
      | nil => rw [hmm] at hm; simp [lastLe] at hm
      | cons => simp
    omega
  have hs := search_eq h l _ rfl (lm.maps.length + 1) j 0 hjf (by omega) (by omega)
  simp only [hj, hs, hget]
  simp [posOf, Nat.ne_of_gt hl]

/-- Simulation invariant between the vector and the specification. -/
structure Inv (lm : Linemap) (s : Spec.State) : Prop where
  cur : lm.current = s.current
  pos : 1 ≤ lm.current
  sorted : Sorted lm.maps
  bound : ∀ m ∈ lm.maps, 1 ≤ m.line ∧ m.line ≤ lm.current
  agree : ∀ l, s.pos l = (lastLe lm.maps l).map (fun m => posOf m l)

theorem inv_init : Inv create Spec.init where
  cur := rfl
  pos := by decide
  sorted := by simp [create, Sorted]
  bound := by simp [create]
  agree := by intro l; simp [Spec.init, create, lastLe]

theorem lastLe_isSome {maps : List Mapping} {l : Nat} :
    (lastLe maps l).isSome ↔ ∃ m ∈ maps, m.line ≤ l := by
  unfold lastLe
  rw [List.getLast?_isSome]
  constructor
  · intro h
    obtain ⟨x, hx⟩ := List.exists_mem_of_ne_nil _ h
    rw [List.mem_filter] at hx
    exact ⟨x, hx.1, by simpa using hx.2⟩
  · rintro ⟨m, hm, hl⟩ h
    have : m ∈ maps.filter (fun m => m.line ≤ l) := List.mem_filter.2 ⟨hm, by simpa using hl⟩
    rw [h] at this; simp at this

/-- What `set` keeps, under the conditions the assembler respects. -/
theorem inv_set {lm : Linemap} {s : Spec.State} (h : Inv lm s) (f : Option String) (v : Nat)
    (fl inc : Int) (hv : v = 0 ∨ ((s.pos (v - 1)).isSome ∧ v ≤ s.current)) :
    Inv (set lm f v fl inc) (Spec.set s f v fl inc) := by
  have hstart : (if v = 0 then lm.current else v) = Spec.startOf s v := by
    simp [Spec.startOf, h.cur]
  have hsle : Spec.startOf s v ≤ s.current := by
    unfold Spec.startOf; rcases hv with rfl | hv
    · simp
    · split <;> omega
  have hs1 : 1 ≤ Spec.startOf s v := by
    unfold Spec.startOf; have := h.pos; have := h.cur; split <;> omega
  generalize hst : Spec.startOf s v = st at *
  -- when nothing lies before the start, everything lies exactly on it
  have hzero : lm.maps.countP (fun m => m.line < st) = 0 → ∀ m ∈ lm.maps, m.line = st := by
    intro h0 m hm
    have h1 : ∀ m ∈ lm.maps, st ≤ m.line := by
      simpa [List.countP_eq_zero] using h0
    have h2 := h1 m hm
    have hb := (h.bound m hm).2
    rcases hv with rfl | ⟨hsome, hle⟩
    · simp [Spec.startOf] at hst; have := h.cur; omega
    · have hv0 : v = st ∨ v = 0 := by unfold Spec.startOf at hst; split at hst <;> omega
      rcases hv0 with rfl | rfl
      · rw [h.agree, Option.isSome_map, lastLe_isSome] at hsome
        obtain ⟨x, hx, hxl⟩ := hsome
        have := h1 x hx; omega
      · simp [Spec.startOf] at hst; have := h.cur; omega
  have hkeep := keep_eq h.sorted st
  -- every kept mapping is at or before the start
  have hkeple : ∀ m ∈ keep lm.maps st, m ∈ lm.maps ∧ m.line ≤ st := by
    intro m hm
    rw [hkeep] at hm
    split at hm
    · next h0 => exact ⟨hm, Nat.le_of_eq (hzero h0 m hm)⟩
    · rw [List.mem_filter] at hm
      exact ⟨hm.1, by have := hm.2; simp at this; omega⟩
  have hfil : ∀ l, l < st → (keep lm.maps st).filter (fun m => m.line ≤ l) =
      lm.maps.filter (fun m => m.line ≤ l) := by
    intro l hl
    rw [hkeep]
    split
    · rfl
    · rw [List.filter_filter]
      apply List.filter_congr
      intro m _
      simp only [Bool.and_eq_decide, decide_eq_decide, decide_eq_true_eq]
      omega
  have hname : chooseName (keep lm.maps st) f = f.getD (Spec.inheritedName s st) := by
    cases f with
    | some f => rfl
    | none =>
      simp only [chooseName, Option.getD_none, Spec.inheritedName, h.agree]
      by_cases h0 : lm.maps.countP (fun m => m.line < st) = 0
      · have hk : keep lm.maps st = lm.maps := by rw [hkeep, if_pos h0]
        have e1 : lastLe lm.maps (st - 1) = none := by
          rw [← Option.not_isSome_iff_eq_none, lastLe_isSome]
          rintro ⟨m, hm, hl⟩
          have := hzero h0 m hm; omega
        have e2 : lastLe lm.maps st = lm.maps.getLast? := by
          unfold lastLe
          rw [List.filter_eq_self.2]
          intro m hm; simp [hzero h0 m hm]
        rw [hk, e1, e2]
        cases lm.maps.getLast? <;> simp [posOf]
      · have hk : keep lm.maps st = lm.maps.filter (fun m => m.line < st) := by
          rw [hkeep, if_neg h0]
        have e1 : lastLe lm.maps (st - 1) = (keep lm.maps st).getLast? := by
          rw [hk]; unfold lastLe; congr 1
          apply List.filter_congr; intro m _
          simp only [decide_eq_decide]; omega
        rw [e1]
        cases hl : (keep lm.maps st).getLast? with
        | some m => simp [posOf]
        | none =>
          exfalso
          rw [List.getLast?_eq_none_iff, hk, List.filter_eq_nil_iff] at hl
          exact h0 (List.countP_eq_zero.2 hl)
  have hset : set lm f v fl inc = { lm with maps := keep lm.maps st ++
      [⟨st, f.getD (Spec.inheritedName s st), fl, inc⟩] } := by
    simp only [set, hstart, hname]
  have hspec : Spec.set s f v fl inc = { s with
      pos := fun l => if l < st then s.pos l
        else some (f.getD (Spec.inheritedName s st), fl + inc * ((l : Int) - st)) } := by
    simp only [Spec.set, hst]
  rw [hset, hspec]
  refine ⟨h.cur, h.pos, ?_, ?_, ?_⟩
  · show Sorted _
    unfold Sorted
    rw [List.pairwise_append]
    refine ⟨?_, by simp, ?_⟩
    · rw [hkeep]; split
      · exact h.sorted
      · exact h.sorted.filter _
    · intro a ha b hb
      simp at hb; subst hb
      exact (hkeple a ha).2
  · intro m hm
    simp only [List.mem_append, List.mem_singleton] at hm
    rcases hm with hm | rfl
    · exact h.bound m (hkeple m hm).1
    · exact ⟨hs1, by show st ≤ lm.current; rw [h.cur]; exact hsle⟩
  · intro l
    show (if l < st then s.pos l else _) = _
    unfold lastLe
    rw [List.filter_append]
    split
    · next hl =>
      rw [hfil l hl, h.agree l]
      have : [(⟨st, f.getD (Spec.inheritedName s st), fl, inc⟩ : Mapping)].filter
          (fun m => m.line ≤ l) = [] := by simp; omega
      rw [this, List.append_nil]; rfl
    · next hl =>
      have : [(⟨st, f.getD (Spec.inheritedName s st), fl, inc⟩ : Mapping)].filter
          (fun m => m.line ≤ l) = [⟨st, f.getD (Spec.inheritedName s st), fl, inc⟩] := by
        simp; omega
      rw [this, List.getLast?_append]
      simp [posOf]

theorem inv_next {lm : Linemap} {s : Spec.State} (h : Inv lm s) :
    Inv (gotoNext lm) { s with current := s.current + 1 } where
  cur := by simp [gotoNext, h.cur]
  pos := by simp [gotoNext]
  sorted := h.sorted
  bound := by
    intro m hm; have := h.bound m hm; simp [gotoNext]; omega
  agree := h.agree

theorem inv_source {lm : Linemap} {s : Spec.State} (h : Inv lm s) (bc : Option Nat) (t : String) :
    Inv (addSource lm bc t) (Spec.step s (.source bc t)) where
  cur := h.cur
  pos := h.pos
  sorted := h.sorted
  bound := h.bound
  agree := h.agree

/-! Source text -/

theorem growSources_eq (c : Nat) : ∀ fuel (s : List SourceInfo), 0 < s.length →
    c ≤ s.length * 2 ^ fuel →
    ∃ n, growSources c fuel s = s ++ List.replicate n ⟨none, none⟩ ∧
      c ≤ (growSources c fuel s).length := by
  intro fuel
  induction fuel with
  | zero => intro s _ hc; exact ⟨0, by simp [growSources], by simpa [growSources] using hc⟩
  | succ k ih =>
    intro s hs hc
    simp only [growSources]
    split
    · obtain ⟨n, hn, hl⟩ := ih (s ++ List.replicate s.length ⟨none, none⟩) (by simp; omega)
        (by simp only [List.length_append, List.length_replicate]
            rw [Nat.pow_succ] at hc
            calc c ≤ s.length * (2 ^ k * 2) := hc
              _ = (s.length + s.length) * 2 ^ k := by rw [← Nat.two_mul, Nat.mul_comm 2 s.length,
                    Nat.mul_assoc, Nat.mul_comm 2])
      refine ⟨s.length + n, ?_, hl⟩
      rw [hn, List.append_assoc, List.replicate_append_replicate]
    · exact ⟨0, by simp, by omega⟩

structure SInv (lm : Linemap) (s : Spec.State) : Prop where
  cur : lm.current = s.current
  pos : 1 ≤ lm.current
  len : 0 < lm.sources.length
  zero : s.src 0 = none
  agree : ∀ l, 1 ≤ l → (s.src l = match lm.sources[l - 1]? with
    | some ⟨bc, some t⟩ => some (bc, t)
    | _ => none)

theorem sinv_init : SInv create Spec.init where
  cur := rfl
  pos := by decide
  len := by decide
  zero := rfl
  agree := by
    intro l hl
    show none = match ([⟨none, none⟩, ⟨none, none⟩] : List SourceInfo)[l - 1]? with
      | some ⟨bc, some t⟩ => some (bc, t)
      | _ => none
    match l, hl with
    | 1, _ => rfl
    | 2, _ => rfl
    | n + 3, _ => simp

theorem sinv_step {lm : Linemap} {s : Spec.State} (h : SInv lm s) (op : Op) :
    SInv (step lm op) (Spec.step s op) := by
  cases op with
  | set f v fl inc => exact ⟨h.cur, h.pos, h.len, h.zero, h.agree⟩
  | next => exact ⟨by simp [step, gotoNext, Spec.step, h.cur], by simp [step, gotoNext], h.len,
      h.zero, h.agree⟩
  | source bc t =>
    have hpos := h.pos
    obtain ⟨n, hn, hl⟩ := growSources_eq lm.current lm.current lm.sources h.len (by
      have h1 : lm.current < 2 ^ lm.current := Nat.lt_two_pow_self
      have h2 := Nat.le_mul_of_pos_left (2 ^ lm.current) h.len
      omega)
    refine ⟨h.cur, h.pos, ?_, ?_, ?_⟩
    · simp only [step, addSource, List.length_set]; omega
    · show (if 0 = s.current then some (bc, t) else s.src 0) = none
      rw [if_neg (by have := h.cur; omega)]; exact h.zero
    · intro l hl1
      show (if l = s.current then some (bc, t) else s.src l) = _
      simp only [step, addSource]
      by_cases he : l = s.current
      · have hcur := h.cur
        subst he
        rw [hcur, List.getElem?_set_self (by rw [← hcur]; omega)]
        simp
      · have hcur := h.cur
        rw [if_neg he, h.agree l hl1, List.getElem?_set_ne (by omega), hn]
        by_cases hlt : l - 1 < lm.sources.length
        · rw [List.getElem?_append_left hlt]
        · rw [List.getElem?_append_right (by omega), List.getElem?_replicate,
            List.getElem?_eq_none (by omega)]
          by_cases hx : l - 1 - lm.sources.length < n <;> simp [hx]

end Verif.Linemap
