/-
Property theorems about associated data (C37).
-/
import Verif.Assoc.Model
import Verif.Assoc.Spec

namespace Verif.Assoc

/-- Number of times `destroy` of callback `cb` was called with `p`. -/
def calls (cb p : Nat) (log : List (Cb × Ptr)) : Nat := log.count (cb, p)

/-- Reachable stores: callbacks distinct, vector within its allocation. -/
structure Inv (a : Assoc) : Prop where
  nodup : (a.slots.map (·.1)).Nodup
  room : a.slots.length ≤ a.alloc
  two : 2 ≤ a.alloc

theorem create_inv : Inv create := ⟨by simp [create], by simp [create], by simp [create]⟩

theorem find_append_of_none {l : List (Cb × Ptr)} {cb : Cb} (h : ∀ s ∈ l, s.1 ≠ cb) (x : Cb × Ptr)
    (c : Cb) :
    (l ++ [x]).find? (fun s => s.1 == c) =
      if c = cb ∧ x.1 = cb then some x else
        match l.find? (fun s => s.1 == c) with
        | some s => some s
        | none => if x.1 = c then some x else none := by
  rw [List.find?_append]
  by_cases hc : c = cb ∧ x.1 = cb
  · obtain ⟨rfl, hx⟩ := hc
    have : l.find? (fun s => s.1 == c) = none := by
      rw [List.find?_eq_none]
      intro s hs; simpa using h s hs
    simp [this, hx]
  · rw [if_neg hc]
    cases hl : l.find? (fun s => s.1 == c) with
    | some s => simp
    | none =>
      by_cases hx : x.1 = c
      · simp [hx]
      · simp [hx]

theorem find_set {l : List (Cb × Ptr)} {i : Nat} {s : Cb × Ptr} (hi : l[i]? = some s)
    (hn : (l.map (·.1)).Nodup) (d : Ptr) (c : Cb) :
    (l.set i (s.1, d)).find? (fun s => s.1 == c) =
      if c = s.1 then some (s.1, d) else l.find? (fun s => s.1 == c) := by
  induction l generalizing i with
  | nil => simp at hi
  | cons x t ih =>
    cases i with
    | zero =>
      simp only [List.getElem?_cons_zero, Option.some.injEq] at hi
      subst hi
      simp only [List.set_cons_zero, List.find?_cons]
      by_cases hc : c = x.1
      · subst hc; simp
      · have : (x.1 == c) = false := by simp; exact fun h => hc h.symm
        simp [this, hc]
    | succ i =>
      simp only [List.getElem?_cons_succ] at hi
      have hn' : (t.map (·.1)).Nodup := (List.nodup_cons.1 hn).2
      have hx : x.1 ∉ t.map (·.1) := (List.nodup_cons.1 hn).1
      have hne : x.1 ≠ s.1 := by
        intro h
        exact hx (List.mem_map.2 ⟨s, List.mem_of_getElem? hi, h.symm⟩)
      simp only [List.set_cons_succ, List.find?_cons]
      by_cases hc : x.1 = c
      · have : (x.1 == c) = true := by simpa using hc
        have h2 : c ≠ s.1 := by rw [← hc]; exact hne
        simp [this, h2]
      · have : (x.1 == c) = false := by simpa using hc
        simp only [this]
        exact ih hi hn'

theorem map_fst_set {l : List (Cb × Ptr)} {i : Nat} {s : Cb × Ptr} (hi : l[i]? = some s) (d : Ptr) :
    (l.set i (s.1, d)).map (·.1) = l.map (·.1) := by
  apply List.ext_getElem?
  intro j
  simp only [List.getElem?_map, List.getElem?_set]
  by_cases h : i = j
  · subst h
    have := List.getElem?_eq_some_iff.1 hi
    obtain ⟨hlt, he⟩ := this
    simp [hlt, he]
  · simp [h]

theorem slotOf_some {l : List (Cb × Ptr)} {cb : Cb} {i : Nat} (h : slotOf l cb = some i) :
    ∃ s, l[i]? = some s ∧ s.1 = cb ∧ l.find? (fun s => s.1 == cb) = some s := by
  induction l generalizing i with
  | nil => simp [slotOf] at h
  | cons x t ih =>
    unfold slotOf at h ih
    rw [List.findIdx?_cons] at h
    by_cases hx : x.1 = cb
    · simp [hx] at h
      subst h
      exact ⟨x, rfl, hx, by simp [hx]⟩
    · have hb : (x.1 == cb) = false := by simpa using hx
      simp only [hb, Bool.false_eq_true, if_false, Option.map_eq_some_iff] at h
      obtain ⟨j, hj, rfl⟩ := h
      obtain ⟨s, h1, h2, h3⟩ := ih hj
      exact ⟨s, by simpa using h1, h2, by simp [hb, h3]⟩

theorem slotOf_none {l : List (Cb × Ptr)} {cb : Cb} (h : slotOf l cb = none) :
    ∀ s ∈ l, s.1 ≠ cb := by
  unfold slotOf at h
  rw [List.findIdx?_eq_none_iff] at h
  intro s hs
  simpa using h s hs

/-- One addition: never out of bounds; the map is updated at `cb` only; exactly the data replaced is
    destroyed, and only if it is not NULL and not the data stored. -/
theorem add_spec {a : Option Assoc} (ha : ∀ x, a = some x → Inv x) (cb : Cb) (d : Ptr) :
    ∃ a' log, add a cb d = some (a', log) ∧ Inv a' ∧
      (∀ c, get (some a') c = if c = cb then d else get a c) ∧
      log = (if get a cb ≠ 0 ∧ get a cb ≠ d then [(cb, get a cb)] else []) := by
  have hinv : Inv (a.getD create) := by
    cases a with
    | none => exact create_inv
    | some x => exact ha x rfl
  have hget : ∀ c, get a c = get (some (a.getD create)) c := by
    intro c; cases a with
    | none => simp [get, create]
    | some x => rfl
  simp only [hget]
  unfold add
  generalize a.getD create = b at hinv
  dsimp only
  cases hs : slotOf b.slots cb with
  | some i =>
    obtain ⟨s, h1, h2, h3⟩ := slotOf_some hs
    have hg : get (some b) cb = s.2 := by simp [get, h3]
    subst h2
    refine ⟨⟨b.slots.set i (s.1, d), b.alloc⟩, _, by simp only [store, h1]; rfl, ?_, ?_, ?_⟩
    · refine ⟨?_, ?_, hinv.two⟩
      · show ((b.slots.set i (s.1, d)).map (·.1)).Nodup
        rw [map_fst_set h1]; exact hinv.nodup
      · simpa using hinv.room
    · intro c
      show get (some ⟨b.slots.set i (s.1, d), b.alloc⟩) c = _
      unfold get
      dsimp only
      rw [find_set h1 hinv.nodup]
      by_cases hc : c = s.1 <;> simp [hc]
    · rw [hg]
  | none =>
    have hn := slotOf_none hs
    have hlt : b.slots.length + 1 - 1 <
        (if b.slots.length + 1 > b.alloc then b.alloc * 2 else b.alloc) := by
      have := hinv.room; have := hinv.two
      split <;> omega
    rw [if_pos hlt]
    have hg : get (some b) cb = 0 := by
      have : b.slots.find? (fun s => s.1 == cb) = none := by
        rw [List.find?_eq_none]; intro s hs; simpa using hn s hs
      simp [get, this]
    have hidx : (b.slots ++ [(cb, 0)])[b.slots.length]? = some (cb, 0) := by simp
    refine ⟨⟨(b.slots ++ [(cb, 0)]).set b.slots.length (cb, d),
      if b.slots.length + 1 > b.alloc then b.alloc * 2 else b.alloc⟩, _, by
        simp only [store, Nat.add_sub_cancel, hidx]; rfl, ?_, ?_, ?_⟩
    · have hset : (b.slots ++ [(cb, 0)]).set b.slots.length (cb, d) = b.slots ++ [(cb, d)] := by simp
      rw [hset]
      refine ⟨?_, ?_, ?_⟩
      · show ((b.slots ++ [(cb, d)]).map (·.1)).Nodup
        rw [List.map_append, List.nodup_append]
        refine ⟨hinv.nodup, by simp, ?_⟩
        intro x hx y hy
        obtain ⟨s, hs1, rfl⟩ := List.mem_map.1 hx
        simp at hy
        subst hy
        exact hn s hs1
      · have := hinv.room; have := hinv.two
        simp only [List.length_append, List.length_singleton]
        omega
      · have := hinv.two
        by_cases hgt : b.slots.length + 1 > b.alloc
        · simp only [hgt, if_true]; omega
        · simp only [hgt, if_false]; omega
    · intro c
      have hset : (b.slots ++ [(cb, 0)]).set b.slots.length (cb, d) = b.slots ++ [(cb, d)] := by simp
      rw [hset]
      unfold get
      dsimp only
      rw [find_append_of_none hn]
      by_cases hc : c = cb
      · simp [hc]
      · simp only [hc, false_and, if_false]
        have : ¬ cb = c := fun h => hc h.symm
        simp only [this, if_false]
        cases b.slots.find? (fun s => s.1 == c) <;> rfl
    · simp [hg]

theorem givenUp_cons (p x : Nat) (l : List Nat) :
    Spec.givenUp p (x :: l) = (if x = p ∧ l.head?.getD 0 ≠ p ∨ x = p ∧ l = [] then 1 else 0) +
      Spec.givenUp p l := by
  cases l with
  | nil => by_cases h : x = p <;> simp [Spec.givenUp, h]
  | cons y t => simp [Spec.givenUp]

/-- Data `p` of callback `cb`, held in the store when the history starts, counts as one more
    addition. -/
theorem run_spec (ops : List (Cb × Ptr)) : ∀ {a : Option Assoc}, (∀ x, a = some x → Inv x) →
    ∃ a' log, run a ops = some (a', log) ∧ (∀ x, a' = some x → Inv x) ∧
      (∀ c, get a' c = (Spec.under c ops).getLast?.getD (get a c)) ∧
      (∀ c p, p ≠ 0 → calls c p log + (if get a' c = p then 1 else 0) =
        Spec.givenUp p (get a c :: Spec.under c ops)) ∧
      (∀ x ∈ log, x.2 ≠ 0) := by
  induction ops with
  | nil =>
    intro a ha
    exact ⟨a, [], rfl, ha, by simp [Spec.under], by simp [calls, Spec.under, Spec.givenUp], by simp⟩
  | cons o ops ih =>
    intro a ha
    obtain ⟨cb, d⟩ := o
    obtain ⟨a1, l1, h1, h2, h3, h4⟩ := add_spec ha cb d
    obtain ⟨a2, l2, g1, g2, g3, g4, g5⟩ := ih (a := some a1) (by intro x hx; cases hx; exact h2)
    refine ⟨a2, l1 ++ l2, by simp [run, h1, g1], g2, ?_, ?_, ?_⟩
    · intro c
      rw [g3, h3]
      by_cases hc : c = cb
      · subst hc
        have : Spec.under c ((c, d) :: ops) = d :: Spec.under c ops := by simp [Spec.under]
        rw [this, if_pos rfl, List.getLast?_cons]
        simp
      · have hb : ¬ cb = c := fun h => hc h.symm
        have : Spec.under c ((cb, d) :: ops) = Spec.under c ops := by simp [Spec.under, hb]
        rw [this, if_neg hc]
    · intro c p hp
      have hg := g4 c p hp
      rw [h3] at hg
      have hcalls : calls c p (l1 ++ l2) = calls c p l1 + calls c p l2 := List.count_append
      rw [hcalls]
      by_cases hc : c = cb
      · subst hc
        have hu : Spec.under c ((c, d) :: ops) = d :: Spec.under c ops := by simp [Spec.under]
        rw [hu, if_pos rfl] at *
        have hl1 : calls c p l1 = if get a c = p ∧ d ≠ p then 1 else 0 := by
          rw [h4]
          unfold calls
          by_cases hx : get a c ≠ 0 ∧ get a c ≠ d
          · rw [if_pos hx]
            by_cases hy : get a c = p
            · rw [hy] at hx ⊢
              simp [hx.2, Ne.symm hx.2]
            · simp [hy]
          · rw [if_neg hx]
            by_cases hy : get a c = p
            · have : ¬ d ≠ p := by
                intro hd; apply hx; rw [hy]; exact ⟨hp, fun h => hd h.symm⟩
              simp at this
              simp [hy, this]
            · simp [hy]
        show _ = (if get a c = p ∧ d ≠ p then 1 else 0) + Spec.givenUp p (d :: Spec.under c ops)
        rw [hl1]
        omega
      · have hb : ¬ cb = c := fun h => hc h.symm
        have hu : Spec.under c ((cb, d) :: ops) = Spec.under c ops := by simp [Spec.under, hb]
        rw [if_neg hc] at hg
        have hl1 : calls c p l1 = 0 := by
          rw [h4]; unfold calls
          split <;> simp [hb]
        rw [hu, hl1]
        omega
    · intro x hx
      rcases List.mem_append.1 hx with hx | hx
      · rw [h4] at hx
        split at hx
        · rename_i hh; simp at hx; subst hx; exact hh.1
        · simp at hx
      · exact g5 x hx

theorem count_slots {l : List (Cb × Ptr)} (hn : (l.map (·.1)).Nodup) (c p : Nat) :
    l.count (c, p) = if (l.find? (fun s => s.1 == c)).map (·.2) = some p then 1 else 0 := by
  induction l with
  | nil => simp
  | cons x t ih =>
    have hn' := List.nodup_cons.1 hn
    rw [List.count_cons, ih hn'.2]
    by_cases hx : x.1 = c
    · have hb : (x.1 == c) = true := by simpa using hx
      have hnone : t.find? (fun s => s.1 == c) = none := by
        rw [List.find?_eq_none]
        intro s hs
        simp
        intro h
        exact hn'.1 (List.mem_map.2 ⟨s, hs, by rw [h, ← hx]⟩)
      rw [List.find?_cons_of_pos (by simpa using hx), hnone]
      obtain ⟨x1, x2⟩ := x
      simp at hx
      subst hx
      simp
    · have hb : (x.1 == c) = false := by simpa using hx
      have : (x == (c, p)) = false := by
        simp
        intro h; exact hx (by rw [h])
      rw [this, List.find?_cons_of_neg (by simpa using hx)]
      simp

theorem destroy_calls {a : Option Assoc} (ha : ∀ x, a = some x → Inv x) (c p : Nat) (hp : p ≠ 0) :
    calls c p (destroy a) = if get a c = p then 1 else 0 := by
  cases a with
  | none => simp [destroy, calls, get, Ne.symm hp]
  | some a =>
    have h := count_slots (ha a rfl).nodup c p
    have hid : a.slots.map (fun s => (s.1, s.2)) = a.slots := by simp
    have hd : destroy (some a) = a.slots := hid
    rw [hd]
    unfold calls
    rw [h]
    have hg : get (some a) c = ((a.slots.find? (fun s => s.1 == c)).map (·.2)).getD 0 := by
      unfold get
      dsimp only
      cases a.slots.find? (fun s => s.1 == c) <;> rfl
    rw [hg]
    cases (a.slots.find? (fun s => s.1 == c)).map (·.2) with
    | none => simp [Ne.symm hp]
    | some s => simp

/-- C37: associated data is a map from callback identity to data.  After any history of additions
    starting from nothing — no vector is ever written out of bounds — looking a callback up returns
    the data last added under it (NULL if none). -/
theorem assoc_is_map (ops : List (Nat × Nat)) :
    ∃ a log, run none ops = some (a, log) ∧ ∀ c, get a c = Spec.current c ops := by
  obtain ⟨a, log, h1, _, h3, _⟩ := run_spec ops (a := none) (by simp)
  exact ⟨a, log, h1, fun c => by rw [h3]; rfl⟩

/-- C37: over a whole life — any history of additions and the final destruction — a callback is asked
    to destroy a piece of data exactly as often as the data stopped being the one associated. -/
theorem assoc_destroyed_when_given_up (ops : List (Nat × Nat)) (c p : Nat) (hp : p ≠ 0) :
    ∃ a log, run none ops = some (a, log) ∧
      calls c p (log ++ destroy a) = Spec.givenUp p (Spec.under c ops) := by
  obtain ⟨a, log, h1, h2, _, h4, _⟩ := run_spec ops (a := none) (by simp)
  refine ⟨a, log, h1, ?_⟩
  have := h4 c p hp
  have hd := destroy_calls h2 c p hp
  have hc : calls c p (log ++ destroy a) = calls c p log + calls c p (destroy a) := List.count_append
  rw [hc, hd, this]
  have h0 : get none c = 0 := rfl
  rw [h0, givenUp_cons]
  simp [Ne.symm hp]

theorem givenUp_once {p : Nat} {l : List Nat} (hn : l.Nodup) (hm : p ∈ l) : Spec.givenUp p l = 1 := by
  have hz : ∀ l : List Nat, p ∉ l → Spec.givenUp p l = 0 := by
    intro l
    induction l with
    | nil => intro _; rfl
    | cons x t ih =>
      intro h
      simp only [List.mem_cons, not_or] at h
      rw [givenUp_cons, ih h.2]
      simp [Ne.symm h.1]
  induction l with
  | nil => cases hm
  | cons x t ih =>
    have hn' := List.nodup_cons.1 hn
    rw [givenUp_cons]
    by_cases hx : x = p
    · subst hx
      rw [hz t hn'.1]
      cases t with
      | nil => simp
      | cons y t =>
        have : y ≠ x := fun h => hn'.1 (by simp [h])
        simp [this]
    · have hm' : p ∈ t := by
        rcases List.mem_cons.1 hm with h | h
        · exact absurd h.symm hx
        · exact h
      rw [ih hn'.2 hm']
      simp [hx]

/-- C37: data that its callback was handed once is destroyed by that callback exactly once over the
    store's life, whatever else was added before, between and after. -/
theorem assoc_destroyed_once (ops : List (Nat × Nat)) (c p : Nat) (hp : p ≠ 0)
    (honce : (Spec.under c ops).Nodup) (hm : (c, p) ∈ ops) :
    ∃ a log, run none ops = some (a, log) ∧ calls c p (log ++ destroy a) = 1 := by
  obtain ⟨a, log, h1, h2⟩ := assoc_destroyed_when_given_up ops c p hp
  refine ⟨a, log, h1, ?_⟩
  rw [h2]
  refine givenUp_once honce ?_
  exact List.mem_map.2 ⟨(c, p), List.mem_filter.2 ⟨hm, by simp⟩, rfl⟩

/-- C37: an addition never destroys the data being stored: after any history, adding `d` under `c`
    makes at most one destroy call, with the data previously associated with `c`, which is not `d`;
    and what other callbacks hold is untouched. -/
theorem assoc_add_spares_new (ops : List (Nat × Nat)) (c d : Nat) :
    ∃ a log a' log', run none ops = some (a, log) ∧ add a c d = some (a', log') ∧
      (log' = [] ∨ (log' = [(c, Spec.current c ops)] ∧ Spec.current c ops ≠ d ∧
        Spec.current c ops ≠ 0)) ∧
      get (some a') c = d ∧ ∀ e, e ≠ c → get (some a') e = Spec.current e ops := by
  obtain ⟨a, log, h1, h2, h3, _⟩ := run_spec ops (a := none) (by simp)
  obtain ⟨a', log', g1, _, g3, g4⟩ := add_spec h2 c d
  have hcur : ∀ c, get a c = Spec.current c ops := fun c => by rw [h3]; rfl
  refine ⟨a, log, a', log', h1, g1, ?_, by rw [g3]; simp, ?_⟩
  · rw [g4, hcur]
    split
    · rename_i h; exact Or.inr ⟨rfl, h.2, h.1⟩
    · exact Or.inl rfl
  · intro e he
    rw [g3, if_neg he, hcur]

/-- No history destroys NULL... before the final destruction. -/
theorem assoc_add_never_destroys_null (ops : List (Nat × Nat)) :
    ∃ a log, run none ops = some (a, log) ∧ ∀ x ∈ log, x.2 ≠ 0 := by
  obtain ⟨a, log, h1, _, _, _, h5⟩ := run_spec ops (a := none) (by simp)
  exact ⟨a, log, h1, h5⟩

/-- A history with replacement, re-adding of the same data, a third callback forcing the vector to
    grow, and NULL. -/
def sample : List (Nat × Nat) := [(7, 100), (8, 200), (7, 101), (7, 101), (9, 300), (8, 201), (9, 0)]

example : run none sample = some (some ⟨[(7, 101), (8, 201), (9, 0)], 4⟩,
    [(7, 100), (8, 200), (9, 300)]) := by decide
example : (Spec.under 8 sample).Nodup ∧ ((8, 200) : Nat × Nat) ∈ sample := by decide
example : Spec.current 7 sample = 101 ∧ Spec.current 10 sample = 0 := by decide
example : Spec.givenUp 101 (Spec.under 7 sample) = 1 := by decide

/-- Disagreement (C37): the final destruction hands NULL to the callback of an association whose data
    is NULL. -/
theorem destroy_called_with_null :
    ∃ ops a log, run none ops = some (a, log) ∧ (7, 0) ∈ destroy a :=
  ⟨[(7, 5), (7, 0)], some ⟨[(7, 0)], 2⟩, [(7, 5)], by decide, by decide⟩

/-- Disagreement (C37): the data stored is only compared with what the same callback held: data
    registered under two callbacks is destroyed by both. -/
theorem shared_data_destroyed_twice :
    ∃ ops a log, run none ops = some (a, log) ∧ (ops.map (·.2)) = [5, 5] ∧
      (destroy a).map (·.2) = [5, 5] :=
  ⟨[(7, 5), (8, 5)], some ⟨[(7, 5), (8, 5)], 2⟩, [], by decide, by decide, by decide⟩

end Verif.Assoc
