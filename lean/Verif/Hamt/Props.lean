/-
Property theorems about the hash table (C05, C06, C07, C43).
-/
import Verif.Hamt.Lemmas
import Mathlib.Data.Fintype.EquivFin
import Mathlib.Data.Fintype.Pi
import Mathlib.Data.Fintype.Pigeonhole

namespace Verif.Hamt

variable {α : Type}

theorem ofNocase_lawful (nocase : Bool) : Lawful (Cfg.ofNocase nocase) := by
  cases nocase
  · intro a b h
    have : a = b := by simpa [Cfg.ofNocase] using h
    subst this
    exact ⟨rfl, fun _ => rfl⟩
  · intro a b h
    have : a.map toLower = b.map toLower := by simpa [Cfg.ofNocase] using h
    simp [Cfg.ofNocase, this]

theorem insertAll_spec {cfg : Cfg} (hl : Lawful cfg) (fuel : Nat) (ops : List (Key × α × Bool)) :
    ∀ (h : Hamt α), Inv cfg h →
      (∃ h', insertAll cfg fuel h ops = .ok h' ∧ Inv cfg h' ∧
        h'.entries = Spec.insertAll cfg.eqv h.entries ops) ∨
      insertAll cfg fuel h ops = .diverged := by
  induction ops with
  | nil => intro h hi; left; exact ⟨h, rfl, hi, rfl⟩
  | cons op ops ih =>
    intro h hi
    obtain ⟨s, x, r⟩ := op
    rcases insert_spec hl hi fuel s x r with ⟨h', h1, h2, h3, _⟩ | ⟨h1, _⟩
    · rcases ih h' h2 with ⟨h'', g1, g2, g3⟩ | g1
      · left
        refine ⟨h'', by simp [insertAll, h1, g1], g2, ?_⟩
        rw [g3, h3]; rfl
      · right; simp [insertAll, h1, g1]
    · right; simp [insertAll, h1]

/-- C05 (and the memory-safety side of it): for every history of insertions into a fresh table, of
    either case-sensitivity, no array is accessed out of bounds; if the insertions return, the stored
    entries are those of the association list, every search finds exactly what the association list
    holds, and the next insertion (if it returns) reports what the association list says. -/
theorem hamt_is_map (nocase : Bool) (fuel : Nat) (ops : List (Key × α × Bool)) :
    let cfg := Cfg.ofNocase nocase
    let l := Spec.insertAll cfg.eqv [] ops
    insertAll cfg fuel (create α) ops ≠ .ub ∧
    ∀ h, insertAll cfg fuel (create α) ops = .ok h →
      h.entries = l ∧
      (∀ s, search cfg h s = .ok ((Spec.find cfg.eqv l s).map (·.2))) ∧
      (∀ fuel' s x r h' res, insert cfg fuel' h s x r = .ok (h', res) →
        res = Spec.result cfg.eqv l s x r) := by
  intro cfg l
  have hl := ofNocase_lawful nocase
  rcases insertAll_spec hl fuel ops (create α) (create_inv _) with ⟨h', h1, h2, h3⟩ | h1
  · refine ⟨by rw [h1]; simp, ?_⟩
    intro h hh
    rw [h1] at hh
    cases hh
    have he : h'.entries = l := h3
    refine ⟨he, ?_, ?_⟩
    · intro s; rw [← he]; exact search_spec hl h2 s
    · intro fuel' s x r h'' res hins
      rcases insert_spec hl h2 fuel' s x r with ⟨h3', g1, _⟩ | ⟨g1, _⟩
      · rw [g1] at hins; cases hins; rw [← he]
      · rw [g1] at hins; cases hins
  · refine ⟨by rw [h1]; simp, ?_⟩
    intro h hh
    rw [h1] at hh
    cases hh

def demo : List (Key × Nat × Bool) :=
  [([97, 98], 1, false), ([65, 66], 2, true), ([99], 3, false), ([97, 98], 4, false)]

/-- The hypotheses are met by a history with a case-insensitive duplicate; search sees it. -/
example : ∃ h, insertAll (Cfg.ofNocase true) 10 (create Nat) demo = .ok h := by
  rcases insertAll_spec (ofNocase_lawful true) 10 demo (create Nat) (create_inv _) with ⟨h, h1, _⟩ | h1
  · exact ⟨h, h1⟩
  · exfalso
    simp [insertAll, demo, insert, create, Cfg.ofNocase, hashKey, hashLoop, keypart, insNode, toLower, charVal] at h1

example : Spec.insertAll (Cfg.ofNocase true).eqv [] demo = [([65, 66], 2), ([99], 3)] := by decide

/-- C06: traversal calls the function on each stored datum once, in order of first insertion, until
    the first nonzero result, which it returns. -/
theorem traverse_spec {σ : Type} (f : σ → α → Int × σ) (es : List (Key × α)) (st : σ) :
    ∃ pre post, es.map (·.2) = pre ++ post ∧ (traverse f es st).1 = pre ∧
      (traverse f es st).2.1 = pre.foldl (fun s x => (f s x).2) st ∧
      ((post = [] ∧ (traverse f es st).2.2 = 0 ∨
        ((traverse f es st).2.2 ≠ 0 ∧ ∃ pre' x, pre = pre' ++ [x] ∧
          (traverse f es st).2.2 = (f (pre'.foldl (fun s x => (f s x).2) st) x).1)) ∧
       ∀ pre' x suf, pre = pre' ++ x :: suf → suf ≠ [] →
          (f (pre'.foldl (fun s x => (f s x).2) st) x).1 = 0) := by
  induction es generalizing st with
  | nil => exact ⟨[], [], rfl, rfl, rfl, Or.inl ⟨rfl, rfl⟩, by simp⟩
  | cons e es ih =>
    by_cases h : (f st e.2).1 ≠ 0
    · refine ⟨[e.2], es.map (·.2), rfl, ?_, ?_, Or.inr ⟨?_, [], e.2, rfl, ?_⟩, ?_⟩
      · simp [traverse, h]
      · simp [traverse, h]
      · simp [traverse, h]
      · simp [traverse, h]
      · intro pre' x suf hp hs
        cases pre' with
        | nil => simp at hp; exact absurd hp.2.symm (by simpa using hs)
        | cons a l => simp at hp
    · obtain ⟨pre, post, h1, h2, h3, h4, h5⟩ := ih (f st e.2).2
      have ht : traverse f (e :: es) st =
          (e.2 :: (traverse f es (f st e.2).2).1, (traverse f es (f st e.2).2).2) := by
        simp only [traverse, if_neg h]
      rw [ht]
      refine ⟨e.2 :: pre, post, by simp [h1], by simp [h2], by simp [h3], ?_, ?_⟩
      · rcases h4 with ⟨h4, h6⟩ | ⟨h4, pre', x, h6, h7⟩
        · exact Or.inl ⟨h4, h6⟩
        · exact Or.inr ⟨h4, e.2 :: pre', x, by simp [h6], by simpa using h7⟩
      · intro pre' x suf hp hs
        cases pre' with
        | nil =>
          simp at hp
          have := hp.1
          subst this
          simpa using h
        | cons a l =>
          simp at hp
          obtain ⟨rfl, hp⟩ := hp
          simpa using h5 l x suf hp hs

/-- C06, the traversed sequence: entries are kept in order of first insertion, replacement in place.
    (The entries of the table are those of the association list by `hamt_is_map`.) -/
theorem traverse_order (nocase : Bool) (fuel : Nat) (ops : List (Key × α × Bool)) (h : Hamt α)
    (hrun : insertAll (Cfg.ofNocase nocase) fuel (create α) ops = .ok h) :
    (traverse (σ := Unit) (fun _ _ => (0, ())) h.entries ()).1 =
      (Spec.insertAll (Cfg.ofNocase nocase).eqv [] ops).map (·.2) := by
  rw [← ((hamt_is_map nocase fuel ops).2 h hrun).1]
  generalize h.entries = es
  induction es with
  | nil => rfl
  | cons e es ih => simp [traverse, ih]

/-- C07, when insertion returns: exactly when every stored key that is not equal to the new one
    differs from it in the 5-bit group of some depth. -/
theorem insert_returns_iff_partial (nocase : Bool) (fuel0 : Nat) (ops : List (Key × α × Bool))
    (h : Hamt α) (hrun : insertAll (Cfg.ofNocase nocase) fuel0 (create α) ops = .ok h)
    (s : Key) (x : α) (r : Bool) :
    (∃ fuel res, insert (Cfg.ofNocase nocase) fuel h s x r = .ok res) ↔
      ∀ e ∈ h.entries, (Cfg.ofNocase nocase).eqv e.1 s = false →
        ¬ Spec.Collide (Cfg.ofNocase nocase) s e.1 := by
  have hl := ofNocase_lawful nocase
  have hi : Inv (Cfg.ofNocase nocase) h := by
    rcases insertAll_spec hl fuel0 ops (create α) (create_inv _) with ⟨h', h1, h2, _⟩ | h1
    · rw [hrun] at h1; cases h1; exact h2
    · rw [hrun] at h1; cases h1
  constructor
  · rintro ⟨fuel, res, hins⟩ e he hq hc
    have := insert_diverges hl hi fuel s x r e he hq
      (fun d => by rw [← group_eq_dig, ← group_eq_dig]; exact hc d)
    rw [hins] at this
    cases this
  · intro hsep
    obtain ⟨fuel, hf⟩ := insert_terminates hl hi s x r (fun e he hq => by
      have := hsep e he hq
      unfold Spec.Collide at this
      rw [Classical.not_forall] at this
      obtain ⟨d, hd⟩ := this
      exact ⟨d, by rw [← group_eq_dig, ← group_eq_dig]; exact hd⟩)
    obtain ⟨res, hr⟩ := hf fuel (Nat.le_refl _)
    exact ⟨fuel, res, hr⟩

/-- Strings of the letters a and b. -/
def abString (u : List Bool) : Key := u.map (fun b => if b then 97#8 else 98#8)

theorem abString_injective : Function.Injective abString := by
  intro u
  induction u with
  | nil =>
    intro v h
    cases v with
    | nil => rfl
    | cons b v => simp [abString] at h
  | cons a u ih =>
    intro v h
    cases v with
    | nil => simp [abString] at h
    | cons b v =>
      simp only [abString, List.map_cons, List.cons.injEq] at h
      rw [ih h.2]
      congr 1
      cases a <;> cases b <;> simp_all

theorem abString_lower (u : List Bool) : (abString u).map toLower = abString u := by
  unfold abString
  rw [List.map_map]
  apply List.map_congr_left
  intro b _
  cases b <;> decide

/-- C07 is false: there are two different strings of letters (so usable as symbol names) such that,
    once the first is in the table, inserting the second never returns. -/
theorem insert_may_diverge (nocase : Bool) :
    ∃ s t : Key, s ≠ t ∧ (∀ c ∈ s ++ t, c = 97#8 ∨ c = 98#8) ∧
      ∀ (x y : α) (r : Bool) (fuel0 : Nat) (h : Hamt α),
        insertAll (Cfg.ofNocase nocase) fuel0 (create α) [(s, x, r)] = .ok h →
        ∀ fuel, insert (Cfg.ofNocase nocase) fuel h t y r = .diverged := by
  obtain ⟨u, v, hne, heq⟩ := Finite.exists_ne_map_eq_of_infinite
    (fun (u : List Bool) (m : Fin (2 ^ 64)) =>
      (hashLoop (BitVec.ofFin m) (abString u) 31415#64 0#64).toFin)
  have hall : ∀ m : BitVec 64, hashLoop m (abString u) 31415#64 0#64 =
      hashLoop m (abString v) 31415#64 0#64 := by
    intro m
    exact congrArg BitVec.ofFin (congrFun heq m.toFin)
  refine ⟨abString u, abString v, fun h => hne (abString_injective h), ?_, ?_⟩
  · intro c hc
    simp only [abString, List.mem_append, List.mem_map] at hc
    rcases hc with ⟨b, _, rfl⟩ | ⟨b, _, rfl⟩ <;> cases b <;> simp
  · intro x y r fuel0 h hrun fuel
    have hl := ofNocase_lawful nocase
    have hent : h.entries = [(abString u, x)] := ((hamt_is_map nocase fuel0 _).2 h hrun).1
    have hi : Inv (Cfg.ofNocase nocase) h := by
      rcases insertAll_spec hl fuel0 [(abString u, x, r)] (create α) (create_inv _) with
        ⟨h', h1, h2, _⟩ | h1
      · rw [hrun] at h1; cases h1; exact h2
      · rw [hrun] at h1; cases h1
    apply insert_diverges hl hi fuel _ y r (abString u, x) (by rw [hent]; simp)
    · cases nocase
      · simp only [Cfg.ofNocase, beq_eq_false_iff_ne]
        exact fun h => hne (abString_injective h)
      · simp only [Cfg.ofNocase, beq_eq_false_iff_ne, abString_lower]
        exact fun h => hne (abString_injective h)
    · intro d
      rw [← group_eq_dig, ← group_eq_dig]
      unfold Spec.group
      cases nocase
      · simp only [Cfg.ofNocase, hashKey, reHashKey, hall]
      · simp only [Cfg.ofNocase, hashKey, reHashKey, abString_lower, hall]

/-- The first insertion of the counterexample does return. -/
example (nocase : Bool) (s : Key) (x : α) (r : Bool) :
    ∃ h, insertAll (Cfg.ofNocase nocase) 0 (create α) [(s, x, r)] = .ok h := by
  simp [insertAll, insert, create]

/-- C43: the bit-counting macro, masked to 5 bits, is the number of ones among the low 32 bits
    (modulo 32), for every 64-bit word. -/
theorem bitCount_popcount (x : BitVec 64) :
    (bitCount x &&& 0x1F#64).toNat = ((List.range 32).countP (fun i => x.getLsbD i)) % 32 := by
  rw [bitCount_spec, cntFrom_rank]
  congr 1
  have : ∀ n, rank x n = (List.range n).countP (fun i => x.getLsbD i) := by
    intro n
    induction n with
    | zero => rfl
    | succ n ih => rw [rank, ih, List.range_succ, List.countP_append]; simp [present, List.countP_cons]; rfl
  exact this 32

end Verif.Hamt
