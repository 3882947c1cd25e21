import Verif.Elf.Bytes
/-
String tables: every entry is where its index says.
-/
set_option linter.unusedSimpArgs false
namespace Verif.Elf

/-- The entries follow each other without gaps, the first one at `i`. -/
def Chain : Nat → List Str → Prop
  | _, [] => True
  | i, e :: es => e.index = i ∧ Chain e.next es

theorem chain_append {i : Nat} {t u : List Str} : Chain i (t ++ u) ↔ Chain i t ∧ Chain (i + (strBytes t).length) u := by
  induction t generalizing i with
  | nil => simp [Chain, strBytes]
  | cons e es ih =>
    simp only [List.cons_append, Chain, ih, strBytes, List.flatMap_cons, List.length_append, List.length_cons,
      List.length_nil]
    constructor
    · rintro ⟨rfl, h1, h2⟩
      refine ⟨⟨rfl, h1⟩, ?_⟩
      simpa [Str.next, Nat.add_assoc, strBytes] using h2
    · rintro ⟨⟨rfl, h1⟩, h2⟩
      refine ⟨rfl, h1, ?_⟩
      simpa [Str.next, Nat.add_assoc, strBytes] using h2

theorem chain_last {i : Nat} {t : List Str} {l : Str} (h : Chain i t) (hl : t.getLast? = some l) :
    l.next = i + (strBytes t).length := by
  obtain ⟨u, rfl⟩ : ∃ u, t = u ++ [l] := by
    rw [List.getLast?_eq_some_iff] at hl
    exact hl
  rw [chain_append] at h
  obtain ⟨_, h2, _⟩ := h
  simp only [Str.next, h2, strBytes, List.flatMap_append, List.flatMap_cons, List.flatMap_nil, List.append_nil,
    List.length_append, List.length_cons, List.length_nil]
  omega

theorem strAppend_ok {t : List Str} (s : Name) (h : Chain 0 t) (hne : t ≠ []) :
    strAppend t s = some (t ++ [⟨(strBytes t).length, s⟩], t.length) ∧ Chain 0 (t ++ [⟨(strBytes t).length, s⟩]) := by
  constructor
  · unfold strAppend
    rw [List.getLast?_eq_some_getLast hne]
    simp only
    rw [chain_last h (List.getLast?_eq_some_getLast hne), Nat.zero_add]
  · rw [chain_append]
    exact ⟨h, by simp [Chain]⟩

theorem chain_at {i : Nat} {t : List Str} {k : Nat} {e : Str} (h : Chain i t) (hk : t[k]? = some e) :
    ∃ j, e.index = i + j ∧ At (strBytes t) j (e.str ++ [0]) := by
  induction t generalizing i k with
  | nil => simp at hk
  | cons x xs ih =>
    obtain ⟨h1, h2⟩ := h
    cases k with
    | zero =>
      simp only [List.getElem?_cons_zero, Option.some.injEq] at hk
      subst hk
      refine ⟨0, by omega, [], strBytes xs, ?_, rfl⟩
      simp [strBytes]
    | succ k =>
      simp only [List.getElem?_cons_succ] at hk
      obtain ⟨j, hj, ha⟩ := ih h2 hk
      refine ⟨x.str.length + 1 + j, by rw [hj]; simp only [Str.next]; omega, ?_⟩
      have := ha.append_left (x.str ++ [0])
      simpa [strBytes] using this

theorem string_at {f : List Byte} {p : Nat} {s : Name} (h : At f p (s ++ [0])) (hs : (0 : Byte) ∉ s) :
    string f p = some s := by
  obtain ⟨a, b, rfl, rfl⟩ := h
  unfold string
  rw [show List.drop a.length (a ++ (s ++ [0]) ++ b) = s ++ 0 :: b by simp [List.append_assoc]]
  rw [if_pos (by simp)]
  congr 1
  rw [List.takeWhile_append_of_pos (by intro x hx; simpa using fun h0 : x = 0 => hs (h0 ▸ hx))]
  simp

/-- Reading the string an entry's index points at gives the entry's string. -/
theorem string_entry {t : List Str} {k : Nat} {e : Str} (h : Chain 0 t) (hk : t[k]? = some e) (hs : (0 : Byte) ∉ e.str) :
    string (strBytes t) e.index = some e.str := by
  obtain ⟨j, hj, ha⟩ := chain_at h hk
  rw [hj, Nat.zero_add]
  exact string_at ha hs

theorem index_lt {t : List Str} {k : Nat} {e : Str} (h : Chain 0 t) (hk : t[k]? = some e) :
    e.index < (strBytes t).length := by
  obtain ⟨j, hj, ha⟩ := chain_at h hk
  have := ha.le_length
  simp only [List.length_append, List.length_cons, List.length_nil] at this
  omega

theorem chain_renumber {last : Str} {es : List Str} : Chain last.next (renumber last es) ∧
    (renumber last es).map (·.str) = es.map (·.str) := by
  induction es generalizing last with
  | nil => simp [renumber, Chain]
  | cons e es ih =>
    simp only [renumber, Chain, List.map_cons]
    exact ⟨⟨trivial, ih.1⟩, by rw [ih.2]⟩

theorem chain_strSet {i : Nat} {t : List Str} {k : Nat} {s : Name} (h : Chain i t) : Chain i (strSet t k s) ∧
    (strSet t k s).map (·.str) = (t.map (·.str)).set k s := by
  induction t generalizing i k with
  | nil => simp [strSet, Chain]
  | cons e es ih =>
    obtain ⟨h1, h2⟩ := h
    cases k with
    | zero =>
      refine ⟨⟨h1, ?_⟩, ?_⟩
      · exact (chain_renumber (last := ⟨e.index, s⟩)).1
      · simp only [strSet, List.map_cons, List.set_cons_zero]
        rw [chain_renumber.2]
    | succ k =>
      obtain ⟨h3, h4⟩ := ih (k := k) h2
      exact ⟨⟨h1, h3⟩, by simp only [strSet, List.map_cons, List.set_cons_succ, h4]⟩

theorem chain_create : Chain 0 strCreate := by simp [strCreate, Chain]

/-- The string at a place. -/
def strAt (t : List Str) (k : Nat) : Option Name := (t[k]?).map (·.str)

theorem strAt_append {t u : List Str} {k : Nat} {s : Name} (h : strAt t k = some s) : strAt (t ++ u) k = some s := by
  unfold strAt at h ⊢
  rw [Option.map_eq_some_iff] at h ⊢
  obtain ⟨e, h1, h2⟩ := h
  exact ⟨e, by rw [List.getElem?_append_left (List.getElem?_eq_some_iff.mp h1).1]; exact h1, h2⟩

theorem strAt_set {t : List Str} {k j : Nat} {s : Name} (h : Chain 0 t) (hj : j ≠ k) : strAt (strSet t k s) j = strAt t j := by
  have := (chain_strSet (k := k) (s := s) h).2
  unfold strAt
  rw [← List.getElem?_map, this, List.getElem?_set_ne (Ne.symm hj), List.getElem?_map]

theorem strAt_set_self {t : List Str} {k : Nat} {s : Name} (h : Chain 0 t) (hk : k < t.length) :
    strAt (strSet t k s) k = some s := by
  have := (chain_strSet (k := k) (s := s) h).2
  unfold strAt
  rw [← List.getElem?_map, this, List.getElem?_set_self (by simpa using hk)]

theorem strSet_length {t : List Str} {k : Nat} {s : Name} (h : Chain 0 t) : (strSet t k s).length = t.length := by
  have := congrArg List.length (chain_strSet (k := k) (s := s) h).2
  simpa using this

/-- The name an index written for a place leads to. -/
theorem name_read {t : List Str} {k : Nat} {s : Name} (h : Chain 0 t) (hk : strAt t k = some s) (hs : (0 : Byte) ∉ s) :
    ∃ i, nameIndex t (some k) = some i ∧ i < (strBytes t).length ∧ string (strBytes t) i = some s := by
  unfold strAt at hk
  rw [Option.map_eq_some_iff] at hk
  obtain ⟨e, h1, rfl⟩ := hk
  exact ⟨e.index, by simp [nameIndex, h1], index_lt h h1, string_entry h h1 hs⟩

theorem noname_read {t : List Str} (h : Chain 0 t) (hk : strAt t 0 = some []) : string (strBytes t) 0 = some [] := by
  unfold strAt at hk
  rw [Option.map_eq_some_iff] at hk
  obtain ⟨e, h1, h2⟩ := hk
  have := string_entry h h1 (by simp [h2])
  rw [h2] at this
  obtain ⟨i, hi⟩ : ∃ i, t = e :: i := by
    cases t with
    | nil => simp at h1
    | cons x xs => simp at h1; exact ⟨xs, by rw [h1]⟩
  rw [hi] at h
  rw [h.1] at this
  exact this

end Verif.Elf
