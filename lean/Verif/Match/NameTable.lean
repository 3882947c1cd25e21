/-
For C71: the checks of the whole tables of names.
-/
import Verif.Match.Lookup

namespace Verif.Match

/-! ### Names are distinct -/

/-- A search tree, for checking that numbers are distinct. -/
inductive Tree where
  | leaf
  | node (l : Tree) (v : Nat) (r : Tree)

def Tree.add : Tree → Nat → Option Tree
  | .leaf, x => some (.node .leaf x .leaf)
  | .node l v r, x =>
    if x = v then none
    else if x < v then (l.add x).map fun l => .node l v r
    else (r.add x).map fun r => .node l v r

/-- Adds numbers below a bound. -/
def Tree.addAll (bound : Nat) : List Nat → Tree → Option Tree
  | [], t => some t
  | x :: xs, t =>
    if bound ≤ x then none
    else match t.add x with
      | none => none
      | some t => Tree.addAll bound xs t

def Tree.has : Tree → Nat → Bool
  | .leaf, _ => false
  | .node l v r, x => if x = v then true else if x < v then l.has x else r.has x

theorem Tree.add_has (t t' : Tree) (x : Nat) (h : t.add x = some t') : t.has x = false ∧ ∀ y, t'.has y = (decide (y = x) || t.has y) := by
  induction t generalizing t' with
  | leaf =>
    simp only [Tree.add, Option.some.injEq] at h
    subst h
    refine ⟨rfl, fun y => ?_⟩
    simp only [Tree.has]
    by_cases e : y = x <;> simp [e]
  | node l v r ihl ihr =>
    simp only [Tree.add] at h
    split at h
    · cases h
    · next hne =>
      split at h
      · next hlt =>
        obtain ⟨l', hl, e⟩ := Option.map_eq_some_iff.1 h
        subst e
        obtain ⟨h1, h2⟩ := ihl l' hl
        refine ⟨by simp [Tree.has, hne, hlt, h1], fun y => ?_⟩
        simp only [Tree.has]
        by_cases e1 : y = v
        · simp [e1]
        · by_cases e2 : y < v
          · simp [e1, e2, h2]
          · have : y ≠ x := by omega
            simp [e1, e2, this]
      · next hlt =>
        obtain ⟨r', hr, e⟩ := Option.map_eq_some_iff.1 h
        subst e
        obtain ⟨h1, h2⟩ := ihr r' hr
        refine ⟨by simp [Tree.has, hne, hlt, h1], fun y => ?_⟩
        simp only [Tree.has]
        by_cases e1 : y = v
        · simp [e1]
        · by_cases e2 : y < v
          · have : y ≠ x := by omega
            simp [e1, e2, this]
          · simp [e1, e2, h2]

theorem Tree.addAll_nodup (bound : Nat) (xs : List Nat) (t : Tree) (h : (Tree.addAll bound xs t).isSome = true) :
    xs.Nodup ∧ ∀ x ∈ xs, t.has x = false ∧ x < bound := by
  induction xs generalizing t with
  | nil => exact ⟨List.nodup_nil, by simp⟩
  | cons x xs ih =>
    simp only [Tree.addAll] at h
    split at h
    · cases h
    next hb =>
    split at h
    · cases h
    · next t' e =>
      obtain ⟨h1, h2⟩ := t.add_has t' x e
      obtain ⟨h3, h4⟩ := ih t' h
      have h5 : ∀ y ∈ xs, y ≠ x ∧ t.has y = false := by
        intro y hy
        have := (h4 y hy).1
        rw [h2] at this
        simpa using this
      refine ⟨List.nodup_cons.2 ⟨fun hm => (h5 x hm).1 rfl, h3⟩, fun y hy => ?_⟩
      rcases List.mem_cons.1 hy with e | hy
      · rw [e]; exact ⟨h1, by omega⟩
      · exact ⟨(h5 y hy).2, (h4 y hy).2⟩

/-- The letters of a name as digits, after a 1. -/
def codeFrom (a : Nat) (s : List Char) : Nat := s.foldl (fun a c => a * 256 + c.toNat) a

def nameCode (s : String) : Nat := codeFrom 1 s.toList

theorem codeFrom_ge (s : List Char) (a : Nat) : a * 256 ^ s.length ≤ codeFrom a s := by
  induction s generalizing a with
  | nil => simp [codeFrom]
  | cons c s ih =>
    refine Nat.le_trans ?_ (ih (a * 256 + c.toNat))
    rw [List.length_cons, Nat.pow_succ, Nat.mul_comm (256 ^ s.length), ← Nat.mul_assoc]
    exact Nat.mul_le_mul_right _ (by omega)

set_option maxRecDepth 100000 in
theorem nasm_codes : (Tree.addAll (256 ^ 17) ((entries .nasm).map fun e => nameCode e.name) .leaf).isSome = true := by decide +kernel

set_option maxRecDepth 100000 in
theorem gas_codes : (Tree.addAll (256 ^ 17) ((entries .gas).map fun e => nameCode e.name) .leaf).isSome = true := by decide +kernel

theorem codes_distinct (p : Dialect) :
    ((entries p).map fun e => nameCode e.name).Nodup ∧ ∀ e ∈ entries p, nameCode e.name < 256 ^ 17 := by
  have key : ∀ p, (Tree.addAll (256 ^ 17) ((entries p).map fun e => nameCode e.name) .leaf).isSome = true →
      ((entries p).map fun e => nameCode e.name).Nodup ∧ ∀ e ∈ entries p, nameCode e.name < 256 ^ 17 := by
    intro p h
    obtain ⟨h1, h2⟩ := Tree.addAll_nodup _ _ _ h
    exact ⟨h1, fun e he => (h2 _ (List.mem_map.2 ⟨e, he, rfl⟩)).2⟩
  cases p
  · exact key _ nasm_codes
  · exact key _ gas_codes

theorem names_short (p : Dialect) : ∀ e ∈ entries p, e.name.toList.length ≤ 16 := by
  intro e he
  have h1 := (codes_distinct p).2 e he
  have h2 := codeFrom_ge e.name.toList 1
  rw [Nat.one_mul] at h2
  have h3 : 256 ^ e.name.toList.length < 256 ^ 17 := Nat.lt_of_le_of_lt h2 h1
  have := (Nat.pow_lt_pow_iff_right (by decide : 1 < 256)).1 h3
  omega

/-! ### Every name has forms -/

/-- What is checked of every name: its forms can be made, and there are some for each of its entries. -/
def nameChecked (n : RawInsn) : Bool :=
  ((groups.getD n.group []).all fun r => r.form.isSome && r.flags.2.all fun j => decide (j < 64)) && (!n.nasmOnly || n.suffix.isNone) && decide (n.modifiers.length ≤ 3) &&
    [Dialect.nasm, .gas].all fun p => (keywords p n (groups.getD n.group [])).all fun k =>
      ((groups.getD n.group []).any (applies p k.suffix)) && decide (k.cpu.length ≤ 3) && k.cpu.all fun j => decide (j < 64)

set_option maxRecDepth 100000 in
theorem names0_checked : names0.all nameChecked = true := by decide +kernel
set_option maxRecDepth 100000 in
theorem names1_checked : names1.all nameChecked = true := by decide +kernel
set_option maxRecDepth 100000 in
theorem names2_checked : names2.all nameChecked = true := by decide +kernel
set_option maxRecDepth 100000 in
theorem names3_checked : names3.all nameChecked = true := by decide +kernel

theorem names_checked (n : RawInsn) (hn : n ∈ names) : nameChecked n = true := by
  unfold names at hn
  simp only [List.mem_append] at hn
  rcases hn with ((h | h) | h) | h
  · exact List.all_eq_true.1 names0_checked n h
  · exact List.all_eq_true.1 names1_checked n h
  · exact List.all_eq_true.1 names2_checked n h
  · exact List.all_eq_true.1 names3_checked n h

end Verif.Match
