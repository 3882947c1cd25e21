import Verif.Optimize.Spec
import Verif.Inttree.Props
import Mathlib.Data.List.Nodup
/-
Sums of sizes, the effect of `updateAll`, and the terms found by the interval tree.
-/
set_option linter.unusedSimpArgs false
set_option linter.unusedVariables false
namespace Verif.Optimize
open Verif.Inttree

variable {M : Type}

/-! ### Sums of sizes -/

/-- Total size of the first `i` bytecodes. -/
def psum (B : List (Bc M)) (i : Nat) : Int := ((B.take i).map Bc.size).sum
/-- Total size of those of them in section `c`. -/
def ssum (c : Nat) (B : List (Bc M)) (i : Nat) : Int :=
  ((B.take i).map fun b => if b.sect = c then b.size else 0).sum

theorem take_succ_some {α} {l : List α} {i : Nat} {a : α} (h : l[i]? = some a) : l.take (i + 1) = l.take i ++ [a] := by
  rw [List.take_add_one, h]; rfl

theorem psum_succ {B : List (Bc M)} {i : Nat} {b : Bc M} (h : B[i]? = some b) : psum B (i + 1) = psum B i + b.size := by
  simp [psum, take_succ_some h]

theorem ssum_succ {B : List (Bc M)} {i : Nat} {b : Bc M} (c : Nat) (h : B[i]? = some b) :
    ssum c B (i + 1) = ssum c B i + if b.sect = c then b.size else 0 := by
  simp [ssum, take_succ_some h]

theorem psum_succ_none {B : List (Bc M)} {i : Nat} (h : B[i]? = none) : psum B (i + 1) = psum B i := by
  simp only [psum, List.take_add_one, h]; simp

theorem ssum_succ_none {B : List (Bc M)} {i : Nat} (c : Nat) (h : B[i]? = none) : ssum c B (i + 1) = ssum c B i := by
  simp only [ssum, List.take_add_one, h]; simp

theorem psum_congr {A B : List (Bc M)} (i : Nat) (h : ∀ j, j < i → (A[j]?).map Bc.size = (B[j]?).map Bc.size) :
    psum A i = psum B i := by
  induction i with
  | zero => simp [psum]
  | succ i ih =>
    have hi := ih fun j hj => h j (by omega)
    have hh := h i (by omega)
    cases ha : A[i]? with
    | none =>
      have hb : B[i]? = none := by
        rw [ha] at hh; cases hb : B[i]? with
        | none => rfl
        | some b => rw [hb] at hh; simp at hh
      rw [psum_succ_none ha, psum_succ_none hb, hi]
    | some a =>
      cases hb : B[i]? with
      | none => rw [ha, hb] at hh; simp at hh
      | some b =>
        rw [ha, hb] at hh; simp at hh
        rw [psum_succ ha, psum_succ hb, hi, hh]

theorem ssum_congr {A B : List (Bc M)} (c i : Nat)
    (h : ∀ j, j < i → (A[j]?).map (fun b => (b.size, b.sect)) = (B[j]?).map (fun b => (b.size, b.sect))) :
    ssum c A i = ssum c B i := by
  induction i with
  | zero => simp [ssum]
  | succ i ih =>
    have hi := ih fun j hj => h j (by omega)
    have hh := h i (by omega)
    cases ha : A[i]? with
    | none =>
      have hb : B[i]? = none := by
        rw [ha] at hh; cases hb : B[i]? with
        | none => rfl
        | some b => rw [hb] at hh; simp at hh
      rw [ssum_succ_none c ha, ssum_succ_none c hb, hi]
    | some a =>
      cases hb : B[i]? with
      | none => rw [ha, hb] at hh; simp at hh
      | some b =>
        rw [ha, hb] at hh; simp at hh
        rw [ssum_succ c ha, ssum_succ c hb, hi, hh.1, hh.2]

theorem psum_set {B : List (Bc M)} {k : Nat} {b : Bc M} (b' : Bc M) (h : B[k]? = some b) (i : Nat) :
    psum (B.set k b') i = psum B i + if k < i then b'.size - b.size else 0 := by
  have hk : k < B.length := (List.getElem?_eq_some_iff.mp h).1
  induction i with
  | zero => simp [psum]
  | succ i ih =>
    by_cases e : k = i
    · subst e
      rw [psum_succ (b := b') (by simp [hk]), psum_succ h, ih, if_neg (Nat.lt_irrefl _), if_pos (Nat.lt_succ_self _)]; omega
    · have hs : (B.set k b')[i]? = B[i]? := by simp [List.getElem?_set, e]
      cases hb : B[i]? with
      | none => rw [psum_succ_none (hs.trans hb), psum_succ_none hb, ih]; congr 1; split <;> split <;> first | rfl | omega
      | some c =>
        rw [psum_succ (hs.trans hb), psum_succ hb, ih]
        split <;> split <;> omega

theorem ssum_set {B : List (Bc M)} {k : Nat} {b : Bc M} (b' : Bc M) (c : Nat) (h : B[k]? = some b)
    (hc : b'.sect = b.sect) (i : Nat) :
    ssum c (B.set k b') i = ssum c B i + if k < i ∧ b.sect = c then b'.size - b.size else 0 := by
  have hk : k < B.length := (List.getElem?_eq_some_iff.mp h).1
  induction i with
  | zero => simp [ssum]
  | succ i ih =>
    by_cases e : k = i
    · subst e
      rw [ssum_succ c (b := b') (by simp [hk]), ssum_succ c h, ih, if_neg (show ¬(k < k ∧ b.sect = c) by omega), hc]
      by_cases hc' : b.sect = c
      · rw [if_pos hc', if_pos (show k < k + 1 ∧ b.sect = c by omega), if_pos hc']; omega
      · rw [if_neg hc', if_neg (show ¬(k < k + 1 ∧ b.sect = c) by omega), if_neg hc']
    · have hs : (B.set k b')[i]? = B[i]? := by simp [List.getElem?_set, e]
      cases hb : B[i]? with
      | none => rw [ssum_succ_none c (hs.trans hb), ssum_succ_none c hb, ih]; congr 1; split <;> split <;> first | rfl | omega
      | some d =>
        rw [ssum_succ c (hs.trans hb), ssum_succ c hb, ih]
        split <;> split <;> omega

/-- Size of the bytecodes between two labels. -/
def D (B : List (Bc M)) (p q : Nat) : Int := psum B (q + 1) - psum B (p + 1)

/-- By how much the distance `p`-`q` grows when bytecode `k` grows by `d`. -/
def shift (k : Nat) (d : Int) (p q : Nat) : Int :=
  if covers k p q then (if p < q then d else -d) else 0

theorem D_set {B : List (Bc M)} {k : Nat} {b : Bc M} (b' : Bc M) (h : B[k]? = some b) (p q : Nat) :
    D (B.set k b') p q = D B p q + shift k (b'.size - b.size) p q := by
  unfold D shift covers
  rw [psum_set b' h, psum_set b' h]
  simp only [Bool.or_eq_true, Bool.and_eq_true, decide_eq_true_eq]
  split <;> split <;> split <;> (try split) <;> omega

/-! ### Contiguous layouts -/

/-- The part of a bytecode no step of the optimizer changes. -/
inductive Kind where
  | empty | setter (s : Setter) | insn
  deriving DecidableEq

def Contents.kind : Contents M → Kind
  | .empty => .empty
  | .setter s => .setter s
  | .insn _ => .insn

structure BSkel where
  kind : Kind
  mult : Mult
  line : Nat
  sect : Nat

def Bc.skel (b : Bc M) : BSkel := ⟨b.contents.kind, b.mult, b.line, b.sect⟩

theorem kind_empty {c : Contents M} : c.kind = .empty ↔ c = .empty := by cases c <;> simp [Contents.kind]
theorem kind_setter {c : Contents M} {s : Setter} : c.kind = .setter s ↔ c = .setter s := by
  cases c <;> simp [Contents.kind]

/-- The section structure of an object. -/
structure Shape (B : List (Bc M)) : Prop where
  first : ∃ b, B[0]? = some b ∧ b.contents = .empty
  next : ∀ (i : Nat) a b, B[i]? = some a → B[i + 1]? = some b →
    (b.contents = .empty ∧ b.sect = a.sect + 1) ∨ (b.contents ≠ .empty ∧ b.sect = a.sect)

theorem Shape.of_skel {A B : List (Bc M)} (h : A.map Bc.skel = B.map Bc.skel) (hA : Shape A) : Shape B := by
  have hget : ∀ (i : Nat) b, B[i]? = some b → ∃ a, A[i]? = some a ∧ a.skel = b.skel := by
    intro i b hb
    have := congrArg (fun l => l[i]?) h
    simp only [List.getElem?_map, hb] at this
    cases ha : A[i]? with
    | none => rw [ha] at this; simp at this
    | some a => rw [ha] at this; simp at this; exact ⟨a, rfl, this⟩
  constructor
  · obtain ⟨a, ha, he⟩ := hA.first
    have := congrArg (fun l => l[0]?) h
    simp only [List.getElem?_map, ha] at this
    cases hb : B[0]? with
    | none => rw [hb] at this; simp at this
    | some b =>
      rw [hb] at this; simp at this
      refine ⟨b, rfl, ?_⟩
      rw [← kind_empty]; exact (congrArg BSkel.kind this).symm.trans (kind_empty.mpr he)
  · intro i a b ha hb
    obtain ⟨a', ha', ea⟩ := hget i a ha
    obtain ⟨b', hb', eb⟩ := hget (i + 1) b hb
    have k := congrArg BSkel.kind eb
    have s1 : a'.sect = a.sect := congrArg BSkel.sect ea
    have s2 : b'.sect = b.sect := congrArg BSkel.sect eb
    have hk : b'.contents = .empty ↔ b.contents = .empty := by
      rw [← kind_empty, ← kind_empty]; show b'.skel.kind = _ ↔ _; rw [k]; rfl
    have := hA.next i a' b' ha' hb'
    rcases this with ⟨x, y⟩ | ⟨x, y⟩
    · exact .inl ⟨hk.mp x, by omega⟩
    · exact .inr ⟨fun e => x (hk.mpr e), by omega⟩

/-- Sections do not come back. -/
theorem Shape.mono {B : List (Bc M)} (h : Shape B) {i j : Nat} (hij : i ≤ j) {a b : Bc M} (ha : B[i]? = some a)
    (hb : B[j]? = some b) : a.sect ≤ b.sect := by
  induction j generalizing b with
  | zero => have : i = 0 := by omega
            subst this; rw [ha] at hb; cases hb; exact Nat.le_refl _
  | succ j ih =>
    by_cases e : i = j + 1
    · subst e; rw [ha] at hb; cases hb; exact Nat.le_refl _
    · have hj : j < B.length := by have := (List.getElem?_eq_some_iff.mp hb).1; omega
      have := ih (by omega) (b := B[j]) (List.getElem?_eq_getElem hj)
      have := h.next j B[j] b (List.getElem?_eq_getElem hj) hb
      omega

theorem Shape.pred {B : List (Bc M)} (h : Shape B) {i : Nat} {b : Bc M} (hb : B[i]? = some b) (hn : b.contents ≠ .empty) :
    ∃ a, B[i - 1]? = some a ∧ i = i - 1 + 1 ∧ a.sect = b.sect := by
  cases i with
  | zero => obtain ⟨c, hc, he⟩ := h.first; rw [hb] at hc; cases hc; exact absurd he hn
  | succ i =>
    have hj : i < B.length := by have := (List.getElem?_eq_some_iff.mp hb).1; omega
    refine ⟨B[i], by simp [List.getElem?_eq_getElem hj], rfl, ?_⟩
    rcases h.next i B[i] b (List.getElem?_eq_getElem hj) hb with ⟨e, _⟩ | ⟨_, e⟩
    · exact absurd e hn
    · exact e.symm

/-- In a contiguous object offsets are sums over the section. -/
theorem offset_ssum {B : List (Bc M)} (h : Shape B) (hc : Contiguous B) {i : Nat} {b : Bc M} (hb : B[i]? = some b) :
    b.offset = ssum b.sect B i := by
  induction i generalizing b with
  | zero =>
    obtain ⟨c, hc', he⟩ := h.first
    rw [hb] at hc'; cases hc'
    rw [(hc.1 b (List.mem_of_getElem? hb) he).1]; simp [ssum]
  | succ i ih =>
    have hj : i < B.length := by have := (List.getElem?_eq_some_iff.mp hb).1; omega
    have ha := List.getElem?_eq_getElem hj
    rcases h.next i B[i] b ha hb with ⟨e, es⟩ | ⟨e, es⟩
    · rw [(hc.1 b (List.mem_of_getElem? hb) e).1]
      have : ∀ n, n ≤ i + 1 → ssum b.sect B n = 0 := by
        intro n
        induction n with
        | zero => intro _; simp [ssum]
        | succ n ihn =>
          intro hn
          have hn' : n < B.length := by omega
          have hbn := List.getElem?_eq_getElem hn'
          have := h.mono (show n ≤ i by omega) hbn ha
          rw [ssum_succ _ hbn, ihn (by omega), if_neg (by omega)]; rfl
      rw [this _ (Nat.le_refl _)]
    · rw [hc.2 i _ b ha hb e, ih ha, ssum_succ _ ha, if_pos es.symm, es]; rfl

/-- … and differences of offsets are differences of sums. -/
theorem next_sub {B : List (Bc M)} (h : Shape B) (hc : Contiguous B) {i j : Nat} {a b : Bc M} (ha : B[i]? = some a)
    (hb : B[j]? = some b) (hs : a.sect = b.sect) : b.offset - a.offset = psum B j - psum B i := by
  have key : ∀ i j a b, i ≤ j → B[i]? = some a → B[j]? = some b → a.sect = b.sect →
      b.offset - a.offset = psum B j - psum B i := by
    intro i j
    induction j with
    | zero => intro a b hij ha hb _
              have : i = 0 := by omega
              subst this; rw [ha] at hb; cases hb; omega
    | succ j ih =>
      intro a b hij ha hb hs
      by_cases e : i = j + 1
      · subst e; rw [ha] at hb; cases hb; omega
      · have hj : j < B.length := by have := (List.getElem?_eq_some_iff.mp hb).1; omega
        have hc' := List.getElem?_eq_getElem hj
        have hm := h.mono (show i ≤ j by omega) ha hc'
        rcases h.next j B[j] b hc' hb with ⟨_, es⟩ | ⟨en, es⟩
        · omega
        · have := ih a B[j] (by omega) ha hc' (by omega)
          rw [hc.2 j _ b hc' hb en, psum_succ hc']; unfold Bc.size; omega
  rcases Nat.le_total i j with hij | hij
  · exact key i j a b hij ha hb hs
  · have := key j i b a hij hb ha hs.symm; omega

theorem dist_eq {B : List (Bc M)} (h : Shape B) (hc : Contiguous B) {p q : Nat} {d : Int} (hd : dist B p q = some d) :
    d = D B p q := by
  unfold dist at hd
  split at hd
  · rename_i a b ha hb
    split at hd
    · rename_i hs
      have := next_sub h hc ha hb hs
      simp only [Option.some.injEq] at hd
      rw [← hd]; unfold D Bc.next; rw [psum_succ ha, psum_succ hb]; omega
    · cases hd
  · cases hd

theorem labelAt_some {B : List (Bc M)} {p : Nat} {b : Bc M} (h : B[p]? = some b) : labelAt B p = b.next := by
  unfold labelAt; rw [h]; rfl

/-! ### `updateAll` -/

/-- What `updateAll` may do to a bytecode. -/
structure Upd (b b' : Bc M) : Prop where
  contents : b'.contents = b.contents
  mult : b'.mult = b.mult
  multInt : b'.multInt = b.multInt
  line : b'.line = b.line
  sect : b'.sect = b.sect
  len : (∀ s, b.contents ≠ .setter s) → b'.len = b.len

theorem updateAll_get (B : List (Bc M)) (off : Int) :
    (updateAll B off).1.length = B.length ∧
    ∀ (i : Nat) b b', B[i]? = some b → (updateAll B off).1[i]? = some b' → Upd b b' := by
  induction B generalizing off with
  | nil => simp [updateAll]
  | cons a B ih =>
    unfold updateAll
    split
    · obtain ⟨h1, h2⟩ := ih 0
      refine ⟨by simp [h1], fun i b b' hb hb' => ?_⟩
      cases i with
      | zero => simp at hb hb'; subst hb; subst hb'; exact ⟨rfl, rfl, rfl, rfl, rfl, fun _ => rfl⟩
      | succ i => exact h2 i b b' (by simpa using hb) (by simpa using hb')
    · rename_i s hs
      split
      · rename_i n hn
        obtain ⟨h1, h2⟩ := ih (off + ({ a with len := n, offset := off } : Bc M).size)
        refine ⟨by simp [h1], fun i b b' hb hb' => ?_⟩
        cases i with
        | zero =>
          simp at hb hb'; subst hb; subst hb'
          exact ⟨rfl, rfl, rfl, rfl, rfl, fun h => absurd hs (h s)⟩
        | succ i => exact h2 i b b' (by simpa using hb) (by simpa using hb')
      · obtain ⟨h1, h2⟩ := ih (off + ({ a with offset := off } : Bc M).size)
        refine ⟨by simp [h1], fun i b b' hb hb' => ?_⟩
        cases i with
        | zero => simp at hb hb'; subst hb; subst hb'; exact ⟨rfl, rfl, rfl, rfl, rfl, fun _ => rfl⟩
        | succ i => exact h2 i b b' (by simpa using hb) (by simpa using hb')
    · obtain ⟨h1, h2⟩ := ih (off + ({ a with offset := off } : Bc M).size)
      refine ⟨by simp [h1], fun i b b' hb hb' => ?_⟩
      cases i with
      | zero => simp at hb hb'; subst hb; subst hb'; exact ⟨rfl, rfl, rfl, rfl, rfl, fun _ => rfl⟩
      | succ i => exact h2 i b b' (by simpa using hb) (by simpa using hb')

theorem Upd.skel {b b' : Bc M} (h : Upd b b') : b'.skel = b.skel := by
  simp only [Bc.skel, h.contents, h.mult, h.line, h.sect]

theorem map_eq_of_get {α β} {f : α → β} {A B : List α} (hl : B.length = A.length)
    (h : ∀ (i : Nat) a b, A[i]? = some a → B[i]? = some b → f b = f a) : B.map f = A.map f := by
  apply List.ext_getElem?
  intro i
  simp only [List.getElem?_map]
  by_cases hi : i < A.length
  · have ha := List.getElem?_eq_getElem hi
    have hb := List.getElem?_eq_getElem (show i < B.length by omega)
    rw [ha, hb]; simp [h i _ _ ha hb]
  · rw [List.getElem?_eq_none (by omega), List.getElem?_eq_none (by omega)]

theorem updateAll_skel (B : List (Bc M)) (off : Int) : (updateAll B off).1.map Bc.skel = B.map Bc.skel :=
  map_eq_of_get (updateAll_get B off).1 fun i a b ha hb => ((updateAll_get B off).2 i a b ha hb).skel

/-- `updateAll` lays bytecodes out one after the other. -/
theorem updateAll_contiguous (B : List (Bc M)) (off : Int)
    (he : ∀ b ∈ B, b.contents = .empty → b.len = 0 ∧ b.offset = 0) :
    (∀ b ∈ (updateAll B off).1, b.contents = .empty → b.offset = 0 ∧ b.len = 0) ∧
    (∀ b, (updateAll B off).1[0]? = some b → b.contents ≠ .empty → b.offset = off) ∧
    ∀ (i : Nat) a b, (updateAll B off).1[i]? = some a → (updateAll B off).1[i + 1]? = some b → b.contents ≠ .empty →
      b.offset = a.offset + a.len * a.multInt := by
  induction B generalizing off with
  | nil => simp [updateAll]
  | cons a B ih =>
    have he' : ∀ b ∈ B, b.contents = .empty → b.len = 0 ∧ b.offset = 0 := fun b hb => he b (List.mem_cons_of_mem _ hb)
    have glue : ∀ (a' : Bc M) (r : List (Bc M) × Errs) (off' : Int), r = updateAll B off' →
        off' = a'.offset + a'.len * a'.multInt → (a'.contents = .empty → a'.offset = 0 ∧ a'.len = 0) →
        (a'.contents ≠ .empty → a'.offset = off) →
        (∀ b ∈ a' :: r.1, b.contents = .empty → b.offset = 0 ∧ b.len = 0) ∧
        (∀ b, (a' :: r.1)[0]? = some b → b.contents ≠ .empty → b.offset = off) ∧
        ∀ (i : Nat) a b, (a' :: r.1)[i]? = some a → (a' :: r.1)[i + 1]? = some b → b.contents ≠ .empty →
          b.offset = a.offset + a.len * a.multInt := by
      intro a' r off' hr ho h0 h1
      subst hr
      obtain ⟨i1, i2, i3⟩ := ih off' he'
      refine ⟨?_, ?_, ?_⟩
      · intro b hb hbe
        rcases List.mem_cons.mp hb with e | e
        · subst e; exact h0 hbe
        · exact i1 b e hbe
      · intro b hb hbe
        simp at hb; subst hb; exact h1 hbe
      · intro i x y hx hy hye
        cases i with
        | zero =>
          simp at hx hy; subst hx
          rw [i2 y (by simpa using hy) hye, ho]
        | succ i => exact i3 i x y (by simpa using hx) (by simpa using hy) hye
    unfold updateAll
    split
    · rename_i hc
      obtain ⟨hl, ho⟩ := he a (by simp) hc
      exact glue a _ 0 rfl (by rw [hl, ho]; simp) (fun _ => ⟨ho, hl⟩) (fun h => absurd hc h)
    · rename_i s hs
      split
      · exact glue _ _ _ rfl rfl (fun h => absurd (hs.symm.trans h) (by simp)) (fun _ => rfl)
      · exact glue _ _ _ rfl rfl (fun h => absurd (hs.symm.trans h) (by simp)) (fun _ => rfl)
    · rename_i m hm
      exact glue _ _ _ rfl rfl (fun h => absurd (hm.symm.trans h) (by simp)) (fun _ => rfl)

/-- Without an error, offset setters have the length their offset demands. -/
theorem updateAll_setters (B : List (Bc M)) (off : Int) (hn : (updateAll B off).2 = []) :
    ∀ b ∈ (updateAll B off).1, ∀ s, b.contents = .setter s → s.expand b.offset = .ok b.len := by
  induction B generalizing off with
  | nil => simp [updateAll]
  | cons a B ih =>
    unfold updateAll at hn ⊢
    split
    · rename_i hc
      simp only [hc] at hn
      intro b hb s hs
      rcases List.mem_cons.mp hb with e | e
      · subst e; rw [hc] at hs; cases hs
      · exact ih 0 hn b e s hs
    · rename_i s hs
      split
      · rename_i n hx
        simp only [hs, hx] at hn
        intro b hb s' hs'
        rcases List.mem_cons.mp hb with e | e
        · subst e; simp only [hs, Contents.setter.injEq] at hs'; subst hs'; exact hx
        · exact ih _ hn b e s' hs'
      · rename_i e hx
        simp only [hs, hx] at hn; simp at hn
    · rename_i m hm
      simp only [hm] at hn
      intro b hb s hs
      rcases List.mem_cons.mp hb with e | e
      · subst e; simp only [hm] at hs; cases hs
      · exact ih _ hn b e s hs

/-- If the setters already have the lengths their places demand, `updateAll` changes no length and reports no error. -/
theorem updateAll_stable {B : List (Bc M)} (h : Shape B) (he : ∀ b ∈ B, b.contents = .empty → b.len = 0 ∧ b.offset = 0)
    (hs : ∀ (i : Nat) b s, B[i]? = some b → b.contents = .setter s → s.expand (ssum b.sect B i) = .ok b.len)
    (hn : (updateAll B 0).2 = []) (i : Nat) {b b' : Bc M} (hb : B[i]? = some b)
    (hb' : (updateAll B 0).1[i]? = some b') : b'.len = b.len := by
  obtain ⟨hl, hu⟩ := updateAll_get B 0
  have hsh : Shape (updateAll B 0).1 := Shape.of_skel (updateAll_skel B 0).symm h
  have hco : Contiguous (updateAll B 0).1 := by
    have := updateAll_contiguous B 0 he
    exact ⟨this.1, this.2.2⟩
  induction i using Nat.strongRecOn generalizing b b' with
  | ind i ih =>
    have u := hu i b b' hb hb'
    by_cases hset : ∃ s, b.contents = .setter s
    · obtain ⟨s, hset⟩ := hset
      have e1 := updateAll_setters B 0 hn b' (List.mem_of_getElem? hb') s (u.contents.trans hset)
      have e2 := hs i b s hb hset
      rw [offset_ssum hsh hco hb', u.sect] at e1
      have : ssum b.sect (updateAll B 0).1 i = ssum b.sect B i := by
        apply ssum_congr
        intro j hj
        have hjl : j < B.length := by have := (List.getElem?_eq_some_iff.mp hb).1; omega
        have g1 := List.getElem?_eq_getElem hjl
        have g2 := List.getElem?_eq_getElem (show j < (updateAll B 0).1.length by omega)
        have u' := hu j _ _ g1 g2
        have hlen := ih j hj g1 g2
        rw [g1, g2]
        simp [Bc.size, hlen, u'.multInt, u'.sect]
      rw [this, e2] at e1
      simpa using e1.symm
    · exact u.len fun s hc => hset ⟨s, hc⟩

/-! ### The interval tree -/

theorem zipIdx_get {α} (l : List α) (i : Nat) : l.zipIdx[i]? = (l[i]?).map fun a => (a, i) := by
  simp [List.getElem?_zipIdx]

theorem termIv_some {t : Term} {p : Nat × Nat} (h : termIv t = some p) (k : Nat) :
    p.1 ≤ p.2 ∧ (covers k t.pre t.pre2 = true ↔ p.1 ≤ k ∧ k ≤ p.2) ∧ (p.2 = t.pre ∨ p.2 = t.pre2) := by
  unfold termIv at h
  unfold covers
  simp only [Bool.or_eq_true, Bool.and_eq_true, decide_eq_true_eq]
  split at h
  · cases h; simp; omega
  · split at h
    · cases h; simp; omega
    · cases h

theorem termIv_none {t : Term} (h : termIv t = none) (k : Nat) : covers k t.pre t.pre2 = false := by
  unfold termIv at h
  unfold covers
  split at h
  · cases h
  · split at h
    · cases h
    · have : t.pre = t.pre2 := by omega
      rw [this]; simp

theorem spanRefs_mem (i : Nat) (ts : List Term) (j : Nat) (r : Ref) (p : Nat × Nat) :
    (r, p) ∈ spanRefs i ts j ↔ r.span = i ∧ j ≤ r.term ∧ ∃ t, ts[r.term - j]? = some t ∧ termIv t = some p := by
  induction ts generalizing j with
  | nil => simp [spanRefs]
  | cons t ts ih =>
    have step : (∃ u, (t :: ts)[r.term - j]? = some u ∧ termIv u = some p) ∧ j ≤ r.term ↔
        (r.term = j ∧ termIv t = some p) ∨ (j + 1 ≤ r.term ∧ ∃ u, ts[r.term - (j + 1)]? = some u ∧ termIv u = some p) := by
      by_cases e : r.term ≤ j
      · by_cases e' : r.term = j
        · subst e'; simp; omega
        · constructor
          · intro h; omega
          · intro h; omega
      · have : r.term - j = (r.term - (j + 1)) + 1 := by omega
        rw [this, List.getElem?_cons_succ]
        constructor
        · rintro ⟨h, _⟩; exact .inr ⟨by omega, h⟩
        · rintro (h | h)
          · omega
          · exact ⟨h.2, by omega⟩
    unfold spanRefs
    split
    · rename_i q hq
      rw [List.mem_cons, ih]
      constructor
      · rintro (h | ⟨h1, h2, h3⟩)
        · cases h
          exact ⟨rfl, Nat.le_refl _, t, by simp, hq⟩
        · have := step.mpr (.inr ⟨h2, h3⟩)
          exact ⟨h1, this.2, this.1⟩
      · rintro ⟨h1, h2, h3⟩
        rcases step.mp ⟨h3, h2⟩ with ⟨e1, e2⟩ | ⟨e1, e2⟩
        · left
          rw [hq] at e2; cases e2
          cases r; simp_all
        · exact .inr ⟨h1, e1, e2⟩
    · rename_i hq
      rw [ih]
      constructor
      · rintro ⟨h1, h2, h3⟩
        have := step.mpr (.inr ⟨h2, h3⟩)
        exact ⟨h1, this.2, this.1⟩
      · rintro ⟨h1, h2, h3⟩
        rcases step.mp ⟨h3, h2⟩ with ⟨e1, e2⟩ | ⟨e1, e2⟩
        · rw [hq] at e2; cases e2
        · exact ⟨h1, e1, e2⟩

theorem allRefs_mem (ss : List Span) (i : Nat) (r : Ref) (p : Nat × Nat) :
    (r, p) ∈ allRefs ss i ↔
      i ≤ r.span ∧ ∃ s t, ss[r.span - i]? = some s ∧ s.terms[r.term]? = some t ∧ termIv t = some p := by
  induction ss generalizing i with
  | nil => simp [allRefs]
  | cons s ss ih =>
    unfold allRefs
    rw [List.mem_append, spanRefs_mem, ih]
    by_cases e : r.span = i
    · constructor
      · rintro (⟨_, _, t, ht, hp⟩ | h)
        · refine ⟨by omega, s, t, by simp [e], by simpa using ht, hp⟩
        · omega
      · rintro ⟨_, s', t, hs', ht, hp⟩
        left
        simp [e] at hs'; subst hs'
        exact ⟨e, Nat.zero_le _, t, by simpa using ht, hp⟩
    · by_cases e' : i + 1 ≤ r.span
      · have : r.span - i = (r.span - (i + 1)) + 1 := by omega
        rw [this, List.getElem?_cons_succ]
        constructor
        · rintro (h | h)
          · omega
          · exact ⟨by omega, h.2⟩
        · rintro ⟨_, h⟩; exact .inr ⟨e', h⟩
      · constructor
        · rintro (h | h) <;> omega
        · rintro ⟨h, _⟩; omega

theorem spanRefs_nodup (i : Nat) (ts : List Term) (j : Nat) : ((spanRefs i ts j).map (·.1)).Nodup := by
  induction ts generalizing j with
  | nil => simp [spanRefs]
  | cons t ts ih =>
    unfold spanRefs
    split
    · rename_i q hq
      rw [List.map_cons, List.nodup_cons]
      refine ⟨?_, ih _⟩
      intro h
      obtain ⟨⟨r, p⟩, hr, he⟩ := List.mem_map.mp h
      have := (spanRefs_mem i ts (j + 1) r p).mp hr
      simp only at he; subst he
      simp at this; omega
    · exact ih _

theorem allRefs_nodup (ss : List Span) (i : Nat) : ((allRefs ss i).map (·.1)).Nodup := by
  induction ss generalizing i with
  | nil => simp [allRefs]
  | cons s ss ih =>
    unfold allRefs
    rw [List.map_append, List.nodup_append]
    refine ⟨spanRefs_nodup _ _ _, ih _, ?_⟩
    intro a ha b hb e
    subst e
    obtain ⟨⟨r, p⟩, hr, he⟩ := List.mem_map.mp ha
    obtain ⟨⟨r', p'⟩, hr', he'⟩ := List.mem_map.mp hb
    simp only at he he'; subst he; subst he'
    have h1 := (spanRefs_mem _ _ _ _ _).mp hr
    have h2 := (allRefs_mem _ _ _ _).mp hr'
    omega

/-- The terms found for a bytecode are those whose labels it lies between, each once. -/
def Index.Ok (x : Index) (spans : List Span) : Prop :=
  ∀ k : Nat, k < 2 ^ 31 → (x.across k).Nodup ∧ ∀ r : Ref, r ∈ x.across k ↔
    ∃ s t, spans[r.span]? = some s ∧ s.terms[r.term]? = some t ∧ covers k t.pre t.pre2 = true

theorem index_ok {spans : List Span} {t : Tree} (h : insertAll (toIvs (allRefs spans 0)) = some t)
    (hb : ∀ s ∈ spans, ∀ t ∈ s.terms, t.pre < 2 ^ 31 ∧ t.pre2 < 2 ^ 31) :
    (⟨t, (allRefs spans 0).map (·.1)⟩ : Index).Ok spans := by
  intro k hk
  have hbound : ∀ x ∈ allRefs spans 0, x.2.1 ≤ x.2.2 ∧ x.2.2 < 2 ^ 31 := by
    rintro ⟨r, p⟩ hx
    obtain ⟨_, s, t, hs, ht, hp⟩ := (allRefs_mem _ _ _ _).mp hx
    have h1 := termIv_some hp 0
    have h2 := hb s (List.mem_of_getElem? hs) t (List.mem_of_getElem? ht)
    rcases h1.2.2 with e | e <;> simp only at * <;> omega
  obtain ⟨t', ht', hp⟩ := insert_then_enumerate (toIvs (allRefs spans 0)) (by
      intro i hi
      obtain ⟨⟨x, n⟩, hx, e⟩ := List.mem_map.mp hi
      have := hbound x (by
        have := List.mem_zipIdx hx
        rw [this.2.2]; exact List.getElem_mem _)
      subst e
      simp only [IsInt]; omega) k k (Int.le_refl _) (by unfold IsInt; omega) (by unfold IsInt; omega)
    (fun i => decide (i.low ≤ k ∧ k ≤ i.high)) (by
      intro i
      simp only [decide_eq_true_eq, Meets]
      constructor
      · rintro ⟨a, b⟩; exact ⟨k, Int.le_refl _, Int.le_refl _, a, b⟩
      · rintro ⟨x, a, b, c, d⟩; omega)
  rw [h] at ht'; cases ht'
  have hperm : ((⟨t, (allRefs spans 0).map (·.1)⟩ : Index).across k).Perm
      (((allRefs spans 0).filter fun x => decide ((x.2.1 : Int) ≤ k ∧ (k : Int) ≤ x.2.2)).map (·.1)) := by
    unfold Index.across
    refine (hp.filterMap _).trans (List.Perm.of_eq ?_)
    have gen : ∀ (l all : List (Ref × Nat × Nat)) (n : Nat), (∀ j, l[j]? = all[n + j]? ∨ l[j]? = none) →
        ((((l.zipIdx n).map fun p => (⟨p.1.2.1, p.1.2.2, p.2⟩ : Iv)).filter
          fun i => decide (i.low ≤ (k : Int) ∧ (k : Int) ≤ i.high)).filterMap fun iv => (all.map (·.1))[iv.data]?) =
        (l.filter fun x => decide ((x.2.1 : Int) ≤ k ∧ (k : Int) ≤ x.2.2)).map (·.1) := by
      intro l all
      induction l with
      | nil => intro n _; rfl
      | cons a l ih =>
        intro n hn
        have i := ih (n + 1) (by
          intro j
          have := hn (j + 1)
          rw [List.getElem?_cons_succ] at this
          rwa [show n + 1 + j = n + (j + 1) by omega])
        have h0 : all[n]? = some a := by
          rcases hn 0 with e | e
          · rw [← e.symm.trans (by simp : (a :: l)[0]? = some a)]; simp
          · simp at e
        simp only [List.zipIdx_cons, List.map_cons, List.filter_cons]
        by_cases hd : (a.2.1 : Int) ≤ k ∧ (k : Int) ≤ a.2.2
        · rw [if_pos (by simpa using hd), if_pos (by simpa using hd), List.filterMap_cons, i]; simp [h0]
        · rw [if_neg (by simpa using hd), if_neg (by simpa using hd)]; exact i
    exact gen _ _ 0 (fun j => .inl (by simp))
  refine ⟨hperm.nodup_iff.mpr (((allRefs_nodup spans 0).sublist (List.filter_sublist.map _))), ?_⟩
  intro r
  rw [hperm.mem_iff, List.mem_map]
  constructor
  · rintro ⟨⟨r', p⟩, hr, e⟩
    simp only at e; subst e
    obtain ⟨h1, h2⟩ := List.mem_filter.mp hr
    obtain ⟨_, s, t, hs, ht, hp⟩ := (allRefs_mem _ _ _ _).mp h1
    refine ⟨s, t, by simpa using hs, ht, ?_⟩
    rw [(termIv_some hp k).2.1]
    simp only [decide_eq_true_eq] at h2; omega
  · rintro ⟨s, t, hs, ht, hc⟩
    cases hp : termIv t with
    | none => rw [termIv_none hp k] at hc; cases hc
    | some p =>
      refine ⟨(r, p), List.mem_filter.mpr ⟨(allRefs_mem _ _ _ _).mpr ⟨Nat.zero_le _, s, t, by simpa using hs, ht, hp⟩, ?_⟩, rfl⟩
      rw [(termIv_some hp k).2.1] at hc
      simp only [decide_eq_true_eq]; omega

end Verif.Optimize
