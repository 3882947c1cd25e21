import Verif.Optimize.X86Lemmas
/-
How to show that the main loop never ends on a given object: one of its states comes back.
-/
namespace Verif.Optimize

variable {M : Type}

/-- One iteration of the main loop; `none` if the queues are empty or on an internal error. -/
def stepSt (mc : Machine M) (x : Index) (st : St M) : Option (St M) :=
  match st.qa, st.qb with
  | [], [] => none
  | [], i :: q => processSpan mc x { st with qb := q } i
  | i :: q, _ => processSpan mc x { st with qa := q } i

def iterSt (mc : Machine M) (x : Index) : Nat → St M → Option (St M)
  | 0, st => some st
  | k + 1, st => (stepSt mc x st).bind (iterSt mc x k)

theorem loop_step {mc : Machine M} {x : Index} {st st' : St M} (h : stepSt mc x st = some st') :
    loop mc x 0 st = .fuel ∧ ∀ n, loop mc x (n + 1) st = loop mc x n st' := by
  unfold stepSt at h
  split at h
  · cases h
  · rename_i i q h1 h2
    refine ⟨by unfold loop; rw [h1, h2], ?_⟩
    intro n
    obtain ⟨b, s, o, qa, qb, e, w⟩ := st
    simp only at h1 h2
    subst h1; subst h2
    show (match processSpan mc x _ i with | some st' => loop mc x n st' | none => .fault) = _
    rw [h]
  · rename_i i q h1
    refine ⟨by unfold loop; rw [h1], ?_⟩
    intro n
    obtain ⟨b, s, o, qa, qb, e, w⟩ := st
    simp only at h1
    subst h1
    show (match processSpan mc x _ i with | some st' => loop mc x n st' | none => .fault) = _
    rw [h]

theorem loop_iter {mc : Machine M} {x : Index} (k : Nat) {st st' : St M} (h : iterSt mc x k st = some st') :
    (∀ n, n < k → loop mc x n st = .fuel) ∧ ∀ n, loop mc x (n + k) st = loop mc x n st' := by
  induction k generalizing st with
  | zero => cases h; exact ⟨fun n hn => absurd hn (by omega), fun n => rfl⟩
  | succ k ih =>
    unfold iterSt at h
    cases h1 : stepSt mc x st with
    | none => rw [h1] at h; cases h
    | some s1 =>
      rw [h1] at h
      obtain ⟨a1, a2⟩ := loop_step h1
      obtain ⟨b1, b2⟩ := ih h
      refine ⟨?_, fun n => by rw [← Nat.add_assoc, a2, b2]⟩
      intro n hn
      cases n with
      | zero => exact a1
      | succ n => rw [a2]; exact b1 n (by omega)

/-- A state that comes back is met forever. -/
theorem loop_cycle {mc : Machine M} {x : Index} {a k : Nat} {st st' : St M} (h : iterSt mc x a st = some st')
    (hk : iterSt mc x (k + 1) st' = some st') (n : Nat) : loop mc x n st = .fuel := by
  have hc : ∀ n, loop mc x n st' = .fuel := by
    intro n
    induction n using Nat.strongRecOn with
    | ind n ih =>
      by_cases hn : n < k + 1
      · exact (loop_iter _ hk).1 n hn
      · obtain ⟨j, rfl⟩ : ∃ j, n = j + (k + 1) := ⟨n - (k + 1), by omega⟩
        rw [(loop_iter _ hk).2]; exact ih j (by omega)
  by_cases hn : n < a
  · exact (loop_iter _ h).1 n hn
  · obtain ⟨j, rfl⟩ : ∃ j, n = j + a := ⟨n - a, by omega⟩
    rw [(loop_iter _ h).2]; exact hc j

theorem optimize_fuel {mc : Machine M} {bcs B1 C : List (Bc M)} {S1 S2 S3 : List Span} {q : List Nat}
    {t : Verif.Inttree.Tree} {oss : List OS}
    (h1 : (step1a mc bcs 0 0 0).errs = [])
    (h2 : step1b mc (step1a mc bcs 0 0 0).spans (step1a mc bcs 0 0 0).bcs = some (B1, S1, []))
    (h3 : updateAll B1 0 = (C, [])) (h4 : step1d C S1 0 = some (S2, q)) (hq : q ≠ [])
    (h5 : Verif.Inttree.insertAll (toIvs (allRefs S2 0)) = some t)
    (h6 : checkCycles C ⟨t, (allRefs S2 0).map (·.1)⟩ (List.range S2.length) S2 = (S3, []))
    (h8 : refreshOS C (step1a mc bcs 0 0 0).oss = oss)
    (h7 : ∀ n, loop mc ⟨t, (allRefs S2 0).map (·.1)⟩ n ⟨C, S3, oss, [], q, [], false⟩ = .fuel)
    (n : Nat) : optimize mc n bcs = .fuel := by
  unfold optimize
  dsimp only
  rw [if_neg (by simp [h1]), h2]
  dsimp only
  rw [if_neg (by simp), h3]
  dsimp only
  rw [if_neg (by simp), h4]
  dsimp only
  rw [if_neg hq]
  unfold step2
  dsimp only
  rw [h5]
  dsimp only
  rw [h6, h8, if_neg (by simp), h7]

/-! ### Objects used as examples -/

/-- The empty bytecode beginning section `s`. -/
def begin' (s : Nat) : Bc X86 := ⟨.empty, .one, 0, 1, 0, 0, s⟩

/-- An instruction or data on line `l`. -/
def item (m : X86) (l : Nat) : Bc X86 := ⟨.insn m, .one, 0, 0, 0, l, 0⟩

/-- `jmp` to the label after bytecode `q`: 2 bytes short, 5 near. -/
def jmpTo (q : Nat) (sel : JmpSel := .none) : X86 :=
  .jmp ⟨sel, 0, 1, 1, false, ⟨[], none, .label q, 0⟩, false, by simp, by simp⟩

/-- `times f(b - a) db 0`, `a` and `b` being the labels after bytecodes `p` and `q`. -/
def times (p q : Nat) (f : Int → Int) (l : Nat) : Bc X86 :=
  ⟨.insn (.fixed 1), .dep ⟨[(p, q)], some (fun l => l.head?.map f), .none, 0⟩, 0, 0, 0, l, 0⟩

def alignTo (b l : Nat) : Bc X86 := ⟨.setter (.align b none), .one, 0, 0, 0, l, 0⟩
def orgTo (b l : Nat) : Bc X86 := ⟨.setter (.org b), .one, 0, 0, 0, l, 0⟩

/-- Length, repeat count and offset of each bytecode, and the diagnostics. -/
def layout {M} (r : Result M) : Option (List (Nat × Int × Int) × Errs) :=
  match r with
  | .ret B e => some (B.map (fun b => (b.len, b.multInt, b.offset)), e)
  | _ => none

def isFault {M} (r : Result M) : Bool :=
  match r with
  | .fault => true
  | _ => false

end Verif.Optimize
