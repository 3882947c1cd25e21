import Verif.Expr.Model
/-
Model of libyasm/mergesort.c (the implementation used where the C library has no mergesort) and of
expr.c `yasm_expr__order_terms`.

An array is a list; the run boundaries, which the code stores as pointers inside the array that is not
holding the data, are kept as a list of runs.  Copying elements as ints or as bytes, and the
temporary array, are not modelled.
-/
namespace Verif.Sort

variable {α : Type}

/-- mergesort.c:182-188: binary search between `b` (greater) and `t` (not greater, or the end). -/
def bin (gt : Nat → Bool) (b t : Nat) : Nat :=
  if b + 1 < t then
    let p := b + (t - b) / 2
    if gt p then bin gt p t else bin gt b p
  else t
termination_by t - b

/-- mergesort.c:190-195 FASTCASE: the same where the distance is the power of two 2^j. -/
def fast (gt : Nat → Bool) : Nat → Nat → Nat → Nat
  | 0, _, t => t
  | j + 1, b, t =>
    let p := b + 2 ^ j
    if gt p then fast gt j p t else fast gt j b p

/-- mergesort.c:167-181 EXPONENTIAL: steps of doubling size 2^j, then a binary search.  Result: the end of
    the part to copy, and the flag `big`. -/
def expo (gt : Nat → Bool) (t : Nat) (j b : Nat) : Nat × Bool :=
  let p := b + 2 ^ j
  if p < t then
    if gt p then expo gt t (j + 1) p else (fast gt j b p, decide (j ≠ 0))
  else
    let p := t - 1
    if p > b ∧ gt p = false then (bin gt b p, true) else (bin gt p t, true)
termination_by t - b
decreasing_by have := Nat.two_pow_pos j; omega

/-- mergesort.c:160-165: at most six single steps, then the exponential search. -/
def linear (gt : Nat → Bool) (t : Nat) : Nat → Nat → Nat × Bool
  | 0, b => expo gt t 0 b
  | k + 1, b => if b + 1 < t ∧ gt (b + 1) = true then linear gt t k (b + 1) else (b + 1, false)

/-- mergesort.c:160-197: how many elements of the run of length `t` to copy before the element compared
    with (`gt k`: does it belong after element k?), and the new `big`. -/
def search (big : Bool) (gt : Nat → Bool) (t : Nat) : Nat × Bool :=
  if big then expo gt t 0 0 else linear gt t 6 0

/-- mergesort.c:161,173: `cmp(q, p) > sense` for element k of the run. -/
def beyond (cmp : α → α → Int) (q : α) (sense : Int) (run : List α) (k : Nat) : Bool :=
  match run[k]? with
  | some x => decide (cmp q x > sense)
  | none => false

/-- mergesort.c:144-228: merge two runs. -/
def merge (cmp : α → α → Int) (big : Bool) : List α → List α → List α × Bool
  | [], f2 => (f2, big)
  | f1, [] => (f1, big)
  | a :: as, b :: bs =>
    if cmp a b ≤ 0 then
      let r := search big (beyond cmp b (-1) (a :: as)) (a :: as).length
      let m := merge cmp r.2 ((a :: as).drop r.1) bs
      ((a :: as).take r.1 ++ b :: m.1, m.2)
    else
      let r := search big (beyond cmp a 0 (b :: bs)) (b :: bs).length
      let m := merge cmp r.2 as ((b :: bs).drop r.1)
      ((b :: bs).take r.1 ++ a :: m.1, m.2)
termination_by f1 f2 => f1.length + f2.length
decreasing_by
  all_goals simp only [List.length_drop, List.length_cons]; omega

/-- mergesort.c:141-229: one pass, merging the runs two by two. -/
def pass (cmp : α → α → Int) (big : Bool) : List (List α) → List (List α) × Bool
  | r1 :: r2 :: rs =>
    let m := merge cmp big r1 r2
    let p := pass cmp m.2 rs
    (m.1 :: p.1, p.2)
  | rs => (rs, big)

theorem pass_length (cmp : α → α → Int) (big : Bool) (rs : List (List α)) :
    (pass cmp big rs).1.length = (rs.length + 1) / 2 := by
  match rs with
  | [] => simp [pass]
  | [_] => simp [pass]
  | a :: b :: rs => simp only [pass, List.length_cons, pass_length cmp _ rs]; omega

/-- mergesort.c:140-234: passes until one run is left. -/
def passes (cmp : α → α → Int) (big : Bool) (rs : List (List α)) : List α :=
  if 2 ≤ rs.length then
    let p := pass cmp big rs
    passes cmp p.2 p.1
  else rs.flatten
termination_by rs.length
decreasing_by rw [pass_length]; omega

/-- mergesort.c:353-359, the inner loop: move an element down.  The list is the part already sorted, last
    element first. -/
def insertDown (cmp : α → α → Int) : List α → α → List α
  | [], x => [x]
  | u :: us, x => if cmp u x ≤ 0 then x :: u :: us else u :: insertDown cmp us x

/-- mergesort.c:346-360 `insertionsort`. -/
def insertionSort (cmp : α → α → Int) (l : List α) : List α := (l.foldl (insertDown cmp) []).reverse

/-- The array in pairs of neighbours. -/
def pairs : List α → List (α × α)
  | a :: b :: l => (a, b) :: pairs l
  | _ => []

/-- mergesort.c:301-307: the pairs with the same sense as the first one. -/
def sameSense (cmp : α → α → Int) (sense : Bool) (ps : List (α × α)) : List (α × α) :=
  ps.takeWhile fun p => decide (cmp p.1 p.2 > 0) == sense

/-- mergesort.c:308-313: the pairs as runs. -/
def pairRuns (sense : Bool) (ps : List (α × α)) : List (List α) :=
  ps.map fun p => if sense then [p.2, p.1] else [p.1, p.2]

/-- mergesort.c:319-320,324-325: a finished run, reversed if it descends. -/
def closeRun (sense : Bool) (run : List α) : List α := if sense then run.reverse else run

/-- mergesort.c:315-325: cut the pairs into runs where neighbouring pairs compare with the other sense.  `run`
    is the run being built, `last` its last element. -/
def natural (cmp : α → α → Int) (sense : Bool) : List α → α → List (α × α) → List (List α)
  | run, _, [] => [closeRun sense run]
  | run, last, (a, b) :: ps =>
    if decide (cmp last a > 0) == sense then natural cmp sense (run ++ [a, b]) b ps
    else closeRun sense run :: natural cmp sense [a, b] b ps

/-- mergesort.c:327-330: join the last run and the sorted end of the array when they are in order. -/
def joinTail (cmp : α → α → Int) (rs : List (List α)) (tail : List α) : List (List α) :=
  match rs.getLast?, tail.head? with
  | some r, some x =>
    match r.getLast? with
    | some y => if cmp y x > 0 then rs ++ [tail] else rs.dropLast ++ [r ++ tail]
    | none => rs ++ [tail]
  | _, _ => rs ++ [tail]

/-- mergesort.c:300-332: the runs of the pairs and the sorted end of the array. -/
def runs (cmp : α → α → Int) (sense : Bool) (tail : List α) : List (α × α) → List (List α)
  | [] => [tail]
  | p :: ps =>
    let g := sameSense cmp sense ps
    let rest := ps.drop g.length
    if 2 * (g.length + 1) < 16 then pairRuns sense (p :: g) ++ runs cmp (!sense) tail rest
    else
      let rs := natural cmp sense [p.1, p.2] p.2 g
      if rest.isEmpty then joinTail cmp rs tail else rs ++ runs cmp (!sense) tail rest
termination_by ps => ps.length
decreasing_by all_goals simp only [rest, List.length_drop, List.length_cons]; omega

/-- mergesort.c:271-340 `setup`: the first runs. -/
def setup (cmp : α → α → Int) (l : List α) : List (List α) :=
  let n := l.length
  if n ≤ 5 then [insertionSort cmp l]
  else
    let i := 4 + n % 2
    let head := pairs (l.take (n - i))
    let tail := insertionSort cmp (l.drop (n - i))
    match head with
    | [] => [tail]
    | p :: ps => runs cmp (decide (cmp p.1 p.2 > 0)) tail (p :: ps)

/-- mergesort.c:101-242 `yasm__mergesort(base, nmemb, size, cmp)` for `size` ≥ half a pointer. -/
def mergesort (cmp : α → α → Int) (l : List α) : List α :=
  if l.isEmpty then l else passes cmp false (setup cmp l)

open Verif.Expr Verif.Intnum

/-- expr.h:42-51: the numbers of the term types. -/
def kind : Item → Int
  | .none => 0
  | .reg _ => 1
  | .int _ => 2
  | .subst _ => 4
  | .flt _ _ => 8
  | .sym _ => 16
  | .precbc _ => 32
  | .expr _ _ => 64

/-- expr.c:916-921 `expr_order_terms_compare`. -/
def termCompare (a b : Item) : Int := kind a - kind b

/-- expr.c:930-957 `yasm_expr__order_terms`. -/
def orderTerms (e : Node) : Node :=
  if e.terms.length = 1 then e
  else if multi e.op then ⟨e.op, mergesort termCompare e.terms⟩
  else e

end Verif.Sort
