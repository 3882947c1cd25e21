import Verif.Bytecode.Model
import Verif.Inttree.Model
import Verif.Inttree.Spec
/-
The span-dependent optimizer, libyasm/section.c:748-1603 (Robertson's algorithm).

What is modelled: `yasm_object_optimize` and all its helpers, over any instruction set (`Machine`).  All
bytecodes of all sections are one list; a bytecode's position in it is its `bc_index`.  Each section begins
with its empty bytecode.

Simplifications: `long` and `unsigned long` arithmetic on offsets and span values does not overflow (they
are `Int`), except that offset-setting bytecodes see the offset as an `unsigned long` (`toU`).
`yasm_intnum_get_int` of a distance is the distance (exact below 2^31, see `Verif.Intnum`).  The absolute
part of a span's value is a function of its label distances; errors raised while evaluating it (division by
zero) are not reported.  A bytecode callback reports an error exactly when it returns a negative value, and
then leaves the bytecode unchanged; errors go straight to the list of diagnostics (`yasm_errwarn_propagate`
is modelled in `Verif.Errwarn`).  `os->thres`, which is never read, is left out.
-/
namespace Verif.Optimize
open Verif.Bytecode (alignLen orgLen Res)
open Verif.Inttree (Iv Tree insertAll enumerate)

/-- `LONG_MAX`: also the "too complex" value of a span. -/
def LMAX : Int := 2 ^ 63 - 1

/-- The relative part of a value (section.c:1001-1026): none; one that is not a PC-relative local label
    (external symbol, SEG, WRT, section-relative, not PC-relative); or a PC-relative label, by the index of the
    bytecode preceding it. -/
inductive Rel where
  | none
  | complex
  | label (pre2 : Nat)
  deriving DecidableEq, Repr

/-- A value a bytecode's size depends on (`yasm_value`).  `terms`: the label distances in its absolute part,
    as pairs of the bytecodes preceding the labels (expr.c:317-359 `yasm_expr__bc_dist_subst`).  `abs`: the
    absolute part, `none` when NULL, as a function of the distances, `none` when it is not a number. -/
structure SVal where
  terms : List (Nat × Nat)
  abs : Option (List Int → Option Int)
  rel : Rel
  rshift : Nat

/-- An offset-setting bytecode (bc-align.c, bc-org.c). -/
inductive Setter where
  | align (boundary : Nat) (maxskip : Option Nat)
  | org (start : Nat)
  deriving DecidableEq, Repr

/-- Conversion to `unsigned long`. -/
def toU (n : Int) : Nat := (n % 2 ^ 64).toNat

/-- bc-align.c:132-163, bc-org.c:104-120: the length at an offset. -/
def Setter.expand (s : Setter) (off : Int) : Except String Nat :=
  match s with
  | .align b m => .ok (alignLen b m (toU off))
  | .org start => match orgLen start (toU off) with
    | .ok n => .ok n
    | _ => .error "ORG overlap with already existing data"

/-- What is inside a bytecode: the empty bytecode beginning a section (section.c:352-358), an offset setter,
    or anything else. -/
inductive Contents (M : Type) where
  | empty
  | setter (s : Setter)
  | insn (m : M)

/-- The repeat count expression (`bc->multiple`): NULL, a constant, one containing a float, or one that
    depends on label distances. -/
inductive Mult where
  | one
  | const (n : Int)
  | float
  | dep (v : SVal)

/-- `struct yasm_bytecode` (bytecode.h).  `mult_int` is a `long`. -/
structure Bc (M : Type) where
  contents : Contents M
  mult : Mult
  len : Nat
  multInt : Int
  offset : Int
  line : Nat
  sect : Nat

/-- A span requested by `calc_len` through `add_span`. -/
structure Dep where
  id : Nat
  val : SVal
  neg : Int
  pos : Int

/-- The bytecode callbacks of an instruction set.  `calcLen`: new contents, length and spans.  `expand` at
    length `len` for span `id`: new contents and length; `none` for return value 0 (done), new thresholds for a
    positive one. -/
structure Machine (M : Type) where
  calcLen : M → Except String (M × Nat × List Dep)
  expand : M → (len id : Nat) → (old new : Int) → (neg pos : Int) → Except String (M × Nat × Option (Int × Int))

/-- `len*mult_int` -/
def Bc.size {M} (b : Bc M) : Int := b.len * b.multInt

/-- bytecode.c:219-223 `yasm_bc_next_offset`. -/
def Bc.next {M} (b : Bc M) : Int := b.offset + b.size

/-- section.c:861-868 `yasm_span_term`; a NULL `precbc` is the bytecode before the span's (1167-1168). -/
structure Term where
  pre : Nat
  pre2 : Nat
  curVal : Int
  newVal : Int
  deriving DecidableEq, Repr

/-- section.c:870-901 `struct yasm_span`.  `terms`: the `nabs` terms of the absolute part, then the relative
    term if there is one.  `os`: which offset setter follows (as an index; the placeholder is the index past
    the last). -/
structure Span where
  bc : Nat
  id : Nat
  val : SVal
  terms : List Term
  nabs : Nat
  curVal : Int
  newVal : Int
  neg : Int
  pos : Int
  active : Nat
  os : Nat
  backtrace : List Nat

/-- section.c:852-859 `yasm_offset_setter`. -/
structure OS where
  bc : Nat
  cur : Int
  new : Int
  deriving DecidableEq, Repr

abbrev Errs := List (Nat × String)

/-! ### Step 1a -/

/-- section.c:912-938 `create_span`. -/
def mkSpan (bc os : Nat) (d : Dep) : Span :=
  { bc := bc
    id := d.id
    val := d.val
    terms := []
    nabs := 0
    curVal := 0
    newVal := 0
    neg := d.neg
    pos := d.pos
    active := 1
    os := os
    backtrace := [] }

/-- bytecode.c:255-275: the repeat count at `calc_len` time: count, span, error. -/
def calcMult (m : Mult) : Int × List Dep × Option String :=
  match m with
  | .one => (1, [], none)
  | .const n => if n < 0 then (1, [], some "multiple is negative") else (n, [], none)
  | .float => (1, [], some "expression must not contain floating point value")
  | .dep v => (0, [⟨0, v, 0, 0⟩], none)

/-- The `calc_len` callback at an offset: contents, length, spans, error. -/
def calcContents {M} (mc : Machine M) (c : Contents M) (off : Int) : Contents M × Nat × List Dep × Option String :=
  match c with
  | .empty => (.empty, 0, [], none)
  | .setter s => match s.expand off with
    | .ok n => (.setter s, n, [], none)
    | .error e => (.setter s, 0, [], some e)
  | .insn m => match mc.calcLen m with
    | .ok (m', n, ds) => (.insn m', n, ds, none)
    | .error e => (.insn m, 0, [], some e)

/-- bytecode.c:237-281 `yasm_bc_calc_len`: the first error is the one reported. -/
def calcBc {M} (mc : Machine M) (b : Bc M) : Bc M × List Dep × Option String :=
  let c := calcContents mc b.contents b.offset
  let k := calcMult b.mult
  let err := c.2.2.2.or k.2.2
  ({ b with
      contents := c.1
      len := if err.isSome then 0 else c.2.1
      multInt := k.1 }, c.2.2.1 ++ k.2.1, err)

/-- What step 1a leaves behind. -/
structure A1 (M : Type) where
  bcs : List (Bc M)
  spans : List Span
  oss : List OS
  errs : Errs

def Contents.isSetter {M} : Contents M → Bool
  | .setter _ => true
  | _ => false

def Mult.isOne : Mult → Bool
  | .one => true
  | _ => false

/-- section.c:1339-1391: the loop of step 1a over the remaining bytecodes; `i` is the next `bc_index`, `nos`
    the number of offset setters seen.  `saw_error` is set exactly when a diagnostic is added. -/
def step1a {M} (mc : Machine M) : List (Bc M) → Nat → Int → Nat → A1 M
  | [], _, _, _ => ⟨[], [], [], []⟩
  | b :: bs, i, off, nos =>
    match b.contents with
    | .empty =>
      let r := step1a mc bs (i + 1) 0 nos
      { r with bcs := b :: r.bcs }
    | _ =>
      let c := calcBc mc { b with offset := off }
      let sp := c.2.1.map (mkSpan i nos)
      match c.2.2 with
      | some e =>
        let r := step1a mc bs (i + 1) off nos
        ⟨c.1 :: r.bcs, sp ++ r.spans, r.oss, (b.line, e) :: r.errs⟩
      | none =>
        if b.contents.isSetter then
          let r := step1a mc bs (i + 1) (off + c.1.size) (nos + 1)
          ⟨c.1 :: r.bcs, sp ++ r.spans, ⟨i, 0, 0⟩ :: r.oss,
            (if b.mult.isOne then [] else [(b.line, "cannot combine multiples and setting assembly position")]) ++ r.errs⟩
        else
          let r := step1a mc bs (i + 1) (off + c.1.size) nos
          ⟨c.1 :: r.bcs, sp ++ r.spans, r.oss, r.errs⟩

/-! ### Spans -/

/-- bytecode.c:199-217 `yasm_calc_bc_dist` by indices; `none` is the internal error of its callers. -/
def dist {M} (bcs : List (Bc M)) (p q : Nat) : Option Int :=
  match bcs[p]?, bcs[q]? with
  | some a, some b => if a.sect = b.sect then some (b.next - a.next) else none
  | _, _ => none

/-- section.c:1022-1023: distance from the start of bytecode `i` to the label after `q`. -/
def relDist {M} (bcs : List (Bc M)) (i q : Nat) : Option Int :=
  match bcs[i]?, bcs[q]? with
  | some a, some b => some (b.next - a.offset)
  | _, _ => none

/-- section.c:990-997: the bytecode lies between the two labels of a term. -/
def covers (i p q : Nat) : Bool := (i > p && i ≤ q) || (i > q && i ≤ p)

/-- section.c:950-997: the terms of the absolute part. -/
def absTerms {M} (bcs : List (Bc M)) : List (Nat × Nat) → Option (List Term)
  | [] => some []
  | (p, q) :: r => (dist bcs p q).bind fun d => (absTerms bcs r).map fun ts => ⟨p, q, 0, d⟩ :: ts

/-- section.c:1001-1026: the relative term. -/
def relTerm {M} (bcs : List (Bc M)) (i : Nat) : Rel → Option (List Term)
  | .label q =>
    match bcs[i]?, bcs[q]? with
    | some a, some b => if b.sect = a.sect then some [⟨i - 1, q, 0, b.next - a.offset⟩] else some []
    | _, _ => none
  | _ => some []

def SVal.pairs (v : SVal) : List (Nat × Nat) := if v.abs.isSome then v.terms else []

/-- section.c:976-1028 `span_create_terms`: the span with its terms, and whether a circular reference was
    reported. -/
def createTerms {M} (bcs : List (Bc M)) (s : Span) : Option (Span × Bool) :=
  (absTerms bcs s.val.pairs).bind fun ts => (relTerm bcs s.bc s.val.rel).map fun r =>
    ({ s with
        terms := ts ++ r
        nabs := ts.length },
      decide (s.id = 0) && s.val.pairs.any fun p => covers s.bc p.1 p.2)

/-- section.c:1036-1066: the value of a span, from the values of its terms. -/
def SVal.eval (v : SVal) (nabs : Nat) (vals : List Int) : Int :=
  let a := match v.abs with
    | none => 0
    | some f => match f (vals.take nabs) with
      | some x => x
      | none => LMAX
  match vals[nabs]? with
  | some r => if a ≠ LMAX ∧ r ≠ LMAX then a + r >>> v.rshift else LMAX
  | none => match v.rel with
    | .none => a
    | _ => LMAX

def Span.value (s : Span) : Int := s.val.eval s.nabs (s.terms.map (·.newVal))

/-- The span's bytecode must be expanded for this value (section.c:1068-1072). -/
def Span.exceeds (s : Span) (v : Int) : Bool :=
  if s.id = 0 then v ≠ s.curVal else v < s.neg || v > s.pos

/-- section.c:1033-1073 `recalc_normal_span`. -/
def recalc (s : Span) : Span × Bool :=
  let v := s.value
  ({ s with
      newVal := v
      active := if v = LMAX then 0 else s.active }, s.exceeds v)

/-- Return value of `yasm_bc_expand`: new bytecode and, if positive, the thresholds. -/
inductive Ret (M : Type) where
  | error (e : String)
  | done (b : Bc M)
  | more (b : Bc M) (neg pos : Int)

/-- bytecode.c:283-298 `yasm_bc_expand` for a span; `none` is an internal error. -/
def expandBc {M} (mc : Machine M) (b : Bc M) (s : Span) : Option (Ret M) :=
  if s.id = 0 then some (.more { b with multInt := s.newVal } s.neg s.pos)
  else match b.contents with
    | .insn m => match mc.expand m b.len s.id s.curVal s.newVal s.neg s.pos with
      | .error e => some (.error e)
      | .ok (m', n, none) => some (.done { b with contents := .insn m', len := n })
      | .ok (m', n, some (neg, pos)) => some (.more { b with contents := .insn m', len := n } neg pos)
    | _ => none

/-! ### Step 1b -/

/-- section.c:1400-1432: one span of step 1b: bytecodes, the span unless it is finished with, errors. -/
def step1bSpan {M} (mc : Machine M) (bcs : List (Bc M)) (s : Span) : Option (List (Bc M) × Option Span × Errs) :=
  match bcs[s.bc]? with
  | none => none
  | some b =>
    (createTerms bcs s).bind fun c =>
      if c.2 then some (bcs, some { c.1 with curVal := c.1.newVal }, [(b.line, "circular reference detected")])
      else
        let r := recalc c.1
        if r.2 then
          (expandBc mc b r.1).bind fun e => match e with
            | .error m => some (bcs, some { r.1 with curVal := r.1.newVal }, [(b.line, m)])
            | .done b' => some (bcs.set s.bc b', none, [])
            | .more b' neg pos => some (bcs.set s.bc b',
                some { r.1 with
                  curVal := r.1.newVal
                  neg := neg
                  pos := pos },
                if r.1.active = 0 then [(b.line, "secondary expansion of an external/complex value")] else [])
        else some (bcs, some { r.1 with curVal := r.1.newVal }, [])

/-- section.c:1400-1437: step 1b. -/
def step1b {M} (mc : Machine M) : List Span → List (Bc M) → Option (List (Bc M) × List Span × Errs)
  | [], bcs => some (bcs, [], [])
  | s :: ss, bcs => (step1bSpan mc bcs s).bind fun r => (step1b mc ss r.1).map fun q =>
      (q.1, r.2.1.toList ++ q.2.1, r.2.2 ++ q.2.2)

/-! ### Steps 1c and 3 -/

/-- section.c:1078-1114 `update_all_bc_offsets` over the remaining bytecodes; `off` is the running offset,
    which is also `yasm_bc_next_offset(prevbc)`.  `saw_error` is set exactly when a diagnostic is added. -/
def updateAll {M} : List (Bc M) → Int → List (Bc M) × Errs
  | [], _ => ([], [])
  | b :: bs, off =>
    match b.contents with
    | .empty => let r := updateAll bs 0; (b :: r.1, r.2)
    | .setter s =>
      match s.expand off with
      | .ok n =>
        let b' := { b with len := n, offset := off }
        let r := updateAll bs (off + b'.size)
        (b' :: r.1, r.2)
      | .error e =>
        let b' := { b with offset := off }
        let r := updateAll bs (off + b'.size)
        (b' :: r.1, (b.line, e) :: r.2)
    | .insn _ =>
      let b' := { b with offset := off }
      let r := updateAll bs (off + b'.size)
      (b' :: r.1, r.2)

/-! ### Step 1d -/

/-- section.c:1446-1470: the terms with fresh distances. -/
def refreshTerms {M} (bcs : List (Bc M)) (i nabs : Nat) : List Term → Option (List Term)
  | [] => some []
  | t :: ts =>
    (match nabs with
      | 0 => relDist bcs i t.pre2
      | _ + 1 => dist bcs t.pre t.pre2).bind fun d =>
    (refreshTerms bcs i (nabs - 1) ts).map fun r =>
      { t with
        curVal := t.newVal
        newVal := d } :: r

/-- section.c:1446-1477: one span of step 1d; `true`: it goes on the queue. -/
def step1dSpan {M} (bcs : List (Bc M)) (s : Span) : Option (Span × Bool) :=
  (refreshTerms bcs s.bc s.nabs s.terms).map fun ts =>
    let r := recalc { s with terms := ts }
    if r.2 then ({ r.1 with active := 2 }, true) else (r.1, false)

/-- section.c:1443-1478: step 1d from span number `i`; the spans and the queue `QB`. -/
def step1d {M} (bcs : List (Bc M)) : List Span → Nat → Option (List Span × List Nat)
  | [], _ => some ([], [])
  | s :: ss, i => (step1dSpan bcs s).bind fun r => (step1d bcs ss (i + 1)).map fun q =>
      (r.1 :: q.1, if r.2 then i :: q.2 else q.2)

/-! ### Step 2 -/

/-- section.c:1486-1493: offset setters take the current offsets. -/
def refreshOS {M} (bcs : List (Bc M)) (oss : List OS) : List OS :=
  oss.map fun o => match bcs[o.bc]? with
    | some b => { o with cur := b.offset, new := b.offset }
    | none => o

/-- A term by span number and position. -/
structure Ref where
  span : Nat
  term : Nat
  deriving DecidableEq, Repr

/-- section.c:1159-1186 `optimize_itree_add`: the interval of bytecodes between a term's labels. -/
def termIv (t : Term) : Option (Nat × Nat) :=
  if t.pre < t.pre2 then some (t.pre + 1, t.pre2)
  else if t.pre > t.pre2 then some (t.pre2 + 1, t.pre)
  else none

/-- The terms of span number `i`, from position `j`, that get an interval. -/
def spanRefs (i : Nat) : List Term → Nat → List (Ref × Nat × Nat)
  | [], _ => []
  | t :: ts, j => match termIv t with
    | some p => (⟨i, j⟩, p) :: spanRefs i ts (j + 1)
    | none => spanRefs i ts (j + 1)

/-- section.c:1495-1501: all intervals, in order of insertion. -/
def allRefs : List Span → Nat → List (Ref × Nat × Nat)
  | [], _ => []
  | s :: ss, i => spanRefs i s.terms 0 ++ allRefs ss (i + 1)

/-- The interval tree's contents: the data of a node is a position in the list of terms. -/
def toIvs (l : List (Ref × Nat × Nat)) : List Iv :=
  l.zipIdx.map fun p => ⟨p.1.2.1, p.1.2.2, p.2⟩

/-- The interval tree with the terms its nodes point to. -/
structure Index where
  tree : Tree
  refs : List Ref

/-- `IT_enumerate(itree, k, k, …)`: the terms spanning bytecode `k`, in the order of the callbacks. -/
def Index.across (x : Index) (k : Nat) : List Ref :=
  (enumerate x.tree k k).filterMap fun iv => x.refs[iv.data]?

/-- section.c:1218-1250: the backtrace of the dependent span after adding `own` (our backtrace) and us.
    Line 1232 compares our backtrace with itself over the dependent span's size. -/
def addBacktrace (own : List Nat) : Nat → List Nat → List Nat
  | 0, bt => bt
  | n + 1, bt =>
    let bt := addBacktrace own n bt
    if (own.take bt.length).any fun x => own[n]? = some x then bt
    else match own[n]? with
      | some x => bt ++ [x]
      | none => bt

/-- section.c:1188-1261 `check_cycle` from span `me` to the span of a term; spans and error flag. -/
def checkCycle (me : Nat) (st : List Span × Bool) (r : Ref) : List Span × Bool :=
  match st.1[me]?, st.1[r.span]? with
  | some s, some d =>
    if d.id > 0 then st
    else
      let bt := if d.backtrace = [] then s.backtrace ++ [me]
        else addBacktrace s.backtrace s.backtrace.length d.backtrace ++ [me]
      (st.1.set r.span { d with backtrace := bt }, st.2 || s.backtrace.contains r.span)
  | _, _ => st

/-- section.c:1503-1514: the cycle check for every span with id 0. -/
def checkCycles {M} (bcs : List (Bc M)) (x : Index) : List Nat → List Span → List Span × Errs
  | [], spans => (spans, [])
  | i :: is, spans =>
    match spans[i]? with
    | none => checkCycles bcs x is spans
    | some s =>
      if s.id > 0 then checkCycles bcs x is spans
      else
        let r := (x.across s.bc).foldl (checkCycle i) (spans, false)
        let q := checkCycles bcs x is r.1
        (q.1, (if r.2 then
          match bcs[s.bc]? with
          | some b => [(b.line, "circular reference detected")]
          | none => []
         else []) ++ q.2)

/-- The state of the main loop. -/
structure St (M : Type) where
  bcs : List (Bc M)
  spans : List Span
  oss : List OS
  qa : List Nat
  qb : List Nat
  errs : Errs
  saw : Bool

/-- section.c:1291-1294: a term grows by `diff`. -/
def Term.grow (diff : Int) (t : Term) : Term :=
  { t with newVal := if t.pre < t.pre2 then t.newVal + diff else t.newVal - diff }

/-- section.c:1263-1306 `optimize_term_expand`. -/
def termExpand {M} (diff : Int) (st : St M) (r : Ref) : St M :=
  match st.spans[r.span]? with
  | none => st
  | some s =>
    if s.active = 0 then st
    else
      let s1 := { s with terms := s.terms.modify r.term (Term.grow diff) }
      if s.active = 2 then { st with spans := st.spans.set r.span s1 }
      else
        let q := recalc s1
        if q.2 then
          { st with
            spans := st.spans.set r.span { q.1 with active := 2 }
            qa := if s.id = 0 then st.qa ++ [r.span] else st.qa
            qb := if s.id = 0 then st.qb else st.qb ++ [r.span] }
        else { st with spans := st.spans.set r.span q.1 }

/-- The enumeration of section.c:1559 and 1587: all terms across bytecode `k` grow. -/
def growAcross {M} (x : Index) (k : Nat) (diff : Int) (st : St M) : St M :=
  (x.across k).foldl (termExpand diff) st

/-- section.c:1568-1595: the offset setters from number `j` on, in section `sect`; `diff` is by how much
    offsets have moved so far.  `none`: internal error. -/
def osLoop {M} (x : Index) (sect : Nat) : Nat → Nat → Int → St M → Option (St M)
  | 0, _, _, st => some st
  | n + 1, j, diff, st =>
    match st.oss[j]? with
    | none => some st
    | some o =>
      match st.bcs[o.bc]? with
      | none => none
      | some b =>
        if b.sect ≠ sect ∨ diff = 0 then some st
        else if diff < 0 ∧ (-diff).toNat > toU o.new then none
        else
          let new := o.new + diff
          match b.contents with
          | .setter s =>
            let r := s.expand new
            let len : Nat := match r with | .ok n => n | .error _ => b.len
            let errs := match r with | .ok _ => [] | .error e => [(b.line, e)]
            let st1 := { st with
              bcs := st.bcs.set o.bc { b with len := len }
              errs := st.errs ++ errs }
            let st2 := if (len : Int) - b.len = 0 then st1 else growAcross x o.bc (len - b.len) st1
            osLoop x sect n (j + 1) (new + (len : Int) - (o.cur + (b.len : Int))) { st2 with
              oss := st2.oss.set j { o with
                cur := new
                new := new } }
          | _ => none

/-- What happens to span `i`, at the head of a queue (already removed); section.c:1534-1595. -/
def processSpan {M} (mc : Machine M) (x : Index) (st : St M) (i : Nat) : Option (St M) :=
  match st.spans[i]? with
  | none => none
  | some s =>
    if s.active = 0 then some st
    else
      let r := recalc { s with active := 1 }
      let st := { st with spans := st.spans.set i r.1 }
      if r.2 then
        match st.bcs[s.bc]? with
        | none => none
        | some b =>
          (expandBc mc b r.1).bind fun e => match e with
            | .error m => some { st with
                errs := st.errs ++ [(b.line, m)]
                saw := true }
            | .done b' => finishExpand x st i { r.1 with active := 0 } b b'
            | .more b' neg pos => finishExpand x st i { r.1 with
                curVal := r.1.newVal
                terms := r.1.terms.map fun t => { t with curVal := t.newVal }
                neg := neg
                pos := pos } b b'
      else some st
where
  /-- section.c:1553-1595: after the expansion of `b` to `b'`. -/
  finishExpand (x : Index) (st : St M) (i : Nat) (s : Span) (b b' : Bc M) : Option (St M) :=
    let st1 := { st with
      spans := st.spans.set i s
      bcs := st.bcs.set s.bc b' }
    let diff := b'.size - b.size
    if diff = 0 then some st1
    else osLoop x b.sect (st1.oss.length + 1) s.os diff (growAcross x s.bc diff st1)

/-- The main loop's outcome. -/
inductive Loop (M : Type) where
  | fault
  | fuel
  | done (st : St M)

/-- section.c:1521-1596: the main loop, QA before QB. -/
def loop {M} (mc : Machine M) (x : Index) : Nat → St M → Loop M
  | 0, st => match st.qa, st.qb with
    | [], [] => .done st
    | _, _ => .fuel
  | n + 1, st => match st.qa, st.qb with
    | [], [] => .done st
    | [], i :: q => match processSpan mc x { st with qb := q } i with
      | some st' => loop mc x n st'
      | none => .fault
    | i :: q, _ => match processSpan mc x { st with qa := q } i with
      | some st' => loop mc x n st'
      | none => .fault

/-- The outcome of `yasm_object_optimize`: an internal error, more than `fuel` iterations of the main loop, or
    the bytecodes and the diagnostics. -/
inductive Result (M : Type) where
  | fault
  | fuel
  | ret (bcs : List (Bc M)) (errs : Errs)

/-- section.c:1486-1603: from the offset setters to the end. -/
def step2 {M} (mc : Machine M) (fuel : Nat) (bcs : List (Bc M)) (spans : List Span) (oss : List OS) (qb : List Nat) :
    Result M :=
  let refs := allRefs spans 0
  match insertAll (toIvs refs) with
  | none => .fault
  | some t =>
    let x : Index := ⟨t, refs.map (·.1)⟩
    let c := checkCycles bcs x (List.range spans.length) spans
    if c.2 ≠ [] then .ret bcs c.2
    else match loop mc x fuel ⟨bcs, c.1, refreshOS bcs oss, [], qb, [], false⟩ with
      | .fault => .fault
      | .fuel => .fuel
      | .done st =>
        if st.saw then .ret st.bcs st.errs
        else
          let r := updateAll st.bcs 0
          .ret r.1 (st.errs ++ r.2)

/-- section.c:1308-1603 `yasm_object_optimize`. -/
def optimize {M} (mc : Machine M) (fuel : Nat) (bcs : List (Bc M)) : Result M :=
  let a := step1a mc bcs 0 0 0
  if a.errs ≠ [] then .ret a.bcs a.errs
  else match step1b mc a.spans a.bcs with
    | none => .fault
    | some (bcs1, spans1, errs1) =>
      if errs1 ≠ [] then .ret bcs1 errs1
      else
        let c := updateAll bcs1 0
        if c.2 ≠ [] then .ret c.1 c.2
        else match step1d c.1 spans1 0 with
          | none => .fault
          | some (spans2, qb) =>
            if qb = [] then .ret c.1 [] else step2 mc fuel c.1 spans2 a.oss qb

end Verif.Optimize
