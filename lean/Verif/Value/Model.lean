/-
Model of libyasm/value.c: splitting an expression into an absolute part and a relocatable part, and output
of values that need no relocation.

Expressions and their simplification are those of `Verif.Expr`, symbols and bytecodes are numbers.  The
scan updates the expression in place; here it returns the new expression.  Fields of yasm_value that the
functions below only copy (jump_target, section_rel, sign, size) are parameters where they matter.
-/
import Verif.Expr.Model

namespace Verif.Value

open Verif.Intnum
open Verif.Expr

/-- What value.c asks about symbols beyond `Ctx`: yasm_symrec_is_curpos, yasm_symrec_is_special
    (symrec.c), and the symbol yasm_symtab_define_curpos(symtab, ".", expr_precbc, line) makes
    (value.c:303-306).  That call makes a new symbol every time; one stands for all, since it is only put in
    places already marked as used. -/
structure Syms where
  ctx : Ctx
  nequ : Nat
  isCurpos : Nat → Bool
  isSpecial : Nat → Bool
  here : Nat
  /-- `expr_precbc`: the bytecode before the one that contains the value -/
  precbc : Option Nat

/-- The fields of yasm_value (coretype.h:121-184) the scan sets. -/
structure Parts where
  rel : Option Nat
  wrt : Option Nat
  segOf : Bool
  rshift : Nat
  curposRel : Bool
deriving DecidableEq, Repr

/-- Ways not to get a result: `return 1`, the fatal error of value.c:164-166, yasm_internal_error, a memory
    fault while simplifying, and the model's recursion bound. -/
inductive Stop where
  | reject
  | tooMany
  | internal
  | fault (f : Fault)
  | fuel
deriving DecidableEq, Repr

/-- yasm_intnum_create_uint(0) as a term. -/
def zero : Item := .int (createUint 0)

/-- value.c:180-210: is the subexpression -1*symbol? -/
def negSym (op : Op) (us : List Item) : Option Nat :=
  match op, us with
  | .MUL, [.int i, .sym s] => if isNeg1 i then some s else none
  | .MUL, [.sym s, .int i] => if isNeg1 i then some s else none
  | _, _ => none

/-- The loops of value.c:215-232, 244-255 and 276-310: the first unused symbol term with a property. -/
def findTerm (f : Nat → Bool) (used : List Nat) : Nat → List Item → Option (Nat × Nat)
  | _, [] => none
  | j, .sym s :: ts => if f s && !used.contains j then some (j, s) else findTerm f used (j + 1) ts
  | j, _ :: ts => findTerm f used (j + 1) ts

/-- Is the symbol a label in the section of bytecode `b` (value.c:245-248)? -/
def inSection (c : Ctx) (b : Nat) (s : Nat) : Bool :=
  match c.label s with
  | some q => c.sect q == c.sect b
  | none => false

/-- value.c:272-275: may a difference with the label at `b` be made relative to the current position? -/
def mayCurpos (y : Syms) (s b : Nat) : Bool :=
  y.isCurpos s || (match y.precbc with | some q => y.ctx.sect b == y.ctx.sect q | none => false)

/-- The state of the loop over the terms of a sum. -/
structure AddState where
  p : Parts
  ts : List Item
  used : List Nat

/-- value.c:170-315: one iteration of the first loop over the terms of a sum. -/
def addStep (rec : Parts → Item → Except Stop (Parts × Item)) (y : Syms) (notOk : Bool) (st : AddState) (i : Nat) :
    Except Stop AddState :=
  match st.ts[i]? with
  | some (.expr op us) =>
    let recurse : Except Stop AddState :=
      match rec st.p (.expr op us) with
      | .error e => .error e
      | .ok (p', t') => .ok ⟨p', st.ts.set i t', st.used⟩
    match negSym op us with
    | none => recurse
    | some s =>
      match findTerm (· == s) st.used 0 st.ts with
      | some (j, _) => .ok ⟨st.p, (st.ts.set i zero).set j zero, j :: st.used⟩
      | none =>
        match y.ctx.label s with
        | none => recurse
        | some b =>
          match findTerm (inSection y.ctx b) st.used 0 st.ts with
          | some (j, _) => .ok ⟨st.p, st.ts, j :: st.used⟩
          | none =>
            if !st.p.curposRel && mayCurpos y s b then
              match findTerm (fun r => (y.ctx.equ r).isNone && !y.isSpecial r) st.used 0 st.ts with
              | none => .error .reject
              | some (j, r) =>
                if st.p.rel.isSome || notOk then .error .reject
                else if y.isCurpos s then
                  .ok ⟨{ st.p with rel := some r, curposRel := true }, (st.ts.set i zero).set j zero, j :: st.used⟩
                else
                  .ok ⟨{ st.p with rel := some r, curposRel := true }, st.ts.set j (.sym y.here), j :: st.used⟩
            else .error .reject
  | _ => .ok st

/-- value.c:320-329: one iteration of the second loop. -/
def leftStep (notOk : Bool) (st : AddState) (i : Nat) : Except Stop AddState :=
  match st.ts[i]? with
  | some (.sym s) =>
    if st.used.contains i then .ok st
    else if st.p.rel.isSome || notOk then .error .reject
    else .ok ⟨{ st.p with rel := some s }, st.ts.set i zero, st.used⟩
  | _ => .ok st

/-- A `for` loop whose body may return. -/
def loop (f : AddState → Nat → Except Stop AddState) : List Nat → AddState → Except Stop AddState
  | [], st => .ok st
  | i :: is, st =>
    match f st i with
    | .error e => .error e
    | .ok st' => loop f is st'

/-- value.c:157-330: the case of a sum. -/
def scanAdd (rec : Parts → Item → Except Stop (Parts × Item)) (y : Syms) (notOk : Bool) (p : Parts) (ts : List Item) :
    Except Stop (Parts × Item) :=
  if ts.length > 32 then .error .tooMany
  else
    match loop (addStep rec y notOk) (List.range ts.length) ⟨p, ts, []⟩ with
    | .error e => .error e
    | .ok st =>
      match loop (leftStep notOk) (List.range ts.length) st with
      | .error e => .error e
      | .ok st' => .ok (st'.p, .expr .ADD st'.ts)

/-- value.c:331-362: the case of a right shift. -/
def scanShr (notOk : Bool) (p : Parts) (ts : List Item) : Except Stop (Parts × Item) :=
  match ts with
  | .sym s :: rest =>
    if p.rel.isSome || notOk then .error .reject
    else
      match rest with
      | .int i :: _ =>
        let shamt := getUint i
        if (shamt + BitVec.ofNat 64 p.rshift).toNat > 127 then .error .reject
        else .ok ({ p with rshift := p.rshift + shamt.toNat, rel := some s }, .expr .SHR (zero :: rest))
      | _ => .error .reject
  | _ => .ok (p, .expr .SHR ts)

/-- value.c:363-383: the case of SEG. -/
def scanSeg (notOk : Bool) (p : Parts) (ts : List Item) : Except Stop (Parts × Item) :=
  match ts with
  | .sym s :: rest =>
    if p.segOf then .error .reject
    else if p.rel.isSome || notOk then .error .reject
    else .ok ({ p with segOf := true, rel := some s }, .expr .IDENT (zero :: rest))
  | _ => .error .reject

/-- value.c:407-423: the left-hand side of a WRT; `wrap` makes the whole from the new left-hand side. -/
def scanWrtLeft (rec : Parts → Item → Except Stop (Parts × Item)) (notOk : Bool) (wrap : Item → Item) (p : Parts) (a : Item) :
    Except Stop (Parts × Item) :=
  match a with
  | .sym s =>
    if p.rel.isSome || notOk then .error .reject else .ok ({ p with rel := some s }, wrap zero)
  | .expr op us =>
    match rec p (.expr op us) with
    | .error e => .error e
    | .ok (p', t') => .ok (p', wrap t')
  | t => .ok (p, wrap t)

/-- value.c:384-425: the case of WRT. -/
def scanWrt (rec : Parts → Item → Except Stop (Parts × Item)) (notOk : Bool) (p : Parts) (ts : List Item) :
    Except Stop (Parts × Item) :=
  match ts with
  | [a, .sym w] =>
    if p.wrt.isSome then .error .reject
    else scanWrtLeft rec notOk (fun t => .expr .IDENT [t]) { p with wrt := some w } a
  | [a, .reg r] => scanWrtLeft rec notOk (fun t => .expr .WRT [t, .reg r]) p a
  | _ => .error .reject

/-- value.c:426-441: any other operator: the first symbol or subexpression decides.  `rec` is the scan in
    which no symbol may be taken. -/
def scanOther (rec : Parts → Item → Except Stop (Parts × Item)) (p : Parts) : List Item → Except Stop (Parts × List Item)
  | [] => .ok (p, [])
  | .sym _ :: _ => .error .reject
  | .expr op us :: ts =>
    match rec p (.expr op us) with
    | .error e => .error e
    | .ok (p', t') => .ok (p', t' :: ts)
  | t :: ts =>
    match scanOther rec p ts with
    | .error e => .error e
    | .ok (p', ts') => .ok (p', t :: ts')

/-- value_finalize_scan (value.c:124-445); `k` bounds the recursion. -/
def scan (y : Syms) : Nat → Bool → Parts → Item → Except Stop (Parts × Item)
  | 0, _, _, _ => .error .fuel
  | k + 1, notOk, p, .expr op ts =>
    match op with
    | .ADD => scanAdd (scan y k notOk) y notOk p ts
    | .SHR => scanShr notOk p ts
    | .SEG => scanSeg notOk p ts
    | .WRT => scanWrt (scan y k notOk) notOk p ts
    | op =>
      match scanOther (scan y k true) p ts with
      | .error e => .error e
      | .ok (p', ts') => .ok (p', .expr op ts')
  | _ + 1, _, p, t => .ok (p, t)

/-- A finished yasm_value. -/
structure Value where
  abs : Option Node
  p : Parts
  noWarn : Bool

/-- A computation that simplifies expressions: the constant computations made and how it ends. -/
structure Run (α : Type) where
  log : List Call
  out : Except Stop α

/-- yasm_expr__level_tree(e, 1, 1, 0, 0, NULL, NULL) and whether it set an error. -/
def level (y : Syms) (e : Node) : M Node × Bool :=
  let m := simplify y.ctx y.nequ false false e
  (m, (expandEqu y.ctx (y.nequ + 1) e).2 || m.log.any (fun k => k.err.isSome))

/-- value.c:478-484: 1<<size - 1. -/
def mask (size : Nat) : Intnum :=
  let one := createUint 1
  let m := (intCalc 0#256 one .SHL (some (createUint (BitVec.ofNat 64 size)))).acc
  (intCalc 0#256 m .SUB (some (setUint (createUint (BitVec.ofNat 64 size)) 1))).acc

/-- value.c:488-490: is the term the mask? -/
def isMask (size : Nat) : Item → Bool
  | .int i => compareI i (mask size) == 0
  | _ => false

/-- value.c:472-510: drop the mask of the value's size from a top-level AND; whether something was
    dropped. -/
def stripMask (size : Nat) (e : Node) : Node × Bool :=
  if e.op = .AND then
    let ts := e.terms.filter fun t => !isMask size t
    (⟨if ts.length = 1 then .IDENT else .AND, ts⟩, e.terms.any (isMask size))
  else (e, false)

/-- The value before the scan (yasm_value_initialize, value.c:46-62). -/
def Parts.init : Parts := ⟨none, none, false, 0, false⟩

/-- value.c:546-555: simplify again and drop a zero. -/
def finish (y : Syms) (p : Parts) (noWarn : Bool) (e : Item) : Run Value :=
  match e with
  | .expr op ts =>
    let m := (level y ⟨op, ts⟩).1
    match m.out with
    | .error f => ⟨m.log, .error (.fault f)⟩
    | .ok n =>
      ⟨m.log, .ok ⟨(match n.op, n.terms with
        | .IDENT, .int i :: _ => if isZero i then none else some n
        | _, _ => some n), p, noWarn⟩⟩
  | _ => ⟨[], .error .fuel⟩

/-- value.c:543-555. -/
def scanFinish (y : Syms) (noWarn : Bool) (e : Item) : Run Value :=
  match scan y (height e + 1) false Parts.init e with
  | .error s => ⟨[], .error s⟩
  | .ok (p, e') => finish y p noWarn e'

/-- value.c:512-555: the trivial cases, then the scan. -/
def split (y : Syms) (noWarn : Bool) (e : Node) : Run Value :=
  match e.op, e.terms with
  | .IDENT, .int i :: _ => ⟨[], .ok ⟨if isZero i then none else some e, .init, noWarn⟩⟩
  | .IDENT, .reg _ :: _ => ⟨[], .ok ⟨some e, .init, noWarn⟩⟩
  | .IDENT, .flt _ _ :: _ => ⟨[], .ok ⟨some e, .init, noWarn⟩⟩
  | .IDENT, .sym s :: _ => ⟨[], .ok ⟨none, { Parts.init with rel := some s }, noWarn⟩⟩
  | .IDENT, .expr op us :: _ => scanFinish y noWarn (stripTop (.expr op us))
  | .IDENT, _ => ⟨[], .error .internal⟩
  | op, ts => scanFinish y noWarn (.expr op ts)

/-- yasm_value_finalize_expr (value.c:447-556) with an expression. -/
def finalize (y : Syms) (size : Nat) (e : Node) : Run Value :=
  let r := level y e
  match r.1.out with
  | .error f => ⟨r.1.log, .error (.fault f)⟩
  | .ok n =>
    if r.2 then ⟨r.1.log, .error .reject⟩
    else
      let s := stripMask size n
      let t := split y s.2 s.1
      ⟨r.1.log ++ t.log, t.out⟩

/-! ### Output -/

/-- The bytecode that contains the value: its section and offset. -/
structure At where
  sect : Nat
  offset : BitVec 64

/-- value.c:592-609 and 699-716: the distance from the bytecode to the symbol, shifted. -/
def relDist (c : Ctx) (rshift : Nat) (q : Nat) (bc : At) : Intnum × List Call :=
  let d := if (c.next q).ult bc.offset then calcUnary .NEG (createUint (bc.offset - c.next q))
    else createUint (c.next q - bc.offset)
  if rshift > 0 then
    let k : Call := ⟨.SHR, d, createUint (BitVec.ofNat 64 rshift)⟩
    (k.result, [k])
  else (d, [])

/-- value.c:610-612 and 717-719: add in the absolute part. -/
def addAbs (d : Intnum × List Call) (i : Option Intnum) : Intnum × List Call :=
  match i with
  | some i => let k : Call := ⟨.ADD, d.1, i⟩; (k.result, d.2 ++ [k])
  | none => d

/-- The integer of the absolute part, if there is an absolute part: `none` if it has no integer value. -/
def absIntnum (c : Ctx) (nequ : Nat) (dist : Bool) (a : Option Node) : M (Option (Option Intnum)) :=
  match a with
  | none => M.pure (some none)
  | some e => (getIntnum c nequ dist e).bind fun r => M.pure (r.map some)

/-- value.c:584-590, 691-697: the bytecode of the symbol, if the relative part can be resolved here. -/
def relHere (c : Ctx) (sectionRel : Bool) (p : Parts) (s : Nat) (bc : At) : Option Nat :=
  match c.label s with
  | none => none
  | some q =>
    if p.wrt.isSome || p.segOf || sectionRel then none
    else if c.sect q ≠ bc.sect then none
    else if !p.curposRel then none
    else some q

/-- yasm_value_get_intnum (value.c:558-619). -/
def valueIntnum (c : Ctx) (nequ : Nat) (sectionRel : Bool) (v : Value) (bc : Option At) (dist : Bool) : M (Option Intnum) :=
  (absIntnum c nequ dist v.abs).bind fun a =>
    match a with
    | none => M.pure none
    | some i =>
      match v.p.rel with
      | some s =>
        match bc with
        | none => M.pure none
        | some bc =>
          match relHere c sectionRel v.p s bc with
          | none => M.pure none
          | some q =>
            let r := addAbs (relDist c v.p.rshift q bc) i
            ⟨r.2, .ok (some r.1)⟩
      | none => M.pure (some (i.getD (createUint 0)))

/-- What yasm_value_output_basic does: -1 with an error, 0, floating-point output, or integer output. -/
inductive Output where
  | error
  | cannot
  | float (neg : Bool) (id : Nat)
  | int (i : Intnum)

mutual
/-- yasm_expr_extract_deep_segoff (expr.c:1179-1229): the first SEG:OFF in preorder is replaced by its
    offset. -/
def extractDeep : Item → Option Item
  | .expr op ts =>
    match op, ts with
    | .SEGOFF, [_, b] => some (.expr .IDENT [b])
    | op, ts => (extractDeepL ts).map (.expr op)
  | _ => none
/-- The loop over the terms. -/
def extractDeepL : List Item → Option (List Item)
  | [] => none
  | t :: ts =>
    match extractDeep t with
    | some t' => some (t' :: ts)
    | none => (extractDeepL ts).map (t :: ·)
end

/-- value.c:662-680: the integer of the absolute part, without the segment of a SEG:OFF if need be. -/
def outIntnum (c : Ctx) (nequ : Nat) (e : Node) : M (Option Intnum) :=
  (simplify c nequ true true e).bind fun n =>
    match n.op, n.terms with
    | .IDENT, .int i :: _ => M.pure (some i)
    | _, _ =>
      match extractDeep n.item with
      | some (.expr op ts) => getIntnum c nequ true ⟨op, ts⟩
      | _ => getIntnum c nequ true n

/-- value.c:637-681: the absolute part; `none` is an error. -/
def outAbs (c : Ctx) (nequ : Nat) (a : Option Node) : M (Option (Option Intnum)) :=
  match a with
  | none => M.pure (some none)
  | some e =>
    if hasFltL e.terms then M.pure none
    else (outIntnum c nequ e).bind fun r => M.pure (r.map some)

/-- value.c:683-738: the relative part. -/
def outRel (c : Ctx) (sectionRel ipRel : Bool) (p : Parts) (bc : At) (i : Option Intnum) : Output × List Call :=
  match p.rel with
  | some s =>
    match relHere c sectionRel p s bc with
    | none => (.cannot, [])
    | some q => let r := addAbs (relDist c p.rshift q bc) i; (.int r.1, r.2)
  | none =>
    if p.segOf || decide (p.rshift ≠ 0) || p.curposRel || ipRel || sectionRel then (.cannot, [])
    else (.int (i.getD (createUint 0)), [])

/-- yasm_value_output_basic (value.c:621-739), up to the conversion of the number to bytes. -/
def outputBasic (c : Ctx) (nequ : Nat) (sectionRel ipRel : Bool) (v : Value) (bc : At) : M Output :=
  match v.p.rel, v.abs with
  | none, some ⟨.IDENT, .flt s f :: _⟩ => M.pure (.float s f)
  | _, _ =>
    (outAbs c nequ v.abs).bind fun a =>
      match a with
      | none => M.pure .error
      | some i => let r := outRel c sectionRel ipRel v.p bc i; ⟨r.2, .ok r.1⟩

/-- yasm_value_set_curpos_rel (value.c:106-122); `absSym` is yasm_symtab_abs_sym. -/
def setCurposRel (absSym : Nat) (v : Value) : Value :=
  { v with p := { v.p with curposRel := true, rel := some (v.p.rel.getD absSym) } }

end Verif.Value
