/-
Model of modules/arch/x86/x86expr.c: from the expression of a memory operand to the ModRM and SIB bytes and
the displacement, and of the parts of modules/arch/x86/x86bc.c it uses.

Expressions, their simplification and values are those of `Verif.Expr` and `Verif.Value`.  A register is the
number the parser gives it: its class (x86arch.h:128-142) in the high bits, its number in the low four.
`int` is 32 bits and `long` 64 bits wide.  Error and warning texts are left out.
-/
import Verif.Value.Model
import Verif.Sort.Model

namespace Verif.Ea

open Verif.Intnum
open Verif.Expr
open Verif.Value

/-- x86arch.h:128-142 `x86_expritem_reg_size`: the register classes an address can mention. -/
inductive RegClass where
  | reg16 | reg32 | reg64 | xmm | ymm | rip | other
deriving DecidableEq, Repr

/-- `reg & ~0xF` as a class. -/
def regClass (r : Nat) : RegClass :=
  if r / 16 = 3 then .reg16 else if r / 16 = 4 then .reg32 else if r / 16 = 5 then .reg64
  else if r / 16 = 8 then .xmm else if r / 16 = 9 then .ymm else if r / 16 = 13 then .rip else .other

/-- `reg & 0xF`. -/
def regNum (r : Nat) : Nat := r % 16

/-- x86expr.c:41-90 `x86_expr_checkea_get_reg3264`: the slot of a register in the table of multipliers:
    0-15 for the general registers, 16 for RIP, 17-32 for the vector registers. -/
def getReg3264 (vsib bits addrsize : Nat) (r : Nat) : Option Nat :=
  match regClass r with
  | .reg32 => if addrsize ≠ 32 then none else some (regNum r)
  | .reg64 => if addrsize ≠ 64 then none else some (regNum r)
  | .xmm => if vsib ≠ 1 then none else if bits ≠ 64 ∧ regNum r ≥ 8 then none else some (17 + regNum r)
  | .ymm => if vsib ≠ 2 then none else if bits ≠ 64 ∧ regNum r ≥ 8 then none else some (17 + regNum r)
  | .rip => if bits ≠ 64 then none else some 16
  | _ => none

/-- x86expr.c:92-130 `x86_expr_checkea_get_reg16`: 3 for BX, 5 for BP, 6 for SI and 7 for DI. -/
def getReg16 (r : Nat) : Option Nat :=
  if regClass r ≠ .reg16 then none
  else
    let n := r % 8
    if n = 3 ∨ n = 5 ∨ n = 6 ∨ n = 7 then some n else none

/-! ### Distribution over registers -/

/-- What the loop of `x86_expr_checkea_distcheck_reg` returns: did anything change, where is the last
    subexpression with a register, and the new terms. -/
structure Dist where
  changed : Bool
  at_ : Option Nat
  terms : List Item

/-- x86expr.c:214-246: (a + b) * c is replaced by a*c + b*c, in the place of each term of the sum. -/
def distribute (ts : List Item) (i : Nat) : Except Stop Item :=
  match ts[i]? with
  | some (.expr .ADD us) => .ok (.expr .ADD (us.map fun u => .expr .MUL (ts.set i u)))
  | _ => .error .internal

/-- x86expr.c:161-176, for a register among the terms. -/
def regOk (op : Op) (seen : Bool) : Bool :=
  match op with
  | .MUL => !seen
  | .ADD | .IDENT => true
  | _ => false

mutual
/-- x86expr.c:151-249 `x86_expr_checkea_distcheck_reg`, on a subexpression: did it change, and what is it
    now; `reject` is the return value 0. -/
def distcheck : Item → Except Stop (Bool × Item)
  | .expr op ts =>
    match distTerms op false 0 ts with
    | .error e => .error e
    | .ok d =>
      match d.at_ with
      | some i =>
        if op = .MUL then (distribute d.terms i).map fun t => (true, t)
        else .ok (d.changed, .expr op d.terms)
      | none => .ok (d.changed, .expr op d.terms)
  | t => .ok (false, t)
/-- x86expr.c:159-208: the loop over the terms; `seen` is `havereg != -1`, `k` the index of the first term
    of the list. -/
def distTerms (op : Op) (seen : Bool) (k : Nat) : List Item → Except Stop Dist
  | [] => .ok ⟨false, none, []⟩
  | .reg r :: ts =>
    if regOk op seen then
      (distTerms op true (k + 1) ts).map fun d => { d with terms := .reg r :: d.terms }
    else .error .reject
  | .flt _ _ :: _ => .error .reject
  | .expr o us :: ts =>
    if hasRegL us then
      if op ≠ .ADD ∧ op ≠ .MUL then .error .reject
      else if op = .MUL ∧ seen = true then .error .reject
      else
        match distcheck (.expr o us) with
        | .error e => .error e
        | .ok (c, t) =>
          (distTerms op true (k + 1) ts).map fun d => ⟨c || d.changed, some (d.at_.getD k), t :: d.terms⟩
    else if hasFltL us then .error .reject
    else (distTerms op seen (k + 1) ts).map fun d => { d with terms := .expr o us :: d.terms }
  | t :: ts => (distTerms op seen (k + 1) ts).map fun d => { d with terms := t :: d.terms }
end

/-! ### Register usage -/

/-- The variables of the search for registers: the multipliers (x86expr.c:36,91), `*indexreg`, `indexval`
    and `indexmult` (270-271); `uses` is not in the program: it records which register was
    taken out, times what. -/
structure Usage where
  mult : Nat → BitVec 32
  index : Option Nat
  ival : BitVec 32
  imult : Bool
  uses : List (Nat × Intnum)

/-- The start: no registers. -/
def Usage.init : Usage := ⟨fun _ => 0, none, 0, false, []⟩

/-- Change one multiplier. -/
def setMult (m : Nat → BitVec 32) (n : Nat) (v : BitVec 32) : Nat → BitVec 32 := fun j => if j = n then v else m j

/-- x86expr.c:339-349: a register as a term of the sum.  `want` is `indexreg != NULL`. -/
def useReg (want : Bool) (u : Usage) (r n : Nat) : Usage :=
  let v := u.mult n + 1
  let u' := { u with mult := setMult u.mult n v, uses := u.uses ++ [(r, .L 1)] }
  if want && (0#32).slt v && u.ival.sle v && !u.imult then { u' with index := some n, ival := v } else u'

/-- x86expr.c:354-379: a register times an integer as a term of the sum. -/
def useMul (want : Bool) (u : Usage) (r n : Nat) (i : Intnum) : Usage :=
  let delta := getInt i
  let v := u.mult n + delta.setWidth 32
  let u' := { u with mult := setMult u.mult n v, uses := u.uses ++ [(r, i)] }
  if want && (0#64).slt delta && u.ival.sle v then { u' with index := some n, ival := v, imult := true }
  else if want && u.index == some n && delta.slt 0#64 && v.sle 1#32 then
    { u' with index := none, ival := 0, imult := false }
  else u'

/-- x86expr.c:322-333: order the terms of the subexpressions of a sum, and check that registers are only
    multiplied by one integer. -/
def prescan : List Item → Except Stop (List Item)
  | [] => .ok []
  | .expr o us :: ts =>
    let n := Verif.Sort.orderTerms ⟨o, us⟩
    let rest := (prescan ts).map fun ts' => n.item :: ts'
    match n.terms with
    | .reg _ :: vs =>
      if vs.length > 1 then .error .reject
      else
        match vs with
        | .int _ :: _ => rest
        | [] => .error .internal  -- reads past the term
        | _ => .error .reject
    | _ => rest
  | t :: ts => (prescan ts).map fun ts' => t :: ts'

/-- x86expr.c:338-381: the loop over the terms of the sum: the new usage and the terms with the registers
    replaced by zero. -/
def scanTerms (getReg : Nat → Option Nat) (want : Bool) : Usage → List Item → Except Stop (Usage × List Item)
  | u, [] => .ok (u, [])
  | u, .reg r :: ts =>
    match getReg r with
    | none => .error .reject
    | some n => (scanTerms getReg want (useReg want u r n) ts).map fun x => (x.1, zero :: x.2)
  | u, .expr o (.reg r :: .int i :: vs) :: ts =>
    match getReg r with
    | none => .error .reject
    | some n =>
      (scanTerms getReg want (useMul want u r n i) ts).map fun x => (x.1, .expr o (zero :: .int i :: vs) :: x.2)
  | _, .expr _ (.reg _ :: _) :: _ => .error .internal
  | u, t :: ts => (scanTerms getReg want u ts).map fun x => (x.1, t :: x.2)

/-- x86expr.c:384-409: a product as the whole expression. -/
def scanMul (getReg : Nat → Option Nat) (want : Bool) (u : Usage) (ts : List Item) : Except Stop (Usage × Node) :=
  let n := Verif.Sort.orderTerms ⟨.MUL, ts⟩
  match n.terms with
  | .reg r :: vs =>
    if vs.length > 1 then .error .reject
    else
      match vs with
      | .int i :: ws =>
        match getReg r with
        | none => .error .reject
        | some k =>
          let delta := getInt i
          let v := u.mult k + delta.setWidth 32
          let u' := { u with mult := setMult u.mult k v, uses := u.uses ++ [(r, i)] }
          let u'' := if want then
              if delta.slt 0#64 && v.sle 1#32 then { u' with index := none, ival := 0, imult := false }
              else { u' with index := some k }
            else u'
          .ok (u'', ⟨.MUL, zero :: .int i :: ws⟩)
      | _ => .error .reject
  | _ => .ok (u, n)

/-- x86expr.c:317-418: the switch over the operator. -/
def scanExpr (getReg : Nat → Option Nat) (want : Bool) (u : Usage) (e : Node) : Except Stop (Usage × Node) :=
  match e.op with
  | .ADD =>
    match prescan e.terms with
    | .error s => .error s
    | .ok ts => (scanTerms getReg want u ts).map fun x => (x.1, ⟨.ADD, x.2⟩)
  | .IDENT => (scanTerms getReg want u e.terms).map fun x => (x.1, ⟨.IDENT, x.2⟩)
  | .MUL => scanMul getReg want u e.terms
  | .SEGOFF => if hasRegL e.terms then .error .reject else .ok (u, e)
  | _ => .error .internal

/-- expr.c:1233-1259 `yasm_expr_extract_wrt`: the left side, and the right side if there is one. -/
def extractWrt (e : Node) : Node × Option Node :=
  match e.op, e.terms with
  | .WRT, [a, .expr o us] => (⟨.IDENT, [a]⟩, some ⟨o, us⟩)
  | .WRT, [a, b] => (⟨.IDENT, [a]⟩, some ⟨.IDENT, [b]⟩)
  | _, _ => (e, none)

/-- x86expr.c:277-299: WRT rip: the expression without it, the usage, and whether it was there. -/
def checkWrt (getReg : Nat → Option Nat) (bits : Nat) (e : Node) : Except Stop (Node × Usage × Bool) :=
  match extractWrt e with
  | (e', some ⟨.IDENT, .reg r :: _⟩) =>
    if bits ≠ 64 then .error .reject
    else
      match getReg r with
      | some 16 => .ok (e', { Usage.init with mult := setMult Usage.init.mult 16 1 }, true)
      | _ => .error .reject
  | (_, some _) => .error .reject
  | (e', none) => .ok (e', .init, false)

/-- Run a simplification: a memory fault ends the program. -/
def lift {α : Type} (m : M α) : Run α :=
  ⟨m.log, match m.out with | .ok a => .ok a | .error f => .error (.fault f)⟩
/-- One computation after another. -/
def _root_.Verif.Value.Run.bind {α β : Type} (x : Run α) (f : α → Run β) : Run β :=
  match x.out with
  | .ok a => ⟨x.log ++ (f a).log, (f a).out⟩
  | .error e => ⟨x.log, .error e⟩
/-- A computation that folds nothing. -/
def _root_.Verif.Value.Run.of {α : Type} (x : Except Stop α) : Run α := ⟨[], x⟩

/-- x86expr.c:304-315: distribute, and simplify again if something changed. -/
def distAll (c : Ctx) (nequ : Nat) (regmul : Bool) (e : Node) : Run Node :=
  match distcheck e.item with
  | .error s => .of (.error s)
  | .ok (changed, .expr op ts) =>
    if changed then lift (simplify c nequ regmul false ⟨op, ts⟩) else .of (.ok ⟨op, ts⟩)
  | .ok _ => .of (.error .internal)

/-- x86expr.c:261-427 `x86_expr_checkea_getregusage`: the displacement left over, the register usage, and
    whether to make it relative to RIP. -/
def getRegUsage (c : Ctx) (nequ : Nat) (getReg : Nat → Option Nat) (want : Bool) (bits : Nat) (e : Node) :
    Run (Node × Usage × Bool) :=
  Run.bind (lift (simplify c nequ (!want) false e)) fun e1 =>
  Run.bind (Run.of (checkWrt getReg bits e1)) fun w =>
  Run.bind (distAll c nequ (!want) w.1) fun e2 =>
  Run.bind (Run.of (scanExpr getReg want w.2.1 e2)) fun x =>
  Run.bind (lift (simplify c nequ true false x.2)) fun e3 =>
  Run.of (.ok (e3, x.1, w.2.2))

/-! ### The effective address -/

/-- x86arch.h:186-204 `x86_effaddr` and insn.h:42-77 `yasm_effaddr`: `need_sib` is 0, 1 or 255 (unknown);
    `disp` is the displacement, of which `ipRel` and `size` are kept separately. -/
structure Effaddr where
  disp : Value
  ipRel : Bool
  size : Nat
  needNonzero : Bool
  needDisp : Bool
  nosplit : Bool
  pcRel : Bool
  vsib : Nat
  modrm : BitVec 8
  validModrm : Bool
  needModrm : Bool
  sib : BitVec 8
  validSib : Bool
  needSib : Nat

/-- x86bc.c:109-138 `yasm_x86__set_rex_from_reg`, for general and vector registers: the new REX value and
    the low three bits; the class only matters for byte registers. -/
def setRex (rex : BitVec 8) (n : Nat) (bits : Nat) (pos : Nat) : Except Stop (BitVec 8 × BitVec 8) :=
  let low3 := BitVec.ofNat 8 (n % 8)
  if bits = 64 ∧ n % 16 ≥ 8 then
    if rex = 0xff#8 then .error .reject else .ok (rex ||| 0x40 ||| (1#8 <<< pos), low3)
  else .ok (rex, low3)

/-- x86expr.c:438-555 `x86_checkea_calc_displen`.  `c` and `nequ` are for the value of the displacement. -/
def calcDisplen (c : Ctx) (nequ : Nat) (ea : Effaddr) (wordsize : Nat) (noreg dispreq : Bool) : Run Effaddr :=
  let ea := { ea with validModrm := false }
  if ea.size = 8 then
    .of (.ok (if noreg then { ea with size := wordsize, validModrm := true }
      else { ea with modrm := ea.modrm ||| 0x40, validModrm := true }))
  else if ea.size = 16 ∨ ea.size = 32 then
    if wordsize ≠ ea.size then .of (.error .reject)
    else .of (.ok { ea with modrm := if noreg then ea.modrm else ea.modrm ||| 0x80, validModrm := true })
  else if ea.size ≠ 0 then .of (.error .internal)
  else if noreg then .of (.ok { ea with size := wordsize, validModrm := true })
  else
    let ea := { ea with needNonzero := ea.needNonzero || dispreq }
    if ea.disp.p.rel.isSome then
      .of (.ok { ea with size := wordsize, modrm := ea.modrm ||| 0x80, validModrm := true })
    else
      Run.bind (lift (valueIntnum c nequ false ea.disp none false)) fun num =>
        .of <| .ok <|
          match num with
          | none => { ea with needNonzero := true, modrm := ea.modrm ||| 0x40, validModrm := true }
          | some n =>
            if isZero n && !ea.needNonzero then
              { ea with disp := { ea.disp with abs := none }, needDisp := false, validModrm := true }
            else if inRange n (-128#64) 127#64 then
              { ea with size := 8, modrm := ea.modrm ||| 0x40, validModrm := true }
            else { ea with size := wordsize, modrm := ea.modrm ||| 0x80, validModrm := true }

mutual
/-- x86expr.c:558-581 and expr.c:1150-1177: the address size of the first register that has one. -/
def regSize : Item → Option Nat
  | .reg r =>
    match regClass r with
    | .reg16 => some 16
    | .reg32 => some 32
    | .reg64 | .rip => some 64
    | _ => none
  | .expr _ ts => regSizeL ts
  | _ => none
/-- The loop over the terms. -/
def regSizeL : List Item → Option Nat
  | [] => none
  | t :: ts => match regSize t with | some n => some n | none => regSizeL ts
end

/-- x86expr.c:590-640: the address size, if it was not given. -/
def addrSize (ea : Effaddr) (bits : Nat) : Except Stop Nat :=
  let byRegs : Nat :=
    if bits = 16 ∧ ea.needSib = 1 then 32
    else match ea.disp.abs with
      | none => bits
      | some e => (regSizeL e.terms).getD bits
  if ea.size = 16 then .ok 16
  else if ea.size = 64 then
    if ea.needModrm || decide (ea.needSib ≠ 0) then .error .reject else .ok 64
  else if ea.size = 32 then
    if bits ≠ 64 ∨ (!ea.needModrm && decide (ea.needSib = 0)) = true then .ok 32 else .ok byRegs
  else .ok byRegs

/-- What is known about the registers of the address: base, index and the multipliers. -/
structure Regs where
  base : Option Nat
  index : Option Nat
  mult : Nat → BitVec 32

/-- x86expr.c:727-738: find a base register, and an index register if there is none yet. -/
def findBase (mult : Nat → BitVec 32) : List Nat → Option Nat × Option Nat → Except Stop (Option Nat × Option Nat)
  | [], bi => .ok bi
  | i :: is, (base, index) =>
    if (mult i).slt 0#32 then .error .reject
    else if index ≠ some i ∧ mult i = 1#32 ∧ base = none then findBase mult is (some i, index)
    else if index = none ∧ (0#32).slt (mult i) then findBase mult is (base, some i)
    else findBase mult is (base, index)

/-- x86expr.c:756-781: split the multiplier of the only register between base and index. -/
def splitIndex (nosplit : Bool) (r : Regs) : Regs :=
  match r.base, r.index with
  | none, some i =>
    if r.mult i = 1#32 then (if nosplit then r else ⟨some i, none, r.mult⟩)
    else if r.mult i = 2#32 then (if nosplit then r else ⟨some i, some i, setMult r.mult i 1⟩)
    else if r.mult i = 3#32 ∨ r.mult i = 5#32 ∨ r.mult i = 9#32 then
      ⟨some i, some i, setMult r.mult i (r.mult i - 1)⟩
    else r
  | _, _ => r

/-- The register index as the C code compares it: none is -1. -/
def slot (r : Option Nat) : Int := match r with | none => -1 | some n => n

/-- x86expr.c:745-746: the index, if there is one, is not scaled. -/
def unscaled (r : Regs) : Bool :=
  match r.index with
  | none => true
  | some i => r.mult i == 1#32

/-- x86expr.c:740-755: with a vector index, the vector register must be the index. -/
def vsibRegs (r : Regs) : Except Stop Regs :=
  let r' := if slot r.base ≥ 17 ∧ unscaled r = true then ⟨r.index, r.base, r.mult⟩ else r
  if slot r'.base ≥ 16 ∨ slot r'.index < 17 then .error .reject else .ok r'

/-- x86expr.c:793-799: a scale the SIB byte does not have. -/
def badScale (r : Regs) : Bool :=
  match r.index with
  | none => false
  | some i => r.mult i != 1#32 && r.mult i != 2#32 && r.mult i != 4#32 && r.mult i != 8#32

/-- x86expr.c:801-814: ESP is no index: swap it with the base. -/
def swapSp (r : Regs) : Except Stop Regs :=
  if r.index = some 4 then
    if (1#32).slt (r.mult 4) ∨ r.base = some 4 then .error .reject else .ok ⟨some 4, r.base, r.mult⟩
  else .ok r

/-- x86expr.c:783-821: the other checks: no other registers, a scale the SIB byte has, ESP is no index, RIP
    stands alone. -/
def checkRegs (count : Nat) (r : Regs) : Except Stop Regs :=
  if (List.range count).any (fun i => decide (r.base ≠ some i) && decide (r.index ≠ some i) && r.mult i != 0#32) then
    .error .reject
  else if badScale r = true then .error .reject
  else
    match swapSp r with
    | .error e => .error e
    | .ok r =>
      if r.index = some 16 ∨ (r.base = some 16 ∧ r.index ≠ none) then .error .reject else .ok r

/-- x86expr.c:720-721: the index register found is dropped if its multiplier came out as zero. -/
def usedIndex (mult : Nat → BitVec 32) : Option Nat → Option Nat
  | some i => if mult i = 0#32 then none else some i
  | none => none

/-- x86expr.c:720-821: from the multipliers to base and index. -/
def pickRegs (vsib : Nat) (nosplit : Bool) (mult : Nat → BitVec 32) (index : Option Nat) : Except Stop Regs :=
  let count := if vsib ≠ 0 then 33 else 17
  match findBase mult (List.range count) (none, usedIndex mult index) with
  | .error e => .error e
  | .ok (base, index) =>
    if vsib ≠ 0 then
      match vsibRegs ⟨base, index, mult⟩ with
      | .error e => .error e
      | .ok r => checkRegs count r
    else checkRegs count (splitIndex nosplit ⟨base, index, mult⟩)

/-- x86expr.c:918-929: the scale field of the SIB byte. -/
def scaleBits (m : BitVec 32) : BitVec 8 :=
  if m = 2#32 then 0x40 else if m = 4#32 then 0x80 else if m = 8#32 then 0xC0 else 0

/-- x86expr.c:888-931: the SIB byte. -/
def makeSib (bits : Nat) (rex : BitVec 8) (r : Regs) : Except Stop (BitVec 8 × BitVec 8) :=
  let b : Except Stop (BitVec 8 × BitVec 8) :=
    match r.base with
    | none => .ok (rex, 5)
    | some n => setRex rex n bits 0
  match b with
  | .error e => .error e
  | .ok (rex, sib) =>
    match r.index with
    | none => .ok (rex, sib ||| 0x20)
    | some n =>
      match setRex rex (if n ≥ 17 then n - 17 else n) bits 1 with
      | .error e => .error e
      | .ok (rex, low3) => .ok (rex, sib ||| (low3 <<< 3) ||| scaleBits (r.mult n))

/-- Result of `yasm_x86__expr_checkea`: the effective address, the address size and the REX byte. -/
structure Checked where
  ea : Effaddr
  addrsize : Nat
  rex : BitVec 8

/-- x86expr.c:837-884: the R/M field, and whether a SIB byte is needed. -/
def rmField (ea : Effaddr) (bits : Nat) (rex : BitVec 8) (r : Regs) : Except Stop (Effaddr × BitVec 8) :=
  match r.base, r.index with
  | none, none =>
    if bits = 64 then .ok ({ ea with modrm := ea.modrm ||| 4, needSib := 1 }, rex)
    else .ok ({ ea with modrm := ea.modrm ||| 5, sib := 0, validSib := false, needSib := 0 }, rex)
  | some b, none =>
    match setRex rex b bits 0 with
    | .error e => .error e
    | .ok (rex, low3) =>
      if b = 4 ∨ b = 12 then .ok ({ ea with modrm := ea.modrm ||| low3, needSib := 1 }, rex)
      else .ok ({ ea with modrm := ea.modrm ||| low3, sib := 0, validSib := false, needSib := 0 }, rex)
  | _, some _ => .ok ({ ea with modrm := ea.modrm ||| 4, needSib := 1 }, rex)

/-- x86expr.c:887-933: the SIB byte, if it is needed. -/
def addSib (bits : Nat) (r : Regs) (x : Effaddr × BitVec 8) : Except Stop (Effaddr × BitVec 8) :=
  if x.1.needSib = 1 then
    match makeSib bits x.2 r with
    | .error e => .error e
    | .ok (rex, sib) => .ok ({ x.1 with sib := sib, validSib := true }, rex)
  else .ok x

/-- x86expr.c:828-939: build the ModRM and SIB bytes from base and index. -/
def encodeRegs (c : Ctx) (nequ absSym : Nat) (ea : Effaddr) (bits : Nat) (rex : BitVec 8) (r : Regs) :
    Run (Effaddr × BitVec 8) :=
  let toRip := r.base = none ∧ r.index = none ∧ ea.pcRel = true
  let r := if toRip then { r with base := some 16 } else r
  let ea := if toRip then { ea with disp := setCurposRel absSym ea.disp, ipRel := true } else ea
  let ea := { ea with needModrm := true }
  if r.base = some 16 then
    .of (.ok ({ ea with modrm := ea.modrm ||| 5, sib := 0, validSib := false, needSib := 0, validModrm := true, size := 32 }, rex))
  else
    Run.bind (.of (rmField ea bits rex r)) fun x =>
    Run.bind (.of (addSib bits r x)) fun x =>
    Run.bind (calcDisplen c nequ x.1 32 (decide (r.base = none)) (decide (r.base = some 5 ∨ r.base = some 13))) fun ea =>
    .of (.ok (ea, x.2))

/-- x86expr.c:696-714, 970-988: the registers of the displacement expression, taken out of it. -/
def takeRegs (c : Ctx) (nequ absSym : Nat) (getReg : Nat → Option Nat) (want : Bool) (bits : Nat) (ea : Effaddr) :
    Run (Effaddr × Usage) :=
  match ea.disp.abs with
  | none => .of (.ok (ea, .init))
  | some e =>
    Run.bind (getRegUsage c nequ getReg want bits e) fun x =>
      let ea := { ea with disp := { ea.disp with abs := some x.1 } }
      .of (.ok (if x.2.2 then { ea with disp := setCurposRel absSym ea.disp, ipRel := true } else ea, x.2.1))

/-- x86expr.c:642-939: 32-bit and 64-bit addresses. -/
def check3264 (c : Ctx) (nequ absSym : Nat) (ea : Effaddr) (addrsize bits : Nat) (rex : BitVec 8) : Run Checked :=
  if addrsize = 64 ∧ bits ≠ 64 then .of (.error .reject)
  else
    let ea := if bits ≠ 64 then { ea with pcRel := false } else ea
    Run.bind (takeRegs c nequ absSym (getReg3264 ea.vsib bits addrsize) true bits ea) fun x =>
      Run.bind (.of (pickRegs ea.vsib ea.nosplit x.2.mult x.2.index)) fun r =>
        Run.bind (encodeRegs c nequ absSym x.1 bits rex r) fun e => .of (.ok ⟨e.1, addrsize, e.2⟩)

/-- x86expr.c:941-948: ModRM for the registers of a 16-bit address: BX 1, SI 2, DI 4, BP 8. -/
def modrm16 : Nat → BitVec 8
  | 0 => 0x06 | 1 => 0x07 | 2 => 0x04 | 3 => 0x00 | 4 => 0x05 | 5 => 0x01 | 8 => 0x06 | 10 => 0x02 | 12 => 0x03
  | _ => 0xFF

/-- x86expr.c:997-1005: which of BX, SI, DI and BP are used. -/
def havereg (mult : Nat → BitVec 32) : Nat :=
  (if (0#32).slt (mult 3) then 1 else 0) + (if (0#32).slt (mult 6) then 2 else 0) +
    (if (0#32).slt (mult 7) then 4 else 0) + (if (0#32).slt (mult 5) then 8 else 0)

/-- x86expr.c:940-1019: 16-bit addresses. -/
def check16 (c : Ctx) (nequ absSym : Nat) (ea : Effaddr) (bits : Nat) (address16 : Bool) (rex : BitVec 8) : Run Checked :=
  if bits = 64 ∧ address16 = false then .of (.error .reject)
  else
    let ea := { ea with sib := 0, validSib := false, needSib := 0 }
    Run.bind (takeRegs c nequ absSym getReg16 false bits ea) fun x =>
      let m := x.2.mult
      if m 3 &&& ~~~1#32 ≠ 0#32 ∨ m 6 &&& ~~~1#32 ≠ 0#32 ∨ m 7 &&& ~~~1#32 ≠ 0#32 ∨ m 5 &&& ~~~1#32 ≠ 0#32 then
        .of (.error .reject)
      else
        let h := havereg m
        if modrm16 h &&& 0x38 ≠ 0#8 then .of (.error .reject)
        else
          Run.bind (calcDisplen c nequ { x.1 with modrm := x.1.modrm ||| modrm16 h } 16 (decide (h = 0)) (decide (h = 8)))
            fun ea => .of (.ok ⟨ea, 16, rex⟩)

/-- x86expr.c:1020-1044: a displacement without ModRM. -/
def checkMoffs (ea : Effaddr) (addrsize bits : Nat) (address16 : Bool) (rex : BitVec 8) : Except Stop Checked :=
  if addrsize = 64 then
    if bits ≠ 64 then .error .reject else .ok ⟨{ ea with size := 64 }, addrsize, rex⟩
  else if addrsize = 32 then .ok ⟨{ ea with size := 32 }, addrsize, rex⟩
  else if addrsize = 16 then
    if bits = 64 ∧ address16 = false then .error .reject else .ok ⟨{ ea with size := 16 }, addrsize, rex⟩
  else .ok ⟨ea, addrsize, rex⟩

/-- x86expr.c:583-1046 `yasm_x86__expr_checkea`; `addrsize` is 0 if not given; `absSym` is the symbol of
    yasm_symtab_abs_sym. -/
def checkea (c : Ctx) (nequ absSym : Nat) (ea : Effaddr) (addrsize bits : Nat) (address16 : Bool) (rex : BitVec 8) :
    Run Checked :=
  Run.bind (.of (if addrsize = 0 then addrSize ea bits else .ok addrsize)) fun a =>
    if (a = 32 ∨ a = 64) ∧
        ((ea.needModrm && !ea.validModrm) || (decide (ea.needSib ≠ 0) && !ea.validSib)) = true then
      check3264 c nequ absSym ea a bits rex
    else if a = 16 ∧ ea.needModrm = true ∧ ea.validModrm = false then
      check16 c nequ absSym ea bits address16 rex
    else if ea.needModrm = false ∧ ea.needSib = 0 then
      .of (checkMoffs ea a bits address16 rex)
    else .of (.ok ⟨ea, a, rex⟩)

end Verif.Ea
